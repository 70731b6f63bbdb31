import Verif.Spec.MapSymmetry
import Verif.Props.Neighbours
import Verif.Props.Osm
import Verif.Props.WindowCreation
import Mathlib.Tactic.IntervalCases

/-
C144: neighbour averages, dot products and orientation similarities do not depend on the corner in
which a scan starts.
-/

set_option linter.unusedSectionVars false

namespace Kp
open Spec

/-! ### Exchanging rows and columns, and reversing rows -/

section
variable {K : Type*} [Field K]

theorem neighbourSum_transposed (rows cols : ℕ) (w : Img K) (f : ℕ → ℕ → K) (r c : ℕ) :
    neighbourSum cols rows (rowsAsColumns w) (fun y x => f x y) c r = neighbourSum rows cols w f r c := by
  unfold neighbourSum rowsAsColumns
  rw [Finset.sum_comm]
  refine Finset.sum_congr rfl fun i _ => Finset.sum_congr rfl fun j _ => ?_
  simp only
  refine if_congr ?_ rfl rfl
  tauto

theorem neighbourSum_upsideDown {rows cols : ℕ} {w : Img K} (hw : SameUpsideDown w) (f : ℕ → ℕ → K)
    {r : ℕ} (hr : r < rows) (c : ℕ) :
    neighbourSum rows cols w (fun y x => f (rows - 1 - y) x) r c =
      neighbourSum rows cols w f (rows - 1 - r) c := by
  obtain ⟨hodd, hsym⟩ := hw
  unfold neighbourSum
  rw [← Finset.sum_range_reflect]
  refine Finset.sum_congr rfl fun i hi => Finset.sum_congr rfl fun j hj => ?_
  rw [Finset.mem_range] at hi hj
  simp only
  have e : ((rows - 1 - r : ℕ) : ℤ) + i - (w.rows / 2 : ℕ) =
      rows - 1 - ((r : ℤ) + (w.rows - 1 - i : ℕ) - (w.rows / 2 : ℕ)) := by omega
  rw [e]
  by_cases h : 0 ≤ (r : ℤ) + (w.rows - 1 - i : ℕ) - (w.rows / 2 : ℕ) ∧
      (r : ℤ) + (w.rows - 1 - i : ℕ) - (w.rows / 2 : ℕ) < rows ∧
      0 ≤ (c : ℤ) + j - (w.cols / 2 : ℕ) ∧ (c : ℤ) + j - (w.cols / 2 : ℕ) < cols
  · rw [if_pos h, if_pos (by omega), hsym i j hi hj]
    congr 2
    omega
  · rw [if_neg h, if_neg (by omega)]

variable [LinearOrder K] [IsStrictOrderedRing K] [FloorRing K]

/-- What averaging with a window does, also for the window of one element. -/
theorem average_value (map : Img (ℕ → K)) (m : ℕ) {d : DType} (w : Img K) {rowChunks colChunks : List ℕ}
    {omin omax : ℤ} (hd : dtypeRange d = some (omin, omax))
    (hr : rowChunks.sum = map.rows) (hc : colChunks.sum = map.cols) :
    ∃ out, averageNeighbourPatterns map m d [w.rows, w.cols] w.val rowChunks colChunks = .ok out ∧
      out.rows = map.rows ∧ out.cols = map.cols ∧
      ∀ r c, r < map.rows → c < map.cols → out.val r c =
        if w.rows = 1 ∧ w.cols = 1 then some ((List.range m).map (map.val r c)) else
          let s := truncInt (neighbourSum map.rows map.cols w (fun _ _ => 1) r c)
          let p := (List.range m).map (fun px =>
            neighbourSum map.rows map.cols w (fun y x => map.val y x px) r c / (s : K))
          if s = 0 then none
          else some ((rescaleWithMinMax p (listMin p) (listMax p) omin omax).map (castTo d)) := by
  by_cases h1 : w.rows = 1 ∧ w.cols = 1
  · refine ⟨_, by unfold averageNeighbourPatterns; rw [if_pos (by rw [h1.1, h1.2]; simp)], rfl, rfl,
      fun r c _ _ => by rw [if_pos h1]⟩
  · obtain ⟨out, h, a, b, v⟩ := averageNeighbour_value (coeff := w.val) (m := m) hd (Or.inl rfl) h1 hr hc
    exact ⟨out, h, a, b, fun r c hr hc => by rw [if_neg h1]; exact v r c hr hc⟩

section
variable {map : Img (ℕ → K)} {m : ℕ} {d : DType} {w : Img K}
  {rowChunks colChunks rowChunks' colChunks' : List ℕ} {omin omax : ℤ}

/-- C144: averaging with rows and columns of map and window exchanged gives the same patterns, in
exchanged places, whatever the chunks. -/
theorem C144_average_transposed (hd : dtypeRange d = some (omin, omax))
    (hr : rowChunks.sum = map.rows) (hc : colChunks.sum = map.cols)
    (hr' : rowChunks'.sum = map.cols) (hc' : colChunks'.sum = map.rows) :
    ∃ out out', averageNeighbourPatterns map m d [w.rows, w.cols] w.val rowChunks colChunks = .ok out ∧
      averageNeighbourPatterns (rowsAsColumns map) m d [w.cols, w.rows] (rowsAsColumns w).val rowChunks'
        colChunks' = .ok out' ∧
      ∀ r c, r < map.rows → c < map.cols → out'.val c r = out.val r c := by
  obtain ⟨out, h, -, -, v⟩ := average_value map m w hd hr hc
  obtain ⟨out', h', -, -, v'⟩ := average_value (rowsAsColumns map) m (rowsAsColumns w)
    (rowChunks := rowChunks') (colChunks := colChunks') hd hr' hc'
  refine ⟨out, out', h, h', fun r c hr hc => ?_⟩
  rw [v r c hr hc, v' c r hc hr]
  have e := fun f : ℕ → ℕ → K => neighbourSum_transposed map.rows map.cols w f r c
  refine if_congr (and_comm) rfl ?_
  have e1 := e fun _ _ => 1
  have e2 := fun px => e fun y x => map.val y x px
  simp only [rowsAsColumns] at e1 e2 ⊢
  simp only [e1, e2]

/-- C144: averaging a map scanned from the bottom with a window which is the same upside down gives the
same patterns, in the same places of the sample. -/
theorem C144_average_upside_down (hd : dtypeRange d = some (omin, omax)) (hw : SameUpsideDown w)
    (hr : rowChunks.sum = map.rows) (hc : colChunks.sum = map.cols)
    (hr' : rowChunks'.sum = map.rows) (hc' : colChunks'.sum = map.cols) :
    ∃ out out', averageNeighbourPatterns map m d [w.rows, w.cols] w.val rowChunks colChunks = .ok out ∧
      averageNeighbourPatterns (upsideDown map) m d [w.rows, w.cols] w.val rowChunks' colChunks' =
        .ok out' ∧
      ∀ r c, r < map.rows → c < map.cols → out'.val r c = out.val (map.rows - 1 - r) c := by
  obtain ⟨out, h, -, -, v⟩ := average_value map m w hd hr hc
  obtain ⟨out', h', -, -, v'⟩ := average_value (upsideDown map) m w (rowChunks := rowChunks')
    (colChunks := colChunks') hd hr' hc'
  refine ⟨out, out', h, h', fun r c hr hc => ?_⟩
  rw [v (map.rows - 1 - r) c (by omega) hc, v' r c hr hc]
  have e := fun f : ℕ → ℕ → K => neighbourSum_upsideDown (cols := map.cols) hw f hr c
  have e1 := e fun _ _ => 1
  have e2 := fun px => e fun y x => map.val y x px
  simp only [upsideDown] at e1 e2 ⊢
  simp only [e1, e2]

/-- C144: the same for a map scanned from the right. -/
theorem C144_average_left_right (hd : dtypeRange d = some (omin, omax)) (hw : SameLeftRight w)
    (hr : rowChunks.sum = map.rows) (hc : colChunks.sum = map.cols)
    (hr' : rowChunks'.sum = map.rows) (hc' : colChunks'.sum = map.cols) :
    ∃ out out', averageNeighbourPatterns map m d [w.rows, w.cols] w.val rowChunks colChunks = .ok out ∧
      averageNeighbourPatterns (leftRight map) m d [w.rows, w.cols] w.val rowChunks' colChunks' =
        .ok out' ∧
      ∀ r c, r < map.rows → c < map.cols → out'.val r c = out.val r (map.cols - 1 - c) := by
  obtain ⟨o1, o2, h1, h2, e12⟩ := C144_average_transposed (map := map) (m := m) (w := w)
    (rowChunks' := colChunks) (colChunks' := rowChunks) hd hr hc hc hr
  obtain ⟨o2', o3, h2', h3, e23⟩ := C144_average_upside_down (map := rowsAsColumns map) (m := m)
    (w := rowsAsColumns w) (rowChunks := colChunks) (colChunks := rowChunks) (rowChunks' := colChunks')
    (colChunks' := rowChunks') hd ⟨hw.1, fun i j hi hj => hw.2 j i hj hi⟩ hc hr hc' hr'
  obtain rfl := Except.ok.inj (h2.symm.trans h2')
  obtain ⟨o3', o4, h3', h4, e34⟩ := C144_average_transposed (map := upsideDown (rowsAsColumns map))
    (m := m) (w := rowsAsColumns w) (rowChunks := colChunks') (colChunks := rowChunks')
    (rowChunks' := rowChunks') (colChunks' := colChunks') hd hc' hr' hr' hc'
  obtain rfl := Except.ok.inj (h3.symm.trans h3')
  refine ⟨o1, o4, h1, h4, fun r c hr hc => ?_⟩
  rw [e34 c r hc hr, e23 c r hc hr]
  exact e12 r _ hr (by simp only [rowsAsColumns]; omega)

end
end

/-! ### Dot products -/

section
variable {V K : Type*}

theorem neighbourDot_transposed (dp : V → V → K) (map : Img V) (w : Img Bool) (r c i j : ℕ) :
    neighbourDot dp (rowsAsColumns map) (rowsAsColumns w) c r j i = neighbourDot dp map w r c i j := by
  unfold neighbourDot rowsAsColumns
  simp only
  refine if_congr ?_ rfl rfl
  tauto

theorem neighbourDot_upsideDown (dp : V → V → K) {map : Img V} {w : Img Bool} (hw : SameUpsideDown w)
    {r i j : ℕ} (hr : r < map.rows) (hi : i < w.rows) (hj : j < w.cols) (c : ℕ) :
    neighbourDot dp (upsideDown map) w r c (w.rows - 1 - i) j =
      neighbourDot dp map w (map.rows - 1 - r) c i j := by
  obtain ⟨hodd, hsym⟩ := hw
  unfold neighbourDot upsideDown
  simp only
  have e : ((map.rows - 1 - r : ℕ) : ℤ) + i - (w.rows / 2 : ℕ) =
      map.rows - 1 - ((r : ℤ) + (w.rows - 1 - i : ℕ) - (w.rows / 2 : ℕ)) := by omega
  rw [e, hsym i j hi hj]
  by_cases h : w.val i j = true ∧ 0 ≤ (r : ℤ) + (w.rows - 1 - i : ℕ) - (w.rows / 2 : ℕ) ∧
      (r : ℤ) + (w.rows - 1 - i : ℕ) - (w.rows / 2 : ℕ) < map.rows ∧
      0 ≤ (c : ℤ) + j - (w.cols / 2 : ℕ) ∧ (c : ℤ) + j - (w.cols / 2 : ℕ) < map.cols
  · rw [if_pos h, if_pos ⟨h.1, by omega, by omega, by omega, by omega⟩]
    congr 3
    omega
  · rw [if_neg h, if_neg]
    rintro ⟨h1, h2, h3, h4, h5⟩
    exact h ⟨h1, by omega, by omega, by omega, by omega⟩

theorem mem_flatPositions {rows cols : ℕ} {p : ℕ × ℕ} :
    p ∈ flatPositions rows cols ↔ p.1 < rows ∧ p.2 < cols := by
  unfold flatPositions
  rcases p with ⟨i, j⟩
  simp [List.mem_flatMap]

theorem flatPositions_nodup (rows cols : ℕ) : (flatPositions rows cols).Nodup := by
  unfold flatPositions
  rw [List.nodup_flatMap]
  refine ⟨fun i _ => List.nodup_range.map fun a b h => by simpa using h, ?_⟩
  refine List.Pairwise.imp_of_mem ?_ (List.nodup_range (n := rows))
  intro a b _ _ hab
  simp only [Function.onFun]
  rw [List.disjoint_left]
  rintro p hp hq
  simp only [List.mem_map] at hp hq
  obtain ⟨_, _, rfl⟩ := hp
  obtain ⟨_, _, h⟩ := hq
  exact hab (congrArg Prod.fst h).symm

/-- Visiting the elements of a window in another order. -/
theorem flatPositions_filterMap {α : Type*} {rows cols rows' cols' : ℕ} {f g : ℕ × ℕ → Option α}
    (s t : ℕ × ℕ → ℕ × ℕ) (hs : ∀ p ∈ flatPositions rows cols, s p ∈ flatPositions rows' cols' ∧ t (s p) = p)
    (ht : ∀ p ∈ flatPositions rows' cols', t p ∈ flatPositions rows cols ∧ s (t p) = p)
    (hfg : ∀ p ∈ flatPositions rows cols, g (s p) = f p) :
    ((flatPositions rows' cols').filterMap g).Perm ((flatPositions rows cols).filterMap f) := by
  have hp : (flatPositions rows' cols').Perm ((flatPositions rows cols).map s) := by
    rw [List.perm_ext_iff_of_nodup (flatPositions_nodup _ _)]
    · intro p
      rw [List.mem_map]
      exact ⟨fun h => ⟨t p, ht p h⟩, fun ⟨q, hq, e⟩ => e ▸ (hs q hq).1⟩
    · refine List.Nodup.map_on ?_ (flatPositions_nodup _ _)
      intro a ha b hb hab
      rw [← (hs a ha).2, ← (hs b hb).2, hab]
  refine (hp.filterMap g).trans ?_
  rw [List.filterMap_map]
  refine List.Perm.of_eq (List.filterMap_congr fun p hp => ?_)
  exact hfg p hp

variable [Field K]

theorem averageDot_perm {dp dp' : V → V → K} {map map' : Img V} {w w' : Img Bool} {r c r' c' : ℕ}
    (h : ((flatPositions w'.rows w'.cols).filterMap (fun ij =>
        if ij = (w'.rows / 2, w'.cols / 2) then none else neighbourDot dp' map' w' r' c' ij.1 ij.2)).Perm
      ((flatPositions w.rows w.cols).filterMap (fun ij =>
        if ij = (w.rows / 2, w.cols / 2) then none else neighbourDot dp map w r c ij.1 ij.2))) :
    averageDot dp' map' w' r' c' = averageDot dp map w r c := by
  unfold averageDot
  simp only
  rw [h.sum_eq, h.length_eq]
  refine if_congr ?_ rfl rfl
  rw [← List.length_eq_zero_iff, ← List.length_eq_zero_iff, h.length_eq]

theorem averageDot_transposed (dp : V → V → K) (map : Img V) (w : Img Bool) (r c : ℕ) :
    averageDot dp (rowsAsColumns map) (rowsAsColumns w) c r = averageDot dp map w r c := by
  apply averageDot_perm
  refine flatPositions_filterMap Prod.swap Prod.swap ?_ ?_ ?_
  · rintro ⟨i, j⟩ h
    rw [mem_flatPositions] at h
    exact ⟨mem_flatPositions.2 ⟨h.2, h.1⟩, rfl⟩
  · rintro ⟨i, j⟩ h
    rw [mem_flatPositions] at h
    exact ⟨mem_flatPositions.2 ⟨h.2, h.1⟩, rfl⟩
  · rintro ⟨i, j⟩ h
    simp only [Prod.swap_prod_mk, neighbourDot_transposed]
    refine if_congr ?_ rfl rfl
    simp only [rowsAsColumns, Prod.mk.injEq]
    exact and_comm

theorem averageDot_upsideDown (dp : V → V → K) {map : Img V} {w : Img Bool} (hw : SameUpsideDown w)
    {r : ℕ} (hr : r < map.rows) (c : ℕ) :
    averageDot dp (upsideDown map) w r c = averageDot dp map w (map.rows - 1 - r) c := by
  apply averageDot_perm
  have hodd := hw.1
  refine flatPositions_filterMap (fun p => (w.rows - 1 - p.1, p.2)) (fun p => (w.rows - 1 - p.1, p.2))
    ?_ ?_ ?_
  · rintro ⟨i, j⟩ h
    rw [mem_flatPositions] at h
    simp only at h
    refine ⟨mem_flatPositions.2 ⟨by simp only; omega, h.2⟩, ?_⟩
    simp only [Prod.mk.injEq, and_true]
    omega
  · rintro ⟨i, j⟩ h
    rw [mem_flatPositions] at h
    simp only at h
    refine ⟨mem_flatPositions.2 ⟨by simp only; omega, h.2⟩, ?_⟩
    simp only [Prod.mk.injEq, and_true]
    omega
  · rintro ⟨i, j⟩ h
    rw [mem_flatPositions] at h
    simp only at h
    simp only [neighbourDot_upsideDown dp hw hr h.1 h.2]
    refine if_congr ?_ rfl rfl
    simp only [Prod.mk.injEq]
    omega

section
variable {dp : V → V → K} {map : Img V} {w : Img Bool}
  {rowChunks colChunks rowChunks' colChunks' : List ℕ}

/-- C144: dot product matrices and their averages with rows and columns of map and window exchanged. -/
theorem C144_dots_transposed (hr0 : w.rows % 2 = 1) (hc0 : w.cols % 2 = 1)
    (ho : w.val (w.rows / 2) (w.cols / 2) = true)
    (hr : rowChunks.sum = map.rows) (hc : colChunks.sum = map.cols)
    (hr' : rowChunks'.sum = map.cols) (hc' : colChunks'.sum = map.rows) :
    ∃ mats avg mats' avg', dpMatrices dp map w rowChunks colChunks = .ok mats ∧
      adpMap dp map w rowChunks colChunks = .ok avg ∧
      dpMatrices dp (rowsAsColumns map) (rowsAsColumns w) rowChunks' colChunks' = .ok mats' ∧
      adpMap dp (rowsAsColumns map) (rowsAsColumns w) rowChunks' colChunks' = .ok avg' ∧
      ∀ r c, r < map.rows → c < map.cols → avg'.val c r = avg.val r c ∧
        ∀ i j, i < w.rows → j < w.cols →
          mats'.val c r (j * w.rows + i) = mats.val r c (i * w.cols + j) := by
  obtain ⟨mats, avg, h1, h2, h⟩ := C19_dot_products_partial dp (map := map) (w := w) (by omega) (by omega)
    ho hr hc (Or.inl hr0) (Or.inl hc0)
  obtain ⟨mats', avg', h1', h2', h'⟩ := C19_dot_products_partial dp (map := rowsAsColumns map)
    (w := rowsAsColumns w) (rowChunks := rowChunks') (colChunks := colChunks')
    (by simp only [rowsAsColumns]; omega) (by simp only [rowsAsColumns]; omega) ho hr' hc'
    (Or.inl hc0) (Or.inl hr0)
  refine ⟨mats, avg, mats', avg', h1, h2, h1', h2', fun r c hr hc => ⟨?_, fun i j hi hj => ?_⟩⟩
  · rw [(h r c hr hc).2, (h' c r hc hr).2, averageDot_transposed]
  · rw [(h r c hr hc).1 i j hi hj]
    have := (h' c r hc hr).1 j i hj hi
    rw [neighbourDot_transposed] at this
    exact this

/-- C144: dot product matrices and their averages of a map scanned from the bottom. -/
theorem C144_dots_upside_down (hw : SameUpsideDown w) (hc0 : w.cols % 2 = 1)
    (ho : w.val (w.rows / 2) (w.cols / 2) = true)
    (hr : rowChunks.sum = map.rows) (hc : colChunks.sum = map.cols)
    (hr' : rowChunks'.sum = map.rows) (hc' : colChunks'.sum = map.cols) :
    ∃ mats avg mats' avg', dpMatrices dp map w rowChunks colChunks = .ok mats ∧
      adpMap dp map w rowChunks colChunks = .ok avg ∧
      dpMatrices dp (upsideDown map) w rowChunks' colChunks' = .ok mats' ∧
      adpMap dp (upsideDown map) w rowChunks' colChunks' = .ok avg' ∧
      ∀ r c, r < map.rows → c < map.cols → avg'.val r c = avg.val (map.rows - 1 - r) c ∧
        ∀ i j, i < w.rows → j < w.cols → mats'.val r c ((w.rows - 1 - i) * w.cols + j) =
          mats.val (map.rows - 1 - r) c (i * w.cols + j) := by
  have hr0 := hw.1
  obtain ⟨mats, avg, h1, h2, h⟩ := C19_dot_products_partial dp (map := map) (w := w) (by omega) (by omega)
    ho hr hc (Or.inl hr0) (Or.inl hc0)
  obtain ⟨mats', avg', h1', h2', h'⟩ := C19_dot_products_partial dp (map := upsideDown map)
    (w := w) (rowChunks := rowChunks') (colChunks := colChunks') (by omega) (by omega) ho hr' hc'
    (Or.inl hr0) (Or.inl hc0)
  refine ⟨mats, avg, mats', avg', h1, h2, h1', h2', fun r c hr hc => ⟨?_, fun i j hi hj => ?_⟩⟩
  · rw [(h _ c (by omega) hc).2, (h' r c hr hc).2, averageDot_upsideDown dp hw hr]
  · rw [(h _ c (by omega) hc).1 i j hi hj, (h' r c hr hc).1 _ j (by omega) hj,
      neighbourDot_upsideDown dp hw hr hi hj]

/-- C144: dot product matrices and their averages of a map scanned from the right. -/
theorem C144_dots_left_right (hw : SameLeftRight w) (hr0 : w.rows % 2 = 1)
    (ho : w.val (w.rows / 2) (w.cols / 2) = true)
    (hr : rowChunks.sum = map.rows) (hc : colChunks.sum = map.cols)
    (hr' : rowChunks'.sum = map.rows) (hc' : colChunks'.sum = map.cols) :
    ∃ mats avg mats' avg', dpMatrices dp map w rowChunks colChunks = .ok mats ∧
      adpMap dp map w rowChunks colChunks = .ok avg ∧
      dpMatrices dp (leftRight map) w rowChunks' colChunks' = .ok mats' ∧
      adpMap dp (leftRight map) w rowChunks' colChunks' = .ok avg' ∧
      ∀ r c, r < map.rows → c < map.cols → avg'.val r c = avg.val r (map.cols - 1 - c) ∧
        ∀ i j, i < w.rows → j < w.cols → mats'.val r c (i * w.cols + (w.cols - 1 - j)) =
          mats.val r (map.cols - 1 - c) (i * w.cols + j) := by
  obtain ⟨m1, a1, m2, a2, h1, g1, h2, g2, e12⟩ := C144_dots_transposed (dp := dp) (map := map) (w := w)
    (rowChunks' := colChunks) (colChunks' := rowChunks) hr0 hw.1 ho hr hc hc hr
  obtain ⟨m2', a2', m3, a3, h2', g2', h3, g3, e23⟩ := C144_dots_upside_down (dp := dp)
    (map := rowsAsColumns map) (w := rowsAsColumns w) (rowChunks := colChunks) (colChunks := rowChunks)
    (rowChunks' := colChunks') (colChunks' := rowChunks') ⟨hw.1, fun i j hi hj => hw.2 j i hj hi⟩ hr0 ho
    hc hr hc' hr'
  obtain rfl := Except.ok.inj (h2.symm.trans h2')
  obtain rfl := Except.ok.inj (g2.symm.trans g2')
  obtain ⟨m3', a3', m4, a4, h3', g3', h4, g4, e34⟩ := C144_dots_transposed (dp := dp)
    (map := upsideDown (rowsAsColumns map)) (w := rowsAsColumns w) (rowChunks := colChunks')
    (colChunks := rowChunks') (rowChunks' := rowChunks') (colChunks' := colChunks') hw.1 hr0 ho hc' hr' hr'
    hc'
  obtain rfl := Except.ok.inj (h3.symm.trans h3')
  obtain rfl := Except.ok.inj (g3.symm.trans g3')
  refine ⟨m1, a1, m4, a4, h1, g1, h4, g4, fun r c hr hc => ?_⟩
  obtain ⟨p1, q1⟩ := e34 c r hc hr
  obtain ⟨p2, q2⟩ := e23 c r hc hr
  obtain ⟨p3, q3⟩ := e12 r (map.cols - 1 - c) hr (by omega)
  refine ⟨by rw [p1, p2]; exact p3, fun i j hi hj => ?_⟩
  have t1 := q1 (w.cols - 1 - j) i (by simp only [rowsAsColumns]; omega) hi
  have t2 := q2 j i hj hi
  have t3 := q3 i j hi hj
  exact t1.trans (t2.trans t3)

/-- C144: two neighbours have the same dot product, whichever of both the window is placed on. -/
theorem C144_dots_mutual (hcomm : ∀ u v, dp u v = dp v u) (hw : SameAfterHalfTurn w)
    (ho : w.val (w.rows / 2) (w.cols / 2) = true)
    (hr : rowChunks.sum = map.rows) (hc : colChunks.sum = map.cols) :
    ∃ mats, dpMatrices dp map w rowChunks colChunks = .ok mats ∧
      ∀ r c r' c' i j, r < map.rows → c < map.cols → r' < map.rows → c' < map.cols →
        i < w.rows → j < w.cols → r + i = r' + w.rows / 2 → c + j = c' + w.cols / 2 →
        mats.val r' c' ((w.rows - 1 - i) * w.cols + (w.cols - 1 - j)) =
          mats.val r c (i * w.cols + j) := by
  obtain ⟨hr0, hc0, hsym⟩ := hw
  obtain ⟨mats, avg, h1, -, h⟩ := C19_dot_products_partial dp (map := map) (w := w) (by omega) (by omega)
    ho hr hc (Or.inl hr0) (Or.inl hc0)
  refine ⟨mats, h1, fun r c r' c' i j hr hc hr' hc' hi hj e1 e2 => ?_⟩
  rw [(h r c hr hc).1 i j hi hj, (h r' c' hr' hc').1 _ _ (by omega) (by omega)]
  unfold neighbourDot
  simp only
  rw [hsym i j hi hj]
  have p1 : (r : ℤ) + i - (w.rows / 2 : ℕ) = r' := by omega
  have p2 : (c : ℤ) + j - (w.cols / 2 : ℕ) = c' := by omega
  have p3 : (r' : ℤ) + (w.rows - 1 - i : ℕ) - (w.rows / 2 : ℕ) = r := by omega
  have p4 : (c' : ℤ) + (w.cols - 1 - j : ℕ) - (w.cols / 2 : ℕ) = c := by omega
  rw [p1, p2, p3, p4]
  refine if_congr ?_ ?_ rfl
  · refine and_congr_right fun _ => ?_
    constructor <;> intro _ <;> omega
  · simp only [Int.toNat_natCast]
    rw [hcomm]

end
end

/-! ### Windows -/

theorem elemDist_upsideDown {n m i j : ℕ} (hn : n % 2 = 1) (hi : i < n) :
    elemDist n m (n - 1 - i) j = elemDist n m i j := by
  unfold elemDist
  congr 2
  have h : ((n - 1 - i : ℕ) : ℝ) - (n / 2 : ℕ) = -((i : ℝ) - (n / 2 : ℕ)) := by
    have : (n - 1 - i) + i = 2 * (n / 2) := by omega
    have : ((n - 1 - i : ℕ) : ℝ) + i = 2 * (n / 2 : ℕ) := by exact_mod_cast this
    linarith
  rw [h, neg_sq]

theorem elemDist_leftRight {n m i j : ℕ} (hm : m % 2 = 1) (hj : j < m) :
    elemDist n m i (m - 1 - j) = elemDist n m i j := by
  unfold elemDist
  congr 2
  have h : ((m - 1 - j : ℕ) : ℝ) - (m / 2 : ℕ) = -((j : ℝ) - (m / 2 : ℕ)) := by
    have : (m - 1 - j) + j = 2 * (m / 2) := by omega
    have : ((m - 1 - j : ℕ) : ℝ) + j = 2 * (m / 2 : ℕ) := by exact_mod_cast this
    linarith
  rw [h, neg_sq]

/-- The coefficients of a window with two axes. -/
def Spec.windowImage (w : WindowObj) : Img ℝ :=
  { rows := w.data.shape.getD 0 0, cols := w.data.shape.getD 1 0, val := fun i j => w.data.val [i, j] }

/-- C144: circular windows, and so the default window, with odd numbers of rows and columns are the
same from all sides. -/
theorem C144_circular {g : String → List ℝ → ℕ → Bool → Except Err (List ℝ)} (hg : SciPyWindows g)
    (n m : ℕ) (h : n % 2 = 1) (h' : m % 2 = 1) (hrow : n ≠ 1 ∨ m = 1) (arg : WindowArg)
    (harg : arg = .missing ∨ arg = .name "circular") :
    ∃ w, newWindow g arg (.seq [.int n, .int m]) {} = .ok w ∧ SameUpsideDown (windowImage w) ∧
      SameLeftRight (windowImage w) ∧ SameAfterHalfTurn (windowImage w) ∧
      (windowImage w).val (n / 2) (m / 2) = 1 := by
  obtain ⟨w, hw, -, -, hs, hv⟩ := C95_circular_partial g hg n m (by omega) (by omega)
    (by rcases hrow with h | h <;> [left; right] <;> exact_mod_cast h) arg harg
  simp only [Int.toNat_natCast] at hs hv
  have e0 : (windowImage w).rows = n := by simp [windowImage, hs]
  have e1 : (windowImage w).cols = m := by simp [windowImage, hs]
  have hval : ∀ i j, i < n → j < m → (windowImage w).val i j =
      if elemDist n m i j ≤ max (n / 2 : ℕ) (m / 2 : ℕ) then 1 else 0 :=
    fun i j hi hj => hv i j (by omega) (by omega)
  refine ⟨w, hw, ⟨by rw [e0]; exact h, ?_⟩, ⟨by rw [e1]; exact h', ?_⟩,
    ⟨by rw [e0]; exact h, by rw [e1]; exact h', ?_⟩, ?_⟩
  · rw [e0, e1]
    intro i j hi hj
    rw [hval _ j (by omega) hj, hval i j hi hj, elemDist_upsideDown h hi]
  · rw [e0, e1]
    intro i j hi hj
    rw [hval i _ hi (by omega), hval i j hi hj, elemDist_leftRight h' hj]
  · rw [e0, e1]
    intro i j hi hj
    rw [hval _ _ (by omega) (by omega), hval i j hi hj, elemDist_upsideDown h hi,
      elemDist_leftRight h' hj]
  · rw [hval _ _ (by omega) (by omega), if_pos]
    unfold elemDist
    simp

/-- C144: so are windows which SciPy makes symmetric, such as Gaussian and rectangular ones. -/
theorem C144_scipy_windows {g : String → List ℝ → ℕ → Bool → Except Err (List ℝ)} (hg : SciPyWindows g)
    (name : String) (hn : name ≠ "modified_hann" ∧ name ≠ "lowpass" ∧ name ≠ "highpass" ∧
      name ≠ "circular") (n m : ℕ) (h : n % 2 = 1) (h' : m % 2 = 1) (fb : Option Bool)
    (args : List (String × ℝ)) (l k : List ℝ)
    (hl : g name (args.map (·.2)) n (fb.getD false) = .ok l)
    (hk : g name (args.map (·.2)) m (fb.getD false) = .ok k) (sl : l.reverse = l) (sk : k.reverse = k) :
    ∃ w, newWindow g (.name name) (.seq [.int n, .int m]) ⟨none, fb, args⟩ = .ok w ∧
      SameUpsideDown (windowImage w) ∧ SameLeftRight (windowImage w) ∧
      SameAfterHalfTurn (windowImage w) := by
  obtain ⟨w, hw, -, -, hs, hv⟩ := C95_two_axes g hg name hn n m (by omega) (by omega) fb args l k hl hk
  simp only [Int.toNat_natCast] at hs
  have e0 : (windowImage w).rows = n := by simp [windowImage, hs]
  have e1 : (windowImage w).cols = m := by simp [windowImage, hs]
  have ll := hg.length _ _ _ _ _ hl
  have lk := hg.length _ _ _ _ _ hk
  have hval : ∀ i j (hi : i < n) (hj : j < m), (windowImage w).val i j =
      l[i]'(by omega) * k[j]'(by omega) :=
    fun i j hi hj => hv i j _ _ (List.getElem?_eq_getElem (by omega)) (List.getElem?_eq_getElem (by omega))
  have rev : ∀ (l : List ℝ) (n i : ℕ) (_ : l.reverse = l) (hl : l.length = n) (hi : i < n),
      l[n - 1 - i]'(by omega) = l[i]'(by omega) := by
    intro l n i hrev hl hi
    have h1 : l[i]'(by omega) = l.reverse[i]'(by rw [List.length_reverse]; omega) := by
      congr 1
      exact hrev.symm
    rw [h1, List.getElem_reverse]
    congr 1
    omega
  refine ⟨w, hw, ⟨by rw [e0]; exact h, ?_⟩, ⟨by rw [e1]; exact h', ?_⟩,
    ⟨by rw [e0]; exact h, by rw [e1]; exact h', ?_⟩⟩
  · rw [e0, e1]
    intro i j hi hj
    rw [hval _ j (by omega) hj, hval i j hi hj, rev l n i sl ll hi]
  · rw [e0, e1]
    intro i j hi hj
    rw [hval i _ hi (by omega), hval i j hi hj, rev k m j sk lk hj]
  · rw [e0, e1]
    intro i j hi hj
    rw [hval _ _ (by omega) (by omega), hval i j hi hj, rev l n i sl ll hi, rev k m j sk lk hj]

/-! ### Orientation similarity -/

theorem footNeighbours_mem {rows cols : ℕ} {foot : Img Bool} {r c : ℕ} {p : ℕ × ℕ}
    (h : p ∈ footNeighbours rows cols foot r c) : p.1 < rows ∧ p.2 < cols := by
  unfold footNeighbours at h
  rw [List.mem_filterMap] at h
  obtain ⟨ij, -, h⟩ := h
  simp only at h
  split_ifs at h with hc
  obtain rfl := Option.some.inj h
  simp only
  omega

theorem footNeighbours_transposed (rows cols : ℕ) (foot : Img Bool) (r c : ℕ) :
    (footNeighbours cols rows (rowsAsColumns foot) c r).Perm
      ((footNeighbours rows cols foot r c).map Prod.swap) := by
  unfold footNeighbours
  rw [List.map_filterMap]
  refine flatPositions_filterMap Prod.swap Prod.swap ?_ ?_ ?_
  · rintro ⟨i, j⟩ h
    rw [mem_flatPositions] at h
    exact ⟨mem_flatPositions.2 ⟨h.2, h.1⟩, rfl⟩
  · rintro ⟨i, j⟩ h
    rw [mem_flatPositions] at h
    exact ⟨mem_flatPositions.2 ⟨h.2, h.1⟩, rfl⟩
  · rintro ⟨i, j⟩ -
    simp only [rowsAsColumns, Prod.swap_prod_mk]
    by_cases h : foot.val i j = true ∧ (i, j) ≠ (foot.rows / 2, foot.cols / 2) ∧
        0 ≤ (r : ℤ) + i - (foot.rows / 2 : ℕ) ∧ (r : ℤ) + i - (foot.rows / 2 : ℕ) < rows ∧
        0 ≤ (c : ℤ) + j - (foot.cols / 2 : ℕ) ∧ (c : ℤ) + j - (foot.cols / 2 : ℕ) < cols
    · rw [if_pos h]
      refine (if_pos ?_).trans rfl
      refine ⟨h.1, fun e => h.2.1 ?_, h.2.2.2.2.1, h.2.2.2.2.2, h.2.2.1, h.2.2.2.1⟩
      simp only [Prod.mk.injEq] at e ⊢
      exact ⟨e.2, e.1⟩
    · rw [if_neg h]
      refine (if_neg ?_).trans rfl
      · rintro ⟨h1, h2, h3, h4, h5, h6⟩
        refine h ⟨h1, fun e => h2 ?_, h5, h6, h3, h4⟩
        simp only [Prod.mk.injEq] at e ⊢
        exact ⟨e.2, e.1⟩

theorem footNeighbours_upsideDown {rows cols : ℕ} {foot : Img Bool} (hf : SameUpsideDown foot) {r : ℕ}
    (hr : r < rows) (c : ℕ) :
    (footNeighbours rows cols foot (rows - 1 - r) c).Perm
      ((footNeighbours rows cols foot r c).map fun p => (rows - 1 - p.1, p.2)) := by
  obtain ⟨hodd, hsym⟩ := hf
  unfold footNeighbours
  rw [List.map_filterMap]
  refine flatPositions_filterMap (fun p => (foot.rows - 1 - p.1, p.2))
    (fun p => (foot.rows - 1 - p.1, p.2)) ?_ ?_ ?_
  · rintro ⟨i, j⟩ h
    rw [mem_flatPositions] at h
    simp only at h
    refine ⟨mem_flatPositions.2 ⟨by simp only; omega, h.2⟩, ?_⟩
    simp only [Prod.mk.injEq, and_true]
    omega
  · rintro ⟨i, j⟩ h
    rw [mem_flatPositions] at h
    simp only at h
    refine ⟨mem_flatPositions.2 ⟨by simp only; omega, h.2⟩, ?_⟩
    simp only [Prod.mk.injEq, and_true]
    omega
  · rintro ⟨i, j⟩ h
    rw [mem_flatPositions] at h
    simp only at h
    have e : ((rows - 1 - r : ℕ) : ℤ) + (foot.rows - 1 - i : ℕ) - (foot.rows / 2 : ℕ) =
        rows - 1 - ((r : ℤ) + i - (foot.rows / 2 : ℕ)) := by omega
    simp only [hsym i j h.1 h.2, e, ne_eq, Prod.mk.injEq]
    by_cases h' : foot.val i j = true ∧ ¬ (i = foot.rows / 2 ∧ j = foot.cols / 2) ∧
        0 ≤ (r : ℤ) + i - (foot.rows / 2 : ℕ) ∧ (r : ℤ) + i - (foot.rows / 2 : ℕ) < rows ∧
        0 ≤ (c : ℤ) + j - (foot.cols / 2 : ℕ) ∧ (c : ℤ) + j - (foot.cols / 2 : ℕ) < cols
    · rw [if_pos h', if_pos ⟨h'.1, by omega, by omega, by omega, by omega, by omega⟩]
      simp only [Option.map_some, Option.some.injEq, Prod.mk.injEq, and_true]
      omega
    · rw [if_neg h', if_neg]
      · rfl
      · rintro ⟨h1, h2, h3, h4, h5, h6⟩
        exact h' ⟨h1, by omega, by omega, by omega, by omega, by omega⟩

section
variable {K : Type*} [Field K] [LinearOrder K] [IsStrictOrderedRing K]

theorem similarity_moved {rows cols rows' cols' : ℕ} {sims sims' : ℕ → ℕ → ℤ} {foot foot' : Img Bool}
    (φ : ℕ × ℕ → ℕ × ℕ) {r c : ℕ} (hr : r < rows) (hc : c < cols)
    (hnb : (footNeighbours rows' cols' foot' (φ (r, c)).1 (φ (r, c)).2).Perm
      ((footNeighbours rows cols foot r c).map φ))
    (hs : ∀ p : ℕ × ℕ, p.1 < rows → p.2 < cols → ∀ n,
      sims' ((φ p).1 * cols' + (φ p).2) n = sims (p.1 * cols + p.2) n) (n : ℕ) :
    similarity (K := K) rows' cols' sims' foot' n (φ (r, c)).1 (φ (r, c)).2 =
      similarity rows cols sims foot n r c ∧
    (footNeighbours rows' cols' foot' (φ (r, c)).1 (φ (r, c)).2 = [] ↔
      footNeighbours rows cols foot r c = []) := by
  have hb : ∀ p : ℕ × ℕ, p.1 < rows → p.2 < cols →
      bestSet cols' sims' n (φ p).1 (φ p).2 = bestSet cols sims n p.1 p.2 := by
    intro p h1 h2
    unfold bestSet
    congr 1
    funext k
    exact hs p h1 h2 k
  constructor
  · unfold similarity
    simp only
    rw [(hnb.map _).sum_eq, hnb.length_eq, List.length_map, List.map_map]
    congr 2
    refine List.map_congr_left fun p hp => ?_
    obtain ⟨h1, h2⟩ := footNeighbours_mem hp
    simp only [Function.comp_apply]
    rw [hb p h1 h2, hb (r, c) hr hc]
  · rw [← List.length_eq_zero_iff, ← List.length_eq_zero_iff, hnb.length_eq, List.length_map]

/-- C144: orientation similarities of a map scanned from the bottom. -/
theorem C144_similarity_upside_down {rows cols keepN n fromN : ℕ} {sims sims' : ℕ → ℕ → ℤ}
    {foot : Img Bool} {center : ℕ} (hn : n ≤ keepN) (hcen : centerIndex foot = .ok center)
    (hf : SameUpsideDown foot) (normalize : Bool)
    (hs : ∀ r c, r < rows → c < cols → ∀ k,
      sims' ((rows - 1 - r) * cols + c) k = sims (r * cols + c) k) :
    ∃ out out' : List (Img (Option K)),
      orientationSimilarityMap [rows, cols] (rows * cols) keepN sims (some n) normalize (some fromN) foot
        center = .ok out ∧
      orientationSimilarityMap [rows, cols] (rows * cols) keepN sims' (some n) normalize (some fromN) foot
        center = .ok out' ∧ out'.length = out.length ∧
      ∀ (i : ℕ) m m', out[i]? = some m → out'[i]? = some m' → ∀ r c, r < rows → c < cols →
        m'.val (rows - 1 - r) c = m.val r c := by
  obtain ⟨out, h, hl, hv⟩ := C27_similarity_partial (K := K) (rows := rows) (cols := cols)
    (fromN := fromN) (sims := sims) hn hcen normalize
  obtain ⟨out', h', hl', hv'⟩ := C27_similarity_partial (K := K) (rows := rows) (cols := cols)
    (fromN := fromN) (sims := sims') hn hcen normalize
  refine ⟨out, out', h, h', by rw [hl, hl'], fun i m m' hm hm' r c hr hc => ?_⟩
  rw [hv i m hm r c hr hc, hv' i m' hm' _ c (by omega) hc]
  obtain ⟨e1, e2⟩ := similarity_moved (K := K) (sims := sims) (sims' := sims') (fun p => (rows - 1 - p.1, p.2))
    hr hc (footNeighbours_upsideDown (cols := cols) hf hr c) (fun p h1 h2 k => hs p.1 p.2 h1 h2 k) (n - i)
  simp only at e1 e2
  rw [e1]
  exact if_congr e2 rfl rfl

/-- C144: orientation similarities with rows and columns of map and footprint exchanged. -/
theorem C144_similarity_transposed {rows cols keepN n fromN : ℕ} {sims sims' : ℕ → ℕ → ℤ}
    {foot : Img Bool} {center center' : ℕ} (hn : n ≤ keepN) (hcen : centerIndex foot = .ok center)
    (hcen' : centerIndex (rowsAsColumns foot) = .ok center') (normalize : Bool)
    (hs : ∀ r c, r < rows → c < cols → ∀ k, sims' (c * rows + r) k = sims (r * cols + c) k) :
    ∃ out out' : List (Img (Option K)),
      orientationSimilarityMap [rows, cols] (rows * cols) keepN sims (some n) normalize (some fromN) foot
        center = .ok out ∧
      orientationSimilarityMap [cols, rows] (cols * rows) keepN sims' (some n) normalize (some fromN)
        (rowsAsColumns foot) center' = .ok out' ∧ out'.length = out.length ∧
      ∀ (i : ℕ) m m', out[i]? = some m → out'[i]? = some m' → ∀ r c, r < rows → c < cols →
        m'.val c r = m.val r c := by
  obtain ⟨out, h, hl, hv⟩ := C27_similarity_partial (K := K) (rows := rows) (cols := cols)
    (fromN := fromN) (sims := sims) hn hcen normalize
  obtain ⟨out', h', hl', hv'⟩ := C27_similarity_partial (K := K) (rows := cols) (cols := rows)
    (fromN := fromN) (sims := sims') hn hcen' normalize
  refine ⟨out, out', h, h', by rw [hl, hl'], fun i m m' hm hm' r c hr hc => ?_⟩
  rw [hv i m hm r c hr hc, hv' i m' hm' c r hc hr]
  obtain ⟨e1, e2⟩ := similarity_moved (K := K) (sims := sims) (sims' := sims') Prod.swap
    hr hc (footNeighbours_transposed rows cols foot r c) (fun p h1 h2 k => hs p.1 p.2 h1 h2 k) (n - i)
  simp only [Prod.swap_prod_mk] at e1 e2
  rw [e1]
  exact if_congr e2 rfl rfl

/-- C144: orientation similarities of a map scanned from the right. -/
theorem C144_similarity_left_right {rows cols keepN n fromN : ℕ} {sims sims' : ℕ → ℕ → ℤ}
    {foot : Img Bool} {center center' : ℕ} (hn : n ≤ keepN) (hcen : centerIndex foot = .ok center)
    (hcen' : centerIndex (rowsAsColumns foot) = .ok center') (hf : SameLeftRight foot) (normalize : Bool)
    (hs : ∀ r c, r < rows → c < cols → ∀ k,
      sims' (r * cols + (cols - 1 - c)) k = sims (r * cols + c) k) :
    ∃ out out' : List (Img (Option K)),
      orientationSimilarityMap [rows, cols] (rows * cols) keepN sims (some n) normalize (some fromN) foot
        center = .ok out ∧
      orientationSimilarityMap [rows, cols] (rows * cols) keepN sims' (some n) normalize (some fromN) foot
        center = .ok out' ∧ out'.length = out.length ∧
      ∀ (i : ℕ) m m', out[i]? = some m → out'[i]? = some m' → ∀ r c, r < rows → c < cols →
        m'.val r (cols - 1 - c) = m.val r c := by
  -- the same data with rows and columns exchanged
  have hdiv : ∀ a b, b < rows → (a * rows + b) / rows = a ∧ (a * rows + b) % rows = b := by
    intro a b hb
    constructor
    · rw [Nat.mul_comm, Nat.mul_add_div (by omega), Nat.div_eq_of_lt hb, Nat.add_zero]
    · rw [Nat.mul_comm, Nat.mul_add_mod, Nat.mod_eq_of_lt hb]
  let T : (ℕ → ℕ → ℤ) → ℕ → ℕ → ℤ := fun s p k => s ((p % rows) * cols + p / rows) k
  have hT : ∀ s r c, r < rows → c < cols → ∀ k, T s (c * rows + r) k = s (r * cols + c) k := by
    intro s r c hr _ k
    simp only [T, (hdiv c r hr).1, (hdiv c r hr).2]
  obtain ⟨o1, o2, h1, h2, l12, e12⟩ := C144_similarity_transposed (K := K) (fromN := fromN) hn hcen hcen'
    normalize (hT sims)
  obtain ⟨o2', o3, h2', h3, l23, e23⟩ := C144_similarity_upside_down (K := K) (fromN := fromN)
    (rows := cols) (cols := rows) (sims := T sims) (sims' := T sims') hn hcen'
    ⟨hf.1, fun i j hi hj => hf.2 j i hj hi⟩ normalize (by
      intro c r hc hr k
      rw [hT sims r c hr hc, hT sims' r _ hr (by omega), hs r c hr hc])
  obtain rfl := Except.ok.inj (h2.symm.trans h2')
  obtain ⟨o4, o3', h4, h3', l34, e34⟩ := C144_similarity_transposed (K := K) (fromN := fromN) hn hcen hcen'
    normalize (hT sims')
  obtain rfl := Except.ok.inj (h3.symm.trans h3')
  refine ⟨o1, o4, h1, h4, by omega, fun i m m' hm hm' r c hr hc => ?_⟩
  obtain ⟨m2, hm2⟩ : ∃ m2, o2[i]? = some m2 := by
    have := (List.getElem?_eq_some_iff.1 hm).1
    exact ⟨_, List.getElem?_eq_getElem (by omega)⟩
  obtain ⟨m3, hm3⟩ : ∃ m3, o3[i]? = some m3 := by
    have := (List.getElem?_eq_some_iff.1 hm).1
    exact ⟨_, List.getElem?_eq_getElem (by omega)⟩
  rw [← e34 i m' m3 hm' hm3 r (cols - 1 - c) hr (by omega), e23 i m2 m3 hm2 hm3 c r hc hr,
    e12 i m m2 hm hm2 r c hr hc]

end

/-! ### Limits and examples -/

/-- C144 (limit): with an even window the patterns a map point is averaged with depend on the corner in
which the scan starts: two rows of ones use the previous row. -/
theorem C144_odd_matters :
    let map : Img (ℕ → ℚ) := { rows := 2, cols := 1, val := fun r _ px => if r = 0 then px else px * px }
    let w : Img ℚ := { rows := 2, cols := 1, val := fun _ _ => 1 }
    (∀ i j, i < w.rows → j < w.cols → w.val (w.rows - 1 - i) j = w.val i j) ∧
    ∃ out out', averageNeighbourPatterns map 4 (.uint 8) [2, 1] w.val [2] [1] = .ok out ∧
      averageNeighbourPatterns (upsideDown map) 4 (.uint 8) [2, 1] w.val [2] [1] = .ok out' ∧
      out'.val 0 0 ≠ out.val 1 0 := by
  refine ⟨fun _ _ _ _ => rfl, _, _, rfl, rfl, ?_⟩
  decide +kernel

/-- The default footprint of `orientation_similarity_map` and a window of ones meet the hypotheses. -/
example : SameUpsideDown osmFootprint ∧ SameLeftRight osmFootprint ∧ SameAfterHalfTurn osmFootprint ∧
    centerIndex osmFootprint = .ok 2 ∧ centerIndex (rowsAsColumns osmFootprint) = .ok 2 := by
  refine ⟨⟨rfl, ?_⟩, ⟨rfl, ?_⟩, ⟨rfl, rfl, ?_⟩, rfl, rfl⟩ <;>
  · simp only [osmFootprint]
    intro i j hi hj
    interval_cases i <;> interval_cases j <;> rfl

/-- A map of two by three patterns, and the same map scanned from the bottom: the averages move with
the points. -/
example :
    let map : Img (ℕ → ℚ) := { rows := 2, cols := 3, val := fun r c px => (px : ℚ) * (r + 2 * c + 1) + px * px * c }
    let w : Img ℚ := { rows := 3, cols := 3, val := fun i j => if i = 1 ∨ j = 1 then 2 else 1 }
    SameUpsideDown w ∧ SameLeftRight w ∧
    ∃ out out', averageNeighbourPatterns map 4 (.uint 8) [3, 3] w.val [1, 1] [3] = .ok out ∧
      averageNeighbourPatterns (upsideDown map) 4 (.uint 8) [3, 3] w.val [2] [2, 1] = .ok out' ∧
      out'.val 0 1 = out.val 1 1 ∧ out.val 1 1 ≠ out.val 1 2 := by
  refine ⟨⟨rfl, ?_⟩, ⟨rfl, ?_⟩, _, _, rfl, rfl, by decide +kernel, by decide +kernel⟩ <;>
  · intro i j hi hj
    simp only at hi hj ⊢
    interval_cases i <;> interval_cases j <;> rfl

end Kp
