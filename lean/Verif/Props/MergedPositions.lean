import Verif.Spec.MergedPositions
import Verif.Props.RefinementMaps
import Verif.Props.PhaseMaps
import Mathlib.Tactic.FieldSimp

/-
C122: merged maps have the data of the points where they say.
-/

set_option linter.unusedSectionVars false

namespace Kp
open Spec

section
variable {K R D : Type} [Field K] [LinearOrder K] [IsStrictOrderedRing K] [DecidableEq D]

theorem natMin_mem {l : List ℕ} (h : l ≠ []) : natMin l ∈ l := by
  have key : ∀ (l : List ℕ) (m : ℕ), l.foldl min m = m ∨ l.foldl min m ∈ l := by
    intro l
    induction l with
    | nil => simp
    | cons b l ih =>
      intro m
      simp only [List.foldl_cons, List.mem_cons]
      rcases ih (min m b) with h | h
      · rcases min_choice m b with e | e <;> rw [e] at h ⊢ <;> simp [h]
      · exact .inr (.inr h)
  cases l with
  | nil => exact absurd rfl h
  | cons a l =>
    unfold natMin
    rcases key l a with e | e
    · simp [e]
    · exact List.mem_cons_of_mem _ e

/-- Row-major positions. -/
theorem grid_pos {w i j : ℕ} (h : j < w) : (i * w + j) / w = i ∧ (i * w + j) % w = j := by
  have hw : 0 < w := by omega
  constructor
  · rw [Nat.mul_comm, Nat.mul_add_div hw, Nat.div_eq_of_lt h, Nat.add_zero]
  · rw [Nat.mul_comm, Nat.mul_add_mod, Nat.mod_eq_of_lt h]

theorem grid_lt {h w i j : ℕ} (hi : i < h) (hj : j < w) : i * w + j < h * w := by
  calc i * w + j < i * w + w := by omega
    _ = (i + 1) * w := by ring
    _ ≤ h * w := Nat.mul_le_mul_right w hi

theorem mem_points {g : GridMap K R D} {i : ℕ} :
    i ∈ g.points ↔ i < g.ny * g.nx ∧ g.inData i = true := by
  simp [GridMap.points]

theorem points_hasData {g : GridMap K R D} {i : ℕ} (h : i ∈ g.points) :
    HasData g (i / g.nx) (i % g.nx) ∧ i / g.nx * g.nx + i % g.nx = i := by
  obtain ⟨h1, h2⟩ := mem_points.1 h
  have hx : 0 < g.nx := by
    rcases Nat.eq_zero_or_pos g.nx with e | e
    · rw [e] at h1; omega
    · exact e
  have e : i / g.nx * g.nx + i % g.nx = i := Nat.div_add_mod' i g.nx
  exact ⟨⟨(Nat.div_lt_iff_lt_mul hx).2 h1, Nat.mod_lt _ hx, by rw [e]; exact h2⟩, e⟩

theorem hasData_points {g : GridMap K R D} {r c : ℕ} (h : HasData g r c) :
    r * g.nx + c ∈ g.points ∧ (r * g.nx + c) / g.nx = r ∧ (r * g.nx + c) % g.nx = c :=
  ⟨mem_points.2 ⟨grid_lt h.1 h.2.1, h.2.2⟩, grid_pos h.2.1⟩

theorem box_isBox {g : GridMap K R D} (h : g.points ≠ []) : IsBox g g.box := by
  have hr : g.points.map (· / g.nx) ≠ [] := by simpa using h
  have hc : g.points.map (· % g.nx) ≠ [] := by simpa using h
  constructor
  · intro r c hd
    obtain ⟨hm, e1, e2⟩ := hasData_points hd
    have m1 : r ∈ g.points.map (· / g.nx) := List.mem_map.2 ⟨_, hm, e1⟩
    have m2 : c ∈ g.points.map (· % g.nx) := List.mem_map.2 ⟨_, hm, e2⟩
    exact ⟨natMin_le m1, Nat.lt_succ_of_le (le_natMax m1), natMin_le m2,
      Nat.lt_succ_of_le (le_natMax m2)⟩
  · obtain ⟨i, hi, e⟩ := List.mem_map.1 (natMin_mem hr)
    have := (points_hasData hi).1
    rw [e] at this
    exact ⟨_, this⟩
  · obtain ⟨i, hi, e⟩ := List.mem_map.1 (natMax_mem hr)
    exact ⟨_, _, by rw [e]; rfl, (points_hasData hi).1⟩
  · obtain ⟨i, hi, e⟩ := List.mem_map.1 (natMin_mem hc)
    have := (points_hasData hi).1
    rw [e] at this
    exact ⟨_, this⟩
  · obtain ⟨i, hi, e⟩ := List.mem_map.1 (natMax_mem hc)
    exact ⟨_, _, by rw [e]; rfl, (points_hasData hi).1⟩

theorem box_unique {g : GridMap K R D} {b b' : DataBox} (h : IsBox g b) (h' : IsBox g b') :
    b = b' := by
  have key : ∀ b b' : DataBox, IsBox g b → IsBox g b' →
      b'.r0 ≤ b.r0 ∧ b.r1 ≤ b'.r1 ∧ b'.c0 ≤ b.c0 ∧ b.c1 ≤ b'.c1 := by
    intro b b' h h'
    obtain ⟨c, h1⟩ := h.top
    obtain ⟨r, c', e2, h2⟩ := h.bottom
    obtain ⟨r', h3⟩ := h.left
    obtain ⟨r'', c'', e4, h4⟩ := h.right
    have := h'.inside _ _ h1
    have := h'.inside _ _ h2
    have := h'.inside _ _ h3
    have := h'.inside _ _ h4
    omega
  have h1 := key b b' h h'
  have h2 := key b' b h' h
  cases b
  cases b'
  simp only at h1 h2
  rw [DataBox.mk.injEq]
  omega

theorem Spec.IsBox.nonempty {g : GridMap K R D} {b : DataBox} (h : IsBox g b) : g.points ≠ [] := by
  obtain ⟨c, hd⟩ := h.top
  exact List.ne_nil_of_mem (hasData_points hd).1

theorem Spec.IsBox.le {g : GridMap K R D} {b : DataBox} (h : IsBox g b) :
    b.r0 < b.r1 ∧ b.r1 ≤ g.ny ∧ b.c0 < b.c1 ∧ b.c1 ≤ g.nx := by
  obtain ⟨c, h1⟩ := h.top
  obtain ⟨r, c', e2, h2⟩ := h.bottom
  obtain ⟨r'', c'', e4, h4⟩ := h.right
  have a1 := h.inside _ _ h1
  have := h2.1
  have := h4.2.1
  omega

/-- The points in the data, in the order of the box. -/
theorem points_eq {g : GridMap K R D} {b : DataBox} (h : IsBox g b) :
    g.points = ((List.range ((b.r1 - b.r0) * (b.c1 - b.c0))).filter g.croppedMask.keep).map
      (fun m => (b.r0 + m / (b.c1 - b.c0)) * g.nx + (b.c0 + m % (b.c1 - b.c0))) := by
  obtain rfl : b = g.box := box_unique h (box_isBox h.nonempty)
  obtain ⟨l1, l2, l3, l4⟩ := h.le
  set w := g.box.c1 - g.box.c0 with hw
  set pos : ℕ → ℕ := fun m => (g.box.r0 + m / w) * g.nx + (g.box.c0 + m % w) with hpos
  have hw0 : 0 < w := by omega
  have hlt : ∀ m, g.box.c0 + m % w < g.nx := fun m => by
    have := Nat.mod_lt m hw0
    omega
  have hmono : ∀ m m', m < m' → pos m < pos m' := by
    intro m m' hm
    rcases Nat.lt_or_ge (m / w) (m' / w) with hd | hd
    · calc pos m < (g.box.r0 + m / w) * g.nx + g.nx := Nat.add_lt_add_left (hlt m) _
        _ = (g.box.r0 + m / w + 1) * g.nx := by ring
        _ ≤ (g.box.r0 + m' / w) * g.nx := Nat.mul_le_mul_right _ (by omega)
        _ ≤ pos m' := Nat.le_add_right _ _
    · have e : m / w = m' / w := le_antisymm (Nat.div_le_div_right hm.le) hd
      have e1 := Nat.div_add_mod m w
      have e2 := Nat.div_add_mod m' w
      simp only [hpos]
      rw [e] at e1 ⊢
      omega
  have s1 : g.points.Pairwise (· < ·) := List.pairwise_lt_range.filter _
  have s2 : (((List.range ((g.box.r1 - g.box.r0) * w)).filter g.croppedMask.keep).map pos).Pairwise
      (· < ·) := by
    rw [List.pairwise_map]
    exact (List.pairwise_lt_range.filter _).imp (fun {a b} hab => hmono a b hab)
  refine List.Perm.eq_of_pairwise (fun a b _ _ h1 h2 => absurd h1 (by omega)) s1 s2 ?_
  refine (List.perm_ext_iff_of_nodup (s1.imp fun h => by omega) (s2.imp fun h => by omega)).2
    fun i => ?_
  constructor
  · intro hi
    obtain ⟨hd, e⟩ := points_hasData hi
    have hb := h.inside _ _ hd
    have hj : i % g.nx - g.box.c0 < w := by omega
    obtain ⟨d1, d2⟩ := grid_pos (w := w) (i := i / g.nx - g.box.r0) hj
    have hp : pos ((i / g.nx - g.box.r0) * w + (i % g.nx - g.box.c0)) = i := by
      simp only [hpos]
      rw [d1, d2, Nat.add_sub_cancel' hb.1, Nat.add_sub_cancel' hb.2.2.1]
      exact e
    refine List.mem_map.2 ⟨_, List.mem_filter.2 ⟨List.mem_range.2 (grid_lt (by omega) hj), ?_⟩, hp⟩
    change g.inData (pos _) = true
    rw [hp]
    exact (mem_points.1 hi).2
  · intro hi
    obtain ⟨m, hm, rfl⟩ := List.mem_map.1 hi
    obtain ⟨hm, hk⟩ := List.mem_filter.1 hm
    rw [List.mem_range] at hm
    have hdiv : m / w < g.box.r1 - g.box.r0 := (Nat.div_lt_iff_lt_mul hw0).2 hm
    exact mem_points.2 ⟨grid_lt (by omega) (hlt m), hk⟩

/-- The row of the data for a point of the box. -/
theorem points_row {g : GridMap K R D} {b : DataBox} (h : IsBox g b) {i j : ℕ}
    (hi : i < b.r1 - b.r0) (hj : j < b.c1 - b.c0) :
    let w := b.c1 - b.c0
    (g.croppedMask.keep (i * w + j) = true ↔ HasData g (b.r0 + i) (b.c0 + j)) ∧
    (g.croppedMask.keep (i * w + j) = true →
      g.points.getD (rank g.croppedMask.keep (i * w + j)) 0 =
        (b.r0 + i) * g.nx + (b.c0 + j)) := by
  intro w
  have hle := h.le
  obtain ⟨d1, d2⟩ := grid_pos (i := i) hj
  have hb : b = g.box := box_unique h (box_isBox h.nonempty)
  refine ⟨?_, fun hk => ?_⟩
  · unfold GridMap.croppedMask HasData
    simp only [← hb]
    rw [d1, d2]
    exact ⟨fun e => ⟨by omega, by omega, e⟩, fun e => e.2.2⟩
  · rw [points_eq h, List.getD_eq_getElem?_getD, List.getElem?_map]
    have := (filter_row (List.range ((b.r1 - b.r0) * w)) g.croppedMask.keep g.croppedMask.keep
      (fun n q hq => by
        obtain ⟨hn, e⟩ := List.getElem?_eq_some_iff.1 hq
        rw [List.getElem_range] at e
        rw [e])).2 (i * w + j) hk
    rw [List.length_range, if_pos (grid_lt hi hj)] at this
    rw [this, List.getElem?_range (grid_lt hi hj)]
    simp only [Option.map_some, Option.getD_some]
    rw [d1, d2]

/-- C122 (partial): if maps with points not in the data are merged without masks, and the points in the
data of all maps have the same smallest box, each point of the merged map, which has the shape of the
box, has the data of the map with the best score in that row and column of the scan. Missing (and
false): maps with different boxes (`C122_different_points_violated`, `C122_box_sizes_refused`). -/
theorem C122_same_box_partial {gs : List (GridMap K R D)} {b : DataBox} {mnb : ℤ}
    {gib : Option Bool} {out : MergedMap K R D} (hb : ∀ g ∈ gs, IsBox g b)
    (h : mergeGridMaps gs mnb gib = .ok out) :
    ∃ N, (∀ g ∈ gs, g.nRot = N) ∧ 0 < nAveraged N (mergeNBest mnb gib) ∧
    ∀ i j, i < b.r1 - b.r0 → j < b.c1 - b.c0 →
      ∃ g ∈ gs, HasData g (b.r0 + i) (b.c0 + j) ∧
        (∀ g' ∈ gs, HasData g' (b.r0 + i) (b.c0 + j) →
          AsGood (gib.getD (decide (0 ≤ mnb)))
            (meanAt g (b.r0 + i) (b.c0 + j) (nAveraged N (mergeNBest mnb gib)))
            (meanAt g' (b.r0 + i) (b.c0 + j) (nAveraged N (mergeNBest mnb gib)))) ∧
        let m := i * (b.c1 - b.c0) + j
        let n := (b.r0 + i) * g.nx + (b.c0 + j)
        (out.phaseId m = -1 ∧ g.phaseId n = -1 ∨
          out.rots m = g.rots n ∧ out.scores m = (List.range N).map (g.scores n) ∧
            out.sims m = (List.range N).map (g.sims n)) := by
  -- which masks were used
  obtain ⟨masks, hmerge, hrow⟩ : ∃ masks,
      mergeCrystalMaps (gs.map GridMap.toXMap) mnb gib masks = .ok out ∧
      ∀ (k : ℕ) (g : GridMap K R D), gs[k]? = some g → ∀ i j, i < b.r1 - b.r0 →
        j < b.c1 - b.c0 →
        (mapShapes (gs.map GridMap.toXMap) masks).headD [] = [b.r1 - b.r0, b.c1 - b.c0] ∧
        (HasData g (b.r0 + i) (b.c0 + j) →
          ∃ row, rowOf masks k (i * (b.c1 - b.c0) + j) = some row) ∧
        (∀ row, rowOf masks k (i * (b.c1 - b.c0) + j) = some row →
          HasData g (b.r0 + i) (b.c0 + j) ∧
          g.points.getD row 0 = (b.r0 + i) * g.nx + (b.c0 + j)) := by
    unfold mergeGridMaps at h
    split at h
    · rename_i hfull
      refine ⟨none, h, fun k g hg i j hi hj => ?_⟩
      have hmem := List.mem_of_getElem? hg
      have hbx := hb g hmem
      have hle := hbx.le
      have hdata : HasData g (b.r0 + i) (b.c0 + j) := by
        refine ⟨by omega, by omega, ?_⟩
        have := List.all_eq_true.1 hfull g hmem
        exact List.all_eq_true.1 this _ (List.mem_range.2 (grid_lt (by omega) (by omega)))
      refine ⟨?_, fun _ => ⟨_, rfl⟩, fun row hr => ⟨hdata, ?_⟩⟩
      · cases gs with
        | nil => simp at hg
        | cons a l =>
          have := box_unique (hb a (by simp)) (box_isBox (hb a (by simp)).nonempty)
          simp [mapShapes, GridMap.toXMap, this]
      · simp only [rowOf, Option.some.injEq] at hr
        subst hr
        obtain ⟨p1, p2⟩ := points_row hbx hi hj
        have hk := p1.2 hdata
        have hrank : rank g.croppedMask.keep (i * (b.c1 - b.c0) + j) = i * (b.c1 - b.c0) + j := by
          unfold rank
          rw [List.filter_eq_self.2, List.length_range]
          intro m hm
          rw [List.mem_range] at hm
          have hbe : b = g.box := box_unique hbx (box_isBox hbx.nonempty)
          have hw0 : 0 < b.c1 - b.c0 := by omega
          have hm2 : m < (b.r1 - b.r0) * (b.c1 - b.c0) := hm.trans (grid_lt hi hj)
          have h1 : m / (b.c1 - b.c0) < b.r1 - b.r0 := (Nat.div_lt_iff_lt_mul hw0).2 hm2
          have h2 := Nat.mod_lt m hw0
          have e := Nat.div_add_mod' m (b.c1 - b.c0)
          have hd2 : HasData g (b.r0 + m / (b.c1 - b.c0)) (b.c0 + m % (b.c1 - b.c0)) := by
            refine ⟨by omega, by omega, ?_⟩
            have := List.all_eq_true.1 hfull g hmem
            exact List.all_eq_true.1 this _ (List.mem_range.2 (grid_lt (by omega) (by omega)))
          have := (points_row hbx h1 h2).1.2 hd2
          rwa [e] at this
        rw [← hrank]
        exact p2 hk
    · split at h
      · cases h
      · refine ⟨_, h, fun k g hg i j hi hj => ?_⟩
        have hmem := List.mem_of_getElem? hg
        have hbx := hb g hmem
        obtain ⟨p1, p2⟩ := points_row hbx hi hj
        have e : (gs.map (fun g => some g.croppedMask)).getD k none = some g.croppedMask := by
          rw [List.getD_eq_getElem?_getD, List.getElem?_map, hg]; rfl
        refine ⟨?_, fun hd => ?_, fun row hr => ?_⟩
        · cases gs with
          | nil => simp at hg
          | cons a l =>
            have := box_unique (hb a (by simp)) (box_isBox (hb a (by simp)).nonempty)
            simp [mapShapes, GridMap.croppedMask, this]
        · unfold rowOf
          simp only [e]
          rw [if_pos (p1.2 hd)]
          exact ⟨_, rfl⟩
        · unfold rowOf at hr
          simp only [e] at hr
          split_ifs at hr with hk
          cases hr
          refine ⟨p1.1 hk, ?_⟩
          rw [List.countP_eq_length_filter]
          exact p2 hk
  obtain ⟨-, -, N, hN, hcore⟩ := mergeCrystalMaps_ok hmerge
  have hNg : ∀ g ∈ gs, g.nRot = N := fun g hg => hN _ (List.mem_map_of_mem hg)
  have hne : ∃ g, g ∈ gs := by
    cases gs with
    | nil =>
      exfalso
      unfold mergeGridMaps at h
      simp [mergeCrystalMaps, mapShapes, masks1d, mergeCore, nanargmax, nanargmaxAux] at h
    | cons a l => exact ⟨a, by simp⟩
  have hsize : ∀ i j, i < b.r1 - b.r0 → j < b.c1 - b.c0 →
      i * (b.c1 - b.c0) + j < mergeSize (gs.map GridMap.toXMap) masks := by
    intro i j hi hj
    obtain ⟨g, hg⟩ := hne
    obtain ⟨k, hk⟩ := List.mem_iff_getElem?.1 hg
    rw [mergeSize, (hrow k g hk i j hi hj).1]
    simpa using grid_lt hi hj
  have havg : 0 < nAveraged N (mergeNBest mnb gib) := by
    obtain ⟨g, hg⟩ := hne
    obtain ⟨h1, -, h3, -⟩ := (hb g hg).le
    obtain ⟨N', hN', hpos, -⟩ := C25_best_map_partial hmerge (hsize 0 0 (by omega) (by omega))
    rw [← hN _ (List.mem_map_of_mem hg), hN' _ (List.mem_map_of_mem hg)]
    exact hpos
  refine ⟨N, hNg, havg, fun i j hi hj => ?_⟩
  obtain ⟨N', hN', -, k, row, x, hx, hr, hbest, hdata⟩ :=
    C25_best_map_partial hmerge (hsize i j hi hj)
  obtain ⟨g, hg, rfl⟩ : ∃ g, gs[k]? = some g ∧ g.toXMap = x := by
    rw [List.getElem?_map, Option.map_eq_some_iff] at hx
    exact hx
  have hmem := List.mem_of_getElem? hg
  obtain rfl : N' = N := (hN' _ (List.mem_of_getElem? hx)).symm.trans (hN _ (List.mem_of_getElem? hx))
  obtain ⟨hd, hp⟩ := (hrow k g hg i j hi hj).2.2 row hr
  have hmean : ∀ (g : GridMap K R D) (row n : ℕ),
      g.points.getD row 0 = (b.r0 + i) * g.nx + (b.c0 + j) →
      meanScore g.toXMap row n = meanAt g (b.r0 + i) (b.c0 + j) n := by
    intro g row n e
    unfold meanScore meanAt GridMap.toXMap
    simp only [e]
  refine ⟨g, hmem, hd, fun g' hg' hd' => ?_, ?_⟩
  · obtain ⟨k', hk'⟩ := List.mem_iff_getElem?.1 hg'
    obtain ⟨row', hr'⟩ := (hrow k' g' hk' i j hi hj).2.1 hd'
    have := (hbest k' row' g'.toXMap (by rw [List.getElem?_map, hk']; rfl) hr').1
    rwa [hmean g row _ hp, hmean g' row' _ ((hrow k' g' hk' i j hi hj).2.2 row' hr').2] at this
  · rcases hdata with ⟨⟨hmn, hall⟩, hid⟩ | ⟨-, h1, h2, h3⟩
    · left
      refine ⟨hid, ?_⟩
      have := hall _ (List.mem_of_getElem? hx)
      unfold GridMap.toXMap at this
      simp only at this
      have hrm : row = i * (b.c1 - b.c0) + j := by
        rw [hmn] at hr
        simpa [rowOf] using hr.symm
      rw [hrm] at hp
      rwa [hp] at this
    · right
      rw [h1, h2, h3]
      unfold GridMap.toXMap
      simp only [hp, and_self]

/-- C122 is false: maps of the same scan with boxes of different sizes are refused if no masks are
given, although (C25) they are merged with masks. -/
theorem C122_box_sizes_refused {gs : List (GridMap K R D)} {g g' : GridMap K R D} {b b' : DataBox}
    (hg : g ∈ gs) (hg' : g' ∈ gs) (hb : IsBox g b) (hb' : IsBox g' b')
    (hsize : b.r1 - b.r0 ≠ b'.r1 - b'.r0 ∨ b.c1 - b.c0 ≠ b'.c1 - b'.c0) (mnb : ℤ)
    (gib : Option Bool) : mergeGridMaps gs mnb gib = .error .valueError := by
  obtain rfl : b = g.box := box_unique hb (box_isBox hb.nonempty)
  obtain rfl : b' = g'.box := box_unique hb' (box_isBox hb'.nonempty)
  have hne : [g.box.r1 - g.box.r0, g.box.c1 - g.box.c0] ≠
      [g'.box.r1 - g'.box.r0, g'.box.c1 - g'.box.c0] := by
    intro e
    simp only [List.cons.injEq, and_true] at e
    omega
  unfold mergeGridMaps
  split
  · exact C25_different_maps_refused (List.mem_map_of_mem hg) (List.mem_map_of_mem hg') none
      (.inl ⟨rfl, hne⟩)
  · split
    · rfl
    · exact C25_different_maps_refused (List.mem_map_of_mem hg) (List.mem_map_of_mem hg') _
        (.inr (.inr ⟨_, g.croppedMask, g'.croppedMask, rfl, List.mem_map_of_mem hg,
          List.mem_map_of_mem hg', hne⟩))

/-- C122 is false for the coordinates: those of the points of the merged map are the coordinates which
these points have in the (first of the) maps if and only if the box starts in the first row and column,
and the step sizes are equal (unless the box is a single point): they are swapped. -/
theorem C122_positions_partial {gs : List (GridMap K R D)} {g : GridMap K R D}
    (hg : gs.head? = some g) (hy : g.dy ≠ 0) (hx : g.dx ≠ 0) {b : DataBox} (hb : IsBox g b) :
    ∃ xs ys, mergedCoordinates gs [b.r1 - b.r0, b.c1 - b.c0] = .ok (xs, some ys) ∧
      ((∀ i j, i < b.r1 - b.r0 → j < b.c1 - b.c0 →
        ∃ y x, ys[i * (b.c1 - b.c0) + j]? = some y ∧ xs[i * (b.c1 - b.c0) + j]? = some x ∧
          At g (b.r0 + i) (b.c0 + j) y x) ↔
        b.r0 = 0 ∧ b.c0 = 0 ∧ (b.r1 - b.r0 = 1 ∧ b.c1 - b.c0 = 1 ∨ g.dx = g.dy)) := by
  have hle := hb.le
  unfold mergedCoordinates
  rw [hg]
  refine ⟨_, _, rfl, ?_⟩
  have key : ∀ i j, i < b.r1 - b.r0 → j < b.c1 - b.c0 →
      ((∃ y x, ((List.range ((b.r1 - b.r0) * (b.c1 - b.c0))).map fun (n : ℕ) =>
          ((n / (b.c1 - b.c0) : ℕ) : K) * g.dx)[i * (b.c1 - b.c0) + j]? = some y ∧
        ((List.range ((b.r1 - b.r0) * (b.c1 - b.c0))).map fun (n : ℕ) =>
          ((n % (b.c1 - b.c0) : ℕ) : K) * g.dy)[i * (b.c1 - b.c0) + j]? = some x ∧
          At g (b.r0 + i) (b.c0 + j) y x) ↔
        (i : K) * g.dx = (b.r0 + i) * g.dy ∧ (j : K) * g.dy = (b.c0 + j) * g.dx) := by
    intro i j hi hj
    obtain ⟨d1, d2⟩ := grid_pos (i := i) hj
    simp only [List.getElem?_map, List.getElem?_range (grid_lt hi hj), Option.map_some, d1, d2,
      Option.some.injEq]
    constructor
    · rintro ⟨y, x, rfl, rfl, h1, h2⟩
      push_cast at h1 h2
      exact ⟨h1, h2⟩
    · rintro ⟨h1, h2⟩
      exact ⟨_, _, rfl, rfl, by push_cast; exact h1, by push_cast; exact h2⟩
  constructor
  · intro hall
    have h00 := (key 0 0 (by omega) (by omega)).1 (hall 0 0 (by omega) (by omega))
    simp only [Nat.cast_zero, zero_mul, add_zero] at h00
    have hr0 : b.r0 = 0 := by
      rcases mul_eq_zero.1 h00.1.symm with e | e
      · exact_mod_cast e
      · exact absurd e hy
    have hc0 : b.c0 = 0 := by
      rcases mul_eq_zero.1 h00.2.symm with e | e
      · exact_mod_cast e
      · exact absurd e hx
    refine ⟨hr0, hc0, ?_⟩
    by_cases h1 : 1 < b.r1 - b.r0
    · have := ((key 1 0 h1 (by omega)).1 (hall 1 0 h1 (by omega))).1
      right
      simpa [hr0] using this
    · by_cases h2 : 1 < b.c1 - b.c0
      · have := ((key 0 1 (by omega) h2).1 (hall 0 1 (by omega) h2)).2
        right
        simpa [hc0] using this.symm
      · left
        omega
  · rintro ⟨hr0, hc0, hcase⟩ i j hi hj
    refine (key i j hi hj).2 ?_
    rw [hr0, hc0]
    rcases hcase with ⟨e1, e2⟩ | e
    · obtain rfl : i = 0 := by omega
      obtain rfl : j = 0 := by omega
      simp
    · rw [e]
      simp

end

/-- A map of 2 x 2 points with data in one column. -/
def columnMap (col : ℕ) (s : ℚ) (name : String) (phase : ℕ) : GridMap ℚ ℕ ℕ :=
  { ny := 2
    nx := 2
    dy := 1
    dx := 2
    inData := fun m => m % 2 == col
    nRot := 1
    rots := fun m => [10 * phase + m]
    scores := fun m _ => if m < 2 then s else 1 - s
    sims := fun _ _ => 0
    phaseId := fun _ => 0
    name := name
    phase := phase }

/-- C122 is false: two maps of the same 2 x 2 points, one with data in the first and one in the second
column, are merged, without masks, to a map with one column. Its first point has the data of the second
map in the second column, its second point the data of the first map in the first column: scores of
different points were compared. With masks, all points have their own data. -/
theorem C122_different_points_violated :
    let gs := [columnMap 0 0 "a" 0, columnMap 1 1 "b" 1]
    let r := (mergeGridMaps gs 1 none).toOption
    let r' := (mergeCrystalMaps (gs.map GridMap.toXMap) 1 none (some (gs.map fun g =>
      some ⟨[2, 2], g.inData⟩))).toOption
    gs.map GridMap.box = [⟨0, 2, 0, 1⟩, ⟨0, 2, 1, 2⟩] ∧
    r.map (fun o => [0, 1].map o.rots) = some [[11], [2]] ∧
    r'.map (fun o => [0, 1, 2, 3].map o.rots) = some [[0], [11], [2], [13]] := by
  decide +kernel

/-- Two maps with the same box, the first two of three columns, are merged. -/
example :
    let g : GridMap ℚ ℕ ℕ := { columnMap 0 0 "a" 0 with
      nx := 3, inData := fun m => m == 0 || m == 4, scores := fun m _ => m }
    let g' : GridMap ℚ ℕ ℕ := { columnMap 0 0 "b" 1 with
      nx := 3, inData := fun m => m % 3 != 2, scores := fun _ _ => 2 }
    [g, g'].map GridMap.box = [⟨0, 2, 0, 2⟩, ⟨0, 2, 0, 2⟩] ∧
      (mergeGridMaps [g, g'] 1 none).toOption.map (fun o => [0, 1, 2, 3].map o.rots) =
        some [[10], [11], [13], [4]] := by
  decide +kernel

/-- So their box is this one. -/
example : IsBox ({ columnMap 0 0 "b" 1 with nx := 3, inData := fun m => m % 3 != 2 } :
    GridMap ℚ ℕ ℕ) ⟨0, 2, 0, 2⟩ := by
  have h := box_isBox (g := ({ columnMap 0 0 "b" 1 with nx := 3, inData := fun m => m % 3 != 2 } :
    GridMap ℚ ℕ ℕ)) (by decide +kernel)
  have e : GridMap.box ({ columnMap 0 0 "b" 1 with nx := 3, inData := fun m => m % 3 != 2 } :
    GridMap ℚ ℕ ℕ) = ⟨0, 2, 0, 2⟩ := by decide +kernel
  rwa [e] at h

/-- Boxes of different sizes. -/
example :
    let g : GridMap ℚ ℕ ℕ := columnMap 0 0 "a" 0
    let g' : GridMap ℚ ℕ ℕ := { columnMap 0 0 "b" 1 with inData := fun m => m == 0 }
    [g, g'].map GridMap.box = [⟨0, 2, 0, 1⟩, ⟨0, 1, 0, 1⟩] ∧
      (mergeGridMaps [g, g'] 1 none).toOption.isNone := by
  decide +kernel

/-- Steps of 1 in y and 2 in x are swapped. -/
example :
    (mergedCoordinates [columnMap 0 0 "a" 0] [2, 2]).toOption =
      some ([0, 1, 0, 1], some [0, 0, 2, 2]) ∧
    (columnMap 0 0 "a" 0).dy = 1 ∧ (columnMap 0 0 "a" 0).dx = 2 := by
  decide +kernel

end Kp
