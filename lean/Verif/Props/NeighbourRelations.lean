import Verif.Spec.NeighbourRelations
import Verif.Props.NanNeighbours
import Verif.Props.Osm
import Verif.Lemmas.RgbImage

/-
C151: what a map point sees of its neighbours: only what is under the window, the same from both sides,
and nothing new where all patterns are the same.
-/

set_option linter.unusedSectionVars false

namespace Kp

open Spec

/-! ### Averages -/

section
variable {K : Type*} [Field K] [LinearOrder K] [IsStrictOrderedRing K] [FloorRing K]

/-- A gain and an offset are gone after rescaling. -/
theorem rescaleList_affine {a : K} (ha : 0 < a) (b : K) (p : List K) (omin omax : K) :
    rescaleWithMinMax (p.map fun x => a * x + b) (listMin (p.map fun x => a * x + b))
      (listMax (p.map fun x => a * x + b)) omin omax =
    rescaleWithMinMax p (listMin p) (listMax p) omin omax := by
  by_cases h : p = []
  · subst h; rfl
  · rw [listMin_affine a b ha p h, listMax_affine a b ha p h]
    unfold rescaleWithMinMax
    rw [List.map_map]
    exact List.map_congr_left fun x _ => rescaleRgbPixel_affine a b _ _ omin omax x ha

theorem neighbourSum_congr {rows cols : ℕ} {w : Img K} {f f' : ℕ → ℕ → K} {r c : ℕ}
    (h : ∀ y < rows, ∀ x < cols, UnderWindow w.rows w.cols r c y x → f' y x = f y x) :
    neighbourSum rows cols w f' r c = neighbourSum rows cols w f r c := by
  unfold neighbourSum
  refine Finset.sum_congr rfl fun i hi => Finset.sum_congr rfl fun j hj => ?_
  simp only
  split
  · rename_i hin
    rw [h _ (by omega) _ (by omega) ⟨i, Finset.mem_range.1 hi, j, Finset.mem_range.1 hj, by omega, by omega⟩]
  · rfl

theorem neighbourSum_affine (rows cols : ℕ) (w : Img K) (a b : K) (f : ℕ → ℕ → K) (r c : ℕ) :
    neighbourSum rows cols w (fun y x => a * f y x + b) r c =
      a * neighbourSum rows cols w f r c + b * neighbourSum rows cols w (fun _ _ => 1) r c := by
  unfold neighbourSum
  simp only [Finset.mul_sum, ← Finset.sum_add_distrib]
  refine Finset.sum_congr rfl fun i _ => Finset.sum_congr rfl fun j _ => ?_
  split
  · ring
  · simp

theorem neighbourSum_scaled (rows cols wr wc : ℕ) (coeff : ℕ → ℕ → K) (a : K) (f : ℕ → ℕ → K) (r c : ℕ) :
    neighbourSum rows cols { rows := wr, cols := wc, val := fun i j => a * coeff i j } f r c =
      a * neighbourSum rows cols { rows := wr, cols := wc, val := coeff } f r c := by
  unfold neighbourSum
  simp only [Finset.mul_sum]
  refine Finset.sum_congr rfl fun i _ => Finset.sum_congr rfl fun j _ => ?_
  split
  · ring
  · simp

theorem neighbourSum_weight (rows cols wr wc : ℕ) (coeff : ℕ → ℕ → K) (r c : ℕ) :
    neighbourSum rows cols { rows := wr, cols := wc, val := coeff } (fun _ _ => 1) r c =
      weightInMap rows cols wr wc coeff r c := by
  unfold neighbourSum weightInMap
  simp

theorem truncInt_pos {x : K} (h : 1 ≤ x) : 0 < truncInt x := by
  unfold truncInt
  rw [if_pos (zero_le_one.trans h)]
  exact Int.floor_pos.2 h

/-- Two maps whose averages are the same up to a gain and an offset have the same averaged pattern. -/
theorem average_same {map map' : Img (ℕ → K)} {m : ℕ} {d : DType} {wr wc : ℕ} {coeff coeff' : ℕ → ℕ → K}
    {rowChunks colChunks rowChunks' colChunks' : List ℕ} {omin omax : ℤ}
    (hd : dtypeRange d = some (omin, omax)) (hw : ¬ (wr = 1 ∧ wc = 1))
    (hr : rowChunks.sum = map.rows) (hc : colChunks.sum = map.cols)
    (hr' : rowChunks'.sum = map'.rows) (hc' : colChunks'.sum = map'.cols)
    {out out' : Img (Option (List K))}
    (h : averageNeighbourPatterns map m d [wr, wc] coeff rowChunks colChunks = .ok out)
    (h' : averageNeighbourPatterns map' m d [wr, wc] coeff' rowChunks' colChunks' = .ok out')
    {r c : ℕ} (hrm : r < map.rows) (hcm : c < map.cols) (hrm' : r < map'.rows) (hcm' : c < map'.cols)
    (hs : truncInt (neighbourSum map.rows map.cols { rows := wr, cols := wc, val := coeff } (fun _ _ => 1)
        r c) = 0 ↔
      truncInt (neighbourSum map'.rows map'.cols { rows := wr, cols := wc, val := coeff' } (fun _ _ => 1)
        r c) = 0)
    {a b : K} (ha : 0 < a) (hp : ∀ px < m,
      neighbourSum map'.rows map'.cols { rows := wr, cols := wc, val := coeff' }
        (fun y x => map'.val y x px) r c /
        (truncInt (neighbourSum map'.rows map'.cols { rows := wr, cols := wc, val := coeff' }
          (fun _ _ => 1) r c) : K) =
      a * (neighbourSum map.rows map.cols { rows := wr, cols := wc, val := coeff }
        (fun y x => map.val y x px) r c /
        (truncInt (neighbourSum map.rows map.cols { rows := wr, cols := wc, val := coeff }
          (fun _ _ => 1) r c) : K)) + b) :
    out'.val r c = out.val r c := by
  obtain ⟨o, ho, _, _, hv⟩ := averageNeighbour_value (m := m) (coeff := coeff) hd (Or.inl rfl) hw hr hc
  obtain ⟨o', ho', _, _, hv'⟩ := averageNeighbour_value (m := m) (coeff := coeff') hd (Or.inl rfl) hw hr' hc'
  rw [h] at ho
  rw [h'] at ho'
  cases ho
  cases ho'
  rw [hv r c hrm hcm, hv' r c hrm' hcm']
  simp only
  by_cases hz : truncInt (neighbourSum map.rows map.cols { rows := wr, cols := wc, val := coeff }
      (fun _ _ => 1) r c) = 0
  · rw [if_pos hz, if_pos (hs.1 hz)]
  · rw [if_neg hz, if_neg fun e => hz (hs.2 e)]
    have e : (List.range m).map (fun px => neighbourSum map'.rows map'.cols
        { rows := wr, cols := wc, val := coeff' } (fun y x => map'.val y x px) r c /
        (truncInt (neighbourSum map'.rows map'.cols { rows := wr, cols := wc, val := coeff' }
          (fun _ _ => 1) r c) : K)) =
      ((List.range m).map (fun px => neighbourSum map.rows map.cols
        { rows := wr, cols := wc, val := coeff } (fun y x => map.val y x px) r c /
        (truncInt (neighbourSum map.rows map.cols { rows := wr, cols := wc, val := coeff }
          (fun _ _ => 1) r c) : K))).map fun x => a * x + b := by
      rw [List.map_map]
      exact List.map_congr_left fun px hpx => hp px (List.mem_range.1 hpx)
    rw [e, rescaleList_affine ha]

/-- C151: the averaged pattern of a map point depends on the patterns under the window only, whatever
the other patterns and the chunks are. -/
theorem C151_average_local {map map' : Img (ℕ → K)} {m : ℕ} {d : DType} {wr wc : ℕ}
    {coeff : ℕ → ℕ → K} {rowChunks colChunks rowChunks' colChunks' : List ℕ} {omin omax : ℤ}
    (hd : dtypeRange d = some (omin, omax)) (hw : ¬ (wr = 1 ∧ wc = 1))
    (hr : rowChunks.sum = map.rows) (hc : colChunks.sum = map.cols)
    (hr' : rowChunks'.sum = map'.rows) (hc' : colChunks'.sum = map'.cols)
    {out out' : Img (Option (List K))}
    (h : averageNeighbourPatterns map m d [wr, wc] coeff rowChunks colChunks = .ok out)
    (h' : averageNeighbourPatterns map' m d [wr, wc] coeff rowChunks' colChunks' = .ok out')
    {r c : ℕ} (hrm : r < map.rows) (hcm : c < map.cols) (hsame : SameUnder wr wc map map' r c) :
    out'.val r c = out.val r c := by
  obtain ⟨e1, e2, e3⟩ := hsame
  refine average_same hd hw hr hc hr' hc' h h' hrm hcm (e1 ▸ hrm) (e2 ▸ hcm) (by rw [e1, e2])
    (a := 1) (b := 0) one_pos fun px _ => ?_
  rw [e1, e2, one_mul, add_zero]
  congr 1
  exact neighbourSum_congr fun y hy x hx hu => by rw [e3 y hy x hx hu]

/-- C151: a gain and an offset common to all patterns do not change the averaged patterns. -/
theorem C151_average_gain {map map' : Img (ℕ → K)} {m : ℕ} {d : DType} {wr wc : ℕ}
    {coeff : ℕ → ℕ → K} {rowChunks colChunks rowChunks' colChunks' : List ℕ} {omin omax : ℤ}
    (hd : dtypeRange d = some (omin, omax)) (hw : ¬ (wr = 1 ∧ wc = 1))
    (hr : rowChunks.sum = map.rows) (hc : colChunks.sum = map.cols)
    (hr' : rowChunks'.sum = map'.rows) (hc' : colChunks'.sum = map'.cols)
    {out out' : Img (Option (List K))}
    (h : averageNeighbourPatterns map m d [wr, wc] coeff rowChunks colChunks = .ok out)
    (h' : averageNeighbourPatterns map' m d [wr, wc] coeff rowChunks' colChunks' = .ok out')
    {gain offset : K} (hg : 0 < gain) (hrows : map'.rows = map.rows) (hcols : map'.cols = map.cols)
    (hval : ∀ y x px, map'.val y x px = gain * map.val y x px + offset)
    {r c : ℕ} (hrm : r < map.rows) (hcm : c < map.cols) : out'.val r c = out.val r c := by
  refine average_same hd hw hr hc hr' hc' h h' hrm hcm (hrows ▸ hrm) (hcols ▸ hcm)
    (by rw [hrows, hcols]) (a := gain) (b := offset *
      neighbourSum map.rows map.cols { rows := wr, cols := wc, val := coeff } (fun _ _ => 1) r c /
      (truncInt (neighbourSum map.rows map.cols { rows := wr, cols := wc, val := coeff }
          (fun _ _ => 1) r c) : K)) hg fun px _ => ?_
  rw [hrows, hcols]
  simp only [hval]
  rw [neighbourSum_affine, add_div, mul_div_assoc]

/-- C151: only the ratios of the window coefficients matter, as long as the coefficients in the map add
up to at least one (for others see `C18_normalized_window`). -/
theorem C151_window_scale {map : Img (ℕ → K)} {m : ℕ} {d : DType} {wr wc : ℕ} {coeff : ℕ → ℕ → K}
    {rowChunks colChunks rowChunks' colChunks' : List ℕ} {omin omax : ℤ}
    (hd : dtypeRange d = some (omin, omax)) (hw : ¬ (wr = 1 ∧ wc = 1))
    (hr : rowChunks.sum = map.rows) (hc : colChunks.sum = map.cols)
    (hr' : rowChunks'.sum = map.rows) (hc' : colChunks'.sum = map.cols) {a : K} (ha : 0 < a)
    {out out' : Img (Option (List K))}
    (h : averageNeighbourPatterns map m d [wr, wc] coeff rowChunks colChunks = .ok out)
    (h' : averageNeighbourPatterns map m d [wr, wc] (fun i j => a * coeff i j) rowChunks' colChunks' =
      .ok out')
    {r c : ℕ} (hrm : r < map.rows) (hcm : c < map.cols)
    (h1 : 1 ≤ weightInMap map.rows map.cols wr wc coeff r c)
    (h1' : 1 ≤ a * weightInMap map.rows map.cols wr wc coeff r c) : out'.val r c = out.val r c := by
  set S := neighbourSum map.rows map.cols { rows := wr, cols := wc, val := coeff } (fun _ _ => 1) r c
    with hS
  have g1 : 0 < truncInt S := truncInt_pos (by rw [hS, neighbourSum_weight]; exact h1)
  have g2 : 0 < truncInt (a * S) := truncInt_pos (by rw [hS, neighbourSum_weight]; exact h1')
  have q1 : (0 : K) < (truncInt S : K) := by exact_mod_cast g1
  have q2 : (0 : K) < (truncInt (a * S) : K) := by exact_mod_cast g2
  refine average_same hd hw hr hc hr' hc' h h' hrm hcm hrm hcm ?_
    (a := a * truncInt S / truncInt (a * S)) (b := 0) (by positivity) fun px _ => ?_
  · rw [neighbourSum_scaled, ← hS]
    exact ⟨fun e => by omega, fun e => by omega⟩
  · rw [neighbourSum_scaled, neighbourSum_scaled, ← hS]
    field_simp
    ring

/-- C151: where all patterns under the window are the same, the averaged pattern is this pattern,
rescaled. -/
theorem C151_average_uniform {map : Img (ℕ → K)} {m : ℕ} {d : DType} {wr wc : ℕ} {coeff : ℕ → ℕ → K}
    {rowChunks colChunks : List ℕ} {omin omax : ℤ}
    (hd : dtypeRange d = some (omin, omax)) (hw : ¬ (wr = 1 ∧ wc = 1))
    (hr : rowChunks.sum = map.rows) (hc : colChunks.sum = map.cols) {out : Img (Option (List K))}
    (h : averageNeighbourPatterns map m d [wr, wc] coeff rowChunks colChunks = .ok out)
    {r c : ℕ} (hrm : r < map.rows) (hcm : c < map.cols)
    (h1 : 1 ≤ weightInMap map.rows map.cols wr wc coeff r c) {p : ℕ → K}
    (hp : ∀ y < map.rows, ∀ x < map.cols, UnderWindow wr wc r c y x → map.val y x = p) :
    out.val r c = some ((rescaleWithMinMax ((List.range m).map p) (listMin ((List.range m).map p))
      (listMax ((List.range m).map p)) omin omax).map (castTo d)) := by
  obtain ⟨o, ho, _, _, hv⟩ := averageNeighbour_value (m := m) (coeff := coeff) hd (Or.inl rfl) hw hr hc
  rw [h] at ho
  cases ho
  rw [hv r c hrm hcm]
  simp only
  set S := neighbourSum map.rows map.cols { rows := wr, cols := wc, val := coeff } (fun _ _ => 1) r c
    with hS
  have hS1 : 1 ≤ S := by rw [hS, neighbourSum_weight]; exact h1
  have g1 : 0 < truncInt S := truncInt_pos hS1
  have q1 : (0 : K) < (truncInt S : K) := by exact_mod_cast g1
  have hS0 : 0 < S := one_pos.trans_le hS1
  rw [if_neg (by omega)]
  have e : (List.range m).map (fun px => neighbourSum map.rows map.cols
      { rows := wr, cols := wc, val := coeff } (fun y x => map.val y x px) r c / (truncInt S : K)) =
      ((List.range m).map p).map fun x => S / truncInt S * x + 0 := by
    rw [List.map_map]
    refine List.map_congr_left fun px _ => ?_
    have : neighbourSum map.rows map.cols { rows := wr, cols := wc, val := coeff }
        (fun y x => map.val y x px) r c = p px * S := by
      rw [neighbourSum_congr (f := fun _ _ => p px * 1 + 0)
        (fun y hy x hx hu => by rw [hp y hy x hx hu]; ring), neighbourSum_affine, ← hS]
      ring
    rw [this]
    simp only [Function.comp]
    ring
  rw [e, rescaleList_affine (by positivity)]

end

/-! ### Dot products -/

section
variable {ι : Type*} [Fintype ι]

theorem neighbourDot_congr {V K : Type*} (dp : V → V → K) {map map' : Img V} {w : Img Bool} {r c : ℕ}
    (hr : r < map.rows) (hc : c < map.cols) (h : SameUnder w.rows w.cols map map' r c)
    (hr0 : 0 < w.rows) (hc0 : 0 < w.cols) {i j : ℕ} (hi : i < w.rows) (hj : j < w.cols) :
    neighbourDot dp map' w r c i j = neighbourDot dp map w r c i j := by
  obtain ⟨e1, e2, e3⟩ := h
  have hself : map'.val r c = map.val r c := e3 r hr c hc
    ⟨w.rows / 2, Nat.div_lt_self hr0 one_lt_two, w.cols / 2, Nat.div_lt_self hc0 one_lt_two, by omega,
      by omega⟩
  unfold neighbourDot
  simp only [e1, e2, hself]
  split
  · rename_i hin
    rw [e3 _ (by omega) _ (by omega) ⟨i, hi, j, hj, by omega, by omega⟩]
  · rfl

theorem lt_of_mem_flatPositions {rows cols : ℕ} {ij : ℕ × ℕ} (h : ij ∈ flatPositions rows cols) :
    ij.1 < rows ∧ ij.2 < cols := by
  unfold flatPositions at h
  simp only [List.mem_flatMap, List.mem_map, List.mem_range] at h
  obtain ⟨i, hi, j, hj, rfl⟩ := h
  exact ⟨hi, hj⟩

/-- C151: the dot products of a pattern with its neighbours and their average depend on the patterns
under the window only, whatever the other patterns and the chunks are. -/
theorem C151_dots_local (t : MetricType) (z n : Bool) {map map' : Img (ι → ℝ)} {w : Img Bool}
    {rowChunks colChunks rowChunks' colChunks' : List ℕ} (hr0 : 0 < w.rows) (hc0 : 0 < w.cols)
    (ho : w.val (w.rows / 2) (w.cols / 2) = true)
    (hr : rowChunks.sum = map.rows) (hc : colChunks.sum = map.cols)
    (hr' : rowChunks'.sum = map'.rows) (hc' : colChunks'.sum = map'.cols)
    (hodd : w.rows % 2 = 1 ∧ w.cols % 2 = 1) :
    ∃ mats mats' avg avg', dpMatricesNan t z n map w rowChunks colChunks = .ok mats ∧
      dpMatricesNan t z n map' w rowChunks' colChunks' = .ok mats' ∧
      adpMapNan t z n map w rowChunks colChunks = .ok avg ∧
      adpMapNan t z n map' w rowChunks' colChunks' = .ok avg' ∧
      ∀ r c, r < map.rows → c < map.cols → SameUnder w.rows w.cols map map' r c →
        (∀ i j, i < w.rows → j < w.cols →
          mats'.val r c (i * w.cols + j) = mats.val r c (i * w.cols + j)) ∧
        avg'.val r c = avg.val r c := by
  obtain ⟨center, hcen⟩ := centerIndex_origin hr0 hc0 ho
  unfold dpMatricesNan adpMapNan
  rw [hcen]
  refine ⟨_, _, _, _, rfl, rfl, rfl, rfl, fun r c hrm hcm hs => ?_⟩
  have hrm' : r < map'.rows := hs.1 ▸ hrm
  have hcm' : c < map'.cols := hs.2.1 ▸ hcm
  obtain ⟨h1, -⟩ := chunk_dots (neighbourProduct .float32 z n) hcen hc0 hr hc (Or.inl hodd.1)
    (Or.inl hodd.2) hrm hcm
  obtain ⟨h1', -⟩ := chunk_dots (neighbourProduct .float32 z n) hcen hc0 hr' hc' (Or.inl hodd.1)
    (Or.inl hodd.2) hrm' hcm'
  obtain ⟨-, h2⟩ := chunk_dots (neighbourProduct t z n) hcen hc0 hr hc (Or.inl hodd.1)
    (Or.inl hodd.2) hrm hcm
  obtain ⟨-, h2'⟩ := chunk_dots (neighbourProduct t z n) hcen hc0 hr' hc' (Or.inl hodd.1)
    (Or.inl hodd.2) hrm' hcm'
  constructor
  · intro i j hi hj
    simp only [mapOverlap, dpMatricesChunkNan]
    rw [h1 i j hi hj, h1' i j hi hj, neighbourDot_congr _ hrm hcm hs hr0 hc0 hi hj]
  · simp only [mapOverlap, adpChunkNan]
    rw [h2, h2']
    congr 1
    refine List.filterMap_congr fun ij hij => ?_
    obtain ⟨hi, hj⟩ := lt_of_mem_flatPositions hij
    rw [neighbourDot_congr _ hrm hcm hs hr0 hc0 hi hj]

theorem neighbourProduct_comm (t : MetricType) (z n : Bool) (a b : ι → ℝ) :
    neighbourProduct t z n a b = neighbourProduct t z n b a := by
  unfold neighbourProduct
  cases prepareNeighbour t z n a <;> cases prepareNeighbour t z n b <;>
    simp [dotPatterns, mul_comm]

/-- C151: two patterns see the same of each other: with a window which is the same turned upside down,
the dot product which the matrix of a map point has for a neighbour is the one which the neighbour's
matrix has for the map point. -/
theorem C151_dots_symmetric (t : MetricType) (z n : Bool) {map : Img (ι → ℝ)} {w : Img Bool}
    {rowChunks colChunks : List ℕ} (ho : w.val (w.rows / 2) (w.cols / 2) = true)
    (hsym : PointSymmetric w)
    (hr : rowChunks.sum = map.rows) (hc : colChunks.sum = map.cols) :
    ∃ mats, dpMatricesNan t z n map w rowChunks colChunks = .ok mats ∧
      ∀ r c r' c', r < map.rows → c < map.cols → r' < map.rows → c' < map.cols →
        ∀ i j, i < w.rows → j < w.cols → (r' : ℤ) = (r : ℤ) + i - (w.rows / 2 : ℕ) →
          (c' : ℤ) = (c : ℤ) + j - (w.cols / 2 : ℕ) →
          mats.val r' c' ((w.rows - 1 - i) * w.cols + (w.cols - 1 - j)) =
            mats.val r c (i * w.cols + j) := by
  obtain ⟨o1, o2, hw⟩ := hsym
  have hr0 : 0 < w.rows := by omega
  have hc0 : 0 < w.cols := by omega
  obtain ⟨center, hcen⟩ := centerIndex_origin hr0 hc0 ho
  unfold dpMatricesNan
  rw [hcen]
  refine ⟨_, rfl, fun r c r' c' hrm hcm hrm' hcm' i j hi hj er ec => ?_⟩
  obtain ⟨h1, -⟩ := chunk_dots (neighbourProduct .float32 z n) hcen hc0 hr hc (Or.inl o1)
    (Or.inl o2) hrm hcm
  obtain ⟨h1', -⟩ := chunk_dots (neighbourProduct .float32 z n) hcen hc0 hr hc (Or.inl o1)
    (Or.inl o2) hrm' hcm'
  simp only [mapOverlap, dpMatricesChunkNan]
  rw [h1 i j hi hj, h1' _ _ (by omega) (by omega)]
  congr 1
  unfold neighbourDot
  simp only [hw i hi j hj]
  have a1 : (r' : ℤ) + ((w.rows - 1 - i : ℕ) : ℤ) - ((w.rows / 2 : ℕ) : ℤ) = r := by omega
  have a2 : (c' : ℤ) + ((w.cols - 1 - j : ℕ) : ℤ) - ((w.cols / 2 : ℕ) : ℤ) = c := by omega
  rw [a1, a2, ← er, ← ec]
  simp only [Int.toNat_natCast]
  rw [neighbourProduct_comm]
  by_cases hv : w.val i j = true
  · rw [if_pos ⟨hv, by omega, by omega, by omega, by omega⟩, if_pos ⟨hv, by omega, by omega, by omega, by omega⟩]
  · rw [if_neg fun hh => hv hh.1, if_neg fun hh => hv hh.1]

theorem corrCoef_self {p : ι → ℝ} (h : NotFlat p) : corrCoef p p = 1 := by
  unfold corrCoef
  have hpos : 0 < ∑ i, (p i - meanOf p) ^ 2 := by
    by_contra hcon
    have h0 : ∑ i, (p i - meanOf p) ^ 2 = 0 :=
      le_antisymm (not_lt.1 hcon) (Finset.sum_nonneg fun i _ => sq_nonneg _)
    rw [Finset.sum_eq_zero_iff_of_nonneg fun i _ => sq_nonneg _] at h0
    obtain ⟨i, j, hij⟩ := h
    have hi := pow_eq_zero_iff (two_ne_zero) |>.1 (h0 i (Finset.mem_univ _))
    have hj := pow_eq_zero_iff (two_ne_zero) |>.1 (h0 j (Finset.mem_univ _))
    exact hij (by linarith)
  rw [Real.mul_self_sqrt hpos.le, div_eq_one_iff_eq hpos.ne']
  exact Finset.sum_congr rfl fun i _ => by ring

/-- C151: where all patterns under the window are the same and have contrast, all dot products with
existing neighbours and their average are one. -/
theorem C151_dots_uniform (t : MetricType) {map : Img (ι → ℝ)} {w : Img Bool}
    {rowChunks colChunks : List ℕ} (hr0 : 0 < w.rows) (hc0 : 0 < w.cols)
    (ho : w.val (w.rows / 2) (w.cols / 2) = true)
    (hr : rowChunks.sum = map.rows) (hc : colChunks.sum = map.cols)
    (hodd : w.rows % 2 = 1 ∧ w.cols % 2 = 1) :
    ∃ mats avg, dpMatricesNan t true true map w rowChunks colChunks = .ok mats ∧
      adpMapNan t true true map w rowChunks colChunks = .ok avg ∧
      ∀ r c, r < map.rows → c < map.cols → ∀ p : ι → ℝ,
        (∀ y < map.rows, ∀ x < map.cols, UnderWindow w.rows w.cols r c y x → map.val y x = p) →
        (NotFlat (fun i => MetricType.float32.fl (p i)) → ∀ i j r' c', i < w.rows → j < w.cols →
          w.val i j = true → r' < map.rows → c' < map.cols →
          (r' : ℤ) = (r : ℤ) + i - (w.rows / 2 : ℕ) → (c' : ℤ) = (c : ℤ) + j - (w.cols / 2 : ℕ) →
          mats.val r c (i * w.cols + j) = some 1) ∧
        (NotFlat (fun i => t.fl (p i)) → neighboursOf map w r c ≠ [] → avg.val r c = some 1) := by
  obtain ⟨mats, hm, hmats⟩ := C113_matrices_partial t hr0 hc0 ho hr hc (Or.inl hodd.1) (Or.inl hodd.2)
  obtain ⟨avg, ha, havg⟩ := C113_average_map_partial t hr0 hc0 ho hr hc (Or.inl hodd.1) (Or.inl hodd.2)
  refine ⟨mats, avg, hm, ha, fun r c hrm hcm p hp => ?_⟩
  have hself : map.val r c = p := hp r hrm c hcm
    ⟨w.rows / 2, Nat.div_lt_self hr0 one_lt_two, w.cols / 2, Nat.div_lt_self hc0 one_lt_two, by omega,
      by omega⟩
  constructor
  · intro hf i j r' c' hi hj hv hrm' hcm' er ec
    rw [hmats r c hrm hcm i j hi hj]
    unfold correlationAt converted
    simp only
    rw [← er, ← ec]
    simp only [Int.toNat_natCast]
    have hq := hp r' hrm' c' hcm' ⟨i, hi, j, hj, er, ec⟩
    have g1 : NotFlat fun i => MetricType.float32.fl (map.val r' c' i) := by rw [hq]; exact hf
    have g2 : NotFlat fun i => MetricType.float32.fl (map.val r c i) := by rw [hself]; exact hf
    refine (if_pos ⟨hv, by omega, by omega, by omega, by omega, g1, g2⟩).trans ?_
    rw [hself, hq, corrCoef_self hf]
  · intro hf hne
    rw [havg r c hrm hcm]
    have hall : ∀ q ∈ neighboursOf map w r c, q = p := by
      intro q hq
      unfold neighboursOf at hq
      rw [List.mem_filterMap] at hq
      obtain ⟨ij, hij, hq⟩ := hq
      obtain ⟨hi, hj⟩ := lt_of_mem_flatPositions hij
      simp only at hq
      split at hq
      · rename_i hin
        obtain rfl := Option.some.inj hq
        exact hp _ (by omega) _ (by omega) ⟨ij.1, hi, ij.2, hj, by omega, by omega⟩
      · cases hq
    have e0 : neighboursOf (converted t map) w r c =
        (neighboursOf map w r c).map (fun q i => t.fl (q i)) :=
      neighboursOf_map (V := ι → ℝ) (W := ι → ℝ) (fun q i => t.fl (q i)) map w r c
    have e1 : neighboursOf (converted t map) w r c =
        List.replicate (neighboursOf map w r c).length (fun i => t.fl (p i)) := by
      rw [e0, List.eq_replicate_iff]
      refine ⟨List.length_map _, fun b hb => ?_⟩
      obtain ⟨q, hq, rfl⟩ := List.mem_map.1 hb
      rw [hall q hq]
    have e2 : (converted t map).val r c = fun i => t.fl (p i) := by
      unfold converted
      simp only [hself]
    have hlen : 0 < (neighboursOf map w r c).length := List.length_pos_iff.2 hne
    unfold averageCorrelation
    simp only
    have this : ((neighboursOf map w r c).length : ℝ) ≠ 0 := by exact_mod_cast hlen.ne'
    rw [e1, e2]
    simp [hf, hne, corrCoef_self hf, this]

end

/-! ### Orientation similarity -/

section
variable {K : Type} [Field K] [LinearOrder K] [IsStrictOrderedRing K]

/-- C151: the orientation similarity of a map point depends on the best matches under the footprint
only. -/
theorem C151_similarity_local {rows cols keepN n fromN : ℕ} {sims sims' : ℕ → ℕ → ℤ} {foot : Img Bool}
    {center : ℕ} (hn : n ≤ keepN) (hcen : centerIndex foot = .ok center) (normalize : Bool)
    {out out' : List (Img (Option K))}
    (h : orientationSimilarityMap [rows, cols] (rows * cols) keepN sims (some n) normalize
        (some fromN) foot center = .ok out)
    (h' : orientationSimilarityMap [rows, cols] (rows * cols) keepN sims' (some n) normalize
        (some fromN) foot center = .ok out')
    {r c : ℕ} (hr : r < rows) (hc : c < cols) (hr0 : 0 < foot.rows) (hc0 : 0 < foot.cols)
    (hsame : ∀ y < rows, ∀ x < cols, UnderWindow foot.rows foot.cols r c y x →
      ∀ k < n, sims' (y * cols + x) k = sims (y * cols + x) k) :
    out'.length = out.length ∧ ∀ (i : ℕ) (m m' : Img (Option K)), out[i]? = some m → out'[i]? = some m' →
      m'.val r c = m.val r c := by
  obtain ⟨o, ho, hl, hv⟩ := C27_similarity_partial (K := K) (rows := rows) (cols := cols) (sims := sims)
    (fromN := fromN) hn hcen normalize
  obtain ⟨o', ho', hl', hv'⟩ := C27_similarity_partial (K := K) (rows := rows) (cols := cols) (sims := sims')
    (fromN := fromN) hn hcen normalize
  rw [h] at ho
  rw [h'] at ho'
  cases ho
  cases ho'
  refine ⟨hl'.trans hl.symm, fun i m m' hm hm' => ?_⟩
  rw [hv i m hm r c hr hc, hv' i m' hm' r c hr hc]
  have hset : ∀ y < rows, ∀ x < cols, UnderWindow foot.rows foot.cols r c y x →
      bestSet cols sims' (n - i) y x = bestSet cols sims (n - i) y x := by
    intro y hy x hx hu
    unfold bestSet
    refine Finset.image_congr fun k hk => ?_
    exact hsame y hy x hx hu k (by have := Finset.mem_range.1 (Finset.mem_coe.1 hk); omega)
  have hsim : similarity (K := K) rows cols sims' foot (n - i) r c =
      similarity rows cols sims foot (n - i) r c := by
    unfold similarity
    simp only
    congr 2
    refine List.map_congr_left fun p hp => ?_
    unfold footNeighbours at hp
    rw [List.mem_filterMap] at hp
    obtain ⟨ij, hij, hp⟩ := hp
    obtain ⟨hi, hj⟩ := lt_of_mem_flatPositions hij
    simp only at hp
    split at hp
    · rename_i hin
      obtain rfl := Option.some.inj hp
      rw [hset r hr c hc ⟨foot.rows / 2, Nat.div_lt_self hr0 one_lt_two, foot.cols / 2,
          Nat.div_lt_self hc0 one_lt_two, by omega, by omega⟩,
        hset _ (by omega) _ (by omega) ⟨ij.1, hi, ij.2, hj, by omega, by omega⟩]
    · cases hp
  rw [hsim]

end

/-! ### Examples -/

/-- A map of patterns with three pixels. -/
def exNeighbourMap (far : ℚ) : Img (ℕ → ℚ) :=
  { rows := 2, cols := 4, val := fun r c px => if c = 3 then far * px * px else (px : ℚ) * (r + 2 * c + 1) - px * px }

/-- A case of `C151_average_local`: another pattern in the last column. -/
example : SameUnder 3 3 (exNeighbourMap 1) (exNeighbourMap 5) 0 1 ∧
    ¬ SameUnder 3 3 (exNeighbourMap 1) (exNeighbourMap 5) 0 2 := by
  constructor
  · refine ⟨rfl, rfl, fun y _ x _ hu => ?_⟩
    obtain ⟨i, hi, j, hj, h1, h2⟩ := hu
    have : x ≠ 3 := by omega
    funext px
    simp [exNeighbourMap, this]
  · rintro ⟨_, _, h⟩
    have := congrFun (h 0 (by decide) 3 (by decide) ⟨1, by omega, 2, by omega, by omega, by omega⟩) 1
    revert this
    decide +kernel

example :
    let avg := fun far => (averageNeighbourPatterns (exNeighbourMap far) 3 (.uint 8) [3, 3]
      (fun _ _ => 1) [1, 1] [4]).toOption
    (avg 1).map (fun o => [o.val 0 1, o.val 0 2]) =
      some [some [0, 212, 255], some [0, 145, 255]] ∧
    (avg 5).map (fun o => [o.val 0 1, o.val 0 2]) =
      some [some [0, 212, 255], some [0, 102, 255]] := by
  decide +kernel

/-- A case of `C151_window_scale` and `C151_average_uniform`: nine ones, or nine halves, in the corner of
a map. -/
example : 1 ≤ weightInMap (K := ℚ) 2 4 3 3 (fun _ _ => 1) 0 0 ∧
    1 ≤ 1 / 2 * weightInMap (K := ℚ) 2 4 3 3 (fun _ _ => 1) 0 0 := by
  decide +kernel

/-- A case of `C151_dots_symmetric`. -/
example : PointSymmetric crossWindow ∧ ¬ PointSymmetric { rows := 3, cols := 3, val := fun i _ => i ≤ 1 } := by
  refine ⟨⟨rfl, rfl, by decide⟩, fun h => absurd (h.2.2 0 (by decide) 0 (by decide)) (by decide)⟩

/-- A case of `C151_dots_uniform`: three equal patterns with contrast. -/
example : ∃ avg, adpMapNan .float64 true true
      { rows := 1, cols := 3, val := fun _ _ (i : Fin 2) => if i = 0 then 0 else 1 } rowWindow [1] [2, 1] =
        .ok avg ∧ avg.val 0 1 = some 1 := by
  obtain ⟨_, _, _, _, f5, f6⟩ := fl_twoPatterns
  obtain ⟨mats, avg, _, ha, h⟩ := C151_dots_uniform .float64
    (map := { rows := 1, cols := 3, val := fun _ _ (i : Fin 2) => if i = 0 then 0 else 1 })
    (w := rowWindow) (rowChunks := [1]) (colChunks := [2, 1]) (by decide) (by decide) rfl rfl rfl
    ⟨rfl, rfl⟩
  refine ⟨avg, ha, (h 0 1 Nat.zero_lt_one (by decide) _ (fun _ _ _ _ _ => rfl)).2 ⟨0, 1, ?_⟩ ?_⟩
  · simp [f5, f6]
  · unfold neighboursOf
    simp [rowWindow, flatPositions, List.range_succ]

end Kp
