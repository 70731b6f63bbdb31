import Verif.Lemmas.Neighbours
import Mathlib.Data.Rat.Floor

/-
C18: neighbour averaging does not depend on chunking.
C19: neighbour dot products do not depend on chunking.
C20: the average neighbour dot product map is consistent with the dot product matrices.
-/

set_option linter.unusedSectionVars false

namespace Kp

open Spec

section
variable {K : Type*} [Field K] [LinearOrder K] [IsStrictOrderedRing K] [FloorRing K]

/-- What the averaged pattern of a map point is, in terms of the whole map: the chunks do not
occur on the right hand side. -/
theorem averageNeighbour_value {map : Img (ℕ → K)} {m : ℕ} {d : DType} {ws : List ℕ} {wr wc : ℕ}
    {coeff : ℕ → ℕ → K} {rowChunks colChunks : List ℕ} {omin omax : ℤ}
    (hd : dtypeRange d = some (omin, omax))
    (hws : ws = [wr, wc] ∨ ws = [wr] ∧ wc = 1 ∧ map.cols ≤ colChunks.headD 0)
    (hw : ¬ (wr = 1 ∧ wc = 1))
    (hr : rowChunks.sum = map.rows) (hc : colChunks.sum = map.cols) :
    ∃ out, averageNeighbourPatterns map m d ws coeff rowChunks colChunks = .ok out ∧
      out.rows = map.rows ∧ out.cols = map.cols ∧
      ∀ r c, r < map.rows → c < map.cols →
        out.val r c =
          let w : Img K := { rows := wr, cols := wc, val := coeff }
          let s := truncInt (neighbourSum map.rows map.cols w (fun _ _ => 1) r c)
          let p := (List.range m).map (fun px =>
            neighbourSum map.rows map.cols w (fun y x => map.val y x px) r c / (s : K))
          if s = 0 then none
          else some ((rescaleWithMinMax p (listMin p) (listMax p) omin omax).map (castTo d)) := by
  have hdr : ∀ (cs : List ℕ) (n i s : ℕ), (ws[i]? = some s ∨ n ≤ cs.headD 0) → cs.sum = n →
      ∃ dd, averageDepth ws cs n i = .ok dd ∧ ∀ j < n,
        (overlapBounds cs n dd j).1 ≤ j ∧ (overlapBounds cs n dd j).2 ≤ n ∧
        ∀ k : ℤ, 0 ≤ k → k < s → 0 ≤ (j : ℤ) + k - (s / 2 : ℕ) →
          (j : ℤ) + k - (s / 2 : ℕ) < n →
          ((overlapBounds cs n dd j).1 : ℤ) ≤ j + k - (s / 2 : ℕ) ∧
            (j : ℤ) + k - (s / 2 : ℕ) < (overlapBounds cs n dd j).2 := by
    intro cs n i s hs hsum
    unfold averageDepth
    split
    · rename_i hlt
      rcases hs with hs | hs
      · rw [hs]
        refine ⟨_, rfl, fun j hj => ?_⟩
        have := overlapBounds_spec cs n (s / 2 + 1) j hsum hj
        refine ⟨by omega, by omega, fun k h1 h2 h3 h4 => ?_⟩
        omega
      · omega
    · rename_i hh
      refine ⟨_, rfl, fun j hj => ?_⟩
      rw [overlapBounds_single cs n 1 j _ hj]
      · refine ⟨by simp, le_refl _, fun k h1 h2 h3 h4 => ?_⟩
        dsimp only
        omega
      · cases cs with
        | nil => simp at hsum; omega
        | cons c cs => exact ⟨c, cs, rfl, by simpa using hh⟩
  obtain ⟨dr, hdr1, hdr2⟩ := hdr rowChunks map.rows 0 wr
    (by rcases hws with h | ⟨h, _⟩ <;> rw [h] <;> simp) hr
  obtain ⟨dc, hdc1, hdc2⟩ := hdr colChunks map.cols 1 wc
    (by rcases hws with h | ⟨_, _, h⟩
        · rw [h]; simp
        · exact Or.inr h) hc
  have g0 : ws.getD 0 1 = wr := by rcases hws with h | ⟨h, _⟩ <;> rw [h] <;> simp
  have g1 : ws.getD 1 1 = wc := by
    rcases hws with h | ⟨h, h', _⟩ <;> rw [h]
    · simp
    · simp [h']
  have g2 : ¬ (ws = [1] ∨ ws = [1, 1]) := by
    rcases hws with h | ⟨h, h', _⟩ <;> rw [h]
    · simpa using hw
    · simp only [List.cons.injEq, and_true]
      rintro (rfl | h'') <;> simp_all
  have heq : averageNeighbourPatterns map m d ws coeff rowChunks colChunks =
      .ok (mapOverlap rowChunks colChunks dr dc
        (averageChunk { rows := wr, cols := wc, val := coeff } m d omin omax)
        { rows := map.rows
          cols := map.cols
          val := fun r c => (map.val r c, windowSums map.rows map.cols
            { rows := wr, cols := wc, val := coeff } r c) }) := by
    unfold averageNeighbourPatterns
    rw [if_neg g2]
    simp only [hdr1, hdc1, hd, g0, g1]
  refine ⟨_, heq, rfl, rfl, ?_⟩
  intro r c hr' hc'
  obtain ⟨a1, a2, a3⟩ := hdr2 r hr'
  obtain ⟨b1, b2, b3⟩ := hdc2 c hc'
  simp only [mapOverlap, averageChunk]
  have e1 := fun f : (ℕ → K) × ℤ → K =>
    correlateConst_sub (K := K)
      ({ rows := map.rows
         cols := map.cols
         val := fun r c => (map.val r c, windowSums map.rows map.cols
           { rows := wr, cols := wc, val := coeff } r c) } : Img ((ℕ → K) × ℤ)) f
      { rows := wr, cols := wc, val := coeff } _ _ _ _ r c a1 b1 a2 b2 a3 b3
  simp only [e1, correlateConst_eq]
  simp only [subImg, Nat.add_sub_cancel' a1, Nat.add_sub_cancel' b1, windowSums, correlateConst_eq]

/-- C18 (chunks): with any two chunkings of the map, the averaged patterns are the same. -/
theorem C18_chunk_independent {map : Img (ℕ → K)} {m : ℕ} {d : DType} {wr wc : ℕ}
    {coeff : ℕ → ℕ → K} {rowChunks colChunks rowChunks' colChunks' : List ℕ} {omin omax : ℤ}
    (hd : dtypeRange d = some (omin, omax)) (hw : ¬ (wr = 1 ∧ wc = 1))
    (hr : rowChunks.sum = map.rows) (hc : colChunks.sum = map.cols)
    (hr' : rowChunks'.sum = map.rows) (hc' : colChunks'.sum = map.cols) :
    ∃ out out', averageNeighbourPatterns map m d [wr, wc] coeff rowChunks colChunks = .ok out ∧
      averageNeighbourPatterns map m d [wr, wc] coeff rowChunks' colChunks' = .ok out' ∧
      ∀ r c, r < map.rows → c < map.cols → out.val r c = out'.val r c := by
  obtain ⟨o1, h1, _, _, v1⟩ := averageNeighbour_value (coeff := coeff) (m := m) hd (Or.inl rfl)
    hw hr hc
  obtain ⟨o2, h2, _, _, v2⟩ := averageNeighbour_value (coeff := coeff) (m := m) hd (Or.inl rfl)
    hw hr' hc'
  refine ⟨o1, o2, h1, h2, fun r c hr hc => ?_⟩
  rw [v1 r c hr hc, v2 r c hr hc]

/-- C18 (mean): for windows with non-negative coefficients and a coefficient of at least 1 in
the origin (as the windows from `Window` with an odd shape), each pattern becomes the
window-weighted mean of the in-map neighbours' patterns, normalised by the weights inside the
map, rescaled to the range of the data type. Partial: not for all windows, see
`C18_normalized_window`; a window with one axis on a map with chunked columns, see
`C18_one_axis_window`. (Where the mean is constant, NumPy gives NaN, here division by 0 is
0.) -/
theorem C18_weighted_mean_partial {map : Img (ℕ → K)} {m : ℕ} {d : DType} {ws : List ℕ}
    {wr wc : ℕ} {coeff : ℕ → ℕ → K} {rowChunks colChunks : List ℕ} {omin omax : ℤ}
    (hd : dtypeRange d = some (omin, omax))
    (hws : ws = [wr, wc] ∨ ws = [wr] ∧ wc = 1 ∧ map.cols ≤ colChunks.headD 0)
    (hw : ¬ (wr = 1 ∧ wc = 1)) (hr0 : 0 < wr) (hc0 : 0 < wc)
    (hpos : ∀ i j, i < wr → j < wc → 0 ≤ coeff i j) (hone : 1 ≤ coeff (wr / 2) (wc / 2))
    (hr : rowChunks.sum = map.rows) (hc : colChunks.sum = map.cols) :
    ∃ out, averageNeighbourPatterns map m d ws coeff rowChunks colChunks = .ok out ∧
      out.rows = map.rows ∧ out.cols = map.cols ∧
      ∀ r c, r < map.rows → c < map.cols →
        out.val r c =
          let p := (List.range m).map (fun px => neighbourMean map.rows map.cols
            { rows := wr, cols := wc, val := coeff } (fun y x => map.val y x px) r c)
          some ((rescaleWithMinMax p (listMin p) (listMax p) omin omax).map (castTo d)) := by
  obtain ⟨o1, h1, g1, g2, v1⟩ := averageNeighbour_value (coeff := coeff) (m := m) hd hws hw hr hc
  refine ⟨o1, h1, g1, g2, fun r c hr hc => ?_⟩
  rw [v1 r c hr hc]
  simp only
  have hS : 1 ≤ neighbourSum map.rows map.cols { rows := wr, cols := wc, val := coeff }
      (fun _ _ => (1 : K)) r c := by
    unfold neighbourSum
    simp only
    have hnn : ∀ i ∈ Finset.range wr, ∀ j ∈ Finset.range wc,
        0 ≤ (if 0 ≤ (r : ℤ) + i - (wr / 2 : ℕ) ∧ (r : ℤ) + i - (wr / 2 : ℕ) < map.rows ∧
          0 ≤ (c : ℤ) + j - (wc / 2 : ℕ) ∧ (c : ℤ) + j - (wc / 2 : ℕ) < map.cols then
          coeff i j * 1 else 0) := by
      intro i hi j hj
      split
      · rw [mul_one]
        exact hpos i j (Finset.mem_range.1 hi) (Finset.mem_range.1 hj)
      · exact le_refl _
    have hi0 : wr / 2 ∈ Finset.range wr := Finset.mem_range.2 (by omega)
    have hj0 : wc / 2 ∈ Finset.range wc := Finset.mem_range.2 (by omega)
    refine le_trans ?_ (Finset.single_le_sum (fun i hi => Finset.sum_nonneg (hnn i hi)) hi0)
    refine le_trans ?_ (Finset.single_le_sum (hnn _ hi0) hj0)
    rw [if_pos (by omega), mul_one]
    exact hone
  have hs : 1 ≤ truncInt (neighbourSum map.rows map.cols { rows := wr, cols := wc, val := coeff }
      (fun _ _ => (1 : K)) r c) := by
    unfold truncInt
    rw [if_pos (le_trans zero_le_one hS), Int.le_floor]
    exact_mod_cast hS
  obtain ⟨S, hSdef⟩ : ∃ S, S = neighbourSum map.rows map.cols
      { rows := wr, cols := wc, val := coeff } (fun _ _ => (1 : K)) r c := ⟨_, rfl⟩
  unfold neighbourMean
  rw [← hSdef] at hS hs ⊢
  rw [if_neg (by omega)]
  have hsK : (0 : K) < (truncInt S : K) := by exact_mod_cast (by omega : 0 < truncInt S)
  have hS0 : 0 < S := lt_of_lt_of_le one_pos hS
  have e : (List.range m).map (fun px => neighbourSum map.rows map.cols
        { rows := wr, cols := wc, val := coeff } (fun y x => map.val y x px) r c /
          (truncInt S : K)) =
      ((List.range m).map (fun px => neighbourSum map.rows map.cols
        { rows := wr, cols := wc, val := coeff } (fun y x => map.val y x px) r c / S)).map
        ((S / (truncInt S : K)) * ·) := by
    rw [List.map_map]
    refine List.map_congr_left fun px _ => ?_
    simp only [Function.comp]
    field_simp
  rw [e, rescale_scale (div_pos hS0 hsK)]

end

/-- The hypotheses are met, the averaged pattern of a 2 × 2 map of patterns with two pixels,
3 × 3 window of ones. -/
example : ((averageNeighbourPatterns (K := ℚ)
    { rows := 2, cols := 2, val := fun r c px => (px : ℚ) * (r + 2 * c + 1) } 3 (.uint 8) [3, 3]
    (fun _ _ => 1) [1, 1] [2]).toOption.map (fun o => o.val 1 0)) =
      some (some [0, 127, 255]) := by decide +kernel

/-- C18 is false for windows whose coefficients add up to less than 1 inside the map: the sums
used for normalisation are integers, rounded down to 0. With the normalized 3 × 3 window of
1/9, the averaged pattern in the map corner is not finite, although the weighted mean is. -/
theorem C18_normalized_window :
    ∃ out, averageNeighbourPatterns (K := ℚ)
        { rows := 3, cols := 3, val := fun r c px => (px : ℚ) * (r + 2 * c + 1) } 2 (.uint 8)
        [3, 3] (fun _ _ => 1 / 9) [3] [3] = .ok out ∧
      out.val 0 0 = none ∧ (out.val 1 1).isSome ∧
      neighbourMean 3 3 { rows := 3, cols := 3, val := fun _ _ => (1 / 9 : ℚ) }
        (fun y x => (y + 2 * x + 1)) 0 0 = 5 / 2 := by
  refine ⟨_, rfl, ?_, ?_, ?_⟩ <;> decide +kernel

/-- C18 is false for windows with one axis on maps with two navigation axes when the columns
are in more than one chunk: `IndexError`. With the columns in one chunk there is no error. -/
theorem C18_one_axis_window :
    averageNeighbourPatterns (K := ℚ)
        { rows := 3, cols := 2, val := fun r c px => (px : ℚ) * (r + 2 * c + 1) } 2 (.uint 8)
        [3] (fun _ _ => 1) [3] [1, 1] = .error .indexError ∧
      ∃ out, averageNeighbourPatterns (K := ℚ)
        { rows := 3, cols := 2, val := fun r c px => (px : ℚ) * (r + 2 * c + 1) } 2 (.uint 8)
        [3] (fun _ _ => 1) [3] [2] = .ok out :=
  ⟨rfl, _, rfl⟩

/-! ### Dot products -/

section
variable {V K : Type*}

theorem centerIndex_origin {w : Img Bool} (hr : 0 < w.rows) (hc : 0 < w.cols)
    (ho : w.val (w.rows / 2) (w.cols / 2) = true) : ∃ center, centerIndex w = .ok center := by
  unfold centerIndex
  simp only
  rw [if_pos]
  · exact ⟨_, rfl⟩
  · rw [mem_truthy, (origin_div hc).1, (origin_div hc).2]
    refine ⟨?_, ho⟩
    have h1 : w.rows / 2 + 1 ≤ w.rows := by omega
    calc w.rows / 2 * w.cols + w.cols / 2 < w.rows / 2 * w.cols + w.cols := by omega
      _ = (w.rows / 2 + 1) * w.cols := by ring
      _ ≤ w.rows * w.cols := Nat.mul_le_mul_right _ h1

/-- The extended chunk covers the window if its length is odd or the axis is one chunk. -/
theorem dpDepth_covers {n s : ℕ} {cs : List ℕ} (hsum : cs.sum = n) (h : s % 2 = 1 ∨ n ∈ cs) :
    ∀ j < n, ∀ k : ℕ, k < s → 0 ≤ (j : ℤ) + k - (s / 2 : ℕ) → (j : ℤ) + k - (s / 2 : ℕ) < n →
      ((overlapBounds cs n (dpDepth s cs n) j).1 : ℤ) ≤ j + k - (s / 2 : ℕ) ∧
        (j : ℤ) + k - (s / 2 : ℕ) < (overlapBounds cs n (dpDepth s cs n) j).2 := by
  intro j hj k hk h1 h2
  by_cases hm : n ∈ cs
  · unfold overlapBounds
    rw [chunkBounds_whole cs n 0 j hm hsum (by omega) (by omega)]
    dsimp only
    omega
  · have hs : s % 2 = 1 := by tauto
    have hd : dpDepth s cs n = s - s / 2 - 1 := by
      unfold dpDepth
      rw [if_pos]
      intro e
      rcases foldl_max_mem cs 0 with h' | h'
      · omega
      · exact hm (e ▸ h')
    rw [hd]
    have := overlapBounds_spec cs n (s - s / 2 - 1) j hsum hj
    omega

/-- The matrix and the list of dot products computed in the chunk of one map point are those of the
whole map. -/
theorem chunk_dots (dp : V → V → K) {map : Img V} {w : Img Bool} {center : ℕ}
    {rowChunks colChunks : List ℕ} (hcen : centerIndex w = .ok center) (hc0 : 0 < w.cols)
    (hr : rowChunks.sum = map.rows) (hc : colChunks.sum = map.cols)
    (hrodd : w.rows % 2 = 1 ∨ map.rows ∈ rowChunks)
    (hcodd : w.cols % 2 = 1 ∨ map.cols ∈ colChunks) {r c : ℕ} (hr' : r < map.rows)
    (hc' : c < map.cols) :
    let rb := overlapBounds rowChunks map.rows (dpDepth w.rows rowChunks map.rows) r
    let cb := overlapBounds colChunks map.cols (dpDepth w.cols colChunks map.cols) c
    let sub := subImg map rb.1 rb.2 cb.1 cb.2
    (∀ i j, i < w.rows → j < w.cols →
      (dpMatricesChunk dp w center sub).val (r - rb.1) (c - cb.1) (i * w.cols + j) =
        neighbourDot dp map w r c i j) ∧
      neighbourDots dp sub (filterIndices sub.rows sub.cols w (r - rb.1) (c - cb.1)) center =
        (flatPositions w.rows w.cols).filterMap (fun ij =>
          if ij = (w.rows / 2, w.cols / 2) then none else neighbourDot dp map w r c ij.1 ij.2) := by
  have hrb := overlapBounds_spec rowChunks map.rows (dpDepth w.rows rowChunks map.rows) r hr hr'
  have hcb := overlapBounds_spec colChunks map.cols (dpDepth w.cols colChunks map.cols) c hc hc'
  have hrc := dpDepth_covers hr hrodd r hr'
  have hcc := dpDepth_covers hc hcodd c hc'
  intro rb cb sub
  have hrbd : overlapBounds rowChunks map.rows (dpDepth w.rows rowChunks map.rows) r = rb := rfl
  have hcbd : overlapBounds colChunks map.cols (dpDepth w.cols colChunks map.cols) c = cb := rfl
  rw [hrbd] at hrb hrc
  rw [hcbd] at hcb hcc
  clear_value rb cb
  have hsub : ∀ i j, i < w.rows → j < w.cols →
      neighbourDot dp sub w (r - rb.1) (c - cb.1) i j =
        neighbourDot dp map w r c i j := fun i j hi hj =>
    neighbourDot_sub dp map w rb.1 rb.2 cb.1 cb.2 r c i j (by omega) (by omega) (by omega)
      (by omega) (hrc i hi) (hcc j hj)
  have hin1 : r - rb.1 < sub.rows := by
    show r - rb.1 < rb.2 - rb.1
    omega
  have hin2 : c - cb.1 < sub.cols := by
    show c - cb.1 < cb.2 - cb.1
    omega
  refine ⟨fun i j hi hj => ?_, ?_⟩
  · rw [dpMatricesChunk_eq hcen _ dp hin1 hin2]
    · rw [Nat.mul_comm i, Nat.mul_add_div hc0, Nat.div_eq_of_lt hj, Nat.mul_add_mod,
        Nat.mod_eq_of_lt hj, add_zero]
      exact hsub i j hi hj
    · calc i * w.cols + j < i * w.cols + w.cols := by omega
        _ = (i + 1) * w.cols := by ring
        _ ≤ w.rows * w.cols := Nat.mul_le_mul_right _ hi
  · rw [neighbourDots_eq hcen _ dp hin1 hin2, flatPositions_eq _ _ hc0, List.filterMap_map]
    refine List.filterMap_congr fun k hk => ?_
    rw [List.mem_range] at hk
    simp only [Function.comp, Prod.mk.injEq]
    have hiff : k = w.rows / 2 * w.cols + w.cols / 2 ↔
        k / w.cols = w.rows / 2 ∧ k % w.cols = w.cols / 2 := by
      constructor
      · rintro rfl
        exact origin_div hc0
      · rintro ⟨h1, h2⟩
        rw [← h1, ← h2, Nat.mul_comm]
        exact (Nat.div_add_mod k w.cols).symm
    by_cases hko : k = w.rows / 2 * w.cols + w.cols / 2
    · rw [if_pos hko, if_pos (hiff.1 hko)]
    · rw [if_neg hko, if_neg (fun h => hko (hiff.2 h)),
        hsub _ _ (Nat.div_lt_of_lt_mul (by rw [Nat.mul_comm]; exact hk)) (Nat.mod_lt _ hc0)]

/-- C19: for windows with odd axes (or axes in one chunk) and a `True` origin, whatever the
chunking of the map, the dot product matrix of every map point has the dot product with every
in-map neighbour under the window and NaN elsewhere, and the average dot product map has their
mean, without the point itself. Partial: false for windows with an even axis on chunked maps,
see `C19_even_window`. -/
theorem C19_dot_products_partial [Field K] (dp : V → V → K) {map : Img V} {w : Img Bool}
    {rowChunks colChunks : List ℕ} (hr0 : 0 < w.rows) (hc0 : 0 < w.cols)
    (ho : w.val (w.rows / 2) (w.cols / 2) = true)
    (hr : rowChunks.sum = map.rows) (hc : colChunks.sum = map.cols)
    (hrodd : w.rows % 2 = 1 ∨ map.rows ∈ rowChunks)
    (hcodd : w.cols % 2 = 1 ∨ map.cols ∈ colChunks) :
    ∃ mats avg, dpMatrices dp map w rowChunks colChunks = .ok mats ∧
      adpMap dp map w rowChunks colChunks = .ok avg ∧
      ∀ r c, r < map.rows → c < map.cols →
        (∀ i j, i < w.rows → j < w.cols →
          mats.val r c (i * w.cols + j) = neighbourDot dp map w r c i j) ∧
        avg.val r c = averageDot dp map w r c := by
  obtain ⟨center, hcen⟩ := centerIndex_origin hr0 hc0 ho
  unfold dpMatrices adpMap
  rw [hcen]
  refine ⟨_, _, rfl, rfl, fun r c hr' hc' => ?_⟩
  obtain ⟨h1, h2⟩ := chunk_dots dp hcen hc0 hr hc hrodd hcodd hr' hc'
  refine ⟨h1, ?_⟩
  simp only [mapOverlap, adpChunk]
  rw [h2]
  rfl

/-- C19 for windows whose origin is `False`: `IndexError`, before any computation. -/
theorem C19_false_origin [Field K] (dp : V → V → K) (map : Img V) {w : Img Bool} (hc0 : 0 < w.cols)
    (rowChunks colChunks : List ℕ) (ho : w.val (w.rows / 2) (w.cols / 2) = false) :
    dpMatrices dp map w rowChunks colChunks = .error .indexError ∧
      adpMap dp map w rowChunks colChunks = .error .indexError := by
  have : centerIndex w = .error .indexError := by
    unfold centerIndex
    simp only
    rw [if_neg]
    rw [mem_truthy, (origin_div hc0).1, (origin_div hc0).2, ho]
    simp
  unfold dpMatrices adpMap
  rw [this]
  exact ⟨rfl, rfl⟩

/-- C20: the map computed from the dot product matrices is the one computed directly, for
every map, window and chunking. -/
theorem C20_consistent [Field K] (dp : V → V → K) {map : Img V} {w : Img Bool}
    {rowChunks colChunks : List ℕ} (hr0 : 0 < w.rows) (hc0 : 0 < w.cols)
    (ho : w.val (w.rows / 2) (w.cols / 2) = true)
    (hr : rowChunks.sum = map.rows) (hc : colChunks.sum = map.cols) :
    ∃ mats avg, dpMatrices dp map w rowChunks colChunks = .ok mats ∧
      adpMap dp map w rowChunks colChunks = .ok avg ∧
      (adpFromMatrices w mats).rows = avg.rows ∧ (adpFromMatrices w mats).cols = avg.cols ∧
      ∀ r c, r < map.rows → c < map.cols →
        (adpFromMatrices w mats).val r c = avg.val r c := by
  obtain ⟨center, hcen⟩ := centerIndex_origin hr0 hc0 ho
  unfold dpMatrices adpMap
  rw [hcen]
  refine ⟨_, _, rfl, rfl, rfl, rfl, fun r c hr' hc' => ?_⟩
  have hrb := overlapBounds_spec rowChunks map.rows (dpDepth w.rows rowChunks map.rows) r hr hr'
  have hcb := overlapBounds_spec colChunks map.cols (dpDepth w.cols colChunks map.cols) c hc hc'
  simp only [mapOverlap, adpFromMatrices, adpChunk]
  obtain ⟨rb, hrbd⟩ : ∃ rb, rb = overlapBounds rowChunks map.rows
    (dpDepth w.rows rowChunks map.rows) r := ⟨_, rfl⟩
  obtain ⟨cb, hcbd⟩ : ∃ cb, cb = overlapBounds colChunks map.cols
    (dpDepth w.cols colChunks map.cols) c := ⟨_, rfl⟩
  rw [← hrbd] at hrb ⊢
  rw [← hcbd] at hcb ⊢
  have hin1 : r - rb.1 < (subImg map rb.1 rb.2 cb.1 cb.2).rows := by
    show r - rb.1 < rb.2 - rb.1
    omega
  have hin2 : c - cb.1 < (subImg map rb.1 rb.2 cb.1 cb.2).cols := by
    show c - cb.1 < cb.2 - cb.1
    omega
  rw [neighbourDots_eq hcen _ dp hin1 hin2]
  congr 1
  refine List.filterMap_congr fun k hk => ?_
  rw [List.mem_range] at hk
  rw [dpMatricesChunk_eq hcen _ dp hin1 hin2 hk]

end

/-- The cross window of `False` corners, as `Window("circular", (3, 3))`. -/
def crossWindow : Img Bool :=
  { rows := 3, cols := 3, val := fun i j => i == 1 || j == 1 }

/-- The hypotheses of C19 and C20 are met, the map in chunks of one row. -/
example : (adpMap (fun x y : ℚ => x * y) { rows := 2, cols := 2, val := fun r c => r + 2 * c + 1 }
    crossWindow [1, 1] [2]).toOption.map (fun o => [o.val 0 0, o.val 1 0]) =
      some [some (5 / 2), some 5] := by decide +kernel

/-- C19 is false for windows with an even axis: the overlap of the chunks is the number of
neighbours *after* the origin, one less than before. A map of two rows and one column, window
of two rows: with the rows in one chunk the second point has its neighbour, with the rows in
two chunks it has none. -/
theorem C19_even_window :
    let dp : ℚ → ℚ → ℚ := fun x y => x * y
    let map : Img ℚ := { rows := 2, cols := 1, val := fun r _ => r + 1 }
    let w : Img Bool := { rows := 2, cols := 1, val := fun _ _ => true }
    (∃ o, adpMap dp map w [2] [1] = .ok o ∧ o.val 1 0 = some 2) ∧
      (∃ o, adpMap dp map w [1, 1] [1] = .ok o ∧ o.val 1 0 = none) ∧
      averageDot dp map w 1 0 = some 2 := by
  refine ⟨⟨_, rfl, ?_⟩, ⟨_, rfl, ?_⟩, ?_⟩ <;> decide +kernel

end Kp
