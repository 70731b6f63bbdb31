import Verif.Model.Window
import Verif.Spec.Window
import Mathlib.Tactic.Linarith
import Mathlib.Tactic.Ring
import Mathlib.Tactic.FieldSimp
import Mathlib.Tactic.NormNum
import Mathlib.Tactic.Positivity

/-
C16: circular windows. C17: low- and high-pass transfer functions. C61: modified Hann
window.
-/

namespace Kp

open Spec

private theorem distance_shape (n0 n1 : ℕ) :
    (distanceToOrigin [n0, n1]).shape =
      (if n0 = 1 then [] else [n0]) ++ (if n1 = 1 then [] else [n1]) := by
  unfold distanceToOrigin squeeze
  by_cases h0 : n0 = 1 <;> by_cases h1 : n1 = 1 <;> simp [h0, h1]

private theorem distance_val (n0 n1 i j : ℕ) (hi : i < n0) (hj : j < n1) :
    (distanceToOrigin [n0, n1]).val
      ((if n0 = 1 then [] else [i]) ++ (if n1 = 1 then [] else [j])) = elemDist n0 n1 i j := by
  unfold distanceToOrigin squeeze elemDist
  by_cases h0 : n0 = 1
  · have : i = 0 := by omega
    subst h0 this
    by_cases h1 : n1 = 1
    · have : j = 0 := by omega
      subst h1 this
      simp [unsqueezeIdx]
    · simp [unsqueezeIdx, h1]
  · by_cases h1 : n1 = 1
    · have : j = 0 := by omega
      subst h1 this
      simp [unsqueezeIdx, h0]
    · simp [unsqueezeIdx, h0, h1]

/-- C16: for every shape with two axes except a single row of several elements, the circular
window has the requested shape, and its coefficients are 1 within the largest origin
coordinate of the origin and 0 outside. -/
theorem C16_circular_2d_partial (n0 n1 : ℤ) (h0 : 1 ≤ n0) (h1 : 1 ≤ n1) (hrow : n0 ≠ 1 ∨ n1 = 1) :
    ∃ w, circularWindow [n0, n1] = .ok w ∧ w.shape = [n0.toNat, n1.toNat] ∧
      ∀ i j : ℕ, (i : ℤ) < n0 → (j : ℤ) < n1 →
        (elemDist n0.toNat n1.toNat i j ≤ max (n0.toNat / 2 : ℕ) (n1.toNat / 2 : ℕ) → w.val [i, j] = 1) ∧
        (elemDist n0.toNat n1.toNat i j > max (n0.toNat / 2 : ℕ) (n1.toNat / 2 : ℕ) → w.val [i, j] = 0) := by
  lift n0 to ℕ using by omega
  lift n1 to ℕ using by omega
  have hneg : ([(n0 : ℤ), (n1 : ℤ)].any (· < 1)) = false := by
    simp; omega
  unfold circularWindow
  rw [hneg]
  simp only [Bool.false_eq_true, if_false, List.map_cons, List.map_nil, Int.toNat_natCast]
  unfold makeCircular
  simp only [List.length_cons, List.length_nil]
  rw [if_neg (by decide)]
  unfold maskAssign
  have hpre : (distanceToOrigin [n0, n1]).shape <+: [n0, n1] := by
    rw [distance_shape]
    by_cases e0 : n0 = 1
    · have e1 : n1 = 1 := by omega
      simp [e0, e1]
    · by_cases e1 : n1 = 1
      · simp [e0, e1]
      · simp [e0, e1]
  simp only [hpre, if_true]
  refine ⟨_, rfl, rfl, fun i j hi hj => ?_⟩
  have hi' : i < n0 := by omega
  have hj' : j < n1 := by omega
  have htake : List.take (distanceToOrigin [n0, n1]).shape.length [i, j] =
      (if n0 = 1 then [] else [i]) ++ (if n1 = 1 then [] else [j]) := by
    rw [distance_shape]
    by_cases e0 : n0 = 1
    · have e1 : n1 = 1 := by omega
      simp [e0, e1]
    · by_cases e1 : n1 = 1
      · simp [e0, e1]
      · simp [e0, e1]
  have hmax : maxOrigin [n0, n1] = max (n0 / 2) (n1 / 2) := by
    simp [maxOrigin, windowOrigin]
  simp only [htake, distance_val n0 n1 i j hi' hj', hmax]
  constructor
  · intro h
    rw [if_neg (by push_cast at h ⊢; exact not_lt.2 h)]
  · intro h
    rw [if_pos (by push_cast at h ⊢; exact h)]

/-- C16: a window with one axis is all ones. -/
theorem C16_circular_1d (n : ℤ) (h : 1 ≤ n) :
    ∃ w, circularWindow [n] = .ok w ∧ w.shape = [n.toNat] ∧ ∀ i, w.val [i] = 1 := by
  have hneg : ([n].any (· < 1)) = false := by simp; omega
  refine ⟨_, by unfold circularWindow makeCircular; rw [hneg]; simp; rfl, rfl, fun _ => rfl⟩

/-- C16 is false for a single row: every shape `(1, n)` with `n > 1` raises an
`IndexError`. -/
theorem C16_circular_single_row_fails (n : ℤ) (h : 1 < n) :
    circularWindow [1, n] = .error .indexError := by
  lift n to ℕ using by omega
  have hneg : ([(1 : ℤ), (n : ℤ)].any (· < 1)) = false := by
    simp; omega
  unfold circularWindow
  rw [hneg]
  simp only [Bool.false_eq_true, if_false, List.map_cons, List.map_nil, Int.toNat_natCast]
  unfold makeCircular
  simp only [List.length_cons, List.length_nil]
  rw [if_neg (by decide)]
  unfold maskAssign
  rw [if_neg]
  have e1 : n ≠ 1 := by omega
  have : Int.toNat 1 = 1 := rfl
  simp [distance_shape, e1, this, List.cons_prefix_cons]

/-- C16: shapes with an axis smaller than 1 are rejected. -/
theorem C16_invalid_shape (shape : List ℤ) (h : ∃ n ∈ shape, n < 1) :
    circularWindow shape = .error .valueError := by
  unfold circularWindow
  rw [if_pos]
  simpa using h

/-- C16: relative to the origin, a window axis of length `n` covers exactly the offsets
from `-origin` to `n_neighbours`. -/
theorem C16_reach (n : ℕ) (k : ℤ) :
    (∃ i < n, (i : ℤ) - (windowOrigin [n]).getD 0 0 = k) ↔
      -((windowOrigin [n]).getD 0 0 : ℤ) ≤ k ∧ k ≤ (nNeighbours [n]).getD 0 0 := by
  simp only [windowOrigin, nNeighbours, List.map_cons, List.map_nil, List.zipWith_cons_cons,
    List.zipWith_nil_left, List.getD_cons_zero]
  constructor
  · rintro ⟨i, hi, rfl⟩
    omega
  · intro hk
    exact ⟨(k + (n / 2 : ℕ)).toNat, by omega, by omega⟩

/-- C16: for axes of even length `n_neighbours` is not the largest distance to a
neighbour: the window reaches one further in the negative direction. -/
theorem C16_n_neighbours_even_too_small (n : ℕ) (h : 0 < n) (hev : n % 2 = 0) :
    ∃ i < n, |(i : ℤ) - (windowOrigin [n]).getD 0 0| = (nNeighbours [n]).getD 0 0 + 1 := by
  refine ⟨0, h, ?_⟩
  simp only [windowOrigin, nNeighbours, List.map_cons, List.map_nil, List.zipWith_cons_cons,
    List.zipWith_nil_left, List.getD_cons_zero]
  rw [abs_of_nonpos (by push_cast; omega)]
  push_cast
  omega

/-- The hypotheses hold, and the window is not trivial: the (3, 5) window has a zero corner
and a one at the end of its middle row. -/
example : ∃ w, circularWindow [3, 5] = .ok w ∧ w.val [0, 0] = 0 ∧ w.val [1, 0] = 1 := by
  obtain ⟨w, h, -, hv⟩ := C16_circular_2d_partial 3 5 (by norm_num) (by norm_num) (by norm_num)
  refine ⟨w, h, (hv 0 0 (by norm_num) (by norm_num)).2 ?_, (hv 1 0 (by norm_num) (by norm_num)).1 ?_⟩
  · have : Int.toNat 3 = 3 := rfl
    have : Int.toNat 5 = 5 := rfl
    simp only [elemDist, *]
    norm_num
    exact Real.lt_sqrt_of_sq_lt (by norm_num)
  · have : Int.toNat 3 = 3 := rfl
    have : Int.toNat 5 = 5 := rfl
    simp only [elemDist, *]
    norm_num
    exact Real.sqrt_le_iff.2 (by norm_num)

private theorem freq_ok (n0 n1 : ℤ) (h0 : 1 < n0) (h1 : 1 < n1) (f : FreqFilter) (c : ℝ)
    (cw : Option ℝ) : ∃ w, freqWindow f [n0, n1] c cw = .ok w ∧
      w.shape = [n0.toNat, n1.toNat] ∧
      (match f with
        | .lowpass => lowpass [n0.toNat, n1.toNat] c cw
        | .highpass => highpass [n0.toNat, n1.toNat] c cw) = .ok w := by
  lift n0 to ℕ using by omega
  lift n1 to ℕ using by omega
  have hneg : ([(n0 : ℤ), (n1 : ℤ)].any (· < 1)) = false := by
    simp; omega
  have e0 : n0 ≠ 1 := by omega
  have e1 : n1 ≠ 1 := by omega
  have hs : (distanceToOrigin [n0, n1]).shape = [n0, n1] := by
    rw [distance_shape]; simp [e0, e1]
  unfold freqWindow
  rw [hneg]
  cases f
  · simp [lowpass, hs]
  · simp [highpass, hs]

private theorem lowpass_val (n0 n1 : ℕ) (h0 : 1 < n0) (h1 : 1 < n1) (c : ℝ) (cw : Option ℝ)
    (w : NDArr ℝ) (hw : lowpass [n0, n1] c cw = .ok w) (i j : ℕ) (hi : i < n0) (hj : j < n1) :
    w.val [i, j] = if elemDist n0 n1 i j < c then 1 else
      if elemDist n0 n1 i j > c + 2 * cw.getD (c / 2) then 0 else
      Real.exp (-(((elemDist n0 n1 i j - c) / (Real.sqrt 2 * cw.getD (c / 2) / 2)) ^ 2)) := by
  have e0 : n0 ≠ 1 := by omega
  have e1 : n1 ≠ 1 := by omega
  have hs : (distanceToOrigin [n0, n1]).shape ≠ [] := by
    rw [distance_shape]; simp [e0]
  unfold lowpass at hw
  simp only [hs, if_false] at hw
  injection hw with hw
  subst hw
  have := distance_val n0 n1 i j hi hj
  simp only [e0, e1, if_false, List.singleton_append] at this
  simp only [this]

private theorem highpass_val (n0 n1 : ℕ) (h0 : 1 < n0) (h1 : 1 < n1) (c : ℝ) (cw : Option ℝ)
    (w : NDArr ℝ) (hw : highpass [n0, n1] c cw = .ok w) (i j : ℕ) (hi : i < n0) (hj : j < n1) :
    w.val [i, j] = if elemDist n0 n1 i j > c then 1 else
      if elemDist n0 n1 i j < c - 2 * cw.getD (c / 2) then 0 else
      Real.exp (-(((c - elemDist n0 n1 i j) / (Real.sqrt 2 * cw.getD (c / 2) / 2)) ^ 2)) := by
  have e0 : n0 ≠ 1 := by omega
  have e1 : n1 ≠ 1 := by omega
  have hs : (distanceToOrigin [n0, n1]).shape ≠ [] := by
    rw [distance_shape]; simp [e0]
  unfold highpass at hw
  simp only [hs, if_false] at hw
  injection hw with hw
  subst hw
  have := distance_val n0 n1 i j hi hj
  simp only [e0, e1, if_false, List.singleton_append] at this
  simp only [this]

private theorem gauss_mono {k a b : ℝ} (hk : 0 < k) (ha : 0 ≤ a) (hab : a ≤ b) :
    Real.exp (-((b / k) ^ 2)) ≤ Real.exp (-((a / k) ^ 2)) := by
  apply Real.exp_le_exp.2
  apply neg_le_neg
  have h1 : a / k ≤ b / k := div_le_div_of_nonneg_right hab hk.le
  have h2 : 0 ≤ a / k := div_nonneg ha hk.le
  nlinarith

private theorem gauss_lt_one {k a : ℝ} (hk : 0 < k) (ha : 0 < a) :
    Real.exp (-((a / k) ^ 2)) < 1 := by
  rw [Real.exp_lt_one_iff]
  have : 0 < a / k := div_pos ha hk
  nlinarith

/-- C17: the low-pass transfer function of shape `(n0, n1)`, both larger than 1, has the
requested shape, is 1 up to and including the cutoff, 0 beyond the cutoff plus twice the
cutoff width, strictly between in between, and does not increase with the distance to the
origin. -/
theorem C17_lowpass_partial (n0 n1 : ℤ) (h0 : 1 < n0) (h1 : 1 < n1) (c : ℝ) (cw : Option ℝ)
    (hcw : 0 < cw.getD (c / 2)) :
    ∃ w, freqWindow .lowpass [n0, n1] c cw = .ok w ∧ w.shape = [n0.toNat, n1.toNat] ∧
      ∀ i j : ℕ, (i : ℤ) < n0 → (j : ℤ) < n1 →
        (elemDist n0.toNat n1.toNat i j ≤ c → w.val [i, j] = 1) ∧
        (elemDist n0.toNat n1.toNat i j > c + 2 * cw.getD (c / 2) → w.val [i, j] = 0) ∧
        (c < elemDist n0.toNat n1.toNat i j →
          elemDist n0.toNat n1.toNat i j ≤ c + 2 * cw.getD (c / 2) →
          0 < w.val [i, j] ∧ w.val [i, j] < 1) ∧
        ∀ i' j' : ℕ, (i' : ℤ) < n0 → (j' : ℤ) < n1 →
          elemDist n0.toNat n1.toNat i j ≤ elemDist n0.toNat n1.toNat i' j' →
          w.val [i', j'] ≤ w.val [i, j] := by
  obtain ⟨w, hw, hs, hl⟩ := freq_ok n0 n1 h0 h1 .lowpass c cw
  refine ⟨w, hw, hs, fun i j hi hj => ?_⟩
  have hv := lowpass_val n0.toNat n1.toNat (by omega) (by omega) c cw w hl
  have hk : 0 < Real.sqrt 2 * cw.getD (c / 2) / 2 := by positivity
  rw [hv i j (by omega) (by omega)]
  generalize elemDist n0.toNat n1.toNat i j = x
  refine ⟨fun h => ?_, fun h => ?_, fun ha hb => ?_, fun i' j' hi' hj' h => ?_⟩
  · rcases h.lt_or_eq with h | rfl
    · rw [if_pos h]
    · rw [if_neg (lt_irrefl _), if_neg (by linarith)]
      simp
  · rw [if_neg (by linarith), if_pos h]
  · rw [if_neg (by linarith), if_neg (by linarith)]
    exact ⟨Real.exp_pos _, gauss_lt_one hk (by linarith)⟩
  · rw [hv i' j' (by omega) (by omega)]
    generalize elemDist n0.toNat n1.toNat i' j' = y at h
    split_ifs with a1 a2 a3 a4 a5 <;> first
      | linarith
      | exact le_rfl
      | exact (Real.exp_pos _).le
      | (exact gauss_mono hk (by linarith) (by linarith))
      | (apply Real.exp_le_one_iff.2; nlinarith [sq_nonneg ((y - c) / (Real.sqrt 2 * cw.getD (c / 2) / 2))])

/-- C17: the high-pass transfer function of shape `(n0, n1)`, both larger than 1, has the
requested shape, is 1 from the cutoff on, 0 below the cutoff minus twice the cutoff width,
strictly between in between, and does not decrease with the distance to the origin. -/
theorem C17_highpass_partial (n0 n1 : ℤ) (h0 : 1 < n0) (h1 : 1 < n1) (c : ℝ) (cw : Option ℝ)
    (hcw : 0 < cw.getD (c / 2)) :
    ∃ w, freqWindow .highpass [n0, n1] c cw = .ok w ∧ w.shape = [n0.toNat, n1.toNat] ∧
      ∀ i j : ℕ, (i : ℤ) < n0 → (j : ℤ) < n1 →
        (c ≤ elemDist n0.toNat n1.toNat i j → w.val [i, j] = 1) ∧
        (elemDist n0.toNat n1.toNat i j < c - 2 * cw.getD (c / 2) → w.val [i, j] = 0) ∧
        (elemDist n0.toNat n1.toNat i j < c →
          c - 2 * cw.getD (c / 2) ≤ elemDist n0.toNat n1.toNat i j →
          0 < w.val [i, j] ∧ w.val [i, j] < 1) ∧
        ∀ i' j' : ℕ, (i' : ℤ) < n0 → (j' : ℤ) < n1 →
          elemDist n0.toNat n1.toNat i j ≤ elemDist n0.toNat n1.toNat i' j' →
          w.val [i, j] ≤ w.val [i', j'] := by
  obtain ⟨w, hw, hs, hl⟩ := freq_ok n0 n1 h0 h1 .highpass c cw
  refine ⟨w, hw, hs, fun i j hi hj => ?_⟩
  have hv := highpass_val n0.toNat n1.toNat (by omega) (by omega) c cw w hl
  have hk : 0 < Real.sqrt 2 * cw.getD (c / 2) / 2 := by positivity
  rw [hv i j (by omega) (by omega)]
  generalize elemDist n0.toNat n1.toNat i j = x
  refine ⟨fun h => ?_, fun h => ?_, fun ha hb => ?_, fun i' j' hi' hj' h => ?_⟩
  · rcases h.lt_or_eq with h | rfl
    · rw [if_pos h]
    · rw [if_neg (lt_irrefl _), if_neg (by linarith)]
      simp
  · rw [if_neg (by linarith), if_pos h]
  · rw [if_neg (by linarith), if_neg (by linarith)]
    exact ⟨Real.exp_pos _, gauss_lt_one hk (by linarith)⟩
  · rw [hv i' j' (by omega) (by omega)]
    generalize elemDist n0.toNat n1.toNat i' j' = y at h
    split_ifs with a1 a2 a3 a4 a5 <;> first
      | linarith
      | exact le_rfl
      | exact (Real.exp_pos _).le
      | (exact gauss_mono hk (by linarith) (by linarith))
      | (apply Real.exp_le_one_iff.2; nlinarith [sq_nonneg ((c - x) / (Real.sqrt 2 * cw.getD (c / 2) / 2))])

/-- C17: all coefficients are in [0, 1], for every cutoff and width. -/
theorem C17_unit_interval (f : FreqFilter) (shape : List ℤ) (c : ℝ) (cw : Option ℝ) (w : NDArr ℝ)
    (h : freqWindow f shape c cw = .ok w) (idx : List ℕ) : 0 ≤ w.val idx ∧ w.val idx ≤ 1 := by
  have key : ∀ d : Except Err (NDArr ℝ), (d = lowpass (shape.map Int.toNat) c cw ∨
      d = highpass (shape.map Int.toNat) c cw) → ∀ w, d = .ok w → 0 ≤ w.val idx ∧ w.val idx ≤ 1 := by
    rintro d (rfl | rfl) w hw
    · unfold lowpass at hw
      simp only at hw
      split_ifs at hw
      injection hw with hw
      subst hw
      simp only
      split_ifs
      · norm_num
      · norm_num
      · exact ⟨(Real.exp_pos _).le, Real.exp_le_one_iff.2 (neg_nonpos.2 (sq_nonneg _))⟩
    · unfold highpass at hw
      simp only at hw
      split_ifs at hw
      injection hw with hw
      subst hw
      simp only
      split_ifs
      · norm_num
      · norm_num
      · exact ⟨(Real.exp_pos _).le, Real.exp_le_one_iff.2 (neg_nonpos.2 (sq_nonneg _))⟩
  unfold freqWindow at h
  split_ifs at h
  cases f with
  | lowpass =>
    simp only at h
    cases hd : lowpass (shape.map Int.toNat) c cw with
    | error e => rw [hd] at h; simp at h
    | ok d =>
      rw [hd] at h
      simp only at h
      split_ifs at h
      injection h with h
      exact key _ (Or.inl rfl) w (by rw [hd, h])
  | highpass =>
    simp only at h
    cases hd : highpass (shape.map Int.toNat) c cw with
    | error e => rw [hd] at h; simp at h
    | ok d =>
      rw [hd] at h
      simp only at h
      split_ifs at h
      injection h with h
      exact key _ (Or.inr rfl) w (by rw [hd, h])

/-- C17 is false for shapes with two axes of which one has length 1: such windows cannot be
made. -/
theorem C17_single_row_or_column_fails (f : FreqFilter) (n : ℤ) (hn : 1 ≤ n) (c : ℝ)
    (cw : Option ℝ) : freqWindow f [1, n] c cw = .error .typeError ∧
      freqWindow f [n, 1] c cw = .error .typeError := by
  lift n to ℕ using by omega
  have hn1 : 1 ≤ n := by omega
  have t1 : Int.toNat 1 = 1 := rfl
  have hneg : ([(1 : ℤ), (n : ℤ)].any (· < 1)) = false := by
    simp; omega
  have hneg' : ([(n : ℤ), (1 : ℤ)].any (· < 1)) = false := by
    simp; omega
  by_cases e : n = 1
  · subst e
    have hs : (distanceToOrigin [1, 1]).shape = [] := by rw [distance_shape]; simp
    cases f <;> simp [freqWindow, lowpass, highpass, hs, t1]
  · have hs : (distanceToOrigin [1, n]).shape = [n] := by rw [distance_shape]; simp [e]
    have hs' : (distanceToOrigin [n, 1]).shape = [n] := by rw [distance_shape]; simp [e]
    unfold freqWindow
    rw [hneg, hneg']
    cases f <;> simp [lowpass, highpass, hs, hs', t1]

/-- The hypotheses of the C17 theorems hold for the docstring examples. -/
example : (1 : ℤ) < 96 ∧ 0 < (some (15 : ℝ)).getD (30 / 2) ∧ 0 < (none : Option ℝ).getD (30 / 2) := by
  norm_num

/-- C61: the coefficients of the modified Hann window are positive and at most 1, and the
window is symmetric. -/
theorem C61_hann_partial (n x : ℕ) (hx : x < n) :
    0 < modifiedHann n x ∧ modifiedHann n x ≤ 1 ∧
      modifiedHann n (n - 1 - x) = modifiedHann n x := by
  have hn : (0 : ℝ) < n := by exact_mod_cast (by omega : 0 < n)
  have hx' : (x : ℝ) + 1 ≤ n := by exact_mod_cast hx
  have hx0 : (0 : ℝ) ≤ x := by positivity
  have hpi := Real.pi_pos
  refine ⟨Real.cos_pos_of_mem_Ioo ⟨?_, ?_⟩, Real.cos_le_one _, ?_⟩
  · rw [lt_div_iff₀ hn]; nlinarith
  · rw [div_lt_iff₀ hn]; nlinarith
  · unfold modifiedHann
    rw [← Real.cos_neg]
    congr 1
    have : ((n - 1 - x : ℕ) : ℝ) = n - 1 - x := by
      rw [Nat.cast_sub (by omega), Nat.cast_sub (by omega)]; simp
    rw [this]
    field_simp
    ring

/-- C61: windows of odd length have the value 1 in the middle. -/
theorem C61_hann_odd_maximum (n : ℕ) (h : n % 2 = 1) : modifiedHann n (n / 2) = 1 := by
  unfold modifiedHann
  have : ((n / 2 : ℕ) : ℝ) = (n - 1) / 2 := by
    have h2 : 2 * (n / 2) + 1 = n := by omega
    have : (2 * ((n / 2 : ℕ) : ℝ) + 1) = n := by exact_mod_cast h2
    linarith
  rw [this, show Real.pi * (((n : ℝ) - 1) / 2 - n / 2 + 1 / 2) / n = 0 by ring, Real.cos_zero]

/-- C61 is false for even lengths: no coefficient is 1, so the maximum is not normalized
to 1. -/
theorem C61_hann_even_maximum_fails (n : ℕ) (h : n % 2 = 0) (x : ℕ) (hx : x < n) :
    modifiedHann n x < 1 := by
  have hn : (0 : ℝ) < n := by exact_mod_cast (by omega : 0 < n)
  have hx' : (x : ℝ) + 1 ≤ n := by exact_mod_cast hx
  have hx0 : (0 : ℝ) ≤ x := by positivity
  have hpi := Real.pi_pos
  refine lt_of_le_of_ne (Real.cos_le_one _) fun heq => ?_
  have hz : Real.pi * ((x : ℝ) - (n : ℝ) / 2 + 1 / 2) / n = 0 := by
    refine (Real.cos_eq_one_iff_of_lt_of_lt ?_ ?_).1 heq
    · rw [lt_div_iff₀ hn]; nlinarith
    · rw [div_lt_iff₀ hn]; nlinarith
  rw [div_eq_zero_iff] at hz
  rcases hz with hz | hz
  · rcases mul_eq_zero.1 hz with hz | hz
    · linarith
    · have : 2 * x + 1 = n := by
        have : 2 * (x : ℝ) + 1 = n := by linarith
        exact_mod_cast this
      omega
  · linarith

/-- The hypotheses of the C61 theorems hold, and the window is not constant. -/
example : (0 : ℕ) < 30 ∧ 30 % 2 = 0 ∧ 3 % 2 = 1 ∧ modifiedHann 2 0 < 1 :=
  ⟨by decide, by decide, by decide, C61_hann_even_maximum_fails 2 (by decide) 0 (by decide)⟩

end Kp
