import Verif.Lemmas.Downsample
import Verif.Model.DynamicBackground
import Verif.Props.FftFilter
import Verif.Props.Rescale
import Mathlib.Tactic.Linarith
import Mathlib.Tactic.FieldSimp
import Mathlib.Tactic.Positivity

/-
C97: the dynamic background of patterns.
-/

open Finset

namespace Kp

/-! ### Specification -/

/-- Mean of the pixels around pixel `(y, x)` at distances `taps` in both directions, with a weight
for each distance, edge values replicated outside the pattern. -/
noncomputable def Spec.weightedMean (p : Img ℝ) (weight : ℤ → ℝ) (taps : Finset ℤ) (y x : ℕ) : ℝ :=
  (∑ a ∈ taps, ∑ b ∈ taps, weight a * weight b *
      p.val (Spec.clampIdx p.rows (y + a)) (Spec.clampIdx p.cols (x + b))) /
    ∑ a ∈ taps, ∑ b ∈ taps, weight a * weight b

/-- Gaussian weight of a distance from a center. -/
noncomputable def Spec.gaussian (std center : ℝ) (a : ℤ) : ℝ :=
  Real.exp (-((a : ℝ) - center) ^ 2 / (2 * std ^ 2))

/-- The pattern seen in a mirror: columns in reverse order. -/
def Spec.mirror (p : Img ℝ) : Img ℝ := { p with val := fun r c => p.val r (p.cols - 1 - c) }

/-! ### The window -/

theorem gaussTap_pos (std : ℝ) (m i : ℕ) : 0 < gaussTap std m i := Real.exp_pos _

theorem gaussTap_symm (std : ℝ) (m i : ℕ) (h : i < m) :
    gaussTap std m (m - 1 - i) = gaussTap std m i := by
  unfold gaussTap
  congr 2
  rw [Nat.cast_sub (by omega), Nat.cast_sub (by omega)]
  push_cast
  ring

/-- Sum of the values of a one-dimensional window. -/
noncomputable def tapSum (std : ℝ) (m : ℕ) : ℝ := ∑ i ∈ range m, gaussTap std m i

theorem tapSum_pos (std : ℝ) (m : ℕ) (h : 0 < m) : 0 < tapSum std m :=
  sum_pos (fun i _ => gaussTap_pos std m i) ⟨0, by simpa using h⟩

theorem dynWindow_of (std trunc : ℝ) (m : ℕ) (hm : 0 < m) (hs : 0 < std)
    (h : ⌊trunc * std⌋ = (m : ℤ)) :
    ∃ w, dynWindow std trunc = .ok w ∧ w.rows = m ∧ w.cols = m ∧
      ∀ i j, w.val i j = gaussTap std m i * gaussTap std m j / tapSum std m ^ 2 := by
  have h0 : 0 ≤ trunc * std := by
    by_contra hneg
    push Not at hneg
    have h1 : ⌊trunc * std⌋ < 0 := by
      rw [Int.floor_lt]; simpa using hneg
    omega
  have hc : 0 < 2 * Real.pi * std ^ 2 := by positivity
  unfold dynWindow
  simp only [if_pos h0, h]
  rw [if_neg (by omega)]
  refine ⟨_, rfl, by simp, by simp, fun i j => ?_⟩
  have hsum : ∑ i ∈ range m, ∑ j ∈ range m,
      gaussTap std m i * gaussTap std m j / (2 * Real.pi * std ^ 2) =
      tapSum std m ^ 2 / (2 * Real.pi * std ^ 2) := by
    simp only [div_eq_mul_inv, ← sum_mul]
    congr 1
    unfold tapSum
    rw [pow_two, sum_mul_sum]
  have ht := (tapSum_pos std m hm).ne'
  simp only [Int.toNat_natCast, hsum]
  field_simp

/-- A window of less than one pixel is an error. -/
theorem C97_small_window (nfl : ℕ → ℕ) (g : GaussianFilter) (d : DType) (p : Img ℝ)
    (std : Option ℝ) (trunc : ℝ)
    (h : trunc * std.getD ((p.cols : ℝ) / 8) < 1) :
    getDynamicBackground nfl g d p "frequency" std trunc = .error .valueError := by
  have hw : dynWindow (std.getD ((p.cols : ℝ) / 8)) trunc = .error .valueError := by
    unfold dynWindow
    simp only
    rw [if_pos]
    split_ifs with h0
    · rw [Int.floor_lt]; exact_mod_cast h
    · push Not at h0
      have : ⌈trunc * std.getD ((p.cols : ℝ) / 8)⌉ ≤ 0 := by
        rw [Int.ceil_le]; exact_mod_cast h0.le
      omega
  unfold getDynamicBackground dynBackground
  rw [if_pos rfl, hw]

/-- Without a standard deviation, patterns of one column are an error. -/
example (nfl : ℕ → ℕ) (g : GaussianFilter) (v : ℕ → ℕ → ℝ) :
    getDynamicBackground nfl g (.uint 8) ⟨60, 1, v⟩ "frequency" none 4 = .error .valueError :=
  C97_small_window nfl g _ _ _ _ (by norm_num)

/-- Filter domains other than the two are rejected. -/
theorem C97_filter_domain (nfl : ℕ → ℕ) (g : GaussianFilter) (d : DType) (p : Img ℝ)
    (dom operation : String) (h : dom ≠ "frequency") (h' : dom ≠ "spatial") (std : Option ℝ)
    (trunc : ℝ) (out : Option DType) :
    getDynamicBackground nfl g d p dom std trunc = .error .valueError ∧
    removeDynamicBackground nfl g d p operation dom std trunc out = .error .valueError := by
  unfold getDynamicBackground removeDynamicBackground dynBackground
  simp [h, h']

/-! ### The background is a weighted mean -/

theorem sum_taps (m : ℕ) (f : ℤ → ℝ) :
    ∑ i ∈ range m, f ((i : ℤ) - (m / 2 : ℕ)) =
      ∑ a ∈ Icc (-((m / 2 : ℕ) : ℤ)) ((m : ℤ) - (m / 2 : ℕ) - 1), f a := by
  refine sum_bij (fun i _ => (i : ℤ) - (m / 2 : ℕ)) ?_ ?_ ?_ ?_
  · intro i hi
    rw [mem_range] at hi
    rw [mem_Icc]
    omega
  · intro i _ j _ h
    omega
  · intro a ha
    rw [mem_Icc] at ha
    refine ⟨(a + (m / 2 : ℕ)).toNat, ?_, ?_⟩
    · rw [mem_range]; omega
    · omega
  · intro i _; rfl

/-- The center of the window relative to the pixel: zero for windows with an odd number of pixels,
half a pixel up and to the left for an even number. -/
noncomputable def Spec.windowCenter (m : ℕ) : ℝ := if m % 2 = 1 then 0 else -1 / 2

theorem gaussTap_eq (std : ℝ) (m i : ℕ) :
    gaussTap std m i = Spec.gaussian std (Spec.windowCenter m) ((i : ℤ) - (m / 2 : ℕ)) := by
  unfold gaussTap Spec.gaussian Spec.windowCenter
  congr 3
  have h2 : (m : ℝ) = 2 * ((m / 2 : ℕ) : ℝ) + ((m % 2 : ℕ) : ℝ) := by
    exact_mod_cast (Nat.div_add_mod m 2).symm
  split_ifs with hm
  · rw [hm] at h2
    rw [h2]
    generalize m / 2 = k
    push_cast
    ring
  · have : m % 2 = 0 := by omega
    rw [this] at h2
    rw [h2]
    generalize m / 2 = k
    push_cast
    ring

theorem correlate_gauss (p w : Img ℝ) (std : ℝ) (m : ℕ) (_hm : 0 < m) (hr : w.rows = m)
    (hc : w.cols = m)
    (hv : ∀ i j, w.val i j = gaussTap std m i * gaussTap std m j / tapSum std m ^ 2) (y x : ℕ) :
    Spec.correlate p w y x =
      Spec.weightedMean p (Spec.gaussian std (Spec.windowCenter m))
        (Icc (-((m / 2 : ℕ) : ℤ)) ((m : ℤ) - (m / 2 : ℕ) - 1)) y x := by
  unfold Spec.correlate Spec.weightedMean
  rw [hr, hc]
  have hden : ∑ a ∈ Icc (-((m / 2 : ℕ) : ℤ)) ((m : ℤ) - (m / 2 : ℕ) - 1),
      ∑ b ∈ Icc (-((m / 2 : ℕ) : ℤ)) ((m : ℤ) - (m / 2 : ℕ) - 1),
        Spec.gaussian std (Spec.windowCenter m) a * Spec.gaussian std (Spec.windowCenter m) b =
      tapSum std m ^ 2 := by
    rw [← sum_mul_sum, ← sum_taps m (Spec.gaussian std (Spec.windowCenter m)), pow_two]
    unfold tapSum
    simp only [gaussTap_eq std m _]
  rw [hden]
  rw [← sum_taps m (fun a => ∑ b ∈ Icc (-((m / 2 : ℕ) : ℤ)) ((m : ℤ) - (m / 2 : ℕ) - 1),
    Spec.gaussian std (Spec.windowCenter m) a * Spec.gaussian std (Spec.windowCenter m) b *
      p.val (Spec.clampIdx p.rows (y + a)) (Spec.clampIdx p.cols (x + b)))]
  rw [sum_div]
  refine sum_congr rfl fun i _ => ?_
  rw [← sum_taps m (fun b => Spec.gaussian std (Spec.windowCenter m) ((i : ℤ) - (m / 2 : ℕ)) *
    Spec.gaussian std (Spec.windowCenter m) b *
      p.val (Spec.clampIdx p.rows (y + ((i : ℤ) - (m / 2 : ℕ)))) (Spec.clampIdx p.cols (x + b)))]
  rw [sum_div]
  refine sum_congr rfl fun j _ => ?_
  rw [hv, gaussTap_eq std m i, gaussTap_eq std m j]
  rw [show (y : ℤ) + i - (m / 2 : ℕ) = y + ((i : ℤ) - (m / 2 : ℕ)) by ring,
    show (x : ℤ) + j - (m / 2 : ℕ) = x + ((j : ℤ) - (m / 2 : ℕ)) by ring]
  ring

/-- The background found in the frequency domain is the Gaussian weighted mean around each pixel,
over a square window of `int(truncate * std)` pixels. With an odd number of pixels the weights are
centered on the pixel. -/
theorem C97_background_is_weighted_mean (nfl : ℕ → ℕ) (hnfl : ∀ n, n ≤ nfl n) (g : GaussianFilter)
    (bits : ℕ) (p : Img ℝ) (hy : 0 < p.rows) (hx : 0 < p.cols) (std trunc : ℝ) (hs : 0 < std)
    (m : ℕ) (hm : 0 < m) (h : ⌊trunc * std⌋ = (m : ℤ)) :
    ∃ bg, getDynamicBackground nfl g (.float bits) p "frequency" (some std) trunc = .ok bg ∧
      bg.rows = p.rows ∧ bg.cols = p.cols ∧
      ∀ y x, y < p.rows → x < p.cols → bg.val y x =
        Spec.weightedMean p (Spec.gaussian std (Spec.windowCenter m))
          (Icc (-((m / 2 : ℕ) : ℤ)) ((m : ℤ) - (m / 2 : ℕ) - 1)) y x := by
  obtain ⟨w, hw, hr, hc, hv⟩ := dynWindow_of std trunc m hm hs h
  obtain ⟨out, ho, h1, h2, h3⟩ := C15_fft_filter_eq_correlate nfl hnfl p w hy hx (by omega) (by omega)
  refine ⟨out.mapVal (wrapTo (.float bits)), ?_, h1, h2, ?_⟩
  · unfold getDynamicBackground dynBackground
    rw [if_pos rfl]
    simp only [Option.getD_some, hw, ho]
  · intro y x hy' hx'
    change out.val y x = _
    rw [h3 y x hy' hx', correlate_gauss p w std m hm hr hc hv]

/-- The window covers half of the documented range: all its pixels are closer to its center than
half of `truncate` standard deviations. -/
theorem C97_truncate_violated (std trunc : ℝ) (m : ℕ)
    (h : ⌊trunc * std⌋ = (m : ℤ)) (a : ℤ)
    (ha : a ∈ Icc (-((m / 2 : ℕ) : ℤ)) ((m : ℤ) - (m / 2 : ℕ) - 1)) :
    |(a : ℝ) - Spec.windowCenter m| < trunc * std / 2 := by
  have h1 : (m : ℝ) ≤ trunc * std := by
    have := Int.floor_le (trunc * std)
    rw [h] at this
    exact_mod_cast this
  rw [mem_Icc] at ha
  have h2 : (m : ℝ) = 2 * ((m / 2 : ℕ) : ℝ) + ((m % 2 : ℕ) : ℝ) := by
    exact_mod_cast (Nat.div_add_mod m 2).symm
  have ha1 : -((m / 2 : ℕ) : ℝ) ≤ a := by exact_mod_cast ha.1
  have ha2 : (a : ℝ) ≤ (m : ℝ) - ((m / 2 : ℕ) : ℝ) - 1 := by exact_mod_cast ha.2
  unfold Spec.windowCenter
  split_ifs with hmod
  · rw [hmod] at h2
    push_cast at h2
    rw [abs_lt]
    constructor <;> linarith
  · have h0 : m % 2 = 0 := by omega
    rw [h0] at h2
    push_cast at h2
    rw [abs_lt]
    constructor <;> linarith

/-- With the default values of `truncate` and the standard deviation, the window has half as many
columns as the pattern, rounded down. -/
theorem C97_default_window (cols : ℕ) : ⌊(4 : ℝ) * ((cols : ℝ) / 8)⌋ = ((cols / 2 : ℕ) : ℤ) := by
  rw [Int.floor_eq_iff]
  have h2 : (cols : ℝ) = 2 * ((cols / 2 : ℕ) : ℝ) + ((cols % 2 : ℕ) : ℝ) := by
    exact_mod_cast (Nat.div_add_mod cols 2).symm
  have h3 : ((cols % 2 : ℕ) : ℝ) ≤ 1 := by
    have : cols % 2 ≤ 1 := by omega
    exact_mod_cast this
  have h4 : (0 : ℝ) ≤ ((cols % 2 : ℕ) : ℝ) := by positivity
  rw [Int.cast_natCast]
  constructor <;> linarith

/-! ### Mirror images -/

theorem clamp_mirror (n : ℕ) (hn : 0 < n) (x : ℕ) (hx : x < n) (b : ℤ) :
    n - 1 - Spec.clampIdx n (x + b) = Spec.clampIdx n (((n - 1 - x : ℕ) : ℤ) + -b) := by
  unfold Spec.clampIdx
  omega

/-- With an odd window, the background of the mirror image is the mirror image of the background. -/
theorem C97_mirror_partial (nfl : ℕ → ℕ) (hnfl : ∀ n, n ≤ nfl n) (g : GaussianFilter)
    (bits : ℕ) (p : Img ℝ) (hy : 0 < p.rows) (hx : 0 < p.cols) (std trunc : ℝ) (hs : 0 < std)
    (m : ℕ) (hm : m % 2 = 1) (h : ⌊trunc * std⌋ = (m : ℤ)) :
    ∃ bg bg', getDynamicBackground nfl g (.float bits) p "frequency" (some std) trunc = .ok bg ∧
      getDynamicBackground nfl g (.float bits) (Spec.mirror p) "frequency" (some std) trunc =
        .ok bg' ∧
      ∀ y x, y < p.rows → x < p.cols → bg'.val y x = (Spec.mirror bg).val y x := by
  have hm0 : 0 < m := by omega
  obtain ⟨bg, e1, hr, hc, hv⟩ :=
    C97_background_is_weighted_mean nfl hnfl g bits p hy hx std trunc hs m hm0 h
  obtain ⟨bg', e2, -, -, hv'⟩ :=
    C97_background_is_weighted_mean nfl hnfl g bits (Spec.mirror p) hy hx std trunc hs m hm0 h
  refine ⟨bg, bg', e1, e2, fun y x hy' hx' => ?_⟩
  rw [hv' y x hy' hx']
  have hx'' : p.cols - 1 - x < p.cols := by omega
  change _ = bg.val y (bg.cols - 1 - x)
  rw [hc, hv y _ hy' hx'']
  unfold Spec.weightedMean
  congr 1
  refine sum_congr rfl fun a _ => ?_
  have hsym : (m : ℤ) - (m / 2 : ℕ) - 1 = ((m / 2 : ℕ) : ℤ) := by omega
  rw [hsym]
  refine sum_bij' (fun b _ => -b) (fun b _ => -b) ?_ ?_ ?_ ?_ ?_
  · intro b hb; rw [mem_Icc] at hb ⊢; omega
  · intro b hb; rw [mem_Icc] at hb ⊢; omega
  · intro b _; ring
  · intro b _; ring
  · intro b _
    have hg : Spec.gaussian std (Spec.windowCenter m) (-b) =
        Spec.gaussian std (Spec.windowCenter m) b := by
      unfold Spec.gaussian Spec.windowCenter
      rw [if_pos hm]
      congr 3
      push_cast
      ring
    rw [hg]
    change _ * p.val (Spec.clampIdx p.rows _) (p.cols - 1 - Spec.clampIdx p.cols _) = _
    rw [clamp_mirror p.cols hx x hx' b]

/-- With any even window, this is false for a pattern of one row and two columns: the background is
shifted by half a pixel. -/
theorem C97_mirror_violated (nfl : ℕ → ℕ) (hnfl : ∀ n, n ≤ nfl n) (g : GaussianFilter)
    (bits : ℕ) (std trunc : ℝ) (hs : 0 < std) (m : ℕ) (hm0 : 0 < m) (hm : m % 2 = 0)
    (h : ⌊trunc * std⌋ = (m : ℤ)) :
    ∃ p bg bg', p.rows = 1 ∧ p.cols = 2 ∧
      getDynamicBackground nfl g (.float bits) p "frequency" (some std) trunc = .ok bg ∧
      getDynamicBackground nfl g (.float bits) (Spec.mirror p) "frequency" (some std) trunc =
        .ok bg' ∧
      bg'.val 0 1 ≠ (Spec.mirror bg).val 0 1 := by
  let p : Img ℝ := ⟨1, 2, fun _ c => c⟩
  obtain ⟨bg, e1, hr, hc, hv⟩ :=
    C97_background_is_weighted_mean nfl hnfl g bits p (by simp [p]) (by simp [p]) std trunc hs m
      hm0 h
  obtain ⟨bg', e2, -, -, hv'⟩ :=
    C97_background_is_weighted_mean nfl hnfl g bits (Spec.mirror p) (by simp [p, Spec.mirror])
      (by simp [p, Spec.mirror]) std trunc hs m hm0 h
  refine ⟨p, bg, bg', rfl, rfl, e1, e2, ?_⟩
  change bg'.val 0 1 ≠ bg.val 0 (bg.cols - 1 - 1)
  rw [hc, hv' 0 1 (by simp [Spec.mirror, p]) (by simp [Spec.mirror, p]),
    hv 0 _ (by simp [p]) (by simp [p])]
  set G := Spec.gaussian std (Spec.windowCenter m) with hG
  set T := Icc (-((m / 2 : ℕ) : ℤ)) ((m : ℤ) - (m / 2 : ℕ) - 1) with hT
  have hTe : T = Icc (-((m / 2 : ℕ) : ℤ)) (((m / 2 : ℕ) : ℤ) - 1) := by
    rw [hT]; congr 1; omega
  have hpos : ∀ a, 0 < G a := fun a => Real.exp_pos _
  have hsymG : ∀ a : ℤ, G (-1 - a) = G a := by
    intro a
    rw [hG]
    unfold Spec.gaussian Spec.windowCenter
    rw [if_neg (by omega)]
    congr 3
    push_cast
    ring
  have hne : T.Nonempty := ⟨-1, by rw [hTe, mem_Icc]; omega⟩
  have hS : 0 < ∑ a ∈ T, G a := sum_pos (fun a _ => hpos a) hne
  have hden : ∑ a ∈ T, ∑ b ∈ T, G a * G b ≠ 0 := by
    rw [← sum_mul_sum]; exact (mul_pos hS hS).ne'
  -- The two means
  have h1 : Spec.weightedMean (Spec.mirror p) G T 0 1 =
      (∑ a ∈ T, G a) * (∑ b ∈ T, if b ≤ -1 then G b else 0) / ∑ a ∈ T, ∑ b ∈ T, G a * G b := by
    unfold Spec.weightedMean
    congr 1
    rw [sum_mul_sum]
    refine sum_congr rfl fun a _ => sum_congr rfl fun b _ => ?_
    have hval : (Spec.mirror p).val (Spec.clampIdx (Spec.mirror p).rows ((0 : ℕ) + a))
        (Spec.clampIdx (Spec.mirror p).cols ((1 : ℕ) + b)) = if b ≤ -1 then 1 else 0 := by
      change ((2 - 1 - Spec.clampIdx 2 ((1 : ℕ) + b) : ℕ) : ℝ) = _
      have : 2 - 1 - Spec.clampIdx 2 ((1 : ℕ) + b) = if b ≤ -1 then 1 else 0 := by
        unfold Spec.clampIdx
        split_ifs with hb <;> omega
      rw [this]
      split_ifs <;> simp
    rw [hval]
    split_ifs <;> ring
  have h2 : Spec.weightedMean p G T 0 (p.cols - 1 - 1) =
      (∑ a ∈ T, G a) * (∑ b ∈ T, if 1 ≤ b then G b else 0) / ∑ a ∈ T, ∑ b ∈ T, G a * G b := by
    unfold Spec.weightedMean
    congr 1
    rw [sum_mul_sum]
    refine sum_congr rfl fun a _ => sum_congr rfl fun b _ => ?_
    have hval : p.val (Spec.clampIdx p.rows ((0 : ℕ) + a))
        (Spec.clampIdx p.cols ((p.cols - 1 - 1 : ℕ) + b)) = if 1 ≤ b then 1 else 0 := by
      change ((Spec.clampIdx 2 (((2 - 1 - 1 : ℕ) : ℤ) + b) : ℕ) : ℝ) = _
      have : Spec.clampIdx 2 (((2 - 1 - 1 : ℕ) : ℤ) + b) = if 1 ≤ b then 1 else 0 := by
        unfold Spec.clampIdx
        split_ifs with hb <;> omega
      rw [this]
      split_ifs <;> simp
    rw [hval]
    split_ifs <;> ring
  rw [h1, h2]
  have h3 : ∑ b ∈ T, (if 1 ≤ b then G b else 0) = ∑ b ∈ T, if b ≤ -2 then G b else 0 := by
    refine sum_bij' (fun b _ => -1 - b) (fun b _ => -1 - b) ?_ ?_ ?_ ?_ ?_
    · intro b hb; rw [hTe, mem_Icc] at hb ⊢; omega
    · intro b hb; rw [hTe, mem_Icc] at hb ⊢; omega
    · intro b _; ring
    · intro b _; ring
    · intro b _
      rw [hsymG]
      by_cases hb : 1 ≤ b
      · rw [if_pos hb, if_pos (by omega)]
      · rw [if_neg hb, if_neg (by omega)]
  have h4 : ∑ b ∈ T, (if b ≤ -2 then G b else 0) < ∑ b ∈ T, if b ≤ -1 then G b else 0 := by
    refine sum_lt_sum (fun b _ => ?_) ⟨-1, by rw [hTe, mem_Icc]; omega, ?_⟩
    · split_ifs with h5 h6 h6
      · exact le_rfl
      · omega
      · exact (hpos b).le
      · exact le_rfl
    · rw [if_neg (by omega), if_pos le_rfl]; exact hpos _
  intro heq
  rw [div_left_inj' hden] at heq
  have := mul_left_cancel₀ hS.ne' heq
  rw [h3] at this
  linarith

/-- Patterns with 60 columns have an even window by default, with standard deviation 1 and
`truncate` 3 the window is odd. -/
example : (60 / 2) % 2 = 0 ∧ ⌊(3 : ℝ) * 1⌋ = ((3 : ℕ) : ℤ) := by
  refine ⟨rfl, ?_⟩
  norm_num

/-! ### Intensities -/

/-- The background stays within the intensities of the pattern, and the stored values of an integer
type are within one of the mean, without overflow. -/
theorem C97_data_type_kept (nfl : ℕ → ℕ) (hnfl : ∀ n, n ≤ nfl n) (g : GaussianFilter)
    (bits : ℕ) (p : Img ℝ) (hy : 0 < p.rows) (hx : 0 < p.cols) (std trunc : ℝ) (hs : 0 < std)
    (m : ℕ) (hm : 0 < m) (h : ⌊trunc * std⌋ = (m : ℤ)) (lo hi : ℝ) (hlo : 0 ≤ lo)
    (hhi : hi < 2 ^ bits)
    (hp : ∀ r c, r < p.rows → c < p.cols → lo ≤ p.val r c ∧ p.val r c ≤ hi) :
    ∃ bg, getDynamicBackground nfl g (.uint bits) p "frequency" (some std) trunc = .ok bg ∧
      ∀ y x, y < p.rows → x < p.cols →
        let mean := Spec.weightedMean p (Spec.gaussian std (Spec.windowCenter m))
          (Icc (-((m / 2 : ℕ) : ℤ)) ((m : ℤ) - (m / 2 : ℕ) - 1)) y x
        lo ≤ mean ∧ mean ≤ hi ∧ bg.val y x ≤ mean ∧ mean < bg.val y x + 1 := by
  obtain ⟨w, hw, hr, hc, hv⟩ := dynWindow_of std trunc m hm hs h
  obtain ⟨out, ho, h1, h2, h3⟩ := C15_fft_filter_eq_correlate nfl hnfl p w hy hx (by omega) (by omega)
  have hsum : ∑ i ∈ range w.rows, ∑ j ∈ range w.cols, w.val i j = 1 := by
    rw [hr, hc]
    simp only [hv, ← sum_div]
    rw [← sum_mul_sum]
    have := (tapSum_pos std m hm).ne'
    change tapSum std m * tapSum std m / _ = 1
    field_simp
  obtain ⟨out', ho', hb⟩ := C15_averaging_window nfl hnfl p w hy hx (by omega) (by omega) hsum
    (fun i j _ _ => by
      rw [hv]
      exact div_nonneg (mul_nonneg (gaussTap_pos _ _ _).le (gaussTap_pos _ _ _).le)
        (sq_nonneg _))
    lo hi hp
  rw [ho] at ho'
  obtain rfl := Except.ok.inj ho'
  refine ⟨out.mapVal (wrapTo (.uint bits)), ?_, ?_⟩
  · unfold getDynamicBackground dynBackground
    rw [if_pos rfl]
    simp only [Option.getD_some, hw, ho]
  · intro y x hy' hx' mean
    have hmean : mean = out.val y x := by
      rw [h3 y x hy' hx', correlate_gauss p w std m hm hr hc hv]
    have hb' := hb y x hy' hx'
    rw [hmean]
    refine ⟨hb'.1, hb'.2, ?_⟩
    have hval : (out.mapVal (wrapTo (.uint bits))).val y x = (⌊out.val y x⌋ : ℝ) := by
      change ((((wrapTo.truncateInt (out.val y x)) % (2 ^ bits : ℤ) : ℤ)) : ℝ) = _
      have h0 : 0 ≤ out.val y x := le_trans hlo hb'.1
      unfold wrapTo.truncateInt
      rw [if_pos h0]
      congr 1
      apply Int.emod_eq_of_lt
      · exact Int.floor_nonneg.2 h0
      · rw [Int.floor_lt]
        push_cast
        linarith [hb'.2]
    rw [hval]
    exact ⟨Int.floor_le _, Int.lt_floor_add_one _⟩

/-- The background of a constant pattern is the pattern. -/
theorem C97_constant_pattern (nfl : ℕ → ℕ) (hnfl : ∀ n, n ≤ nfl n) (g : GaussianFilter)
    (bits : ℕ) (p : Img ℝ) (hy : 0 < p.rows) (hx : 0 < p.cols) (std trunc : ℝ) (hs : 0 < std)
    (m : ℕ) (hm : 0 < m) (h : ⌊trunc * std⌋ = (m : ℤ)) (v : ℕ) (hv : v < 2 ^ bits)
    (hp : ∀ r c, r < p.rows → c < p.cols → p.val r c = v) :
    ∃ bg, getDynamicBackground nfl g (.uint bits) p "frequency" (some std) trunc = .ok bg ∧
      ∀ y x, y < p.rows → x < p.cols → bg.val y x ≤ v ∧ (v : ℝ) < bg.val y x + 1 := by
  obtain ⟨bg, e, hbg⟩ := C97_data_type_kept nfl hnfl g bits p hy hx std trunc hs m hm h v v
    (by positivity) (by exact_mod_cast hv) (fun r c hr hc => by rw [hp r c hr hc]; simp)
  refine ⟨bg, e, fun y x hy' hx' => ?_⟩
  obtain ⟨h1, h2, h3, h4⟩ := hbg y x hy' hx'
  have : Spec.weightedMean p (Spec.gaussian std (Spec.windowCenter m))
          (Icc (-((m / 2 : ℕ) : ℤ)) ((m : ℤ) - (m / 2 : ℕ) - 1)) y x = v := le_antisymm h2 h1
  rw [this] at h3 h4
  exact ⟨h3, h4⟩

/-! ### Removing the background -/

theorem mapM_ok_of {α β : Type} {f : α → Except Err β} {P : α → β → Prop} {l : List α}
    (h : ∀ a ∈ l, ∃ b, f a = .ok b ∧ P a b) :
    ∃ bs, l.mapM f = .ok bs ∧ bs.length = l.length ∧
      ∀ (i : ℕ) (a : α), l[i]? = some a → ∃ b, bs[i]? = some b ∧ P a b := by
  induction l with
  | nil => exact ⟨[], rfl, rfl, by simp⟩
  | cons a l ih =>
    obtain ⟨b, hb, hP⟩ := h a (by simp)
    obtain ⟨bs, h1, h2, h3⟩ := ih fun a' ha' => h a' (by simp [ha'])
    refine ⟨b :: bs, ?_, by simp [h2], ?_⟩
    · rw [List.mapM_cons, hb]
      change (l.mapM f >>= fun bs => Except.ok (b :: bs)) = _
      rw [h1]
      rfl
    · intro i a' hi
      cases i with
      | zero =>
        simp only [List.getElem?_cons_zero, Option.some.injEq] at hi
        exact ⟨b, by simp, hi ▸ hP⟩
      | succ i =>
        simp only [List.getElem?_cons_succ] at hi ⊢
        exact h3 i a' hi

/-- The intensity of a pixel without background, which is subtracted or divided by. -/
noncomputable def Spec.withoutBackground (operation : String) (p : Img ℝ) (std : ℝ) (m : ℕ)
    (y x : ℕ) : ℝ :=
  let mean := Spec.weightedMean p (Spec.gaussian std (Spec.windowCenter m))
    (Icc (-((m / 2 : ℕ) : ℤ)) ((m : ℤ) - (m / 2 : ℕ) - 1)) y x
  if operation = "subtract" then p.val y x - mean else p.val y x / mean

theorem operated_float (bits : ℕ) (divide bf : Bool) (p bg : Img ℝ) :
    operated (.float bits) divide bf p bg =
      .ok { p with val := fun r c =>
        if divide then p.val r c / bg.val r c else p.val r c - bg.val r c } := rfl

/-- `EBSD.remove_dynamic_background` in the frequency domain: in each pattern, the intensities
without background are rescaled to fill the range of the data type, in their order. -/
theorem C97_remove_from_signal (nfl : ℕ → ℕ) (hnfl : ∀ n, n ≤ nfl n) (g : GaussianFilter)
    (d : DType) (omin omax : ℤ) (hd : dtypeRange d = some (omin, omax)) (ho : omin ≤ omax)
    (rows cols : ℕ) (hr : 0 < rows) (hc : 0 < cols) (patterns : List (Img ℝ))
    (hp : ∀ p ∈ patterns, p.rows = rows ∧ p.cols = cols) (operation : String)
    (std : Option ℝ) (trunc : ℝ) (hs : 0 < std.getD ((cols : ℝ) / 8)) (m : ℕ) (hm : 0 < m)
    (h : ⌊trunc * std.getD ((cols : ℝ) / 8)⌋ = (m : ℤ)) :
    ∃ outs, signalRemoveDynamicBackground nfl g d rows cols patterns operation "frequency" std
        trunc = .ok outs ∧ outs.length = patterns.length ∧
      ∀ (i : ℕ) (p : Img ℝ), patterns[i]? = some p → ∃ out : Img ℝ, outs[i]? = some out ∧
        let v := Spec.withoutBackground operation p (std.getD ((cols : ℝ) / 8)) m
        (∃ y x y' x', y < rows ∧ x < cols ∧ y' < rows ∧ x' < cols ∧ v y x ≠ v y' x') →
        (∀ y x, y < rows → x < cols → omin ≤ out.val y x ∧ out.val y x ≤ omax) ∧
        (∃ y x, y < rows ∧ x < cols ∧ out.val y x = omin) ∧
        (∃ y x, y < rows ∧ x < cols ∧ out.val y x = omax) ∧
        ∀ y x y' x', y < rows → x < cols → y' < rows → x' < cols → v y x ≤ v y' x' →
          out.val y x ≤ out.val y' x' := by
  unfold signalRemoveDynamicBackground
  simp only
  rw [if_neg (by simp), hd]
  simp only
  apply mapM_ok_of
  intro p hpm
  obtain ⟨hpr, hpc⟩ := hp p hpm
  obtain ⟨w, hw, hwr, hwc, hwv⟩ := dynWindow_of _ trunc m hm hs h
  obtain ⟨bg, hbg, h1, h2, h3⟩ := C15_fft_filter_eq_correlate nfl hnfl p w (by omega) (by omega)
    (by omega) (by omega)
  have hdb : dynBackground nfl g "frequency" (std.getD ((cols : ℝ) / 8)) trunc (.float 32) p =
      .ok bg := by
    unfold dynBackground
    rw [if_pos rfl]
    simp only [hw, hbg]
  rw [hdb]
  simp only [operated_float]
  refine ⟨_, rfl, ?_⟩
  set q : Img ℝ := { p with val := fun r c =>
      (if (operation != "subtract") = true then p.val r c / bg.val r c
        else p.val r c - bg.val r c) } with hq
  set v := Spec.withoutBackground operation p (std.getD ((cols : ℝ) / 8)) m with hvdef
  intro hne
  have hv : ∀ y x, y < rows → x < cols → q.val y x = v y x := by
    intro y x hy hx
    have hmean := h3 y x (by omega) (by omega)
    rw [correlate_gauss p w _ m hm hwr hwc hwv] at hmean
    change (if (operation != "subtract") = true then _ else _) = _
    simp only [v, Spec.withoutBackground]
    by_cases hop : operation = "subtract"
    · simp [hop, hmean]
    · simp [hop, hmean]
  have hmem : ∀ a, a ∈ q.pixels ↔ ∃ r < rows, ∃ c < cols, q.val r c = a := by
    intro a
    rw [mem_pixels]
    change (∃ r < p.rows, ∃ c < p.cols, _) ↔ _
    rw [hpr, hpc]
  obtain ⟨y1, x1, y2, x2, hy1, hx1, hy2, hx2, hne⟩ := hne
  have hlt : listMin q.pixels < listMax q.pixels := by
    refine listMin_lt_listMax ((hmem _).2 ⟨y1, hy1, x1, hx1, rfl⟩)
      ((hmem _).2 ⟨y2, hy2, x2, hx2, rfl⟩) ?_
    rw [hv _ _ hy1 hx1, hv _ _ hy2 hx2]
    exact hne
  have hne' : q.pixels ≠ [] := List.ne_nil_of_mem ((hmem _).2 ⟨y1, hy1, x1, hx1, rfl⟩)
  obtain ⟨r1, r2⟩ := representable_range (K := ℝ) hd
  have hoR : (omin : ℝ) ≤ omax := by exact_mod_cast ho
  have hmono : Monotone fun a => castTo d
      (rescalePixel (listMin q.pixels) (listMax q.pixels) (omin : ℝ) omax a) :=
    (castTo_mono d).comp (rescalePixel_mono hlt hoR)
  have hmin : castTo d (rescalePixel (listMin q.pixels) (listMax q.pixels) (omin : ℝ) omax
      (listMin q.pixels)) = omin := by rw [rescalePixel_min, castTo_repr r1]
  have hmax : castTo d (rescalePixel (listMin q.pixels) (listMax q.pixels) (omin : ℝ) omax
      (listMax q.pixels)) = omax := by rw [rescalePixel_max hlt, castTo_repr r2]
  refine ⟨?_, ?_, ?_, ?_⟩
  · intro y x hy hx
    have hm' : q.val y x ∈ q.pixels := (hmem _).2 ⟨y, hy, x, hx, rfl⟩
    constructor
    · have := hmono (listMin_le _ hm')
      simp only at this
      rw [hmin] at this
      exact this
    · have := hmono (le_listMax _ hm')
      simp only at this
      rw [hmax] at this
      exact this
  · obtain ⟨y, hy, x, hx, he⟩ := (hmem _).1 (listMin_mem hne')
    refine ⟨y, x, hy, hx, ?_⟩
    change castTo d (rescalePixel _ _ _ _ (q.val y x)) = _
    rw [he, hmin]
  · obtain ⟨y, hy, x, hx, he⟩ := (hmem _).1 (listMax_mem hne')
    refine ⟨y, x, hy, hx, ?_⟩
    change castTo d (rescalePixel _ _ _ _ (q.val y x)) = _
    rw [he, hmax]
  · intro y x y' x' hy hx hy' hx' hle
    rw [← hv y x hy hx, ← hv y' x' hy' hx'] at hle
    exact hmono hle

/-- A pattern with a dark and a bright pixel, and a window of two pixels. -/
theorem two_pixels :
    ⌊(4 : ℝ) * (1 / 2)⌋ = ((2 : ℕ) : ℤ) ∧
      Spec.withoutBackground "subtract" ⟨1, 2, fun _ c => c⟩ (1 / 2) 2 0 0 = 0 ∧
      Spec.withoutBackground "subtract" ⟨1, 2, fun _ c => c⟩ (1 / 2) 2 0 1 = 1 / 2 := by
  have hI : Icc (-((2 / 2 : ℕ) : ℤ)) (((2 : ℕ) : ℤ) - (2 / 2 : ℕ) - 1) = {-1, 0} := by decide
  have h0 : Spec.gaussian (1 / 2) (Spec.windowCenter 2) 0 = Real.exp (-1 / 2) := by
    unfold Spec.gaussian Spec.windowCenter
    norm_num
  have h1 : Spec.gaussian (1 / 2) (Spec.windowCenter 2) (-1) = Real.exp (-1 / 2) := by
    unfold Spec.gaussian Spec.windowCenter
    norm_num
  have he : Real.exp (-1 / 2) ≠ 0 := (Real.exp_pos _).ne'
  have c1 : Spec.clampIdx 2 (-1) = 0 := by decide
  have c2 : Spec.clampIdx 2 0 = 0 := by decide
  have c3 : Spec.clampIdx 2 1 = 1 := by decide
  refine ⟨by norm_num, ?_, ?_⟩
  all_goals
    simp only [Spec.withoutBackground, Spec.weightedMean]
    rw [hI]
    generalize Spec.gaussian (1 / 2) (Spec.windowCenter 2) = w at *
    generalize Real.exp (-1 / 2) = e at *
    simp [h0, h1, c1, c2, c3]
  field_simp
  norm_num

/-- The function for one pattern of floats gives the same as the method of the signal. -/
theorem C97_pattern_function_partial (nfl : ℕ → ℕ) (g : GaussianFilter) (rows cols : ℕ)
    (patterns : List (Img ℝ)) (hp : ∀ p ∈ patterns, p.cols = cols) (operation dom : String)
    (hdom : dom = "frequency" ∨ dom = "spatial") (std : Option ℝ) (trunc : ℝ) :
    signalRemoveDynamicBackground nfl g (.float 32) rows cols patterns operation dom std trunc =
      patterns.mapM fun p => (removeDynamicBackground nfl g (.float 32) p operation dom std trunc
        none).map Prod.fst := by
  unfold signalRemoveDynamicBackground
  simp only
  rw [if_neg (by rcases hdom with rfl | rfl <;> simp)]
  simp only [dtypeRange]
  induction patterns with
  | nil => rfl
  | cons p l ih =>
    have ih' := ih fun q hq => hp q (by simp [hq])
    rw [List.mapM_cons, List.mapM_cons, ih']
    congr 1
    unfold removeDynamicBackground
    rw [hp p (by simp)]
    cases dynBackground nfl g dom (std.getD ((cols : ℝ) / 8)) trunc (.float 32) p with
    | error e => rfl
    | ok bg => rfl

/-- For a pattern of integers it raises an error in the frequency domain, the default, whatever the
operation. -/
theorem C97_integer_pattern_violated (nfl : ℕ → ℕ) (hnfl : ∀ n, n ≤ nfl n) (g : GaussianFilter)
    (bits : ℕ) (p : Img ℝ) (hy : 0 < p.rows) (hx : 0 < p.cols) (operation : String)
    (std trunc : ℝ) (hs : 0 < std) (m : ℕ) (hm : 0 < m) (h : ⌊trunc * std⌋ = (m : ℤ)) :
    removeDynamicBackground nfl g (.uint bits) p operation "frequency" (some std) trunc none =
      .error .typeError := by
  obtain ⟨w, hw, hr, hc, -⟩ := dynWindow_of std trunc m hm hs h
  obtain ⟨out, ho, -⟩ := C15_fft_filter_eq_correlate nfl hnfl p w hy hx (by omega) (by omega)
  unfold removeDynamicBackground dynBackground
  rw [if_pos rfl]
  simp only [Option.getD_some, hw, ho, Option.getD_none, dtypeRange]
  simp [operated, inPlaceOperation]

/-- In the spatial domain, a pixel of integers which is darker than the background becomes one of
the brightest. -/
theorem C97_integer_wraps_violated (nfl : ℕ → ℕ) (g : GaussianFilter) (bits : ℕ) (p : Img ℝ)
    (std : Option ℝ) (trunc : ℝ) (y x : ℕ) (a b : ℕ) (hb : b < 2 ^ bits) (hab : a < b)
    (hp : p.val y x = a)
    (hg : (g (.uint bits) (std.getD ((p.cols : ℝ) / 8)) trunc p).val y x = b) :
    ∃ out caller, removeDynamicBackground nfl g (.uint bits) p "subtract" "spatial" std trunc none =
        .ok (out, caller) ∧ caller.val y x = a + 2 ^ bits - b := by
  unfold removeDynamicBackground dynBackground
  rw [if_neg (by decide), if_pos rfl]
  simp only [Option.getD_none, dtypeRange]
  refine ⟨_, _, rfl, ?_⟩
  change wrapTo (.uint bits) (p.val y x - _) = _
  rw [hp, hg]
  change ((((wrapTo.truncateInt ((a : ℝ) - b)) % (2 ^ bits : ℤ) : ℤ)) : ℝ) = _
  have hneg : ¬ (0 : ℝ) ≤ (a : ℝ) - b := by
    have : (a : ℝ) < b := by exact_mod_cast hab
    linarith
  unfold wrapTo.truncateInt
  rw [if_neg hneg]
  have hce : ⌈(a : ℝ) - b⌉ = (a : ℤ) - b := by
    rw [show (a : ℝ) - b = (((a : ℤ) - b : ℤ) : ℝ) by push_cast; ring]
    exact Int.ceil_intCast _
  rw [hce]
  have hbz : (b : ℤ) < 2 ^ bits := by exact_mod_cast hb
  have : ((a : ℤ) - b) % (2 ^ bits : ℤ) = a + 2 ^ bits - b := by
    rw [← Int.add_emod_right, Int.emod_eq_of_lt] <;> omega
  rw [this]
  push_cast
  ring

/-- The array given to the function is changed: afterwards it has the intensities without
background. -/
theorem C97_caller_array_violated (nfl : ℕ → ℕ) (hnfl : ∀ n, n ≤ nfl n) (g : GaussianFilter)
    (bits : ℕ) (p : Img ℝ) (hy : 0 < p.rows) (hx : 0 < p.cols) (operation : String)
    (std trunc : ℝ) (hs : 0 < std) (m : ℕ) (hm : 0 < m) (h : ⌊trunc * std⌋ = (m : ℤ)) :
    ∃ out caller, removeDynamicBackground nfl g (.float bits) p operation "frequency" (some std)
        trunc none = .ok (out, caller) ∧
      ∀ y x, y < p.rows → x < p.cols →
        caller.val y x = Spec.withoutBackground operation p std m y x := by
  obtain ⟨w, hw, hr, hc, hv⟩ := dynWindow_of std trunc m hm hs h
  obtain ⟨bg, hbg, h1, h2, h3⟩ := C15_fft_filter_eq_correlate nfl hnfl p w hy hx (by omega) (by omega)
  unfold removeDynamicBackground dynBackground
  rw [if_pos rfl]
  simp only [Option.getD_some, hw, hbg, Option.getD_none, dtypeRange, operated_float]
  refine ⟨_, _, rfl, fun y x hy' hx' => ?_⟩
  have hmean := h3 y x hy' hx'
  rw [correlate_gauss p w _ m hm hr hc hv] at hmean
  simp only [Spec.withoutBackground]
  by_cases hop : operation = "subtract"
  · simp [hop, hmean]
  · simp [hop, hmean]

/-- The function for one pattern fills the range of the type asked for: intensities are within it and
both its limits are reached, unless all intensities without background are the same. -/
theorem C97_dtype_out (nfl : ℕ → ℕ) (g : GaussianFilter) (d o : DType) (p : Img ℝ)
    (operation dom : String) (std : Option ℝ) (trunc : ℝ) (lo hi : ℤ) (hr : dtypeRange o = some (lo, hi))
    (hle : lo ≤ hi) (out caller : Img ℝ)
    (h : removeDynamicBackground nfl g d p operation dom std trunc (some o) = .ok (out, caller))
    (a b : ℝ) (ha : a ∈ caller.pixels) (hb : b ∈ caller.pixels) (hab : a ≠ b) :
    FillsRange (lo : ℝ) hi out.pixels := by
  unfold removeDynamicBackground at h
  cases hbg : dynBackground nfl g dom (std.getD ((p.cols : ℝ) / 8)) trunc d p with
  | error e => rw [hbg] at h; cases h
  | ok bg =>
    rw [hbg] at h
    simp only [Option.getD_some, hr] at h
    cases hq : operated d (operation != "subtract") (dom == "frequency") p bg with
    | error e => rw [hq] at h; cases h
    | ok q =>
      rw [hq] at h
      simp only [Except.ok.injEq, Prod.mk.injEq] at h
      obtain ⟨rfl, rfl⟩ := h
      obtain ⟨r1, r2⟩ := representable_range (K := ℝ) hr
      have := fillsRange_of_map ha hb hab (d := o) (omin := (lo : ℝ)) (omax := hi)
        (by exact_mod_cast hle) r1 r2
      have hpix : (q.mapVal fun x => castTo o
          (rescalePixel (listMin q.pixels) (listMax q.pixels) (lo : ℝ) hi x)).pixels =
          (rescaleWithMinMax q.pixels (listMin q.pixels) (listMax q.pixels) (lo : ℝ) hi).map
            (castTo o) := by
        simp [Img.pixels, Img.mapVal, rescaleWithMinMax, List.map_flatMap, List.map_map,
          Function.comp_def]
      rw [hpix]
      exact this

/-! ### The background of a signal -/

theorem flatten_mapM {α β : Type} (f : α → Except Err β) (chunks : List (List α)) :
    (chunks.mapM fun l : List α => l.mapM f).map List.flatten = chunks.flatten.mapM f := by
  induction chunks with
  | nil => rfl
  | cons c cs ih =>
    rw [List.mapM_cons, List.flatten_cons, List.mapM_append, ← ih]
    cases c.mapM f with
    | error e => rfl
    | ok a =>
      cases (cs.mapM fun l : List α => l.mapM f) with
      | error e => rfl
      | ok b => rfl

/-- How the patterns are split in chunks does not matter. -/
theorem C97_chunks (nfl : ℕ → ℕ) (g : GaussianFilter) (d : DType) (rows cols : ℕ)
    (chunks chunks' : List (List (Img ℝ))) (hc : chunks.flatten = chunks'.flatten) (dom : String)
    (std : Option ℝ) (trunc : ℝ) (out : Option DType) :
    (signalGetDynamicBackground nfl g d rows cols chunks dom std trunc out).map List.flatten =
      (signalGetDynamicBackground nfl g d rows cols chunks' dom std trunc out).map
        List.flatten := by
  unfold signalGetDynamicBackground chunkDynamicBackground
  simp only [List.mapM_map]
  rw [flatten_mapM, flatten_mapM, hc]

theorem dynBackground_mean (nfl : ℕ → ℕ) (hnfl : ∀ n, n ≤ nfl n) (g : GaussianFilter) (d : DType)
    (p : Img ℝ) (hy : 0 < p.rows) (hx : 0 < p.cols) (std trunc : ℝ) (hs : 0 < std)
    (m : ℕ) (hm : 0 < m) (h : ⌊trunc * std⌋ = (m : ℤ)) :
    ∃ bg, dynBackground nfl g "frequency" std trunc d p = .ok bg ∧
      ∀ y x, y < p.rows → x < p.cols → bg.val y x =
        Spec.weightedMean p (Spec.gaussian std (Spec.windowCenter m))
          (Icc (-((m / 2 : ℕ) : ℤ)) ((m : ℤ) - (m / 2 : ℕ) - 1)) y x := by
  obtain ⟨w, hw, hr, hc, hv⟩ := dynWindow_of std trunc m hm hs h
  obtain ⟨out, ho, h1, h2, h3⟩ := C15_fft_filter_eq_correlate nfl hnfl p w hy hx (by omega) (by omega)
  refine ⟨out, ?_, ?_⟩
  · unfold dynBackground
    rw [if_pos rfl]
    simp only [hw, ho]
  · intro y x hy' hx'
    rw [h3 y x hy' hx', correlate_gauss p w std m hm hr hc hv]

/-- If a pattern is split in chunks, which happens if that of a lazy signal is
(`C55_split_patterns_violated`), each part has its own background: the bright one of two pixels has
background 1 instead of 1/2. -/
theorem C97_split_pattern_violated (nfl : ℕ → ℕ) (hnfl : ∀ n, n ≤ nfl n) (g : GaussianFilter) :
    ∃ bg b₁ b₂, signalGetDynamicBackground nfl g (.float 32) 1 2 [[⟨1, 2, fun _ c => c⟩]]
        "frequency" (some (1 / 2)) 4 none = .ok [[bg]] ∧
      signalGetDynamicBackground nfl g (.float 32) 1 2 [[⟨1, 1, fun _ _ => 0⟩],
        [⟨1, 1, fun _ _ => 1⟩]] "frequency" (some (1 / 2)) 4 none = .ok [[b₁], [b₂]] ∧
      bg.val 0 1 = 1 / 2 ∧ b₂.val 0 0 = 1 := by
  obtain ⟨h2, -, hw⟩ := two_pixels
  obtain ⟨bg, e, hb⟩ := dynBackground_mean nfl hnfl g (.float 32) ⟨1, 2, fun _ c => c⟩
    (by simp) (by simp) (1 / 2) 4 (by norm_num) 2 (by norm_num) h2
  obtain ⟨b₁, e₁, -⟩ := dynBackground_mean nfl hnfl g (.float 32) ⟨1, 1, fun _ _ => 0⟩
    (by simp) (by simp) (1 / 2) 4 (by norm_num) 2 (by norm_num) h2
  obtain ⟨b₂, e₂, hb₂⟩ := dynBackground_mean nfl hnfl g (.float 32) ⟨1, 1, fun _ _ => 1⟩
    (by simp) (by simp) (1 / 2) 4 (by norm_num) 2 (by norm_num) h2
  refine ⟨bg, b₁, b₂, ?_, ?_, ?_, ?_⟩
  · unfold signalGetDynamicBackground chunkDynamicBackground
    have : Img.mapVal (wrapTo (.float 32)) ⟨1, 2, fun _ c => (c : ℝ)⟩ = ⟨1, 2, fun _ c => c⟩ := rfl
    simp only [Option.getD_some, Option.getD_none, List.map_cons, List.map_nil, List.mapM_cons,
      this, e]
    rfl
  · unfold signalGetDynamicBackground chunkDynamicBackground
    have t₁ : Img.mapVal (wrapTo (.float 32)) ⟨1, 1, fun _ _ => (0 : ℝ)⟩ =
      ⟨1, 1, fun _ _ => 0⟩ := rfl
    have t₂ : Img.mapVal (wrapTo (.float 32)) ⟨1, 1, fun _ _ => (1 : ℝ)⟩ =
      ⟨1, 1, fun _ _ => 1⟩ := rfl
    simp only [Option.getD_some, Option.getD_none, List.map_cons, List.map_nil, List.mapM_cons,
      t₁, t₂, e₁, e₂]
    rfl
  · rw [hb 0 1 (by simp) (by simp)]
    have := hw
    simp only [Spec.withoutBackground, if_true] at this
    have h1 : (1 : ℝ) - Spec.weightedMean ⟨1, 2, fun _ c => (c : ℝ)⟩
        (Spec.gaussian (1 / 2) (Spec.windowCenter 2))
        (Icc (-((2 / 2 : ℕ) : ℤ)) (((2 : ℕ) : ℤ) - (2 / 2 : ℕ) - 1)) 0 1 = 1 / 2 := by
      rw [Nat.cast_one] at this
      exact this
    linarith
  · rw [hb₂ 0 0 (by simp) (by simp)]
    unfold Spec.weightedMean
    simp only [mul_one]
    apply div_self
    refine (sum_pos (fun a _ => sum_pos (fun b _ => mul_pos (Real.exp_pos _) (Real.exp_pos _)) ?_)
      ?_).ne' <;> exact ⟨0, by simp⟩

/-- The documented standard deviation is one eighth of the width. This is so for the functions of a
pattern and for removing the background of a signal, but it is one eighth of the height for getting
the background of a signal. -/
theorem default_std (nfl : ℕ → ℕ) (g : GaussianFilter) (d : DType) (rows cols : ℕ)
    (chunks : List (List (Img ℝ))) (dom : String) (trunc : ℝ) (out : Option DType) :
    signalGetDynamicBackground nfl g d rows cols chunks dom none trunc out =
      signalGetDynamicBackground nfl g d rows cols chunks dom (some ((rows : ℝ) / 8)) trunc out ∧
    (∀ p : Img ℝ, getDynamicBackground nfl g d p dom none trunc =
      getDynamicBackground nfl g d p dom (some ((p.cols : ℝ) / 8)) trunc) ∧
    ∀ (patterns : List (Img ℝ)) (operation : String),
      signalRemoveDynamicBackground nfl g d rows cols patterns operation dom none trunc =
        signalRemoveDynamicBackground nfl g d rows cols patterns operation dom
          (some ((cols : ℝ) / 8)) trunc := ⟨rfl, fun _ => rfl, fun _ _ => rfl⟩

/-- For patterns with one row and any number of columns, getting the background of the signal with
the default standard deviation is therefore an error, while giving the documented default gives a
background. -/
theorem C97_default_std_violated (nfl : ℕ → ℕ) (hnfl : ∀ n, n ≤ nfl n) (g : GaussianFilter)
    (d : DType) (cols : ℕ) (hc : 2 ≤ cols) (v : ℕ → ℕ → ℝ) :
    signalGetDynamicBackground nfl g d 1 cols [[⟨1, cols, v⟩]] "frequency" none 4 none =
      .error .valueError ∧
    ∃ bg, signalGetDynamicBackground nfl g d 1 cols [[⟨1, cols, v⟩]] "frequency"
      (some ((cols : ℝ) / 8)) 4 none = .ok [[bg]] := by
  constructor
  · have hw : dynWindow ((1 : ℕ) / 8 : ℝ) 4 = .error .valueError := by
      unfold dynWindow
      simp only
      rw [if_pos]
      rw [if_pos (by norm_num), Int.floor_lt]
      norm_num
    unfold signalGetDynamicBackground chunkDynamicBackground dynBackground
    simp only [Option.getD_none, if_pos, hw]
    rfl
  · have hs : (0 : ℝ) < (cols : ℝ) / 8 := by
      have : (0 : ℝ) < cols := by exact_mod_cast (by omega : 0 < cols)
      positivity
    obtain ⟨w, hw, hwr, hwc, -⟩ := dynWindow_of _ 4 (cols / 2) (by omega) hs
      (C97_default_window cols)
    obtain ⟨bg, hbg, -⟩ := C15_fft_filter_eq_correlate nfl hnfl
      (Img.mapVal (wrapTo d) ⟨1, cols, v⟩) w (by change 0 < 1; omega)
      (by change 0 < cols; omega) (by omega) (by omega)
    refine ⟨bg.mapVal (wrapTo d), ?_⟩
    unfold signalGetDynamicBackground chunkDynamicBackground dynBackground
    simp only [Option.getD_some, Option.getD_none, if_pos, hw, List.map_cons, List.map_nil,
      List.mapM_cons, hbg]
    rfl

/-- A background of integers of a signal of floats from 0 to 1 is zero everywhere: patterns are made
integers before the filter is applied. -/
theorem C97_dtype_out_violated (nfl : ℕ → ℕ) (hnfl : ∀ n, n ≤ nfl n) (g : GaussianFilter)
    (bits outBits rows cols : ℕ) (hr : 0 < rows) (hc : 0 < cols) (patterns : List (Img ℝ))
    (hp : ∀ p ∈ patterns, p.rows = rows ∧ p.cols = cols ∧
      ∀ r c, r < rows → c < cols → 0 ≤ p.val r c ∧ p.val r c < 1)
    (std trunc : ℝ) (hs : 0 < std) (m : ℕ) (hm : 0 < m) (h : ⌊trunc * std⌋ = (m : ℤ)) :
    ∃ outs, signalGetDynamicBackground nfl g (.float bits) rows cols [patterns] "frequency"
        (some std) trunc (some (.uint outBits)) = .ok [outs] ∧ outs.length = patterns.length ∧
      ∀ (i : ℕ) (out : Img ℝ), outs[i]? = some out →
        ∀ y x, y < rows → x < cols → out.val y x = 0 := by
  have hz : wrapTo (.uint outBits) 0 = 0 := by
    change ((((wrapTo.truncateInt (0 : ℝ)) % (2 ^ outBits : ℤ) : ℤ)) : ℝ) = 0
    simp [wrapTo.truncateInt]
  have key : ∃ outs, chunkDynamicBackground
      (dynBackground nfl g "frequency" std trunc (.uint outBits)) (.uint outBits)
      (patterns.map (Img.mapVal (wrapTo (.uint outBits)))) = .ok outs ∧
      outs.length = (patterns.map (Img.mapVal (wrapTo (.uint outBits)))).length ∧
      ∀ (i : ℕ) (q : Img ℝ), (patterns.map (Img.mapVal (wrapTo (.uint outBits))))[i]? = some q →
        ∃ out, outs[i]? = some out ∧ ∀ y x, y < rows → x < cols → out.val y x = 0 := by
    unfold chunkDynamicBackground
    apply mapM_ok_of
    intro q hq
    rw [List.mem_map] at hq
    obtain ⟨p, hpm, rfl⟩ := hq
    obtain ⟨hpr, hpc, hpv⟩ := hp p hpm
    obtain ⟨w, hw, hwr, hwc, hwv⟩ := dynWindow_of std trunc m hm hs h
    obtain ⟨bg, hbg, h1, h2, h3⟩ := C15_fft_filter_eq_correlate nfl hnfl
      (p.mapVal (wrapTo (.uint outBits))) w (by change 0 < p.rows; omega)
      (by change 0 < p.cols; omega) (by omega) (by omega)
    have hdb : dynBackground nfl g "frequency" std trunc (.uint outBits)
        (p.mapVal (wrapTo (.uint outBits))) = .ok bg := by
      unfold dynBackground
      rw [if_pos rfl]
      simp only [hw, hbg]
    rw [hdb]
    refine ⟨_, rfl, fun y x hy hx => ?_⟩
    change wrapTo (.uint outBits) (bg.val y x) = 0
    have hb0 : bg.val y x = 0 := by
      rw [h3 y x (by change y < p.rows; omega) (by change x < p.cols; omega)]
      unfold Spec.correlate
      refine sum_eq_zero fun i _ => sum_eq_zero fun j _ => ?_
      have hcl : ∀ n : ℕ, 0 < n → ∀ k : ℤ, Spec.clampIdx n k < n := by
        intro n hn k
        unfold Spec.clampIdx
        omega
      have hv0 : ∀ r c, r < rows → c < cols →
          (p.mapVal (wrapTo (.uint outBits))).val r c = 0 := by
        intro r c hr' hc'
        obtain ⟨h4, h5⟩ := hpv r c hr' hc'
        change ((((wrapTo.truncateInt (p.val r c)) % (2 ^ outBits : ℤ) : ℤ)) : ℝ) = 0
        have : wrapTo.truncateInt (p.val r c) = 0 := by
          unfold wrapTo.truncateInt
          rw [if_pos h4, Int.floor_eq_iff]
          constructor <;> simp <;> linarith
        rw [this]
        simp
      change w.val i j * (p.mapVal _).val (Spec.clampIdx p.rows _) (Spec.clampIdx p.cols _) = 0
      rw [hv0 _ _ (by rw [← hpr]; exact hcl _ (by omega) _)
        (by rw [← hpc]; exact hcl _ (by omega) _), mul_zero]
    rw [hb0, hz]
  obtain ⟨outs, h1, h2, h3⟩ := key
  refine ⟨outs, ?_, by simpa using h2, ?_⟩
  · unfold signalGetDynamicBackground
    simp only [Option.getD_some]
    rw [List.mapM_cons, h1]
    rfl
  · intro i out hi y x hy hx
    have hlt : i < (patterns.map (Img.mapVal (wrapTo (.uint outBits)))).length := by
      rw [← h2]
      exact (List.getElem?_eq_some_iff.1 hi).1
    obtain ⟨out', ho, hz'⟩ := h3 i _ (List.getElem?_eq_getElem hlt)
    rw [hi] at ho
    obtain rfl := Option.some.inj ho
    exact hz' y x hy hx

end Kp
