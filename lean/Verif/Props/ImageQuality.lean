import Verif.Props.Fft
import Verif.Spec.ImageQuality

/-
C136: image quality measures only how the amplitudes of a pattern's waves are spread from zero
frequency.
-/

set_option linter.unusedSectionVars false

namespace Kp
open ZMod Finset

section
variable {sy sx : ℕ} [NeZero sy] [NeZero sx]

private theorem character_exp {n : ℕ} [NeZero n] (k y : ZMod n) :
    (stdAddChar (-(y * k)) : ℂ) =
      Complex.exp (-(2 * Real.pi * Complex.I * (k.val * y.val / n))) := by
  have h : -(y * k) = ((-((y.val : ℤ) * k.val) : ℤ) : ZMod n) := by
    push_cast
    simp
  rw [h, stdAddChar_coe]
  congr 1
  push_cast
  ring

private theorem amplitude_eq (p : ZMod sy × ZMod sx → ℝ) (k : ZMod sy) (l : ZMod sx) :
    Spec.amplitude p k l = ‖dft2 (fun y x => (p (y, x) : ℂ)) k l‖ := by
  unfold Spec.amplitude
  rw [dft2_apply]
  congr 1
  refine sum_congr rfl fun y _ => sum_congr rfl fun x _ => ?_
  rw [character_exp, character_exp, ← Complex.exp_add, mul_comm]
  congr 2
  ring

private theorem amplitude_spectrum (p : ZMod sy × ZMod sx → ℝ) (k : ZMod sy) (l : ZMod sx) :
    fftSpectrum (fft2 sy sx (fun y x => (p (y, x) : ℂ)) k l) = Spec.amplitude p k l := by
  rw [amplitude_eq]
  unfold fftSpectrum
  rw [Complex.norm_def, Complex.normSq_apply]
  change Real.sqrt ((dft2 _ k l).re ^ 2 + (dft2 _ k l).im ^ 2) = _
  congr 1
  ring

private theorem amplitude_neg (p : ZMod sy × ZMod sx → ℝ) (k : ZMod sy) (l : ZMod sx) :
    Spec.amplitude p (-k) (-l) = Spec.amplitude p k l := by
  rw [amplitude_eq, amplitude_eq, ← RCLike.norm_conj (dft2 _ (-k) (-l)), dft2_apply, dft2_apply]
  congr 1
  simp only [map_sum, map_mul, conj_stdAddChar, Complex.conj_ofReal, mul_neg, neg_neg]

private theorem periods_neg {n : ℕ} (k : ZMod n) : Spec.periods (-k) = Spec.periods k :=
  natAbs_valMinAbs_neg k

/-- The penalties are the means of the weights of opposite indices. -/
private theorem penalty_eq {n : ℕ} [NeZero n] (k : ZMod n) :
    Spec.penalty n (Spec.periods k) =
      (((freqLine n k.val ^ 2 : ℤ) : ℝ) + ((freqLine n (-k).val ^ 2 : ℤ) : ℝ)) / 2 := by
  have hn : 0 < n := Nat.pos_of_ne_zero (NeZero.ne n)
  have hk := ZMod.val_lt k
  have hm : Spec.periods k = min k.val (n - k.val) := valMinAbs_natAbs_eq_min k
  by_cases h0 : k = 0
  · subst h0
    have : Spec.periods (0 : ZMod n) = 0 := by rw [hm]; simp
    rw [this]
    have e : (freqLine n 0 : ℤ) ^ 2 = 1 := by
      unfold freqLine
      split_ifs with h
      · have : n = 1 := by omega
        subst this; norm_num
      · norm_num
    simp [Spec.penalty, e]
  · have hk0 : 0 < k.val := Nat.pos_of_ne_zero (by rwa [ne_eq, ZMod.val_eq_zero])
    have : NeZero k := ⟨h0⟩
    have hneg := ZMod.val_neg_of_ne_zero k
    have hpos : Spec.periods k ≠ 0 := by omega
    unfold Spec.penalty
    rw [if_neg hpos, hneg]
    generalize k.val = i at *
    unfold freqLine
    rcases lt_trichotomy (2 * i) n with h | h | h
    · have hp : Spec.periods k = i := by omega
      rw [hp, if_neg (by omega), if_pos (by omega : n / 2 ≤ n - i), Nat.cast_sub hk.le]
      split_ifs with h2
      · have : n = 2 * i + 1 := by omega
        subst this
        push_cast
        ring
      · push_cast
        ring
    · have hp : Spec.periods k = i := by omega
      rw [hp, if_pos h, if_pos (by omega), if_pos (by omega), Nat.cast_sub hk.le, ← h]
      push_cast
      ring
    · have hp : Spec.periods k = n - i := by omega
      rw [hp, if_neg (by omega), if_pos (by omega : n / 2 ≤ i)]
      split_ifs with h2
      · have : n = 2 * (n - i) + 1 := by omega
        have e : i = n - i + 1 := by omega
        generalize n - i = m at *
        subst e
        subst this
        push_cast
        ring
      · push_cast [Nat.cast_sub hk.le]
        ring

/-- Amplitudes that are the same for opposite waves make opposite weights exchangeable. -/
private theorem weights_exchange (S : ZMod sy → ZMod sx → ℝ) (hS : ∀ k l, S (-k) (-l) = S k l) :
    ∑ k : ZMod sy, ∑ l : ZMod sx, S k l * freqVectors sy sx k.val l.val =
      ∑ k, ∑ l, S k l * Spec.wavePenalty k l := by
  have e : ∑ k : ZMod sy, ∑ l : ZMod sx, S k l * freqVectors sy sx k.val l.val =
      ∑ k : ZMod sy, ∑ l : ZMod sx, S k l * freqVectors sy sx (-k).val (-l).val := by
    rw [← Equiv.sum_comp (Equiv.neg (ZMod sy))]
    refine sum_congr rfl fun k _ => ?_
    rw [← Equiv.sum_comp (Equiv.neg (ZMod sx))]
    refine sum_congr rfl fun l _ => ?_
    simp only [Equiv.neg_apply]
    rw [hS]
  have e2 : ∑ k : ZMod sy, ∑ l : ZMod sx, S k l * Spec.wavePenalty k l =
      (∑ k : ZMod sy, ∑ l : ZMod sx, S k l * freqVectors sy sx k.val l.val +
        ∑ k : ZMod sy, ∑ l : ZMod sx, S k l * freqVectors sy sx (-k).val (-l).val) / 2 := by
    rw [← sum_add_distrib, sum_div]
    refine sum_congr rfl fun k _ => ?_
    rw [← sum_add_distrib, sum_div]
    refine sum_congr rfl fun l _ => ?_
    unfold Spec.wavePenalty freqVectors
    rw [penalty_eq, penalty_eq]
    push_cast
    ring
  rw [e2, ← e]
  ring

private theorem inertia_penalty : inertiaMax sy sx = Spec.meanPenalty sy sx := by
  unfold inertiaMax Spec.meanPenalty
  have h := weights_exchange (sy := sy) (sx := sx) (fun _ _ => 1) (fun _ _ => rfl)
  simp only [one_mul] at h
  rw [← h]
  congr 1
  have r : ∀ (n : ℕ) [NeZero n] (f : ℕ → ℝ), ∑ r ∈ range n, f r = ∑ k : ZMod n, f k.val := by
    intro n _ f
    obtain ⟨m, rfl⟩ : ∃ m, n = m + 1 := ⟨n - 1, by have := NeZero.ne n; omega⟩
    exact (Fin.sum_univ_eq_sum_range f (m + 1)).symm
  rw [r]
  exact sum_congr rfl fun k _ => r sx _

private theorem quality_eq (p : ZMod sy × ZMod sx → ℝ) :
    imageQuality sy sx false p = Spec.quality p := by
  unfold imageQuality Spec.quality
  simp only [Bool.false_eq_true, if_false, amplitude_spectrum]
  rw [weights_exchange _ (amplitude_neg p), inertia_penalty]

/-- C136: the image quality of every pattern with an intensity different from zero is one minus the
mean penalty of its waves, weighted by their amplitudes, relative to the mean penalty of all waves. -/
theorem C136_amplitudes_only (p : ZMod sy × ZMod sx → ℝ) (_hp : ∃ i, p i ≠ 0) :
    imageQuality sy sx false p = Spec.quality p := quality_eq p

private theorem std_pos (p : ZMod sy × ZMod sx → ℝ) (hp : NonConst p) : 0 < std p := by
  rcases (Real.sqrt_nonneg _ : 0 ≤ std p).lt_or_eq with h | h
  · exact h
  · exfalso
    have hc : (0 : ℝ) < Fintype.card (ZMod sy × ZMod sx) := by
      exact_mod_cast Fintype.card_pos
    have h0 := (Real.sqrt_eq_zero (div_nonneg (sum_nonneg fun i _ => sq_nonneg _) hc.le)).1 h.symm
    rw [div_eq_zero_iff, or_iff_left hc.ne'] at h0
    obtain ⟨i, j, hij⟩ := hp
    have a := (sum_eq_zero_iff_of_nonneg fun i _ => sq_nonneg _).1 h0
    have ai := a i (mem_univ _)
    have aj := a j (mem_univ _)
    exact hij (by nlinarith [pow_eq_zero_iff (two_ne_zero) |>.1 ai, pow_eq_zero_iff (two_ne_zero) |>.1 aj])

/-- C136: with normalization it is that of the pattern with its mean intensity subtracted, for every
pattern that is not constant. -/
theorem C136_normalized (p : ZMod sy × ZMod sx → ℝ) (hp : NonConst p) :
    imageQuality sy sx true p = Spec.quality (fun i => p i - (∑ j, p j) / (sy * sx)) := by
  have hs := std_pos p hp
  rw [← quality_eq, ← C57_scaling (fun i => p i - (∑ j, p j) / (sy * sx)) (std p)⁻¹ (by positivity)]
  unfold imageQuality
  simp only [Bool.false_eq_true, if_false, if_true]
  have : normalizeIntensity 1 false p = fun i => (std p)⁻¹ * (p i - (∑ j, p j) / (sy * sx)) := by
    funext i
    simp only [normalizeIntensity, Bool.false_eq_true, if_false, mean, Fintype.card_prod, ZMod.card]
    push_cast
    rw [one_mul, div_eq_inv_mul]
  rw [this]

private theorem quality_of_amplitude (p q : ZMod sy × ZMod sx → ℝ) (a : ZMod sy ≃ ZMod sy)
    (b : ZMod sx ≃ ZMod sx) (ha : ∀ k, Spec.periods (a k) = Spec.periods k)
    (hb : ∀ l, Spec.periods (b l) = Spec.periods l)
    (h : ∀ k l, Spec.amplitude q k l = Spec.amplitude p (a k) (b l)) :
    Spec.quality q = Spec.quality p := by
  unfold Spec.quality
  have e1 : ∑ k, ∑ l, Spec.amplitude q k l = ∑ k, ∑ l, Spec.amplitude p k l := by
    rw [← Equiv.sum_comp a fun k => ∑ l, Spec.amplitude p k l]
    refine sum_congr rfl fun k _ => ?_
    rw [← Equiv.sum_comp b fun l => Spec.amplitude p (a k) l]
    exact sum_congr rfl fun l _ => h k l
  have e2 : ∑ k, ∑ l, Spec.amplitude q k l * Spec.wavePenalty k l =
      ∑ k, ∑ l, Spec.amplitude p k l * Spec.wavePenalty k l := by
    rw [← Equiv.sum_comp a fun k => ∑ l, Spec.amplitude p k l * Spec.wavePenalty k l]
    refine sum_congr rfl fun k _ => ?_
    rw [← Equiv.sum_comp b fun l => Spec.amplitude p (a k) l * Spec.wavePenalty (a k) l]
    refine sum_congr rfl fun l _ => ?_
    rw [h, Spec.wavePenalty, Spec.wavePenalty, ha, hb]
  rw [e1, e2]

private theorem norm_character {n : ℕ} [NeZero n] (j : ZMod n) : ‖(stdAddChar j : ℂ)‖ = 1 := by
  rw [stdAddChar_apply]
  exact Circle.norm_coe _

private theorem amplitude_shift (p : ZMod sy × ZMod sx → ℝ) (a : ZMod sy) (b : ZMod sx)
    (k : ZMod sy) (l : ZMod sx) :
    Spec.amplitude (fun i => p (i.1 + a, i.2 + b)) k l = Spec.amplitude p k l := by
  rw [amplitude_eq, amplitude_eq]
  have : dft2 (fun y x => (p (y, x) : ℂ)) k l =
      stdAddChar (-(a * k)) * stdAddChar (-(b * l)) *
        dft2 (fun y x => (p (y + a, x + b) : ℂ)) k l := by
    rw [dft2_apply, dft2_apply, ← Equiv.sum_comp (Equiv.addRight a), mul_sum]
    refine sum_congr rfl fun y _ => ?_
    rw [← Equiv.sum_comp (Equiv.addRight b), mul_sum]
    refine sum_congr rfl fun x _ => ?_
    simp only [Equiv.coe_addRight, add_mul, neg_add]
    rw [AddChar.map_add_eq_mul, AddChar.map_add_eq_mul]
    ring
  rw [this, norm_mul, norm_mul, norm_character, norm_character, one_mul, one_mul]

private theorem amplitude_reverse_rows (p : ZMod sy × ZMod sx → ℝ) (k : ZMod sy) (l : ZMod sx) :
    Spec.amplitude (fun i => p (-i.1, i.2)) k l = Spec.amplitude p (-k) l := by
  rw [amplitude_eq, amplitude_eq, dft2_apply, dft2_apply,
    ← Equiv.sum_comp (Equiv.neg (ZMod sy))]
  congr 1
  refine sum_congr rfl fun y _ => sum_congr rfl fun x _ => ?_
  simp

private theorem amplitude_reverse_columns (p : ZMod sy × ZMod sx → ℝ) (k : ZMod sy) (l : ZMod sx) :
    Spec.amplitude (fun i => p (i.1, -i.2)) k l = Spec.amplitude p k (-l) := by
  rw [amplitude_eq, amplitude_eq, dft2_apply, dft2_apply]
  congr 1
  refine sum_congr rfl fun y _ => ?_
  rw [← Equiv.sum_comp (Equiv.neg (ZMod sx))]
  refine sum_congr rfl fun x _ => ?_
  simp

/-- A bijection of pixels which keeps the quality of all patterns keeps it with normalization. -/
private theorem both_of_false {ty tx : ℕ} [NeZero ty] [NeZero tx]
    (σ : ZMod ty × ZMod tx ≃ ZMod sy × ZMod sx)
    (h : ∀ p : ZMod sy × ZMod sx → ℝ, imageQuality ty tx false (fun i => p (σ i)) =
      imageQuality sy sx false p) (normalize : Bool) (p : ZMod sy × ZMod sx → ℝ) :
    imageQuality ty tx normalize (fun i => p (σ i)) = imageQuality sy sx normalize p := by
  cases normalize
  · exact h p
  · have hc : Fintype.card (ZMod ty × ZMod tx) = Fintype.card (ZMod sy × ZMod sx) :=
      Fintype.card_congr σ
    have hm : mean (fun i => p (σ i)) = mean p := by
      unfold mean
      rw [Equiv.sum_comp σ p, hc]
    have hs : std (fun i => p (σ i)) = std p := by
      unfold std
      rw [hm, Equiv.sum_comp σ fun i => (p i - mean p) ^ 2, hc]
    have := h (normalizeIntensity 1 false p)
    unfold imageQuality at this ⊢
    simp only [Bool.false_eq_true, if_false, if_true] at this ⊢
    rw [← this]
    have e : normalizeIntensity 1 false (fun i => p (σ i)) =
        fun i => normalizeIntensity 1 false p (σ i) := by
      funext i
      simp only [normalizeIntensity, Bool.false_eq_true, if_false, hm, hs]
    rw [e]

/-- C136: moving a pattern, with pixels leaving at one edge entering at the opposite edge, leaves its
image quality the same. -/
theorem C136_moved (normalize : Bool) (p : ZMod sy × ZMod sx → ℝ) (a : ZMod sy) (b : ZMod sx) :
    imageQuality sy sx normalize (fun i => p (i.1 + a, i.2 + b)) =
      imageQuality sy sx normalize p :=
  both_of_false (Equiv.prodCongr (Equiv.addRight a) (Equiv.addRight b)) (fun q => by
    rw [quality_eq, quality_eq]
    exact quality_of_amplitude _ _ (Equiv.refl _) (Equiv.refl _) (fun _ => rfl) (fun _ => rfl)
      fun k l => amplitude_shift q a b k l) normalize p

/-- C136: so does turning it upside down (row `y` becomes row `sy - 1 - y`), mirroring it (column `x`
becomes column `sx - 1 - x`), and so rotating it by 180 degrees. -/
theorem C136_mirrored (normalize : Bool) (p : ZMod sy × ZMod sx → ℝ) :
    imageQuality sy sx normalize (fun i => p (-1 - i.1, i.2)) = imageQuality sy sx normalize p ∧
    imageQuality sy sx normalize (fun i => p (i.1, -1 - i.2)) = imageQuality sy sx normalize p ∧
    imageQuality sy sx normalize (fun i => p (-1 - i.1, -1 - i.2)) =
      imageQuality sy sx normalize p := by
  have h1 : ∀ q : ZMod sy × ZMod sx → ℝ, imageQuality sy sx normalize (fun i => q (-1 - i.1, i.2)) =
      imageQuality sy sx normalize q := by
    intro q
    refine both_of_false (Equiv.prodCongr (Equiv.subLeft (-1)) (Equiv.refl _)) (fun q => ?_) normalize q
    have e := C136_moved false (fun i : ZMod sy × ZMod sx => q (-i.1, i.2)) 1 0
    have e2 : (fun i : ZMod sy × ZMod sx => q ((Equiv.prodCongr (Equiv.subLeft (-1))
        (Equiv.refl (ZMod sx))) i)) = fun i => q (-(i.1 + 1), i.2 + 0) := by
      funext i
      simp only [Equiv.prodCongr_apply, Prod.map, Equiv.subLeft_apply, Equiv.refl_apply, add_zero]
      congr 2
      ring
    rw [e2]
    refine e.trans ?_
    rw [quality_eq, quality_eq]
    exact quality_of_amplitude _ _ (Equiv.neg _) (Equiv.refl _) periods_neg (fun _ => rfl)
      fun k l => amplitude_reverse_rows q k l
  have h2 : ∀ q : ZMod sy × ZMod sx → ℝ, imageQuality sy sx normalize (fun i => q (i.1, -1 - i.2)) =
      imageQuality sy sx normalize q := by
    intro q
    refine both_of_false (Equiv.prodCongr (Equiv.refl _) (Equiv.subLeft (-1))) (fun q => ?_) normalize q
    have e := C136_moved false (fun i : ZMod sy × ZMod sx => q (i.1, -i.2)) 0 1
    have e2 : (fun i : ZMod sy × ZMod sx => q ((Equiv.prodCongr (Equiv.refl (ZMod sy))
        (Equiv.subLeft (-1))) i)) = fun i => q (i.1 + 0, -(i.2 + 1)) := by
      funext i
      simp only [Equiv.prodCongr_apply, Prod.map, Equiv.subLeft_apply, Equiv.refl_apply, add_zero]
      congr 2
      ring
    rw [e2]
    refine e.trans ?_
    rw [quality_eq, quality_eq]
    exact quality_of_amplitude _ _ (Equiv.refl _) (Equiv.neg _) (fun _ => rfl) periods_neg
      fun k l => amplitude_reverse_columns q k l
  exact ⟨h1 p, h2 p, (h1 (fun i => p (i.1, -1 - i.2))).trans (h2 p)⟩

/-- C136: and so does exchanging rows and columns. -/
theorem C136_transposed (normalize : Bool) (p : ZMod sy × ZMod sx → ℝ) :
    imageQuality sx sy normalize (fun i => p (i.2, i.1)) = imageQuality sy sx normalize p :=
  both_of_false (Equiv.prodComm _ _) (fun q => by
    rw [quality_eq, quality_eq]
    have h : ∀ (k : ZMod sy) (l : ZMod sx), Spec.amplitude
        (fun i => q ((Equiv.prodComm (ZMod sx) (ZMod sy)) i)) l k = Spec.amplitude q k l := by
      intro k l
      rw [amplitude_eq, amplitude_eq, dft2_apply, dft2_apply, sum_comm]
      congr 1
      refine sum_congr rfl fun y _ => sum_congr rfl fun x _ => ?_
      rw [mul_comm (stdAddChar _ : ℂ)]
      rfl
    have hw : ∀ (k : ZMod sy) (l : ZMod sx), Spec.wavePenalty l k = Spec.wavePenalty k l := by
      intro k l
      unfold Spec.wavePenalty
      ring
    unfold Spec.quality Spec.meanPenalty
    rw [sum_comm, sum_comm (f := fun k l => Spec.amplitude _ k l),
      sum_comm (f := fun k l => Spec.wavePenalty k l)]
    simp only [h, hw]
    rw [mul_comm (sx : ℝ)]) normalize p

private theorem meanPenalty_ge_one : 1 ≤ Spec.meanPenalty sy sx := by
  obtain ⟨h, _, h2⟩ := C57_image_quality_bound_partial (sy := sy) (sx := sx) (fun _ => 1)
  have h3 := (C57_zero_frequency_not_one (sy := sy) (sx := sx) 1 one_ne_zero).1
  rw [← inertia_penalty]
  unfold inertiaMax
  have hy : (0 : ℝ) < sy := by exact_mod_cast Nat.pos_of_ne_zero (NeZero.ne sy)
  have hx : (0 : ℝ) < sx := by exact_mod_cast Nat.pos_of_ne_zero (NeZero.ne sx)
  rw [le_div_iff₀ (by positivity), one_mul]
  have fl : ∀ n i : ℕ, i < n → 1 ≤ freqLine n i ^ 2 := by
    intro n i h
    have h0 : freqLine n i ≠ 0 := by
      unfold freqLine
      split_ifs <;> omega
    have := Int.one_le_abs h0
    nlinarith [sq_abs (freqLine n i)]
  calc (sy : ℝ) * sx = ∑ r ∈ range sy, ∑ c ∈ range sx, (1 : ℝ) := by simp
    _ ≤ _ := sum_le_sum fun r hr => sum_le_sum fun c hc => by
        have a := fl sy r (mem_range.1 hr)
        have b := fl sx c (mem_range.1 hc)
        have : (1 : ℤ) ≤ freqLine sy r ^ 2 + freqLine sx c ^ 2 - 1 := by linarith
        unfold freqVectors
        exact_mod_cast this

/-- C136: a pattern with a single bright pixel, wherever it is, has an image quality of exactly zero:
all its waves have the same amplitude. -/
theorem C136_single_pixel (p : ZMod sy × ZMod sx → ℝ) (hp : Spec.IsSinglePixel p) :
    imageQuality sy sx false p = 0 := by
  obtain ⟨⟨a, b⟩, h0, h⟩ := hp
  have hS : ∀ k l, Spec.amplitude p k l = |p (a, b)| := by
    intro k l
    rw [amplitude_eq, dft2_apply, sum_eq_single a, sum_eq_single b]
    · rw [norm_mul, norm_mul, norm_character, norm_character]
      simp
    · intro x _ hx
      rw [h (a, x) (by simp [hx])]
      simp
    · simp
    · intro y _ hy
      refine sum_eq_zero fun x _ => ?_
      rw [h (y, x) (by simp [hy])]
      simp
    · simp
  have hm := meanPenalty_ge_one (sy := sy) (sx := sx)
  rw [quality_eq]
  unfold Spec.quality
  simp only [hS, ← mul_sum]
  have hy : (0 : ℝ) < sy := by exact_mod_cast Nat.pos_of_ne_zero (NeZero.ne sy)
  have hx : (0 : ℝ) < sx := by exact_mod_cast Nat.pos_of_ne_zero (NeZero.ne sx)
  have e : (∑ k : ZMod sy, ∑ l : ZMod sx, Spec.wavePenalty k l) = Spec.meanPenalty sy sx * (sy * sx) := by
    unfold Spec.meanPenalty
    field_simp
  have ha : |p (a, b)| ≠ 0 := abs_ne_zero.2 h0
  have e3 : (∑ _k : ZMod sy, ∑ _l : ZMod sx, |p (a, b)|) = |p (a, b)| * (sy * sx) := by
    simp [ZMod.card]
    ring
  rw [e, e3]
  field_simp
  ring

private theorem character_sum {n : ℕ} [NeZero n] (k u : ZMod n) :
    ∑ y : ZMod n, (stdAddChar (-(y * u)) * stdAddChar (y * k) : ℂ) = if u = k then (n : ℂ) else 0 := by
  split_ifs with h
  · subst h
    have : ∀ y : ZMod n, (stdAddChar (-(y * u)) * stdAddChar (y * u) : ℂ) = 1 := by
      intro y
      rw [← AddChar.map_add_eq_mul]
      simp
    simp [this, ZMod.card]
  · have h1 := AddChar.sum_eq_zero_of_ne_one
      (isPrimitive_stdAddChar n (sub_ne_zero.2 (Ne.symm h) : k - u ≠ 0))
    rw [← h1]
    refine sum_congr rfl fun y _ => ?_
    rw [← AddChar.map_add_eq_mul, AddChar.mulShift_apply]
    congr 1
    ring

private theorem cosWave_characters (k l : ℤ) (y : ZMod sy) (x : ZMod sx) :
    (Spec.cosWave sy sx k l (y, x) : ℂ) =
      (stdAddChar (y * (k : ZMod sy)) * stdAddChar (x * (l : ZMod sx)) +
        stdAddChar (y * (-(k : ZMod sy))) * stdAddChar (x * (-(l : ZMod sx)))) / 2 := by
  have e : ∀ (n : ℕ) [NeZero n] (y : ZMod n) (k : ℤ), (stdAddChar (y * (k : ZMod n)) : ℂ) =
      Complex.exp (2 * Real.pi * Complex.I * (k * y.val / n)) := by
    intro n _ y k
    have : y * (k : ZMod n) = (((y.val : ℤ) * k : ℤ) : ZMod n) := by
      push_cast
      simp
    rw [this, stdAddChar_coe]
    congr 1
    push_cast
    ring
  have hneg : ∀ (n : ℕ) (k : ℤ), -(k : ZMod n) = ((-k : ℤ) : ZMod n) := fun n k => by push_cast; rfl
  rw [hneg, hneg, e, e, e, e, ← Complex.exp_add, ← Complex.exp_add]
  unfold Spec.cosWave
  rw [Complex.ofReal_cos, Complex.cos]
  push_cast
  congr 2
  · congr 1
    ring
  · congr 1
    ring

private theorem cosWave_amplitude (k l : ℤ) (u : ZMod sy) (v : ZMod sx) :
    Spec.amplitude (Spec.cosWave sy sx k l) u v =
      (sy * sx : ℝ) / 2 * ((if u = (k : ZMod sy) ∧ v = (l : ZMod sx) then 1 else 0) +
        (if u = -(k : ZMod sy) ∧ v = -(l : ZMod sx) then 1 else 0)) := by
  rw [amplitude_eq, dft2_apply]
  have h : ∀ (k : ZMod sy) (l : ZMod sx), ∑ y : ZMod sy, ∑ x : ZMod sx,
      (stdAddChar (-(y * u)) * stdAddChar (-(x * v)) *
        (stdAddChar (y * k) * stdAddChar (x * l)) : ℂ) =
      (sy * sx : ℂ) * (if u = k ∧ v = l then 1 else 0) := by
    intro k l
    have : ∀ (y : ZMod sy) (x : ZMod sx), (stdAddChar (-(y * u)) * stdAddChar (-(x * v)) *
        (stdAddChar (y * k) * stdAddChar (x * l)) : ℂ) =
        (stdAddChar (-(y * u)) * stdAddChar (y * k)) * (stdAddChar (-(x * v)) * stdAddChar (x * l)) :=
      fun y x => by ring
    simp only [this]
    rw [← sum_mul_sum, character_sum, character_sum]
    by_cases h1 : u = k <;> by_cases h2 : v = l <;> simp [h1, h2]
  have e : ∑ y : ZMod sy, ∑ x : ZMod sx, (stdAddChar (-(y * u)) * stdAddChar (-(x * v)) *
      (Spec.cosWave sy sx k l (y, x) : ℂ)) =
      (((sy * sx : ℝ) / 2 * ((if u = (k : ZMod sy) ∧ v = (l : ZMod sx) then 1 else 0) +
        (if u = -(k : ZMod sy) ∧ v = -(l : ZMod sx) then 1 else 0)) : ℝ) : ℂ) := by
    have a := h k l
    have b := h (-k) (-l)
    simp only [cosWave_characters, mul_div_assoc', mul_add, ← sum_div, sum_add_distrib]
    rw [a, b]
    push_cast [apply_ite (Complex.ofReal : ℝ → ℂ)]
    ring
  rw [e, Complex.norm_real, Real.norm_eq_abs, abs_of_nonneg]
  have : (0 : ℝ) ≤ (if u = (k : ZMod sy) ∧ v = (l : ZMod sx) then 1 else 0) := by split_ifs <;> norm_num
  have : (0 : ℝ) ≤ (if u = -(k : ZMod sy) ∧ v = -(l : ZMod sx) then 1 else 0) := by
    split_ifs <;> norm_num
  positivity

private theorem cosWave_sum (k l : ℤ) (f : ZMod sy → ZMod sx → ℝ) :
    ∑ u, ∑ v, Spec.amplitude (Spec.cosWave sy sx k l) u v * f u v =
      (sy * sx : ℝ) / 2 * (f k l + f (-(k : ZMod sy)) (-(l : ZMod sx))) := by
  have h : ∀ (a : ZMod sy) (b : ZMod sx), ∑ u, ∑ v, (if u = a ∧ v = b then (1 : ℝ) else 0) * f u v =
      f a b := by
    intro a b
    rw [sum_eq_single a, sum_eq_single b]
    · simp
    · intro v _ hv; simp [hv]
    · simp
    · intro u _ hu; simp [hu]
    · simp
  simp only [cosWave_amplitude, mul_assoc, add_mul, ← mul_sum, sum_add_distrib, h]

private theorem wavePenalty_neg (k : ZMod sy) (l : ZMod sx) :
    Spec.wavePenalty (-k) (-l) = Spec.wavePenalty k l := by
  unfold Spec.wavePenalty
  rw [periods_neg, periods_neg]

private theorem wave_quality (k l : ℤ) : Spec.quality (Spec.cosWave sy sx k l) =
    1 - Spec.wavePenalty (k : ZMod sy) (l : ZMod sx) / Spec.meanPenalty sy sx := by
  unfold Spec.quality
  have h1 := cosWave_sum (sy := sy) (sx := sx) k l (fun _ _ => 1)
  simp only [mul_one] at h1
  rw [cosWave_sum, h1, wavePenalty_neg]
  have hy : (0 : ℝ) < sy := by exact_mod_cast Nat.pos_of_ne_zero (NeZero.ne sy)
  have hx : (0 : ℝ) < sx := by exact_mod_cast Nat.pos_of_ne_zero (NeZero.ne sx)
  congr 2
  field_simp

private theorem cosWave_one (k l : ℤ) : Spec.cosWave sy sx k l (0, 0) = 1 := by
  simp [Spec.cosWave]

private theorem cosWave_mean (k l : ℤ) (h : (k : ZMod sy) ≠ 0 ∨ (l : ZMod sx) ≠ 0) :
    ∑ i, Spec.cosWave sy sx k l i = 0 := by
  have a := cosWave_amplitude (sy := sy) (sx := sx) k l 0 0
  have h1 : ¬ ((0 : ZMod sy) = (k : ZMod sy) ∧ (0 : ZMod sx) = (l : ZMod sx)) := by
    rintro ⟨h1, h2⟩
    rcases h with h | h
    · exact h h1.symm
    · exact h h2.symm
  have h2 : ¬ ((0 : ZMod sy) = -(k : ZMod sy) ∧ (0 : ZMod sx) = -(l : ZMod sx)) := by
    rintro ⟨h1, h2⟩
    rcases h with h | h
    · exact h (by simpa using h1.symm)
    · exact h (by simpa using h2.symm)
  rw [if_neg h1, if_neg h2, add_zero, mul_zero, amplitude_eq, norm_eq_zero, dft2_apply] at a
  rw [Fintype.sum_prod_type]
  simp only [mul_zero, neg_zero, AddChar.map_zero_eq_one, one_mul] at a
  exact_mod_cast a

/-- C136: the image quality of a cosine wave, of any strength, is one minus its penalty relative to the
mean penalty of all waves; with normalization too, unless it has no period within the pattern. -/
theorem C136_wave (k l : ℤ) (a : ℝ) (ha : a ≠ 0) :
    imageQuality sy sx false (fun i => a * Spec.cosWave sy sx k l i) =
      1 - Spec.wavePenalty (k : ZMod sy) (l : ZMod sx) / Spec.meanPenalty sy sx ∧
    (¬ ((sy : ℤ) ∣ k ∧ (sx : ℤ) ∣ l) → ∀ c : ℝ,
      imageQuality sy sx true (fun i => a * Spec.cosWave sy sx k l i + c) =
        1 - Spec.wavePenalty (k : ZMod sy) (l : ZMod sx) / Spec.meanPenalty sy sx) := by
  have h1 : ∀ a : ℝ, a ≠ 0 → imageQuality sy sx false (fun i => a * Spec.cosWave sy sx k l i) =
      1 - Spec.wavePenalty (k : ZMod sy) (l : ZMod sx) / Spec.meanPenalty sy sx := fun a ha => by
    rw [C57_scaling _ a ha, quality_eq, wave_quality]
  refine ⟨h1 a ha, fun h c => ?_⟩
  have hkl : (k : ZMod sy) ≠ 0 ∨ (l : ZMod sx) ≠ 0 := by
    by_contra hn
    push Not at hn
    exact h ⟨(ZMod.intCast_zmod_eq_zero_iff_dvd k sy).1 hn.1, (ZMod.intCast_zmod_eq_zero_iff_dvd l sx).1 hn.2⟩
  have hm := cosWave_mean (sy := sy) (sx := sx) k l hkl
  have hy : (0 : ℝ) < sy := by exact_mod_cast Nat.pos_of_ne_zero (NeZero.ne sy)
  have hx : (0 : ℝ) < sx := by exact_mod_cast Nat.pos_of_ne_zero (NeZero.ne sx)
  rw [C136_normalized]
  · rw [← quality_eq, ← h1 a ha]
    congr 1
    funext i
    rw [sum_add_distrib, ← mul_sum, hm]
    simp [ZMod.card, Fintype.card_prod]
    field_simp
    ring
  · by_contra hc
    unfold NonConst at hc
    push Not at hc
    have : ∀ i, Spec.cosWave sy sx k l i = 1 := by
      intro i
      have e := hc i (0, 0)
      rw [cosWave_one] at e
      have : a * Spec.cosWave sy sx k l i = a * 1 := by linarith
      exact mul_left_cancel₀ ha this
    simp only [this] at hm
    simp [ZMod.card, Fintype.card_prod] at hm
    exact hm.elim (NeZero.ne sy) (NeZero.ne sx)

private theorem penalty_mono (n m m' : ℕ) (h : m ≤ m') (hm : 2 * m' ≤ n) :
    Spec.penalty n m ≤ Spec.penalty n m' := by
  rcases h.eq_or_lt with rfl | h
  · exact le_rfl
  unfold Spec.penalty
  have h' : (m : ℝ) + 1 ≤ m' := by exact_mod_cast h
  have h0 : (0 : ℝ) ≤ m := by positivity
  rw [if_neg (by omega : m' ≠ 0)]
  split_ifs with a b b
  · nlinarith
  · nlinarith
  · omega
  · omega
  · nlinarith
  · nlinarith

private theorem periods_le {n : ℕ} [NeZero n] (k : ZMod n) : 2 * Spec.periods k ≤ n := by
  have : Spec.periods k = min k.val (n - k.val) := valMinAbs_natAbs_eq_min k
  omega

/-- C136: of two waves, the one with fewer periods in both directions has an image quality which is at
least as high. -/
theorem C136_coarser_is_better (k l k' l' : ℤ)
    (hk : Spec.periods (k : ZMod sy) ≤ Spec.periods (k' : ZMod sy))
    (hl : Spec.periods (l : ZMod sx) ≤ Spec.periods (l' : ZMod sx)) :
    imageQuality sy sx false (Spec.cosWave sy sx k' l') ≤
      imageQuality sy sx false (Spec.cosWave sy sx k l) := by
  rw [quality_eq, quality_eq, wave_quality, wave_quality]
  have hm := meanPenalty_ge_one (sy := sy) (sx := sx)
  have h1 := penalty_mono sy _ _ hk (periods_le _)
  have h2 := penalty_mono sx _ _ hl (periods_le _)
  refine sub_le_sub_left (div_le_div_of_nonneg_right ?_ (by linarith)) _
  unfold Spec.wavePenalty
  linarith

/-- C136: no pattern has a lower image quality than the finest wave, with half as many periods as
pixels in both directions. -/
theorem C136_finest_is_worst (p : ZMod sy × ZMod sx → ℝ) (hp : ∃ i, p i ≠ 0) :
    imageQuality sy sx false (Spec.cosWave sy sx (sy / 2 : ℕ) (sx / 2 : ℕ)) ≤
      imageQuality sy sx false p := by
  rw [quality_eq, quality_eq, wave_quality]
  have hm := meanPenalty_ge_one (sy := sy) (sx := sx)
  have hfin : ∀ (n : ℕ) [NeZero n] (k : ZMod n), Spec.periods k ≤
      Spec.periods (((n / 2 : ℕ) : ℤ) : ZMod n) := by
    intro n _ k
    have h1 : Spec.periods (((n / 2 : ℕ) : ℤ) : ZMod n) =
        min (((n / 2 : ℕ) : ℤ) : ZMod n).val (n - (((n / 2 : ℕ) : ℤ) : ZMod n).val) :=
      valMinAbs_natAbs_eq_min _
    have hn := Nat.pos_of_ne_zero (NeZero.ne n)
    rw [Int.cast_natCast, ZMod.val_natCast, Nat.mod_eq_of_lt (by omega)] at h1
    have := periods_le k
    rw [Int.cast_natCast, h1]
    omega
  have hw : ∀ (k : ZMod sy) (l : ZMod sx), Spec.wavePenalty k l ≤
      Spec.wavePenalty (((sy / 2 : ℕ) : ℤ) : ZMod sy) (((sx / 2 : ℕ) : ℤ) : ZMod sx) := by
    intro k l
    have h1 := penalty_mono sy _ _ (hfin sy k) (periods_le _)
    have h2 := penalty_mono sx _ _ (hfin sx l) (periods_le _)
    unfold Spec.wavePenalty
    linarith
  have hnn : ∀ k l, 0 ≤ Spec.amplitude p k l := fun k l => norm_nonneg _
  unfold Spec.quality
  refine sub_le_sub_left (div_le_div_of_nonneg_right ?_ (by linarith)) _
  have hpos : 0 < ∑ k, ∑ l, Spec.amplitude p k l := by
    rcases (sum_nonneg fun k _ => sum_nonneg fun l _ => hnn k l :
      0 ≤ ∑ k, ∑ l, Spec.amplitude p k l).lt_or_eq with h | h
    · exact h
    · exfalso
      obtain ⟨h1, _⟩ := C57_image_quality_bound_partial p
      have h2 := h1 hp
      rw [quality_eq, inertia_penalty] at h2
      unfold Spec.quality at h2
      rw [← h, div_zero, zero_div] at h2
      have : 0 < 1 / Spec.meanPenalty sy sx := by positivity
      linarith
  rw [div_le_iff₀ hpos, mul_sum]
  refine sum_le_sum fun k _ => ?_
  rw [mul_sum]
  refine sum_le_sum fun l _ => ?_
  rw [mul_comm]
  exact mul_le_mul_of_nonneg_right (hw k l) (hnn k l)

end

/-- C136: image quality is negative for some patterns: in a chessboard of shape (4, 4) it is -3/4, with
and without normalization. -/
theorem C136_can_be_negative (normalize : Bool) :
    imageQuality 4 4 normalize (Spec.cosWave 4 4 2 2) = -3 / 4 := by
  obtain ⟨h1, h2⟩ := C136_wave (sy := 4) (sx := 4) 2 2 1 one_ne_zero
  have hJ : Spec.meanPenalty 4 4 = 4 := by
    rw [← inertia_penalty]
    norm_num [inertiaMax, freqVectors, freqLine, sum_range_succ]
  have hp : Spec.periods ((2 : ℤ) : ZMod 4) = 2 := by decide +kernel
  have hw : Spec.wavePenalty ((2 : ℤ) : ZMod 4) ((2 : ℤ) : ZMod 4) = 7 := by
    unfold Spec.wavePenalty
    rw [hp]
    norm_num [Spec.penalty]
  rw [hw, hJ] at h1 h2
  simp only [one_mul] at h1 h2
  cases normalize
  · rw [h1]; norm_num
  · have := h2 (by decide) 0
    simp only [add_zero] at this
    rw [this]; norm_num

/-- The waves of a pattern of shape (4, 4) along the rows, from coarse to fine. -/
example : imageQuality 4 4 false (Spec.cosWave 4 4 0 0) = 3 / 4 ∧
    imageQuality 4 4 false (Spec.cosWave 4 4 0 1) = 3 / 8 ∧
    imageQuality 4 4 false (Spec.cosWave 4 4 0 2) = 0 ∧
    imageQuality 4 4 false (Spec.cosWave 4 4 0 3) = 3 / 8 := by
  have hJ : Spec.meanPenalty 4 4 = 4 := by
    rw [← inertia_penalty]
    norm_num [inertiaMax, freqVectors, freqLine, sum_range_succ]
  have h0 : Spec.periods ((0 : ℤ) : ZMod 4) = 0 := by decide +kernel
  have h1 : Spec.periods ((1 : ℤ) : ZMod 4) = 1 := by decide +kernel
  have h2 : Spec.periods ((2 : ℤ) : ZMod 4) = 2 := by decide +kernel
  have h3 : Spec.periods ((3 : ℤ) : ZMod 4) = 1 := by decide +kernel
  refine ⟨?_, ?_, ?_, ?_⟩ <;> rw [quality_eq, wave_quality, hJ] <;> unfold Spec.wavePenalty
  · rw [h0]; norm_num [Spec.penalty]
  · rw [h0, h1]; norm_num [Spec.penalty]
  · rw [h0, h2]; norm_num [Spec.penalty]
  · rw [h0, h3]; norm_num [Spec.penalty]

/-- A single bright pixel in a pattern of shape (3, 4), and the same with normalization. -/
example : Spec.IsSinglePixel (fun i : ZMod 3 × ZMod 4 => if i = (1, 2) then (5 : ℝ) else 0) ∧
    NonConst (fun i : ZMod 3 × ZMod 4 => if i = (1, 2) then (5 : ℝ) else 0) := by
  refine ⟨⟨(1, 2), by simp, fun j hj => by simp [hj]⟩, (1, 2), (0, 0), ?_⟩
  have : ((0, 0) : ZMod 3 × ZMod 4) ≠ (1, 2) := by decide
  simp [this]

end Kp
