import Verif.Model.Fft
import Verif.Lemmas.FftFilter
import Verif.Props.Normalize

/-
C57: image quality. C60: Fourier transform wrappers and frequency domain filtering.
-/

set_option linter.unusedSectionVars false

namespace Kp
open ZMod Finset

section
variable {sy sx : ℕ} [NeZero sy] [NeZero sx]

private theorem freqLine_sq (n i : ℕ) (h : i < n) : 1 ≤ freqLine n i ^ 2 := by
  have h0 : freqLine n i ≠ 0 := by
    unfold freqLine
    split_ifs <;> omega
  have := Int.one_le_abs h0
  nlinarith [sq_abs (freqLine n i)]

private theorem freq_ge_one (r c : ℕ) (hr : r < sy) (hc : c < sx) : 1 ≤ freqVectors sy sx r c := by
  unfold freqVectors
  have h1 := freqLine_sq sy r hr
  have h2 := freqLine_sq sx c hc
  have : (1 : ℤ) ≤ freqLine sy r ^ 2 + freqLine sx c ^ 2 - 1 := by linarith
  exact_mod_cast this

private theorem inertiaMax_ge_one : 1 ≤ inertiaMax sy sx := by
  unfold inertiaMax
  have hy : (0 : ℝ) < sy := by exact_mod_cast Nat.pos_of_ne_zero (NeZero.ne sy)
  have hx : (0 : ℝ) < sx := by exact_mod_cast Nat.pos_of_ne_zero (NeZero.ne sx)
  rw [le_div_iff₀ (by positivity), one_mul]
  calc (sy : ℝ) * sx = ∑ r ∈ range sy, ∑ c ∈ range sx, (1 : ℝ) := by simp
    _ ≤ _ := sum_le_sum fun r hr => sum_le_sum fun c hc =>
        freq_ge_one r c (mem_range.1 hr) (mem_range.1 hc)

private theorem spectrum_nonneg (z : ℂ) : 0 ≤ fftSpectrum z := Real.sqrt_nonneg _

private theorem spectrum_eq_norm (z : ℂ) : fftSpectrum z = ‖z‖ := by
  unfold fftSpectrum
  rw [Complex.norm_def, Complex.normSq_apply]
  congr 1
  ring

private theorem fft2_injective {a : ZMod sy → ZMod sx → ℂ} (h : ∀ y x, fft2 sy sx a y x = 0) :
    ∀ y x, a y x = 0 := by
  have h1 : fft2 sy sx a = 0 := by funext y x; exact h y x
  unfold fft2 at h1
  have h2 : (fun y => dft (a y)) = 0 := (LinearEquiv.map_eq_zero_iff dft).1 h1
  intro y x
  have h3 : dft (a y) = 0 := congrFun h2 y
  have h4 : a y = 0 := (LinearEquiv.map_eq_zero_iff dft).1 h3
  exact congrFun h4 x

private theorem spectrum_sum_pos (q : ZMod sy × ZMod sx → ℝ) (hq : ∃ i, q i ≠ 0) :
    0 < ∑ y, ∑ x, fftSpectrum (fft2 sy sx (fun y x => (q (y, x) : ℂ)) y x) := by
  by_contra hneg
  have h0 : ∑ y, ∑ x, fftSpectrum (fft2 sy sx (fun y x => (q (y, x) : ℂ)) y x) = 0 :=
    le_antisymm (not_lt.1 hneg) (sum_nonneg fun y _ => sum_nonneg fun x _ => spectrum_nonneg _)
  have h1 : ∀ y x, fft2 sy sx (fun y x => (q (y, x) : ℂ)) y x = 0 := by
    intro y x
    have e := (sum_eq_zero_iff_of_nonneg
      (fun y _ => sum_nonneg fun x _ => spectrum_nonneg _)).1 h0 y (mem_univ _)
    have e2 := (sum_eq_zero_iff_of_nonneg (fun x _ => spectrum_nonneg _)).1 e x (mem_univ _)
    rw [spectrum_eq_norm] at e2
    exact norm_eq_zero.1 e2
  obtain ⟨⟨y, x⟩, hi⟩ := hq
  exact hi (by exact_mod_cast fft2_injective h1 y x)

private theorem norm_ne_zero_of_nonConst (p : ZMod sy × ZMod sx → ℝ) (h : NonConst p) :
    ∃ i, normalizeIntensity 1 false p i ≠ 0 := by
  by_contra hn
  push Not at hn
  have hs := (C12_mean_and_std_default_partial p h).2
  have e : normalizeIntensity 1 false p = fun _ => 0 := funext hn
  rw [e] at hs
  simp [std, mean] at hs

/-- C57: the image quality of every pattern with a defined image quality (not all zero, or
not constant if normalized) is smaller than 1, by at least 1 / inertia_max. -/
theorem C57_image_quality_bound_partial (p : ZMod sy × ZMod sx → ℝ) :
    ((∃ i, p i ≠ 0) → imageQuality sy sx false p ≤ 1 - 1 / inertiaMax sy sx) ∧
    (NonConst p → imageQuality sy sx true p ≤ 1 - 1 / inertiaMax sy sx) ∧
    1 - 1 / inertiaMax sy sx < 1 := by
  have hm := inertiaMax_ge_one (sy := sy) (sx := sx)
  have key : ∀ q : ZMod sy × ZMod sx → ℝ, (∃ i, q i ≠ 0) →
      imageQuality sy sx false q ≤ 1 - 1 / inertiaMax sy sx := by
    intro q hq
    unfold imageQuality
    simp only [Bool.false_eq_true, if_false]
    have hpos := spectrum_sum_pos q hq
    rw [sub_le_sub_iff_left]
    refine div_le_div_of_nonneg_right ?_ (by linarith)
    rw [le_div_iff₀ hpos, one_mul]
    refine sum_le_sum fun y _ => sum_le_sum fun x _ => ?_
    exact le_mul_of_one_le_right (spectrum_nonneg _)
      (freq_ge_one _ _ (ZMod.val_lt y) (ZMod.val_lt x))
  refine ⟨key p, fun h => ?_, ?_⟩
  · have := key _ (norm_ne_zero_of_nonConst p h)
    simpa [imageQuality] using this
  · have : 0 < 1 / inertiaMax sy sx := by positivity
    linarith

/-- C57 is false as stated: patterns with all power at zero frequency (constant patterns)
do not attain an image quality of 1, whatever their size, since the zero frequency has
weight 1. They attain the largest possible value. -/
theorem C57_zero_frequency_not_one (c : ℝ) (hc : c ≠ 0) :
    imageQuality sy sx false (fun _ => c) = 1 - 1 / inertiaMax sy sx ∧
    imageQuality sy sx false (fun _ => c) ≠ 1 := by
  have hm := inertiaMax_ge_one (sy := sy) (sx := sx)
  have hf : ∀ (y : ZMod sy) (x : ZMod sx), (y, x) ≠ (0, 0) →
      fft2 sy sx (fun _ _ => (c : ℂ)) y x = 0 := by
    intro y x hne
    have : fft2 sy sx (fun _ _ => (c : ℂ)) y x =
        (∑ u, stdAddChar (-(u * y))) * (∑ v, stdAddChar (-(v * x))) * c := by
      change dft2 _ y x = _
      rw [dft2_apply]
      simp only [sum_mul, mul_sum]
      rw [sum_comm]
    rw [this]
    have hz : ∀ {n : ℕ} [NeZero n] (k : ZMod n), k ≠ 0 →
        (∑ u : ZMod n, stdAddChar (-(u * k)) : ℂ) = 0 := by
      intro n _ k hk
      have h1 := AddChar.sum_eq_zero_of_ne_one
        (isPrimitive_stdAddChar n (neg_ne_zero.2 hk))
      rw [← h1]
      refine sum_congr rfl fun u _ => ?_
      simp [AddChar.mulShift_apply, mul_comm]
    by_cases hy : y = 0
    · have hx : x ≠ 0 := fun hx => hne (by rw [hy, hx])
      rw [hz x hx]; simp
    · rw [hz y hy]; simp
  have hs : ∀ (y : ZMod sy) (x : ZMod sx),
      fftSpectrum (fft2 sy sx (fun _ _ => (c : ℂ)) y x) * freqVectors sy sx y.val x.val =
      fftSpectrum (fft2 sy sx (fun _ _ => (c : ℂ)) y x) := by
    intro y x
    by_cases h : (y, x) = (0, 0)
    · obtain ⟨rfl, rfl⟩ := Prod.mk.inj h
      have : freqVectors sy sx (0 : ZMod sy).val (0 : ZMod sx).val = 1 := by
        have hl : ∀ n : ℕ, n ≠ 0 → freqLine n 0 ^ 2 = 1 := by
          intro n hn
          unfold freqLine
          split_ifs with h
          · have : n = 1 := by omega
            subst this; norm_num
          · norm_num
        simp [freqVectors, hl _ (NeZero.ne _)]
      rw [this, mul_one]
    · rw [hf y x h]
      simp [fftSpectrum]
  have hpos := spectrum_sum_pos (sy := sy) (sx := sx) (fun _ => c) ⟨(0, 0), hc⟩
  have e : imageQuality sy sx false (fun _ => c) = 1 - 1 / inertiaMax sy sx := by
    unfold imageQuality
    simp only [Bool.false_eq_true, if_false, hs]
    rw [div_self hpos.ne']
  refine ⟨e, ?_⟩
  rw [e]
  have : 0 < 1 / inertiaMax sy sx := by positivity
  linarith

/-- C57: the image quality is unchanged by intensity scaling. -/
theorem C57_scaling (p : ZMod sy × ZMod sx → ℝ) (a : ℝ) (ha : a ≠ 0) :
    imageQuality sy sx false (fun i => a * p i) = imageQuality sy sx false p := by
  unfold imageQuality
  simp only [Bool.false_eq_true, if_false]
  have h : ∀ y x, fftSpectrum (fft2 sy sx (fun y x => ((a * p (y, x) : ℝ) : ℂ)) y x) =
      |a| * fftSpectrum (fft2 sy sx (fun y x => (p (y, x) : ℂ)) y x) := by
    intro y x
    rw [spectrum_eq_norm, spectrum_eq_norm]
    have : fft2 sy sx (fun y x => ((a * p (y, x) : ℝ) : ℂ)) y x =
        (a : ℂ) * fft2 sy sx (fun y x => (p (y, x) : ℂ)) y x := by
      change dft2 _ y x = _ * dft2 _ y x
      rw [dft2_apply, dft2_apply]
      simp only [mul_sum]
      refine sum_congr rfl fun u _ => sum_congr rfl fun v _ => ?_
      push_cast
      ring
    rw [this, norm_mul]
    simp
  simp only [h, mul_assoc, ← mul_sum]
  rw [mul_div_mul_left _ _ (abs_ne_zero.2 ha)]

/-- C57: with normalization, the image quality is also unchanged by an intensity offset. -/
theorem C57_affine (p : ZMod sy × ZMod sx → ℝ) (a b : ℝ) (ha : 0 < a) (hp : NonConst p) :
    imageQuality sy sx true (fun i => a * p i + b) = imageQuality sy sx true p := by
  unfold imageQuality
  simp only [if_true]
  rw [C12_affine_invariant 1 false p a b ha hp]

/-- The hypotheses hold for a pattern of shape (3, 4). -/
example : ∃ p : ZMod 3 × ZMod 4 → ℝ, NonConst p ∧ (∃ i, p i ≠ 0) ∧ (1 : ℝ) < inertiaMax 3 4 := by
  refine ⟨fun i => if i = (0, 0) then 0 else 1, ⟨(0, 0), (0, 1), ?_⟩, ⟨(0, 1), ?_⟩, ?_⟩
  · have : ((0, 1) : ZMod 3 × ZMod 4) ≠ (0, 0) := by decide
    simp [this]
  · have : ((0, 1) : ZMod 3 × ZMod 4) ≠ (0, 0) := by decide
    simp [this]
  · norm_num [inertiaMax, freqVectors, freqLine, sum_range_succ]

/-! ### C60 -/

private theorem ifft2_fft2 (a : ZMod sy → ZMod sx → ℂ) : ifft2 sy sx (fft2 sy sx a) = a := by
  unfold ifft2 fft2
  simp only [LinearEquiv.symm_apply_apply]

private theorem irfft2_congr (X X' : ZMod sy → ZMod sx → ℂ)
    (h : ∀ y k, k.val ≤ sx / 2 → X y k = X' y k) : irfft2 sy sx X = irfft2 sy sx X' := by
  have hY : ∀ y k, k.val ≤ sx / 2 → dft.symm X y k = dft.symm X' y k := by
    intro y k hk
    rw [invDFT_apply, invDFT_apply]
    simp only [Pi.smul_apply, Finset.sum_apply]
    congr 1
    exact sum_congr rfl fun u _ => by rw [h u k hk]
  unfold irfft2
  funext y x
  refine congrArg Complex.re (congrFun (congrArg dft.symm (funext fun k => ?_)) _)
  by_cases hk : k.val ≤ sx / 2
  · simp only [hk, if_true]
    exact hY _ _ hk
  · simp only [hk, if_false]
    rw [hY]
    have hk0 : k ≠ 0 := by
      rintro rfl
      exact hk (by simp)
    have : NeZero k := ⟨hk0⟩
    have h3 := ZMod.val_neg_of_ne_zero k
    have h4 := ZMod.val_lt k
    omega

private theorem irfft2_rfft2 (a : ℕ → ℕ → ℝ) (y x : ℕ) (hy : y < sy) (hx : x < sx) :
    irfft2 sy sx (rfft2 sy sx a) y x = a y x := by
  unfold irfft2 rfft2
  simp only [LinearEquiv.symm_apply_apply]
  have hrow : (fun k : ZMod sx => if k.val ≤ sx / 2 then
      (if k.val ≤ sx / 2 then
        dft (fun x : ZMod sx => (a (y : ZMod sy).val x.val : ℂ)) k else 0)
      else (starRingEnd ℂ) (if (-k).val ≤ sx / 2 then
        dft (fun x : ZMod sx => (a (y : ZMod sy).val x.val : ℂ)) (-k) else 0)) =
      dft (fun x : ZMod sx => (a (y : ZMod sy).val x.val : ℂ)) := by
    funext k
    split_ifs with h h2
    · rfl
    · exact dft_real_herm (fun x : ZMod sx => a (y : ZMod sy).val x.val) k
    · exfalso
      have hk : k ≠ 0 := by
        rintro rfl
        exact h (by simp)
      have : NeZero k := ⟨hk⟩
      have h3 := ZMod.val_neg_of_ne_zero k
      have h4 := ZMod.val_lt k
      omega
  rw [hrow, LinearEquiv.symm_apply_apply]
  simp [ZMod.val_cast_of_lt hy, ZMod.val_cast_of_lt hx]

end

private theorem shift_round (n r : ℕ) (h : r < n) :
    ((r + n / 2) % n + (n - n / 2)) % n = r := by
  rw [Nat.mod_add_mod]
  have : r + n / 2 + (n - n / 2) = r + n := by omega
  rw [this, Nat.add_mod_right, Nat.mod_eq_of_lt h]

private theorem shift_round' (n r : ℕ) (h : r < n) :
    ((r + (n - n / 2)) % n + n / 2) % n = r := by
  rw [Nat.mod_add_mod]
  have : r + (n - n / 2) + n / 2 = r + n := by omega
  rw [this, Nat.add_mod_right, Nat.mod_eq_of_lt h]

private theorem ifftshift_fftshift (a : CImg) (r c : ℕ) (hr : r < a.rows) (hc : c < a.cols) :
    (ifftshift (fftshift a)).val r c = a.val r c := by
  simp only [ifftshift, fftshift, shift_round _ _ hr, shift_round _ _ hc]

/-- What `ifft` returns for a complex transform of a non-empty pattern. -/
private theorem patternIfft_complex (a : CImg) (shift : Bool) [NeZero a.rows] [NeZero a.cols] :
    patternIfft a shift false = .ok
      { rows := a.rows
        cols := a.cols
        val := fun r c => (ifft2 a.rows a.cols
          (fun y x => (if shift then ifftshift a else a).val y.val x.val) r c).re } := by
  simp only [patternIfft, Bool.false_eq_true, if_false]
  rw [dif_pos ⟨NeZero.ne _, NeZero.ne _⟩]

/-- `fft` followed by a change `T` of the spectrum and `ifft`. -/
theorem ifft_mul_fft (p : Img ℝ) [NeZero p.rows] [NeZero p.cols] (shift : Bool)
    (T : ℕ → ℕ → ℂ) : ∃ out, patternFftFilter p T none shift = .ok out ∧
      out.rows = p.rows ∧ out.cols = p.cols ∧ ∀ r c,
      out.val r c = (ifft2 p.rows p.cols (fun y x =>
        fft2 p.rows p.cols (fun y x => (p.val y.val x.val : ℂ)) y x *
        (if shift then T ((y.val + p.rows / 2) % p.rows) ((x.val + p.cols / 2) % p.cols)
          else T y.val x.val)) r c).re := by
  unfold patternFftFilter patternFft
  rw [dif_pos ⟨NeZero.ne _, NeZero.ne _⟩]
  cases shift
  · simp only [Bool.false_eq_true, if_false]
    rw [patternIfft_complex]
    refine ⟨_, rfl, rfl, rfl, fun r c => ?_⟩
    simp
  · simp only [Bool.false_eq_true, if_false, if_true, fftshift]
    rw [patternIfft_complex]
    refine ⟨_, rfl, rfl, rfl, fun r c => ?_⟩
    simp only [if_true, ifftshift]
    congr 3
    funext y x
    rw [shift_round _ _ (ZMod.val_lt y), shift_round _ _ (ZMod.val_lt x)]
    simp

/-- C60: filtering with a transfer function of ones returns the pattern unchanged. -/
theorem C60_all_pass_filter (p : Img ℝ) (hr : 0 < p.rows) (hc : 0 < p.cols) (shift : Bool) :
    ∃ out, patternFftFilter p (fun _ _ => 1) none shift = .ok out ∧
      out.rows = p.rows ∧ out.cols = p.cols ∧
      ∀ r c, r < p.rows → c < p.cols → out.val r c = p.val r c := by
  have : NeZero p.rows := ⟨by omega⟩
  have : NeZero p.cols := ⟨by omega⟩
  obtain ⟨out, h, h1, h2, h3⟩ := ifft_mul_fft p shift (fun _ _ => 1)
  refine ⟨out, h, h1, h2, fun r c hr hc => ?_⟩
  rw [h3]
  simp only [ite_self, mul_one]
  have e := ifft2_fft2 (sy := p.rows) (sx := p.cols) (fun y x => (p.val y.val x.val : ℂ))
  have e2 := congrFun (congrFun e r) c
  rw [show (fun y x => fft2 p.rows p.cols (fun y x => (p.val y.val x.val : ℂ)) y x) =
    fft2 p.rows p.cols (fun y x => (p.val y.val x.val : ℂ)) from rfl, e2]
  simp [ZMod.val_cast_of_lt hr, ZMod.val_cast_of_lt hc]

/-- C60: `ifft` inverts `fft` for complex transforms, with and without shifting. -/
theorem C60_ifft_fft_complex (p : Img ℝ) (hr : 0 < p.rows) (hc : 0 < p.cols) (shift : Bool) :
    ∃ f out, patternFft p none shift false = .ok f ∧ patternIfft f shift false = .ok out ∧
      out.rows = p.rows ∧ out.cols = p.cols ∧
      ∀ r c, r < p.rows → c < p.cols → out.val r c = p.val r c := by
  obtain ⟨out, h, h1, h2, h3⟩ := C60_all_pass_filter p hr hc shift
  unfold patternFftFilter at h
  simp only [mul_one] at h
  cases hf : patternFft p none shift false with
  | error e => rw [hf] at h; simp at h
  | ok f =>
    rw [hf] at h
    exact ⟨f, out, rfl, h, h1, h2, h3⟩

/-- C60: the transform with an apodization window is the transform of the pattern multiplied by the
window, pixel by pixel. -/
theorem C60_apodization (p : Img ℝ) (w : ℕ → ℕ → ℝ) (shift realOnly : Bool) :
    patternFft p (some w) shift realOnly =
      patternFft { p with val := fun r c => p.val r c * w r c } none shift realOnly := rfl

/-- C60: filtering with an all-pass filter and an apodization window gives the pattern multiplied by
the window. -/
theorem C60_all_pass_apodization (p : Img ℝ) (w : ℕ → ℕ → ℝ) (hr : 0 < p.rows) (hc : 0 < p.cols)
    (shift : Bool) : ∃ out, patternFftFilter p (fun _ _ => 1) (some w) shift = .ok out ∧
      out.rows = p.rows ∧ out.cols = p.cols ∧
      ∀ r c, r < p.rows → c < p.cols → out.val r c = p.val r c * w r c :=
  C60_all_pass_filter { p with val := fun r c => p.val r c * w r c } hr hc shift

example : ∃ out, patternFftFilter ⟨2, 3, fun r c => r + c⟩ (fun _ _ => 1) (some fun r _ => r) true = .ok out ∧
    out.val 1 2 = 3 := by
  obtain ⟨out, h, _, _, hv⟩ := C60_all_pass_apodization ⟨2, 3, fun r c => r + c⟩ (fun r _ => r)
    (by simp) (by simp) true
  exact ⟨out, h, by rw [hv 1 2 (by simp) (by simp)]; norm_num⟩

/-- What `ifft` returns for the real-valued transform with an even number of columns. -/
private theorem real_even (rows cols : ℕ) [NeZero rows] [NeZero cols] (v : ℕ → ℕ → ℝ)
    (m : ℕ) (hm : m = cols) [NeZero m] (X : ZMod rows → ZMod m → ℂ)
    (hX : ∀ y k, k.val ≤ m / 2 → X y k = rfft2 rows cols v y (k.val : ZMod cols))
    (r c : ℕ) (hr : r < rows) (hc : c < cols) : irfft2 rows m X r c = v r c := by
  subst hm
  rw [irfft2_congr X (rfft2 rows m v) (fun y k hk => by rw [hX y k hk]; simp)]
  exact irfft2_rfft2 v r c hr hc

private theorem patternIfft_real (a : CImg) (shift : Bool) [NeZero a.rows]
    [NeZero (2 * (a.cols - 1))] : patternIfft a shift true = .ok
      { rows := a.rows
        cols := 2 * (a.cols - 1)
        val := irfft2 a.rows (2 * (a.cols - 1))
          (fun y x => (if shift then ifftshift a else a).val y.val x.val) } := by
  simp only [patternIfft, if_true]
  rw [dif_pos ⟨NeZero.ne _, NeZero.ne _⟩]

private theorem patternFft_real (p : Img ℝ) (shift : Bool) [NeZero p.rows] [NeZero p.cols] :
    patternFft p none shift true = .ok (
      let out : CImg :=
        { rows := p.rows
          cols := p.cols / 2 + 1
          val := fun r c => rfft2 p.rows p.cols p.val r c }
      if shift then fftshift out else out) := by
  unfold patternFft
  rw [dif_pos ⟨NeZero.ne _, NeZero.ne _⟩]
  simp only [if_true]

/-- C60: `ifft` inverts `fft` for real-valued transforms of patterns with an even number of
columns, with and without shifting. -/
theorem C60_ifft_fft_real_even_partial (p : Img ℝ) (hr : 0 < p.rows) (hc : 0 < p.cols)
    (hev : p.cols % 2 = 0) (shift : Bool) :
    ∃ f out, patternFft p none shift true = .ok f ∧ patternIfft f shift true = .ok out ∧
      out.rows = p.rows ∧ out.cols = p.cols ∧
      ∀ r c, r < p.rows → c < p.cols → out.val r c = p.val r c := by
  have : NeZero p.rows := ⟨by omega⟩
  have : NeZero p.cols := ⟨by omega⟩
  have hn : 2 * (p.cols / 2 + 1 - 1) ≠ 0 := by omega
  have : NeZero (2 * (p.cols / 2 + 1 - 1)) := ⟨hn⟩
  rw [patternFft_real]
  obtain ⟨F, hF⟩ : ∃ F : CImg, F =
    { rows := p.rows
      cols := p.cols / 2 + 1
      val := fun r c => rfft2 p.rows p.cols p.val r c } := ⟨_, rfl⟩
  have hFr : F.rows = p.rows := by rw [hF]
  have hFc : F.cols = p.cols / 2 + 1 := by rw [hF]
  have i1 : NeZero F.rows := ⟨by omega⟩
  have i2 : NeZero (2 * (F.cols - 1)) := ⟨by omega⟩
  rw [← hF]
  cases shift
  · simp only [Bool.false_eq_true, if_false]
    refine ⟨_, _, rfl, patternIfft_real _ false, hFr, by simp only; omega, fun r c h1 h2 => ?_⟩
    subst hF
    exact real_even p.rows p.cols p.val _ (by simp only; omega) _ (fun y k _ => by simp) r c h1 h2
  · simp only [if_true]
    have i3 : NeZero (fftshift F).rows := i1
    have i4 : NeZero (2 * ((fftshift F).cols - 1)) := i2
    refine ⟨_, _, rfl, patternIfft_real _ true, hFr, by simp only [fftshift]; omega,
      fun r c h1 h2 => ?_⟩
    subst hF
    refine real_even p.rows p.cols p.val _ (by simp only [fftshift]; omega) _
      (fun y k hk => ?_) r c h1 h2
    simp only [if_true]
    rw [ifftshift_fftshift _ _ _ (ZMod.val_lt y) (by simp only [fftshift] at hk ⊢; omega)]
    exact congrArg (fun z => rfft2 p.rows p.cols p.val z _) (ZMod.natCast_zmod_val y)

/-- C60 is false for patterns with an odd number of columns: the inverse real-valued
transform raises an error or returns a pattern with another number of columns. -/
theorem C60_ifft_fft_real_odd_fails (p : Img ℝ) (hr : 0 < p.rows) (hodd : p.cols % 2 = 1)
    (shift : Bool) : ∃ f, patternFft p none shift true = .ok f ∧
      ∀ out, patternIfft f shift true = .ok out → out.cols ≠ p.cols := by
  unfold patternFft
  rw [dif_pos ⟨by omega, by omega⟩]
  refine ⟨_, rfl, fun out h => ?_⟩
  unfold patternIfft at h
  simp only [if_true] at h
  split_ifs at h with h1 h2
  all_goals
    injection h with h
    subst h
    simp [fftshift]
    omega

/-- C60: passing the shifted transfer function with `shift=True` is the same as passing the
unshifted one with `shift=False`. -/
theorem C60_shift_equivalent (p : Img ℝ) (hr : 0 < p.rows) (hc : 0 < p.cols) (T : CImg)
    (hTr : T.rows = p.rows) (hTc : T.cols = p.cols) :
    ∃ out, patternFftFilter p (fftshift T).val none true = .ok out ∧
      ∃ out', patternFftFilter p T.val none false = .ok out' ∧
      out.rows = out'.rows ∧ out.cols = out'.cols ∧ out.val = out'.val := by
  have : NeZero p.rows := ⟨by omega⟩
  have : NeZero p.cols := ⟨by omega⟩
  obtain ⟨out, h, h1, h2, h3⟩ := ifft_mul_fft p true (fftshift T).val
  obtain ⟨out', h', h1', h2', h3'⟩ := ifft_mul_fft p false T.val
  refine ⟨out, h, out', h', h1.trans h1'.symm, h2.trans h2'.symm, ?_⟩
  funext r c
  rw [h3, h3']
  simp only [if_true, Bool.false_eq_true, if_false, fftshift, hTr, hTc]
  congr 3
  funext y x
  rw [shift_round _ _ (ZMod.val_lt y), shift_round _ _ (ZMod.val_lt x)]

/-- C60: the transfer function at zero frequency scales the total intensity. -/
theorem C60_zero_frequency (p : Img ℝ) (hr : 0 < p.rows) (hc : 0 < p.cols) (T : ℕ → ℕ → ℂ) :
    ∃ out, patternFftFilter p T none false = .ok out ∧
      ∑ r ∈ range p.rows, ∑ c ∈ range p.cols, out.val r c =
        (T 0 0).re * ∑ r ∈ range p.rows, ∑ c ∈ range p.cols, p.val r c := by
  have : NeZero p.rows := ⟨by omega⟩
  have : NeZero p.cols := ⟨by omega⟩
  obtain ⟨out, h, -, -, h3⟩ := ifft_mul_fft p false T
  refine ⟨out, h, ?_⟩
  set F : ZMod p.rows → ZMod p.cols → ℂ := fun y x =>
    fft2 p.rows p.cols (fun y x => (p.val y.val x.val : ℂ)) y x * T y.val x.val with hF
  have s2 : ∀ G : ℕ → ℕ → ℝ, ∑ r ∈ range p.rows, ∑ c ∈ range p.cols, G r c =
      ∑ y : ZMod p.rows, ∑ x : ZMod p.cols, G y.val x.val := by
    intro G
    rw [← sum_zmod (n := p.rows) (fun i => ∑ j ∈ range p.cols, G i j)]
    exact sum_congr rfl fun u _ => (sum_zmod (n := p.cols) (fun j => G u.val j)).symm
  have hz : ∀ a : ZMod p.rows → ZMod p.cols → ℂ,
      fft2 p.rows p.cols a 0 0 = ∑ y, ∑ x, a y x := by
    intro a
    change dft2 a 0 0 = _
    rw [dft2_apply]
    simp
  have hinv : fft2 p.rows p.cols (ifft2 p.rows p.cols F) = F := by
    unfold fft2 ifft2
    simp only [LinearEquiv.apply_symm_apply]
  rw [s2, s2]
  have e1 : ∀ y x, out.val (y : ZMod p.rows).val (x : ZMod p.cols).val =
      (ifft2 p.rows p.cols F y x).re := by
    intro y x
    rw [h3]
    simp [hF]
  simp only [e1]
  rw [show ∑ y, ∑ x, (ifft2 p.rows p.cols F y x).re =
      (∑ y, ∑ x, ifft2 p.rows p.cols F y x).re by simp [Complex.re_sum], ← hz, hinv, hF]
  simp only [hz]
  rw [show (∑ y : ZMod p.rows, ∑ x : ZMod p.cols, (p.val y.val x.val : ℂ)) =
    ((∑ y : ZMod p.rows, ∑ x : ZMod p.cols, p.val y.val x.val : ℝ) : ℂ) by push_cast; rfl,
    Complex.re_ofReal_mul, mul_comm]
  simp

/-- The hypotheses of the C60 theorems hold for a 3 x 4 and a 3 x 5 pattern. -/
example : ∃ p q : Img ℝ, 0 < p.rows ∧ 0 < p.cols ∧ p.cols % 2 = 0 ∧ 0 < q.rows ∧
    q.cols % 2 = 1 :=
  ⟨{ rows := 3, cols := 4, val := fun r c => r + c }, { rows := 3, cols := 5, val := fun r c => r * c },
    by decide, by decide, by decide, by decide, by decide⟩

end Kp
