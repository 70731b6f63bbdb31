import Verif.Model.FloatPc
import Verif.Spec.FloatPc
import Verif.Lemmas.PcConventions
import Verif.Lemmas.FloatLambert
import Verif.Lemmas.FloatSimilarity

/-! Error analysis of the conversions of projection centers, for C115. -/

namespace Kp

/-- `x'` is `x` up to `k` units `2 ^ -53` of `|x| + τ`. -/
def NearBy (k τ x' x : ℝ) : Prop := |x' - x| ≤ k * ulp * (|x| + τ)

theorem unit_pos : 0 < ulp := by unfold ulp; positivity
theorem unit_le : ulp ≤ 1 / 2 ^ 53 := le_rfl

/-- Smallest normal number. -/
noncomputable def tiny : ℝ := 2 ^ (-1022 : ℤ)

theorem tiny_pos : 0 < tiny := two_zpow_pos _
theorem tiny_le : tiny ≤ 1 / 2 ^ 100 := by
  rw [show (1 / 2 ^ 100 : ℝ) = 2 ^ (-100 : ℤ) by rw [zpow_neg, one_div]; rfl]
  exact zpow_le_zpow_right₀ (by norm_num) (by norm_num)

theorem fl64_error_tiny (x : ℝ) : |fl64 x - x| ≤ ulp * (|x| + tiny) := by
  have h := binaryRound_abs_error 53 (-1074) x
  have e1 : (2 : ℝ) ^ (-((53 : ℕ) : ℤ)) = ulp := by
    rw [ulp, zpow_neg, one_div]; rfl
  have e2 : (2 : ℝ) ^ ((-1074 : ℤ) - 1) = ulp * tiny := by
    rw [← e1, tiny, ← zpow_add₀ (by norm_num)]
    norm_num
  rw [e1, e2] at h
  calc _ ≤ _ := h
    _ = _ := by ring

theorem NearBy.self (τ x : ℝ) : NearBy 0 τ x x := by
  unfold NearBy
  simp

theorem NearBy.weaken {k k' τ τ' x' x : ℝ} (h : NearBy k τ x' x) (hk : k ≤ k') (hk0 : 0 ≤ k)
    (hτ : τ ≤ τ') (hτ0 : 0 ≤ τ) : NearBy k' τ' x' x := by
  refine h.trans ?_
  have := unit_pos
  have hx := abs_nonneg x
  have h0 : 0 ≤ k' * ulp := mul_nonneg (hk0.trans hk) this.le
  gcongr

theorem NearBy.fl {k τ x' x : ℝ} (h : NearBy k τ x' x) (hk : k ≤ 2 ^ 50)
    (hτ : tiny ≤ τ) : NearBy (k + 2) τ (fl64 x') x := by
  unfold NearBy at *
  have hu := unit_pos
  have ht := tiny_pos
  have hx := abs_nonneg x
  have hku : k * ulp ≤ 1 / 2 := by
    have : k * ulp ≤ 2 ^ 50 * (1 / 2 ^ 53) := by
      have := unit_le
      gcongr
    refine this.trans (by norm_num)
  have h1 := fl64_error_tiny x'
  have h2 : |x'| ≤ |x| + 1 / 2 * (|x| + τ) := by
    have h3 : |x'| ≤ |x| + |x' - x| := by
      have := abs_add_le x (x' - x)
      rwa [add_sub_cancel] at this
    have : k * ulp * (|x| + τ) ≤ 1 / 2 * (|x| + τ) :=
      mul_le_mul_of_nonneg_right hku (by linarith)
    linarith
  calc |fl64 x' - x| ≤ |fl64 x' - x'| + |x' - x| := abs_sub_le _ _ _
    _ ≤ ulp * (|x'| + tiny) + k * ulp * (|x| + τ) := by linarith
    _ ≤ ulp * (2 * (|x| + τ)) + k * ulp * (|x| + τ) := by
      gcongr
      linarith
    _ = _ := by ring

theorem NearBy.mul {k τ x' x c : ℝ} (h : NearBy k τ x' x) (hc : 0 ≤ c) :
    NearBy k (τ * c) (x' * c) (x * c) := by
  unfold NearBy at *
  rw [← sub_mul, abs_mul, abs_mul, abs_of_nonneg hc]
  calc |x' - x| * c ≤ k * ulp * (|x| + τ) * c := mul_le_mul_of_nonneg_right h hc
    _ = _ := by ring

theorem NearBy.sub {k τ x' x c : ℝ} (h : NearBy k τ x' x) (hk : 0 ≤ k) :
    NearBy k (τ + |c|) (c - x') (c - x) := by
  unfold NearBy at *
  rw [show c - x' - (c - x) = -(x' - x) by ring, abs_neg]
  refine h.trans ?_
  have hu := unit_pos
  have : |x| ≤ |c - x| + |c| := by
    have := abs_sub_le x c 0
    rw [sub_zero, sub_zero, abs_sub_comm] at this
    exact this
  have hku : 0 ≤ k * ulp := by positivity
  refine mul_le_mul_of_nonneg_left ?_ hku
  linarith

/-- Multiplication with a constant which is itself rounded. -/
theorem NearBy.mul_near {k j τ x' x c' c : ℝ} (h : NearBy k τ x' x) (hc : NearBy j 0 c' c)
    (hc0 : 0 < c) (hk0 : 0 ≤ k) (hτ : 0 ≤ τ) (hkj : k * j ≤ 2 ^ 50) :
    NearBy (k + j + 1) (τ * c) (x' * c') (x * c) := by
  unfold NearBy at *
  have hu := unit_pos
  have hx := abs_nonneg x
  rw [abs_of_pos hc0, add_zero] at hc
  have hkju : k * j * ulp ≤ 1 := by
    have : k * j * ulp ≤ 2 ^ 50 * (1 / 2 ^ 53) := by
      have := unit_le
      gcongr
    refine this.trans (by norm_num)
  have hc' : |c'| ≤ (1 + j * ulp) * c := by
    have h3 : |c'| ≤ |c| + |c' - c| := by
      have := abs_add_le c (c' - c)
      rwa [add_sub_cancel] at this
    rw [abs_of_pos hc0] at h3
    linarith
  have e : x' * c' - x * c = (x' - x) * c' + x * (c' - c) := by ring
  have : |x' * c' - x * c| ≤ |x' - x| * |c'| + |x| * |c' - c| := by
    rw [e, ← abs_mul, ← abs_mul]
    exact abs_add_le _ _
  rw [abs_mul, abs_of_pos hc0]
  calc |x' * c' - x * c| ≤ |x' - x| * |c'| + |x| * |c' - c| := this
    _ ≤ k * ulp * (|x| + τ) * ((1 + j * ulp) * c) + (|x| + τ) * (j * ulp * c) := by
      have : 0 ≤ |x' - x| := abs_nonneg _
      gcongr
      linarith
    _ = (k + j + k * j * ulp) * (ulp * ((|x| + τ) * c)) := by ring
    _ ≤ (k + j + 1) * (ulp * ((|x| + τ) * c)) := by
      gcongr
    _ = _ := by ring

/-- The reciprocal of a rounded constant. -/
theorem NearBy.inv {j c' c : ℝ} (hc : NearBy j 0 c' c) (hc0 : 0 < c) (hj0 : 0 ≤ j)
    (hj : j ≤ 1000) : NearBy (j + 1) 0 c'⁻¹ c⁻¹ := by
  unfold NearBy at *
  have hu := unit_pos
  have hus : j * ulp ≤ 1 / 2 ^ 40 := by
    have : j * ulp ≤ 1000 * (1 / 2 ^ 53) := by
      have := unit_le
      gcongr
    refine this.trans (by norm_num)
  rw [abs_of_pos hc0, add_zero] at hc
  have hlow : c * (1 - j * ulp) ≤ c' := by
    have := (abs_le.mp hc).1
    linarith
  have hpos : 0 < 1 - j * ulp := by
    have : (1 : ℝ) / 2 ^ 40 < 1 := by norm_num
    linarith
  have hc'0 : 0 < c' := lt_of_lt_of_le (mul_pos hc0 hpos) hlow
  have e : c'⁻¹ - c⁻¹ = -((c' - c) / (c' * c)) := by
    field_simp
    ring
  rw [e, abs_neg, abs_div, abs_of_pos (mul_pos hc'0 hc0), add_zero, abs_of_pos (inv_pos.mpr hc0),
    div_le_iff₀ (mul_pos hc'0 hc0)]
  have e2 : (j + 1) * ulp * c⁻¹ * (c' * c) = (j + 1) * ulp * c' := by
    field_simp
  rw [e2]
  refine hc.trans ?_
  have h1 : j * (ulp * c) ≤ (j + 1) * (ulp * (c * (1 - j * ulp))) := by
    have h2 : j ≤ (j + 1) * (1 - j * ulp) := by
      have h3 : (j + 1) * (j * ulp) ≤ 1001 * (1 / 2 ^ 40) := by
        have : 0 ≤ j * ulp := by positivity
        gcongr
        linarith
      have h4 : (1001 : ℝ) * (1 / 2 ^ 40) ≤ 1 := by norm_num
      linarith
    calc j * (ulp * c) ≤ (j + 1) * (1 - j * ulp) * (ulp * c) := by gcongr
      _ = _ := by ring
  calc j * ulp * c = j * (ulp * c) := by ring
    _ ≤ (j + 1) * (ulp * (c * (1 - j * ulp))) := h1
    _ ≤ (j + 1) * (ulp * c') := by gcongr
    _ = _ := by ring

theorem NearBy.div_near {k j τ x' x c' c : ℝ} (h : NearBy k τ x' x) (hc : NearBy j 0 c' c)
    (hc0 : 0 < c) (hk0 : 0 ≤ k) (hj0 : 0 ≤ j) (hτ : 0 ≤ τ) (hk : k ≤ 1000) (hj : j ≤ 1000) :
    NearBy (k + j + 2) (τ / c) (x' / c') (x / c) := by
  have := h.mul_near (hc.inv hc0 hj0 hj) (inv_pos.mpr hc0) hk0 hτ (by
    calc k * (j + 1) ≤ 1000 * (1000 + 1) := by gcongr
      _ ≤ _ := by norm_num)
  rw [← div_eq_mul_inv, ← div_eq_mul_inv, ← div_eq_mul_inv] at this
  rwa [show k + j + 2 = k + (j + 1) + 1 by ring]

/-- Rounding of constants which are not small. -/
theorem nearBy_const {c : ℝ} (h : 1 / 2 ^ 100 ≤ c) : NearBy 1 0 (fl64 c) c := by
  unfold NearBy
  have hc : 0 < c := lt_of_lt_of_le (by positivity) h
  rw [abs_of_pos hc, one_mul, add_zero]
  exact fl64_error h

theorem nearBy_const_mul {c' c d : ℝ} (h : NearBy 1 0 c' c) (hc : 1 / 2 ^ 50 ≤ c)
    (hd : 1 / 2 ^ 40 ≤ d) : NearBy 3 0 (fl64 (c' * d)) (c * d) := by
  have hu := unit_pos
  have hc0 : 0 < c := lt_of_lt_of_le (by positivity) hc
  have hd0 : 0 < d := lt_of_lt_of_le (by positivity) hd
  have hs : ulp ≤ 1 / 4 := unit_le.trans (by norm_num)
  have h1 := h.mul hd0.le
  rw [zero_mul] at h1
  unfold NearBy at h1 ⊢
  rw [abs_of_pos (mul_pos hc0 hd0), add_zero] at h1 ⊢
  have hlow : c * d * (1 - ulp) ≤ c' * d := by
    have := (abs_le.mp h1).1
    linarith
  have hup : c' * d ≤ c * d * (1 + ulp) := by
    have := (abs_le.mp h1).2
    linarith
  have hbig : 1 / 2 ^ 100 ≤ c' * d := by
    refine le_trans ?_ hlow
    have : (1 : ℝ) / 2 ^ 50 * (1 / 2 ^ 40) * (1 - 1 / 4) ≤ c * d * (1 - ulp) := by
      gcongr
    refine le_trans (by norm_num) this
  have h2 := fl64_error hbig
  have h3 : ulp * (c' * d) ≤ 2 * ulp * (c * d) := by
    have : c' * d ≤ 2 * (c * d) := by
      refine hup.trans ?_
      rw [mul_comm 2]
      gcongr
      linarith
    calc ulp * (c' * d) ≤ ulp * (2 * (c * d)) := by gcongr
      _ = _ := by ring
  calc _ ≤ |fl64 (c' * d) - c' * d| + |c' * d - c * d| := abs_sub_le _ _ _
    _ ≤ _ := by linarith

theorem NearBy.neg {k τ x' x : ℝ} (h : NearBy k τ x' x) : NearBy k τ (-x') (-x) := by
  unfold NearBy at *
  rwa [abs_neg, show -x' - -x = -(x' - x) by ring, abs_neg]

theorem NearBy.fl_at {k k' τ x' x : ℝ} (h : NearBy k τ x' x) (hk : k ≤ 2 ^ 50)
    (hτ : tiny ≤ τ) (e : k + 2 = k') : NearBy k' τ (fl64 x') x := e ▸ h.fl hk hτ

theorem tiny_le' : tiny ≤ 1 / 2 ^ 200 := by
  rw [show (1 / 2 ^ 200 : ℝ) = 2 ^ (-200 : ℤ) by rw [zpow_neg, one_div]; rfl]
  exact zpow_le_zpow_right₀ (by norm_num) (by norm_num)

open Spec

section
variable {d : Detector ℝ} (hd : UsualDetector d)
include hd

theorem UsualDetector.rows_real : (1 : ℝ) ≤ d.nrows := by exact_mod_cast hd.rows
theorem UsualDetector.columns_real : (1 : ℝ) ≤ d.ncols := by exact_mod_cast hd.columns
theorem UsualDetector.rows_real_le : (d.nrows : ℝ) ≤ 2 ^ 50 := by exact_mod_cast hd.rows_le
theorem UsualDetector.columns_real_le : (d.ncols : ℝ) ≤ 2 ^ 50 := by exact_mod_cast hd.columns_le

theorem UsualDetector.ratio_ge {m : ℝ} (hm : 1 ≤ m) : 1 / 2 ^ 50 ≤ m / d.nrows := by
  have h1 := UsualDetector.rows_real hd
  have h2 := UsualDetector.rows_real_le hd
  rw [div_le_div_iff₀ (by positivity) (by linarith)]
  nlinarith

theorem UsualDetector.near_aspect : NearBy 1 0 d.aspectFl ((d.ncols : ℝ) / d.nrows) :=
  nearBy_const (le_trans (by norm_num) (UsualDetector.ratio_ge hd (UsualDetector.columns_real hd)))

theorem UsualDetector.min_real : (1 : ℝ) ≤ ((min d.nrows d.ncols : ℕ) : ℝ) := by
  have : 1 ≤ min d.nrows d.ncols := le_min hd.rows hd.columns
  exact_mod_cast this

theorem UsualDetector.near_min :
    NearBy 1 0 d.minOverRowsFl (((min d.nrows d.ncols : ℕ) : ℝ) / d.nrows) :=
  nearBy_const (le_trans (by norm_num) (UsualDetector.ratio_ge hd (UsualDetector.min_real hd)))

/-- Size of one direction times the binning factor. -/
theorem UsualDetector.prod_ge {n : ℝ} (hn : 1 ≤ n) : 1 / 2 ^ 20 ≤ n * d.binning := by
  have h2 := hd.binning.1
  have h3 : (0 : ℝ) < 1 / 2 ^ 20 := by positivity
  nlinarith

end

/-! ### One coordinate at a time -/

/-- A position in EMsoft's convention is imported. -/
theorem emsoft_import_error {n b x : ℝ} (hn : 1 ≤ n) (hb0 : 0 < b) (hb : 1 / 2 ^ 20 ≤ n * b) :
    NearBy 16 n (fl64 (1 / 2 - fl64 (x / fl64 (n * b))) * n) (n / 2 - x / b) := by
  have hn0 : 0 < n := by linarith
  have hD : 0 < n * b := mul_pos hn0 hb0
  have hc := nearBy_const (c := n * b) (le_trans (by norm_num) hb)
  have h1 := (NearBy.self (n * b / 2) x).div_near hc hD le_rfl zero_le_one (by positivity)
    (by norm_num) (by norm_num)
  rw [show n * b / 2 / (n * b) = 1 / 2 by field_simp] at h1
  have h2 := h1.fl (by norm_num) (tiny_le.trans (by norm_num))
  have h3 := h2.sub (c := 1 / 2) (by norm_num)
  have h4 := h3.fl (by norm_num) (tiny_le.trans (by norm_num))
  have h5 := h4.mul hn0.le
  rw [show (1 / 2 - x / (n * b)) * n = n / 2 - x / b by field_simp] at h5
  exact h5.weaken (by norm_num) (by norm_num) (by norm_num) (by positivity)

/-- A position in EMsoft's convention is exported. -/
theorem emsoft_export_error {n b x : ℝ} (hn : 1 ≤ n) (hb : 1 / 2 ^ 20 ≤ b) :
    NearBy 16 n (n / 2 - fl64 (fl64 (fl64 (1 / 2 - x) * n) * b) / b) (x * n) := by
  have hb0 : 0 < b := lt_of_lt_of_le (by positivity) hb
  have hn0 : 0 < n := by linarith
  have h1 := (NearBy.self 1 (1 / 2 - x)).fl (by norm_num) (tiny_le.trans (by norm_num))
  have h2 := (h1.mul hn0.le).fl (by norm_num)
    (tiny_le.trans (le_trans (by norm_num) (show (1 : ℝ) ≤ 1 * n by linarith)))
  have h3 := (h2.mul hb0.le).fl (by norm_num) (tiny_le.trans (by
    have : 1 * (1 / 2 ^ 20) ≤ 1 * n * b := by
      rw [one_mul n]
      gcongr
    exact le_trans (by norm_num) this))
  have h4 := h3.mul (inv_pos.mpr hb0).le
  have h5 := h4.sub (c := n / 2) (by norm_num)
  rw [← div_eq_mul_inv, ← div_eq_mul_inv, ← div_eq_mul_inv, mul_div_assoc, div_self hb0.ne',
    mul_one, show n / 2 - (1 / 2 - x) * n * b / b = x * n by field_simp; ring,
    abs_of_pos (by positivity)] at h5
  unfold NearBy at h5 ⊢
  refine h5.trans ?_
  have hu := unit_pos
  have hx := abs_nonneg (x * n)
  calc _ = ulp * (6 * |x * n| + 9 * n) := by ring
    _ ≤ ulp * (16 * (|x * n| + n)) := by gcongr; linarith
    _ = _ := by ring

/-- The detector distance in EMsoft's convention is imported. -/
theorem emsoft_import_z_error {n b δ z : ℝ} (hn : 1 ≤ n) (hn' : n ≤ 2 ^ 50) (hb : 1 / 2 ^ 20 ≤ b)
    (hδ : 1 / 2 ^ 20 ≤ δ) :
    NearBy 16 (1 / 2 ^ 100) (fl64 (z / fl64 (fl64 (n * b) * δ)) * n) (z / (δ * b)) := by
  have hb0 : 0 < b := lt_of_lt_of_le (by positivity) hb
  have hδ0 : 0 < δ := lt_of_lt_of_le (by positivity) hδ
  have hn0 : 0 < n := by linarith
  have hnb : 1 / 2 ^ 20 ≤ n * b := by nlinarith
  have hc := nearBy_const_mul (nearBy_const (c := n * b) (le_trans (by norm_num) hnb))
    (le_trans (by norm_num) hnb) (le_trans (by norm_num) hδ)
  have h1 := (NearBy.self (δ * b * (1 / 2 ^ 100)) z).div_near hc (by positivity) le_rfl
    (by norm_num) (by positivity) (by norm_num) (by norm_num)
  rw [show δ * b * (1 / 2 ^ 100) / (n * b * δ) = 1 / 2 ^ 100 / n by field_simp] at h1
  have h2 := h1.fl (by norm_num) (tiny_le'.trans (by
    rw [div_div, div_le_div_iff₀ (by positivity) (by positivity)]
    have : (2 : ℝ) ^ 100 * n ≤ 2 ^ 100 * 2 ^ 50 := by gcongr
    refine le_trans (by linarith) (show (2 : ℝ) ^ 100 * 2 ^ 50 ≤ 1 * 2 ^ 200 by norm_num)))
  have h3 := h2.mul hn0.le
  rw [div_mul_cancel₀ _ hn0.ne', show z / (n * b * δ) * n = z / (δ * b) by field_simp] at h3
  exact h3.weaken (by norm_num) (by norm_num) le_rfl (by positivity)

/-- The detector distance in EMsoft's convention is exported. -/
theorem emsoft_export_z_error {n b δ z : ℝ} (hn : 1 ≤ n) (hb : 1 / 2 ^ 20 ≤ b)
    (hδ : 1 / 2 ^ 20 ≤ δ) :
    NearBy 16 (1 / 2 ^ 100) (fl64 (fl64 (fl64 (z * n) * b) * δ) / (δ * b)) (z * n) := by
  have hb0 : 0 < b := lt_of_lt_of_le (by positivity) hb
  have hδ0 : 0 < δ := lt_of_lt_of_le (by positivity) hδ
  have hn0 : 0 < n := by linarith
  have h1 := (NearBy.self (1 / 2 ^ 100) (z * n)).fl (by norm_num) tiny_le
  have h2 := (h1.mul hb0.le).fl (by norm_num) (tiny_le'.trans (by
    have : (1 : ℝ) / 2 ^ 100 * (1 / 2 ^ 20) ≤ 1 / 2 ^ 100 * b := by gcongr
    refine le_trans (by norm_num) this))
  have h3 := (h2.mul hδ0.le).fl (by norm_num) (tiny_le'.trans (by
    have : (1 : ℝ) / 2 ^ 100 * (1 / 2 ^ 20) * (1 / 2 ^ 20) ≤ 1 / 2 ^ 100 * b * δ := by gcongr
    refine le_trans (by norm_num) this))
  have h4 := h3.mul (c := (δ * b)⁻¹) (by positivity)
  rw [show 1 / 2 ^ 100 * b * δ * (δ * b)⁻¹ = 1 / 2 ^ 100 by field_simp,
    show z * n * b * δ * (δ * b)⁻¹ = z * n by field_simp, ← div_eq_mul_inv] at h4
  exact h4.weaken (by norm_num) (by norm_num) le_rfl (by positivity)

/-- Subtraction from one. -/
theorem flip_error {n y : ℝ} (hn : 1 ≤ n) : NearBy 16 n (fl64 (1 - y) * n) (n - y * n) := by
  have h1 := ((NearBy.self 1 (1 - y)).fl (by norm_num) (tiny_le.trans (by norm_num))).mul
    (show 0 ≤ n by linarith)
  rw [show (1 - y) * n = n - y * n by ring, one_mul] at h1
  exact h1.weaken (by norm_num) (by norm_num) le_rfl (by linarith)

theorem flip_back_error {n y : ℝ} (hn : 1 ≤ n) :
    NearBy 16 n (n - fl64 (1 - y) * n) (y * n) := by
  have h1 := (((NearBy.self 1 (1 - y)).fl (by norm_num) (tiny_le.trans (by norm_num))).mul
    (show 0 ≤ n by linarith)).sub (c := n) (by norm_num)
  rw [show n - (1 - y) * n = y * n by ring, one_mul, abs_of_pos (show 0 < n by linarith)] at h1
  unfold NearBy at h1 ⊢
  refine h1.trans ?_
  have hu := unit_pos
  have hx := abs_nonneg (y * n)
  calc _ = ulp * (2 * |y * n| + 4 * n) := by ring
    _ ≤ ulp * (16 * (|y * n| + n)) := by gcongr; linarith
    _ = _ := by ring

/-- A distance is multiplied with a rounded ratio of two sizes. -/
theorem ratio_import_error {m n r z : ℝ} (hm : 1 ≤ m) (hn : 1 ≤ n) (hn' : n ≤ 2 ^ 50)
    (hr : NearBy 1 0 r (m / n)) :
    NearBy 16 (1 / 2 ^ 100) (fl64 (z * r) * n) (z * m) := by
  have hn0 : 0 < n := by linarith
  have hm0 : 0 < m := by linarith
  have h1 := ((NearBy.self (1 / 2 ^ 100 / m) z).mul_near hr (by positivity) le_rfl (by positivity)
    (by norm_num))
  rw [show 1 / 2 ^ 100 / m * (m / n) = 1 / 2 ^ 100 / n by field_simp] at h1
  have h2 := (h1.fl (by norm_num) (tiny_le'.trans (by
    rw [div_div, div_le_div_iff₀ (by positivity) (by positivity)]
    have : (2 : ℝ) ^ 100 * n ≤ 2 ^ 100 * 2 ^ 50 := by gcongr
    refine le_trans (by linarith) (show (2 : ℝ) ^ 100 * 2 ^ 50 ≤ 1 * 2 ^ 200 by norm_num)))).mul
    hn0.le
  rw [div_mul_cancel₀ _ hn0.ne', show z * (m / n) * n = z * m by field_simp] at h2
  exact h2.weaken (by norm_num) (by norm_num) le_rfl (by positivity)

/-- A distance is divided by a rounded ratio of two sizes. -/
theorem ratio_export_error {m n r z : ℝ} (hm : 1 ≤ m) (hm' : m ≤ 2 ^ 50) (hn : 1 ≤ n)
    (hr : NearBy 1 0 r (m / n)) :
    NearBy 16 (1 / 2 ^ 100) (fl64 (z / r) * m) (z * n) := by
  have hn0 : 0 < n := by linarith
  have hm0 : 0 < m := by linarith
  have h1 := ((NearBy.self (1 / 2 ^ 100 / n) z).div_near hr (by positivity) le_rfl zero_le_one
    (by positivity) (by norm_num) (by norm_num))
  rw [show 1 / 2 ^ 100 / n / (m / n) = 1 / 2 ^ 100 / m by field_simp] at h1
  have h2 := (h1.fl (by norm_num) (tiny_le'.trans (by
    rw [div_div, div_le_div_iff₀ (by positivity) (by positivity)]
    have : (2 : ℝ) ^ 100 * m ≤ 2 ^ 100 * 2 ^ 50 := by gcongr
    refine le_trans (by linarith) (show (2 : ℝ) ^ 100 * 2 ^ 50 ≤ 1 * 2 ^ 200 by norm_num)))).mul
    hm0.le
  rw [div_mul_cancel₀ _ hm0.ne', show z / (m / n) * m = z * n by field_simp] at h2
  exact h2.weaken (by norm_num) (by norm_num) le_rfl (by positivity)

/-- The vertical position in Oxford's convention is imported. -/
theorem oxford_import_error {m n r y : ℝ} (hm : 1 ≤ m) (hn : 1 ≤ n)
    (hr : NearBy 1 0 r (m / n)) :
    NearBy 16 n (fl64 (1 - fl64 (y * r)) * n) (n - y * m) := by
  have hn0 : 0 < n := by linarith
  have hm0 : 0 < m := by linarith
  have h1 := ((NearBy.self (n / m) y).mul_near hr (by positivity) le_rfl (by positivity)
    (by norm_num))
  rw [show n / m * (m / n) = 1 by field_simp] at h1
  have h2 := (h1.fl (by norm_num) (tiny_le.trans (by norm_num))).sub (c := 1) (by norm_num)
  have h3 := (h2.fl (by norm_num) (tiny_le.trans (by norm_num))).mul hn0.le
  rw [show (1 - y * (m / n)) * n = n - y * m by field_simp] at h3
  unfold NearBy at h3 ⊢
  refine h3.trans ?_
  have hu := unit_pos
  have hx := abs_nonneg (n - y * m)
  rw [abs_one]
  calc _ = ulp * (6 * |n - y * m| + 12 * n) := by ring
    _ ≤ ulp * (16 * (|n - y * m| + n)) := by gcongr; linarith
    _ = _ := by ring

/-- The vertical position in Oxford's convention is exported. -/
theorem oxford_export_error {m n r y : ℝ} (hm : 1 ≤ m) (hm' : m ≤ 2 ^ 50) (hn : 1 ≤ n)
    (hr : NearBy 1 0 r (m / n)) :
    NearBy 16 n (n - fl64 (fl64 (1 - y) / r) * m) (y * n) := by
  have hn0 : 0 < n := by linarith
  have hm0 : 0 < m := by linarith
  have h1 := (((NearBy.self 1 (1 - y)).fl (by norm_num) (tiny_le.trans (by norm_num))).div_near hr
    (by positivity) (by norm_num) zero_le_one (by positivity) (by norm_num) (by norm_num))
  rw [show 1 / (m / n) = n / m by field_simp] at h1
  have h2 := ((h1.fl (by norm_num) (tiny_le.trans (by
    rw [div_le_div_iff₀ (by positivity) (by positivity)]
    nlinarith [show (2 : ℝ) ^ 50 ≤ 2 ^ 100 by norm_num]))).mul hm0.le).sub (c := n) (by norm_num)
  rw [show n - (1 - y) / (m / n) * m = y * n by field_simp; ring,
    div_mul_cancel₀ _ hm0.ne', abs_of_pos hn0] at h2
  unfold NearBy at h2 ⊢
  refine h2.trans ?_
  have hu := unit_pos
  have hx := abs_nonneg (y * n)
  calc _ = ulp * (7 * |y * n| + 14 * n) := by ring
    _ ≤ ulp * (16 * (|y * n| + n)) := by gcongr; linarith
    _ = _ := by ring

theorem NearBy.moved {τ x' x : ℝ} (h : NearBy 16 τ x' x) : |x' - x| ≤ 1 / 2 ^ 49 * (τ + |x|) := by
  unfold NearBy at h
  refine h.trans (le_of_eq ?_)
  rw [ulp]
  ring

/-- One minus a number between 1/2 and 2 is not rounded. -/
theorem one_sub_exact {y : ℝ} (hy : fl64 y = y) (h1 : 1 / 2 ≤ y) (h2 : y ≤ 2) :
    fl64 (1 - y) = 1 - y := by
  rcases h2.eq_or_lt with rfl | h2
  · have := fl64_int (m := -1) (by norm_num)
    norm_num at this ⊢
    exact this
  have hy0 : 0 < y := by linarith
  obtain ⟨M, hM⟩ : ∃ M : ℤ, y = M * 2 ^ (-53 : ℤ) := by
    have hlog : -1 ≤ Int.log 2 |y| := by
      rw [abs_of_pos hy0, ← Int.zpow_le_iff_le_log (b := 2) one_lt_two hy0]
      norm_num
      linarith
    have hk : -53 ≤ lastDigit 53 (-1074) y := by
      unfold lastDigit
      push_cast
      omega
    unfold fl64 binaryRound at hy
    obtain ⟨a, ha⟩ := Int.eq_ofNat_of_zero_le (show 0 ≤ lastDigit 53 (-1074) y + 53 by omega)
    refine ⟨roundEven (y / 2 ^ lastDigit 53 (-1074) y) * 2 ^ a, ?_⟩
    have e : (2 : ℝ) ^ lastDigit 53 (-1074) y = 2 ^ a * 2 ^ (-53 : ℤ) := by
      rw [show lastDigit 53 (-1074) y = (a : ℤ) + -53 by omega, zpow_add₀ (by norm_num)]
      simp
    calc y = _ := hy.symm
      _ = roundEven (y / 2 ^ lastDigit 53 (-1074) y) * (2 ^ a * 2 ^ (-53 : ℤ)) := by rw [← e]
      _ = _ := by push_cast; ring
  have hf := fl64_format (m := 2 ^ 53 - M) (j := -53) (by norm_num) (by
    have : ((2 ^ 53 - M : ℤ) : ℝ) * 2 ^ (-53 : ℤ) = 1 - y := by
      rw [hM]
      push_cast
      norm_num
      ring
    rw [this, abs_le]
    norm_num
    constructor <;> linarith)
  have : ((2 ^ 53 - M : ℤ) : ℝ) * 2 ^ (-53 : ℤ) = 1 - y := by
    rw [hM]
    push_cast
    norm_num
    ring
  rwa [this] at hf

theorem moved_refl {τ x : ℝ} (h : 0 ≤ τ) : |x - x| ≤ 1 / 2 ^ 49 * (τ + |x|) := by
  have := abs_nonneg x
  rw [sub_self, abs_zero]
  positivity

end Kp
