import Verif.Model.FloatLambert
import Verif.Lemmas.FloatRescale
import Mathlib.Algebra.Order.Archimedean.Real.Basic
import Mathlib.Analysis.Real.Pi.Bounds

/-
Lemmas on 64-bit floating point numbers used for C105.
-/

namespace Kp

theorem fl64_mono : Monotone fl64 := binaryRound_mono (by norm_num) _
theorem fl64_idem (x : ℝ) : fl64 (fl64 x) = fl64 x := binaryRound_idem (by norm_num) _ x
theorem fl64_neg (x : ℝ) : fl64 (-x) = -fl64 x := binaryRound_neg _ _ x

theorem fl64_format {m j : ℤ} (hj : -1074 ≤ j) (hm : |(m : ℝ) * 2 ^ j| ≤ 2 ^ (j + 53)) :
    fl64 ((m : ℝ) * 2 ^ j) = m * 2 ^ j := binaryRound_format (by norm_num) hj hm

theorem fl64_zero : fl64 0 = 0 := by
  have := fl64_format (m := 0) (j := 0) (by norm_num) (by norm_num)
  simpa using this

theorem fl64_zpow {k : ℤ} (hk : -1074 ≤ k) : fl64 (2 ^ k) = 2 ^ k := by
  have := fl64_format (m := 1) (j := k) hk (by
    rw [Int.cast_one, one_mul, abs_of_pos (two_zpow_pos k)]
    exact zpow_le_zpow_right₀ (by norm_num) (by omega))
  simpa using this

theorem fl64_int {m : ℤ} (hm : |(m : ℝ)| ≤ 2 ^ 53) : fl64 m = m := by
  have := fl64_format (m := m) (j := 0) (by norm_num) (by simpa using hm)
  simpa using this

theorem fl64_one : fl64 1 = 1 := by
  have := fl64_int (m := 1) (by norm_num)
  simpa using this

theorem fl64_nonneg {x : ℝ} (h : 0 ≤ x) : 0 ≤ fl64 x := by
  have := fl64_mono h
  rwa [fl64_zero] at this

theorem fl64_abs (x : ℝ) : |fl64 x| = fl64 |x| := by
  rcases le_total 0 x with h | h
  · rw [abs_of_nonneg h, abs_of_nonneg (fl64_nonneg h)]
  · have := fl64_nonneg (neg_nonneg.mpr h)
    rw [fl64_neg] at this
    rw [abs_of_nonpos h, fl64_neg, abs_of_nonpos (by linarith)]

/-- Relative error of one operation. -/
noncomputable def ulp : ℝ := 1 / 2 ^ 53

theorem fl64_error {x : ℝ} (h : 1 / 2 ^ 100 ≤ x) : |fl64 x - x| ≤ ulp * x := by
  have hx : 0 < x := lt_of_lt_of_le (by positivity) h
  have := binaryRound_error (K := ℝ) 53 (-1074) (x := x) (by
    rw [abs_of_pos hx]
    refine le_trans ?_ h
    rw [show (1 / 2 ^ 100 : ℝ) = 2 ^ (-100 : ℤ) by rw [zpow_neg, one_div]; rfl]
    exact zpow_le_zpow_right₀ (by norm_num) (by norm_num))
  rw [abs_of_pos hx] at this
  refine this.trans (le_of_eq ?_)
  rw [ulp, zpow_neg, one_div]
  rfl

theorem fl64_le {x : ℝ} (h : 1 / 2 ^ 100 ≤ x) : fl64 x ≤ x * (1 + ulp) := by
  have := (abs_le.mp (fl64_error h)).2
  linarith

theorem le_fl64 {x : ℝ} (h : 1 / 2 ^ 100 ≤ x) : x * (1 - ulp) ≤ fl64 x := by
  have := (abs_le.mp (fl64_error h)).1
  linarith

theorem fl64_bound {x b : ℝ} (hx : |x| ≤ b) (hb : 1 / 2 ^ 100 ≤ b) : |fl64 x| ≤ b * (1 + ulp) := by
  rw [fl64_abs]
  exact (fl64_mono hx).trans (fl64_le hb)

/-- Very small numbers are rounded to zero. -/
theorem fl64_tiny {x : ℝ} (h0 : 0 ≤ x) (h : x < 2 ^ (-1080 : ℤ)) : fl64 x = 0 := by
  rcases h0.eq_or_lt with rfl | hx
  · exact fl64_zero
  have hlog : Int.log 2 |x| < -1080 := by
    rw [abs_of_pos hx]
    exact (Int.lt_zpow_iff_log_lt (b := 2) one_lt_two hx).mp (by exact_mod_cast h)
  have hl : lastDigit 53 (-1074) x = -1074 := by
    unfold lastDigit
    apply max_eq_right
    push_cast
    omega
  unfold fl64 binaryRound
  rw [hl]
  have hq : |x / 2 ^ (-1074 : ℤ) - ((0 : ℤ) : ℝ)| < 1 / 2 := by
    rw [Int.cast_zero, sub_zero, abs_of_nonneg (by positivity), div_lt_iff₀ (two_zpow_pos _)]
    refine h.trans ?_
    have : (1 / 2 : ℝ) * 2 ^ (-1074 : ℤ) = 2 ^ (-1075 : ℤ) := by
      rw [show (-1074 : ℤ) = -1075 + 1 by norm_num, zpow_add_one₀ (by norm_num)]
      ring
    rw [this]
    exact zpow_lt_zpow_right₀ (by norm_num) (by norm_num)
  rw [roundEven_of_near hq]
  simp

/-- The square root of a rounded square is the number itself. -/
theorem fl64_sqrt_sq {m : ℝ} (hm : fl64 m = m) (h1 : 1 / 2 ≤ m) :
    fl64 (Real.sqrt (fl64 (m * m))) = m := by
  have hm0 : 0 < m := by linarith
  set e := Int.log 2 m with he
  have l1 : (2 : ℝ) ^ e ≤ m := by
    have := Int.zpow_log_le_self (b := 2) one_lt_two hm0
    exact_mod_cast this
  have l2 : m < (2 : ℝ) ^ (e + 1) := by
    have := Int.lt_zpow_succ_log_self (b := 2) one_lt_two m
    exact_mod_cast this
  have he1 : -1 ≤ e := by
    rw [he, ← Int.zpow_le_iff_le_log (b := 2) one_lt_two hm0]
    norm_num
    linarith
  have hl : lastDigit 53 (-1074) m = e - 52 := by
    unfold lastDigit
    rw [abs_of_pos hm0, ← he]
    push_cast
    omega
  obtain ⟨M, hM⟩ : ∃ M : ℤ, m = M * 2 ^ (e - 52) := by
    refine ⟨roundEven (m / 2 ^ (e - 52)), ?_⟩
    have : fl64 m = roundEven (m / 2 ^ lastDigit 53 (-1074) m) * 2 ^ lastDigit 53 (-1074) m := rfl
    rw [hm, hl] at this
    exact this
  have hu : (0 : ℝ) < 2 ^ (e - 52) := two_zpow_pos _
  have e1 : (2 : ℝ) ^ (e + 1) = 2 ^ 53 * 2 ^ (e - 52) := by
    rw [show e + 1 = 53 + (e - 52) by ring, zpow_add₀ (by norm_num)]
    norm_num
  have e0 : (2 : ℝ) ^ e = 2 ^ 52 * 2 ^ (e - 52) := by
    rw [show e = 52 + (e - 52) by ring, zpow_add₀ (by norm_num)]
    norm_num
  -- the largest number below the next power of two
  have l3 : m ≤ 2 ^ (e + 1) * (1 - ulp) := by
    have : (M : ℝ) < 2 ^ 53 := by
      by_contra hc
      push Not at hc
      rw [hM, e1] at l2
      exact absurd (mul_le_mul_of_nonneg_right hc hu.le) (not_le.mpr l2)
    have hz : M + 1 ≤ 2 ^ 53 := by exact_mod_cast this
    have hr : (M : ℝ) + 1 ≤ 2 ^ 53 := by exact_mod_cast hz
    rw [hM, e1, ulp]
    have := mul_le_mul_of_nonneg_right hr hu.le
    nlinarith
  have hmm : (1 : ℝ) / 2 ^ 100 ≤ m * m := by nlinarith
  have up := fl64_le hmm
  have lo := le_fl64 hmm
  have hs : 0 ≤ fl64 (m * m) := fl64_nonneg (by positivity)
  have hulp : (0 : ℝ) < ulp := by unfold ulp; positivity
  have hulp1 : ulp < 1 / 2 := by unfold ulp; norm_num
  set r := Real.sqrt (fl64 (m * m)) with hr
  have hr0 : 0 ≤ r := Real.sqrt_nonneg _
  have hrr : r * r = fl64 (m * m) := Real.mul_self_sqrt hs
  -- bounds of the square root
  have hrlo : m * (1 - ulp) ≤ r := by
    by_contra hc
    push Not at hc
    have h3 : r * r < (m * (1 - ulp)) * (m * (1 - ulp)) :=
      mul_self_lt_mul_self hr0 hc
    have h4 : (m * (1 - ulp)) * (m * (1 - ulp)) ≤ m * m * (1 - ulp) := by
      have : (1 - ulp) * (1 - ulp) ≤ 1 - ulp := by nlinarith
      nlinarith [mul_pos hm0 hm0]
    linarith
  have hd : |r - m| < 2 ^ (e - 52) / 2 := by
    have hprod : |r - m| * (r + m) ≤ ulp * (m * m) := by
      have h5 : |r - m| * (r + m) = |fl64 (m * m) - m * m| := by
        rw [← hrr, show r * r - m * m = (r - m) * (r + m) by ring, abs_mul,
          abs_of_pos (show 0 < r + m by linarith)]
      rw [h5]
      exact fl64_error hmm
    by_contra hc
    push Not at hc
    have h6 : m * (2 - ulp) ≤ r + m := by linarith
    have h7 : 2 ^ (e - 52) / 2 * (m * (2 - ulp)) ≤ ulp * (m * m) :=
      (mul_le_mul hc h6 (by nlinarith) (abs_nonneg _)).trans hprod
    have h8 : ulp * m ≤ ulp * (2 ^ (e + 1) * (1 - ulp)) := mul_le_mul_of_nonneg_left l3 hulp.le
    have h9 : ulp * (2 : ℝ) ^ (e + 1) = 2 ^ (e - 52) := by
      rw [e1, ulp]; field_simp
    have h10 : ulp * (m * m) ≤ 2 ^ (e - 52) * (1 - ulp) * m := by
      rw [← mul_assoc]
      refine mul_le_mul_of_nonneg_right (h8.trans (le_of_eq ?_)) hm0.le
      rw [← mul_assoc, h9]
    have h11 : 0 < 2 ^ (e - 52) * m * ulp := by positivity
    have h12 : (2 : ℝ) ^ (e - 52) / 2 * (m * (2 - ulp)) =
        2 ^ (e - 52) * (1 - ulp) * m + 2 ^ (e - 52) * m * ulp / 2 := by ring
    linarith
  have hrl : (2 : ℝ) ^ e ≤ r := by
    rw [hr]
    apply Real.le_sqrt_of_sq_le
    have h12 : fl64 (((2 : ℝ) ^ e) ^ 2) = ((2 : ℝ) ^ e) ^ 2 := by
      rw [← zpow_natCast, ← zpow_mul]
      apply fl64_zpow
      push_cast
      omega
    rw [← h12]
    apply fl64_mono
    nlinarith [two_zpow_pos (K := ℝ) e]
  have hru : r < 2 ^ (e + 1) := by
    have := (abs_lt.mp hd).2
    have h13 : (2 : ℝ) ^ (e + 1) * ulp = 2 ^ (e - 52) := by rw [e1, ulp]; field_simp
    linarith
  have := binaryRound_eq (p := 53) (emin := -1074) (e := e) (x := r) M hrl hru (by push_cast; omega) (by
    rw [show e - ((53 : ℕ) : ℤ) + 1 = e - 52 by push_cast; ring]
    have : r / 2 ^ (e - 52) - M = (r - m) / 2 ^ (e - 52) := by
      rw [sub_div]; congr 1
      rw [hM]; field_simp
    rw [this, abs_div, abs_of_pos hu, div_lt_iff₀ hu]
    linarith)
  unfold fl64
  rw [this, hM]
  congr 2
  push_cast
  ring

/-- Rounding a number which is half a unit above one gives one. -/
theorem fl64_above_one {x : ℝ} (h : x ≤ 1 + ulp) : fl64 x ≤ 1 := by
  refine (fl64_mono h).trans (le_of_eq ?_)
  have hpos : (0 : ℝ) < 1 + ulp := by unfold ulp; positivity
  have hlog : Int.log 2 |(1 + ulp : ℝ)| = 0 := by
    rw [abs_of_pos hpos]
    apply le_antisymm
    · rw [← Int.lt_add_one_iff, ← Int.lt_zpow_iff_log_lt (b := 2) one_lt_two hpos]
      unfold ulp; norm_num
    · rw [← Int.zpow_le_iff_le_log (b := 2) one_lt_two hpos]
      unfold ulp; norm_num
  have hl : lastDigit 53 (-1074) (1 + ulp : ℝ) = -52 := by
    unfold lastDigit
    rw [hlog]
    norm_num
  unfold fl64 binaryRound
  rw [hl]
  have hx : ((1 + ulp : ℝ)) / 2 ^ (-52 : ℤ) = 2 ^ 52 + 1 / 2 := by
    unfold ulp; norm_num
  have hf : ⌊(2 ^ 52 + 1 / 2 : ℝ)⌋ = 2 ^ 52 := by
    rw [Int.floor_eq_iff]; norm_num
  rw [hx]
  unfold roundEven
  rw [hf]
  norm_num

end Kp
