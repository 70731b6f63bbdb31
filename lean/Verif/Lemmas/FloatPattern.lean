import Verif.Lemmas.Rescale
import Verif.Props.FloatIntensity
import Verif.Model.FloatPattern
import Verif.Spec.FloatPattern

/-! Rounding errors of rescaling intensities. -/

namespace Kp
open Spec

theorem ulp_le_50 : ulp ≤ 1 / 2 ^ 50 := by unfold ulp; norm_num

/-- The quotient of two computed differences. -/
theorem quotient_near {n d y ρ : ℝ} (hρ : 0 < ρ) (hy0 : 0 ≤ y) (hy : y ≤ ρ) (hn : |n - y| ≤ ulp * ρ)
    (hd : |d - ρ| ≤ ulp * ρ) : 0 < d ∧ |n / d - y / ρ| ≤ 3 * ulp ∧ |n / d| ≤ 2 ∧ |n| ≤ 2 * d := by
  have hu := ulp_pos
  have hu1 := ulp_le_50
  norm_num at hu1
  have huρ : ulp * ρ ≤ 1 / 1125899906842624 * ρ := mul_le_mul_of_nonneg_right hu1 hρ.le
  have huρ0 : 0 < ulp * ρ := by positivity
  rw [abs_le] at hn hd
  have d0 : 0 < d := by linarith
  have q0 : 0 ≤ y / ρ := by positivity
  have q1 : y / ρ ≤ 1 := (div_le_one hρ).mpr hy
  have e : n / d - y / ρ = (n - y / ρ * d) / d := by field_simp
  have ey : y = y / ρ * ρ := by field_simp
  have main : |n / d - y / ρ| ≤ 3 * ulp := by
    rw [e, abs_div, abs_of_pos d0, div_le_iff₀ d0]
    have t : |y / ρ * (d - ρ)| ≤ ulp * ρ := by
      rw [abs_mul, abs_of_nonneg q0]
      calc y / ρ * |d - ρ| ≤ 1 * |d - ρ| := mul_le_mul_of_nonneg_right q1 (abs_nonneg _)
        _ ≤ ulp * ρ := by rw [one_mul, abs_le]; exact hd
    have e2 : n - y / ρ * d = (n - y) - y / ρ * (d - ρ) := by
      rw [mul_sub, ← ey]; ring
    have hd3 : 2 * (ulp * ρ) ≤ 3 * ulp * d := by nlinarith
    rw [e2]
    rw [abs_le] at t ⊢
    constructor <;> linarith
  refine ⟨d0, main, ?_, ?_⟩
  · rw [abs_le] at main ⊢
    constructor <;> linarith
  · rw [abs_le]
    constructor <;> linarith

/-- Rounded products near a number of at most 1, times a width. -/
theorem scaled_near {q q' w : ℝ} (hw : OrdinarySize w) (hq0 : 0 ≤ q) (hq1 : q ≤ 1)
    (h : |q' - q| ≤ 8 * ulp) :
    |q' * w - q * w| ≤ 8 * (ulp * w) ∧ |fl64 (q' * w) - q * w| ≤ 10 * (ulp * w) := by
  have hu := ulp_pos
  have hu1 := ulp_le_50
  obtain ⟨w0, w1⟩ := hw
  norm_num at hu1 w0 w1
  have hwp : 0 < w := by linarith
  have a : |q' * w - q * w| ≤ 8 * (ulp * w) := by
    rw [← sub_mul, abs_mul, abs_of_pos hwp]
    have := mul_le_mul_of_nonneg_right h hwp.le
    linarith
  have huw : ulp * w ≤ 1 / 1125899906842624 * w := mul_le_mul_of_nonneg_right hu1 hwp.le
  have huw0 : 0 < ulp * w := by positivity
  have b : |q' * w| ≤ 2 * w := by
    have := mul_nonneg hq0 hwp.le
    have := mul_le_mul_of_nonneg_right hq1 hwp.le
    rw [abs_le] at a ⊢
    constructor <;> linarith
  have c := fl64_abs_error_le b (by norm_num; linarith)
  refine ⟨a, ?_⟩
  rw [abs_le] at a c ⊢
  constructor <;> linarith

/-- One pixel: `y` above the smallest value, of a range `ρ`. -/
theorem rescalePixelFl_double {F : Formats ℝ} (hF : DoubleOperations F) (e : Evaluation) {imin imax omin omax x : ℝ}
    (hρ : OrdinarySize (imax - imin)) (hw : OrdinarySize (omax - omin)) (h0 : imin ≤ x) (h1 : x ≤ imax) :
    |rescalePixelFl F e imin imax omin omax x - rescaledTo imin imax omin omax x| ≤
      1 / 2 ^ 48 * ((omax - omin) + |omin|) := by
  have hu := ulp_pos
  have hu1 := ulp_le_50
  have hw' := hw
  obtain ⟨ρ0, ρ1⟩ := hρ
  obtain ⟨w0, w1⟩ := hw
  set ρ := imax - imin with hρd
  set w := omax - omin with hwd
  set y := x - imin with hy
  norm_num at hu1 ρ0 ρ1 w0 w1
  have hρp : 0 < ρ := by linarith
  have hwp : 0 < w := by linarith
  have y0 : 0 ≤ y := by linarith
  have y1 : y ≤ ρ := by linarith
  have hn := fl64_abs_error_le (x := y) (b := ρ) (by rw [abs_of_nonneg y0]; exact y1) (by norm_num; linarith)
  have hd := fl64_abs_error_le (x := ρ) (b := ρ) (by rw [abs_of_pos hρp]) (by norm_num; linarith)
  obtain ⟨d0, hq, hq2, hnd⟩ := quotient_near hρp y0 y1 hn hd
  have q0 : 0 ≤ y / ρ := by positivity
  have q1 : y / ρ ≤ 1 := (div_le_one hρp).mpr y1
  have hd' := abs_le.mp hd
  have huρ : ulp * ρ ≤ 1 / 1125899906842624 * ρ := mul_le_mul_of_nonneg_right hu1 hρp.le
  have huw : ulp * w ≤ 1 / 1125899906842624 * w := mul_le_mul_of_nonneg_right hu1 hwp.le
  have huw0 : 0 < ulp * w := by positivity
  set n := fl64 y with hnn
  set d := fl64 ρ with hdd
  -- the quotient and the product with the reciprocal
  have hq' := abs_le.mp hq
  have f1 : |fl64 (n / d) - y / ρ| ≤ 8 * ulp := by
    have := abs_le.mp (fl64_abs_error_le hq2 (by norm_num))
    rw [abs_le]
    constructor <;> linarith
  have dle : d ≤ 2 ^ 61 := by norm_num; linarith
  have rbig : 1 / 2 ^ 61 ≤ 1 / d := one_div_le_one_div_of_le d0 dle
  have r1 : |fl64 (1 / d) - 1 / d| ≤ ulp * (1 / d) := fl64_error (le_trans (by norm_num) rbig)
  have rp : 0 < 1 / d := by positivity
  have f2 : |n * fl64 (1 / d) - n / d| ≤ 2 * ulp := by
    rw [show n * fl64 (1 / d) - n / d = n * (fl64 (1 / d) - 1 / d) by ring, abs_mul]
    have := mul_le_mul hnd r1 (abs_nonneg _) (by linarith)
    refine this.trans (le_of_eq ?_)
    field_simp
  have f3 : |fl64 (n * fl64 (1 / d)) - y / ρ| ≤ 8 * ulp := by
    have b : |n * fl64 (1 / d)| ≤ 3 := by
      rw [abs_le] at f2 hq2 ⊢
      constructor <;> linarith
    have := abs_le.mp (fl64_abs_error_le b (by norm_num))
    rw [abs_le] at f2 ⊢
    constructor <;> linarith
  -- the folded product
  have f4 : |fl64 (n * fl64 (fl64 (1 / d) * w)) - y / ρ * w| ≤ 15 * (ulp * w) := by
    have r1' := abs_le.mp r1
    have hur : ulp * (1 / d) ≤ 1 / 1125899906842624 * (1 / d) := mul_le_mul_of_nonneg_right hu1 rp.le
    have g1 : |fl64 (1 / d) * w - 1 / d * w| ≤ ulp * (1 / d) * w := by
      rw [← sub_mul, abs_mul, abs_of_pos hwp]
      exact mul_le_mul_of_nonneg_right r1 hwp.le
    have rlow : 1 / 2 * (1 / d) ≤ fl64 (1 / d) := by linarith
    have rhigh : fl64 (1 / d) ≤ 2 * (1 / d) := by linarith
    have plow : 1 / 2 ^ 100 ≤ fl64 (1 / d) * w := by
      calc (1 : ℝ) / 2 ^ 100 ≤ 1 / 2 ^ 62 * (1 / 2 ^ 30) := by norm_num
        _ ≤ fl64 (1 / d) * w := by
          apply mul_le_mul _ (by norm_num; linarith) (by norm_num) (by linarith)
          calc (1 : ℝ) / 2 ^ 62 = 1 / 2 * (1 / 2 ^ 61) := by norm_num
            _ ≤ 1 / 2 * (1 / d) := by linarith
            _ ≤ _ := rlow
    have g2 := fl64_error plow
    have g3 : ulp * (fl64 (1 / d) * w) ≤ 2 * (ulp * (1 / d) * w) := by
      have := mul_le_mul_of_nonneg_right rhigh hwp.le
      have := mul_le_mul_of_nonneg_left this hu.le
      linarith
    have g4 : |fl64 (fl64 (1 / d) * w) - 1 / d * w| ≤ 3 * (ulp * (1 / d) * w) := by
      rw [abs_le] at g1 g2 ⊢
      constructor <;> linarith
    have g5 : |n * fl64 (fl64 (1 / d) * w) - n / d * w| ≤ 6 * (ulp * w) := by
      rw [show n * fl64 (fl64 (1 / d) * w) - n / d * w = n * (fl64 (fl64 (1 / d) * w) - 1 / d * w) by ring,
        abs_mul]
      have := mul_le_mul hnd g4 (abs_nonneg _) (by linarith)
      refine this.trans (le_of_eq ?_)
      field_simp
      ring
    have g6 : |n / d * w - y / ρ * w| ≤ 3 * (ulp * w) := by
      rw [← sub_mul, abs_mul, abs_of_pos hwp]
      have := mul_le_mul_of_nonneg_right hq hwp.le
      linarith
    have hqw := mul_le_mul_of_nonneg_right q1 hwp.le
    have hqw0 := mul_nonneg q0 hwp.le
    rw [abs_le] at g5 g6
    have b : |n * fl64 (fl64 (1 / d) * w)| ≤ 2 * w := by
      rw [abs_le]
      constructor <;> linarith
    have := abs_le.mp (fl64_abs_error_le b (by norm_num; linarith))
    rw [abs_le]
    constructor <;> linarith
  -- the last addition
  have o0 := abs_nonneg omin
  have last : ∀ z : ℝ, |z - y / ρ * w| ≤ 15 * (ulp * w) →
      |fl64 (z + omin) - (omin + y / ρ * w)| ≤ 1 / 2 ^ 48 * (w + |omin|) := by
    intro z hz
    have hqw := mul_le_mul_of_nonneg_right q1 hwp.le
    have hqw0 := mul_nonneg q0 hwp.le
    have b : |z + omin| ≤ 2 * w + |omin| := by
      have := abs_le.mp (le_refl |omin|)
      rw [abs_le] at hz ⊢
      constructor <;> linarith
    have c := fl64_abs_error_le b (by norm_num; linarith)
    have huo : 0 ≤ ulp * |omin| := by positivity
    have tot : 32 * (ulp * (w + |omin|)) ≤ 1 / 2 ^ 48 * (w + |omin|) := by
      rw [← mul_assoc]
      refine mul_le_mul_of_nonneg_right ?_ (by linarith)
      unfold ulp; norm_num
    rw [abs_le] at hz c ⊢
    constructor <;> linarith
  unfold rescalePixelFl rescaledTo
  simp only [hF.sub, hF.div, hF.mul, hF.add]
  rw [← hy, ← hρd, ← hwd, ← hnn, ← hdd]
  cases e with
  | written => exact last _ ((scaled_near hw' q0 q1 f1).2.trans (by linarith))
  | fused => exact last _ ((scaled_near hw' q0 q1 f1).1.trans (by linarith))
  | reciprocal => exact last _ ((scaled_near hw' q0 q1 f3).2.trans (by linarith))
  | folded => exact last _ f4

/-- An exact rescaling depends little on the values. -/
theorem rescaledTo_near {lo hi lo' hi' omin omax x x' E : ℝ} (hlo : |lo' - lo| ≤ E) (hhi : |hi' - hi| ≤ E)
    (hx : |x' - x| ≤ E) (hE : E ≤ (hi - lo) / 8) (hr : lo < hi) (h0 : lo ≤ x) (h1 : x ≤ hi) (hw : omin ≤ omax) :
    |rescaledTo lo' hi' omin omax x' - rescaledTo lo hi omin omax x| ≤ 6 * E / (hi - lo) * (omax - omin) := by
  unfold rescaledTo
  rw [abs_le] at hlo hhi hx
  set ρ := hi - lo with hρ
  set ρ' := hi' - lo' with hρ'
  have hE0 : 0 ≤ E := by linarith
  have hρp : 0 < ρ := by linarith
  have hρp' : 3 / 4 * ρ ≤ ρ' := by linarith
  have q0 : 0 ≤ (x - lo) / ρ := div_nonneg (by linarith) hρp.le
  have q1 : (x - lo) / ρ ≤ 1 := (div_le_one hρp).mpr (by linarith)
  have key : |(x' - lo') / ρ' - (x - lo) / ρ| ≤ 6 * E / ρ := by
    have e : (x' - lo') / ρ' - (x - lo) / ρ = ((x' - lo') - (x - lo) / ρ * ρ') / ρ' := by
      have : ρ' ≠ 0 := by linarith
      field_simp
    have num : |(x' - lo') - (x - lo) / ρ * ρ'| ≤ 4 * E := by
      have e2 : (x' - lo') - (x - lo) / ρ * ρ' = (x' - x) - (lo' - lo) - (x - lo) / ρ * (ρ' - ρ) := by
        have : (x - lo) / ρ * ρ = x - lo := by field_simp
        linear_combination -this
      have t : |(x - lo) / ρ * (ρ' - ρ)| ≤ 2 * E := by
        rw [abs_mul, abs_of_nonneg q0]
        have : |ρ' - ρ| ≤ 2 * E := by rw [abs_le]; constructor <;> linarith
        calc (x - lo) / ρ * |ρ' - ρ| ≤ 1 * |ρ' - ρ| := mul_le_mul_of_nonneg_right q1 (abs_nonneg _)
          _ ≤ 2 * E := by rw [one_mul]; exact this
      rw [e2]
      rw [abs_le] at t ⊢
      constructor <;> linarith
    rw [e, abs_div, abs_of_pos (show 0 < ρ' by linarith), div_le_div_iff₀ (by linarith) hρp]
    have h2 := mul_le_mul_of_nonneg_right num hρp.le
    have h3 := mul_le_mul_of_nonneg_left hρp' hE0
    have h4 : 0 ≤ E * ρ := by positivity
    linarith
  rw [add_sub_add_left_eq_sub, ← sub_mul, abs_mul, abs_of_nonneg (sub_nonneg.mpr hw)]
  exact mul_le_mul_of_nonneg_right key (sub_nonneg.mpr hw)

end Kp
