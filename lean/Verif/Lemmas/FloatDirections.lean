import Verif.Model.FloatDirections
import Verif.Spec.FloatDirections
import Verif.Lemmas.FloatCoordinates
import Verif.Lemmas.FloatSimilarity
import Verif.Props.FloatSimilarity

/-! Error analysis of the directions of detector pixels, for C156. -/

namespace Kp
open Spec

theorem overNormFl_neg_neg (recip : Bool) (n x : ℝ) : overNormFl recip (-n) (-x) = overNormFl recip n x := by
  unfold overNormFl
  split
  · rw [one_div, inv_neg, fl64_neg, neg_mul_neg, ← one_div]
  · rw [neg_div_neg_eq]

section
variable {N : ℕ} {W lo D' lo' : ℝ} (h : ScreenAxis N W lo D' lo')
include h

theorem ScreenAxis.count_exact : fl64 ((N : ℝ) - 1 + 1) = N := by
  rw [sub_add_cancel]
  have := fl64_int (m := (N : ℤ)) (by
    have := h.n_le
    rw [Int.cast_natCast, abs_of_nonneg (Nat.cast_nonneg _)]
    exact this.trans (by norm_num))
  rwa [Int.cast_natCast] at this

theorem ScreenAxis.near_step : NearBy 67 0 (fl64 (fl64 D' / N)) (W / N) := by
  have := h.near_pixel
  rwa [h.count_exact] at this

theorem ScreenAxis.rounded_width : W / 2 ≤ fl64 D' ∧ fl64 D' ≤ 2 * W := by
  have h1 := h.near_width
  have hW := h.pos.2
  unfold NearBy at h1
  rw [abs_of_pos hW, add_zero] at h1
  have hu := unit_le
  have hu0 := unit_pos
  have h2 : 62 * ulp * W ≤ 1 / 2 * W := by
    refine mul_le_mul_of_nonneg_right ?_ hW.le
    calc 62 * ulp ≤ 62 * (1 / 2 ^ 53) := by gcongr
      _ ≤ _ := by norm_num
  have := abs_le.mp h1
  constructor <;> linarith

/-- The number of values is the number of pixels, or one more. -/
theorem ScreenAxis.length_near (recip : Bool) :
    |overNormFl recip (fl64 (fl64 D' / N)) (fl64 D') - N| < 1 / 2 := by
  obtain ⟨hn, hW⟩ := h.pos
  obtain ⟨hE1, hE2⟩ := h.rounded_width
  set E := fl64 D'
  have hE0 : 0 < E := lt_of_lt_of_le (by positivity) hE1
  have hW1 := h.W_ge
  have hWle := h.W_le
  have hnle := h.n_le
  have hn1 := h.n_ge
  have hstep : NearBy 1 0 (fl64 (E / N)) (E / N) := by
    refine nearBy_const ?_
    rw [le_div_iff₀ hn]
    calc (1 : ℝ) / 2 ^ 100 * N ≤ 1 / 2 ^ 100 * 2 ^ 20 := by gcongr
      _ ≤ 1 / 2 ^ 40 / 2 := by norm_num
      _ ≤ W / 2 := by gcongr
      _ ≤ E := hE1
  have hq : 0 < E / N := div_pos hE0 hn
  have hfin : ∀ x, NearBy 7 0 x N → |x - N| < 1 / 2 := by
    intro x hx
    unfold NearBy at hx
    rw [abs_of_pos hn, add_zero] at hx
    refine lt_of_le_of_lt hx ?_
    have := unit_le
    have := unit_pos
    calc 7 * ulp * (N : ℝ) ≤ 7 * (1 / 2 ^ 53) * 2 ^ 20 := by gcongr
      _ < 1 / 2 := by norm_num
  have hNbig : (1 : ℝ) / 2 ^ 90 ≤ N := le_trans (by norm_num) hn1
  apply hfin
  unfold overNormFl
  split
  · have h1 := hstep.inv hq (by norm_num) (by norm_num)
    rw [inv_div] at h1
    norm_num at h1
    have h2 := h1.fl_rel (by
      rw [le_div_iff₀ hE0]
      calc (1 : ℝ) / 2 ^ 90 * E ≤ 1 / 2 ^ 90 * (2 * 2 ^ 40) := by
            gcongr
            linarith
        _ ≤ 1 := by norm_num
        _ ≤ N := hn1) (by norm_num)
    norm_num at h2
    have h3 := (NearBy.self 0 E).mul_near h2 (div_pos hn hE0) le_rfl le_rfl (by norm_num)
    rw [zero_mul, mul_div_cancel₀ _ hE0.ne'] at h3
    norm_num at h3
    have h4 := h3.fl_rel hNbig (by norm_num)
    norm_num at h4
    simpa [one_div] using h4
  · have h1 := (NearBy.self 0 E).div_near hstep hq le_rfl (by norm_num) le_rfl (by norm_num)
      (by norm_num)
    rw [zero_div, div_div_cancel₀ hE0.ne'] at h1
    norm_num at h1
    have h2 := h1.fl_rel hNbig (by norm_num)
    norm_num at h2
    exact h2.weaken (by norm_num) (by norm_num) le_rfl le_rfl

theorem ScreenAxis.length_ge (recip : Bool) :
    N ≤ ⌈overNormFl recip (fl64 (fl64 D' / N)) (fl64 D')⌉.toNat ∧
      ⌈overNormFl recip (fl64 (fl64 D' / N)) (fl64 D')⌉.toNat ≤ N + 1 := by
  have h1 := abs_lt.mp (h.length_near recip)
  set q := overNormFl recip (fl64 (fl64 D' / N)) (fl64 D')
  constructor
  · have : ((N : ℤ) - 1) < ⌈q⌉ := by
      rw [Int.lt_ceil]
      push_cast
      linarith
    omega
  · have : ⌈q⌉ ≤ (N : ℤ) + 1 := by
      rw [Int.ceil_le]
      push_cast
      linarith
    omega

/-- The center of pixel `k`, times the distance `z`. -/
theorem ScreenAxis.center (fused : Bool) {k : ℕ} (hk : k < N) {z : ℝ} (hz : 0 < z)
    (hWz : 1 / 2 ^ 90 ≤ W * z) :
    |fl64 (fl64 (mulAddFl fused (fl64 (fl64 D' / N)) k lo' + fl64 (fl64 (fl64 D' / N) / 2)) * z)
        - (W / N * (k + 1 / 2) + lo) * z| ≤ 1 / 2 ^ 45 * (W * z) := by
  obtain ⟨hn, hW⟩ := h.pos
  have hu := unit_pos
  have hule := unit_le
  have hW1 := h.W_ge
  have hk' : (k : ℝ) + 1 ≤ N := by exact_mod_cast hk
  have hk0 : (0 : ℝ) ≤ k := Nat.cast_nonneg k
  have hf := h.forward fused (k : ℝ)
  rw [h.count_exact] at hf
  have hstep := h.near_step
  set s := fl64 (fl64 D' / N)
  set g := mulAddFl fused s k lo'
  have hWN : 0 < W / N := div_pos hW hn
  have e1 : |g - (W / N * k + lo)| ≤ 210 * ulp * W := by
    refine hf.trans ?_
    rw [abs_of_nonneg hk0]
    have : W / N * ((N : ℝ) + k) ≤ 2 * W := by
      calc W / N * ((N : ℝ) + k) ≤ W / N * (2 * N) := by gcongr; linarith
        _ = 2 * W := by field_simp
    calc 105 * ulp * (W / N * ((N : ℝ) + k)) ≤ 105 * ulp * (2 * W) := by gcongr
      _ = _ := by ring
  have hWN2 : W / N ≤ W := div_le_self hW.le h.n_ge
  have e2 : |fl64 (s / 2) - W / N / 2| ≤ 35 * ulp * W := by
    have h1 : NearBy 67 0 (s / 2) (W / N / 2) := by
      have := hstep.mul (c := 1 / 2) (by norm_num)
      rw [zero_mul] at this
      simpa [div_eq_mul_inv] using this
    have h2 := h1.fl_rel (by
      rw [div_div, le_div_iff₀ (by positivity)]
      calc (1 : ℝ) / 2 ^ 90 * (N * 2) ≤ 1 / 2 ^ 90 * (2 ^ 20 * 2) := by
            have := h.n_le
            gcongr
        _ ≤ 1 / 2 ^ 40 := by norm_num
        _ ≤ W := hW1) (by norm_num)
    unfold NearBy at h2
    rw [abs_of_pos (show 0 < W / N / 2 by positivity), add_zero] at h2
    refine h2.trans ?_
    calc (67 + 2) * ulp * (W / N / 2) ≤ (67 + 2) * ulp * (W / 2) := by gcongr
      _ ≤ 35 * ulp * W := by nlinarith [mul_pos hu hW]
  obtain ⟨x, hx⟩ : ∃ x, x = W / N * (k + 1 / 2) + lo := ⟨_, rfl⟩
  have e3 : |g + fl64 (s / 2) - x| ≤ 245 * ulp * W := by
    have : g + fl64 (s / 2) - x = (g - (W / N * k + lo)) + (fl64 (s / 2) - W / N / 2) := by
      rw [hx]; ring
    rw [this]
    refine (abs_add_le _ _).trans ?_
    linarith
  have hxb : |x| ≤ 3 * W := by
    rw [hx]
    refine (abs_add_le _ _).trans ?_
    have hb := h.bound
    have : |W / N * ((k : ℝ) + 1 / 2)| ≤ W := by
      rw [abs_of_nonneg (by positivity)]
      calc W / N * ((k : ℝ) + 1 / 2) ≤ W / N * N := by gcongr; linarith
        _ = W := by field_simp
    linarith
  have hsmall : 255 * ulp ≤ 1 / 2 := by
    calc 255 * ulp ≤ 255 * (1 / 2 ^ 53) := by gcongr
      _ ≤ _ := by norm_num
  have hsW : 255 * ulp * W ≤ 1 / 2 * W := mul_le_mul_of_nonneg_right hsmall hW.le
  have huW := mul_pos hu hW
  have htW : tiny ≤ 1 / 2 * W := tiny_le.trans (by
    calc (1 : ℝ) / 2 ^ 100 ≤ 1 / 2 * (1 / 2 ^ 40) := by norm_num
      _ ≤ _ := by gcongr)
  have e4 : |fl64 (g + fl64 (s / 2)) - x| ≤ 250 * ulp * W := by
    have h1 := fl64_error_tiny (g + fl64 (s / 2))
    have h2 : |g + fl64 (s / 2)| ≤ 7 / 2 * W := by
      have := abs_add_le x (g + fl64 (s / 2) - x)
      rw [add_sub_cancel] at this
      linarith
    have h3 : ulp * (|g + fl64 (s / 2)| + tiny) ≤ ulp * (4 * W) := by
      gcongr
      linarith
    have := abs_sub_le (fl64 (g + fl64 (s / 2))) (g + fl64 (s / 2)) x
    linarith
  set X := fl64 (g + fl64 (s / 2))
  have e5 : |X * z - x * z| ≤ 250 * ulp * (W * z) := by
    rw [← sub_mul, abs_mul, abs_of_pos hz, ← mul_assoc]
    exact mul_le_mul_of_nonneg_right e4 hz.le
  have hWz0 : 0 < W * z := mul_pos hW hz
  have e6 : |X * z| ≤ 7 / 2 * (W * z) := by
    rw [abs_mul, abs_of_pos hz, ← mul_assoc]
    refine mul_le_mul_of_nonneg_right ?_ hz.le
    have := abs_add_le x (X - x)
    rw [add_sub_cancel] at this
    linarith
  have htz : tiny ≤ 1 / 2 * (W * z) := tiny_le.trans (by
    calc (1 : ℝ) / 2 ^ 100 ≤ 1 / 2 * (1 / 2 ^ 90) := by norm_num
      _ ≤ _ := by gcongr)
  have h1 := fl64_error_tiny (X * z)
  have h3 : ulp * (|X * z| + tiny) ≤ ulp * (4 * (W * z)) := by
    gcongr
    linarith
  have h0 := abs_sub_le (fl64 (X * z)) (X * z) (x * z)
  have huz := mul_pos hu hWz0
  rw [← hx]
  calc |fl64 (X * z) - x * z| ≤ 256 * ulp * (W * z) := by linarith
    _ = 1 / 2 ^ 45 * (W * z) := by rw [ulp]; ring

end

/-- The position of every pixel is computed, and is that of its center. -/
theorem pixelPositionFl_spec {d : Detector ℝ} {p : PC ℝ} (h : UsualScreen d.nrows d.ncols p)
    (fused recip : Bool) {r c : ℕ} (hr : r < d.nrows) (hc : c < d.ncols) :
    ∃ v, d.pixelPositionFl fused recip p r c = some v ∧
      |v 0 - pixelCenter d.nrows d.ncols p r c 0| ≤ 1 / 2 ^ 45 * ((d.ncols : ℝ) / d.nrows) ∧
      |v 1 - pixelCenter d.nrows d.ncols p r c 1| ≤ 1 / 2 ^ 45 ∧
      v 2 = pixelCenter d.nrows d.ncols p r c 2 := by
  have hz := (usual_z h).1
  have hR : (0 : ℝ) < d.nrows := lt_of_lt_of_le one_pos (usual_cast h).1
  have hC : (0 : ℝ) < d.ncols := lt_of_lt_of_le one_pos (usual_cast h).2.2.1
  have hx := screenAxis_x h
  have hy := screenAxis_y h
  have lx := (hx.length_ge recip).1
  have ly := (hy.length_ge recip).1
  have e1 : arangeAtFl fused recip (d.xMinFl p) (d.xMaxFl p)
      (fl64 (fl64 (d.xMaxFl p - d.xMinFl p) / (d.ncols : ℝ))) c
      = some (mulAddFl fused (fl64 (fl64 (d.xMaxFl p - d.xMinFl p) / (d.ncols : ℝ))) c
          (d.xMinFl p)) := if_pos (lt_of_lt_of_le hc lx)
  have e2 : arangeAtFl fused recip (d.yMaxFl p) (d.yMinFl p)
      (-fl64 (fl64 (d.yMaxFl p - d.yMinFl p) / (d.nrows : ℝ))) r
      = some (-mulAddFl fused (fl64 (fl64 (d.yMaxFl p - d.yMinFl p) / (d.nrows : ℝ))) r
          (-d.yMaxFl p)) := by
    unfold arangeAtFl arangeLengthFl
    rw [← neg_sub (d.yMaxFl p), fl64_neg, overNormFl_neg_neg, if_pos (lt_of_lt_of_le hr ly),
      mulAddFl_neg]
  refine ⟨![fl64 (fl64 (mulAddFl fused (fl64 (fl64 (d.xMaxFl p - d.xMinFl p) / (d.ncols : ℝ))) c
        (d.xMinFl p) + fl64 (fl64 (fl64 (d.xMaxFl p - d.xMinFl p) / (d.ncols : ℝ)) / 2)) * p.z),
      fl64 (fl64 (-mulAddFl fused (fl64 (fl64 (d.yMaxFl p - d.yMinFl p) / (d.nrows : ℝ))) r
        (-d.yMaxFl p) - fl64 (fl64 (fl64 (d.yMaxFl p - d.yMinFl p) / (d.nrows : ℝ)) / 2)) * p.z),
      p.z], by
    unfold Detector.pixelPositionFl
    simp only [e1, e2]
    rfl, ?_, ?_, rfl⟩
  · have a1 := hx.center fused hc hz (by
      rw [div_mul_cancel₀ _ hz.ne']
      exact le_trans (by norm_num) (aspect_range h).1)
    rw [div_mul_cancel₀ _ hz.ne'] at a1
    refine le_trans (le_of_eq ?_) a1
    simp only [Matrix.cons_val_zero]
    congr 1
    simp only [pixelCenter, Matrix.cons_val_zero]
    congr 1
    field_simp
    ring
  · have a1 := hy.center fused hr hz (by
      rw [div_mul_cancel₀ _ hz.ne']
      norm_num)
    rw [div_mul_cancel₀ _ hz.ne', mul_one] at a1
    refine le_trans (le_of_eq ?_) a1
    simp only [Matrix.cons_val_one, Matrix.cons_val_zero]
    rw [← abs_neg]
    congr 1
    simp only [pixelCenter, Matrix.cons_val_one, Matrix.cons_val_zero]
    rw [← neg_add', fl64_neg, neg_mul, fl64_neg]
    field_simp
    ring

/-! ### Matrix and norm -/

theorem length3_eq (v : Fin 3 → ℝ) : length3 v = vlen v := rfl

theorem abs_le_vlen {ι : Type*} [Fintype ι] (v : ι → ℝ) (i : ι) : |v i| ≤ vlen v := by
  rw [← Real.sqrt_sq_eq_abs]
  exact Real.sqrt_le_sqrt
    (Finset.single_le_sum (f := fun i => v i ^ 2) (fun _ _ => sq_nonneg _) (Finset.mem_univ i))

theorem Orthogonal.entry {R : Fin 3 → Fin 3 → ℝ} (h : Orthogonal R) (i j : Fin 3) :
    |R i j| ≤ 1 := by
  have h1 := h j j
  rw [if_pos rfl] at h1
  have h2 : R i j * R i j ≤ ∑ i, R i j * R i j :=
    Finset.single_le_sum (f := fun i => R i j * R i j) (fun _ _ => mul_self_nonneg _)
      (Finset.mem_univ i)
  rw [h1] at h2
  rw [abs_le]
  constructor <;> nlinarith

theorem Orthogonal.length {R : Fin 3 → Fin 3 → ℝ} (h : Orthogonal R) (v : Fin 3 → ℝ) :
    vlen (transformed R v) = vlen v := by
  unfold vlen
  congr 1
  have h00 := h 0 0
  have h11 := h 1 1
  have h22 := h 2 2
  have h01 := h 0 1
  have h02 := h 0 2
  have h12 := h 1 2
  simp only [Fin.sum_univ_three, transformed] at *
  rw [if_pos trivial] at h00 h11 h22
  rw [if_neg (by decide)] at h01 h02 h12
  linear_combination v 0 ^ 2 * h00 + v 1 ^ 2 * h11 + v 2 ^ 2 * h22 + 2 * v 0 * v 1 * h01 +
    2 * v 0 * v 2 * h02 + 2 * v 1 * v 2 * h12

theorem smallError64 : SmallError fl64 ulp (2 ^ (-1075 : ℤ)) (Fintype.card (Fin 3)) := by
  have h := smallError MetricType.float64 (n := 3) (by norm_num) (by
    unfold unitRoundoff
    norm_num [MetricType.digits])
  have e1 : unitRoundoff MetricType.float64 = ulp := by
    unfold unitRoundoff ulp
    norm_num [MetricType.digits]
  rw [e1] at h
  exact h

/-- The product of a rounded rotation and a rounded vector. -/
theorem matrix_error {om R : Fin 3 → Fin 3 → ℝ} (h : RoundedRotation om R)
    {dot : Fin 3 → SumOrder (Fin 3)} (hdot : ∀ i, AddsEveryPixelOnce (dot i)) {v v0 : Fin 3 → ℝ}
    {B : ℝ} (hB : 0 ≤ B) (hv : ∀ i, |v i - v0 i| ≤ 1 / 2 ^ 45 * B) (hA : 1 / 2 ^ 20 ≤ vlen v0)
    (i : Fin 3) :
    |(dot i).eval fl64 (om i) v - transformed R v0 i| ≤ 1 / 2 ^ 42 * (vlen v0 + B) := by
  have hu := unit_pos
  set A := vlen v0 with hAdef
  have hA0 : 0 < A := lt_of_lt_of_le (by positivity) hA
  have hv0 : ∀ j, |v0 j| ≤ A := abs_le_vlen v0
  have hom : ∀ j, |om i j| ≤ 2 := by
    intro j
    have h1 := h.2 i j
    have h2 := Orthogonal.entry h.1 i j
    have := abs_add_le (R i j) (om i j - R i j)
    rw [add_sub_cancel] at this
    have : (1 : ℝ) / 2 ^ 45 ≤ 1 := by norm_num
    linarith
  have hvb : ∀ j, |v j| ≤ A + B := by
    intro j
    have := abs_add_le (v0 j) (v j - v0 j)
    rw [add_sub_cancel] at this
    have h1 := hv j
    have h2 := hv0 j
    have : 1 / 2 ^ 45 * B ≤ B := by
      have : (1 : ℝ) / 2 ^ 45 ≤ 1 := by norm_num
      nlinarith
    linarith
  have hAB : 0 ≤ A + B := by linarith
  have e1 := smallError64.sum_error (hdot i) (om i) v
  have hs : ∑ j, |om i j * v j| ≤ 6 * (A + B) := by
    have : ∀ j ∈ Finset.univ, |om i j * v j| ≤ 2 * (A + B) := by
      intro j _
      rw [abs_mul]
      exact mul_le_mul (hom j) (hvb j) (abs_nonneg _) (by norm_num)
    have := Finset.sum_le_sum this
    rw [Finset.sum_const, Finset.card_univ, Fintype.card_fin, nsmul_eq_mul] at this
    push_cast at this
    linarith
  have e2 : |(dot i).eval fl64 (om i) v - ∑ j, om i j * v j| ≤ 1 / 2 ^ 48 * (A + B) := by
    refine e1.trans ?_
    rw [Fintype.card_fin]
    have h3 : ulp ^ 3 / 16 ≤ ulp * (A + B) := by
      have : ulp ^ 2 / 16 ≤ A + B := by
        have : ulp ^ 2 / 16 ≤ 1 / 2 ^ 20 := by
          unfold ulp
          norm_num
        linarith
      calc ulp ^ 3 / 16 = ulp * (ulp ^ 2 / 16) := by ring
        _ ≤ _ := by gcongr
    have h4 : 64 / 63 * (((3 : ℕ) : ℝ) * ulp) * ∑ j, |om i j * v j| ≤
        64 / 63 * (((3 : ℕ) : ℝ) * ulp) * (6 * (A + B)) := by gcongr
    have h5 : 0 ≤ ulp * (A + B) := by positivity
    have h6 : (1 : ℝ) / 2 ^ 48 * (A + B) = 32 * (ulp * (A + B)) := by
      unfold ulp
      ring
    rw [h6]
    push_cast at h4 ⊢
    linarith
  have e3 : |∑ j, om i j * v j - transformed R v0 i| ≤
      6 * (1 / 2 ^ 45) * (A + B) := by
    unfold transformed
    rw [← Finset.sum_sub_distrib]
    refine (Finset.abs_sum_le_sum_abs _ _).trans ?_
    have : ∀ j ∈ Finset.univ, |om i j * v j - R i j * v0 j| ≤ 2 * (1 / 2 ^ 45) * (A + B) := by
      intro j _
      have e : om i j * v j - R i j * v0 j = om i j * (v j - v0 j) + (om i j - R i j) * v0 j := by
        ring
      rw [e]
      refine (abs_add_le _ _).trans ?_
      rw [abs_mul, abs_mul]
      have a1 := mul_le_mul (hom j) (hv j) (abs_nonneg _) (by norm_num)
      have a2 := mul_le_mul (h.2 i j) (hv0 j) (abs_nonneg _) (by norm_num)
      have : 0 ≤ (1 : ℝ) / 2 ^ 45 * A := by positivity
      linarith
    have := Finset.sum_le_sum this
    rw [Finset.sum_const, Finset.card_univ, Fintype.card_fin, nsmul_eq_mul] at this
    push_cast at this
    linarith
  have := abs_sub_le ((dot i).eval fl64 (om i) v) (∑ j, om i j * v j) (transformed R v0 i)
  norm_num at *
  linarith

/-- Normalization. -/
theorem direction_error {t u' : Fin 3 → ℝ} {norm : SumOrder (Fin 3)} {δ : ℝ}
    (hnorm : AddsEveryPixelOnce norm) (ht : 1 / 2 ^ 20 ≤ vlen t) (hδ : ∀ i, |u' i - t i| ≤ δ)
    (hδA : 6 * δ ≤ vlen t) :
    vlen (fun i => normalizeFloat fl64 norm u' i - dirn t i) ≤ 5 * ulp + 6 * δ / vlen t ∧
    |vlen (normalizeFloat fl64 norm u') - 1| ≤ 1 / 2 ^ 50 := by
  have hu := unit_pos
  set A := vlen t with hA
  have hA0 : 0 < A := lt_of_lt_of_le (by positivity) ht
  have hδ0 : 0 ≤ δ := (abs_nonneg _).trans (hδ 0)
  have h1 : vlen (fun i => u' i - t i) ≤ 3 * δ := by
    have := vlen_of_bound (d := fun i => u' i - t i) (a := t) (κ := 0) (c := δ) le_rfl hδ0
      (by simpa using hδ)
    rw [Fintype.card_fin] at this
    norm_num at this
    exact this
  have h2 : A / 2 ≤ vlen u' := by
    have := vlen_le_of_sub t u'
    have e : vlen (fun i => t i - u' i) = vlen (fun i => u' i - t i) := by
      unfold vlen
      congr 1
      refine Finset.sum_congr rfl fun i _ => ?_
      ring
    rw [e] at this
    linarith
  have hu' : 0 < vlen u' := by linarith
  have hsum : ulp ≤ ∑ i, u' i ^ 2 := by
    rw [← vlen_sq]
    have : (1 / 2 ^ 21 : ℝ) ≤ vlen u' := by
      refine le_trans ?_ h2
      calc (1 / 2 ^ 21 : ℝ) = 1 / 2 ^ 20 / 2 := by norm_num
        _ ≤ A / 2 := by gcongr
    have h3 : (1 / 2 ^ 21 : ℝ) ^ 2 ≤ vlen u' ^ 2 := by gcongr
    refine le_trans ?_ h3
    unfold ulp
    norm_num
  have h3 := smallError64.normalize_error hnorm hsum
  rw [Fintype.card_fin] at h3
  have h5 : 6 / 10 * (((3 : ℕ) : ℝ) * ulp) + 3 * ulp ≤ 5 * ulp := by
    push_cast
    linarith
  constructor
  · have h4 := dirn_sub_le hA0 hu'
    have h6 := vlen_add_le (fun i => normalizeFloat fl64 norm u' i - dirn u' i)
      (fun i => dirn u' i - dirn t i)
    simp only [sub_add_sub_cancel] at h6
    have h7 : 2 * vlen (fun i => u' i - t i) / A ≤ 6 * δ / A :=
      div_le_div_of_nonneg_right (by linarith) hA0.le
    linarith
  · have h6 := vlen_le_of_sub (normalizeFloat fl64 norm u') (dirn u')
    have h7 := vlen_le_of_sub (dirn u') (normalizeFloat fl64 norm u')
    have e : vlen (fun i => dirn u' i - normalizeFloat fl64 norm u' i)
        = vlen (fun i => normalizeFloat fl64 norm u' i - dirn u' i) := by
      unfold vlen
      congr 1
      refine Finset.sum_congr rfl fun i _ => ?_
      ring
    rw [e] at h7
    rw [vlen_dirn hu'] at h6 h7
    have h8 : 5 * ulp ≤ 1 / 2 ^ 50 := by
      unfold ulp
      norm_num
    rw [abs_le]
    constructor <;> linarith

end Kp
