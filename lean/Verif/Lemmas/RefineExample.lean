import Verif.Lemmas.Refine
import Mathlib.Tactic.NormNum.RealSqrt

/-! A concrete refinement, for the negation of C77 and for checking hypotheses. -/

namespace Kp

theorem pearson_two_lt {x y z w : ℝ} (h1 : x < y) (h2 : z < w) : Spec.pearson [x, y] [z, w] = 1 := by
  unfold Spec.pearson Spec.avg
  simp only [List.zip_cons_cons, List.zip_nil_right, List.map_cons, List.map_nil, List.sum_cons,
    List.sum_nil, List.length_cons, List.length_nil]
  have e : ((x - (x + (y + 0)) / ((0 + 1 + 1 : ℕ) : ℝ)) ^ 2 + ((y - (x + (y + 0)) / ((0 + 1 + 1 : ℕ) : ℝ)) ^ 2 + 0)) *
      ((z - (z + (w + 0)) / ((0 + 1 + 1 : ℕ) : ℝ)) ^ 2 + ((w - (z + (w + 0)) / ((0 + 1 + 1 : ℕ) : ℝ)) ^ 2 + 0)) =
      ((y - x) * (w - z) / 2) ^ 2 := by
    push_cast
    ring
  rw [e, Real.sqrt_sq (by have := mul_pos (sub_pos.2 h1) (sub_pos.2 h2); linarith)]
  have h3 : (y - x) * (w - z) / 2 ≠ 0 := by
    have := mul_pos (sub_pos.2 h1) (sub_pos.2 h2)
    linarith
  rw [div_eq_one_iff_eq h3]
  push_cast
  ring

theorem pearson_two_gt {x y z w : ℝ} (h1 : x < y) (h2 : w < z) : Spec.pearson [x, y] [z, w] = -1 := by
  have := pearson_two_lt (x := x) (y := y) (z := -z) (w := -w) h1 (by linarith)
  rw [pearson_eq] at this ⊢
  have e : cen [-z, -w] = (cen [z, w]).map fun x => -1 * x := by
    have := cen_affine (-1) 0 [z, w]
    simpa using this
  rw [e, zipWith_mul_map_right, sum_sq_scale] at this
  norm_num at this
  rw [neg_div] at this
  linarith

/-- A master pattern stored with 8-bit unsigned integers, with a brighter lower hemisphere. -/
noncomputable def brightLower : MasterPattern where
  lambert := true
  inversion := some false
  both := true
  arrays := [(20, ⟨3, 3, fun r c => if r = 1 ∧ c = 1 then 0 else 10⟩,
    ⟨3, 3, fun r c => if r = 1 ∧ c = 1 then 0 else 20⟩)]
  dtype := .uint 8

/-- Refinement of one pattern of two pixels, with an optimizer which stays where it is. -/
noncomputable def brightLowerArgs : RefineArgs where
  patterns := [[0, 1]]
  dtype := .uint 8
  points := [true]
  signalMask := none
  det := { nrows := 1, ncols := 2, pxSize := 1, binning := 1, tilt := 0, azimuthal := 0, twist := 0,
           sampleTilt := 70, nav := [1], pc := [⟨1 / 4, 1 / 2, 4 / 3⟩] }
  m := ⟨⟨0, 0, -1⟩, ⟨0, 1, 0⟩, ⟨1, 0, 0⟩⟩
  mp := brightLower
  energy := none
  solver := ⟨.minimize, false, fun f x _ => ⟨f (x.getD []), 1, x.getD []⟩⟩
  nPs := 0
  chunks := [1]

theorem brightLowerArgs_valid : brightLowerArgs.Valid
    ⟨3, 3, fun r c => if r = 1 ∧ c = 1 then 0 else 10⟩
    ⟨3, 3, fun r c => if r = 1 ∧ c = 1 then 0 else 20⟩ where
  suitable := rfl
  arrays := rfl
  points := rfl
  mask := by intro m h; simp [brightLowerArgs] at h
  pcs := rfl
  nav := .inl rfl
  chunks := rfl
  faithful := fun f s b => rfl

theorem brightLower_dcs : pcDirections brightLowerArgs.det brightLowerArgs.m (List.replicate 2 true)
    ⟨1 / 4, 1 / 2, 4 / 3⟩ = [⟨1, 0, 0⟩, ⟨4 / 5, 0, -(3 / 5)⟩] := by
  have hb : brightLowerArgs.det.gnomonicBounds ⟨1 / 4, 1 / 2, 4 / 3⟩ = (-(3 / 8), 9 / 8, -(3 / 8), 3 / 8) := by
    simp only [Detector.gnomonicBounds, Detector.xMin, Detector.xMax, Detector.yMin, Detector.yMax,
      Detector.aspect, brightLowerArgs]
    norm_num
  have hx : arange (-(3 / 8)) (9 / 8) (3 / 4) = [-(3 / 8), 3 / 8] := by
    unfold arange
    have : (⌈((9 / 8 : ℝ) - -(3 / 8)) / (3 / 4)⌉).toNat = 2 := by norm_num; rfl
    rw [this]
    norm_num [List.range_succ]
  have hy : arange (3 / 8) (-(3 / 8)) (-(3 / 4)) = [3 / 8] := by
    unfold arange
    have : (⌈((-(3 / 8) : ℝ) - (3 / 8)) / (-(3 / 4))⌉).toNat = 1 := by norm_num
    rw [this]
    norm_num [List.range_succ]
  have hi : maskedIndices (List.replicate 2 true) = [0, 1] := by decide
  unfold pcDirections directionCosinesFixed
  rw [hb, hi]
  have e1 : ((9 / 8 : ℝ) - -(3 / 8)) / ((2 : ℕ) : ℝ) = 3 / 4 := by norm_num
  have e2 : ((3 / 8 : ℝ) - -(3 / 8)) / ((1 : ℕ) : ℝ) = 3 / 4 := by norm_num
  have n1 : brightLowerArgs.det.ncols = 2 := rfl
  have n2 : brightLowerArgs.det.nrows = 1 := rfl
  simp only [n1, n2, e1, e2, hx, hy, List.map_cons, List.map_nil]
  have s1 : Real.sqrt ((4 / 3) ^ 2 : ℝ) = 4 / 3 := Real.sqrt_sq (by norm_num)
  have s2 : Real.sqrt ((5 / 3) ^ 2 : ℝ) = 5 / 3 := Real.sqrt_sq (by norm_num)
  have v1 : brightLowerArgs.m.transpose.apply ⟨((([-(3 / 8), 3 / 8] : List ℝ).getD (0 % 2) 0) +
      3 / 4 / 2) * (4 / 3), ((([3 / 8] : List ℝ).getD (0 / 2) 0) - 3 / 4 / 2) * (4 / 3), 4 / 3⟩ =
      ⟨4 / 3, 0, 0⟩ := by
    simp only [brightLowerArgs, M3.transpose, M3.apply, V3.dot]
    norm_num
  have v2 : brightLowerArgs.m.transpose.apply ⟨((([-(3 / 8), 3 / 8] : List ℝ).getD (1 % 2) 0) +
      3 / 4 / 2) * (4 / 3), ((([3 / 8] : List ℝ).getD (1 / 2) 0) - 3 / 4 / 2) * (4 / 3), 4 / 3⟩ =
      ⟨4 / 3, 0, -1⟩ := by
    simp only [brightLowerArgs, M3.transpose, M3.apply, V3.dot]
    norm_num
  rw [v1, v2]
  unfold normalizeV
  have t1 : (4 / 3 * (4 / 3) + 0 * 0 + 0 * 0 : ℝ) = (4 / 3) ^ 2 := by norm_num
  have t2 : (4 / 3 * (4 / 3) + 0 * 0 + -1 * -1 : ℝ) = (5 / 3) ^ 2 := by norm_num
  simp only [t1, t2, s1, s2]
  norm_num

theorem sqrt_two_fifths : 1 / 2 < Real.sqrt (2 / 5) ∧ Real.sqrt (2 / 5) < 1 := by
  constructor
  · rw [Real.lt_sqrt (by norm_num)]
    norm_num
  · rw [Real.sqrt_lt' (by norm_num)]
    norm_num

theorem lambert_edge : vector2lambert ⟨1, 0, 0⟩ = (sqrtPiHalf, 0) := by
  have hn : normalizeV ⟨1, 0, 0⟩ = ⟨1, 0, 0⟩ := by
    unfold normalizeV
    norm_num
  unfold vector2lambert
  rw [hn]
  simp only [abs_zero, sub_zero, mul_one, zero_ne_one, if_false, abs_one, zero_le_one, if_true,
    zero_div, Real.arctan_zero, mul_zero, Real.sign_one, one_mul, sqrtPiOver2, sqrtPiHalf]
  rw [Real.sqrt_div Real.pi_pos.le]
  have h2 : Real.sqrt 2 ≠ 0 := by positivity
  have h3 : Real.sqrt 2 * Real.sqrt 2 = 2 := Real.mul_self_sqrt (by norm_num)
  refine Prod.ext ?_ rfl
  simp only
  rw [eq_div_iff h2]
  linear_combination (Real.sqrt Real.pi / 2) * h3

theorem lambert_inner : vector2lambert ⟨4 / 5, 0, -(3 / 5)⟩ = (Real.sqrt (2 / 5) * sqrtPiHalf, 0) := by
  have hn : normalizeV ⟨4 / 5, 0, -(3 / 5)⟩ = ⟨4 / 5, 0, -(3 / 5)⟩ := by
    unfold normalizeV
    norm_num
  have hz : |-(3 / 5 : ℝ)| = 3 / 5 := by rw [abs_neg, abs_of_pos (by norm_num)]
  have hx : |(4 / 5 : ℝ)| = 4 / 5 := abs_of_pos (by norm_num)
  unfold vector2lambert
  rw [hn]
  simp only [hz, hx, abs_zero]
  rw [if_neg (by norm_num), if_pos (by norm_num), Real.sign_of_pos (by norm_num)]
  simp only [zero_div, Real.arctan_zero, mul_zero, one_mul, sqrtPiOver2, sqrtPiHalf]
  refine Prod.ext ?_ rfl
  simp only
  have e : (2 * (1 - 3 / 5) : ℝ) = (2 / 5) * 2 := by norm_num
  rw [e, Real.sqrt_mul (by norm_num), Real.sqrt_div Real.pi_pos.le]
  have h2 : Real.sqrt 2 ≠ 0 := by positivity
  have h3 : Real.sqrt 2 * Real.sqrt 2 = 2 := Real.mul_self_sqrt (by norm_num)
  have h4 : Real.sqrt Real.pi / Real.sqrt 2 = Real.sqrt 2 * Real.sqrt Real.pi / 2 := by
    rw [div_eq_iff h2]
    linear_combination (-(Real.sqrt Real.pi) / 2) * h3
  rw [h4]
  ring

theorem sqrtPiHalf_pos : 0 < sqrtPiHalf := Real.sqrt_pos.2 (by positivity)

theorem interp_edge : lambertInterp ⟨1, 0, 0⟩ 3 3 1 = ⟨1, 2, 2, 2, 0, 0, 1, 1⟩ := by
  have h := sqrtPiHalf_pos.ne'
  unfold lambertInterp
  rw [lambert_edge]
  simp only [mul_zero, zero_div, one_mul, div_self h]
  have t1 : toInt32 ((0 : ℝ) + 1) = 1 := by simp [toInt32]
  have t2 : toInt32 ((1 : ℝ) + 1) = 2 := by norm_num [toInt32]
  unfold interpAt
  simp only [t1, t2]
  norm_num

theorem interp_inner : lambertInterp ⟨4 / 5, 0, -(3 / 5)⟩ 3 3 1 =
    ⟨1, 1, 2, 2, 0, Real.sqrt (2 / 5), 1, 1 - Real.sqrt (2 / 5)⟩ := by
  have h := sqrtPiHalf_pos.ne'
  have hs := sqrt_two_fifths
  unfold lambertInterp
  rw [lambert_inner]
  simp only [mul_zero, zero_div, one_mul, mul_div_cancel_right₀ _ h]
  have t1 : toInt32 ((0 : ℝ) + 1) = 1 := by simp [toInt32]
  have t2 : toInt32 (Real.sqrt (2 / 5) + 1) = 1 := by
    unfold toInt32
    rw [if_pos (by linarith), Int.floor_eq_iff]
    push_cast
    constructor <;> linarith [hs.1, hs.2]
  unfold interpAt
  simp only [t1, t2]
  norm_num

theorem rotate_identity (v : V3 ℝ) : rotateVector (rotationFromEuler 0 0 0) v = v := by
  have : rotationFromEuler 0 0 0 = ⟨1, 0, 0, 0⟩ := by
    simp [rotationFromEuler, positiveScalar]
  rw [this]
  simp [rotateVector]

theorem project_example (a b : ℝ) (f g : ℝ → ℝ) :
    [(⟨1, 0, 0⟩ : V3 ℝ), ⟨4 / 5, 0, -(3 / 5)⟩].map (projectPixel (rotationFromEuler 0 0 0)
      ⟨3, 3, fun r c => f (if r = 1 ∧ c = 1 then 0 else a)⟩
      ⟨3, 3, fun r c => g (if r = 1 ∧ c = 1 then 0 else b)⟩ 3 3 1) =
      [f a, g 0 * (1 - Real.sqrt (2 / 5)) + g b * Real.sqrt (2 / 5)] := by
  simp only [List.map_cons, List.map_nil, projectPixel, rotate_identity, interp_edge, interp_inner]
  rw [if_pos le_rfl, if_neg (by norm_num)]
  simp [masterPixel]

end Kp
