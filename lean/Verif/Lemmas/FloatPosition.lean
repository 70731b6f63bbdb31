import Verif.Props.FloatLambert
import Verif.Props.Lambert
import Verif.Spec.FloatPosition
import Verif.Lemmas.FloatPc
import Mathlib.Analysis.SpecialFunctions.Trigonometric.ArctanDeriv
import Mathlib.Analysis.Calculus.MeanValue

/-! How the square Lambert projection depends on errors of a direction. -/

namespace Kp
noncomputable section

/-! ### Angles -/

theorem arctan_lipschitz (x y : ℝ) : |Real.arctan x - Real.arctan y| ≤ |x - y| := by
  have h := Convex.norm_image_sub_le_of_norm_deriv_le (𝕜 := ℝ) (f := Real.arctan) (C := 1)
    (s := Set.univ) (x := y) (y := x) (fun z _ => Real.differentiableAt_arctan z) (by
      intro z _
      rw [Real.deriv_arctan, Real.norm_eq_abs, abs_of_pos (by positivity), div_le_one (by positivity)]
      nlinarith [sq_nonneg z]) convex_univ (Set.mem_univ _) (Set.mem_univ _)
  simpa [Real.norm_eq_abs] using h

/-- The angle by which a coordinate of the projection is determined. -/
def lambertAngle (A B : ℝ) : ℝ := if B ≤ A then Real.pi / 4 else Real.arctan (A / B)

theorem lambertAngle_bounds {A B : ℝ} (hA : 0 ≤ A) :
    0 ≤ lambertAngle A B ∧ lambertAngle A B ≤ Real.pi / 4 := by
  unfold lambertAngle
  have := Real.pi_pos
  split_ifs with h
  · constructor <;> linarith
  · push Not at h
    have hB0 : 0 < B := hA.trans_lt h
    refine ⟨Real.arctan_nonneg.mpr (by positivity), ?_⟩
    rw [← Real.arctan_one]
    exact Real.arctan_strictMono.monotone ((div_le_one hB0).mpr h.le)

theorem quarter_pi_le : Real.pi / 4 ≤ 1 := by
  have := Real.pi_lt_four
  linarith

theorem lambertAngle_small {A B Z : ℝ} (hA : 0 ≤ A) (hZ0 : 0 ≤ Z) (hZ : Z ≤ 2 * max A B) :
    Z * lambertAngle A B ≤ 2 * A := by
  unfold lambertAngle
  have := quarter_pi_le
  have := Real.pi_pos
  split_ifs with h
  · rw [max_eq_left h] at hZ
    nlinarith
  · push Not at h
    rw [max_eq_right h.le] at hZ
    have hB0 : 0 < B := hA.trans_lt h
    have h1 : Real.arctan (A / B) ≤ A / B := by
      have := arctan_lipschitz (A / B) 0
      rw [Real.arctan_zero, sub_zero, sub_zero, abs_of_nonneg (by positivity : 0 ≤ A / B)] at this
      exact (le_abs_self _).trans this
    calc Z * Real.arctan (A / B) ≤ Z * (A / B) := mul_le_mul_of_nonneg_left h1 hZ0
      _ ≤ 2 * B * (A / B) := mul_le_mul_of_nonneg_right hZ (by positivity)
      _ = 2 * A := by field_simp

/-- One minus a ratio bounds the angle from the diagonal. -/
theorem quarter_sub_arctan {A B : ℝ} (hB : 0 < B) (h : A ≤ B) :
    0 ≤ Real.pi / 4 - Real.arctan (A / B) ∧
      Real.pi / 4 - Real.arctan (A / B) ≤ (B - A) / B := by
  have h1 : A / B ≤ 1 := (div_le_one hB).mpr h
  rw [← Real.arctan_one]
  refine ⟨by have := Real.arctan_strictMono.monotone h1; linarith, ?_⟩
  have := arctan_lipschitz 1 (A / B)
  rw [abs_of_nonneg (by linarith : 0 ≤ 1 - A / B)] at this
  refine (le_abs_self _).trans (this.trans_eq ?_)
  field_simp

theorem lambertAngle_error {A B A' B' Z ε : ℝ} (hA : 0 ≤ A) (hB : 0 ≤ B) (hA' : 0 ≤ A')
    (eA : |A' - A| ≤ ε) (eB : |B' - B| ≤ ε) (hZ0 : 0 ≤ Z) (hZ : Z ≤ 2 * max A B) :
    Z * |lambertAngle A' B' - lambertAngle A B| ≤ 16 * ε := by
  have hε : 0 ≤ ε := (abs_nonneg _).trans eA
  rw [abs_le] at eA eB
  by_cases hs : max A B ≤ 4 * ε
  · have b1 := lambertAngle_bounds (B := B) hA
    have b2 := lambertAngle_bounds (B := B') hA'
    have q := quarter_pi_le
    have h1 : |lambertAngle A' B' - lambertAngle A B| ≤ 1 := by
      rw [abs_le]
      constructor <;> linarith
    calc Z * |lambertAngle A' B' - lambertAngle A B| ≤ Z * 1 := mul_le_mul_of_nonneg_left h1 hZ0
      _ ≤ 16 * ε := by linarith
  push Not at hs
  unfold lambertAngle
  by_cases h : B ≤ A
  · rw [max_eq_left h] at hZ hs
    by_cases h' : B' ≤ A'
    · rw [if_pos h, if_pos h', sub_self, abs_zero, mul_zero]
      linarith
    · push Not at h'
      rw [if_pos h, if_neg (not_le.mpr h')]
      have hB0 : 0 < B' := by linarith
      obtain ⟨q1, q2⟩ := quarter_sub_arctan hB0 h'.le
      rw [abs_sub_comm, abs_of_nonneg q1]
      have q3 : (B' - A') / B' ≤ 2 * ε / B' := div_le_div_of_nonneg_right (by linarith) hB0.le
      calc Z * (Real.pi / 4 - Real.arctan (A' / B')) ≤ Z * (2 * ε / B') :=
            mul_le_mul_of_nonneg_left (q2.trans q3) hZ0
        _ ≤ (8 * B') * (2 * ε / B') := mul_le_mul_of_nonneg_right (by linarith) (by positivity)
        _ = 16 * ε := by field_simp; ring
  · push Not at h
    rw [max_eq_right h.le] at hZ hs
    have hB0 : 0 < B := by linarith
    rw [if_neg (not_le.mpr h)]
    by_cases h' : B' ≤ A'
    · rw [if_pos h']
      obtain ⟨q1, q2⟩ := quarter_sub_arctan hB0 h.le
      rw [abs_of_nonneg q1]
      have q3 : (B - A) / B ≤ 2 * ε / B := div_le_div_of_nonneg_right (by linarith) hB0.le
      calc Z * (Real.pi / 4 - Real.arctan (A / B)) ≤ Z * (2 * ε / B) :=
            mul_le_mul_of_nonneg_left (q2.trans q3) hZ0
        _ ≤ (8 * B) * (2 * ε / B) := mul_le_mul_of_nonneg_right (by linarith) (by positivity)
        _ = 16 * ε := by field_simp; ring
    · push Not at h'
      rw [if_neg (not_le.mpr h')]
      have hB0' : 0 < B' := by linarith
      have e : A' / B' - A / B = ((A' - A) * B - A * (B' - B)) / (B' * B) := by
        field_simp
        ring
      have h1 : |A' / B' - A / B| ≤ 2 * ε / B' := by
        rw [e, abs_div, abs_of_pos (mul_pos hB0' hB0), div_le_div_iff₀ (by positivity) hB0']
        have h2 : |(A' - A) * B - A * (B' - B)| ≤ 2 * ε * B := by
          rw [abs_le]
          constructor <;> nlinarith
        calc |(A' - A) * B - A * (B' - B)| * B' ≤ 2 * ε * B * B' :=
              mul_le_mul_of_nonneg_right h2 hB0'.le
          _ = 2 * ε * (B' * B) := by ring
      calc Z * |Real.arctan (A' / B') - Real.arctan (A / B)| ≤ Z * (2 * ε / B') :=
            mul_le_mul_of_nonneg_left ((arctan_lipschitz _ _).trans h1) hZ0
        _ ≤ (8 * B') * (2 * ε / B') := mul_le_mul_of_nonneg_right (by linarith) (by positivity)
        _ = 16 * ε := by field_simp; ring

theorem sign_bound (a : ℝ) : |Real.sign a| ≤ 1 := by
  rcases Real.sign_apply_eq a with h | h | h <;> rw [h] <;> norm_num

theorem sign_differs {a a' ε : ℝ} (e : |a' - a| ≤ ε) (h : Real.sign a' ≠ Real.sign a) : |a| ≤ ε := by
  rw [abs_le] at e ⊢
  rcases lt_trichotomy a 0 with ha | ha | ha
  · rw [Real.sign_of_neg ha] at h
    have : 0 ≤ a' := by
      by_contra hc
      exact h (Real.sign_of_neg (not_le.mp hc))
    constructor <;> linarith
  · subst ha
    constructor <;> linarith
  · rw [Real.sign_of_pos ha] at h
    have : a' ≤ 0 := by
      by_contra hc
      exact h (Real.sign_of_pos (not_le.mp hc))
    constructor <;> linarith

/-- The same with signs. -/
theorem lambertAngle_sign_error {a b a' b' Z ε : ℝ} (ea : |a' - a| ≤ ε) (eb : |b' - b| ≤ ε)
    (hZ0 : 0 ≤ Z) (hZ : Z ≤ 2 * max |a| |b|) :
    Z * |Real.sign a' * lambertAngle |a'| |b'| - Real.sign a * (lambertAngle |a| |b|)| ≤
      20 * ε := by
  have hε : 0 ≤ ε := (abs_nonneg _).trans ea
  have h := lambertAngle_error (abs_nonneg a) (abs_nonneg b) (abs_nonneg a')
    ((abs_abs_sub_abs_le _ _).trans ea) ((abs_abs_sub_abs_le _ _).trans eb) hZ0 hZ
  by_cases hs : Real.sign a' = Real.sign a
  · rw [hs, ← mul_sub, abs_mul]
    have := mul_le_mul_of_nonneg_right (sign_bound a)
      (abs_nonneg (lambertAngle |a'| |b'| - lambertAngle |a| |b|))
    have := mul_le_mul_of_nonneg_left this hZ0
    linarith
  · have hA := sign_differs ea hs
    have h1 := lambertAngle_small (B := |b|) (abs_nonneg a) hZ0 hZ
    have b1 := (lambertAngle_bounds (B := |b|) (abs_nonneg a)).1
    have b2 := (lambertAngle_bounds (B := |b'|) (abs_nonneg a')).1
    have t : |Real.sign a' * lambertAngle |a'| |b'| - Real.sign a * (lambertAngle |a| |b|)| ≤
        lambertAngle |a'| |b'| + lambertAngle |a| |b| := by
      refine (abs_sub _ _).trans (add_le_add ?_ ?_)
      · rw [abs_mul, abs_of_nonneg b2]
        exact mul_le_of_le_one_left b2 (sign_bound _)
      · rw [abs_mul, abs_of_nonneg b1]
        exact mul_le_of_le_one_left b1 (sign_bound _)
    have t' : lambertAngle |a'| |b'| + lambertAngle |a| |b| ≤
        |lambertAngle |a'| |b'| - (lambertAngle |a| |b|)| + 2 * lambertAngle |a| |b| := by
      have := le_abs_self (lambertAngle |a'| |b'| - lambertAngle |a| |b|)
      linarith
    have := mul_le_mul_of_nonneg_left (t.trans t') hZ0
    linarith

/-! ### Rounding errors -/

theorem fl64_near {x : ℝ} (h : |x| ≤ 4) : |fl64 x - x| ≤ 1 / 2 ^ 50 := by
  have h1 := fl64_error_tiny x
  have h2 := tiny_le
  have h3 : ulp * (|x| + tiny) ≤ ulp * 8 :=
    mul_le_mul_of_nonneg_left (by norm_num at h2; linarith) ulp_pos.le
  have h4 : ulp * 8 = 1 / 2 ^ 50 := by unfold ulp; norm_num
  linarith

theorem sqrt_sub_le {a b : ℝ} (hb : 0 ≤ b) : Real.sqrt a - Real.sqrt b ≤ Real.sqrt |a - b| := by
  rw [sub_le_iff_le_add]
  apply Real.sqrt_le_iff.mpr
  refine ⟨by positivity, ?_⟩
  have h1 := Real.sq_sqrt (abs_nonneg (a - b))
  have h2 := Real.sq_sqrt hb
  have h3 := le_abs_self (a - b)
  have h4 := mul_nonneg (Real.sqrt_nonneg |a - b|) (Real.sqrt_nonneg b)
  nlinarith

theorem abs_sqrt_sub_le {a b : ℝ} (ha : 0 ≤ a) (hb : 0 ≤ b) :
    |Real.sqrt a - Real.sqrt b| ≤ Real.sqrt |a - b| := by
  rw [abs_le]
  have h1 := sqrt_sub_le (a := a) hb
  have h2 := sqrt_sub_le (a := b) ha
  rw [abs_sub_comm] at h2
  constructor <;> linarith

/-- Square roots of numbers not below a quarter. -/
theorem abs_sqrt_sub_le_sub {a b : ℝ} (ha : 1 / 4 ≤ a) (hb : 1 / 4 ≤ b) :
    |Real.sqrt a - Real.sqrt b| ≤ |a - b| := by
  have h1 : 1 / 2 ≤ Real.sqrt a := Real.le_sqrt_of_sq_le (by linarith)
  have h2 : 1 / 2 ≤ Real.sqrt b := Real.le_sqrt_of_sq_le (by linarith)
  have e : a - b = (Real.sqrt a - Real.sqrt b) * (Real.sqrt a + Real.sqrt b) := by
    have e1 := Real.mul_self_sqrt (show 0 ≤ a by linarith)
    have e2 := Real.mul_self_sqrt (show 0 ≤ b by linarith)
    linear_combination e2 - e1
  rw [e, abs_mul, abs_of_pos (show 0 < Real.sqrt a + Real.sqrt b by linarith)]
  exact le_mul_of_one_le_right (abs_nonneg _) (by linarith)

/-! ### Constants -/

theorem sqrtPiFl_near : |sqrtPiFl - Real.sqrt Real.pi| ≤ 1 / 2 ^ 49 := by
  obtain ⟨p1, p2⟩ := pi_bounds
  obtain ⟨s1, s2⟩ := sqrtPi_bounds
  have h1 := fl64_near (x := Real.pi) (by rw [abs_of_pos (by linarith)]; linarith)
  have h1' := abs_le.mp h1
  norm_num at h1'
  have h2 := (abs_sqrt_sub_le_sub (a := fl64 Real.pi) (b := Real.pi) (by linarith) (by linarith)).trans h1
  have h2' := abs_le.mp h2
  norm_num at h2'
  have h3 := fl64_near (x := Real.sqrt (fl64 Real.pi)) (by
    rw [abs_of_nonneg (Real.sqrt_nonneg _)]; linarith)
  have h3' := abs_le.mp h3
  norm_num at h3'
  unfold sqrtPiFl
  rw [abs_le]
  norm_num
  constructor <;> linarith

theorem sqrtPiOver2Fl_near : |sqrtPiOver2Fl - sqrtPiOver2| ≤ 1 / 2 ^ 49 := by
  obtain ⟨s1, s2⟩ := sqrtPi_bounds
  have h1 := abs_le.mp sqrtPiFl_near
  norm_num at h1
  have h3 := abs_le.mp (fl64_near (x := sqrtPiFl / 2) (by rw [abs_le]; constructor <;> linarith))
  norm_num at h3
  unfold sqrtPiOver2Fl sqrtPiOver2
  rw [abs_le]
  norm_num
  constructor <;> linarith

theorem twoOverSqrtPi_bounds : 1 < twoOverSqrtPi ∧ twoOverSqrtPi < 2 := by
  obtain ⟨s1, s2⟩ := sqrtPi_bounds
  unfold twoOverSqrtPi
  constructor
  · rw [lt_div_iff₀ (by linarith)]; linarith
  · rw [div_lt_iff₀ (by linarith)]; linarith

theorem sqrtPi_ge : 3 / 2 ≤ Real.sqrt Real.pi := by
  obtain ⟨p1, p2⟩ := pi_bounds
  exact Real.le_sqrt_of_sq_le (by norm_num; linarith)

theorem twoOverSqrtPiFl_near : |twoOverSqrtPiFl - twoOverSqrtPi| ≤ 1 / 2 ^ 48 := by
  obtain ⟨s1, s2⟩ := sqrtPi_bounds
  have s3 := sqrtPi_ge
  have h0 := sqrtPiFl_near
  have h1 := abs_le.mp h0
  norm_num at h1
  have hp : 1 < sqrtPiFl := by linarith
  have e : 2 / sqrtPiFl - 2 / Real.sqrt Real.pi =
      2 * (Real.sqrt Real.pi - sqrtPiFl) / (sqrtPiFl * Real.sqrt Real.pi) := by
    field_simp
  have h2 : |2 / sqrtPiFl - 2 / Real.sqrt Real.pi| ≤ 4 / 3 * (1 / 2 ^ 49) := by
    rw [e, abs_div, abs_of_pos (show 0 < sqrtPiFl * Real.sqrt Real.pi by positivity), abs_mul,
      abs_sub_comm, abs_of_pos (show (0 : ℝ) < 2 by norm_num), div_le_iff₀ (by positivity)]
    have : 3 / 2 ≤ sqrtPiFl * Real.sqrt Real.pi := by nlinarith
    have := mul_le_mul_of_nonneg_left this (show (0 : ℝ) ≤ 4 / 3 * (1 / 2 ^ 49) by positivity)
    linarith
  have h2' := abs_le.mp h2
  norm_num at h2'
  have h4 : 2 / sqrtPiFl ≤ 2 := by rw [div_le_iff₀ (by linarith)]; linarith
  have h5 : 0 ≤ 2 / sqrtPiFl := by positivity
  have h3 := abs_le.mp (fl64_near (x := 2 / sqrtPiFl) (by rw [abs_of_nonneg h5]; linarith))
  norm_num at h3
  unfold twoOverSqrtPiFl twoOverSqrtPi
  rw [abs_le]
  norm_num
  constructor <;> linarith

theorem sqrtPiHalfFl_near : |sqrtPiHalfFl - sqrtPiHalf| ≤ 1 / 2 ^ 48 := by
  obtain ⟨p1, p2⟩ := pi_bounds
  obtain ⟨s1, s2⟩ := sqrtPiHalf_bounds
  have h1 := abs_le.mp (fl64_near (x := Real.pi) (by rw [abs_of_pos (by linarith)]; linarith))
  norm_num at h1
  have h2 := abs_le.mp (fl64_near (x := fl64 Real.pi / 2) (by rw [abs_le]; constructor <;> linarith))
  norm_num at h2
  have h3 := abs_sqrt_sub_le_sub (a := fl64 (fl64 Real.pi / 2)) (b := Real.pi / 2) (by linarith)
    (by linarith)
  have h4 : |fl64 (fl64 Real.pi / 2) - Real.pi / 2| ≤ 1 / 2 ^ 49 := by
    rw [abs_le]
    norm_num
    constructor <;> linarith
  have h5 := abs_le.mp (h3.trans h4)
  change -(1 / 2 ^ 49) ≤ Real.sqrt (fl64 (fl64 Real.pi / 2)) - sqrtPiHalf ∧
    Real.sqrt (fl64 (fl64 Real.pi / 2)) - sqrtPiHalf ≤ 1 / 2 ^ 49 at h5
  norm_num at h5
  have h6 := abs_le.mp (fl64_near (x := Real.sqrt (fl64 (fl64 Real.pi / 2))) (by
    rw [abs_of_nonneg (Real.sqrt_nonneg _)]; linarith))
  norm_num at h6
  unfold sqrtPiHalfFl
  rw [abs_le]
  norm_num
  constructor <;> linarith

/-! ### The projection of a normalized direction -/

/-- One coordinate of the projection, of the radius and the two components. -/
def lambertCoordinate (Z a b : ℝ) : ℝ := twoOverSqrtPi * Z * (Real.sign a * lambertAngle |a| |b|)

theorem sqrtPiOver2_eq : sqrtPiOver2 = twoOverSqrtPi * (Real.pi / 4) := by
  unfold sqrtPiOver2 twoOverSqrtPi
  have := sqrtPi_bounds.1
  field_simp
  rw [Real.sq_sqrt Real.pi_pos.le]
  ring

theorem lambertCoordinate_first {Z a b : ℝ} (h : |b| ≤ |a|) :
    lambertCoordinate Z a b = Real.sign a * Z * sqrtPiOver2 := by
  unfold lambertCoordinate lambertAngle
  rw [if_pos h, sqrtPiOver2_eq]
  ring

theorem sign_mul_arctan {a b : ℝ} (ha : a ≠ 0) (h : |b| ≤ |a|) :
    Real.sign a * Real.arctan (b / a) = Real.sign b * lambertAngle |b| |a| := by
  have e : lambertAngle |b| |a| = Real.arctan (|b| / |a|) := by
    unfold lambertAngle
    split_ifs with hc
    · rw [le_antisymm h hc, div_self (abs_pos.mpr ha).ne', Real.arctan_one]
    · rfl
  rw [e]
  rcases lt_or_gt_of_ne ha with ha | ha
  · rw [Real.sign_of_neg ha, abs_of_neg ha]
    rcases lt_trichotomy b 0 with hb | hb | hb
    · rw [Real.sign_of_neg hb, abs_of_neg hb, neg_div_neg_eq]
    · subst hb; simp
    · rw [Real.sign_of_pos hb, abs_of_pos hb, div_neg, Real.arctan_neg]; ring
  · rw [Real.sign_of_pos ha, abs_of_pos ha]
    rcases lt_trichotomy b 0 with hb | hb | hb
    · rw [Real.sign_of_neg hb, abs_of_neg hb, neg_div, Real.arctan_neg]; ring
    · subst hb; simp
    · rw [Real.sign_of_pos hb, abs_of_pos hb]

theorem lambertCoordinate_second {Z a b : ℝ} (ha : a ≠ 0) (h : |b| ≤ |a|) :
    lambertCoordinate Z b a = Real.sign a * Z * twoOverSqrtPi * Real.arctan (b / a) := by
  unfold lambertCoordinate
  rw [← sign_mul_arctan ha h]
  ring

/-- The exact projection in these terms. -/
theorem vector2lambert_coordinates {u : V3 ℝ} (h : u.IsUnit) :
    vector2lambert u = (lambertCoordinate (Real.sqrt (2 * (1 - |u.z|))) u.x u.y,
      lambertCoordinate (Real.sqrt (2 * (1 - |u.z|))) u.y u.x) := by
  rw [vector2lambert_eq h]
  split_ifs with hz hyx
  · rw [hz]
    simp [lambertCoordinate]
  · rw [lambertCoordinate_first hyx, lambertCoordinate_second (isUnit_x_ne h hz hyx) hyx]
    rfl
  · push Not at hyx
    have hy : u.y ≠ 0 := by
      intro hc
      rw [hc, abs_zero] at hyx
      exact absurd hyx (not_lt.mpr (abs_nonneg _))
    rw [lambertCoordinate_first hyx.le, lambertCoordinate_second hy hyx.le]
    rfl

theorem fl64_sign_mul {a Z : ℝ} (hZ : fl64 Z = Z) : fl64 (Real.sign a * Z) = Real.sign a * Z := by
  rcases Real.sign_apply_eq a with h | h | h <;> rw [h]
  · rw [neg_one_mul, fl64_neg, hZ]
  · rw [zero_mul, fl64_zero]
  · rw [one_mul, hZ]

theorem mul_error {x' x y' y δ ε b c : ℝ} (hx : |x' - x| ≤ δ) (hy : |y' - y| ≤ ε) (hb : |x| ≤ b)
    (hc : |y'| ≤ c) : |x' * y' - x * y| ≤ δ * c + b * ε := by
  have e : x' * y' - x * y = (x' - x) * y' + x * (y' - y) := by ring
  rw [e]
  refine (abs_add_le _ _).trans (add_le_add ?_ ?_) <;> rw [abs_mul]
  · exact mul_le_mul hx hc (abs_nonneg _) ((abs_nonneg _).trans hx)
  · exact mul_le_mul hb hy (abs_nonneg _) ((abs_nonneg _).trans hb)

section
variable {a Z : ℝ}

theorem abs_sign_mul_le (hZ0 : 0 ≤ Z) (hZ2 : Z ≤ 2) : |Real.sign a * Z| ≤ 2 := by
  rw [abs_mul, abs_of_nonneg hZ0]
  nlinarith [sign_bound a, abs_nonneg (Real.sign a)]

theorem first_error (hZ : fl64 Z = Z) (hZ0 : 0 ≤ Z) (hZ2 : Z ≤ 2) :
    |fl64 (fl64 (Real.sign a * Z) * sqrtPiOver2Fl) - Real.sign a * Z * sqrtPiOver2| ≤ 1 / 2 ^ 44 := by
  rw [fl64_sign_mul hZ]
  have hs := abs_sign_mul_le (a := a) hZ0 hZ2
  obtain ⟨s1, s2⟩ := sqrtPi_bounds
  have h1 := sqrtPiOver2Fl_near
  have h1' := abs_le.mp h1
  norm_num at h1'
  have e : sqrtPiOver2 = Real.sqrt Real.pi / 2 := rfl
  have h2 := mul_error (x' := Real.sign a * Z) (x := Real.sign a * Z) (δ := 0) (by simp) h1 hs
    (c := 3 / 2) (by rw [abs_le]; constructor <;> linarith)
  have h3 : |Real.sign a * Z * sqrtPiOver2Fl| ≤ 4 := by
    rw [abs_mul]
    have : |sqrtPiOver2Fl| ≤ 2 := by rw [abs_le]; constructor <;> linarith
    nlinarith [abs_nonneg (Real.sign a * Z), abs_nonneg sqrtPiOver2Fl]
  have h4 := abs_le.mp (fl64_near h3)
  have h2' := abs_le.mp h2
  norm_num at h2' h4
  rw [abs_le]
  norm_num
  constructor <;> linarith

theorem second_error {atan : ℝ → ℝ} (hatan : Spec.AccurateArctan atan) (hZ : fl64 Z = Z) (hZ0 : 0 ≤ Z)
    (hZ2 : Z ≤ 2) {q : ℝ} (hq : |q| ≤ 1) :
    |fl64 (fl64 (fl64 (Real.sign a * Z) * twoOverSqrtPiFl) * atan (fl64 q)) -
      Real.sign a * Z * twoOverSqrtPi * Real.arctan q| ≤ 1 / 2 ^ 44 := by
  rw [fl64_sign_mul hZ]
  have hs := abs_sign_mul_le (a := a) hZ0 hZ2
  obtain ⟨k1, k2⟩ := twoOverSqrtPi_bounds
  have h1 := twoOverSqrtPiFl_near
  have k3 : twoOverSqrtPi ≤ 3 / 2 := by
    have := sqrtPi_ge
    unfold twoOverSqrtPi
    rw [div_le_iff₀ (by linarith)]
    linarith
  have h1' := abs_le.mp h1
  norm_num at h1'
  have h2 := mul_error (x' := Real.sign a * Z) (x := Real.sign a * Z) (δ := 0) (by simp) h1 hs
    (c := 2) (by rw [abs_le]; constructor <;> linarith)
  have h3 : |Real.sign a * Z * twoOverSqrtPiFl| ≤ 4 := by
    rw [abs_mul]
    have : |twoOverSqrtPiFl| ≤ 2 := by rw [abs_le]; constructor <;> linarith
    nlinarith [abs_nonneg (Real.sign a * Z), abs_nonneg twoOverSqrtPiFl]
  have hS : |fl64 (Real.sign a * Z * twoOverSqrtPiFl) - Real.sign a * Z * twoOverSqrtPi| ≤ 1 / 2 ^ 46 := by
    have h4 := abs_le.mp (fl64_near h3)
    have h2' := abs_le.mp h2
    norm_num at h2' h4
    rw [abs_le]
    norm_num
    constructor <;> linarith
  have hS0 : |Real.sign a * Z * twoOverSqrtPi| ≤ 3 := by
    rw [abs_mul, abs_of_pos (show 0 < twoOverSqrtPi by linarith)]
    nlinarith [abs_nonneg (Real.sign a * Z)]
  have fq : |fl64 q| ≤ 1 := by
    rw [fl64_abs]
    exact fl64_le_of_le hq fl64_one
  have q1 := (arctan_lipschitz (fl64 q) q).trans (fl64_near (by linarith))
  have q2 := hatan (fl64 q) fq
  have q3 : |Real.arctan (fl64 q)| ≤ Real.pi / 4 := by
    have := abs_arctan_le (a := fl64 q) (b := 1) (by simpa using fq)
    rwa [div_one] at this
  have q4 := quarter_pi_le
  have q5 : |atan (fl64 q) - Real.arctan q| ≤ 1 / 2 ^ 49 := by
    have q2' : |atan (fl64 q) - Real.arctan (fl64 q)| ≤ 1 / 2 ^ 50 := by
      refine q2.trans ?_
      exact mul_le_of_le_one_right (by positivity) (by linarith)
    rw [abs_le] at q1 q2' ⊢
    norm_num at q1 q2' ⊢
    constructor <;> linarith
  have q6 : |atan (fl64 q)| ≤ 5 / 4 := by
    refine (hatan.le fq).trans ?_
    have : 1 + 8 * ulp ≤ 5 / 4 := by unfold ulp; norm_num
    have := Real.pi_pos
    nlinarith [ulp_pos]
  have h5 := mul_error hS q5 hS0 q6
  have h6 : |fl64 (Real.sign a * Z * twoOverSqrtPiFl) * atan (fl64 q)| ≤ 4 := by
    rw [abs_mul]
    have : |fl64 (Real.sign a * Z * twoOverSqrtPiFl)| ≤ 3 + 1 / 5 := by
      rw [abs_le] at hS hS0 ⊢
      norm_num at hS
      constructor <;> linarith
    nlinarith [abs_nonneg (fl64 (Real.sign a * Z * twoOverSqrtPiFl)), abs_nonneg (atan (fl64 q))]
  have h7 := abs_le.mp (fl64_near h6)
  have h5' := abs_le.mp h5
  norm_num at h5' h7
  rw [abs_le]
  norm_num
  constructor <;> linarith
end

/-! ### Normalization -/

theorem component_le {u : V3 ℝ} (h : u.IsUnit) : |u.x| ≤ 1 ∧ |u.y| ≤ 1 ∧ |u.z| ≤ 1 := by
  unfold V3.IsUnit at h
  refine ⟨?_, ?_, ?_⟩ <;> rw [abs_le] <;> constructor <;> nlinarith [sq_nonneg u.x, sq_nonneg u.y, sq_nonneg u.z]

theorem sumSquaresFl_near (fused : Bool) {v : V3 ℝ} (hs : v.x ^ 2 + v.y ^ 2 + v.z ^ 2 ≤ 9 / 8) :
    |sumSquaresFl fused v - (v.x ^ 2 + v.y ^ 2 + v.z ^ 2)| ≤ 1 / 2 ^ 47 := by
  have hx2 := sq_nonneg v.x
  have hy2 := sq_nonneg v.y
  have hz2 := sq_nonneg v.z
  have ex := abs_le.mp (fl64_near (x := v.x * v.x) (by rw [abs_of_nonneg (mul_self_nonneg _)]; nlinarith))
  have ey := abs_le.mp (fl64_near (x := v.y * v.y) (by rw [abs_of_nonneg (mul_self_nonneg _)]; nlinarith))
  have ez := abs_le.mp (fl64_near (x := v.z * v.z) (by rw [abs_of_nonneg (mul_self_nonneg _)]; nlinarith))
  rw [← sq] at ex ey ez
  unfold sumSquaresFl
  norm_num at ex ey ez
  simp only [← sq]
  split_ifs
  · have e1 := abs_le.mp (fl64_near (x := v.y ^ 2 + fl64 (v.x ^ 2)) (by
      rw [abs_le]; constructor <;> linarith))
    norm_num at e1
    have e2 := abs_le.mp (fl64_near (x := v.z ^ 2 + fl64 (v.y ^ 2 + fl64 (v.x ^ 2))) (by
      rw [abs_le]; constructor <;> linarith))
    norm_num at e2
    rw [abs_le]
    norm_num
    constructor <;> linarith
  · have e1 := abs_le.mp (fl64_near (x := fl64 (v.x ^ 2) + fl64 (v.y ^ 2)) (by
      rw [abs_le]; constructor <;> linarith))
    norm_num at e1
    have e2 := abs_le.mp (fl64_near (x := fl64 (fl64 (v.x ^ 2) + fl64 (v.y ^ 2)) + fl64 (v.z ^ 2)) (by
      rw [abs_le]; constructor <;> linarith))
    norm_num at e2
    rw [abs_le]
    norm_num
    constructor <;> linarith

theorem lengthSq_error {u v : V3 ℝ} {η : ℝ} (h : u.IsUnit) (hv : Spec.ComponentsWithin η v u) (hη : η ≤ 1 / 2 ^ 6) :
    |v.x ^ 2 + v.y ^ 2 + v.z ^ 2 - 1| ≤ 4 * η := by
  obtain ⟨hx, hy, hz⟩ := hv
  have hη0 : 0 ≤ η := (abs_nonneg _).trans hx
  have hsum : |u.x| + |u.y| + |u.z| ≤ 7 / 4 := by
    have h' : |u.x| ^ 2 + |u.y| ^ 2 + |u.z| ^ 2 = 1 := by simpa [V3.IsUnit, sq_abs] using h
    nlinarith [sq_nonneg (|u.x| - |u.y|), sq_nonneg (|u.y| - |u.z|), sq_nonneg (|u.x| - |u.z|),
      abs_nonneg u.x, abs_nonneg u.y, abs_nonneg u.z]
  have key : ∀ a b : ℝ, |b - a| ≤ η → |b ^ 2 - a ^ 2| ≤ η * (2 * |a| + η) := by
    intro a b hab
    have e : b ^ 2 - a ^ 2 = (b - a) * (2 * a + (b - a)) := by ring
    rw [e, abs_mul]
    refine mul_le_mul hab ?_ (abs_nonneg _) hη0
    refine (abs_add_le _ _).trans (add_le_add ?_ hab)
    rw [abs_mul, abs_two]
  have kx := abs_le.mp (key _ _ hx)
  have ky := abs_le.mp (key _ _ hy)
  have kz := abs_le.mp (key _ _ hz)
  unfold V3.IsUnit at h
  norm_num at hη
  have hb : η * (2 * |u.x| + η) + η * (2 * |u.y| + η) + η * (2 * |u.z| + η) ≤ 4 * η := by
    have : η * (2 * |u.x| + η) + η * (2 * |u.y| + η) + η * (2 * |u.z| + η) =
        η * (2 * (|u.x| + |u.y| + |u.z|) + 3 * η) := by ring
    rw [this, mul_comm 4]
    exact mul_le_mul_of_nonneg_left (by linarith) hη0
  rw [abs_le]
  constructor <;> linarith

theorem normFl_near (fused : Bool) {u v : V3 ℝ} {η : ℝ} (h : u.IsUnit) (hv : Spec.ComponentsWithin η v u)
    (hη : η ≤ 1 / 2 ^ 6) : |normFl fused v - 1| ≤ 4 * η + 1 / 2 ^ 46 := by
  have hl := abs_le.mp (lengthSq_error h hv hη)
  norm_num at hη
  have hs := abs_le.mp (sumSquaresFl_near fused (v := v) (by linarith))
  norm_num at hs
  have h1 := abs_sqrt_sub_le_sub (a := sumSquaresFl fused v) (b := 1) (by linarith) (by norm_num)
  rw [Real.sqrt_one] at h1
  have h2 : |sumSquaresFl fused v - 1| ≤ 4 * η + 1 / 2 ^ 47 := by
    rw [abs_le]
    norm_num
    constructor <;> linarith
  have h3 := abs_le.mp (h1.trans h2)
  norm_num at h3
  have h4 := abs_le.mp (fl64_near (x := Real.sqrt (sumSquaresFl fused v)) (by
    rw [abs_of_nonneg (Real.sqrt_nonneg _)]; linarith))
  norm_num at h4
  unfold normFl
  rw [abs_le]
  norm_num
  constructor <;> linarith

theorem overNormFl_near (recip : Bool) {n x a η ν : ℝ} (hn : 1 / 2 ≤ n) (hn4 : n ≤ 4) (hx : |x| ≤ n)
    (hν : |n - 1| ≤ ν) (ha : |x - a| ≤ η) : |overNormFl recip n x - a| ≤ η + ν + 1 / 2 ^ 47 := by
  have n0 : 0 < n := by linarith
  have q1 : |x / n| ≤ 1 := by
    rw [abs_div, abs_of_pos n0]
    exact (div_le_one n0).mpr hx
  have h1 : |x / n - x| ≤ ν := by
    have e : x / n - x = x / n * (1 - n) := by field_simp
    rw [e, abs_mul, abs_sub_comm 1 n]
    exact (mul_le_of_le_one_left (abs_nonneg _) q1).trans hν
  have h2 : |overNormFl recip n x - x / n| ≤ 1 / 2 ^ 47 := by
    unfold overNormFl
    split_ifs
    · have i0 : 0 < 1 / n := by positivity
      have i1 : 1 / n ≤ 2 := by rw [div_le_iff₀ n0]; linarith
      have h3 := fl64_near (x := 1 / n) (by rw [abs_of_pos i0]; linarith)
      have h4 : |x * fl64 (1 / n) - x / n| ≤ 4 * (1 / 2 ^ 50) := by
        have e : x * fl64 (1 / n) - x / n = x * (fl64 (1 / n) - 1 / n) := by ring
        rw [e, abs_mul]
        exact mul_le_mul (hx.trans hn4) h3 (abs_nonneg _) (by norm_num)
      rw [abs_le] at q1 h4
      norm_num at h4
      have h5 := abs_le.mp (fl64_near (x := x * fl64 (1 / n)) (by
        rw [abs_le]
        norm_num
        constructor <;> linarith))
      norm_num at h5
      rw [abs_le]
      norm_num
      constructor <;> linarith
    · refine (fl64_near (by linarith)).trans (by norm_num)
  rw [abs_le] at h1 h2 ha ⊢
  constructor <;> linarith

/-- The normalized direction. -/
theorem normalizeFl_near (fused recip : Bool) {u v : V3 ℝ} {η : ℝ} (hf : Spec.FloatDirection v)
    (h : u.IsUnit) (hv : Spec.ComponentsWithin η v u) (hη : η ≤ 1 / 2 ^ 6) :
    ∃ w, normalizeFl fused recip v = some w ∧ (|w.x| ≤ 1 ∧ |w.y| ≤ 1 ∧ |w.z| ≤ 1) ∧
      (w.x = 0 → w.y = 0 → |w.z| = 1) ∧ Spec.ComponentsWithin (5 * η + 1 / 2 ^ 45) w u := by
  obtain ⟨w, ew, wx, wy, wz, hw⟩ := normalizeFl_spec fused recip hf
  refine ⟨w, ew, ⟨wx, wy, wz⟩, hw, ?_⟩
  obtain ⟨n1, n2, nx, ny, nz⟩ := normFl_spec fused hf
  have hn := normFl_near fused h hv hη
  unfold normalizeFl at ew
  simp only at ew
  rw [show fl64 (Real.sqrt (sumSquaresFl fused v)) = normFl fused v from rfl, if_neg (by linarith)] at ew
  obtain rfl := Option.some.inj ew
  have k : ∀ {x a : ℝ}, |x| ≤ normFl fused v → |x - a| ≤ η →
      |overNormFl recip (normFl fused v) x - a| ≤ 5 * η + 1 / 2 ^ 45 := by
    intro x a hx ha
    refine (overNormFl_near recip n1 n2 hx hn ha).trans ?_
    norm_num
    linarith
  exact ⟨k nx hv.1, k ny hv.2.1, k nz hv.2.2⟩

/-! ### The radius -/

theorem radius_near {w u ε : ℝ} (hw : |w| ≤ 1) (hu : |u| ≤ 1) (h : |w - u| ≤ ε) :
    |fl64 (Real.sqrt (fl64 (2 * fl64 (1 - |w|)))) - Real.sqrt (2 * (1 - |u|))| ≤
      Real.sqrt (2 * ε + 1 / 2 ^ 48) + 1 / 2 ^ 50 := by
  have hε : 0 ≤ ε := (abs_nonneg _).trans h
  have w0 := abs_nonneg w
  have hd := abs_le.mp ((abs_abs_sub_abs_le w u).trans h)
  have h1 := abs_le.mp (fl64_near (x := 1 - |w|) (by rw [abs_le]; constructor <;> linarith))
  norm_num at h1
  have a0 : 0 ≤ fl64 (1 - |w|) := fl64_nonneg (by linarith)
  have a1 : fl64 (1 - |w|) ≤ 1 := fl64_le_of_le (by linarith) fl64_one
  have h2 := abs_le.mp (fl64_near (x := 2 * fl64 (1 - |w|)) (by rw [abs_le]; constructor <;> linarith))
  norm_num at h2
  have b0 : 0 ≤ fl64 (2 * fl64 (1 - |w|)) := fl64_nonneg (by linarith)
  have b1 : fl64 (2 * fl64 (1 - |w|)) ≤ 2 :=
    fl64_le_of_le (by linarith) (by simpa using fl64_nat (k := 2) (by norm_num))
  have h3 : |fl64 (2 * fl64 (1 - |w|)) - 2 * (1 - |u|)| ≤ 2 * ε + 1 / 2 ^ 48 := by
    rw [abs_le]
    norm_num
    constructor <;> linarith
  have h4 := (abs_sqrt_sub_le b0 (show 0 ≤ 2 * (1 - |u|) by linarith)).trans (Real.sqrt_le_sqrt h3)
  have h5 := fl64_near (x := Real.sqrt (fl64 (2 * fl64 (1 - |w|)))) (by
    rw [abs_of_nonneg (Real.sqrt_nonneg _), Real.sqrt_le_left (by norm_num)]
    linarith)
  rw [abs_le] at h4 h5 ⊢
  constructor <;> linarith

theorem radius_le {u : V3 ℝ} (h : u.IsUnit) : Real.sqrt (2 * (1 - |u.z|)) ≤ 2 * max |u.x| |u.y| := by
  have hx := abs_nonneg u.x
  have mx := le_max_left |u.x| |u.y|
  have my := le_max_right |u.x| |u.y|
  rw [Real.sqrt_le_left (by linarith)]
  have hz := (component_le h).2.2
  have hz0 := abs_nonneg u.z
  have h' : |u.x| ^ 2 + |u.y| ^ 2 + |u.z| ^ 2 = 1 := by simpa [V3.IsUnit, sq_abs] using h
  have sx : |u.x| ^ 2 ≤ max |u.x| |u.y| ^ 2 := pow_le_pow_left₀ (abs_nonneg _) mx 2
  have sy : |u.y| ^ 2 ≤ max |u.x| |u.y| ^ 2 := pow_le_pow_left₀ (abs_nonneg _) my 2
  nlinarith

/-! ### The projection -/

theorem coordinate_error {a b a' b' Z Z' ε ζ X : ℝ} (ea : |a' - a| ≤ ε) (eb : |b' - b| ≤ ε)
    (hZ0 : 0 ≤ Z) (hZ : Z ≤ 2 * max |a| |b|) (hζ : |Z' - Z| ≤ ζ)
    (hX : |X - lambertCoordinate Z' a' b'| ≤ 1 / 2 ^ 44) :
    |X - lambertCoordinate Z a b| ≤ ζ + 40 * ε + 1 / 2 ^ 44 := by
  obtain ⟨k1, k2⟩ := twoOverSqrtPi_bounds
  have hS := lambertAngle_sign_error ea eb hZ0 hZ
  have hB := lambertAngle_bounds (B := |b'|) (abs_nonneg a')
  set S' := Real.sign a' * lambertAngle |a'| |b'| with hS'
  set S := Real.sign a * lambertAngle |a| |b| with hS0
  have hc : |twoOverSqrtPi * S'| ≤ 1 := by
    rw [hS', abs_mul, abs_mul, abs_of_nonneg hB.1, abs_of_pos (show 0 < twoOverSqrtPi by linarith)]
    have h1 : twoOverSqrtPi * (|Real.sign a'| * lambertAngle |a'| |b'|) ≤ twoOverSqrtPi * (Real.pi / 4) :=
      mul_le_mul_of_nonneg_left ((mul_le_of_le_one_left hB.1 (sign_bound _)).trans hB.2) (by linarith)
    refine h1.trans ?_
    rw [← sqrtPiOver2_eq]
    have := sqrtPi_bounds.2
    unfold sqrtPiOver2
    linarith
  have e : lambertCoordinate Z' a' b' - lambertCoordinate Z a b =
      (Z' - Z) * (twoOverSqrtPi * S') + twoOverSqrtPi * (Z * (S' - S)) := by
    unfold lambertCoordinate
    rw [← hS', ← hS0]
    ring
  have h1 : |(Z' - Z) * (twoOverSqrtPi * S')| ≤ ζ := by
    rw [abs_mul]
    exact (mul_le_of_le_one_right (abs_nonneg _) hc).trans hζ
  have h2 : |twoOverSqrtPi * (Z * (S' - S))| ≤ 40 * ε := by
    rw [abs_mul, abs_mul, abs_of_nonneg hZ0, abs_of_pos (show 0 < twoOverSqrtPi by linarith)]
    have := mul_nonneg hZ0 (abs_nonneg (S' - S))
    nlinarith
  have h3 : |lambertCoordinate Z' a' b' - lambertCoordinate Z a b| ≤ ζ + 40 * ε := by
    rw [e]
    exact (abs_add_le _ _).trans (add_le_add h1 h2)
  rw [abs_le] at hX h3 ⊢
  constructor <;> linarith

/-- The computed projection. -/
theorem vector2lambertFl_near {atan : ℝ → ℝ} (hatan : Spec.AccurateArctan atan) (fused recip : Bool)
    {u v : V3 ℝ} {η : ℝ} (hf : Spec.FloatDirection v) (h : u.IsUnit) (hv : Spec.ComponentsWithin η v u)
    (hη : η ≤ 1 / 2 ^ 21) :
    ∃ xy, vector2lambertFl atan fused recip v = some xy ∧
      |xy.1 - (vector2lambert u).1| ≤ 4 * Real.sqrt (η + 1 / 2 ^ 46) ∧
      |xy.2 - (vector2lambert u).2| ≤ 4 * Real.sqrt (η + 1 / 2 ^ 46) := by
  have hη0 : 0 ≤ η := (abs_nonneg _).trans hv.1
  have hη6 : η ≤ 1 / 2 ^ 6 := hη.trans (by norm_num)
  obtain ⟨w, ew, ⟨wx, wy, wz⟩, hw, ex, ey, ez⟩ := normalizeFl_near fused recip hf h hv hη6
  have uz := (component_le h).2.2
  have hr := radius_near wz uz ez
  rw [vector2lambert_coordinates h]
  have a0 : 0 ≤ fl64 (1 - |w.z|) := fl64_nonneg (by linarith)
  have a1 : fl64 (1 - |w.z|) ≤ 1 := fl64_le_of_le (by linarith [abs_nonneg w.z]) fl64_one
  have b0 : 0 ≤ fl64 (2 * fl64 (1 - |w.z|)) := fl64_nonneg (by linarith)
  have b1 : fl64 (2 * fl64 (1 - |w.z|)) ≤ 2 :=
    fl64_le_of_le (by linarith) (by simpa using fl64_nat (k := 2) (by norm_num))
  have es : sqrtFl (fl64 (2 * fl64 (1 - |w.z|))) =
      some (fl64 (Real.sqrt (fl64 (2 * fl64 (1 - |w.z|))))) := by
    unfold sqrtFl; rw [if_neg (not_lt.mpr b0)]
  have one0 : |w.z| = 1 → fl64 (Real.sqrt (fl64 (2 * fl64 (1 - |w.z|)))) = 0 := by
    intro hc
    rw [hc, sub_self, fl64_zero, mul_zero, fl64_zero, Real.sqrt_zero, fl64_zero]
  set Z' := fl64 (Real.sqrt (fl64 (2 * fl64 (1 - |w.z|)))) with hZ'
  have fZ : fl64 Z' = Z' := fl64_idem _
  have Z0 : 0 ≤ Z' := fl64_nonneg (Real.sqrt_nonneg _)
  have Z2 : Z' ≤ 2 := fl64_le_of_le (by
    rw [Real.sqrt_le_left (by norm_num)]; linarith) (by simpa using fl64_nat (k := 2) (by norm_num))
  -- evaluation
  have ev : ∃ xy, vector2lambertFl atan fused recip v = some xy ∧
      |xy.1 - lambertCoordinate Z' w.x w.y| ≤ 1 / 2 ^ 44 ∧
      |xy.2 - lambertCoordinate Z' w.y w.x| ≤ 1 / 2 ^ 44 := by
    unfold vector2lambertFl
    rw [ew]
    simp only [Option.bind_eq_bind, Option.bind_some]
    rw [es]
    simp only [Option.bind_some]
    by_cases hc : |w.z| = 1
    · rw [if_pos hc]
      refine ⟨_, rfl, ?_, ?_⟩ <;> rw [one0 hc] <;> simp [lambertCoordinate]
    · rw [if_neg hc]
      by_cases hyx : |w.y| ≤ |w.x|
      · have hx0 : w.x ≠ 0 := by
          intro hx
          rw [hx, abs_zero] at hyx
          exact hc (hw hx (abs_eq_zero.mp (le_antisymm hyx (abs_nonneg _))))
        rw [if_pos hyx, if_neg hx0]
        refine ⟨_, rfl, ?_, ?_⟩
        · rw [lambertCoordinate_first hyx]
          exact first_error fZ Z0 Z2
        · rw [lambertCoordinate_second hx0 hyx]
          refine second_error hatan fZ Z0 Z2 ?_
          rw [abs_div]
          exact div_le_one_of_le₀ hyx (abs_nonneg _)
      · rw [if_neg hyx]
        push Not at hyx
        have hy0 : w.y ≠ 0 := by
          intro hy
          rw [hy, abs_zero] at hyx
          exact absurd hyx (not_lt.mpr (abs_nonneg _))
        refine ⟨_, rfl, ?_, ?_⟩
        · rw [lambertCoordinate_second hy0 hyx.le]
          refine second_error hatan fZ Z0 Z2 ?_
          rw [abs_div]
          exact div_le_one_of_le₀ hyx.le (abs_nonneg _)
        · rw [lambertCoordinate_first hyx.le]
          exact first_error fZ Z0 Z2
  obtain ⟨xy, exy, h1, h2⟩ := ev
  refine ⟨xy, exy, ?_⟩
  have hZ := radius_le h
  -- the bound
  have hfin : Real.sqrt (2 * (5 * η + 1 / 2 ^ 45) + 1 / 2 ^ 48) + 1 / 2 ^ 50 + 40 * (5 * η + 1 / 2 ^ 45) +
      1 / 2 ^ 44 ≤ 4 * Real.sqrt (η + 1 / 2 ^ 46) := by
    set δ := η + 1 / 2 ^ 46 with hδ
    set r := Real.sqrt δ with hrr
    have hδ0 : 0 ≤ δ := by positivity
    have r0 : 0 ≤ r := Real.sqrt_nonneg _
    have r2 : r * r = δ := Real.mul_self_sqrt hδ0
    have rle : r ≤ 1 / 2 ^ 10 := by
      rw [hrr, Real.sqrt_le_left (by norm_num), hδ]
      norm_num at hη ⊢
      linarith
    have s1 : Real.sqrt (2 * (5 * η + 1 / 2 ^ 45) + 1 / 2 ^ 48) ≤ 7 / 2 * r := by
      rw [Real.sqrt_le_left (by linarith)]
      have : (7 / 2 * r) ^ 2 = 49 / 4 * δ := by rw [← r2]; ring
      rw [this, hδ]
      norm_num
      linarith
    have s2 : 1 / 2 ^ 50 + 40 * (5 * η + 1 / 2 ^ 45) + 1 / 2 ^ 44 ≤ 220 * δ := by
      rw [hδ]
      norm_num
      linarith
    have s3 : 220 * δ ≤ 1 / 2 * r := by
      rw [← r2]
      norm_num at rle
      nlinarith
    linarith
  exact ⟨(coordinate_error ex ey (Real.sqrt_nonneg _) hZ hr h1).trans hfin,
    (coordinate_error ey ex (Real.sqrt_nonneg _) (by rwa [max_comm]) hr h2).trans hfin⟩

/-! ### The position in the array -/

theorem lambertCoordinate_eq (a b z : ℝ) :
    lambertCoordinate (Real.sqrt (2 * (1 - |z|))) a b = sqrtPiHalf * Spec.squareCoordinate a b z := by
  have e : twoOverSqrtPi * Real.sqrt 2 * (Real.pi / 4) = sqrtPiHalf := by
    rw [← sqrt_two_mul_second]; ring
  unfold lambertCoordinate Spec.squareCoordinate lambertAngle
  rw [Real.sqrt_mul (by norm_num), ← e]
  have := Real.pi_pos
  split_ifs
  · ring
  · field_simp

theorem pixel_error {s Y' Y r : ℝ} (hs : 0 ≤ s) (hY : |Y| ≤ sqrtPiHalf)
    (h : |Y' - Y| ≤ 4 * r) (hr : 1 / 2 ^ 23 ≤ r) (hr1 : r ≤ 1 / 2 ^ 10) :
    |fl64 (fl64 (s * Y') / sqrtPiHalfFl) - s * (Y / sqrtPiHalf)| ≤ s * (5 * r) + 1 / 2 ^ 90 := by
  obtain ⟨p1, p2⟩ := sqrtPiHalf_bounds
  have hc := sqrtPiHalfFl_near
  have p3 : 6 / 5 ≤ sqrtPiHalf := by
    have := pi_bounds
    exact Real.le_sqrt_of_sq_le (by norm_num; linarith)
  have hc' := abs_le.mp hc
  norm_num at hc' hr1 hr
  have c1 : 1 ≤ sqrtPiHalfFl := by linarith
  have hY' : |Y'| ≤ 3 := by
    rw [abs_le] at h hY ⊢
    constructor <;> linarith
  have ht := tiny_le
  have ht0 := tiny_pos
  have hu : ulp = 1 / 2 ^ 53 := rfl
  have e1 := fl64_error_tiny (s * Y')
  have b1 : |s * Y'| ≤ s * 3 := by
    rw [abs_mul, abs_of_nonneg hs]
    exact mul_le_mul_of_nonneg_left hY' hs
  rw [hu] at e1
  have e1' : |fl64 (s * Y') - s * Y'| ≤ 1 / 2 ^ 53 * (s * 3 + 1 / 2 ^ 100) :=
    e1.trans (mul_le_mul_of_nonneg_left (by linarith) (by positivity))
  have e2 : |s * Y' - s * Y| ≤ s * (4 * r) := by
    rw [← mul_sub, abs_mul, abs_of_nonneg hs]
    exact mul_le_mul_of_nonneg_left h hs
  have e3 : |fl64 (s * Y') - s * Y| ≤ s * (4 * r) + 1 / 2 ^ 53 * (s * 3 + 1 / 2 ^ 100) := by
    rw [abs_le] at e1' e2 ⊢
    constructor <;> linarith
  have b3 : |fl64 (s * Y')| ≤ s * 4 + 1 / 2 ^ 100 := by
    rw [abs_le] at e1' b1 ⊢
    norm_num at e1' ⊢
    constructor <;> linarith
  have e4 : |fl64 (s * Y') / sqrtPiHalfFl - s * (Y / sqrtPiHalf)| ≤
      s * (4 * r) + 1 / 2 ^ 53 * (s * 3 + 1 / 2 ^ 100) + s * (1 / 2 ^ 48) := by
    have e : fl64 (s * Y') / sqrtPiHalfFl - s * (Y / sqrtPiHalf) =
        (fl64 (s * Y') - s * Y) / sqrtPiHalfFl +
          s * (Y / sqrtPiHalf) * ((sqrtPiHalf - sqrtPiHalfFl) / sqrtPiHalfFl) := by
      field_simp
      ring
    rw [e]
    refine (abs_add_le _ _).trans (add_le_add ?_ ?_)
    · rw [abs_div, abs_of_pos (show 0 < sqrtPiHalfFl by linarith)]
      exact (div_le_self (abs_nonneg _) c1).trans e3
    · rw [abs_mul]
      refine mul_le_mul ?_ ?_ (abs_nonneg _) hs
      · rw [abs_mul, abs_of_nonneg hs, abs_div, abs_of_pos (show 0 < sqrtPiHalf by linarith)]
        exact mul_le_of_le_one_right hs (div_le_one_of_le₀ hY (by linarith))
      · rw [abs_div, abs_of_pos (show 0 < sqrtPiHalfFl by linarith), abs_sub_comm]
        exact (div_le_self (abs_nonneg _) c1).trans hc
  have b4 : |fl64 (s * Y') / sqrtPiHalfFl| ≤ s * 4 + 1 / 2 ^ 100 := by
    rw [abs_div, abs_of_pos (show 0 < sqrtPiHalfFl by linarith)]
    exact (div_le_self (abs_nonneg _) c1).trans b3
  have e5 := fl64_error_tiny (fl64 (s * Y') / sqrtPiHalfFl)
  rw [hu] at e5
  have e5' := e5.trans (mul_le_mul_of_nonneg_left (add_le_add b4 ht) (by positivity))
  have hsr : s * (1 / 2 ^ 23) ≤ s * r := mul_le_mul_of_nonneg_left (by norm_num; exact hr) hs
  rw [abs_le] at e4 e5' ⊢
  norm_num at e4 e5' hsr ⊢
  constructor <;> linarith

/-! ### Rotations -/

theorem product_near {x' x y' y κ : ℝ} (hx : |x' - x| ≤ κ) (hy : |y' - y| ≤ κ) (bx : |x| ≤ 1)
    (yb : |y| ≤ 1) (hκ : κ ≤ 1 / 4) : |x' * y' - x * y| ≤ 9 / 4 * κ := by
  have hκ0 : 0 ≤ κ := (abs_nonneg _).trans hx
  have hc : |y'| ≤ 5 / 4 := by
    rw [abs_le] at hy yb ⊢
    constructor <;> linarith
  have := mul_error hx hy bx hc
  linarith

theorem square_near {x' x κ : ℝ} (hx : |x' - x| ≤ κ) (bx : |x| ≤ 1) (hκ : κ ≤ 1 / 4) :
    |x' ^ 2 - x ^ 2| ≤ 9 / 4 * κ := by
  rw [sq, sq]
  exact product_near hx hx bx bx hκ

theorem row_near {m1 m2 m3 m1' m2' m3' x y z x' y' z' κ η : ℝ} (h1 : |m1' - m1| ≤ 9 * κ)
    (h2 : |m2' - m2| ≤ 9 * κ) (h3 : |m3' - m3| ≤ 9 * κ) (b1 : |m1| ≤ 1) (b2 : |m2| ≤ 1) (b3 : |m3| ≤ 1)
    (hx : |x' - x| ≤ η) (hy : |y' - y| ≤ η) (hz : |z' - z| ≤ η) (cx : |x'| ≤ 9 / 8) (cy : |y'| ≤ 9 / 8)
    (cz : |z'| ≤ 9 / 8) :
    |m1' * x' + (m2' * y' + m3' * z') - (m1 * x + (m2 * y + m3 * z))| ≤ 31 * κ + 3 * η := by
  have e1 := abs_le.mp (mul_error h1 hx b1 cx)
  have e2 := abs_le.mp (mul_error h2 hy b2 cy)
  have e3 := abs_le.mp (mul_error h3 hz b3 cz)
  have hκ0 : 0 ≤ 9 * κ := (abs_nonneg _).trans h1
  rw [abs_le]
  constructor <;> linarith

theorem two_products {s t u w : ℝ} (h : s ^ 2 + t ^ 2 + u ^ 2 + w ^ 2 = 1) :
    |2 * (s * u + t * w)| ≤ 1 ∧ |2 * (t * u - s * w)| ≤ 1 := by
  constructor <;> rw [abs_le] <;> constructor <;>
    nlinarith [sq_nonneg (s - u), sq_nonneg (s + u), sq_nonneg (t - w), sq_nonneg (t + w),
      sq_nonneg (s - w), sq_nonneg (s + w), sq_nonneg (t - u), sq_nonneg (t + u)]

theorem abs_le_one_of_sq {s : ℝ} (h : s ^ 2 ≤ 1) : |s| ≤ 1 := by
  rw [abs_le]
  constructor <;> nlinarith

/-- One component of a rotated vector. -/
theorem rotation_row {s t u w s' t' u' w' x y z x' y' z' κ η : ℝ}
    (h : s ^ 2 + t ^ 2 + u ^ 2 + w ^ 2 = 1) (hs : |s' - s| ≤ κ) (ht : |t' - t| ≤ κ) (hu : |u' - u| ≤ κ)
    (hw : |w' - w| ≤ κ) (hκ : κ ≤ 1 / 4)
    (hx : |x' - x| ≤ η) (hy : |y' - y| ≤ η) (hz : |z' - z| ≤ η) (cx : |x'| ≤ 9 / 8) (cy : |y'| ≤ 9 / 8)
    (cz : |z'| ≤ 9 / 8) :
    |(s' ^ 2 + t' ^ 2 - u' ^ 2 - w' ^ 2) * x' + (2 * (s' * u' + t' * w') * z' + 2 * (t' * u' - s' * w') * y') -
      ((s ^ 2 + t ^ 2 - u ^ 2 - w ^ 2) * x + (2 * (s * u + t * w) * z + 2 * (t * u - s * w) * y))| ≤
        31 * κ + 3 * η := by
  have q1 := sq_nonneg s
  have q2 := sq_nonneg t
  have q3 := sq_nonneg u
  have q4 := sq_nonneg w
  have bs := abs_le_one_of_sq (show s ^ 2 ≤ 1 by linarith)
  have bt := abs_le_one_of_sq (show t ^ 2 ≤ 1 by linarith)
  have bu := abs_le_one_of_sq (show u ^ 2 ≤ 1 by linarith)
  have bw := abs_le_one_of_sq (show w ^ 2 ≤ 1 by linarith)
  refine row_near ?_ ?_ ?_ ?_ (two_products h).1 (two_products h).2 hx hz hy cx cz cy
  · have p1 := abs_le.mp (square_near hs bs hκ)
    have p2 := abs_le.mp (square_near ht bt hκ)
    have p3 := abs_le.mp (square_near hu bu hκ)
    have p4 := abs_le.mp (square_near hw bw hκ)
    rw [abs_le]
    constructor <;> linarith
  · have p1 := abs_le.mp (product_near hs hu bs bu hκ)
    have p2 := abs_le.mp (product_near ht hw bt bw hκ)
    rw [abs_le]
    constructor <;> linarith
  · have p1 := abs_le.mp (product_near ht hu bt bu hκ)
    have p2 := abs_le.mp (product_near hs hw bs bw hκ)
    rw [abs_le]
    constructor <;> linarith
  · rw [abs_le]
    constructor <;> linarith

/-- A rotation by nearly the same quaternion of nearly the same vector. -/
theorem rotateVector_near {q q0 : Quat} {v e : V3 ℝ} {κ η : ℝ} (hq : Spec.QuatWithin κ q q0)
    (hq0 : q0.a ^ 2 + q0.b ^ 2 + q0.c ^ 2 + q0.d ^ 2 = 1) (hκ : κ ≤ 1 / 4)
    (hv : Spec.ComponentsWithin η v e) (he : e.IsUnit) (hη : η ≤ 1 / 8) :
    Spec.ComponentsWithin (31 * κ + 3 * η) (rotateVector q v) (rotateVector q0 e) := by
  obtain ⟨ha, hb, hc, hd⟩ := hq
  obtain ⟨hx, hy, hz⟩ := hv
  obtain ⟨cx, cy, cz⟩ := component_le he
  have comp : ∀ a b : ℝ, |a| ≤ 1 → |b - a| ≤ η → |b| ≤ 9 / 8 := by
    intro a b ha hb
    rw [abs_le] at ha hb ⊢
    constructor <;> linarith
  have vx := comp _ _ cx hx
  have vy := comp _ _ cy hy
  have vz := comp _ _ cz hz
  refine ⟨?_, ?_, ?_⟩
  · refine le_of_eq_of_le ?_ (rotation_row hq0 ha hb hc hd hκ hx hy hz vx vy vz)
    unfold rotateVector
    simp only
    congr 1
    ring
  · refine le_of_eq_of_le ?_ (rotation_row (by linarith) ha hc hd hb hκ hy hz hx vy vz vx)
    unfold rotateVector
    simp only
    congr 1
    ring
  · refine le_of_eq_of_le ?_ (rotation_row (by linarith) ha hd hb hc hκ hz hx hy vz vx vy)
    unfold rotateVector
    simp only
    congr 1
    ring

theorem rotateVector_isUnit {q : Quat} {e : V3 ℝ} (hq : q.a ^ 2 + q.b ^ 2 + q.c ^ 2 + q.d ^ 2 = 1)
    (he : e.IsUnit) : (rotateVector q e).IsUnit := by
  have h : (rotateVector q e).x ^ 2 + (rotateVector q e).y ^ 2 + (rotateVector q e).z ^ 2 =
      (q.a ^ 2 + q.b ^ 2 + q.c ^ 2 + q.d ^ 2) ^ 2 * (e.x ^ 2 + e.y ^ 2 + e.z ^ 2) := by
    unfold rotateVector
    simp only
    ring
  unfold V3.IsUnit at he ⊢
  rw [h, hq, he]
  norm_num

end
end Kp
