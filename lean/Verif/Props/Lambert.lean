import Verif.Model.Lambert
import Mathlib.Tactic.FieldSimp
import Mathlib.Tactic.Linarith
import Mathlib.Tactic.NormNum
import Mathlib.Tactic.LinearCombination

/-
C28: the square Lambert projection is a bijection between the upper hemisphere and the square.
-/

namespace Kp

/-- Unit vectors. -/
def V3.IsUnit (v : V3 ℝ) : Prop := v.x ^ 2 + v.y ^ 2 + v.z ^ 2 = 1

theorem normalizeV_isUnit {v : V3 ℝ} (h : v.IsUnit) : normalizeV v = v := by
  unfold V3.IsUnit at h
  unfold normalizeV
  have : v.x * v.x + v.y * v.y + v.z * v.z = 1 := by rw [← h]; ring
  simp [this]

/-- The branch of the inverse for `|yi| ≤ |xi|`. -/
noncomputable def invX (xi yi : ℝ) : V3 ℝ :=
  let q := 2 * xi * Real.sqrt (Real.pi - xi ^ 2) / Real.pi
  let qq := yi * Real.pi * (1 / 4) / xi
  ⟨q * Real.cos qq, q * Real.sin qq, 1 - 2 * xi ^ 2 / Real.pi⟩

/-- Swap the first two components. -/
def V3.swap (v : V3 ℝ) : V3 ℝ := ⟨v.y, v.x, v.z⟩

theorem lambert2vector_eq (x y : ℝ) :
    lambert2vector x y =
      if max |x * sqrtPiHalf| |y * sqrtPiHalf| = 0 then ⟨0, 0, 1⟩
      else if |x * sqrtPiHalf| ≤ |y * sqrtPiHalf| then (invX (y * sqrtPiHalf) (x * sqrtPiHalf)).swap
      else invX (x * sqrtPiHalf) (y * sqrtPiHalf) := rfl

/-- On the diagonals both branches agree. -/
theorem invX_diag {a b : ℝ} (h : |a| = |b|) (ha : a ≠ 0) : invX a b = (invX b a).swap := by
  rcases abs_eq_abs.1 h with rfl | rfl
  · have : a * Real.pi * (1 / 4) / a = Real.pi / 4 := by field_simp
    simp only [invX, V3.swap, this, Real.cos_pi_div_four, Real.sin_pi_div_four]
  · have hb : b ≠ 0 := fun hb => ha (by rw [hb, neg_zero])
    have h1 : b * Real.pi * (1 / 4) / -b = -(Real.pi / 4) := by field_simp
    have h2 : -b * Real.pi * (1 / 4) / b = -(Real.pi / 4) := by field_simp
    simp only [invX, V3.swap, h1, h2, Real.cos_neg, Real.sin_neg, Real.cos_pi_div_four,
      Real.sin_pi_div_four]
    ext <;> simp only [neg_sq] <;> ring

/-- The branch of the inverse may be chosen freely on the diagonals. -/
theorem lambert2vector_of_le {x y : ℝ} (hx : x ≠ 0) (h : |y| ≤ |x|) :
    lambert2vector x y = invX (x * sqrtPiHalf) (y * sqrtPiHalf) := by
  have hs : 0 < sqrtPiHalf := Real.sqrt_pos.2 (by positivity)
  have hxs : x * sqrtPiHalf ≠ 0 := mul_ne_zero hx hs.ne'
  rw [lambert2vector_eq, if_neg, ite_eq_right_iff.2]
  · intro hle
    rw [abs_mul, abs_mul] at hle
    have hle' := le_of_mul_le_mul_right hle (abs_pos.2 hs.ne')
    have heq : |x| = |y| := le_antisymm hle' h
    exact (invX_diag (by rw [abs_mul, abs_mul, heq]) hxs).symm
  · intro h0
    have := le_max_left |x * sqrtPiHalf| |y * sqrtPiHalf|
    rw [h0] at this
    exact hxs (abs_nonpos_iff.1 this)

theorem lambert2vector_of_le' {x y : ℝ} (hy : y ≠ 0) (h : |x| ≤ |y|) :
    lambert2vector x y = (invX (y * sqrtPiHalf) (x * sqrtPiHalf)).swap := by
  have hs : 0 < sqrtPiHalf := Real.sqrt_pos.2 (by positivity)
  have hys : y * sqrtPiHalf ≠ 0 := mul_ne_zero hy hs.ne'
  rw [lambert2vector_eq, if_neg, if_pos]
  · rw [abs_mul, abs_mul]
    exact mul_le_mul_of_nonneg_right h (abs_nonneg _)
  · intro h0
    have := le_max_right |x * sqrtPiHalf| |y * sqrtPiHalf|
    rw [h0] at this
    exact hys (abs_nonpos_iff.1 this)

/-- The forward projection where `|y| ≤ |x|`. -/
noncomputable def fwdX (v : V3 ℝ) : ℝ × ℝ :=
  (Real.sign v.x * Real.sqrt (2 * (1 - |v.z|)) * sqrtPiOver2,
   Real.sign v.x * Real.sqrt (2 * (1 - |v.z|)) * twoOverSqrtPi * Real.arctan (v.y / v.x))

theorem vector2lambert_eq {v : V3 ℝ} (h : v.IsUnit) :
    vector2lambert v = if |v.z| = 1 then (0, 0)
      else if |v.y| ≤ |v.x| then fwdX v else (fwdX v.swap).swap := by
  unfold vector2lambert
  rw [normalizeV_isUnit h]
  rfl

theorem sqrt_pi_mul_self : Real.sqrt Real.pi * Real.sqrt Real.pi = Real.pi :=
  Real.mul_self_sqrt Real.pi_pos.le

theorem sign_mul_abs' (x : ℝ) : Real.sign x * |x| = x := by
  rcases lt_trichotomy x 0 with h | h | h
  · rw [Real.sign_of_neg h, abs_of_neg h]; ring
  · subst h; simp
  · rw [Real.sign_of_pos h, abs_of_pos h]; ring

theorem sign_sq {x : ℝ} (h : x ≠ 0) : Real.sign x ^ 2 = 1 := by
  rcases lt_or_gt_of_ne h with h | h
  · rw [Real.sign_of_neg h]; norm_num
  · rw [Real.sign_of_pos h]; norm_num

theorem abs_sign' {x : ℝ} (h : x ≠ 0) : |Real.sign x| = 1 := by
  rcases lt_or_gt_of_ne h with h | h
  · rw [Real.sign_of_neg h]; norm_num
  · rw [Real.sign_of_pos h]; norm_num

/-- `arctan` of a ratio of at most one is within 45 degrees. -/
theorem abs_arctan_le {a b : ℝ} (h : |a| ≤ |b|) : |Real.arctan (a / b)| ≤ Real.pi / 4 := by
  have hr : |a / b| ≤ 1 := by
    rw [abs_div]; exact div_le_one_of_le₀ h (abs_nonneg _)
  rw [abs_le] at hr ⊢
  constructor
  · have := Real.arctan_strictMono.monotone hr.1
    rwa [Real.arctan_neg, Real.arctan_one] at this
  · have := Real.arctan_strictMono.monotone hr.2
    rwa [Real.arctan_one] at this

theorem fwdX_bounds {v : V3 ℝ} (hz : |v.z| ≤ 1) (h : |v.y| ≤ |v.x|) (hx : v.x ≠ 0) :
    |(fwdX v).2| ≤ |(fwdX v).1| ∧ |(fwdX v).1| ≤ sqrtPiHalf := by
  have hsp : 0 < Real.sqrt Real.pi := Real.sqrt_pos.2 Real.pi_pos
  unfold fwdX
  simp only [abs_mul, abs_sign' hx, one_mul, abs_of_nonneg (Real.sqrt_nonneg _)]
  have hs2 : |sqrtPiOver2| = Real.sqrt Real.pi / 2 := abs_of_pos (by unfold sqrtPiOver2; positivity)
  have ht : |twoOverSqrtPi| = 2 / Real.sqrt Real.pi :=
    abs_of_pos (by unfold twoOverSqrtPi; positivity)
  rw [hs2, ht]
  constructor
  · rw [mul_assoc]
    refine mul_le_mul_of_nonneg_left ?_ (Real.sqrt_nonneg _)
    have := abs_arctan_le h
    calc 2 / Real.sqrt Real.pi * |Real.arctan (v.y / v.x)|
        ≤ 2 / Real.sqrt Real.pi * (Real.pi / 4) := by gcongr
      _ = Real.sqrt Real.pi / 2 := by
          have hpp := sqrt_pi_mul_self; field_simp; nlinarith
  · have h1 : Real.sqrt (2 * (1 - |v.z|)) ≤ Real.sqrt 2 :=
      Real.sqrt_le_sqrt (by have := abs_nonneg v.z; linarith)
    have h2 : sqrtPiHalf = Real.sqrt 2 * (Real.sqrt Real.pi / 2) := by
      unfold sqrtPiHalf
      rw [Real.sqrt_div Real.pi_pos.le]
      have h22 : Real.sqrt 2 * Real.sqrt 2 = 2 := Real.mul_self_sqrt (by norm_num)
      field_simp
      rw [sq, h22]
    rw [h2]
    exact mul_le_mul_of_nonneg_right h1 (by positivity)

theorem isUnit_abs_z {v : V3 ℝ} (h : v.IsUnit) : |v.z| ≤ 1 := by
  unfold V3.IsUnit at h
  rw [abs_le_one_iff_mul_self_le_one]
  nlinarith [sq_nonneg v.x, sq_nonneg v.y]

theorem isUnit_x_ne {v : V3 ℝ} (h : v.IsUnit) (hz : |v.z| ≠ 1) (hyx : |v.y| ≤ |v.x|) :
    v.x ≠ 0 := by
  intro hx
  have hy : v.y = 0 := by rw [hx, abs_zero] at hyx; exact abs_nonpos_iff.1 hyx
  unfold V3.IsUnit at h
  rw [hx, hy] at h
  apply hz
  have : |v.z| ^ 2 = 1 := by rw [sq_abs]; linarith
  nlinarith [abs_nonneg v.z]

theorem swap_isUnit {v : V3 ℝ} (h : v.IsUnit) : v.swap.IsUnit := by
  unfold V3.IsUnit V3.swap at *
  simp only
  linarith

/-- C28: unit vectors are mapped into the square of half-width `sqrt(π/2)`. -/
theorem C28_in_square {v : V3 ℝ} (h : v.IsUnit) :
    |(vector2lambert v).1| ≤ Real.sqrt (Real.pi / 2) ∧
      |(vector2lambert v).2| ≤ Real.sqrt (Real.pi / 2) := by
  rw [vector2lambert_eq h]
  split
  · simp only [abs_zero]
    exact ⟨Real.sqrt_nonneg _, Real.sqrt_nonneg _⟩
  · rename_i hz
    split
    · rename_i hyx
      obtain ⟨h1, h2⟩ := fwdX_bounds (isUnit_abs_z h) hyx (isUnit_x_ne h hz hyx)
      exact ⟨h2, h1.trans h2⟩
    · rename_i hyx
      have hyx' : |v.swap.y| ≤ |v.swap.x| := (not_le.1 hyx).le
      obtain ⟨h1, h2⟩ := fwdX_bounds (v := v.swap) (isUnit_abs_z (swap_isUnit h)) hyx'
        (isUnit_x_ne (swap_isUnit h) hz hyx')
      exact ⟨h1.trans h2, h2⟩

/-- Only the direction matters. -/
theorem normalizeV_smul {c : ℝ} (hc : 0 < c) (v : V3 ℝ) : normalizeV (V3.smul c v) = normalizeV v := by
  unfold normalizeV V3.smul
  simp only
  have h1 : c * v.x * (c * v.x) + c * v.y * (c * v.y) + c * v.z * (c * v.z) =
      c ^ 2 * (v.x * v.x + v.y * v.y + v.z * v.z) := by ring
  rw [h1, Real.sqrt_mul (sq_nonneg c), Real.sqrt_sq hc.le]
  ext <;> simp only <;> rw [mul_div_mul_left _ _ hc.ne']

/-- C28: the projection depends only on the direction of the vector. -/
theorem C28_direction {c : ℝ} (hc : 0 < c) (v : V3 ℝ) :
    vector2lambert (V3.smul c v) = vector2lambert v := by
  unfold vector2lambert
  rw [normalizeV_smul hc]

/-- C28: opposite vectors are mapped to opposite points. -/
theorem C28_antipodal {v : V3 ℝ} (h : v.IsUnit) :
    vector2lambert ⟨-v.x, -v.y, -v.z⟩ =
      (-(vector2lambert v).1, -(vector2lambert v).2) := by
  have h' : V3.IsUnit ⟨-v.x, -v.y, -v.z⟩ := by
    unfold V3.IsUnit at *
    simp only
    linarith
  rw [vector2lambert_eq h, vector2lambert_eq h']
  have hs : ∀ x : ℝ, Real.sign (-x) = -Real.sign x := fun x => Real.sign_neg
  simp only [abs_neg]
  split
  · simp
  · split
    · unfold fwdX
      simp only [hs, abs_neg, neg_div_neg_eq]
      ext <;> simp only <;> ring
    · unfold fwdX V3.swap Prod.swap
      simp only [hs, abs_neg, neg_div_neg_eq]
      ext <;> simp only <;> ring

/-- Inverting the branch for `|y| ≤ |x|`. -/
theorem invX_fwdX {v : V3 ℝ} (h : v.IsUnit) (hz : |v.z| ≠ 1) (hyx : |v.y| ≤ |v.x|) :
    invX (fwdX v).1 (fwdX v).2 = ⟨v.x, v.y, |v.z|⟩ := by
  have hx := isUnit_x_ne h hz hyx
  have hz1 : |v.z| < 1 := lt_of_le_of_ne (isUnit_abs_z h) hz
  have hz0 := abs_nonneg v.z
  have hsp : 0 < Real.sqrt Real.pi := Real.sqrt_pos.2 Real.pi_pos
  have hpp := sqrt_pi_mul_self
  have hpi := Real.pi_pos
  have hq : 0 < Real.sqrt (2 * (1 - |v.z|)) := Real.sqrt_pos.2 (by linarith)
  have hq2 : Real.sqrt (2 * (1 - |v.z|)) ^ 2 = 2 * (1 - |v.z|) := Real.sq_sqrt (by linarith)
  have hsg : Real.sign v.x ≠ 0 := fun h0 => by
    have := sign_sq hx; rw [h0] at this; norm_num at this
  have hxi2 : (fwdX v).1 ^ 2 = Real.pi * (1 - |v.z|) / 2 := by
    unfold fwdX sqrtPiOver2
    simp only
    rw [mul_pow, mul_pow, sign_sq hx, hq2, div_pow, sq (Real.sqrt Real.pi), hpp]
    ring
  have hq' : 2 * (fwdX v).1 * Real.sqrt (Real.pi - (fwdX v).1 ^ 2) / Real.pi =
      Real.sign v.x * Real.sqrt (v.x ^ 2 + v.y ^ 2) := by
    rw [hxi2]
    have hxy : v.x ^ 2 + v.y ^ 2 = (1 - |v.z|) * (1 + |v.z|) := by
      unfold V3.IsUnit at h
      have := sq_abs v.z
      nlinarith
    have e1 : Real.pi - Real.pi * (1 - |v.z|) / 2 = (Real.sqrt Real.pi) ^ 2 * ((1 + |v.z|) / 2) := by
      rw [sq, hpp]; ring
    have e2 : 2 * (1 - |v.z|) * ((1 + |v.z|) / 2) = (1 - |v.z|) * (1 + |v.z|) := by ring
    rw [e1, Real.sqrt_mul (sq_nonneg _), Real.sqrt_sq hsp.le, hxy, ← e2,
      Real.sqrt_mul (by linarith)]
    unfold fwdX sqrtPiOver2
    simp only
    generalize Real.sqrt (2 * (1 - |v.z|)) = a
    generalize Real.sqrt ((1 + |v.z|) / 2) = b
    rw [div_eq_iff hpi.ne']
    linear_combination (Real.sign v.x * a * b) * hpp
  have hqq : (fwdX v).2 * Real.pi * (1 / 4) / (fwdX v).1 = Real.arctan (v.y / v.x) := by
    unfold fwdX sqrtPiOver2 twoOverSqrtPi
    simp only
    rw [div_eq_iff (by positivity)]
    generalize Real.arctan (v.y / v.x) = t
    generalize Real.sqrt (2 * (1 - |v.z|)) = a
    field_simp
    linear_combination (-(4 : ℝ) * a * t) * hpp
  have hr : 0 < Real.sqrt (1 + (v.y / v.x) ^ 2) := Real.sqrt_pos.2 (by positivity)
  have hlen : Real.sign v.x * Real.sqrt (v.x ^ 2 + v.y ^ 2) = v.x * Real.sqrt (1 + (v.y / v.x) ^ 2) := by
    have : v.x ^ 2 + v.y ^ 2 = |v.x| ^ 2 * (1 + (v.y / v.x) ^ 2) := by
      rw [sq_abs]; field_simp
    rw [this, Real.sqrt_mul (sq_nonneg _), Real.sqrt_sq (abs_nonneg _), ← mul_assoc, sign_mul_abs']
  unfold invX
  simp only
  rw [hq', hqq, hlen, hxi2, Real.cos_arctan, Real.sin_arctan]
  ext
  · simp only; field_simp
  · simp only; field_simp
  · simp only; field_simp; ring

/-- C28: the inverse projection returns a unit vector mirrored to the upper hemisphere, so it
inverts the projection on the upper hemisphere. -/
theorem C28_inverse {v : V3 ℝ} (h : v.IsUnit) :
    lambert2vector ((vector2lambert v).1 / Real.sqrt (Real.pi / 2))
      ((vector2lambert v).2 / Real.sqrt (Real.pi / 2)) = ⟨v.x, v.y, |v.z|⟩ := by
  have hs : 0 < sqrtPiHalf := Real.sqrt_pos.2 (by positivity)
  change lambert2vector (_ / sqrtPiHalf) (_ / sqrtPiHalf) = _
  rw [vector2lambert_eq h]
  by_cases hz : |v.z| = 1
  · rw [if_pos hz]
    have hz2 : v.z ^ 2 = 1 := by rw [← sq_abs, hz]; norm_num
    unfold V3.IsUnit at h
    have hx : v.x = 0 := by nlinarith [sq_nonneg v.x, sq_nonneg v.y]
    have hy : v.y = 0 := by nlinarith [sq_nonneg v.x, sq_nonneg v.y]
    rw [lambert2vector_eq]
    simp [hx, hy, hz]
  · rw [if_neg hz]
    by_cases hyx : |v.y| ≤ |v.x|
    · rw [if_pos hyx]
      have hx := isUnit_x_ne h hz hyx
      obtain ⟨h1, _⟩ := fwdX_bounds (isUnit_abs_z h) hyx hx
      have hne : (fwdX v).1 ≠ 0 := by
        intro h0
        have h0' := invX_fwdX h hz hyx
        rw [h0] at h0'
        have := congrArg V3.x h0'
        simp [invX] at this
        exact hx this.symm
      rw [lambert2vector_of_le (div_ne_zero hne hs.ne') (by
        rw [abs_div, abs_div]; exact div_le_div_of_nonneg_right h1 (abs_nonneg _)),
        div_mul_cancel₀ _ hs.ne', div_mul_cancel₀ _ hs.ne', invX_fwdX h hz hyx]
    · rw [if_neg hyx]
      have h' := swap_isUnit h
      have hyx' : |v.swap.y| ≤ |v.swap.x| := (not_le.1 hyx).le
      have hz' : |v.swap.z| ≠ 1 := hz
      have hx := isUnit_x_ne h' hz' hyx'
      obtain ⟨h1, _⟩ := fwdX_bounds (isUnit_abs_z h') hyx' hx
      have hne : (fwdX v.swap).1 ≠ 0 := by
        intro h0
        have h0' := invX_fwdX h' hz' hyx'
        rw [h0] at h0'
        have := congrArg V3.x h0'
        simp [invX] at this
        exact hx this.symm
      simp only [Prod.fst_swap, Prod.snd_swap]
      rw [lambert2vector_of_le' (div_ne_zero hne hs.ne') (by
        rw [abs_div, abs_div]; exact div_le_div_of_nonneg_right h1 (abs_nonneg _)),
        div_mul_cancel₀ _ hs.ne', div_mul_cancel₀ _ hs.ne', invX_fwdX h' hz' hyx']
      rfl

/-- The branch `invX` gives unit vectors in the upper hemisphere with `|y| ≤ |x|`, mapped
back by `fwdX`. -/
theorem fwdX_invX {a b : ℝ} (ha : a ≠ 0) (hab : |b| ≤ |a|) (hle : |a| ≤ sqrtPiHalf) :
    (invX a b).IsUnit ∧ 0 ≤ (invX a b).z ∧ |(invX a b).z| ≠ 1 ∧
      |(invX a b).y| ≤ |(invX a b).x| ∧ fwdX (invX a b) = (a, b) := by
  have hpi := Real.pi_pos
  have hsp : 0 < Real.sqrt Real.pi := Real.sqrt_pos.2 Real.pi_pos
  have hpp := sqrt_pi_mul_self
  have ha2 : a ^ 2 ≤ Real.pi / 2 := by
    have : |a| ^ 2 ≤ sqrtPiHalf ^ 2 := by gcongr
    rw [sq_abs] at this
    unfold sqrtPiHalf at this
    rwa [Real.sq_sqrt (by positivity)] at this
  have ha0 : 0 < a ^ 2 := by positivity
  obtain ⟨q, hq⟩ : ∃ q, q = 2 * a * Real.sqrt (Real.pi - a ^ 2) / Real.pi := ⟨_, rfl⟩
  obtain ⟨t, ht⟩ : ∃ t, t = b * Real.pi * (1 / 4) / a := ⟨_, rfl⟩
  have hv : invX a b = ⟨q * Real.cos t, q * Real.sin t, 1 - 2 * a ^ 2 / Real.pi⟩ := by
    rw [hq, ht]; rfl
  have hr0 : 0 < Real.sqrt (Real.pi - a ^ 2) := Real.sqrt_pos.2 (by linarith)
  have hr2 : Real.sqrt (Real.pi - a ^ 2) ^ 2 = Real.pi - a ^ 2 := Real.sq_sqrt (by linarith)
  have hq2 : q ^ 2 = 4 * a ^ 2 * (Real.pi - a ^ 2) / Real.pi ^ 2 := by
    rw [hq, div_pow, mul_pow, mul_pow, hr2]; ring
  have htb : |t| ≤ Real.pi / 4 := by
    rw [ht, abs_div, abs_mul, abs_mul, abs_of_pos hpi, abs_of_pos (by norm_num : (0 : ℝ) < 1 / 4)]
    rw [div_le_iff₀ (abs_pos.2 ha)]
    nlinarith
  rw [abs_le] at htb
  have hcos : 0 < Real.cos t := Real.cos_pos_of_mem_Ioo ⟨by linarith, by linarith⟩
  have hz0 : 0 ≤ 1 - 2 * a ^ 2 / Real.pi := by
    have : 2 * a ^ 2 / Real.pi ≤ 1 := by rw [div_le_one hpi]; linarith
    linarith
  have hz1 : 1 - 2 * a ^ 2 / Real.pi < 1 := by
    have : 0 < 2 * a ^ 2 / Real.pi := by positivity
    linarith
  have hqs : Real.sign (q * Real.cos t) = Real.sign a := by
    rcases lt_or_gt_of_ne ha with h | h
    · rw [Real.sign_of_neg h, Real.sign_of_neg]
      refine mul_neg_of_neg_of_pos ?_ hcos
      rw [hq]
      exact div_neg_of_neg_of_pos (mul_neg_of_neg_of_pos (by linarith) hr0) hpi
    · rw [Real.sign_of_pos h, Real.sign_of_pos]
      rw [hq]
      positivity
  have hq0 : q ≠ 0 := by
    rw [hq]
    exact div_ne_zero (mul_ne_zero (mul_ne_zero two_ne_zero ha) hr0.ne') hpi.ne'
  have htan : |Real.tan t| ≤ 1 := by
    rw [abs_le]
    have hmem : ∀ x, |x| ≤ Real.pi / 4 → x ∈ Set.Ioo (-(Real.pi / 2)) (Real.pi / 2) := by
      intro x hx
      rw [abs_le] at hx
      exact ⟨by linarith, by linarith⟩
    have hp4 : |Real.pi / 4| ≤ Real.pi / 4 := by rw [abs_of_pos (by positivity)]
    have hp4' : |-(Real.pi / 4)| ≤ Real.pi / 4 := by rw [abs_neg]; exact hp4
    have ht' : |t| ≤ Real.pi / 4 := abs_le.2 htb
    have m := Real.strictMonoOn_tan.monotoneOn
    constructor
    · have := m (hmem _ hp4') (hmem _ ht') htb.1
      rwa [Real.tan_neg, Real.tan_pi_div_four] at this
    · have := m (hmem _ ht') (hmem _ hp4) htb.2
      rwa [Real.tan_pi_div_four] at this
  have hsin : Real.sin t = Real.tan t * Real.cos t := by
    rw [Real.tan_eq_sin_div_cos, div_mul_cancel₀ _ hcos.ne']
  refine ⟨?_, ?_, ?_, ?_, ?_⟩
  · unfold V3.IsUnit
    rw [hv]
    simp only
    have : q ^ 2 * (Real.cos t ^ 2 + Real.sin t ^ 2) + (1 - 2 * a ^ 2 / Real.pi) ^ 2 = 1 := by
      rw [Real.cos_sq_add_sin_sq, hq2]
      field_simp
      ring
    linarith
  · rw [hv]; exact hz0
  · rw [hv]
    simp only
    rw [abs_of_nonneg hz0]
    exact hz1.ne
  · rw [hv]
    simp only
    rw [abs_mul, abs_mul, hsin, abs_mul]
    refine mul_le_mul_of_nonneg_left ?_ (abs_nonneg _)
    calc |Real.tan t| * |Real.cos t| ≤ 1 * |Real.cos t| := by gcongr
      _ = |Real.cos t| := one_mul _
  · rw [hv]
    unfold fwdX
    simp only
    have hdiv : q * Real.sin t / (q * Real.cos t) = Real.tan t := by
      rw [mul_div_mul_left _ _ hq0, Real.tan_eq_sin_div_cos]
    rw [hqs, abs_of_nonneg hz0, hdiv, Real.arctan_tan (by linarith) (by linarith)]
    have hsq : Real.sqrt (2 * (1 - (1 - 2 * a ^ 2 / Real.pi))) = 2 * |a| / Real.sqrt Real.pi := by
      have : 2 * (1 - (1 - 2 * a ^ 2 / Real.pi)) = (2 * |a| / Real.sqrt Real.pi) ^ 2 := by
        rw [div_pow, mul_pow, sq_abs, sq (Real.sqrt Real.pi), hpp]
        ring
      rw [this, Real.sqrt_sq (by positivity)]
    rw [hsq]
    unfold sqrtPiOver2 twoOverSqrtPi
    have hsa := sign_mul_abs' a
    ext
    · simp only
      field_simp
      exact hsa
    · simp only
      rw [ht]
      have : Real.sign a * (2 * |a| / Real.sqrt Real.pi) * (2 / Real.sqrt Real.pi) *
          (b * Real.pi * (1 / 4) / a) = (Real.sign a * |a|) / a * b *
            (Real.pi / (Real.sqrt Real.pi * Real.sqrt Real.pi)) := by
        field_simp
        ring
      rw [this, hsa, hpp, div_self ha, div_self hpi.ne']
      ring

/-- C28: every point of the square is the projection of the unit vector of the upper
hemisphere given by the inverse projection. -/
theorem C28_surjective {x y : ℝ} (hx : |x| ≤ 1) (hy : |y| ≤ 1) :
    (lambert2vector x y).IsUnit ∧ 0 ≤ (lambert2vector x y).z ∧
      vector2lambert (lambert2vector x y) =
        (x * Real.sqrt (Real.pi / 2), y * Real.sqrt (Real.pi / 2)) := by
  have hs : 0 < sqrtPiHalf := Real.sqrt_pos.2 (by positivity)
  change _ ∧ _ ∧ _ = (x * sqrtPiHalf, y * sqrtPiHalf)
  have hb : ∀ {a}, |a| ≤ 1 → |a * sqrtPiHalf| ≤ sqrtPiHalf := by
    intro a ha
    rw [abs_mul, abs_of_pos hs]
    nlinarith
  have hmul : ∀ {a b : ℝ}, |a| ≤ |b| → |a * sqrtPiHalf| ≤ |b * sqrtPiHalf| := by
    intro a b hab
    rw [abs_mul, abs_mul]
    exact mul_le_mul_of_nonneg_right hab (abs_nonneg _)
  rcases le_total |y| |x| with h | h
  · by_cases hx0 : x = 0
    · have hy0 : y = 0 := by rw [hx0, abs_zero] at h; exact abs_nonpos_iff.1 h
      have hl : lambert2vector x y = ⟨0, 0, 1⟩ := by rw [lambert2vector_eq]; simp [hx0, hy0]
      have hu : V3.IsUnit ⟨0, 0, 1⟩ := by simp [V3.IsUnit]
      rw [hl, vector2lambert_eq hu]
      simp [hx0, hy0, hu]
    · obtain ⟨h1, h2, h3, h4, h5⟩ := fwdX_invX (a := x * sqrtPiHalf) (b := y * sqrtPiHalf)
        (mul_ne_zero hx0 hs.ne') (hmul h) (hb hx)
      rw [lambert2vector_of_le hx0 h]
      refine ⟨h1, h2, ?_⟩
      rw [vector2lambert_eq h1, if_neg h3, if_pos h4, h5]
  · by_cases hy0 : y = 0
    · have hx0 : x = 0 := by rw [hy0, abs_zero] at h; exact abs_nonpos_iff.1 h
      have hl : lambert2vector x y = ⟨0, 0, 1⟩ := by rw [lambert2vector_eq]; simp [hx0, hy0]
      have hu : V3.IsUnit ⟨0, 0, 1⟩ := by simp [V3.IsUnit]
      rw [hl, vector2lambert_eq hu]
      simp [hx0, hy0, hu]
    · obtain ⟨h1, h2, h3, h4, h5⟩ := fwdX_invX (a := y * sqrtPiHalf) (b := x * sqrtPiHalf)
        (mul_ne_zero hy0 hs.ne') (hmul h) (hb hy)
      rw [lambert2vector_of_le' hy0 h]
      refine ⟨swap_isUnit h1, h2, ?_⟩
      have h3' : |(invX (y * sqrtPiHalf) (x * sqrtPiHalf)).swap.z| ≠ 1 := h3
      rw [vector2lambert_eq (swap_isUnit h1), if_neg h3']
      by_cases h6 : |(invX (y * sqrtPiHalf) (x * sqrtPiHalf)).swap.y| ≤
          |(invX (y * sqrtPiHalf) (x * sqrtPiHalf)).swap.x|
      · -- on the diagonal
        rw [if_pos h6]
        have habs : |x * sqrtPiHalf| = |y * sqrtPiHalf| := by
          have hxy : |(invX (y * sqrtPiHalf) (x * sqrtPiHalf)).x| =
              |(invX (y * sqrtPiHalf) (x * sqrtPiHalf)).y| := le_antisymm h6 h4
          have hne : (invX (y * sqrtPiHalf) (x * sqrtPiHalf)).x ≠ 0 := isUnit_x_ne h1 h3 h4
          have hr : |(invX (y * sqrtPiHalf) (x * sqrtPiHalf)).y /
              (invX (y * sqrtPiHalf) (x * sqrtPiHalf)).x| = 1 := by
            rw [abs_div, hxy, div_self]
            rw [← hxy]; exact abs_ne_zero.2 hne
          have hat : |Real.arctan ((invX (y * sqrtPiHalf) (x * sqrtPiHalf)).y /
              (invX (y * sqrtPiHalf) (x * sqrtPiHalf)).x)| = Real.pi / 4 := by
            rcases (abs_eq zero_le_one).1 hr with h | h
            · rw [h, Real.arctan_one, abs_of_pos (by positivity)]
            · rw [h, Real.arctan_neg, Real.arctan_one, abs_neg, abs_of_pos (by positivity)]
          have e1 := congrArg (fun p => |p.1|) h5
          have e2 := congrArg (fun p => |p.2|) h5
          unfold fwdX at e1 e2
          simp only [abs_mul, hat] at e1 e2
          have hk : |twoOverSqrtPi| * (Real.pi / 4) = |sqrtPiOver2| := by
            have hsp : 0 < Real.sqrt Real.pi := Real.sqrt_pos.2 Real.pi_pos
            rw [abs_of_pos (by unfold twoOverSqrtPi; positivity),
              abs_of_pos (by unfold sqrtPiOver2; positivity)]
            unfold twoOverSqrtPi sqrtPiOver2
            have hpp := sqrt_pi_mul_self
            field_simp
            nlinarith
          rw [mul_assoc, hk, e1] at e2
          rw [abs_mul, abs_mul]
          exact e2.symm
        have hx0 : x * sqrtPiHalf ≠ 0 := by
          intro h0
          rw [h0, abs_zero] at habs
          exact mul_ne_zero hy0 hs.ne' (abs_eq_zero.1 habs.symm)
        rw [← invX_diag habs hx0]
        obtain ⟨_, _, _, _, g5⟩ := fwdX_invX hx0 habs.ge (hb hx)
        exact g5
      · rw [if_neg h6]
        have : (invX (y * sqrtPiHalf) (x * sqrtPiHalf)).swap.swap =
            invX (y * sqrtPiHalf) (x * sqrtPiHalf) := rfl
        rw [this, h5]
        rfl

/-- C28: on the upper hemisphere different unit vectors have different projections. -/
theorem C28_injective {v w : V3 ℝ} (hv : v.IsUnit) (hw : w.IsUnit) (hvz : 0 ≤ v.z)
    (hwz : 0 ≤ w.z) (h : vector2lambert v = vector2lambert w) : v = w := by
  have h1 := C28_inverse hv
  have h2 := C28_inverse hw
  rw [h, h2, abs_of_nonneg hvz, abs_of_nonneg hwz] at h1
  have hx := congrArg V3.x h1
  have hy := congrArg V3.y h1
  have hz := congrArg V3.z h1
  ext
  · exact hx.symm
  · exact hy.symm
  · exact hz.symm

/-- A vector in the first branch, one in the second, the pole and the equator. -/
example : V3.IsUnit ⟨3 / 5, 0, 4 / 5⟩ ∧ V3.IsUnit ⟨2 / 7, -3 / 7, 6 / 7⟩ ∧ V3.IsUnit ⟨0, 0, 1⟩ ∧
    V3.IsUnit ⟨-4 / 5, 3 / 5, 0⟩ := by
  unfold V3.IsUnit
  norm_num

/-- The `x` axis is projected to the middle of the right edge of the square. -/
example : vector2lambert ⟨1, 0, 0⟩ = (Real.sqrt (Real.pi / 2), 0) := by
  rw [vector2lambert_eq (by simp [V3.IsUnit])]
  have h2 : Real.sqrt 2 * (Real.sqrt Real.pi / 2) = Real.sqrt (Real.pi / 2) := by
    rw [Real.sqrt_div Real.pi_pos.le]
    have h22 : Real.sqrt 2 * Real.sqrt 2 = 2 := Real.mul_self_sqrt (by norm_num)
    field_simp
    rw [sq, h22]
  simp [fwdX, Real.sign_of_pos, sqrtPiOver2, h2]

end Kp
