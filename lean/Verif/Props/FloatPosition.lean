import Verif.Lemmas.FloatPosition
import Verif.Props.FloatDirections

/-!
# C158: in floating point arithmetic the master pattern is read at the right place

The exact place is that of the exact direction in the square Lambert projection (`masterRow`,
`masterColumn`), which has corners and diagonals where the formula changes; a computed direction may be
on another side of these than the exact one.
-/

namespace Kp
open Spec

/-- Whatever the errors of a computed direction are, up to 2⁻²¹ in each component, the master pattern
is read at the place of the exact direction up to three times the number of pixels times the square
root of that error (and of 2⁻⁴⁶ for further rounding errors). -/
theorem C158_position {atan : ℝ → ℝ} (hatan : AccurateArctan atan) (fused recip : Bool) {u v : V3 ℝ}
    {η : ℝ} (hu : u.x ^ 2 + u.y ^ 2 + u.z ^ 2 = 1) (hf : FloatDirection v)
    (hv : ComponentsWithin η v u) (hη : η ≤ 1 / 2 ^ 21) {n : ℕ} (hn : 0 < n) (hn31 : n < 2 ^ 31) :
    ∃ p, lambertInterpFl atan fused recip v n n (((n : ℝ) - 1) / 2) = some p ∧ InArray n p ∧
      ReadsAt (3 * n * Real.sqrt (η + 1 / 2 ^ 46) + 1 / 2 ^ 19) (masterRow n u) (masterColumn n u) p := by
  have h : u.IsUnit := hu
  have hη0 : 0 ≤ η := (abs_nonneg _).trans hv.1
  obtain ⟨xy, e, hx, hy⟩ := vector2lambertFl_spec hatan fused recip hf
  obtain ⟨xy', e', hx', hy'⟩ := vector2lambertFl_near hatan fused recip hf h hv hη
  obtain rfl : xy = xy' := by rw [e] at e'; exact Option.some.inj e'
  refine ⟨_, by unfold lambertInterpFl; rw [e]; rfl, ?_⟩
  have bi := lambert_position hn hn31 hy
  have bj := lambert_position hn hn31 hx
  refine ⟨C105_half_pixel hn hn31 bi bj, ?_⟩
  obtain ⟨wi, wj⟩ := (C105_weights hn hn31 bi bj).2
  have n1 : (1 : ℝ) ≤ n := by exact_mod_cast hn
  set r := Real.sqrt (η + 1 / 2 ^ 46) with hr
  have r1 : 1 / 2 ^ 23 ≤ r := Real.le_sqrt_of_sq_le (by norm_num; linarith)
  have r2 : r ≤ 1 / 2 ^ 10 := by
    rw [hr, Real.sqrt_le_left (by norm_num)]
    norm_num at hη ⊢
    linarith
  have hs : 0 ≤ ((n : ℝ) - 1) / 2 := by linarith
  obtain ⟨sx, sy⟩ := C28_in_square h
  have pi := pixel_error hs sy hy' r1 r2
  have pj := pixel_error hs sx hx' r1 r2
  obtain ⟨c1, _⟩ := sqrtPiHalf_bounds
  rw [vector2lambert_coordinates h] at pi pj
  simp only at pi pj
  rw [lambertCoordinate_eq, mul_div_cancel_left₀ _ (by linarith)] at pi pj
  have r0 : 0 ≤ r := Real.sqrt_nonneg _
  have hb : ((n : ℝ) - 1) / 2 * (5 * r) ≤ 3 * n * r := by nlinarith
  unfold ReadsAt masterRow masterColumn
  constructor
  · rw [abs_le] at wi pi ⊢
    norm_num at wi pi ⊢
    constructor <;> linarith
  · rw [abs_le] at wj pj ⊢
    norm_num at wj pj ⊢
    constructor <;> linarith

variable {d : Detector ℝ} {p : PC ℝ}

/-- The exact direction of a pixel's center, for the exact rotation `R` from the detector to the sample
and the exact orientation `q` of the crystal. -/
noncomputable def Spec.exactDirection (nr nc : ℕ) (p : PC ℝ) (R : Fin 3 → Fin 3 → ℝ) (q : Quat)
    (row col : ℕ) : V3 ℝ :=
  let v := transformed R (pixelCenter nr nc p row col)
  rotateVector q ⟨v 0 / length3 v, v 1 / length3 v, v 2 / length3 v⟩

/-- The computed direction of a pixel in the crystal: a rounded direction, not far from the exact one. -/
theorem simulated_direction (h : OrdinaryScreen d.nrows d.ncols p) {om R : Fin 3 → Fin 3 → ℝ}
    (hom : RoundedRotation om R) (o : DirectionOrders) (hdot : ∀ i, AddsEveryPixelOnce (o.dot i))
    (hnorm : AddsEveryPixelOnce o.norm) (r c : ℕ) (hr : r < d.nrows) (hc : c < d.ncols) {q q0 : Quat}
    (hq0 : q0.a ^ 2 + q0.b ^ 2 + q0.c ^ 2 + q0.d ^ 2 = 1) (hq : QuatWithin (1 / 2 ^ 45) q q0) :
    ∃ w, d.pixelDirectionFl o p om r c = some w ∧ FloatDirection (rotateVectorFl q ⟨w 0, w 1, w 2⟩) ∧
      ComponentsWithin (1 / 2 ^ 37 * (1 + screenAngle d.nrows d.ncols p))
        (rotateVectorFl q ⟨w 0, w 1, w 2⟩) (exactDirection d.nrows d.ncols p R q0 r c) ∧
      (exactDirection d.nrows d.ncols p R q0 r c).IsUnit ∧ 0 ≤ screenAngle d.nrows d.ncols p ∧
      screenAngle d.nrows d.ncols p ≤ 1024 := by
  obtain ⟨w, ew, hw, hl⟩ := C156_direction h hom o hdot hnorm r c hr hc
  refine ⟨w, ew, ?_⟩
  set t := transformed R (pixelCenter d.nrows d.ncols p r c) with ht
  set A := screenAngle d.nrows d.ncols p with hA
  have hA1 : A ≤ 2 ^ 10 := h.angle_le
  have hA0 : 0 ≤ A := by
    have hz := (usual_z h.toUsualScreen).1
    rw [hA]
    unfold screenAngle
    positivity
  norm_num at hA1
  have lw : length3 w ^ 2 = w 0 ^ 2 + w 1 ^ 2 + w 2 ^ 2 := by
    rw [length3_eq, vlen_sq, Fin.sum_univ_three]
  have hnear : NearUnit ((⟨w 0, w 1, w 2⟩ : V3 ℝ).x ^ 2 + (⟨w 0, w 1, w 2⟩ : V3 ℝ).y ^ 2 +
      (⟨w 0, w 1, w 2⟩ : V3 ℝ).z ^ 2) := by
    unfold NearUnit
    simp only
    rw [← lw]
    have h1 := abs_le.mp hl
    norm_num at h1
    rw [abs_le]
    norm_num
    constructor <;> nlinarith
  -- the exact direction has length one
  have lt : length3 t ^ 2 = t 0 ^ 2 + t 1 ^ 2 + t 2 ^ 2 := by
    rw [length3_eq, vlen_sq, Fin.sum_univ_three]
  have lt0 : 0 < length3 t := by
    rcases (Real.sqrt_nonneg (∑ i, t i ^ 2)).lt_or_eq with h0 | h0
    · exact h0
    · exfalso
      -- then the computed direction would be short
      have l0 : length3 t = 0 := h0.symm
      have small : ∀ i, |w i| ≤ 1 / 2 ^ 28 := by
        intro i
        have := hw i
        rw [l0, div_zero, sub_zero] at this
        refine this.trans ?_
        norm_num
        linarith
      have s0 := abs_le.mp (small 0)
      have s1 := abs_le.mp (small 1)
      have s2 := abs_le.mp (small 2)
      have h1 := abs_le.mp hl
      norm_num at s0 s1 s2 h1
      nlinarith
  have eU : V3.IsUnit ⟨t 0 / length3 t, t 1 / length3 t, t 2 / length3 t⟩ := by
    unfold V3.IsUnit
    simp only
    rw [div_pow, div_pow, div_pow, ← add_div, ← add_div, ← lt, div_self (by positivity)]
  have hwi : ComponentsWithin (1 / 2 ^ 39 * (1 + A)) ⟨w 0, w 1, w 2⟩
      ⟨t 0 / length3 t, t 1 / length3 t, t 2 / length3 t⟩ := ⟨hw 0, hw 1, hw 2⟩
  have hrot := rotateVector_near hq hq0 (by norm_num) hwi eU (by norm_num; linarith)
  -- the computed rotation
  have one : ∀ s : ℝ, s ^ 2 ≤ 1 → |s| ≤ 1 := by
    intro s hs
    rw [abs_le]
    constructor <;> nlinarith
  have sa := sq_nonneg q0.a
  have sb := sq_nonneg q0.b
  have sc := sq_nonneg q0.c
  have sd := sq_nonneg q0.d
  obtain ⟨ha, hb, hc', hd⟩ := hq
  have ba := one q0.a (by linarith)
  have bb := one q0.b (by linarith)
  have bc := one q0.c (by linarith)
  have bd := one q0.d (by linarith)
  have big : ∀ s s' : ℝ, |s| ≤ 1 → |s' - s| ≤ 1 / 2 ^ 45 → |s'| ≤ 5 / 4 := by
    intro s s' h1 h2
    rw [abs_le] at h1 h2 ⊢
    norm_num at h2
    constructor <;> linarith
  have hqn : NearUnit (q.a ^ 2 + q.b ^ 2 + q.c ^ 2 + q.d ^ 2) := by
    have qa := abs_le.mp (square_near ha ba (by norm_num))
    have qb := abs_le.mp (square_near hb bb (by norm_num))
    have qc := abs_le.mp (square_near hc' bc (by norm_num))
    have qd := abs_le.mp (square_near hd bd (by norm_num))
    unfold NearUnit
    norm_num at qa qb qc qd
    rw [abs_le]
    norm_num
    constructor <;> linarith
  have hw1 : ∀ i, |w i| ≤ 5 / 4 := by
    intro i
    have h1 := abs_le_vlen w i
    rw [← length3_eq] at h1
    have h2 := abs_le.mp hl
    norm_num at h2
    linarith
  obtain ⟨rx, ry, rz⟩ := C105_rotation_error (q := q) (v := ⟨w 0, w 1, w 2⟩) (big _ _ ba ha) (big _ _ bb hb)
    (big _ _ bc hc') (big _ _ bd hd) (hw1 0) (hw1 1) (hw1 2)
  obtain ⟨fx, fy, fz⟩ := rotateVectorFl_float q ⟨w 0, w 1, w 2⟩
  have hfd : FloatDirection (rotateVectorFl q ⟨w 0, w 1, w 2⟩) :=
    C105_rotated_any hqn hnear fx fy fz rx ry rz
  have htot : ComponentsWithin (1 / 2 ^ 37 * (1 + A)) (rotateVectorFl q ⟨w 0, w 1, w 2⟩)
      (exactDirection d.nrows d.ncols p R q0 r c) := by
    obtain ⟨tx, ty, tz⟩ := hrot
    have add : ∀ {x y z : ℝ}, |x - y| ≤ 1 / 2 ^ 40 →
        |y - z| ≤ 31 * (1 / 2 ^ 45) + 3 * (1 / 2 ^ 39 * (1 + A)) → |x - z| ≤ 1 / 2 ^ 37 * (1 + A) := by
      intro x y z h1 h2
      rw [abs_le] at h1 h2 ⊢
      norm_num at h1 h2 ⊢
      constructor <;> linarith
    exact ⟨add rx tx, add ry ty, add rz tz⟩
  have uU : (exactDirection d.nrows d.ncols p R q0 r c).IsUnit := rotateVector_isUnit hq0 eU
  exact ⟨hfd, htot, uU, hA0, hA1⟩

theorem simulated_error {A : ℝ} (hA0 : 0 ≤ A) (n : ℕ) :
    3 * (n : ℝ) * Real.sqrt (1 / 2 ^ 37 * (1 + A) + 1 / 2 ^ 46) + 1 / 2 ^ 19 ≤
      n / 2 ^ 16 * Real.sqrt (1 + A) + 1 / 2 ^ 19 := by
  have n0 : (0 : ℝ) ≤ n := by positivity
  have h1 : Real.sqrt (1 / 2 ^ 37 * (1 + A) + 1 / 2 ^ 46) ≤ 1 / 2 ^ 18 * Real.sqrt (1 + A) := by
    have e : 1 / 2 ^ 18 * Real.sqrt (1 + A) = Real.sqrt (1 / 2 ^ 36 * (1 + A)) := by
      rw [Real.sqrt_mul (by norm_num)]
      congr 1
      rw [show (1 : ℝ) / 2 ^ 36 = (1 / 2 ^ 18) ^ 2 by norm_num, Real.sqrt_sq (by norm_num)]
    rw [e]
    apply Real.sqrt_le_sqrt
    norm_num
    linarith
  have h2 := mul_le_mul_of_nonneg_left h1 (show (0 : ℝ) ≤ 3 * n by positivity)
  have h3 : 0 ≤ (n : ℝ) * Real.sqrt (1 + A) := mul_nonneg n0 (Real.sqrt_nonneg _)
  norm_num at h2 ⊢
  linarith

/-- From a detector to the master pattern: for every pixel of the screen and every orientation of the
crystal, with all directions and the orientation rounded, the master pattern is read at the place of
the exact direction up to a fraction 2⁻¹⁶ (times the root of one plus the size of the screen relative
to its distance) of its width. -/
theorem C158_simulation (h : OrdinaryScreen d.nrows d.ncols p) {om R : Fin 3 → Fin 3 → ℝ}
    (hom : RoundedRotation om R) (o : DirectionOrders) (hdot : ∀ i, AddsEveryPixelOnce (o.dot i))
    (hnorm : AddsEveryPixelOnce o.norm) (r c : ℕ) (hr : r < d.nrows) (hc : c < d.ncols)
    {atan : ℝ → ℝ} (hatan : AccurateArctan atan) (fused recip : Bool) {q q0 : Quat}
    (hq0 : q0.a ^ 2 + q0.b ^ 2 + q0.c ^ 2 + q0.d ^ 2 = 1) (hq : QuatWithin (1 / 2 ^ 45) q q0) {n : ℕ}
    (hn : 0 < n) (hn31 : n < 2 ^ 31) :
    ∃ w, d.pixelDirectionFl o p om r c = some w ∧
      ∃ i, lambertInterpFl atan fused recip (rotateVectorFl q ⟨w 0, w 1, w 2⟩) n n
          (((n : ℝ) - 1) / 2) = some i ∧ InArray n i ∧
        ReadsAt (n / 2 ^ 16 * Real.sqrt (1 + screenAngle d.nrows d.ncols p) + 1 / 2 ^ 19)
          (masterRow n (exactDirection d.nrows d.ncols p R q0 r c))
          (masterColumn n (exactDirection d.nrows d.ncols p R q0 r c)) i := by
  obtain ⟨w, ew, hfd, htot, uU, hA0, hA1⟩ := simulated_direction h hom o hdot hnorm r c hr hc hq0 hq
  refine ⟨w, ew, ?_⟩
  obtain ⟨i, ei, hi, hx, hy⟩ := C158_position hatan fused recip uU hfd htot (by norm_num; linarith) hn hn31
  have hle := simulated_error hA0 n
  exact ⟨i, ei, hi, hx.trans hle, hy.trans hle⟩

/-- The x axis is in the middle of the last column. -/
example : masterColumn 1001 ⟨1, 0, 0⟩ = 1000 ∧ masterRow 1001 ⟨1, 0, 0⟩ = 500 := by
  constructor
  · norm_num [masterColumn, squareCoordinate, Real.sign_of_pos]
  · norm_num [masterRow, squareCoordinate]

/-- A direction off the axes: its row and column differ. -/
example : masterColumn 1001 ⟨2 / 3, 1 / 3, -2 / 3⟩ = 500 + 500 * Real.sqrt (1 / 3) ∧
    masterRow 1001 ⟨2 / 3, 1 / 3, -2 / 3⟩ =
      500 + 500 * Real.sqrt (1 / 3) * (Real.arctan (1 / 2) / (Real.pi / 4)) := by
  have e : |(-2 / 3 : ℝ)| = 2 / 3 := by rw [abs_of_neg (by norm_num)]; norm_num
  have e1 : |(2 / 3 : ℝ)| = 2 / 3 := abs_of_pos (by norm_num)
  have e2 : |(1 / 3 : ℝ)| = 1 / 3 := abs_of_pos (by norm_num)
  constructor
  · unfold masterColumn squareCoordinate
    simp only [e, e1, e2]
    rw [if_pos (by norm_num), Real.sign_of_pos (by norm_num)]
    norm_num
    ring
  · unfold masterRow squareCoordinate
    simp only [e, e1, e2]
    rw [if_neg (by norm_num), Real.sign_of_pos (by norm_num)]
    norm_num
    ring

/-- An orientation not about any axis. -/
example : (1 / 2 : ℝ) ^ 2 + (1 / 2) ^ 2 + (-1 / 2) ^ 2 + (1 / 2) ^ 2 = 1 ∧
    QuatWithin (1 / 2 ^ 45) ⟨1 / 2, 1 / 2, -1 / 2, 1 / 2⟩ ⟨1 / 2, 1 / 2, -1 / 2, 1 / 2⟩ := by
  refine ⟨by norm_num, ?_⟩
  unfold QuatWithin
  norm_num

/-- The hypotheses are met by a rounded direction. -/
example : ∃ p, lambertInterpFl Real.arctan false false ⟨fl64 (2 / 3), fl64 (1 / 3), fl64 (-2 / 3)⟩
      (1001 : ℕ) (1001 : ℕ) (((1001 : ℕ) - 1) / 2) = some p ∧ InArray 1001 p ∧
    ReadsAt (3 * (1001 : ℕ) * Real.sqrt (1 / 2 ^ 50 + 1 / 2 ^ 46) + 1 / 2 ^ 19)
      (masterRow 1001 ⟨2 / 3, 1 / 3, -2 / 3⟩) (masterColumn 1001 ⟨2 / 3, 1 / 3, -2 / 3⟩) p := by
  have h1 := fl64_near (x := 2 / 3) (by norm_num [abs_le])
  have h2 := fl64_near (x := 1 / 3) (by norm_num [abs_le])
  have h3 := fl64_near (x := -2 / 3) (by norm_num [abs_le])
  have hw : ComponentsWithin (1 / 2 ^ 50) ⟨fl64 (2 / 3), fl64 (1 / 3), fl64 (-2 / 3)⟩
      ⟨2 / 3, 1 / 3, -2 / 3⟩ := ⟨h1, h2, h3⟩
  have hu : V3.IsUnit ⟨2 / 3, 1 / 3, -2 / 3⟩ := by norm_num [V3.IsUnit]
  have hf : FloatDirection ⟨fl64 (2 / 3), fl64 (1 / 3), fl64 (-2 / 3)⟩ :=
    ⟨fl64_idem _, fl64_idem _, fl64_idem _, (lengthSq_error hu hw (by norm_num)).trans (by norm_num)⟩
  have ha : AccurateArctan Real.arctan := fun q _ => by rw [sub_self, abs_zero]; positivity
  exact C158_position ha false false hu hf hw (by norm_num) (n := 1001) (by norm_num) (by norm_num)

end Kp
