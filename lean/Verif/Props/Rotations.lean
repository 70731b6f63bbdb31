import Verif.Model.MasterPattern
import Mathlib.Algebra.Quaternion
import Mathlib.Tactic.Ring
import Mathlib.Tactic.FieldSimp
import Mathlib.Tactic.Linarith
import Mathlib.Tactic.LinearCombination

/-
C31: Euler angles and Rodrigues vectors give unit quaternions that act as rotations.
-/

namespace Kp

open Quaternion

namespace Spec

/-- Rotation of a vector by an angle about the `z` axis. -/
noncomputable def rotZ (t : ℝ) (v : V3 ℝ) : V3 ℝ :=
  ⟨Real.cos t * v.x - Real.sin t * v.y, Real.sin t * v.x + Real.cos t * v.y, v.z⟩

/-- Rotation of a vector by an angle about the `x` axis. -/
noncomputable def rotX (t : ℝ) (v : V3 ℝ) : V3 ℝ :=
  ⟨v.x, Real.cos t * v.y - Real.sin t * v.z, Real.sin t * v.y + Real.cos t * v.z⟩

/-- Rotation of a vector by an angle about a unit vector `u`: the component along `u` is kept,
the rest turns in the plane normal to `u`. -/
noncomputable def rotAxis (u : V3 ℝ) (t : ℝ) (v : V3 ℝ) : V3 ℝ :=
  let par := V3.smul (u.dot v) u
  let perp : V3 ℝ := ⟨v.x - par.x, v.y - par.y, v.z - par.z⟩
  V3.add par (V3.add (V3.smul (Real.cos t) perp) (V3.smul (Real.sin t) (u.cross perp)))

/-- The quaternion `a + b i + c j + d k`. -/
def toH (q : Quat) : ℍ[ℝ] := (⟨q.a, q.b, q.c, q.d⟩ : QuaternionAlgebra ℝ (-1) 0 (-1))

/-- A vector as a quaternion without scalar part. -/
def vecH (v : V3 ℝ) : ℍ[ℝ] := (⟨0, v.x, v.y, v.z⟩ : QuaternionAlgebra ℝ (-1) 0 (-1))

/-- Squared length of a quaternion. -/
def lenSq (q : Quat) : ℝ := q.a ^ 2 + q.b ^ 2 + q.c ^ 2 + q.d ^ 2

end Spec

open Spec

@[simp] theorem toH_re (q : Quat) : (toH q).re = q.a := rfl
@[simp] theorem toH_imI (q : Quat) : (toH q).imI = q.b := rfl
@[simp] theorem toH_imJ (q : Quat) : (toH q).imJ = q.c := rfl
@[simp] theorem toH_imK (q : Quat) : (toH q).imK = q.d := rfl
@[simp] theorem vecH_re (v : V3 ℝ) : (vecH v).re = 0 := rfl
@[simp] theorem vecH_imI (v : V3 ℝ) : (vecH v).imI = v.x := rfl
@[simp] theorem vecH_imJ (v : V3 ℝ) : (vecH v).imJ = v.y := rfl
@[simp] theorem vecH_imK (v : V3 ℝ) : (vecH v).imK = v.z := rfl

theorem positiveScalar_lenSq (q : Quat) : lenSq (positiveScalar q) = lenSq q := by
  unfold positiveScalar
  split
  · unfold lenSq; ring
  · rfl

theorem positiveScalar_re (q : Quat) : 0 ≤ (positiveScalar q).a := by
  unfold positiveScalar
  split
  · rename_i h; simp only; linarith
  · rename_i h; exact not_lt.1 h

theorem rotateVector_positiveScalar (q : Quat) (v : V3 ℝ) :
    rotateVector (positiveScalar q) v = rotateVector q v := by
  unfold positiveScalar
  split
  · unfold rotateVector; ext <;> simp only <;> ring
  · rfl

/-- C31: quaternions from Euler angles have length 1 and a non-negative scalar part. -/
theorem C31_euler_unit (alpha beta gamma : ℝ) :
    lenSq (rotationFromEuler alpha beta gamma) = 1 ∧
      0 ≤ (rotationFromEuler alpha beta gamma).a := by
  unfold rotationFromEuler
  refine ⟨?_, positiveScalar_re _⟩
  simp only [positiveScalar_lenSq]
  unfold lenSq
  have h1 := Real.sin_sq_add_cos_sq (beta / 2)
  have h2 := Real.sin_sq_add_cos_sq ((alpha + gamma) / 2)
  have h3 := Real.sin_sq_add_cos_sq ((alpha - gamma) / 2)
  linear_combination h1 + (Real.cos (beta / 2)) ^ 2 * h2 + (Real.sin (beta / 2)) ^ 2 * h3

theorem rodrigues_norm_ne {r : V3 ℝ} (h : r ≠ ⟨0, 0, 0⟩) :
    Real.sqrt (r.x ^ 2 + r.y ^ 2 + r.z ^ 2) ≠ 0 := by
  rw [Real.sqrt_ne_zero (by positivity)]
  intro h0
  apply h
  have hx : r.x = 0 := by nlinarith [sq_nonneg r.x, sq_nonneg r.y, sq_nonneg r.z]
  have hy : r.y = 0 := by nlinarith [sq_nonneg r.x, sq_nonneg r.y, sq_nonneg r.z]
  have hz : r.z = 0 := by nlinarith [sq_nonneg r.x, sq_nonneg r.y, sq_nonneg r.z]
  ext <;> assumption

/-- C31: quaternions from Rodrigues vectors have length 1 and a non-negative scalar part.
Partial: the zero vector gives NaN, see `C31_rodrigues_zero`. -/
theorem C31_rodrigues_unit_partial {r : V3 ℝ} (h : r ≠ ⟨0, 0, 0⟩) :
    ∃ q, rotationFromRodrigues r = some q ∧ lenSq q = 1 ∧ 0 ≤ q.a := by
  have hs := rodrigues_norm_ne h
  unfold rotationFromRodrigues
  simp only
  rw [if_neg hs]
  refine ⟨_, rfl, ?_, positiveScalar_re _⟩
  rw [positiveScalar_lenSq]
  unfold lenSq
  simp only
  have h1 := Real.sin_sq_add_cos_sq (Real.arctan (Real.sqrt (r.x ^ 2 + r.y ^ 2 + r.z ^ 2)))
  have h2 : Real.sqrt (r.x ^ 2 + r.y ^ 2 + r.z ^ 2) ^ 2 = r.x ^ 2 + r.y ^ 2 + r.z ^ 2 :=
    Real.sq_sqrt (by positivity)
  generalize Real.sqrt (r.x ^ 2 + r.y ^ 2 + r.z ^ 2) = n at *
  rw [div_pow, div_pow, div_pow]
  field_simp
  linear_combination n ^ 2 * h1 - Real.sin (Real.arctan n) ^ 2 * h2

/-- C31 is false for the zero Rodrigues vector, the identity rotation: NaN components. -/
theorem C31_rodrigues_zero : rotationFromRodrigues ⟨0, 0, 0⟩ = none := by
  simp [rotationFromRodrigues]

/-- C31: the vector rotation is `q v q*`. -/
theorem C31_rotate_is_conjugation (q : Quat) (v : V3 ℝ) :
    vecH (rotateVector q v) = toH q * vecH v * star (toH q) := by
  apply Quaternion.ext <;> simp [rotateVector] <;> ring

/-- C31: rotations compose as quaternions multiply. -/
theorem C31_rotate_mul {p q r : Quat} (h : toH r = toH p * toH q) (v : V3 ℝ) :
    rotateVector r v = rotateVector p (rotateVector q v) := by
  have ha := congrArg (fun x : ℍ[ℝ] => x.re) h
  have hb := congrArg (fun x : ℍ[ℝ] => x.imI) h
  have hc := congrArg (fun x : ℍ[ℝ] => x.imJ) h
  have hd := congrArg (fun x : ℍ[ℝ] => x.imK) h
  simp at ha hb hc hd
  unfold rotateVector
  rw [ha, hb, hc, hd]
  ext <;> simp only <;> ring

/-- C31: unit quaternions preserve dot products (and so lengths). -/
theorem C31_rotate_isometry {q : Quat} (h : lenSq q = 1) (v w : V3 ℝ) :
    (rotateVector q v).dot (rotateVector q w) = v.dot w := by
  unfold lenSq at h
  unfold rotateVector V3.dot
  simp only
  linear_combination ((q.a ^ 2 + q.b ^ 2 + q.c ^ 2 + q.d ^ 2) + 1) *
    (v.x * w.x + v.y * w.y + v.z * w.z) * h

/-- C31: unit quaternions preserve handedness. -/
theorem C31_rotate_cross {q : Quat} (h : lenSq q = 1) (v w : V3 ℝ) :
    (rotateVector q v).cross (rotateVector q w) = rotateVector q (v.cross w) := by
  have key : (rotateVector q v).cross (rotateVector q w) =
      V3.smul (lenSq q) (rotateVector q (v.cross w)) := by
    unfold rotateVector V3.cross V3.smul lenSq
    ext <;> simp only <;> ring
  rw [key, h]
  unfold V3.smul
  ext <;> simp

/-- C31: Euler angles `(α, β, γ)` give the (passive) Bunge rotation: the vector is rotated by
`-α` about `z`, then `-β` about `x`, then `-γ` about `z`. -/
theorem C31_euler_is_bunge (alpha beta gamma : ℝ) (v : V3 ℝ) :
    rotateVector (rotationFromEuler alpha beta gamma) v =
      rotZ (-gamma) (rotX (-beta) (rotZ (-alpha) v)) := by
  unfold rotationFromEuler
  simp only [rotateVector_positiveScalar]
  -- as a product of quaternions
  have hz : ∀ (t : ℝ) (w : V3 ℝ),
      rotateVector ⟨Real.cos (t / 2), 0, 0, -Real.sin (t / 2)⟩ w = rotZ (-t) w := by
    intro t w
    have h1 : Real.cos t = Real.cos (t / 2) ^ 2 - Real.sin (t / 2) ^ 2 := by
      rw [← Real.cos_two_mul']; congr 1; ring
    have h2 : Real.sin t = 2 * Real.sin (t / 2) * Real.cos (t / 2) := by
      rw [← Real.sin_two_mul]; congr 1; ring
    have h3 := Real.sin_sq_add_cos_sq (t / 2)
    unfold rotateVector rotZ
    rw [Real.cos_neg, Real.sin_neg, h1, h2]
    ext <;> simp only
    · ring
    · ring
    · linear_combination w.z * h3
  have hx : ∀ (t : ℝ) (w : V3 ℝ),
      rotateVector ⟨Real.cos (t / 2), -Real.sin (t / 2), 0, 0⟩ w = rotX (-t) w := by
    intro t w
    have h1 : Real.cos t = Real.cos (t / 2) ^ 2 - Real.sin (t / 2) ^ 2 := by
      rw [← Real.cos_two_mul']; congr 1; ring
    have h2 : Real.sin t = 2 * Real.sin (t / 2) * Real.cos (t / 2) := by
      rw [← Real.sin_two_mul]; congr 1; ring
    have h3 := Real.sin_sq_add_cos_sq (t / 2)
    unfold rotateVector rotX
    rw [Real.cos_neg, Real.sin_neg, h1, h2]
    ext <;> simp only
    · linear_combination w.x * h3
    · ring
    · ring
  rw [← hz, ← hx, ← hz]
  have hs1 : Real.cos ((alpha + gamma) / 2) = Real.cos (alpha / 2) * Real.cos (gamma / 2) -
      Real.sin (alpha / 2) * Real.sin (gamma / 2) := by rw [add_div, Real.cos_add]
  have hs2 : Real.sin ((alpha + gamma) / 2) = Real.sin (alpha / 2) * Real.cos (gamma / 2) +
      Real.cos (alpha / 2) * Real.sin (gamma / 2) := by rw [add_div, Real.sin_add]
  have hd1 : Real.cos ((alpha - gamma) / 2) = Real.cos (alpha / 2) * Real.cos (gamma / 2) +
      Real.sin (alpha / 2) * Real.sin (gamma / 2) := by rw [sub_div, Real.cos_sub]
  have hd2 : Real.sin ((alpha - gamma) / 2) = Real.sin (alpha / 2) * Real.cos (gamma / 2) -
      Real.cos (alpha / 2) * Real.sin (gamma / 2) := by rw [sub_div, Real.sin_sub]
  rw [hs1, hs2, hd1, hd2]
  have h2 : toH ⟨Real.cos (beta / 2) * Real.cos (alpha / 2), -Real.sin (beta / 2) * Real.cos (alpha / 2),
      -Real.sin (beta / 2) * Real.sin (alpha / 2), -Real.cos (beta / 2) * Real.sin (alpha / 2)⟩ =
      toH ⟨Real.cos (beta / 2), -Real.sin (beta / 2), 0, 0⟩ *
        toH ⟨Real.cos (alpha / 2), 0, 0, -Real.sin (alpha / 2)⟩ := by
    apply Quaternion.ext <;> simp
  rw [← C31_rotate_mul h2]
  refine C31_rotate_mul ?_ v
  apply Quaternion.ext <;> simp <;> ring

/-- C31: a (non-zero) Rodrigues vector gives the rotation about its direction by twice the
arcus tangent of its length. -/
theorem C31_rodrigues_is_rotation {r : V3 ℝ} (h : r ≠ ⟨0, 0, 0⟩) (v : V3 ℝ) :
    let n := Real.sqrt (r.x ^ 2 + r.y ^ 2 + r.z ^ 2)
    (rotationFromRodrigues r).map (fun q => rotateVector q v) =
      some (rotAxis ⟨r.x / n, r.y / n, r.z / n⟩ (2 * Real.arctan n) v) := by
  intro n
  have hs : n ≠ 0 := rodrigues_norm_ne h
  have hn2 : n ^ 2 = r.x ^ 2 + r.y ^ 2 + r.z ^ 2 := Real.sq_sqrt (by positivity)
  unfold rotationFromRodrigues
  simp only
  rw [if_neg hs]
  simp only [Option.map_some, rotateVector_positiveScalar, Option.some.injEq]
  change rotateVector ⟨Real.cos (Real.arctan n), Real.sin (Real.arctan n) * r.x / n,
    Real.sin (Real.arctan n) * r.y / n, Real.sin (Real.arctan n) * r.z / n⟩ v = _
  have h1 := Real.sin_sq_add_cos_sq (Real.arctan n)
  obtain ⟨x, hx⟩ : ∃ x, x = r.x / n := ⟨_, rfl⟩
  obtain ⟨y, hy⟩ : ∃ y, y = r.y / n := ⟨_, rfl⟩
  obtain ⟨z, hz⟩ : ∃ z, z = r.z / n := ⟨_, rfl⟩
  have hu : x ^ 2 + y ^ 2 + z ^ 2 = 1 := by
    rw [hx, hy, hz, div_pow, div_pow, div_pow]
    field_simp
    exact hn2.symm
  rw [mul_div_assoc, mul_div_assoc, mul_div_assoc, ← hx, ← hy, ← hz]
  unfold rotateVector rotAxis V3.dot V3.smul V3.add V3.cross
  simp only
  rw [Real.cos_two_mul', Real.sin_two_mul]
  generalize Real.sin (Real.arctan n) = s at *
  generalize Real.cos (Real.arctan n) = c at *
  ext <;> simp only
  · linear_combination (x * v.x + y * v.y + z * v.z) * x * h1 - s ^ 2 * v.x * hu
  · linear_combination (x * v.x + y * v.y + z * v.z) * y * h1 - s ^ 2 * v.y * hu
  · linear_combination (x * v.x + y * v.y + z * v.z) * z * h1 - s ^ 2 * v.z * hu

/-- A rotation of 90 degrees about `z`, and one whose scalar part is negated. -/
example : rotationFromEuler 0 0 0 = ⟨1, 0, 0, 0⟩ ∧
    rotationFromEuler (2 * Real.pi) 0 (2 * Real.pi) = ⟨1, 0, 0, 0⟩ := by
  unfold rotationFromEuler positiveScalar
  have h : (2 * Real.pi + 2 * Real.pi) / 2 = 2 * Real.pi := by ring
  simp [h]

example : (⟨0, 0, 1⟩ : V3 ℝ) ≠ ⟨0, 0, 0⟩ := by simp

end Kp
