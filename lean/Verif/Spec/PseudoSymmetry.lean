import Verif.Model.PseudoSymmetry
import Verif.Spec.SelfRefinement

/-
Specification for `Verif.Props.PseudoSymmetry` (C134).
-/

namespace Kp.Spec
noncomputable section

/-- A quaternion of length one. -/
def IsUnitQuat (q : Quat) : Prop := q.a ^ 2 + q.b ^ 2 + q.c ^ 2 + q.d ^ 2 = 1

/-- `q` rotates first by `r`, then by `op`. -/
def AppliedAfter (op r q : Quat) : Prop :=
  ∀ v : V3 ℝ, rotateVector q v = rotateVector op (rotateVector r v)

/-- The three angles of every rotation describe this rotation. -/
def FaithfulEuler (toEuler : Quat → List ℝ) : Prop :=
  ∀ q, IsUnitQuat q → ∃ alpha beta gamma, toEuler q = [alpha, beta, gamma] ∧
    SameRotation (rotationFromEuler alpha beta gamma) q

/-- The intensity of a master pattern with hemispheres `u` and `l` in a direction. -/
def intensityIn (u l : Img ℝ) (v : V3 ℝ) : ℝ :=
  let p := lambertInterp v u.cols u.rows (((u.cols : ℝ) - 1) / 2)
  if 0 ≤ v.z then masterPixel u p else masterPixel l p

/-- Rotation by `op` maps a master pattern onto itself. -/
def IsSymmetryOf (u l : Img ℝ) (op : Quat) : Prop :=
  ∀ v, intensityIn u l (rotateVector op v) = intensityIn u l v

/-- The starting points of refinement of a point with rotation `r` in the crystal map: number 0 is this
rotation, number `k + 1` is operator `k` applied after it. -/
def IsStartNumber (ops : List Quat) (r : Quat) (i : ℕ) (q : Quat) : Prop :=
  (i = 0 ∧ SameRotation q r) ∨
    ∃ k op, i = k + 1 ∧ ops[k]? = some op ∧ AppliedAfter op r q

/-- No trust region, or one for all angles, or one for each. -/
def GoodTrust (t : Option TrustRegion) : Prop :=
  ∀ r, t = some r → r.values.length = 3 ∨ r.values.length = 1

/-- Where in the rotations of a crystal map those of point `j` are: points not in the data have none. -/
def rowInData (inData : List Bool) (j : ℕ) : ℕ := (inData.take j).count true

/-- `r` is the (best) rotation of point `j` of a crystal map. -/
def IsRotationOf (inData : List Bool) (rots : List (List Quat)) (j : ℕ) (r : Quat) : Prop :=
  inData[j]? = some true ∧ ∃ more, rots[rowInData inData j]? = some (r :: more)

/-- A crystal map whose points in the data have rotations, of length one, and a mask of points to refine
which are in the data. -/
structure GoodMap (points inData : List Bool) (rots : List (List Quat)) : Prop where
  same : points.length = inData.length
  rows : rots.length = inData.count true
  nonempty : ∀ r ∈ rots, r ≠ []
  unit : ∀ r ∈ rots, ∀ q ∈ r, IsUnitQuat q
  inside : ∀ j : ℕ, points[j]? = some true → inData[j]? = some true

end
end Kp.Spec
