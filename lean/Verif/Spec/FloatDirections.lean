import Verif.Spec.FloatCoordinates
import Mathlib.Data.Fin.VecNotation
import Mathlib.Algebra.BigOperators.Fin
import Mathlib.Analysis.Real.Sqrt

/-! Terms used in the statement of C156. -/

namespace Kp.Spec
noncomputable section

/-- From the projection center to the center of a pixel, in units of the height of the screen: to
the right, upwards, and from the sample to the screen. -/
def pixelCenter (nr nc : ℕ) (p : PC ℝ) (row col : ℕ) : Fin 3 → ℝ :=
  ![((col + 1 / 2) / nc - p.x) * (nc / nr), p.y - (row + 1 / 2) / nr, p.z]

/-- Width and height of the screen relative to its distance. -/
def screenAngle (nr nc : ℕ) (p : PC ℝ) : ℝ := (1 + (nc : ℝ) / nr) / p.z

/-- A rotation or reflection: scalar products are kept. -/
def Orthogonal (R : Fin 3 → Fin 3 → ℝ) : Prop :=
  ∀ j k, ∑ i, R i j * R i k = if j = k then 1 else 0

/-- Matrix times vector. -/
def transformed (R : Fin 3 → Fin 3 → ℝ) (v : Fin 3 → ℝ) : Fin 3 → ℝ := fun i => ∑ j, R i j * v j

/-- The length of a vector. -/
def length3 (v : Fin 3 → ℝ) : ℝ := Real.sqrt (∑ i, v i ^ 2)

/-- A matrix in floating point numbers which is a rotation up to rounding errors of its entries. -/
def RoundedRotation (om R : Fin 3 → Fin 3 → ℝ) : Prop :=
  Orthogonal R ∧ ∀ i j, |om i j - R i j| ≤ 1 / 2 ^ 45

/-- A screen which is not more than about a thousand times as large as its distance. -/
structure OrdinaryScreen (nr nc : ℕ) (p : PC ℝ) : Prop extends UsualScreen nr nc p where
  angle_le : screenAngle nr nc p ≤ 2 ^ 10

end
end Kp.Spec
