import Verif.Model.MasterPattern
import Mathlib.Analysis.SpecialFunctions.Trigonometric.Arctan
import Mathlib.Data.Real.Sign

/-! Terms used in the statement of C158. -/

namespace Kp.Spec
noncomputable section

/-- A coordinate in the square Lambert projection of the direction with components `a` (along the
coordinate) and `b` (across) and `z`, from -1 to 1: the distance from the center of the square, of
the square through the point, is `√(1 - |z|)`, and along a side of that square the angle increases
evenly. -/
def squareCoordinate (a b z : ℝ) : ℝ :=
  Real.sign a * Real.sqrt (1 - |z|) *
    (if |b| ≤ |a| then 1 else Real.arctan (|a| / |b|) / (Real.pi / 4))

/-- The row, counted from the first one and with fractions, of a direction in a master pattern of
`n × n` pixels: the centers of the first and last rows are on the edges of the square. -/
def masterRow (n : ℕ) (u : V3 ℝ) : ℝ := ((n : ℝ) - 1) * (1 + squareCoordinate u.y u.x u.z) / 2

/-- The column. -/
def masterColumn (n : ℕ) (u : V3 ℝ) : ℝ := ((n : ℝ) - 1) * (1 + squareCoordinate u.x u.y u.z) / 2

/-- The vectors differ by at most `η` in every component. -/
def ComponentsWithin (η : ℝ) (v u : V3 ℝ) : Prop := |v.x - u.x| ≤ η ∧ |v.y - u.y| ≤ η ∧ |v.z - u.z| ≤ η

/-- The quaternions differ by at most `κ` in every component. -/
def QuatWithin (κ : ℝ) (q r : Quat) : Prop :=
  |q.a - r.a| ≤ κ ∧ |q.b - r.b| ≤ κ ∧ |q.c - r.c| ≤ κ ∧ |q.d - r.d| ≤ κ

/-- The interpolation is at row `y` and column `x`, up to `t` pixels. -/
def ReadsAt (t y x : ℝ) (p : Interp) : Prop := |p.nii + p.di - y| ≤ t ∧ |p.nij + p.dj - x| ≤ t

end
end Kp.Spec
