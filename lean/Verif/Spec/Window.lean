import Mathlib.Analysis.Real.Sqrt

/-
Specification of window distances.
-/

namespace Kp.Spec

/-- Distance of window element `(i, j)` to the window origin (half the shape). -/
noncomputable def elemDist (n0 n1 i j : ℕ) : ℝ :=
  Real.sqrt (((i : ℝ) - (n0 / 2 : ℕ)) ^ 2 + ((j : ℝ) - (n1 / 2 : ℕ)) ^ 2)

end Kp.Spec
