import Verif.Model.MergedPositions
import Verif.Spec.MergeMaps

/-
Specification of where the points of merged maps are.
-/

namespace Kp.Spec

section
variable {K R D : Type} [Field K] [LinearOrder K]

/-- Row `r` and column `c` of a map have the coordinates `(y, x)`. -/
def At (g : GridMap K R D) (r c : ℕ) (y x : K) : Prop := y = r * g.dy ∧ x = c * g.dx

/-- Row `r` and column `c` are those of a point in the data of a map. -/
def HasData (g : GridMap K R D) (r c : ℕ) : Prop :=
  r < g.ny ∧ c < g.nx ∧ g.inData (r * g.nx + c) = true

/-- Mean of the first `n` scores in a row and column. -/
def meanAt (g : GridMap K R D) (r c n : ℕ) : K :=
  ((List.range n).map (g.scores (r * g.nx + c))).sum / n

/-- The smallest box with all points in the data of a map. -/
structure IsBox (g : GridMap K R D) (b : DataBox) : Prop where
  inside : ∀ r c, HasData g r c → b.r0 ≤ r ∧ r < b.r1 ∧ b.c0 ≤ c ∧ c < b.c1
  top : ∃ c, HasData g b.r0 c
  bottom : ∃ r c, r + 1 = b.r1 ∧ HasData g r c
  left : ∃ r, HasData g r b.c0
  right : ∃ r c, c + 1 = b.c1 ∧ HasData g r c

end

end Kp.Spec
