import Verif.Model.Detector
import Mathlib.Data.Real.Basic

/-
Specification of C143: where the source points of a map are, in units of length.
-/

namespace Kp.Spec

/-- The source point of a pattern relative to the upper left corner of the detector, in the unit of
the pixel size: PCx is a fraction of the width of the detector, PCy and PCz of its height. -/
noncomputable def sourcePoint (d : Detector ℝ) (p : PC ℝ) : ℝ × ℝ × ℝ :=
  (p.x * (d.ncols * d.pxSize * d.binning), p.y * (d.nrows * d.pxSize * d.binning),
    p.z * (d.nrows * d.pxSize * d.binning))

/-- The squared distance of two points. -/
noncomputable def squaredDistance (a b : ℝ × ℝ × ℝ) : ℝ :=
  (a.1 - b.1) ^ 2 + (a.2.1 - b.2.1) ^ 2 + (a.2.2 - b.2.2) ^ 2

/-- The PC of the map position in row `y` and column `x` of a map. -/
def pcOfPosition (d : Detector ℝ) (y x : ℕ) : Option (PC ℝ) :=
  match d.nav with
  | [ny, nx] => if y < ny ∧ x < nx then d.pc[y * nx + x]? else none
  | _ => none

/-- All positions of a map, row by row. -/
def allPositions (ny nx : ℕ) : List (ℕ × ℕ) :=
  (List.range ny).flatMap fun y => (List.range nx).map fun x => (y, x)

end Kp.Spec
