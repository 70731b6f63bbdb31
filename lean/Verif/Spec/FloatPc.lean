import Verif.Spec.Detector
import Mathlib.Data.Real.Basic

/-
Specification for C115: detectors with usual sizes, and how far a point (pixels to the right, pixels
down, distance in pixels) may move.
-/

namespace Kp.Spec

/-- At least one pixel in both directions, and a binning factor and a pixel size (in microns) which
are not extremely small or large. -/
structure UsualDetector (d : Detector ℝ) : Prop where
  rows : 0 < d.nrows
  columns : 0 < d.ncols
  rows_le : d.nrows ≤ 2 ^ 50
  columns_le : d.ncols ≤ 2 ^ 50
  binning : 1 / 2 ^ 20 ≤ d.binning ∧ d.binning ≤ 2 ^ 20
  pxSize : 1 / 2 ^ 20 ≤ d.pxSize ∧ d.pxSize ≤ 2 ^ 20

/-- Point `Q` is point `P`, up to a fraction `ε` of the size of the detector and the distance from the
upper left corner (in both directions), and up to a fraction `ε` of the detector distance. -/
def MovedAtMost (ε : ℝ) (nr nc : ℕ) (P Q : ℝ × ℝ × ℝ) : Prop :=
  |Q.1 - P.1| ≤ ε * (nc + |P.1|) ∧ |Q.2.1 - P.2.1| ≤ ε * (nr + |P.2.1|) ∧
    |Q.2.2 - P.2.2| ≤ ε * (1 / 2 ^ 100 + |P.2.2|)

end Kp.Spec
