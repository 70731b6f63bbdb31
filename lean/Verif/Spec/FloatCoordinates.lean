import Verif.Spec.Detector
import Mathlib.Data.Real.Basic

/-! Terms used in the statement of C155. -/

namespace Kp.Spec

/-- A screen of up to about a million pixels in each direction, with a projection center not
further than two screens away from its upper left corner, and a distance to it of between a
millionth of and a million times its height. -/
structure UsualScreen (nr nc : ℕ) (p : PC ℝ) : Prop where
  nr_ge : 1 ≤ nr
  nr_le : nr ≤ 2 ^ 20
  nc_ge : 1 ≤ nc
  nc_le : nc ≤ 2 ^ 20
  x_le : |p.x| ≤ 2
  y_le : |p.y| ≤ 2
  z_ge : 1 / 2 ^ 20 ≤ p.z
  z_le : p.z ≤ 2 ^ 20

/-- The size of a pixel in gnomonic coordinates: the distance from the projection center to the
screen, which is `p.z` times the height of the screen, is the unit. -/
noncomputable def pixelGnomonic (nr : ℕ) (p : PC ℝ) : ℝ := 1 / (p.z * nr)

end Kp.Spec
