/-
Specification of C116: where on a pattern a crystal direction is.
-/
import Verif.Model.PatternOverlay
import Verif.Spec.Detector

namespace Kp.Spec

/-- `u` is the unit vector in the crystal that the centre of pixel `(r, c)` of a pattern of `nr` x
`nc` pixels looks along: from the source point to the pixel centre (gnomonic coordinates, similar
triangles) in the detector frame, `s` in the sample frame (`m` is sample to detector), `u` after the
sample-to-crystal rotation `q`. -/
def PixelDirection (nr nc : ℕ) (m : M3) (q : Quat) (p : PC ℝ) (r c : ℕ) (u : V3 ℝ) : Prop :=
  ∃ s : V3 ℝ, s.dot s = 1 ∧ u = rotateVector q s ∧
    ∃ t : ℝ, 0 < t ∧ m.apply s = V3.smul t
      ⟨(gnomonic nr nc p ((r : ℝ) + 1 / 2, (c : ℝ) + 1 / 2)).2,
       (gnomonic nr nc p ((r : ℝ) + 1 / 2, (c : ℝ) + 1 / 2)).1, 1⟩

/-- The image point `(x, y)` (in an image, pixel `(r, c)` is the square of side one about `(c, r)`)
is inside pixel `(r, c)`. -/
def InsidePixel (r c : ℕ) (x y : ℝ) : Prop := |x - c| < 1 / 2 ∧ |y - r| < 1 / 2

/-- The image point `(x, y)` is on the drawn line. -/
def OnDrawnLine (l : BandTrace) (x y : ℝ) : Prop :=
  ∃ s : ℝ, 0 ≤ s ∧ s ≤ 1 ∧ x = l.x0 + s * (l.x1 - l.x0) ∧ y = l.y0 + s * (l.y1 - l.y0)

end Kp.Spec
