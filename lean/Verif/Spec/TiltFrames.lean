import Verif.Model.PseudoSymmetry
import Verif.Model.CropSimulation
import Verif.Spec.SelfRefinement

/-
Specification for `Verif.Props.TiltFrames` (C135).
-/

namespace Kp.Spec
noncomputable section

/-- A detector with the same screen and PCs, but other angles, in degrees. -/
def withAngles (d : Detector ℝ) (sampleTilt tilt azimuthal twist : ℝ) : Detector ℝ :=
  { d with sampleTilt := sampleTilt, tilt := tilt, azimuthal := azimuthal, twist := twist }

/-- A crystal with orientation `q` in front of detector `d` and one with orientation `q'` in front of
detector `d'` are in the same position relative to the screen: sample vectors which are the same vector in
the frame of the screen are the same vector in the frame of the crystal. -/
def SameAttitude (d : Detector ℝ) (q : Quat) (d' : Detector ℝ) (q' : Quat) : Prop :=
  ∀ v v' : V3 ℝ, d.sampleToDetector.apply v = d'.sampleToDetector.apply v' →
    rotateVector q v = rotateVector q' v'

/-- The same refinement with the angles of another detector. -/
def refinedWithAngles (a : RefineArgs) (d' : Detector ℝ) : RefineArgs :=
  { a with det := d', m := d'.sampleToDetector }

end
end Kp.Spec
