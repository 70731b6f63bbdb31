/-
The rotation from sample to detector of a detector, and simulating patterns with it.
-/
import Verif.Model.GetPatterns

namespace Kp
noncomputable section

/-- `np.degToRad`. -/
def degToRad (x : ℝ) : ℝ := x * (Real.pi / 180)

/-- `EBSDDetector.sample_to_detector` (/repo/src/kikuchipy/detectors/_ebsd_detector.py L835-845),
as the matrix. -/
def Detector.sampleToDetector (d : Detector ℝ) : M3 :=
  sampleToDetectorMatrix (degToRad d.sampleTilt) (degToRad d.tilt) (degToRad d.azimuthal)
    (degToRad d.twist)

/-- `EBSDMasterPattern.get_patterns(rotations, detector)`
(/repo/src/kikuchipy/signals/ebsd_master_pattern.py L97-328), with the detector's own rotation. -/
def MasterPattern.simulate (mp : MasterPattern) (rotShape : List ℕ) (rots : List Quat)
    (d : Detector ℝ) (energy : Option ℝ) (dtypeOut : DType) (chunks : List ℕ) :
    Except Err (List ℕ × List (Option (List ℝ))) :=
  mp.getPatterns rotShape rots d d.sampleToDetector energy dtypeOut chunks

end
end Kp
