/-
A geometrical simulation of the patterns simulated from a master pattern: what
`KikuchiPatternSimulator.on_detector(detector, rotations)` gets from the very rotations and detector
given to `EBSDMasterPattern.get_patterns(rotations, detector)`.
-/
import Verif.Model.PatternSimulation
import Verif.Model.GetPatterns

namespace Kp
noncomputable section

/-- `Rotation.to_matrix()` of orix, called in
/repo/src/kikuchipy/simulations/kikuchi_pattern_simulator.py L263.  orix is not part of /repo: this
is the usual matrix of a unit quaternion, which acts on columns. -/
def Quat.toMatrix (q : Quat) : M3 :=
  ⟨⟨q.a ^ 2 + q.b ^ 2 - q.c ^ 2 - q.d ^ 2, 2 * (q.b * q.c - q.a * q.d),
      2 * (q.b * q.d + q.a * q.c)⟩,
    ⟨2 * (q.b * q.c + q.a * q.d), q.a ^ 2 - q.b ^ 2 + q.c ^ 2 - q.d ^ 2,
      2 * (q.c * q.d - q.a * q.b)⟩,
    ⟨2 * (q.b * q.d - q.a * q.c), 2 * (q.c * q.d + q.a * q.b),
      q.a ^ 2 - q.b ^ 2 - q.c ^ 2 + q.d ^ 2⟩⟩

/-- `u_os` (kikuchi_pattern_simulator.py L259-264): `rotations.to_matrix()` times the transposed
sample-to-detector matrix `m`, one matrix per rotation. -/
def orientationMatrices (rots : List Quat) (m : M3) : List M3 :=
  rots.map fun q => M3.matMul q.toMatrix m.transpose

/-- The arguments of `on_detector` with their matrices (kikuchi_pattern_simulator.py L217-270) for a
detector with sample-to-detector matrix `m`. -/
def simulationFor (d : Detector ℝ) (m base recbase : M3) (reduce : Miller → Miller)
    (reflectors : List Miller) (shape : List ℕ) (rots : List Quat) : SimulationArgs where
  detector := d
  base := base
  recbase := recbase
  reduce := reduce
  reflectors := reflectors
  shape := shape
  orientations := orientationMatrices rots m

end
end Kp
