import Verif.Model.Vec3
import Mathlib.Analysis.SpecialFunctions.Trigonometric.Basic

/-
Model of `_sample_to_detector_matrix` (`detectors/_ebsd_detector.py` L94-149), over ℝ.
-/

namespace Kp
noncomputable section

/-- A 3x3 matrix by rows: the array `basis` (`_ebsd_detector.py` L109-117). -/
@[ext] structure M3 where
  r0 : V3 ℝ
  r1 : V3 ℝ
  r2 : V3 ℝ

/-- Matrix times column vector: the transformation of a sample vector to the detector frame,
`M @ v`, and `np.dot` of a row vector and the transposed matrix
(`signals/util/_master_pattern.py` L197 and L286). -/
def M3.apply (m : M3) (v : V3 ℝ) : V3 ℝ := ⟨m.r0.dot v, m.r1.dot v, m.r2.dot v⟩

/-- Row `i` of the matrix (`basis[i, :]`), `i` in 0, 1, 2. -/
def M3.row (m : M3) (i : Fin 3) : V3 ℝ :=
  match i with
  | 0 => m.r0
  | 1 => m.r1
  | 2 => m.r2

/-- Initial `basis` (`_ebsd_detector.py` L110-117). -/
def basis0 : M3 := ⟨⟨0, 1, 0⟩, ⟨0, 0, 1⟩, ⟨1, 0, 0⟩⟩

/-- Normalisation of the rotation axis (`_ebsd_detector.py` L123-129). -/
def normalizeV (u : V3 ℝ) : V3 ℝ :=
  let norm := Real.sqrt (u.x * u.x + u.y * u.y + u.z * u.z)
  ⟨u.x / norm, u.y / norm, u.z / norm⟩

/-- Rodrigues rotation of one row (`_ebsd_detector.py` L135-147). -/
def rodriguesRow (u : V3 ℝ) (angle : ℝ) (v : V3 ℝ) : V3 ℝ :=
  let c := Real.cos angle
  let s := Real.sin angle
  let oneMinusC := 1 - c
  let dot := u.x * v.x + u.y * v.y + u.z * v.z
  let cx := u.y * v.z - u.z * v.y
  let cy := u.z * v.x - u.x * v.z
  let cz := u.x * v.y - u.y * v.x
  ⟨v.x * c + cx * s + u.x * dot * oneMinusC,
   v.y * c + cy * s + u.y * dot * oneMinusC,
   v.z * c + cz * s + u.z * dot * oneMinusC⟩

/-- One pass of the outer loop (`_ebsd_detector.py` L122-147): all three rows are rotated
by `angle` about the (normalised) row `i`, which was copied before the rows change. -/
def rotateAboutRow (m : M3) (i : Fin 3) (angle : ℝ) : M3 :=
  let u := normalizeV (m.row i)
  ⟨rodriguesRow u angle m.r0, rodriguesRow u angle m.r1, rodriguesRow u angle m.r2⟩

/-- `_sample_to_detector_matrix(sigma, theta, omega, gamma)` (`_ebsd_detector.py`
L100-149): sample tilt, detector tilt, azimuthal and twist, in radians. -/
def sampleToDetectorMatrix (sigma theta omega gamma : ℝ) : M3 :=
  [((0 : Fin 3), -sigma), (0, theta), (1, -omega), (2, -gamma)].foldl
    (fun m ia => rotateAboutRow m ia.1 ia.2) basis0

end
end Kp
