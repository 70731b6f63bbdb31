import Verif.Model.FitPc

/-
Model of `fit_pc` with the projective transformation, which is the default
(`src/kikuchipy/detectors/_fit_projection_center.py` L40-129, L132-176 and
`src/kikuchipy/detectors/_ebsd_detector.py` L1525-1575), over the real numbers.

orix' rotations are active: `Rotation.from_axes_angles(axis, angle) * v` turns `v` about the axis.
scikit-image's `ProjectiveTransform.from_estimate` is modelled from what is known of it
(`IsProjectiveEstimate`).
-/

namespace Kp
noncomputable section

/-- A turn about the x axis. -/
def turnX (a : ℝ) (v : V3 ℝ) : V3 ℝ :=
  ⟨v.x, Real.cos a * v.y - Real.sin a * v.z, Real.sin a * v.y + Real.cos a * v.z⟩

/-- A turn about the z axis. -/
def turnZ (a : ℝ) (v : V3 ℝ) : V3 ℝ :=
  ⟨Real.cos a * v.x - Real.sin a * v.y, Real.sin a * v.x + Real.cos a * v.y, v.z⟩

/-- `rot_ztilt * rot_xtilt * v` (`_fit_projection_center.py` L72-74, L150, L157), from the last row
of `vh`. -/
def fromPlane (n v : V3 ℝ) : V3 ℝ :=
  turnZ (-(tiltsFromNormal n).2) (turnX (-(tiltsFromNormal n).1) v)

/-- `~(rot_ztilt * rot_xtilt) * v` (`_fit_projection_center.py` L141). -/
def toPlane (n v : V3 ℝ) : V3 ℝ :=
  turnX (tiltsFromNormal n).1 (turnZ (tiltsFromNormal n).2 v)

/-- The matrix of a projective transformation, `tform.params`. -/
structure Homography where
  x : V3 ℝ
  y : V3 ℝ
  w : V3 ℝ

/-- The denominator in a map position. -/
def Homography.den (h : Homography) (ij : ℝ × ℝ) : ℝ := h.w.dot ⟨ij.1, ij.2, 1⟩

/-- One row of `np.dot(indices_flat, matrix)` divided by its last value
(`_fit_projection_center.py` L147-148, L154-155, L175). -/
def Homography.at (h : Homography) (ij : ℝ × ℝ) : ℝ × ℝ :=
  (h.x.dot ⟨ij.1, ij.2, 1⟩ / h.den ij, h.y.dot ⟨ij.1, ij.2, 1⟩ / h.den ij)

/-- `pc_trim_mean` of the centered PCs (`_fit_projection_center.py` L45, L110). -/
def trimPoint (pcs : List (PC ℝ)) : V3 ℝ :=
  let m := pcMean pcs
  ⟨trimMean (pcs.map fun p => p.x - m.x), trimMean (pcs.map fun p => p.y - m.y),
    trimMean (pcs.map fun p => p.z - m.z)⟩

/-- One fitted PC: a point in the plane, turned back, with the trimmed mean and the mean added
(`_fit_projection_center.py` L115-116, L147-158). -/
def projectivePc (pcs : List (PC ℝ)) (n : V3 ℝ) (h : Homography) (ij : ℝ × ℝ) : PC ℝ :=
  let uv := h.at ij
  let v := fromPlane n ⟨uv.1, uv.2, 0⟩
  let t := trimPoint pcs
  let m := pcMean pcs
  ⟨v.x + t.x + m.x, v.y + t.y + m.y, v.z + t.z + m.z⟩

/-- `fit_pc(..., transformation="projective")` (`_ebsd_detector.py` L1530-1572, `fit_plane_to_pc`,
`_fit_projection_center.py` L81-129, and `fit_pc_projective`, L132-161). `svd` gives the last row of
`vh` of the singular value decomposition, and `estimate` the estimated transformation, `none` if
this fails. A failed estimation is simplified to an error; with scikit-image before 0.26.0 it gives
PCs which are not numbers (L171-173). -/
def Detector.fitPcProjective (d : Detector ℝ) (pcIdx mapIdx : List (ℝ × ℝ))
    (isOutlier : Option (List Bool)) (svd : List (V3 ℝ) → V3 ℝ)
    (estimate : List ((ℝ × ℝ) × (ℝ × ℝ)) → Option Homography) : Except Err (Detector ℝ) :=
  if d.pc.length = 1 then .error .valueError
  else if pcIdx.length ≠ d.pc.length then .error .valueError
  else if (isOutlier.map List.length).getD d.pc.length ≠ d.pc.length then .error .valueError
  else
    let pcs := inliers isOutlier d.pc
    let idx := inliers isOutlier pcIdx
    let n := svd (centeredPcs pcs)
    let plane := (centeredPcs pcs).map fun v => ((toPlane n v).x, (toPlane n v).y)
    match estimate (idx.zip plane) with
    | none => .error .valueError
    | some h =>
      let pcFit := idx.map (projectivePc pcs n h)
      match linregressSlope (pcFit.map PC.z) (pcFit.map PC.y) with
      | .error e => .error e
      | .ok slope =>
        let xTilt := Real.pi / 2 + Real.arctan slope
        .ok { d with
          nav := [mapIdx.length]
          pc := mapIdx.map (projectivePc pcs n h)
          sampleTilt := 90 - rad2deg xTilt - d.tilt }

end
end Kp
