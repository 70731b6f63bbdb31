import Verif.Model.FitPc

/-
Model of estimating the tilt about the detector x axis with detection of outliers:
`estimate_xtilt_linear_robust` (`src/kikuchipy/detectors/_fit_projection_center.py` L207-223) and
`EBSDDetector.estimate_xtilt` (`src/kikuchipy/detectors/_ebsd_detector.py` L1190-1240), over the real
numbers.

scikit-learn's `RANSACRegressor` with default arguments is modelled from knowledge of its source: in
each trial a line is fitted to two points drawn at random; points within the median absolute deviation
of all values (measured along y) are inliers; a trial with more inliers than the best so far, or as
many and not a lower score, becomes the best; the regression is repeated with the inliers of the best.
Which points are drawn, in how many trials, and the scores are parameters. Plotting is not modelled.
-/

namespace Kp
noncomputable section

open Classical in
/-- `np.median` of a list which is not empty. -/
def medianOf (l : List ℝ) : ℝ :=
  let s := l.insertionSort (· ≤ ·)
  if l.length % 2 = 1 then s.getD (l.length / 2) 0
  else (s.getD (l.length / 2 - 1) 0 + s.getD (l.length / 2) 0) / 2

/-- The default `residual_threshold`: median absolute deviation. -/
def medianDeviation (ys : List ℝ) : ℝ := medianOf (ys.map fun y => |y - medianOf ys|)

open Classical in
/-- Inliers of a trial in which points `i` and `j` are drawn. -/
def ransacMask (zs ys : List ℝ) (ij : ℕ × ℕ) : List Bool :=
  let z2 := [zs.getD ij.1 0, zs.getD ij.2 0]
  let y2 := [ys.getD ij.1 0, ys.getD ij.2 0]
  let slope := regressorSlope z2 y2
  let intercept := listMean y2 - slope * listMean z2
  (zs.zip ys).map fun p => decide (|p.2 - (slope * p.1 + intercept)| ≤ medianDeviation ys)

open Classical in
/-- One trial: number of inliers, score and inliers of the best trial so far. -/
def ransacStep (zs ys : List ℝ) (score : ℕ × ℕ → ℝ) (best : Option (ℕ × ℝ × List Bool))
    (ij : ℕ × ℕ) : Option (ℕ × ℝ × List Bool) :=
  let m := ransacMask zs ys ij
  let n := m.count true
  match best with
  | none => if n < 1 then none else some (n, score ij, m)
  | some (nBest, sBest, mBest) =>
    if n < nBest then some (nBest, sBest, mBest)
    else if n = nBest ∧ score ij < sBest then some (nBest, sBest, mBest)
    else some (n, score ij, m)

/-- `estimate_xtilt_linear_robust` (L207-223): tilt and outliers. `ValueError` if no trial had
inliers. -/
def Detector.robustXtilt (d : Detector ℝ) (trials : List (ℕ × ℕ)) (score : ℕ × ℕ → ℝ) :
    Except Err (ℝ × List Bool) :=
  let zs := d.pc.map PC.z
  let ys := d.pc.map PC.y
  match trials.foldl (ransacStep zs ys score) none with
  | none => .error .valueError
  | some (_, _, m) =>
    let isOutlier := m.map not
    .ok (Real.pi / 2 + Real.arctan (regressorSlope (inliers (some isOutlier) zs)
      (inliers (some isOutlier) ys)), isOutlier)

/-- `estimate_xtilt` (`_ebsd_detector.py` L1190-1240): the tilt and, if they were detected, the
outliers. -/
def Detector.estimateXtiltWith (d : Detector ℝ) (detectOutliers degrees returnOutliers : Bool)
    (trials : List (ℕ × ℕ)) (score : ℕ × ℕ → ℝ) : Except Err (ℝ × Option (List Bool)) :=
  let unit (x : ℝ) := if degrees then rad2deg x else x
  if d.pc.length = 1 then .error .valueError
  else if detectOutliers || returnOutliers then
    match d.robustXtilt trials score with
    | .error e => .error e
    | .ok (x, o) => .ok (unit x, some o)
  else
    match d.estimateXtilt with
    | .error e => .error e
    | .ok x => .ok (unit x, none)

end
end Kp
