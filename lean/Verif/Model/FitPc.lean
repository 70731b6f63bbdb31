import Verif.Model.ExtrapolatePc
import Verif.Model.Vec3
import Mathlib.Analysis.SpecialFunctions.Complex.Arg
import Mathlib.Analysis.SpecialFunctions.Trigonometric.Arctan
import Mathlib.Analysis.SpecialFunctions.Trigonometric.Inverse
import Mathlib.Data.List.Sort

/-
Model of fitting a plane to projection centers and estimating tilts:
`src/kikuchipy/detectors/_fit_projection_center.py` and the methods `fit_pc`, `estimate_xtilt` and
`estimate_xtilt_ztilt` of `src/kikuchipy/detectors/_ebsd_detector.py`, over the real numbers.

Library functions are modelled from their documentation: `np.linalg.lstsq` gives a matrix with the
smallest sum of squared errors (`IsLeastSquares`; which one, if there are several, is left open),
`scipy.stats.linregress` and scikit-learn's `LinearRegression` give the slope of the regression
line, `np.linalg.svd` gives as last row of `vh` a unit vector along which the data vary least
(`IsLeastDirection`). The projective transformation is in
`Model/FitPcProjective.lean` and RANSAC in `Model/RobustTilt.lean`; plotting is not modelled.
-/

namespace Kp
noncomputable section

/-- The matrix found by `np.linalg.lstsq`, by rows: coefficients of the map row and column, and
constant terms. -/
structure AffineFit where
  row : PC ℝ
  col : PC ℝ
  const : PC ℝ

/-- One row of `np.dot(indices_flat, matrix)` (`_fit_projection_center.py` L186-187), for a row
`(i, j, 1)` of indices. -/
def AffineFit.at (A : AffineFit) (ij : ℝ × ℝ) : PC ℝ :=
  ⟨ij.1 * A.row.x + ij.2 * A.col.x + A.const.x,
   ij.1 * A.row.y + ij.2 * A.col.y + A.const.y,
   ij.1 * A.row.z + ij.2 * A.col.z + A.const.z⟩

/-- Squared distance of two PCs. -/
def pcSqDist (p q : PC ℝ) : ℝ := (p.x - q.x) ^ 2 + (p.y - q.y) ^ 2 + (p.z - q.z) ^ 2

/-- Sum of squared errors of a fit to PCs at map positions. -/
def AffineFit.sqErr (A : AffineFit) (data : List ((ℝ × ℝ) × PC ℝ)) : ℝ :=
  (data.map fun p => pcSqDist (A.at p.1) p.2).sum

/-- What is known of the matrix returned by `np.linalg.lstsq`. -/
def IsLeastSquares (A : AffineFit) (data : List ((ℝ × ℝ) × PC ℝ)) : Prop :=
  ∀ B : AffineFit, A.sqErr data ≤ B.sqErr data

/-- `a[~is_outlier.ravel()]`, or all rows without outliers (`_fit_projection_center.py`
L101-104). -/
def inliers {α : Type} (isOutlier : Option (List Bool)) (l : List α) : List α :=
  match isOutlier with
  | none => l
  | some o => (l.zip o).filterMap fun p => if p.2 then none else some p.1

/-- Sum of products of the deviations from the means. -/
def codeviation (xs ys : List ℝ) : ℝ :=
  ((xs.zip ys).map fun p => (p.1 - listMean xs) * (p.2 - listMean ys)).sum

/-- `scipy.stats.linregress(xs, ys).slope`; `ValueError` if all `xs` are the same or there are
none. -/
def linregressSlope (xs ys : List ℝ) : Except Err ℝ :=
  if ∀ a ∈ xs, ∀ b ∈ xs, a = b then .error .valueError
  else .ok (codeviation xs ys / codeviation xs xs)

/-- Slope found by scikit-learn's `LinearRegression` with one feature: the smallest one if all `xs`
are the same. -/
def regressorSlope (xs ys : List ℝ) : ℝ :=
  if ∀ a ∈ xs, ∀ b ∈ xs, a = b then 0 else codeviation xs ys / codeviation xs xs

/-- `np.rad2deg`. -/
def rad2deg (x : ℝ) : ℝ := x * (180 / Real.pi)

/-- `np.deg2rad`. -/
def deg2radR (x : ℝ) : ℝ := x * (Real.pi / 180)

/-- `fit_pc(..., transformation="affine")` (`_ebsd_detector.py` L1525-1575 and
`fit_plane_to_pc`, `_fit_projection_center.py` L81-129), where `lstsq` is `np.linalg.lstsq`. PCs, indices and the outlier mask are flattened (so the navigation shape of
the new detector is that of flattened map indices). -/
def Detector.fitPcAffine (d : Detector ℝ) (pcIdx mapIdx : List (ℝ × ℝ))
    (isOutlier : Option (List Bool)) (lstsq : List ((ℝ × ℝ) × PC ℝ) → AffineFit) :
    Except Err (Detector ℝ) :=
  if d.pc.length = 1 then .error .valueError
  else if pcIdx.length ≠ d.pc.length then .error .valueError
  else if (isOutlier.map List.length).getD d.pc.length ≠ d.pc.length then .error .valueError
  else
    let A := lstsq ((inliers isOutlier pcIdx).zip (inliers isOutlier d.pc))
    let pcFit := (inliers isOutlier pcIdx).map A.at
    match linregressSlope (pcFit.map PC.z) (pcFit.map PC.y) with
    | .error e => .error e
    | .ok slope =>
      let xTilt := Real.pi / 2 + Real.arctan slope
      .ok { d with
        nav := [mapIdx.length]
        pc := mapIdx.map A.at
        sampleTilt := 90 - rad2deg xTilt - d.tilt }

/-- `estimate_xtilt(detect_outliers=False, degrees=False)` (`_ebsd_detector.py` L1190-1211 and
`estimate_xtilt_linear`, `_fit_projection_center.py` L192-204). -/
def Detector.estimateXtilt (d : Detector ℝ) : Except Err ℝ :=
  if d.pc.length = 1 then .error .valueError
  else .ok (Real.pi / 2 +
    Real.arctan (regressorSlope (d.pc.map PC.z) (d.pc.map PC.y)))

/-! ### Hyperplane -/

/-- `scipy.stats.trim_mean(a, proportiontocut=0.1)` of one column: the mean without the tenth of
smallest and largest numbers. -/
def trimMean (l : List ℝ) : ℝ :=
  let cut := l.length / 10
  listMean (((l.insertionSort (· ≤ ·)).take (l.length - cut)).drop cut)

/-- What is known of the last row of `vh` of `np.linalg.svd(q)` for at least three points: a unit
vector with the smallest sum of squared components of the points along it. -/
def IsLeastDirection (n : V3 ℝ) (q : List (V3 ℝ)) : Prop :=
  n.dot n = 1 ∧ ∀ m : V3 ℝ, m.dot m = 1 →
    (q.map fun p => n.dot p ^ 2).sum ≤ (q.map fun p => m.dot p ^ 2).sum

/-- The points given to the singular value decomposition (`_ebsd_detector.py` L1303-1306 and
`_fit_projection_center.py` L45-46): means and then trimmed means are subtracted. -/
def centeredPcs (pcs : List (PC ℝ)) : List (V3 ℝ) :=
  let m := pcMean pcs
  let c : List (V3 ℝ) := pcs.map fun p => ⟨p.x - m.x, p.y - m.y, p.z - m.z⟩
  let t : V3 ℝ := ⟨trimMean (c.map V3.x), trimMean (c.map V3.y), trimMean (c.map V3.z)⟩
  c.map fun p => ⟨p.x - t.x, p.y - t.y, p.z - t.z⟩

/-- The `is_outlier` argument of `estimate_xtilt_ztilt`, as a Python list (or tuple) or an array of
booleans. -/
inductive OutlierArg
  | none
  | list (l : List Bool)
  | array (l : List Bool)

/-- PCs used by `estimate_xtilt_ztilt` (`_ebsd_detector.py` L1300-1303): only arrays of outliers are
regarded. -/
def OutlierArg.pcs (o : OutlierArg) (pcs : List (PC ℝ)) : List (PC ℝ) :=
  match o with
  | .array l => inliers (some l) pcs
  | _ => pcs

/-- `x_tilt` and `z_tilt` in `fit_hyperplane` (`_fit_projection_center.py` L56-68) from the last row
of `vh`; `np.arctan2(y, x)` is the argument of `x + iy`. -/
def tiltsFromNormal (n : V3 ℝ) : ℝ × ℝ :=
  let m : V3 ℝ := if n.z < 0 then ⟨-n.x, -n.y, -n.z⟩ else n
  (Real.arccos m.z, Real.pi / 2 - Complex.arg ⟨m.x, m.y⟩)

/-- `estimate_xtilt_ztilt(degrees=False)` (`_ebsd_detector.py` L1292-1313), where `svd` gives the last
row of `vh` of the singular value decomposition. -/
def Detector.estimateXtiltZtilt (d : Detector ℝ) (o : OutlierArg) (svd : List (V3 ℝ) → V3 ℝ) :
    Except Err (ℝ × ℝ) :=
  if d.pc.length = 1 then .error .valueError
  else .ok (tiltsFromNormal (svd (centeredPcs (o.pcs d.pc))))

end
end Kp
