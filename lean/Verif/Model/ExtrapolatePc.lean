import Verif.Model.Detector
import Mathlib.Algebra.Order.Floor.Defs

/-
Model of `EBSDDetector.extrapolate_pc` (`detectors/_ebsd_detector.py` L1315-1424).
-/

namespace Kp

/-- `np.round` of one number: to the nearest integer, halves to the even one. -/
def npRound {K : Type*} [Field K] [LinearOrder K] [FloorRing K] (x : K) : ℤ :=
  let f := ⌊x⌋
  if x - f < 1 / 2 then f
  else if 1 / 2 < x - f then f + 1
  else if f % 2 = 0 then f else f + 1

/-- Transpose of a matrix given by rows of equal length (`.T` of a 2D array);
`m` is the number of columns. -/
def transposeRows {K : Type*} (m : ℕ) (rows : List (List K)) : List (List K) :=
  (List.range m).map (fun j => rows.filterMap (fun r => r[j]?))

/-- Boolean mask indexing `a[mask]` along the first axis; NumPy raises `IndexError` when
the lengths differ. -/
def maskRows {α : Type*} (rows : List α) (mask : List Bool) : Except Err (List α) :=
  if rows.length = mask.length then
    .ok ((rows.zip mask).filterMap (fun rm => if rm.2 then some rm.1 else none))
  else .error .indexError

section
variable {K : Type*} [Field K] [LinearOrder K] [FloorRing K]

/-- Mean of a list (`ndarray.mean`). -/
def listMean (l : List K) : K := l.sum / (l.length : K)

/-- Mean of PCs along the first axis (`pc.mean(axis=0)`, L1400). -/
def pcMean (l : List (PC K)) : PC K :=
  ⟨listMean (l.map PC.x), listMean (l.map PC.y), listMean (l.map PC.z)⟩

/-- The average map position used by `extrapolate_pc` (L1382, L1394-1402).  `rows` is the
2D array `np.atleast_2d(pc_indices)` with `m` columns; it is transposed, rows of the
transposed array are dropped where `is_outlier`, and the mean is taken along `axis=1` and
rounded.  `pc_indices_mean[0]` and `[1]` are used afterwards, so `IndexError` is raised if
there are fewer than two entries. -/
def pcIndicesMean (m : ℕ) (rows : List (List K)) (isOutlier : Option (List Bool)) :
    Except Err (ℤ × ℤ) :=
  let t := transposeRows m rows
  let t' : Except Err (List (List K)) := match isOutlier with
    | none => .ok t
    | some o => maskRows t (o.map not)
  match t' with
  | .error e => .error e
  | .ok t' =>
    match t'.map (fun r => npRound (listMean r)) with
    | a :: b :: _ => .ok (a, b)
    | _ => .error .indexError

/-- The extrapolated PC in map position `(y, x)` (L1408-1416).  `ca` and `sa` stand for
`np.cos(alpha)` and `np.sin(alpha)`; `nrows, ncols, pxSize, binning` are the values after
the defaults are filled in (L1384-1390). -/
def extrapolatedPc (nrows ncols : ℕ) (pxSize binning ca sa dy dx : K) (mean : PC K)
    (pos : ℤ × ℤ) (y x : ℕ) : PC K :=
  let factor := pxSize * binning
  let dPcx := -((pos.2 : K) - x) * dx / (factor * ncols)
  let dPcy := -((pos.1 : K) - y) * dy * ca / (factor * nrows)
  let dPcz := ((pos.1 : K) - y) * dy * sa / (factor * nrows)
  ⟨mean.x - dPcx, mean.y - dPcy, mean.z - dPcz⟩

/-- `extrapolate_pc` (L1315-1424): the function from map positions to PCs of the returned
detector. -/
def Detector.extrapolatePc (d : Detector K) (m : ℕ) (rows : List (List K))
    (isOutlier : Option (List Bool)) (dy dx ca sa : K) : Except Err (ℕ → ℕ → PC K) :=
  let pcs : Except Err (List (PC K)) := match isOutlier with
    | none => .ok d.pc
    | some o => maskRows d.pc (o.map not)
  match pcs with
  | .error e => .error e
  | .ok pcs =>
    match pcIndicesMean m rows isOutlier with
    | .error e => .error e
    | .ok pos => .ok (extrapolatedPc d.nrows d.ncols d.pxSize d.binning ca sa dy dx (pcMean pcs) pos)

end
end Kp
