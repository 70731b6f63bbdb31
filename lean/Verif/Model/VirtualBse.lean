/-
Model of the detector grid and the virtual BSE images of `VirtualBSEImager`.

* imaging/vbse.py L47-96 (`__init__`, `grid_rows`, `grid_cols`, `grid_shape`), L239-283
  (`get_images_from_grid`), L285-318 (`roi_from_grid`)
* signals/ebsd.py L1555-1598 (`get_virtual_bse_intensity`), L436-440
  (`set_detector_calibration`)
* HyperSpy: `BaseROI._make_slices` and `UniformDataAxis.value2index` (from knowledge of
  HyperSpy 2, not in /repo)
-/
import Verif.Model.Base
import Verif.Model.ExtrapolatePc
import Mathlib.Algebra.BigOperators.Group.Finset.Basic
import Mathlib.Order.Interval.Finset.Nat

namespace Kp

variable {K : Type} [Field K] [LinearOrder K] [FloorRing K]

/-- `grid_rows`/`grid_cols`, imaging/vbse.py L54-68: `np.linspace(0, s, g + 1)`.
Simplification: exact arithmetic. -/
def gridEdges (s g : ℕ) : List K := (List.range (g + 1)).map fun k : ℕ => (k : K) * s / g

/-- Default grid shape, L49. -/
def defaultGridShape (sy sx : ℕ) : ℕ × ℕ := (min 5 sy, min 5 sx)

/-- The setter of `grid_shape`, L82-96, for two signal dimensions. -/
def setGridShape (sy sx : ℕ) (shape : List ℕ) : Except Err (ℕ × ℕ) :=
  match shape with
  | [gy, gx] => if gy > sy ∨ gx > sx then .error .valueError else .ok (gy, gx)
  | _ => .error .valueError

/-- A signal axis: size, scale and offset (HyperSpy's UniformDataAxis). -/
structure SigAxis (K : Type) where
  size : ℕ
  scale : K
  offset : K

/-- `set_detector_calibration(delta)`, signals/ebsd.py L436-440, for one signal axis. -/
def calibrateAxis (delta : K) (a : SigAxis K) : SigAxis K :=
  ⟨a.size, delta, -(delta * a.size / 2)⟩

/-- One side of `roi_from_grid`, L303-314: from the smallest and the largest grid index in a
direction and the grid edges, the limits of the ROI in the units of the axis.
Simplification: grid indices are non-negative. -/
def roiSide (edges : List K) (scale : K) (imin imax : ℕ) : Except Err (K × K) :=
  match edges[imin]?, edges[imax]?, edges[1]? with
  | some a, some b, some w => .ok (a * scale, (b + w) * scale)
  | _, _, _ => .error .indexError

/-- Smallest and largest of a non-empty list (Python's `min` and `max`). -/
def minMax : List ℕ → Option (ℕ × ℕ)
  | [] => none
  | a :: l => some (l.foldl min a, l.foldl max a)

/-- `roi_from_grid(index)`, L285-318: (top, bottom) and (left, right) of the ROI covering the
tiles in the list of (row, column) indices. -/
def roiFromGrid (ay ax : SigAxis K) (gy gx : ℕ) (index : List (ℕ × ℕ)) :
    Except Err ((K × K) × (K × K)) :=
  match minMax (index.map Prod.fst), minMax (index.map Prod.snd) with
  | some (r0, r1), some (c0, c1) => do
    let cols ← roiSide (gridEdges ax.size gx) ax.scale c0 c1
    let rows ← roiSide (gridEdges ay.size gy) ay.scale r0 r1
    .ok (rows, cols)
  | _, _ => .error .indexError

/-- HyperSpy's first index of the slice of an axis by an ROI with lower limit `lo`
(`BaseROI._make_slices`): that of the value `lo` (`value2index`, rounding to nearest), or 0 if
`lo` is below the axis.  An error is raised otherwise. -/
def roiLow (a : SigAxis K) (lo : K) : Except Err ℕ :=
  let i := npRound ((lo - a.offset) / a.scale)
  if 0 ≤ i ∧ i < a.size then .ok i.toNat
  else if lo < a.offset then .ok 0 else .error .valueError

/-- HyperSpy's index after the last one of the slice of an axis by an ROI with limits `lo` and
`hi`: one plus the index of `hi`, rounded to nearest after subtracting one
(`1 + value2index(hi, rounding=lambda x: round(x - 1))`), or the size of the axis if that is
outside the axis and `lo` is below its last value.  An error is raised otherwise. -/
def roiHigh (a : SigAxis K) (lo hi : K) : Except Err ℕ :=
  let j := npRound ((hi - a.offset) / a.scale - 1)
  if 0 ≤ j ∧ j < a.size then .ok (j.toNat + 1)
  else if lo < a.offset + (a.size - 1) * a.scale then .ok a.size else .error .valueError

/-- HyperSpy's slice of one axis by an ROI. -/
def roiSlice (a : SigAxis K) (lim : K × K) : Except Err (ℕ × ℕ) :=
  match roiLow a lim.1, roiHigh a lim.1 lim.2 with
  | .error e, _ => .error e
  | .ok _, .error e => .error e
  | .ok l, .ok h => .ok (l, h)

/-- The rows and columns summed over by `get_virtual_bse_intensity(roi)`. -/
def roiPixels (ay ax : SigAxis K) (roi : (K × K) × (K × K)) :
    Except Err ((ℕ × ℕ) × (ℕ × ℕ)) := do
  let cols ← roiSlice ax roi.2
  let rows ← roiSlice ay roi.1
  .ok (rows, cols)

/-- `get_virtual_bse_intensity(roi)` in one map position, signals/ebsd.py L1594-1595: the sum of
the intensities of the pattern `p` within the ROI.
Simplification: no overflow or rounding of the sum. -/
def vbseIntensity {A : Type} [AddCommMonoid A] (ay ax : SigAxis K)
    (roi : (K × K) × (K × K)) (p : ℕ → ℕ → A) : Except Err A := do
  let s ← roiPixels ay ax roi
  .ok (∑ r ∈ Finset.Ico s.1.1 s.1.2, ∑ c ∈ Finset.Ico s.2.1 s.2.2, p r c)

/-- Intensity of the tile `(row, col)`. -/
def tileIntensity {A : Type} [AddCommMonoid A] (ay ax : SigAxis K) (gy gx : ℕ)
    (p : ℕ → ℕ → A) (row col : ℕ) : Except Err A := do
  let roi ← roiFromGrid ay ax gy gx [(row, col)]
  vbseIntensity ay ax roi p

/-- `get_images_from_grid()` in one map position, imaging/vbse.py L270-276: the intensities of
all tiles by row and column.  The first error ends the loop.
Simplification: conversion to `dtype_out` is not modelled. -/
def gridImages {A : Type} [AddCommMonoid A] (ay ax : SigAxis K) (gy gx : ℕ)
    (p : ℕ → ℕ → A) : Except Err (List (List A)) :=
  (List.range gy).mapM fun row => (List.range gx).mapM fun col =>
    tileIntensity ay ax gy gx p row col

end Kp
