import Verif.Model.Rescale
import Verif.Model.VirtualBse
import Verif.Model.FitPc

/-
Model of RGB virtual backscatter electron images: `VirtualBSEImager.get_rgb_image()`,
`_normalize_image()`, `_get_rgb_image()` and `_get_rgb_tile_coordinates()`
(`src/kikuchipy/imaging/vbse.py` L135-237, L389-524) and
`_transfer_navigation_axes_to_signal_axes()` (`src/kikuchipy/_utils/_transfer_axes.py` L21-50).

An image is the list of its values in all map points. Numbers are real: no float32 rounding.
-/

namespace Kp

section
variable {K : Type} [Field K] [LinearOrder K] [FloorRing K]

/-- A region of interest given for a channel: an ROI or the grid index of a tile. -/
inductive RoiArg (K : Type)
  | roi (r : (K × K) × (K × K))
  | tile (row col : ℕ)

/-- `roi_from_grid` for a tuple (vbse.py L205-206). -/
def RoiArg.toRoi (ay ax : SigAxis K) (gy gx : ℕ) : RoiArg K → Except Err ((K × K) × (K × K))
  | .roi r => .ok r
  | .tile row col => roiFromGrid ay ax gy gx [(row, col)]

/-- One channel in one map point (vbse.py L203-210): the intensities in all regions, added. The
first error ends the loop. -/
def channelValue {A : Type} [AddCommMonoid A] (ay ax : SigAxis K) (gy gx : ℕ)
    (p : ℕ → ℕ → A) : List (RoiArg K) → Except Err A
  | [] => .ok 0
  | a :: l =>
    match a.toRoi ay ax gy gx with
    | .error e => .error e
    | .ok roi =>
      match vbseIntensity ay ax roi p with
      | .error e => .error e
      | .ok v =>
        match channelValue ay ax gy gx p l with
        | .error e => .error e
        | .ok w => .ok (v + w)

/-- The upper left corners of tiles, moved by `offset`, for one channel
(`_get_rgb_tile_coordinates`, vbse.py L389-413, with `_tile_coordinates` L99-102 and `_tile_shape`
L122-126): pairs of x (column) and y (row), in pixels. -/
def rgbTileCoordinates (sy sx gy gx : ℕ) (tiles : List (ℕ × ℕ)) : Except Err (List (K × K)) :=
  if tiles.all (fun t => decide (t.1 < gy ∧ t.2 < gx)) then
    .ok (tiles.map fun t =>
      ((t.2 : K) * sx / gx + (-1 / 2 + ((sy / gy : ℕ) : K) / 2),
        (t.1 : K) * sy / gy + (-1 / 2 + ((sx / gx : ℕ) : K) / 2)))
  else .error .valueError

end

/-- An axis of a signal. -/
structure NamedAxis (K : Type) where
  name : String
  scale : K
  units : String
  offset : K
  deriving DecidableEq

/-- `_transfer_navigation_axes_to_signal_axes()` (`_transfer_axes.py` L43-50). -/
def transferAxes {K : Type} : List (NamedAxis K) → List (NamedAxis K) → List (NamedAxis K)
  | new :: ns, old :: os =>
    { new with name := old.name, scale := old.scale, units := old.units } :: transferAxes ns os
  | ns, [] => ns
  | [], _ => []

noncomputable section

/-- `np.std` of an image. -/
def imageStd (img : List ℝ) : ℝ :=
  √(listMean (img.map fun x => (x - listMean img) ^ 2))

/-- `np.median` of an image: the 50th percentile. -/
def imageMedian (img : List ℝ) : ℝ := percentile img 50

/-- `_normalize_image()` (vbse.py L416-455) before clipping, for output of unsigned integers of
`bits` bits, in one pixel. -/
def normalizedPixel (bits : ℕ) (bright : ℤ) (contrast : ℝ) (img : List ℝ) (x : ℝ) : ℝ :=
  ((((2 ^ bits - 1) / 2 + bright : ℤ)) : ℝ) +
    contrast * ((2 ^ bits - 1) * (3125 / 10000)) * (x - imageMedian img) / imageStd img

/-- `_normalize_image()` (vbse.py L416-455). -/
def normalizeImage (bits : ℕ) (bright : ℤ) (contrast : ℝ) (img : List ℝ) : List ℝ :=
  img.map fun x => clip 0 (2 ^ bits - 1) (normalizedPixel bits bright contrast img x)

/-- The alpha channel, rescaled (vbse.py L513-514). -/
def rescaledAlpha (alpha : List ℝ) : List ℝ :=
  alpha.map fun a => (a - listMin alpha) / (listMax alpha - listMin alpha)

/-- One channel before the final rescaling (vbse.py L500-516). -/
def rgbChannel (bits : ℕ) (normalize : Bool) (bright : ℤ) (contrast : ℝ) (alpha : Option (List ℝ))
    (img : List ℝ) : List ℝ :=
  let c := if normalize then normalizeImage bits bright contrast img else img
  match alpha with
  | none => c
  | some a => List.zipWith (· * ·) c (rescaledAlpha a)

/-- The array of an RGB image in memory order: colour is the last axis. -/
def rgbFlat (n : ℕ) (channels : List (List ℝ)) : List ℝ :=
  (List.range (3 * n)).map fun i => (channels.getD (i % 3) []).getD (i / 3) 0

/-- `_get_rgb_image()` (vbse.py L458-524) for output of unsigned integers of `bits` bits and images
of `n` values: values of the image in memory order. -/
def rgbImage (n bits : ℕ) (channels : List (List ℝ)) (percentiles : Option (ℝ × ℝ))
    (normalize : Bool) (alpha : Option (List ℝ)) (bright : ℤ) (contrast : ℝ) :
    Except Err (List ℝ) :=
  let image := rgbFlat n (channels.map (rgbChannel bits normalize bright contrast alpha))
  let inRange := percentiles.map fun q => (percentile image q.1, percentile image q.2)
  rescaleIntensity image (.float 32) inRange none (some (.uint bits)) none

end

end Kp
