import Verif.Model.EmsoftMasterPattern
import Verif.Model.FloatSimilarity

/-
Model of reading master patterns in the square Lambert projection from EMsoft files in floating point
arithmetic: `src/kikuchipy/io/plugins/_emsoft_master_pattern.py`.

EMsoft stores images as float32, one for each asymmetric position and energy. `data.sum(axis)` adds
images of asymmetric positions in float32 (L174), and `.astype(data.dtype)` changes nothing. NumPy
adds them one after another; Dask (`lazy=True`) adds those of each chunk, and then the sums of chunks.
The order is a parameter for each pixel (`SumOrder`). Overflow is not modelled.
-/

namespace Kp
noncomputable section

variable {K : Type*}

/-- A master pattern at one energy: row and column to intensity. -/
abbrev MpImage := ℕ → ℕ → ℝ

/-- Order in which intensities of asymmetric positions are added, for each hemisphere (southern or
not), and for each energy, row and column of the data returned. -/
abbrev PositionOrder := Bool → ℕ → ℕ → ℕ → SumOrder ℕ

/-- Intensity of an asymmetric position in a pixel of the data read (L159-165). -/
def positionIntensity (l : List (List MpImage)) (k r c position : ℕ) : ℝ :=
  ((l.getD position []).getD k 0) r c

/-- Sum over asymmetric positions of the images for each of `n` energies in float32 (L167-174). -/
def sumPositionsFl (order : ℕ → ℕ → ℕ → SumOrder ℕ) (n : ℕ) (l : List (List MpImage)) :
    List MpImage :=
  (List.range n).map fun k r c =>
    (order k r c).eval MetricType.float32.fl (positionIntensity l k r c) fun _ => 1

/-- Images of one hemisphere (L137, L160-181, `get_datasets` L308-324). -/
def hemisphereImagesFl (flip : MpImage → MpImage) (order : PositionOrder) (f : EmFile K MpImage)
    (proj : MpProjection) (south : Bool) (a b : ℕ) : List MpImage :=
  match proj with
  | .stereographic => (sliceList (if south then f.spSouth else f.spNorth) a b).map flip
  | .lambert =>
    sumPositionsFl (order south) (b - a)
      ((if south then f.lpSouth else f.lpNorth).map fun l => sliceList l a b)

/-- Read a master pattern of EBSD or TKD type (`read`, L72-225). Axes and errors do not depend on
intensities and are those of `emRead`. -/
def emReadFl [Field K] [LinearOrder K] (flip : MpImage → MpImage) (order : PositionOrder)
    (f : EmFile K MpImage) (sel : EnergySelection K) (proj : MpProjection) (hemi : MpHemisphere) :
    Except Err (EmMasterPattern K MpImage) :=
  match energySlice f.energies sel, emRead flip f sel proj hemi with
  | .ok (a, b), .ok m =>
    let images := match hemi with
      | .upper => [hemisphereImagesFl flip order f proj false a b]
      | .lower => [hemisphereImagesFl flip order f proj true a b]
      | .both => [hemisphereImagesFl flip order f proj false a b,
          hemisphereImagesFl flip order f proj true a b]
    .ok ⟨images, m.axes⟩
  | .error e, _ => .error e
  | _, .error e => .error e

end
end Kp
