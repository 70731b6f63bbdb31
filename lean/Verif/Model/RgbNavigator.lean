import Verif.Model.Rescale

/-
Model of the navigator made from a colour image, `get_rgb_navigator` (`draw/_navigators.py` L27-54).

scikit-image's `rescale_intensity` and the conversion of HyperSpy are written out from their sources.
An image is a list of rows of pixels, which are lists of channels.  Numbers are exact.
-/

namespace Kp

section
variable {K : Type} [Field K] [LinearOrder K] [FloorRing K]

/-- `skimage.exposure.rescale_intensity(image, out_range=dtype.type)` and `astype(dtype)` of one
value, given the smallest and largest value of the image and the range of the type, whose lower
limit is zero for images without negative values.  Images of one value are clipped. -/
def skimageRescale (imin imax omin omax x : K) : K :=
  let lo := if 0 ≤ imin then 0 else omin
  if imin ≠ imax then (x - imin) / (imax - imin) * (omax - lo) + lo else clip lo omax x

/-- `get_rgb_navigator` (`draw/_navigators.py` L27-54).  The name of the type is looked up after
rescaling (L53); HyperSpy needs three or four channels. -/
def getRgbNavigator (image : List (List (List K))) (d : DType) :
    Except Err (List (List (List K))) :=
  match dtypeRange d with
  | none => .error .valueError
  | some (omin, omax) =>
    if d ≠ .uint 8 ∧ d ≠ .uint 16 then .error .keyError
    else if ∃ row ∈ image, ∃ px ∈ row, px.length ≠ 3 ∧ px.length ≠ 4 then .error .valueError
    else
      let all := image.flatten.flatten
      .ok (image.map fun row => row.map fun px => px.map fun x =>
        castTo d (skimageRescale (listMin all) (listMax all) omin omax x))

end

end Kp
