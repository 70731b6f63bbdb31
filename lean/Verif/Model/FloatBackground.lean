import Verif.Model.FloatRescale

/-
Model of the removal of a static or dynamic background (`src/kikuchipy/pattern/_pattern.py` L392-509)
in the arithmetic of the machine: results are rounded, and patterns are converted to 32-bit floating
point first.

Results which are not numbers (division by zero, a corrected pattern or a scaled background without
contrast) are `none`: NaN or infinite values converted to the type of the patterns. Overflow is not
modelled.
-/

namespace Kp

section
variable {K : Type*} [Field K] [LinearOrder K]

/-- Formats in background removal: the 32-bit numbers of patterns during processing
(`signals/ebsd.py` L521, `pattern/_pattern.py` L402, L425, L474), of the result of the subtraction or
division before it is stored in the pattern (the wider of the types of pattern and background), and of
rescaling. -/
structure BackgroundFormats (K : Type*) [Field K] [LinearOrder K] where
  single : Rounding K
  op : Rounding K
  rescale : Formats K

/-- `pattern -= background` or `pattern /= background` (`pattern/_pattern.py` L492, L506), for one
pixel. -/
def correctPixelFl (B : BackgroundFormats K) (divide : Bool) (x b : K) : K :=
  B.single.fl (B.op.fl (if divide then x / b else x - b))

variable [FloorRing K]

/-- `_remove_background_subtract`, `_remove_background_divide` (`pattern/_pattern.py` L484-509) and
`astype(dtype_out)` (L414, L435, L481) of a pattern of 32-bit numbers. -/
def removeBackgroundFl (B : BackgroundFormats K) (e : Evaluation) (divide : Bool)
    (pattern background : List K) (dtypeOut : DType) (omin omax : K) : Option (List K) :=
  let c := List.zipWith (correctPixelFl B divide) pattern background
  if divide = true ∧ 0 ∈ background then none
  else if listMin c = listMax c then none
  else some (c.map fun x =>
    castFl B.rescale dtypeOut (rescalePixelFl B.rescale e (listMin c) (listMax c) omin omax x))

/-- The background in `_remove_static_background_subtract/divide` (`pattern/_pattern.py` L403-410,
L426-433), if `scale_bg` rescaled to the range of the pattern. The width of this range is not rounded,
as for integers of at most 16 bits. -/
def scaledBackgroundFl (B : BackgroundFormats K) (e : Evaluation) (pattern staticBg : List K)
    (scaleBg : Bool) : Option (List K) :=
  if scaleBg then
    if listMin staticBg = listMax staticBg then none
    else some (staticBg.map (rescalePixelFl B.rescale e (listMin staticBg) (listMax staticBg)
      (listMin pattern) (listMax pattern)))
  else some staticBg

/-- `_remove_static_background_subtract`, `_remove_static_background_divide` (`pattern/_pattern.py`
L392-435) with the conversion of the background to 32-bit numbers (`signals/ebsd.py` L547). The
evaluation of each rescaling is chosen by the compiler. -/
def removeStaticFl (B : BackgroundFormats K) (ebg e : Evaluation) (divide : Bool)
    (pattern staticBg : List K) (dtypeOut : DType) (omin omax : K) (scaleBg : Bool) :
    Option (List K) :=
  let p := pattern.map B.single.fl
  match scaledBackgroundFl B ebg p (staticBg.map B.single.fl) scaleBg with
  | none => none
  | some bg => removeBackgroundFl B e divide p bg dtypeOut omin omax

/-- `_remove_dynamic_background` (`pattern/_pattern.py` L438-481): `filterFunc` computes the blurred
pattern. -/
def removeDynamicFl (B : BackgroundFormats K) (e : Evaluation) (filterFunc : List K → List K)
    (divide : Bool) (pattern : List K) (dtypeOut : DType) (omin omax : K) : Option (List K) :=
  let p := pattern.map B.single.fl
  removeBackgroundFl B e divide p (filterFunc p) dtypeOut omin omax

end
end Kp
