import Verif.Model.Base
import Mathlib.Algebra.Order.Field.Basic
import Mathlib.Algebra.Order.Floor.Defs
import Mathlib.Data.List.Sort

/-
Model of intensity rescaling and background removal: `pattern/_pattern.py`, and the parts of
`signals/_kikuchipy_signal.py` and `signals/ebsd.py` choosing their arguments.

A pattern is the list of its pixel values in row-major order.  Numbers are exact (any
linearly ordered field): no float32 rounding, no overflow of integer input types, no NaN. See
`Model/FloatRescale.lean` for rescaling with rounding and wrap-around.
-/

namespace Kp

/-- NumPy data types of patterns: floating point, (un)signed integers of some bits, others
(for example complex). -/
inductive DType
  | float (bits : ℕ)
  | uint (bits : ℕ)
  | int (bits : ℕ)
  | other
  deriving DecidableEq, Repr

/-- `skimage.util.dtype.dtype_range[dtype.type]`, `none` if there is no such key. -/
def dtypeRange : DType → Option (ℤ × ℤ)
  | .float _ => some (-1, 1)
  | .uint b => some (0, 2 ^ b - 1)
  | .int b => some (-2 ^ (b - 1), 2 ^ (b - 1) - 1)
  | .other => none

section
variable {K : Type*} [Field K] [LinearOrder K]

/-- `np.min`; 0 of an empty array (NumPy raises). -/
def listMin : List K → K
  | [] => 0
  | [a] => a
  | a :: b :: l => min a (listMin (b :: l))

/-- `np.max`; 0 of an empty array (NumPy raises). -/
def listMax : List K → K
  | [] => 0
  | [a] => a
  | a :: b :: l => max a (listMax (b :: l))

/-- `_rescale_with_min_max` (`pattern/_pattern.py` L96-111), for one pixel. -/
def rescalePixel (imin imax omin omax x : K) : K :=
  (x - imin) / (imax - imin) * (omax - omin) + omin

/-- `_rescale_with_min_max` (`pattern/_pattern.py` L96-111). -/
def rescaleWithMinMax (pattern : List K) (imin imax omin omax : K) : List K :=
  pattern.map (rescalePixel imin imax omin omax)

/-- `np.clip(x, lo, hi)` of one value: `minimum(maximum(x, lo), hi)`. -/
def clip (lo hi x : K) : K := min (max x lo) hi

variable [FloorRing K]

/-- Conversion to integers rounds toward zero. -/
def truncate (x : K) : K := if 0 ≤ x then ((⌊x⌋ : ℤ) : K) else ((⌈x⌉ : ℤ) : K)

/-- `astype(dtype)` of values within the range of the type. -/
def castTo (d : DType) (x : K) : K :=
  match d with
  | .float _ | .other => x
  | .uint _ | .int _ => truncate x

/-- `np.nanpercentile(pattern, q)` with NumPy's default linear interpolation: at position
`q / 100 * (n - 1)` of the sorted values. -/
def percentile (pattern : List K) (q : K) : K :=
  let s := pattern.insertionSort (· ≤ ·)
  let v := q / 100 * ((pattern.length : K) - 1)
  let i := ⌊v⌋.toNat
  let lo := s.getD i 0
  let hi := s.getD (min (i + 1) (pattern.length - 1)) 0
  lo + (v - (i : K)) * (hi - lo)

/-- `rescale_intensity` (`pattern/_pattern.py` L31-93).  `dtypeIn` is `pattern.dtype`. -/
def rescaleIntensity (pattern : List K) (dtypeIn : DType) (inRange outRange : Option (K × K))
    (dtypeOut : Option DType) (percentiles : Option (K × K)) : Except Err (List K) :=
  let dtypeOut := dtypeOut.getD dtypeIn
  let inRange := match percentiles with
    | some q => some (percentile pattern q.1, percentile pattern q.2)
    | none => inRange
  let (imin, imax, pattern) := match inRange with
    | none => (listMin pattern, listMax pattern, pattern)
    | some (lo, hi) => (lo, hi, pattern.map (clip lo hi))
  let orange : Except Err (K × K) := match outRange with
    | none => match dtypeRange dtypeOut with
      | some (lo, hi) => .ok (lo, hi)
      | none => .error .keyError
    | some r => .ok r
  match orange with
  | .error e => .error e
  | .ok (omin, omax) =>
    .ok ((rescaleWithMinMax pattern imin imax omin omax).map (castTo dtypeOut))

/-- `KikuchipySignal2D.rescale_intensity` (`signals/_kikuchipy_signal.py` L198-243): checks
and choice of ranges, then `rescale_intensity` of every pattern. -/
def signalRescaleIntensity (patterns : List (List K)) (dtypeIn : DType) (relative : Bool)
    (inRange outRange : Option (K × K)) (dtypeOut : Option DType)
    (percentiles : Option (K × K)) : Except Err (List (List K)) :=
  if inRange.isSome && percentiles.isSome then .error .valueError
  else if relative && inRange.isSome then .error .valueError
  else
    let inRange := if relative then some (listMin patterns.flatten, listMax patterns.flatten)
      else inRange
    let dtypeOut := dtypeOut.getD dtypeIn
    let orange : Except Err (K × K) := match outRange with
      | none => match dtypeRange dtypeOut with
        | some (lo, hi) => .ok (lo, hi)
        | none => .error .keyError
      | some r => .ok r
    match orange with
    | .error e => .error e
    | .ok r => patterns.mapM (fun p => rescaleIntensity p dtypeIn inRange (some r) (some dtypeOut)
        percentiles)

/-- `_remove_background_subtract`, `_remove_background_divide` (`pattern/_pattern.py`
L484-509), before casting. -/
def removeBackground (divide : Bool) (pattern background : List K) (omin omax : K) : List K :=
  let p := List.zipWith (fun x b => if divide then x / b else x - b) pattern background
  rescaleWithMinMax p (listMin p) (listMax p) omin omax

/-- `_remove_static_background_subtract`, `_remove_static_background_divide`
(`pattern/_pattern.py` L392-435). -/
def removeStatic (divide : Bool) (pattern staticBg : List K) (dtypeOut : DType) (omin omax : K)
    (scaleBg : Bool) : List K :=
  let bg := if scaleBg then
      rescaleWithMinMax staticBg (listMin staticBg) (listMax staticBg) (listMin pattern)
        (listMax pattern)
    else staticBg
  (removeBackground divide pattern bg omin omax).map (castTo dtypeOut)

/-- `_remove_dynamic_background` (`pattern/_pattern.py` L438-481): `filterFunc` is the FFT or
Gaussian filter. -/
def removeDynamic (filterFunc : List K → List K) (divide : Bool) (pattern : List K)
    (dtypeOut : DType) (omin omax : K) : List K :=
  (removeBackground divide pattern (filterFunc pattern) omin omax).map (castTo dtypeOut)

/-- A background pattern: data type, shape, values. -/
structure Background (K : Type*) where
  dtype : DType
  shape : ℕ × ℕ
  data : List K

/-- `EBSD.remove_static_background` (`signals/ebsd.py` L518-573).  `attr` is the
`EBSD.static_background` property (`none` if not an array); any `operation` other than
`"subtract"` divides (L550-553). -/
def signalRemoveStatic (dtype : DType) (shape : ℕ × ℕ) (patterns : List (List K))
    (operation : String) (staticBg attr : Option (Background K)) (scaleBg : Bool) :
    Except Err (List (List K)) :=
  match dtypeRange dtype with
  | none => .error .keyError
  | some (omin, omax) =>
    match (match staticBg with | some b => some b | none => attr) with
    | none => .error .valueError
    | some bg =>
      if dtype ≠ bg.dtype then .error .valueError
      else if bg.shape ≠ shape then .error .valueError
      else .ok (patterns.map (fun p =>
        removeStatic (operation != "subtract") p bg.data dtype omin omax scaleBg))

/-- `EBSD.remove_dynamic_background` (`signals/ebsd.py` L645-696); the filters are
parameters. -/
def signalRemoveDynamic (fftFilter gaussian : List K → List K) (dtype : DType)
    (patterns : List (List K)) (operation filterDomain : String) :
    Except Err (List (List K)) :=
  let f : Option (List K → List K) :=
    if filterDomain = "frequency" then some fftFilter
    else if filterDomain = "spatial" then some gaussian else none
  match f with
  | none => .error .valueError
  | some f =>
    match dtypeRange dtype with
    | none => .error .keyError
    | some (omin, omax) =>
      .ok (patterns.map (fun p => removeDynamic f (operation != "subtract") p dtype omin omax))

end

end Kp
