import Verif.Model.FftFilter
import Verif.Model.Rescale
import Mathlib.Analysis.SpecialFunctions.Exp
import Mathlib.Analysis.SpecialFunctions.Trigonometric.Basic
import Mathlib.Algebra.Order.Archimedean.Real.Basic

/-
Model of the dynamic background of patterns: `remove_dynamic_background`,
`get_dynamic_background` and `_dynamic_background_frequency_space_setup` in
`src/kikuchipy/pattern/_pattern.py` (L512-695), `get_dynamic_background` in
`src/kikuchipy/pattern/chunk.py` (L33-72), and the methods of the same names in
`src/kikuchipy/signals/ebsd.py` (L576-803).

The filter in the frequency domain is the one of `FftFilter.lean`. The filter in the spatial
domain, `scipy.ndimage.gaussian_filter`, is a parameter; its output has the data type of its input.
Numbers are real (no float32 rounding). Progress bars and laziness are left out (see
`Processing.lean`). Signals have at least one pattern.
-/

namespace Kp
noncomputable section

/-- One value of SciPy's Gaussian window of `m` points. -/
def gaussTap (std : ℝ) (m i : ℕ) : ℝ :=
  Real.exp (-((i : ℝ) - ((m : ℝ) - 1) / 2) ^ 2 / (2 * std ^ 2))

/-- The window of `_dynamic_background_frequency_space_setup` (`pattern/_pattern.py` L611-615).
`int()` rounds toward zero; `Window` raises for a shape smaller than one (`filters/window.py`
L131-132). -/
def dynWindow (std trunc : ℝ) : Except Err (Img ℝ) :=
  let x := trunc * std
  let m : ℤ := if 0 ≤ x then ⌊x⌋ else ⌈x⌉
  if m < 1 then .error .valueError
  else
    let n := m.toNat
    let w : ℕ → ℕ → ℝ := fun i j =>
      gaussTap std n i * gaussTap std n j / (2 * Real.pi * std ^ 2)
    .ok { rows := n, cols := n,
          val := fun i j => w i j / ∑ i ∈ Finset.range n, ∑ j ∈ Finset.range n, w i j }

/-- `gaussian_filter(input, sigma, truncate)` of an array of a data type. -/
abbrev GaussianFilter := DType → ℝ → ℝ → Img ℝ → Img ℝ

/-- The choice of the filter (`pattern/_pattern.py` L568-592 and L669-693, `ebsd.py` L651-673 and
L747-769), for a pattern of data type `d`. -/
def dynBackground (nfl : ℕ → ℕ) (gaussian : GaussianFilter) (filterDomain : String)
    (std trunc : ℝ) (d : DType) (p : Img ℝ) : Except Err (Img ℝ) :=
  if filterDomain = "frequency" then
    match dynWindow std trunc with
    | .error e => .error e
    | .ok w => fftFilter nfl p w
  else if filterDomain = "spatial" then .ok (gaussian d std trunc p)
  else .error .valueError

/-- Values of integer types are stored modulo a power of two. For floats out of the range of an
integer type the result of `astype` is not defined, here it is the same. -/
def wrapTo (d : DType) (x : ℝ) : ℝ :=
  match d with
  | .float _ | .other => x
  | .uint b => (((truncateInt x) % (2 ^ b : ℤ) : ℤ) : ℝ)
  | .int b => (((truncateInt x + 2 ^ (b - 1)) % (2 ^ b : ℤ) - 2 ^ (b - 1) : ℤ) : ℝ)
where
  /-- Rounding toward zero. -/
  truncateInt (x : ℝ) : ℤ := if 0 ≤ x then ⌊x⌋ else ⌈x⌉

/-- `kikuchipy.pattern.get_dynamic_background` (`pattern/_pattern.py` L634-695). -/
def getDynamicBackground (nfl : ℕ → ℕ) (gaussian : GaussianFilter) (d : DType) (p : Img ℝ)
    (filterDomain : String) (std : Option ℝ) (trunc : ℝ) : Except Err (Img ℝ) :=
  match dynBackground nfl gaussian filterDomain (std.getD ((p.cols : ℝ) / 8)) trunc d p with
  | .error e => .error e
  | .ok bg => .ok (bg.mapVal (wrapTo d))

/-- What `pattern -= background` or `pattern /= background` stores in a pattern of a data type in
a function compiled by Numba (`pattern/_pattern.py` L491, L505). An array of integers can only take
the difference to a background of integers, which is stored modulo a power of two; others are
a typing error of Numba, a `TypeError`. `bgFloat`: the background has floats. -/
def inPlaceOperation (d : DType) (divide bgFloat : Bool) (x b : ℝ) : Except Err ℝ :=
  match d with
  | .float _ => .ok (if divide then x / b else x - b)
  | .other => .error .typeError
  | d => if divide || bgFloat then .error .typeError else .ok (wrapTo d (x - b))

/-- All values of the pattern after the operation. Whether there is an error does not depend on the
values. -/
def operated (d : DType) (divide bgFloat : Bool) (p bg : Img ℝ) : Except Err (Img ℝ) :=
  match inPlaceOperation d divide bgFloat 1 1 with
  | .error e => .error e
  | .ok _ => .ok { p with val := fun r c =>
      match inPlaceOperation d divide bgFloat (p.val r c) (bg.val r c) with
      | .ok v => v
      | .error _ => 0 }

/-- `kikuchipy.pattern.remove_dynamic_background` (`pattern/_pattern.py` L512-601): the corrected
pattern, and the array given by the caller afterwards, which `_remove_background_subtract` and
`_remove_background_divide` (L484-509) change. -/
def removeDynamicBackground (nfl : ℕ → ℕ) (gaussian : GaussianFilter) (d : DType) (p : Img ℝ)
    (operation filterDomain : String) (std : Option ℝ) (trunc : ℝ) (dtypeOut : Option DType) :
    Except Err (Img ℝ × Img ℝ) :=
  match dynBackground nfl gaussian filterDomain (std.getD ((p.cols : ℝ) / 8)) trunc d p with
  | .error e => .error e
  | .ok bg =>
    let out := dtypeOut.getD d
    match dtypeRange out with
    | none => .error .keyError
    | some (omin, omax) =>
      match operated d (operation != "subtract") (filterDomain == "frequency") p bg with
      | .error e => .error e
      | .ok q =>
        let lo := listMin q.pixels
        let hi := listMax q.pixels
        .ok (q.mapVal (fun x => castTo out (rescalePixel lo hi omin omax x)), q)

/-- `EBSD.remove_dynamic_background` (`signals/ebsd.py` L645-696), for all patterns of a signal with
detector shape `(rows, cols)`: `_remove_dynamic_background` (`pattern/_pattern.py` L438-481) makes
the pattern an array of floats. `signal_shape[0]` is the number of columns. -/
def signalRemoveDynamicBackground (nfl : ℕ → ℕ) (gaussian : GaussianFilter) (d : DType)
    (_rows cols : ℕ) (patterns : List (Img ℝ)) (operation filterDomain : String)
    (std : Option ℝ) (trunc : ℝ) : Except Err (List (Img ℝ)) :=
  let std := std.getD ((cols : ℝ) / 8)
  if filterDomain ≠ "frequency" ∧ filterDomain ≠ "spatial" then .error .valueError
  else match dtypeRange d with
    | none => .error .keyError
    | some (omin, omax) => patterns.mapM fun p =>
      match dynBackground nfl gaussian filterDomain std trunc (.float 32) p with
      | .error e => .error e
      | .ok bg =>
        match operated (.float 32) (operation != "subtract") (filterDomain == "frequency") p bg with
        | .error e => .error e
        | .ok q => .ok (q.mapVal
            (fun x => castTo d (rescalePixel (listMin q.pixels) (listMax q.pixels) omin omax x)))

/-- `get_dynamic_background` of a chunk (`pattern/chunk.py` L33-72): the background of each pattern
is stored in an array of the data type `out`. -/
def chunkDynamicBackground (f : Img ℝ → Except Err (Img ℝ)) (out : DType) (patterns : List (Img ℝ)) :
    Except Err (List (Img ℝ)) :=
  patterns.mapM fun p => match f p with
    | .error e => .error e
    | .ok bg => .ok (bg.mapVal (wrapTo out))

/-- `EBSD.get_dynamic_background` (`signals/ebsd.py` L744-803): the patterns, in chunks, are made
arrays of the data type `dtype_out` before the filter is applied (L771-775). `signal_shape[-1]` is
the number of rows. -/
def signalGetDynamicBackground (nfl : ℕ → ℕ) (gaussian : GaussianFilter) (d : DType)
    (rows _cols : ℕ) (chunks : List (List (Img ℝ))) (filterDomain : String) (std : Option ℝ)
    (trunc : ℝ) (dtypeOut : Option DType) : Except Err (List (List (Img ℝ))) :=
  let std := std.getD ((rows : ℝ) / 8)
  let out := dtypeOut.getD d
  chunks.mapM fun patterns =>
    chunkDynamicBackground (dynBackground nfl gaussian filterDomain std trunc out) out
      (patterns.map (Img.mapVal (wrapTo out)))

end
end Kp
