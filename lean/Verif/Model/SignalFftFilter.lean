import Verif.Model.Fft
import Verif.Model.FftFilter
import Verif.Model.Rescale

/-
Model of `EBSD.fft_filter` (`signals/ebsd.py` L806-940) and of `fft_filter` of a chunk of patterns
(`pattern/chunk.py` L75-127).

Simplifications: exact real numbers instead of float32. Transfer functions in the frequency domain
have the shape of the patterns. Lazy signals and the progress bar are left out.
-/

namespace Kp

noncomputable section

/-- `rescale_intensity(filtered_pattern, dtype_out=dtype_out)` (`pattern/_pattern.py` L31-93) of a
filtered pattern, to the range of the data type. -/
def rescaleToType (d : DType) (q : Img ℝ) : Except Err (Img ℝ) :=
  match dtypeRange d with
  | none => .error .keyError
  | some (omin, omax) => .ok (q.mapVal
      (fun x => castTo d (rescalePixel (listMin q.pixels) (listMax q.pixels) omin omax x)))

/-- `fft_filter` of a chunk (`pattern/chunk.py` L75-127): each pattern is filtered and rescaled. -/
def fftFilterChunk (filterFunc : Img ℝ → Except Err (Img ℝ)) (dtypeOut : DType)
    (patterns : List (Img ℝ)) : Except Err (List (Img ℝ)) :=
  patterns.mapM fun p => match filterFunc p with
    | .error e => .error e
    | .ok q => rescaleToType dtypeOut q

/-- The filter function chosen from `function_domain` (`signals/ebsd.py` L887-909): the
`transfer_function` is used as an array in the frequency domain or as a window in the spatial
domain. -/
def fftFilterFunction (nfl : ℕ → ℕ) (functionDomain : String) (shift : Bool) (transfer : Img ℝ) :
    Except Err (Img ℝ → Except Err (Img ℝ)) :=
  if functionDomain = "frequency" then
    .ok fun p => patternFftFilter p (fun r c => (transfer.val r c : ℂ)) none shift
  else if functionDomain = "spatial" then
    .ok fun p => fftFilter nfl p transfer
  else .error .valueError

/-- `EBSD.fft_filter` (`signals/ebsd.py` L879-940) of a signal with the data type `d`, the patterns
in the Dask `chunks`. -/
def signalFftFilter (nfl : ℕ → ℕ) (d : DType) (chunks : List (List (Img ℝ)))
    (functionDomain : String) (shift : Bool) (transfer : Img ℝ) (inplace lazyOutput : Bool) :
    Except Err (List (List (Img ℝ))) :=
  if lazyOutput && inplace then .error .valueError
  else match fftFilterFunction nfl functionDomain shift transfer with
    | .error e => .error e
    | .ok f => chunks.mapM (fftFilterChunk f d)

end
end Kp
