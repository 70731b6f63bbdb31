import Verif.Model.Rescale
import Mathlib.Data.Rat.Floor

/-
Model of local contrast enhancement:

* `pattern/_pattern.py` L810-840 `_adaptive_histogram_equalization`
* `signals/_kikuchipy_signal.py` L340-471 `adaptive_histogram_equalization`

scikit-image's `equalize_adapthist` is a parameter: any function of the pattern, its shape, the
shape of contextual regions (rows, columns), the clip limit and the number of bins, whose result
has as many pixels as the pattern.  The only behaviour written out is that it divides by the sizes
of regions.  Numbers are exact and never NaN; whether data has NaN is a separate flag.
-/

namespace Kp

/-- The argument `kernel_size`: not given, a number, or a sequence of numbers. -/
inductive KernelArg
  | none
  | number (k : ℚ)
  | seq (l : List ℚ)

/-- `int(k)` rounds toward zero. -/
def pyInt (k : ℚ) : ℤ := if 0 ≤ k then ⌊k⌋ else ⌈k⌉

section
variable (K : Type)

/-- scikit-image's `equalize_adapthist` for regions of positive sizes: rows and columns of the
pattern, its pixels, rows and columns of regions, clip limit and number of bins. -/
abbrev Equalizer := ℕ → ℕ → List K → ℤ × ℤ → K → ℕ → List K

/-- A signal: data type, whether it is lazy, whether it has NaN, rows and columns of patterns, and
the pixels of each pattern in row-major order. -/
structure GraySignal where
  dtype : DType
  lazy : Bool
  nan : Bool
  rows : ℕ
  cols : ℕ
  patterns : List (List K)
end

variable {K : Type} [Field K] [LinearOrder K] [FloorRing K]

/-- `equalize_adapthist`: the number of regions is found by division, which is an error for regions
without rows or columns. -/
def equalizeAdapthist (e : Equalizer K) (rows cols : ℕ) (p : List K) (k : ℤ × ℤ) (clipLimit : K)
    (nbins : ℕ) : Except Err (List K) :=
  if k.1 = 0 ∨ k.2 = 0 then .error .zeroDivision else .ok (e rows cols p k clipLimit nbins)

/-- `_adaptive_histogram_equalization` (`pattern/_pattern.py` L810-840). -/
def adaptiveEqualization (e : Equalizer K) (d : DType) (rows cols : ℕ) (p : List K) (k : ℤ × ℤ)
    (clipLimit : K) (nbins : ℕ) : Except Err (List K) := do
  let q ← equalizeAdapthist e rows cols p k clipLimit nbins
  rescaleIntensity q d Option.none Option.none (some d) Option.none

/-- The shape of contextual regions (`_kikuchipy_signal.py` L439-447).  The signal shape of HyperSpy
is (columns, rows). -/
def contextualRegion (rows cols : ℕ) : KernelArg → Except Err (ℤ × ℤ)
  | .none => .ok (((cols / 4 : ℕ) : ℤ), ((rows / 4 : ℕ) : ℤ))
  | .number k => .ok (pyInt k, pyInt k)
  | .seq [a, b] => .ok (pyInt a, pyInt b)
  | .seq _ => .error .valueError

/-- Does the method warn (`_kikuchipy_signal.py` L426-437)? -/
def equalizationWarns (s : GraySignal K) : Bool :=
  if !s.lazy && s.nan then true
  else match s.dtype with
    | .float _ => true
    | _ => false

/-- `adaptive_histogram_equalization` (`_kikuchipy_signal.py` L340-471): the signal with equalized
patterns, which replaces the original one (`inplace`) or is returned.  `lazy_output` not given
follows the signal. -/
def signalEqualize (e : Equalizer K) (s : GraySignal K) (kernel : KernelArg) (clipLimit : K)
    (nbins : ℕ) (inplace : Bool) (lazyOutput : Option Bool) : Except Err (GraySignal K) :=
  if lazyOutput = some true ∧ inplace then .error .valueError
  else match contextualRegion s.rows s.cols kernel with
    | .error err => .error err
    | .ok k =>
      match s.patterns.mapM (fun p =>
        adaptiveEqualization e s.dtype s.rows s.cols p k clipLimit nbins) with
      | .error err => .error err
      | .ok out => .ok { s with
          patterns := out
          nan := false
          lazy := if inplace then s.lazy else lazyOutput.getD s.lazy }

end Kp
