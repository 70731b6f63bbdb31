import Mathlib.Data.Rat.Defs
import Mathlib.Data.List.Basic

/-
Model of what processing does to everything in an EBSD signal but the intensities: the navigation
axes, the metadata, the data type and the static background.

* signals/_kikuchipy_signal.py L88-243 (`rescale_intensity`), L245-338 (`normalize_intensity`),
  L340-469 (`adaptive_histogram_equalization`), L548-581 (`as_lazy`, `change_dtype`, `deepcopy`),
  L609-614 (`compute`)
* signals/ebsd.py L380-411 (`set_scan_calibration`), L517-573 (`remove_static_background`),
  L640-696 (`remove_dynamic_background`), L736-803 (`get_dynamic_background`), L879-940
  (`fft_filter`), L1015-1110 (`average_neighbour_patterns`), L1164-1219 (`downsample`), L3168-3173
  (`change_dtype`)

HyperSpy's `map`, `as_lazy`, `compute`, `change_dtype` and `deepcopy` keep axes and metadata; a
signal made from an array alone has axes without name and unit, of scale 1 and offset 0, and empty
metadata.  Simplified: whether the static background is a Dask array is left out, and so are
errors from arguments which do not matter here (ranges, filters, window types).  Which objects are
shared between signals is in `Verif/Model/Aliasing.lean`.
-/

namespace Kp

/-- A navigation axis; names and units are empty texts if they are not defined. -/
structure ScanAxis where
  name : String
  size : ℕ
  scale : ℚ
  offset : ℚ
  units : String
  deriving DecidableEq

/-- The axis of a signal made from an array alone. -/
def newAxis (size : ℕ) : ScanAxis := ⟨"", size, 1, 0, ""⟩

/-- What is kept of a signal: `T` are the data types, `M` the metadata.  The navigation axes are in
the order of HyperSpy (columns first); the static background is given by its shape and data
type. -/
structure ScanSignal (T M : Type) where
  navAxes : List ScanAxis
  metadata : M
  dtype : T
  lazy : Bool
  sigShape : ℕ × ℕ
  background : Option ((ℕ × ℕ) × T)
  deriving DecidableEq

/-- How an operation is to return its result: the arguments `inplace` and `lazy_output`. -/
structure OutputArgs where
  inplace : Bool := true
  lazyOutput : Option Bool := none
  deriving DecidableEq

/-- The operations. -/
inductive ProcessingStep (T : Type)
  | rescale (dtypeOut : Option T) (o : OutputArgs)
  | normalize (dtypeOut : Option T) (o : OutputArgs)
  | equalize (o : OutputArgs)
  | removeStatic (o : OutputArgs)
  | removeDynamic (o : OutputArgs)
  | getDynamic (dtypeOut : Option T) (lazyOutput : Option Bool)
  | fftFilter (o : OutputArgs)
  | average (window : ℕ × ℕ) (o : OutputArgs)
  | downsample (factor : ℕ) (dtypeOut : Option T) (o : OutputArgs)
  | changeDtype (dtype : T)
  | asLazy
  | compute
  | deepcopy
  deriving DecidableEq

/-- The errors. -/
inductive ProcessingError
  | lazyInplace | noBackground | backgroundDtype | backgroundShape | factor | returnedNone
  deriving DecidableEq

section
variable {T M : Type} [DecidableEq T]

/-- Whether a result is lazy (`lazy_output or (lazy_output is None and self._lazy)`, as in
ebsd.py L918 and in HyperSpy's `map`; in place, a signal stays as it is). -/
def outputLazy (s : ScanSignal T M) (o : OutputArgs) : Bool :=
  if o.inplace then s.lazy else
    match o.lazyOutput with
    | some l => l
    | none => s.lazy

/-- The check of the arguments `inplace` and `lazy_output` (e.g. ebsd.py L517-518). -/
def checkOutput (o : OutputArgs) : Except ProcessingError Unit :=
  if o.lazyOutput = some true ∧ o.inplace = true then .error .lazyInplace else .ok ()

/-- An operation through HyperSpy's `map` followed by `_set_custom_attributes` (e.g.
_kikuchipy_signal.py L231-243). -/
def mapped (s : ScanSignal T M) (o : OutputArgs) (dtype : T) : ScanSignal T M :=
  { s with dtype := dtype, lazy := outputLazy s o }

/-- A new signal from an array and the custom attributes of another (ebsd.py L783, L797, L933,
L1100): without its axes and metadata `m0`. -/
def fromArray (m0 : M) (s : ScanSignal T M) (dtype : T) (lazy : Bool) : ScanSignal T M :=
  { s with navAxes := s.navAxes.map (fun a => newAxis a.size), metadata := m0, dtype := dtype,
           lazy := lazy }

/-- One operation: the signal it was called on if it was in place, else the one returned. -/
def processingStep (m0 : M) (s : ScanSignal T M) :
    ProcessingStep T → Except ProcessingError (ScanSignal T M)
  | .rescale d o => do
    checkOutput o
    pure (mapped s o (d.getD s.dtype))
  | .normalize d o => do
    checkOutput o
    pure (mapped s o (d.getD s.dtype))
  | .equalize o => do
    checkOutput o
    pure (mapped s o s.dtype)
  | .removeStatic o => do
    checkOutput o
    match s.background with
    | none => throw .noBackground
    | some b =>
      if b.2 ≠ s.dtype then throw .backgroundDtype
      else if b.1 ≠ s.sigShape then throw .backgroundShape
      else pure (mapped s o s.dtype)
  | .removeDynamic o => do
    checkOutput o
    pure (mapped s o s.dtype)
  | .getDynamic d l =>
    pure (fromArray m0 s (d.getD s.dtype) (l.getD s.lazy))
  | .fftFilter o => do
    checkOutput o
    if o.inplace then pure s else pure (fromArray m0 s s.dtype (outputLazy s o))
  | .average w o => do
    checkOutput o
    if w = (1, 1) then (if o.inplace then pure s else throw .returnedNone)
    else if o.inplace then pure s else pure (fromArray m0 s s.dtype (outputLazy s o))
  | .downsample k d o => do
    checkOutput o
    if k ≤ 1 ∨ s.sigShape.1 % k ≠ 0 ∨ s.sigShape.2 % k ≠ 0 then throw .factor
    else pure { mapped s o (d.getD s.dtype) with
      sigShape := (s.sigShape.1 / k, s.sigShape.2 / k)
      background := s.background.map (fun b => ((b.1.1 / k, b.1.2 / k), d.getD s.dtype)) }
  | .changeDtype d =>
    pure { s with dtype := d, background := s.background.map (fun b => (b.1, d)) }
  | .asLazy => pure { s with lazy := true }
  | .compute => pure { s with lazy := false }
  | .deepcopy => pure s

/-- A sequence of operations, each on the signal obtained from the one before. -/
def processing (m0 : M) (s : ScanSignal T M) :
    List (ProcessingStep T) → Except ProcessingError (ScanSignal T M)
  | [] => .ok s
  | p :: ps =>
    match processingStep m0 s p with
    | .error e => .error e
    | .ok s' => processing m0 s' ps

/-- `set_scan_calibration` (ebsd.py L406-411): the two navigation axes get names, scales and
units; unpacking another number of axes raises an error. -/
def setScanCalibration (s : ScanSignal T M) (stepX stepY : ℚ) : Option (ScanSignal T M) :=
  match s.navAxes with
  | [x, y] => some { s with navAxes :=
      [{ x with name := "x", scale := stepX, units := "um" },
       { y with name := "y", scale := stepY, units := "um" }] }
  | _ => none

end
end Kp
