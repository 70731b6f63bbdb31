import Verif.Model.SliceSignal

/-
Model of `EBSD.crop` for any of the four axes and of `crop_signal`, with the way their arguments are
passed: `get_parameters` (`src/kikuchipy/signals/util/_overwrite_hyperspy_methods.py`) and
`EBSD.crop` (`src/kikuchipy/signals/ebsd.py`), for maps with two navigation dimensions.

Python's binding of arguments and HyperSpy's `Signal2D.crop` and `crop_signal` are modelled as
documented.
-/

namespace Kp

/-- A parameter in the signature of a method (without `self`). -/
structure PyParam (V : Type) where
  name : String
  default : Option V := none

section
variable {V : Type}

/-- Values of the parameters of a call as Python binds them: positional arguments in order, then
keywords, then defaults. -/
def bindFrom : List (PyParam V) → List V → List (String × V) → Except Err (List (String × V))
  | [], [], _ => .ok []
  | [], _ :: _, _ => .error .typeError
  | p :: ps, v :: vs, kw =>
    if (kw.lookup p.name).isSome then .error .typeError
    else do
      let r ← bindFrom ps vs kw
      .ok ((p.name, v) :: r)
  | p :: ps, [], kw =>
    match kw.lookup p.name, p.default with
    | some v, _ => do
      let r ← bindFrom ps [] kw
      .ok ((p.name, v) :: r)
    | none, some d => do
      let r ← bindFrom ps [] kw
      .ok ((p.name, d) :: r)
    | none, none => .error .typeError

/-- A call of a method with positional and keyword arguments; unknown keywords are refused. -/
def bindArguments (sig : List (PyParam V)) (args : List V) (kwargs : List (String × V)) :
    Except Err (List (String × V)) :=
  if kwargs.any fun q => (sig.map PyParam.name).all fun n => n != q.1 then .error .typeError
  else bindFrom sig args kwargs

/-- Positional arguments written over the values of the first keys
(`_overwrite_hyperspy_methods.py` L41-46). -/
def overwritePositional : List (String × V) → List V → Except Err (List (String × V))
  | p, [] => .ok p
  | [], _ :: _ => .error .indexError
  | q :: p, v :: vs => do
    let r ← overwritePositional p vs
    .ok ((q.1, v) :: r)

/-- Keyword arguments written over the values of their keys, if they are keys
(`_overwrite_hyperspy_methods.py` L48-51). -/
def overwriteKeywords (p kwargs : List (String × V)) : List (String × V) :=
  kwargs.foldl (fun p kv => p.map fun q => if q.1 = kv.1 then (q.1, kv.2) else q) p

/-- `get_parameters` (`_overwrite_hyperspy_methods.py` L26-60): `nil` is `None`, the value of
parameters without default that are not given. -/
def getParameters (sig : List (PyParam V)) (nil : V) (interest : List String) (args : List V)
    (kwargs : List (String × V)) : Except Err (Option (List (String × V))) := do
  let p ← overwritePositional (sig.map fun q => (q.name, q.default.getD nil)) args
  let p := overwriteKeywords p kwargs
  .ok (interest.mapM fun k => (p.lookup k).map fun v => (k, v))

end

/-- The axes of the data of a signal, in the order of the data array. -/
inductive CropAxis
  | navRow | navCol | sigRow | sigCol
  deriving DecidableEq

/-- Values passed to `crop`. -/
inductive CropValue
  | axis (a : CropAxis)
  | position (p : CropArg)
  | flag (b : Bool)
  deriving DecidableEq

/-- Signature of HyperSpy's `Signal2D.crop(axis, start=None, end=None, convert_units=False)`. -/
def cropParams : List (PyParam CropValue) :=
  [⟨"axis", none⟩, ⟨"start", some (.position .none)⟩, ⟨"end", some (.position .none)⟩,
    ⟨"convert_units", some (.flag false)⟩]

/-- Shape of a signal: navigation, then signal. -/
abbrev CropShape := (ℕ × ℕ) × (ℕ × ℕ)

/-- Size of an axis. -/
def CropShape.size (sh : CropShape) : CropAxis → ℕ
  | .navRow => sh.1.1
  | .navCol => sh.1.2
  | .sigRow => sh.2.1
  | .sigCol => sh.2.2

/-- Shape with another size of an axis. -/
def CropShape.set (sh : CropShape) (ax : CropAxis) (n : ℕ) : CropShape :=
  match ax with
  | .navRow => ((n, sh.1.2), sh.2)
  | .navCol => ((sh.1.1, n), sh.2)
  | .sigRow => (sh.1, (n, sh.2.2))
  | .sigCol => (sh.1, (sh.2.1, n))

/-- The shape of the data after HyperSpy has cropped an axis.  Simplification: selecting nothing
gives an empty axis. -/
def CropShape.crop (sh : CropShape) (ax : CropAxis) (start stop : CropArg) : CropShape :=
  sh.set ax ((PySlice.mk start.toIndex stop.toIndex none).positions (sh.size ax)).length

/-- The first axis of the data whose size changed (`ebsd.py` L2742-2747). -/
def changedAxis (old new : CropShape) : Option CropAxis :=
  [CropAxis.navRow, .navCol, .sigRow, .sigCol].find? fun ax => old.size ax != new.size ax

/-- Slices of two axes when one of them is sliced (`ebsd.py` L2756-2757, L2765-2766): second if
`second`. -/
def oneSliced (second : Bool) (s : PySlice) : PySlice × PySlice :=
  if second then (⟨none, none, none⟩, s) else (s, ⟨none, none, none⟩)

section
variable {K V X : Type} [Field K]

/-- Attributes after cropping signal axis `ax` (`ebsd.py` L2754-2762, L3316-3352): slicing the
background with numbers in units of the axis raises `TypeError`, which leaves it as it was, and an
extent with such a number is refused like an empty one. -/
def cropSigUpdate (a : SignalAttrs K V X) (old new : CropShape) (second : Bool) (start stop : CropArg) :
    SignalAttrs K V X :=
  if start.isIndex ∧ stop.isIndex then
    let s := oneSliced second ⟨start.toIndex, stop.toIndex, none⟩
    { a with
      background := a.background.map fun bg =>
        takeRows bg (s.1.positions old.2.1) (s.2.positions old.2.2)
      detector := sliceSigDetector a.detector s.1 s.2 new.2 }
  else
    let s := oneSliced second ⟨some 0, some 0, none⟩
    { a with detector := sliceSigDetector a.detector s.1 s.2 new.2 }

/-- Attributes after cropping navigation axis `ax` (`ebsd.py` L2763-2768, L3354-3378). -/
def cropNavUpdate (a : SignalAttrs K V X) (old : CropShape) (second : Bool) (start stop : CropArg) :
    Except Err (SignalAttrs K V X) :=
  if start.isIndex ∧ stop.isIndex then
    let s := oneSliced second ⟨start.toIndex, stop.toIndex, none⟩
    .ok (inavAttrs a old.1 s.1 s.2)
  else if a.detector.nav = [1] then .ok a
  else .error .typeError

/-- `EBSD.crop` (`ebsd.py` L2726-2770): attributes and shape afterwards.  Values of another kind than
the parameter are refused by HyperSpy. -/
def cropCall (a : SignalAttrs K V X) (sh : CropShape) (args : List CropValue)
    (kwargs : List (String × CropValue)) : Except Err (SignalAttrs K V X × CropShape) := do
  let b ← bindArguments cropParams args kwargs
  match b.lookup "axis", b.lookup "start", b.lookup "end" with
  | some (.axis ax), some (.position start), some (.position stop) =>
    let new := sh.crop ax start stop
    match ← getParameters cropParams (.position .none) ["start", "end"] args kwargs with
    | none => .ok (a, new)
    | some ps =>
      if ps.all fun q => q.2 == .position .none then .ok (a, new)
      else
        let arg (k : String) : CropArg := match ps.lookup k with
          | some (.position p) => p
          | _ => .none
        match changedAxis sh new with
        | none => .ok (a, new)
        | some .sigRow => .ok (cropSigUpdate a sh new false (arg "start") (arg "end"), new)
        | some .sigCol => .ok (cropSigUpdate a sh new true (arg "start") (arg "end"), new)
        | some .navRow => do
          let r ← cropNavUpdate a sh false (arg "start") (arg "end")
          .ok (r, new)
        | some .navCol => do
          let r ← cropNavUpdate a sh true (arg "start") (arg "end")
          .ok (r, new)
  | _, _, _ => .error .typeError

/-- HyperSpy's `Signal2D.crop_signal(top, bottom, left, right)`: crop the signal rows, then the
columns (`self.crop(axis, top, bottom)`; the comment in `ebsd.py` L2727-2728). -/
def cropSignal (a : SignalAttrs K V X) (sh : CropShape) (top bottom left right : CropArg) :
    Except Err (SignalAttrs K V X × CropShape) := do
  let r ← cropCall a sh [.axis .sigRow, .position top, .position bottom] []
  cropCall r.1 r.2 [.axis .sigCol, .position left, .position right] []

end

end Kp
