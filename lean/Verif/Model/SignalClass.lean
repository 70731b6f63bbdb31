import Verif.Model.Detector

/-
Model of the class and the custom attributes of signals:
`src/kikuchipy/io/_io.py` (`_dict2signal`, `_assign_signal_subclass`),
`src/kikuchipy/signals/_kikuchipy_signal.py` (L54-64, L471-614) and
`src/kikuchipy/signals/_kikuchi_master_pattern.py` (`set_signal_type`).

HyperSpy is not part of the code. Of it, this is assumed: `set_signal_type`, `as_lazy`, `compute`,
`change_dtype` and `deepcopy` do what their names say, and all but the last end with
`_assign_subclass`, which gives a signal the class registered for its signal type, data type and
laziness (a plain signal class if there is none) and runs `__init__` of that class on the instance
again without keyword arguments.

Simplifications: signals have two signal dimensions; the values of attributes are opaque, with a
conversion to and from Dask arrays.
-/

namespace Kp

/-! ### Choice of class when loading -/

/-- A class in `kikuchipy.signals` (`signals/__init__.pyi`, `hyperspy_extension.yaml`) with its
`_signal_type`, `_alias_signal_types` and `_lazy`. All have `_dtype` "real" and
`_signal_dimension` 2. -/
structure SignalClass where
  name : String
  signalType : String
  aliases : List String
  lazy : Bool
  deriving DecidableEq

/-- The classes found by `find_subclasses(kikuchipy.signals, BaseSignal)`, in alphabetical order
(`ebsd.py` L184-185, `ebsd_master_pattern.py` L94-95, `ecp_master_pattern.py` L61-62,
`virtual_bse_image.py` L36-38). Lazy classes inherit type and aliases. -/
def signalClasses : List SignalClass :=
  [⟨"EBSD", "EBSD", ["electron_backscatter_diffraction"], false⟩,
   ⟨"EBSDMasterPattern", "EBSDMasterPattern", ["ebsd_master_pattern", "master_pattern"], false⟩,
   ⟨"ECPMasterPattern", "ECPMasterPattern", ["ecp_master_pattern"], false⟩,
   ⟨"LazyEBSD", "EBSD", ["electron_backscatter_diffraction"], true⟩,
   ⟨"LazyEBSDMasterPattern", "EBSDMasterPattern", ["ebsd_master_pattern", "master_pattern"], true⟩,
   ⟨"LazyECPMasterPattern", "ECPMasterPattern", ["ecp_master_pattern"], true⟩,
   ⟨"LazyVirtualBSEImage", "VirtualBSEImage", ["virtual_backscatter_electron_image"], true⟩,
   ⟨"VirtualBSEImage", "VirtualBSEImage", ["virtual_backscatter_electron_image"], false⟩]

/-- `part in text` for strings. -/
def textContains (part : List Char) : List Char → Bool
  | [] => part.isEmpty
  | c :: cs => part.isPrefixOf (c :: cs) || textContains part cs

/-- The test of the data type's name (`_io.py` L312-322). -/
def dtypeIsReal (name : String) : Bool :=
  textContains "float".toList name.toList || textContains "int".toList name.toList ||
  textContains "void".toList name.toList || textContains "bool".toList name.toList ||
  textContains "object".toList name.toList

/-- `_assign_signal_subclass` for signal dimension 2 (`_io.py` L279-351). -/
def assignSignalSubclass (dtypeName signalType : String) (lazy : Bool) : Except Err SignalClass :=
  if dtypeIsReal dtypeName then
    let signals := signalClasses.filter (fun c => c.lazy == lazy)
    match signals.filter (fun c => c.signalType == signalType || c.aliases.contains signalType) with
    | [c] => .ok c
    | _ => .error .valueError
  else .error .valueError

/-- The class of the signal made by `_dict2signal` (`_io.py` L146-195): `recordBy` and `signalType`
are the entries under "Signal" in the metadata, if any. -/
def dict2signalClass (recordBy signalType : Option String) (dtypeName : String) (lazy : Bool) :
    Except Err SignalClass :=
  match recordBy with
  | some r =>
    if r ≠ "image" then .error .valueError
    else assignSignalSubclass dtypeName (signalType.getD "") lazy
  | none => assignSignalSubclass dtypeName (signalType.getD "") lazy

/-! ### Class and custom attributes of a signal -/

/-- Kind of class: one of kikuchipy's, or a plain HyperSpy signal. -/
inductive SigKind
  | ebsd
  | ebsdMaster
  | ecpMaster
  | vbse
  | plain
  deriving DecidableEq

/-- Names of custom attributes. -/
inductive AttrName
  | detector
  | staticBackground
  | xmap
  | hemisphere
  | phase
  | projection
  deriving DecidableEq

/-- `_custom_attributes` (`ebsd.py` L186, `_kikuchi_master_pattern.py` L74,
`_kikuchipy_signal.py` L76). -/
def SigKind.custom : SigKind → List AttrName
  | .ebsd => [.detector, .staticBackground, .xmap]
  | .ebsdMaster | .ecpMaster => [.hemisphere, .phase, .projection]
  | .vbse | .plain => []

/-- The kind registered for a signal type or alias (`hyperspy_extension.yaml`); HyperSpy gives an
unknown type a plain class. -/
def kindOfType (t : String) : SigKind :=
  if t = "EBSD" ∨ t = "electron_backscatter_diffraction" then .ebsd
  else if t = "EBSDMasterPattern" ∨ t = "ebsd_master_pattern" ∨ t = "master_pattern" then
    .ebsdMaster
  else if t = "ECPMasterPattern" ∨ t = "ecp_master_pattern" then .ecpMaster
  else if t = "VirtualBSEImage" ∨ t = "virtual_backscatter_electron_image" then .vbse
  else .plain

/-- A signal: kind of class, signal type in the metadata, whether the data are real, laziness and
the private attributes of the instance. -/
structure Sig (V : Type) where
  kind : SigKind
  type : String
  real : Bool
  lazy : Bool
  attr : AttrName → Option V

variable {V : Type}

/-- What the model needs to know of attribute values: what `__init__` sets without keyword
arguments, and the conversions in `_set_custom_attributes`. -/
structure AttrOps (V : Type) where
  default : AttrName → V
  toLazy : V → V
  compute : V → V

/-- `__init__` without keyword arguments (`ebsd.py` L188-200, `_kikuchi_master_pattern.py`
L76-80): sets the custom attributes of the class and leaves other attributes of the instance. -/
def Sig.runInit (o : AttrOps V) (s : Sig V) : Sig V :=
  { s with attr := fun n => if n ∈ s.kind.custom then some (o.default n) else s.attr n }

/-- HyperSpy's `_assign_subclass` (see the module comment). -/
def Sig.hsAssign (o : AttrOps V) (s : Sig V) : Sig V :=
  { s with kind := if s.real then kindOfType s.type else .plain }.runInit o

/-- `__delattr__` of some attributes, ignoring those absent. -/
def Sig.delete (s : Sig V) (names : List AttrName) : Sig V :=
  { s with attr := fun n => if n ∈ names then none else s.attr n }

/-- `_assign_subclass`: kikuchipy's (`_kikuchipy_signal.py` L583-597) or HyperSpy's, by the class
before the call. -/
def Sig.assignSubclass (o : AttrOps V) (s : Sig V) : Sig V :=
  if s.kind = .plain then s.hsAssign o
  else
    let new := s.hsAssign o
    if new.kind = .plain then new.delete s.kind.custom else new

/-- `_get_custom_attributes` (`_kikuchipy_signal.py` L471-501); reading an attribute that the
instance does not have raises. -/
def Sig.getCustom (s : Sig V) : Except Err (List (AttrName × V)) :=
  s.kind.custom.mapM (fun n => match s.attr n with
    | some v => .ok (n, v)
    | none => .error .attributeError)

/-- `_set_custom_attributes` (`_kikuchipy_signal.py` L503-545) with a conversion of values. Plain
signals do not have this method. -/
def Sig.setCustom (s : Sig V) (conv : V → V) (attrs : List (AttrName × V)) : Except Err (Sig V) :=
  if s.kind = .plain then .error .attributeError
  else .ok { s with attr := fun n =>
    match attrs.lookup n with
    | some v => if n ∈ s.kind.custom then some (conv v) else s.attr n
    | none => s.attr n }

/-- An operation on a signal. -/
inductive SigOp
  | setType (t : String)
  | asLazy
  | compute
  | changeDtype (real : Bool)
  | deepcopy

/-- Setting the signal type with HyperSpy's method. -/
def Sig.hsSetType (o : AttrOps V) (s : Sig V) (t : String) : Sig V :=
  { s with type := t }.assignSubclass o

/-- `KikuchiMasterPattern.set_signal_type` (`_kikuchi_master_pattern.py` L370-386). On an error in
the middle the instance has been changed already: the second component. -/
def Sig.masterSetType (o : AttrOps V) (s : Sig V) (t : String) : Except (Err × Sig V) (Sig V) :=
  if textContains "master".toList (t.toList.map pyLower) then
    match s.getCustom with
    | .error e => .error (e, s)
    | .ok attrs =>
      let new := s.hsSetType o t
      match new.setCustom id attrs with
      | .error e => .error (e, new)
      | .ok s' => .ok s'
  else .ok ((s.hsSetType o t).delete s.kind.custom)

/-- Kinds of master patterns. -/
def SigKind.isMaster : SigKind → Bool
  | .ebsdMaster | .ecpMaster => true
  | _ => false

/-- HyperSpy's `as_lazy` or `change_dtype`, after which the signal is `after` before its class is
assigned; and, if the class is then one of kikuchipy's, setting the attributes from before, otherwise
deleting them (`_kikuchipy_signal.py` L549-572; `as_lazy` does not delete, but `_assign_subclass` has
done so already). -/
def Sig.around (o : AttrOps V) (s after : Sig V) (conv : V → V) : Except (Err × Sig V) (Sig V) :=
  if s.kind = .plain then .ok (after.assignSubclass o)
  else
    match s.getCustom with
    | .error e => .error (e, s)
    | .ok attrs =>
      let new := after.assignSubclass o
      if new.kind = .plain then .ok (new.delete s.kind.custom)
      else
        match new.setCustom conv attrs with
        | .error e => .error (e, new)
        | .ok s' => .ok s'

/-- `compute` (`_kikuchipy_signal.py` L609-614), a method of lazy classes only. -/
def Sig.computeOp (o : AttrOps V) (s : Sig V) : Except (Err × Sig V) (Sig V) :=
  if s.lazy then
    let after := { s with lazy := false }.assignSubclass o
    if s.kind = .plain then .ok after
    else
      match s.getCustom with
      | .error e => .error (e, s)
      | .ok attrs =>
        match after.setCustom o.compute attrs with
        | .error e => .error (e, after)
        | .ok s' => .ok s'
  else .error (.attributeError, s)

/-- An operation applied to a signal: `set_signal_type`, `as_lazy`, `compute`, `change_dtype` and
`deepcopy` (`_kikuchipy_signal.py` L574-581, attributes have equal values in the copy). `as_lazy` and
`deepcopy` return a new signal, which here replaces the old one. -/
def Sig.apply (o : AttrOps V) (s : Sig V) : SigOp → Except (Err × Sig V) (Sig V)
  | .setType t => if s.kind.isMaster then s.masterSetType o t else .ok (s.hsSetType o t)
  | .asLazy => s.around o { s with lazy := true } o.toLazy
  | .compute => s.computeOp o
  | .changeDtype r => s.around o { s with real := r } id
  | .deepcopy => .ok s

/-- A sequence of operations; stops at the first error. -/
def Sig.applyAll (o : AttrOps V) (s : Sig V) : List SigOp → Except (Err × Sig V) (Sig V)
  | [] => .ok s
  | op :: ops =>
    match s.apply o op with
    | .error e => .error e
    | .ok s' => s'.applyAll o ops

end Kp
