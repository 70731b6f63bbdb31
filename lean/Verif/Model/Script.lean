import Mathlib.Data.Nat.Notation

/-
Model of scripts, that is of sequences of calls with any number of variables and signals, as far as
detectors, static backgrounds and crystal maps are concerned. Python variables and attributes of
signals hold references to objects, which may be shared.

* `signals/ebsd.py` L189-263 (`EBSD.__init__` and the attribute setters), L267-369 (`extract_grid`),
  L564-573, L689-696, L781-803, L933, L1100 (methods with `inplace=False`), L1190-1219
  (`downsample`), L2773-2876 (`rebin`, `_slicer`), L1818-1825 (`hough_indexing_optimize_pc`)
* `signals/_kikuchipy_signal.py` L471-581 (`_get_custom_attributes`, `_set_custom_attributes`,
  `as_lazy`, `deepcopy`)
* `signals/ebsd_master_pattern.py` L284-291 (`get_patterns`)
* `detectors/_ebsd_detector.py` L1034-1042 (`deepcopy`), L1418-1424 (`extrapolate_pc`), L1569
  (`fit_pc`); `indexing/_refinement/_refinement.py` L173, L270 (new detectors)

Simplifications: the contents of objects are an opaque type `V`; a deep copy of an object shares
nothing with it; checks of shapes have passed; a signal is bound to one variable only (no `t = s` of
signals); the patterns are not part of this model.
-/

namespace Kp

/-- Where a script holds an object: a variable, or an attribute of a signal. -/
inductive Place
  | var (x : String)
  | det (s : String)
  | bg (s : String)
  | xmap (s : String)
  deriving DecidableEq

/-- What the variables and attributes refer to, and the contents of all objects. A reference is a
position in the list of objects. -/
structure ScriptState (V : Type) where
  env : Place → Option ℕ
  heap : List V

/-- The contents held at a place, as seen by the user. -/
def ScriptState.view {V : Type} (st : ScriptState V) (p : Place) : Option V :=
  (st.env p).bind fun r => st.heap[r]?

/-- Calls in a script.
* `create x v`: `x = EBSDDetector(...)`, `x = CrystalMap(...)`, `x = np.array(...)`
* `share x p`: `x = y`, `x = s.detector`, `x = s.xmap`, `x = s.static_background`
* `compute x f`: `x = y.deepcopy()`, `y.extrapolate_pc(...)`, `y.fit_pc(...)`,
  `s.hough_indexing_optimize_pc(...)`, and the crystal maps and detectors of `s.refine_...(...)`: a
  new object computed from what there is
* `signal s d b m new`: `s = EBSD(data, detector=d, static_background=b, xmap=m)`; if no detector is
  given, a new one
* `simulate s d m`: `s = mp.get_patterns(rotations, detector=d)` with new crystal map `m`
* `setDet`, `setBg`, `setMap`: `s.detector = x`, `s.static_background = x`, `s.xmap = x`
* `modify p f`: `x.tilt = 5`, `s.detector.pc = ...`, `s.static_background[0] = 1`
* `plain t s`: `t = s.rescale_intensity(inplace=False)` and the other intensity methods
* `asLazy t s f`: `t = s.as_lazy()`
* `downsample t s f g`: `t = s.downsample(factor, inplace=False)`; `f` is the change of the detector,
  `g` that of the background
* `downsampled s f g`: `s.downsample(factor)`
* `derive t s f g h`: `t = s.deepcopy()`, `s.rebin(...)`, `s.inav[...]`, `s.isig[...]`,
  `s.extract_grid(...)`; an attribute may be dropped -/
inductive ScriptCall (V : Type)
  | create (x : String) (v : V)
  | share (x : String) (p : Place)
  | compute (x : String) (f : (Place → Option V) → V)
  | signal (s : String) (d b m : Option String) (new : V)
  | simulate (s d : String) (m : V)
  | setDet (s x : String)
  | setBg (s x : String)
  | setMap (s x : String)
  | modify (p : Place) (f : V → V)
  | plain (t s : String)
  | asLazy (t s : String) (f : V → V)
  | downsample (t s : String) (f g : V → V)
  | downsampled (s : String) (f g : V → V)
  | derive (t s : String) (f : V → V) (g h : V → Option V)

/-- Assign to a place. -/
def assignPlace {α : Type} (env : Place → Option α) (p : Place) (r : Option α) : Place → Option α :=
  fun q => if q = p then r else env q

/-- Bind a signal with its three attributes. -/
def bindSignal {α : Type} (env : Place → Option α) (s : String) (d b m : Option α) :
    Place → Option α :=
  assignPlace (assignPlace (assignPlace env (.det s) d) (.bg s) b) (.xmap s) m

/-- A new object, or none: the objects after and the reference. -/
def newObject {V : Type} (heap : List V) : Option V → List V × Option ℕ
  | some v => (heap ++ [v], some heap.length)
  | none => (heap, none)

/-- Change the object a place refers to. -/
def changeAt {V : Type} (st : ScriptState V) (p : Place) (f : V → V) : List V :=
  match st.env p with
  | some r => st.heap.modify r f
  | none => st.heap

/-- The effect of a call. Setters, the constructor, `get_patterns` and methods with `inplace=False`
store references without copying (`ebsd.py` L191-201, L223, L243, L263; `_kikuchipy_signal.py`
L231-243, L531-546). `as_lazy` makes a new background (L532-533). `downsample` sets shape and binning
of the detector of `s` itself (`ebsd.py` L1199-1201), also with `inplace=False`, where the returned
signal gets a reference to it (L1209-1219), and makes a new background (L1193-1196). `derive` makes
deep copies. -/
def scriptStep {V : Type} (st : ScriptState V) : ScriptCall V → ScriptState V
  | .create x v => ⟨assignPlace st.env (.var x) (some st.heap.length), st.heap ++ [v]⟩
  | .share x p => ⟨assignPlace st.env (.var x) (st.env p), st.heap⟩
  | .compute x f =>
    ⟨assignPlace st.env (.var x) (some st.heap.length), st.heap ++ [f st.view]⟩
  | .signal s d b m new =>
    let r : List V × Option ℕ := match d with
      | some x => (st.heap, st.env (.var x))
      | none => newObject st.heap (some new)
    ⟨bindSignal st.env s r.2 (b.bind fun x => st.env (.var x)) (m.bind fun x => st.env (.var x)),
      r.1⟩
  | .simulate s d m =>
    let r := newObject st.heap (some m)
    ⟨bindSignal st.env s (st.env (.var d)) none r.2, r.1⟩
  | .setDet s x => ⟨assignPlace st.env (.det s) (st.env (.var x)), st.heap⟩
  | .setBg s x => ⟨assignPlace st.env (.bg s) (st.env (.var x)), st.heap⟩
  | .setMap s x => ⟨assignPlace st.env (.xmap s) (st.env (.var x)), st.heap⟩
  | .modify p f => ⟨st.env, changeAt st p f⟩
  | .plain t s => ⟨bindSignal st.env t (st.env (.det s)) (st.env (.bg s)) (st.env (.xmap s)), st.heap⟩
  | .asLazy t s f =>
    let r := newObject st.heap ((st.view (.bg s)).map f)
    ⟨bindSignal st.env t (st.env (.det s)) r.2 (st.env (.xmap s)), r.1⟩
  | .downsample t s f g =>
    let r := newObject (changeAt st (.det s) f) ((st.view (.bg s)).map g)
    ⟨bindSignal st.env t (st.env (.det s)) r.2 (st.env (.xmap s)), r.1⟩
  | .downsampled s f g =>
    let r := newObject (changeAt st (.det s) f) ((st.view (.bg s)).map g)
    ⟨assignPlace st.env (.bg s) r.2, r.1⟩
  | .derive t s f g h =>
    let r1 := newObject st.heap ((st.view (.det s)).map f)
    let r2 := newObject r1.1 ((st.view (.bg s)).bind g)
    let r3 := newObject r2.1 ((st.view (.xmap s)).bind h)
    ⟨bindSignal st.env t r1.2 r2.2 r3.2, r3.1⟩

/-- The state after a script. -/
def scriptRun {V : Type} : ScriptState V → List (ScriptCall V) → ScriptState V
  | st, [] => st
  | st, c :: cs => scriptRun (scriptStep st c) cs

/-- Nothing is bound before a script starts. -/
def scriptStart {V : Type} : ScriptState V := ⟨fun _ => none, []⟩

end Kp
