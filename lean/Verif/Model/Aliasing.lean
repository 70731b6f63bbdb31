/-
Model of the custom attributes (detector, static background, crystal map) of EBSD signals as
references to objects, and of which objects a signal returned by an out-of-place operation
refers to.

* signals/_kikuchipy_signal.py L231-243, L326-338, L457-469 (intensity methods), L471-546
  (`_get_custom_attributes`, `_set_custom_attributes`), L548-557 (`as_lazy`), L574-581
  (`deepcopy`)
* signals/ebsd.py L267-360 (`extract_grid`), L564-573 (`remove_static_background`), L689-696
  (`remove_dynamic_background`), L781-803 (`get_dynamic_background`), L933 (`fft_filter`),
  L1100 (`average_neighbour_patterns`), L1190-1219 (`downsample`), L2773-2828 (`rebin`),
  L2830-2876 (`_slicer`, the implementation of `inav` and `isig`)

Simplifications: the contents of the three kinds of objects are opaque types `D` (detector),
`B` (static background, a NumPy array, not a Dask array) and `X` (crystal map); a deep copy
of an object is a new object with equal contents which shares nothing with it; the pattern
data are not part of this model.
-/
import Mathlib.Data.Nat.Notation

namespace Kp

/-- The objects alive, by kind; a reference is a position in the list.  Objects are only ever
added (garbage collection is not observable). -/
structure AttrHeap (D B X : Type) where
  dets : List D
  bgs : List B
  maps : List X

/-- The references held by a signal: `_detector`, `_static_background`, `_xmap` (the last two
may be None). -/
structure AttrRefs where
  det : ℕ
  bg : Option ℕ
  xmap : Option ℕ
  deriving DecidableEq

/-- What a user sees of the attributes of a signal: their contents. -/
structure AttrView (D B X : Type) where
  det : Option D
  bg : Option B
  xmap : Option X
  deriving DecidableEq

/-- Contents of the attributes of a signal (the getters `detector`, `static_background`,
`xmap`, signals/ebsd.py L203-255). -/
def readAttrs {D B X : Type} (h : AttrHeap D B X) (a : AttrRefs) : AttrView D B X where
  det := h.dets[a.det]?
  bg := a.bg.bind fun r => h.bgs[r]?
  xmap := a.xmap.bind fun r => h.maps[r]?

/-- A modification of an attribute of a signal by the user: assignment of a new object
(`s.detector = det`, signals/ebsd.py L215-223, L238-243, L257-263) or a change of the object
itself (`s.detector.tilt = 5`, `s.static_background[0] = 1`, `s.xmap.prop["a"] = b`).
Simplification: assignments are of objects no other signal refers to. -/
inductive AttrStep (D B X : Type)
  | setDet (d : D)
  | mutDet (f : D → D)
  | setBg (b : B)
  | mutBg (f : B → B)
  | setMap (x : X)
  | mutMap (f : X → X)

/-- Effect of a modification through a signal. -/
def attrStep {D B X : Type} (h : AttrHeap D B X) (a : AttrRefs) :
    AttrStep D B X → AttrHeap D B X × AttrRefs
  | .setDet d => ({ h with dets := h.dets ++ [d] }, { a with det := h.dets.length })
  | .mutDet f => ({ h with dets := h.dets.modify a.det f }, a)
  | .setBg b => ({ h with bgs := h.bgs ++ [b] }, { a with bg := some h.bgs.length })
  | .mutBg f => match a.bg with
    | some r => ({ h with bgs := h.bgs.modify r f }, a)
    | none => (h, a)
  | .setMap x => ({ h with maps := h.maps ++ [x] }, { a with xmap := some h.maps.length })
  | .mutMap f => match a.xmap with
    | some r => ({ h with maps := h.maps.modify r f }, a)
    | none => (h, a)

/-- A history of modifications of two signals: `false` through the first (the original),
`true` through the second (the returned one). -/
def attrRun {D B X : Type} : AttrHeap D B X → AttrRefs → AttrRefs →
    List (Bool × AttrStep D B X) → AttrHeap D B X × AttrRefs × AttrRefs
  | h, a, b, [] => (h, a, b)
  | h, a, b, (false, s) :: ss =>
    let r := attrStep h a s
    attrRun r.1 r.2 b ss
  | h, a, b, (true, s) :: ss =>
    let r := attrStep h b s
    attrRun r.1 a r.2 ss

/-- Add a (copy of a) detector: the new heap and its reference. -/
def newDet {D B X : Type} (h : AttrHeap D B X) (d : D) : AttrHeap D B X × ℕ :=
  ({ h with dets := h.dets ++ [d] }, h.dets.length)

/-- Add a static background or None. -/
def newBg {D B X : Type} (h : AttrHeap D B X) : Option B → AttrHeap D B X × Option ℕ
  | some b => ({ h with bgs := h.bgs ++ [b] }, some h.bgs.length)
  | none => (h, none)

/-- Add a crystal map or None. -/
def newMap {D B X : Type} (h : AttrHeap D B X) : Option X → AttrHeap D B X × Option ℕ
  | some x => ({ h with maps := h.maps ++ [x] }, some h.maps.length)
  | none => (h, none)

/-- Give a signal new objects with the given contents. -/
def newAttrs {D B X : Type} (h : AttrHeap D B X) (d : D) (b : Option B) (x : Option X) :
    AttrHeap D B X × AttrRefs :=
  let r1 := newDet h d
  let r2 := newBg r1.1 b
  let r3 := newMap r2.1 x
  (r3.1, ⟨r1.2, r2.2, r3.2⟩)

/-- The out-of-place operations returning an EBSD signal, with the new contents of the
attributes they compute, as functions of the old.
* `plain`: `rescale_intensity`, `normalize_intensity`, `adaptive_histogram_equalization`,
  `remove_static_background`, `remove_dynamic_background`, `fft_filter`,
  `average_neighbour_patterns` with `inplace=False`, and `get_dynamic_background`
* `asLazy`: `as_lazy()`; `toLazy` wraps a NumPy static background in a Dask array
* `downsample` with `inplace=False`; `shrink` sets the shape and binning of the detector,
  `bin` downsamples the static background
* `deepcopy`
* `derive`: `rebin`, `inav`, `isig` and `extract_grid`; `fD`, `fB`, `fX` give the new
  contents (None if dropped) -/
inductive OutOfPlace (D B X : Type)
  | plain
  | asLazy (toLazy : B → B)
  | downsample (shrink : D → D) (bin : B → B)
  | deepcopy
  | derive (fD : D → D) (fB : B → Option B) (fX : X → Option X)

/-- Run an out-of-place operation: the heap after it and the references of the returned
signal.  The references of the original signal do not change.

`plain`: `attrs = self._get_custom_attributes()` (no copies), then
`s_out._set_custom_attributes(attrs)` (no copies), or `LazyEBSD(data, **attrs)`.
`asLazy`: the same with `make_lazy=True`, L532-533.
`downsample`: ebsd.py L1190-1203; `detector = attrs["detector"]` is the original's detector,
whose shape and binning are set.
`deepcopy`: `make_deepcopy=True` in `_set_custom_attributes`.
`derive`: `_get_custom_attributes(make_deepcopy=True)` (rebin, _slicer), or `deepcopy()` and
`copy()` of each attribute (extract_grid), then changed.
Simplification: the detector reference is always valid (a signal always has a detector);
otherwise nothing happens. -/
def runOut {D B X : Type} (h : AttrHeap D B X) (a : AttrRefs) :
    OutOfPlace D B X → AttrHeap D B X × AttrRefs
  | .plain => (h, a)
  | .asLazy toLazy =>
    let r := newBg h ((a.bg.bind fun i => h.bgs[i]?).map toLazy)
    (r.1, { a with bg := r.2 })
  | .downsample shrink bin =>
    let r := newBg h ((a.bg.bind fun i => h.bgs[i]?).map bin)
    ({ r.1 with dets := r.1.dets.modify a.det shrink }, { a with bg := r.2 })
  | .deepcopy => match h.dets[a.det]? with
    | some d => newAttrs h d (a.bg.bind fun i => h.bgs[i]?) (a.xmap.bind fun i => h.maps[i]?)
    | none => (h, a)
  | .derive fD fB fX => match h.dets[a.det]? with
    | some d => newAttrs h (fD d) ((a.bg.bind fun i => h.bgs[i]?).bind fB)
        ((a.xmap.bind fun i => h.maps[i]?).bind fX)
    | none => (h, a)

end Kp
