import Verif.Model.Detector

/-
Model of how detector, static background and crystal map follow slicing and cropping of a signal:
`_update_custom_attributes`, `EBSD._slicer` and `EBSD.crop` (`src/kikuchipy/signals/ebsd.py`), for
maps with two navigation dimensions.

Slices are those given to NumPy.  HyperSpy passes integer slices on unchanged.  Steps are positive.
-/

namespace Kp

/-- A Python slice. -/
structure PySlice where
  start : Option ℤ := none
  stop : Option ℤ := none
  step : Option ℕ := none
  deriving DecidableEq

/-- Start of a slice in an axis of size `n`: negative values count from the end, others are
clamped. -/
def PySlice.lo (s : PySlice) (n : ℕ) : ℕ :=
  match s.start with
  | none => 0
  | some a => if a < 0 then (a + n).toNat else min a.toNat n

/-- Stop of a slice in an axis of size `n`. -/
def PySlice.hi (s : PySlice) (n : ℕ) : ℕ :=
  match s.stop with
  | none => n
  | some b => if b < 0 then (b + n).toNat else min b.toNat n

/-- Positions of an axis of size `n` in a slice, as NumPy selects them. -/
def PySlice.positions (s : PySlice) (n : ℕ) : List ℕ :=
  (List.range n).filter fun i =>
    decide (s.lo n ≤ i ∧ i < s.hi n ∧ (i - s.lo n) % (s.step.getD 1) = 0)

/-- Two-dimensional array indexed by two lists of positions. -/
def takeRows {V : Type*} (a : List (List V)) (ys xs : List ℕ) : List (List V) :=
  ys.filterMap fun y => (a[y]?).map fun row => xs.filterMap fun x => row[x]?

/-- Extent passed to `EBSDDetector.crop` (`ebsd.py` L3324-3333): start and stop of the slices, with
zero and the *new* signal shape where they are not given. -/
def sliceExtent (sy sx : PySlice) (new : ℕ × ℕ) : ℤ × ℤ × ℤ × ℤ :=
  (sy.start.getD 0, sy.stop.getD new.1, sx.start.getD 0, sx.stop.getD new.2)

section
variable {K V X : Type*} [Field K]

/-- The detector after slicing signal dimensions (`ebsd.py` L3324-3352).  If the extent is refused a
detector with a default PC is made, without twist. -/
def sliceSigDetector (d : Detector K) (sy sx : PySlice) (new : ℕ × ℕ) : Detector K :=
  match d.crop (sliceExtent sy sx new) with
  | .ok d' => d'
  | .error _ =>
    { nrows := new.1
      ncols := new.2
      pxSize := d.pxSize
      binning := d.binning
      tilt := d.tilt
      azimuthal := d.azimuthal
      twist := 0
      sampleTilt := d.sampleTilt
      nav := [1]
      pc := [⟨1 / 2, 1 / 2, 1 / 2⟩] }

/-- A crystal map in a rectangle: shape, points in row-major order. -/
structure SlicedMap (X : Type*) where
  shape : List ℕ
  points : List X
  deriving DecidableEq

/-- Attributes of a signal. -/
structure SignalAttrs (K V X : Type*) where
  detector : Detector K
  background : Option (List (List V))
  xmap : Option (SlicedMap X)
  deriving DecidableEq

/-- `s.isig[x slice, y slice]` of a signal with patterns of shape `sig` (`ebsd.py` L2830-2878,
L3316-3352). -/
def isigAttrs (a : SignalAttrs K V X) (sig : ℕ × ℕ) (sy sx : PySlice) : SignalAttrs K V X :=
  let ys := sy.positions sig.1
  let xs := sx.positions sig.2
  { a with
    background := a.background.map fun bg => takeRows bg ys xs
    detector := sliceSigDetector a.detector sy sx (ys.length, xs.length) }

/-- Points of a row-major array of shape `(ny, nx)` in the rows `ys` and columns `xs`. -/
def takeMap {A : Type*} (nx : ℕ) (l : List A) (ys xs : List ℕ) : List A :=
  ys.flatMap fun y => xs.filterMap fun x => l[y * nx + x]?

/-- Extent along one dimension of points at increasing positions: last minus first plus one. -/
def spanOf (l : List ℕ) : ℕ := l.getLastD 0 - l.headD 0 + 1

/-- A crystal map of shape `(ny, nx)` after slicing: orix keeps the points selected, and its shape is
the rectangle around them in the original map (so steps do not make it smaller).  Selecting nothing
gives an error which leaves the map as it was (`ebsd.py` L3355-3368); so does a map of another
shape. -/
def sliceXmap (m : SlicedMap X) (nav : ℕ × ℕ) (ys xs : List ℕ) : SlicedMap X :=
  if m.shape = [nav.1, nav.2] ∧ ys ≠ [] ∧ xs ≠ [] then
    ⟨[spanOf ys, spanOf xs], takeMap nav.2 m.points ys xs⟩
  else m

/-- PCs after slicing navigation dimensions (`ebsd.py` L3370-3378), of a detector with navigation
shape `(1,)` or two dimensions. -/
def sliceNavDetector (d : Detector K) (sy sx : PySlice) : Detector K :=
  match d.nav with
  | [ny, nx] =>
    let ys := sy.positions ny
    let xs := sx.positions nx
    let pc := takeMap nx d.pc ys xs
    if pc = [] then { d with nav := [1], pc := [⟨1 / 2, 1 / 2, 1 / 2⟩] }
    else { d with nav := [ys.length, xs.length], pc := pc }
  | _ => d

/-- `s.inav[x slice, y slice]` of a signal with a map of shape `nav` (`ebsd.py` L2830-2878,
L3354-3378), for two slices. -/
def inavAttrs (a : SignalAttrs K V X) (nav : ℕ × ℕ) (sy sx : PySlice) : SignalAttrs K V X :=
  { a with
    xmap := a.xmap.map fun m => sliceXmap m nav (sy.positions nav.1) (sx.positions nav.2)
    detector := sliceNavDetector a.detector sy sx }

/-- Start or end given to `crop`: an integer index, or a number in units of the axis. -/
inductive CropArg
  | none
  | index (i : ℤ)
  | units (i : ℤ)
  deriving DecidableEq

/-- Index for a value in `crop`; a value in units is stored with the index it is at. -/
def CropArg.toIndex : CropArg → Option ℤ
  | .none => Option.none
  | .index i => some i
  | .units i => some i

/-- Whether an argument can be used in a slice of a NumPy array. -/
def CropArg.isIndex : CropArg → Bool
  | .units _ => false
  | _ => true

/-- `s.crop` of a signal row or column (`ebsd.py` L2726-2770): slicing with numbers in units of the
axis raises `TypeError` for the background, which is then left as it was, and `ValueError` for the
detector. -/
def cropSigRows (a : SignalAttrs K V X) (sig : ℕ × ℕ) (start stop : CropArg) : SignalAttrs K V X :=
  let ys := (PySlice.mk start.toIndex stop.toIndex none).positions sig.1
  let xs := List.range sig.2
  if ys.length = sig.1 then a
  else if start.isIndex ∧ stop.isIndex then
    { a with
      background := a.background.map fun bg => takeRows bg ys xs
      detector := sliceSigDetector a.detector ⟨start.toIndex, stop.toIndex, none⟩ ⟨none, none, none⟩
        (ys.length, sig.2) }
  else
    -- an extent with a number which is not an integer is refused like an empty one
    { a with
      detector := sliceSigDetector a.detector ⟨some 0, some 0, none⟩ ⟨none, none, none⟩
        (ys.length, sig.2) }

/-- `s.crop` of map rows (`ebsd.py` L2726-2770): slicing PCs with numbers in units of the axis raises
`TypeError`, after the data are cropped; for one PC only the crystal map is sliced, which is left as it
was. -/
def cropNavRows [DecidableEq K] (a : SignalAttrs K V X) (nav : ℕ × ℕ) (start stop : CropArg) :
    Except Err (SignalAttrs K V X) :=
  let s : PySlice := ⟨start.toIndex, stop.toIndex, none⟩
  if (s.positions nav.1).length = nav.1 then .ok a
  else if start.isIndex ∧ stop.isIndex then .ok (inavAttrs a nav s ⟨none, none, none⟩)
  else if a.detector.nav = [1] then .ok a
  else .error .typeError

end

end Kp
