import Verif.Model.SliceSignal
import Verif.Model.ExtractGrid
import Verif.Model.Rebin
import Verif.Model.RefinementChecks

/-
Model of a signal through a history of operations which change its shape or its attributes: the
setters of `detector`, `xmap` and `static_background` (`/repo/src/kikuchipy/signals/ebsd.py`
L203-263), `inav`, `isig` and `crop` (`Model/SliceSignal.lean`), `downsample`
(`Model/Downsample.lean`), `rebin` (`Model/Rebin.lean`) and `extract_grid`
(`Model/ExtractGrid.lean`), for maps with two navigation dimensions.

Simplifications: patterns are left out, only the shape of the data is kept.  Warnings are left out.
-/

namespace Kp

section
variable {K X : Type} [Field K] [LinearOrder K] [FloorRing K]

/-- A signal with a map of shape `nav` and patterns of shape `sig` and data type `dtype`, with its
attributes (`ebsd.py` L180-199). -/
structure LiveSignal (K X : Type) where
  nav : ℕ × ℕ
  sig : ℕ × ℕ
  dtype : DType
  attrs : SignalAttrs K K X
  deriving DecidableEq

/-- A background given by its rows as an image, and back: `downsample` and `rebin` are modelled for
images. -/
def imgOfRows (l : List (List K)) : Img K :=
  { rows := l.length
    cols := (l.headD []).length
    val := fun r c => (l.getD r []).getD c 0 }

/-- Rows of an image. -/
def Img.toRows (p : Img K) : List (List K) :=
  (List.range p.rows).map fun r => (List.range p.cols).map fun c => p.val r c

/-- Operations of a user on a signal.  For `inav`, `isig`, `rebin`, `downsample` and `extract_grid` the
signal returned is the one used afterwards. -/
inductive SignalOp (K X : Type)
  /-- `s.detector = d`. -/
  | setDetector (d : Detector K)
  /-- `s.xmap = m`, where `none` is `None`. -/
  | setXmap (m : Option (SlicedMap X))
  /-- `s.static_background = b`, where `none` is `None`. -/
  | setBackground (b : Option (List (List K)))
  /-- `s.inav[sx, sy]`. -/
  | inav (sy sx : PySlice)
  /-- `s.isig[sx, sy]`. -/
  | isig (sy sx : PySlice)
  /-- `s.crop` of map rows. -/
  | cropNav (start stop : CropArg)
  /-- `s.crop` of pattern rows. -/
  | cropSig (start stop : CropArg)
  /-- `s.downsample(factor, dtype_out)`. -/
  | downsample (factor : ℤ) (dtypeOut : Option DType)
  /-- `s.rebin(scale=...)` with integer scales of map rows, map columns, pattern rows and pattern
  columns. -/
  | rebin (ny nx sy sx : ℕ)
  /-- `s.extract_grid((gx, gy))`. -/
  | extractGrid (gx gy : ℕ)

/-- The setter of `detector` (`ebsd.py` L215-223): shapes are checked by
`_detector_is_compatible_with_signal`. -/
def setDetector (s : LiveSignal K X) (d : Detector K) : LiveSignal K X × Option Err :=
  match checkDetector [s.nav.1, s.nav.2] [s.sig.1, s.sig.2] ⟨[d.nrows, d.ncols], d.nav⟩ with
  | .ok () => ({ s with attrs := { s.attrs with detector := d } }, none)
  | .error _ => (s, some .valueError)

/-- The setter of `xmap` (`ebsd.py` L238-243, `util/_crystal_map.py` L28-61): the shape is checked.
`None` has no step sizes. -/
def setXmap (s : LiveSignal K X) : Option (SlicedMap X) → LiveSignal K X × Option Err
  | none => (s, some .attributeError)
  | some m =>
    if m.shape = [s.nav.1, s.nav.2] then ({ s with attrs := { s.attrs with xmap := some m } }, none)
    else (s, some .valueError)

/-- The setter of `static_background` (`ebsd.py` L257-263): another shape gives a warning.  `None`
has no data type. -/
def setBackground (s : LiveSignal K X) : Option (List (List K)) → LiveSignal K X × Option Err
  | none => (s, some .attributeError)
  | some b => ({ s with attrs := { s.attrs with background := some b } }, none)

/-- `crop` of map rows (`ebsd.py` L2726-2771): HyperSpy crops the data first. -/
def cropNav (s : LiveSignal K X) (start stop : CropArg) : LiveSignal K X × Option Err :=
  let ys := (PySlice.mk start.toIndex stop.toIndex none).positions s.nav.1
  match cropNavRows s.attrs s.nav start stop with
  | .ok a => ({ s with nav := (ys.length, s.nav.2), attrs := a }, none)
  | .error e => ({ s with nav := (ys.length, s.nav.2) }, some e)

/-- `downsample` (`ebsd.py` L1164-1219), see `Kp.downsample`. -/
def downsampleLive (s : LiveSignal K X) (factor : ℤ) (dtypeOut : Option DType) :
    LiveSignal K X × Option Err :=
  match downsample ⟨s.dtype, s.sig.1, s.sig.2, [], s.attrs.background.map imgOfRows,
      s.attrs.detector⟩ factor dtypeOut with
  | .ok r =>
    ({ s with
        sig := (r.rows, r.cols)
        dtype := r.dtype
        attrs := ⟨r.detector, r.staticBg.map Img.toRows, s.attrs.xmap⟩ }, none)
  | .error e => (s, some e)

/-- `rebin` (`ebsd.py` L2773-2828), see `rebinAttrs`; the shape of the detector is replaced by the one
of the rebinned patterns whatever it was.  HyperSpy raises `ValueError` if a scale is zero or nothing
is left of an axis. -/
def rebinLive (s : LiveSignal K X) (ny nx sy sx : ℕ) : LiveSignal K X × Option Err :=
  let nav := (s.nav.1 / ny, s.nav.2 / nx)
  let sig := (s.sig.1 / sy, s.sig.2 / sx)
  if nav.1 = 0 ∨ nav.2 = 0 ∨ sig.1 = 0 ∨ sig.2 = 0 then (s, some .valueError)
  else if nav = s.nav ∧ sig = s.sig then (s, none)
  else
    let r := rebinAttrs { s.attrs.detector with nrows := s.sig.1, ncols := s.sig.2 } s.attrs.xmap
      (s.attrs.background.map imgOfRows) [s.nav.1, s.nav.2] [ny, nx] sy sx
    ({ s with
        nav := nav
        sig := sig
        attrs := ⟨r.detector, r.staticBackground.map Img.toRows, r.xmap⟩ }, none)

/-- Shape of a crystal map after keeping the points of a grid (`ebsd.py` L332-337): the rectangle
around them in the map, as for slices (`sliceXmap`). -/
def gridMapShape (idx : List (List (ℤ × ℤ))) : List ℕ :=
  [spanOf (idx.map fun row => ((row.headD (0, 0)).1).toNat),
    spanOf ((idx.headD []).map fun p => p.2.toNat)]

/-- `extract_grid` (`ebsd.py` L267-378), see `Kp.extractGrid`.  The attributes are given to the
constructor, which does not check them. -/
def extractLive (s : LiveSignal K X) (gx gy : ℕ) : LiveSignal K X × Option Err :=
  match extractGrid (P := ℕ) (X := X) ⟨s.nav, List.range (s.nav.1 * s.nav.2),
      s.attrs.xmap.map SlicedMap.points, s.attrs.detector.nav, s.attrs.detector.pc,
      (⟨s.nav.1, (1 : K), 0⟩, ⟨s.nav.2, 1, 0⟩)⟩ (gx, gy) with
  | .ok (r, idx) =>
    ({ s with
        nav := r.shape
        attrs := ⟨{ s.attrs.detector with nav := r.pcNav, pc := r.pc }, s.attrs.background,
          r.xmap.map fun l => ⟨gridMapShape idx, l⟩⟩ }, none)
  | .error e => (s, some e)

/-- One operation: the signal afterwards, and the error raised, if any. -/
def signalStep (s : LiveSignal K X) : SignalOp K X → LiveSignal K X × Option Err
  | .setDetector d => setDetector s d
  | .setXmap m => setXmap s m
  | .setBackground b => setBackground s b
  | .inav sy sx =>
    ({ s with
        nav := ((sy.positions s.nav.1).length, (sx.positions s.nav.2).length)
        attrs := inavAttrs s.attrs s.nav sy sx }, none)
  | .isig sy sx =>
    ({ s with
        sig := ((sy.positions s.sig.1).length, (sx.positions s.sig.2).length)
        attrs := isigAttrs s.attrs s.sig sy sx }, none)
  | .cropNav start stop => cropNav s start stop
  | .cropSig start stop =>
    ({ s with
        sig := (((PySlice.mk start.toIndex stop.toIndex none).positions s.sig.1).length, s.sig.2)
        attrs := cropSigRows s.attrs s.sig start stop }, none)
  | .downsample factor dtypeOut => downsampleLive s factor dtypeOut
  | .rebin ny nx sy sx => rebinLive s ny nx sy sx
  | .extractGrid gx gy => extractLive s gx gy

/-- A history of operations; after an error the user goes on with the signal as it is. -/
def signalRun (s : LiveSignal K X) : List (SignalOp K X) → LiveSignal K X
  | [] => s
  | op :: l => signalRun (signalStep s op).1 l

end

end Kp
