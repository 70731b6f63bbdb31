import Verif.Model.H5Dict
import Verif.Model.Detector

/-
Model of writing a signal to and reading it from kikuchipy's h5ebsd format:
`src/kikuchipy/io/plugins/kikuchipy_h5ebsd/_api.py` and `src/kikuchipy/io/plugins/_h5ebsd.py`.

Arrays are given by their shape and flat (row-major) list of values. Crystal maps, metadata and
detector attributes other than the pixel size and PCs are left out.
-/

namespace Kp

/-- A NumPy array in memory: shape and values in row-major order. -/
@[ext] structure FlatArr (V : Type) where
  shape : List ℕ
  data : List V
  deriving DecidableEq

/-- `reshape`: raises `ValueError` unless the number of values is the same. -/
def FlatArr.reshape {V : Type} (a : FlatArr V) (shape : List ℕ) : Except Err (FlatArr V) :=
  if a.data.length = shapeSize shape then .ok ⟨shape, a.data⟩ else .error .valueError

/-- `squeeze`: remove axes of length one. -/
def FlatArr.squeeze {V : Type} (a : FlatArr V) : FlatArr V := ⟨a.shape.filter (· ≠ 1), a.data⟩

/-- `np.pad` of a flat array with zeros to `n` values. -/
def FlatArr.padTo {V : Type} (zero : V) (a : FlatArr V) (n : ℕ) : FlatArr V :=
  ⟨[n], a.data ++ List.replicate (n - a.data.length) zero⟩

/-- An axis of a signal. -/
structure SignalAxis (K : Type) where
  name : String
  size : ℕ
  scale : K
  deriving DecidableEq

/-- An EBSD signal: `axes` are the axes in the order of the array, navigation axes (slow first)
and then the two detector axes; `detector.pc` has shape `pcShape + (3,)`. -/
structure EbsdSignal (K : Type) where
  data : FlatArr K
  navAxes : List (SignalAxis K)
  sigAxes : List (SignalAxis K)
  pxSize : K
  pcShape : List ℕ
  pc : List (PC K)
  staticBackground : PyVal K

variable {K : Type} [Field K] [LinearOrder K]

/-- Number of rows and columns of the map, and their step sizes: `data_shape_scale`
(`kikuchipy_h5ebsd/_api.py` L264-285). -/
def mapShapeScale (navAxes : List (SignalAxis K)) : (ℕ × ℕ) × (K × K) :=
  match navAxes with
  | [a] => if a.name = "y" then ((a.size, 1), (a.scale, 1)) else ((1, a.size), (1, a.scale))
  | [a, b] => ((a.size, b.size), (a.scale, b.scale))
  | _ => ((1, 1), (1, 1))

/-- What is read from the file for a value written to the header (see `H5Dict.lean`). -/
def stored (v : PyVal K) : PyVal K :=
  match writeVal v with
  | .ok (some o) => readVal o
  | _ => .noneVal

/-- The parts of a scan group that are modelled: the pattern dataset and the header as read. -/
structure ScanGroup (K : Type) where
  patterns : FlatArr K
  nRows : ℕ
  nColumns : ℕ
  patternHeight : ℕ
  patternWidth : ℕ
  stepY : K
  stepX : K
  pixelSize : K
  pcx : PyVal K
  pcy : PyVal K
  pcz : PyVal K
  staticBackground : PyVal K

/-- `KikuchipyH5EBSDWriter.write` (`kikuchipy_h5ebsd/_api.py` L385-447). The scale of the signal
axes is not written, the pixel size in the header is that of the detector. -/
def writeScan (s : EbsdSignal K) : Except Err (ScanGroup K) :=
  match s.sigAxes with
  | [ay, ax] =>
    let ((ny, nx), (dy, dx)) := mapShapeScale s.navAxes
    match s.data.reshape [ny * nx, ay.size, ax.size] with
    | .error e => .error e
    | .ok patterns => .ok {
        patterns := patterns
        nRows := ny
        nColumns := nx
        patternHeight := ay.size
        patternWidth := ax.size
        stepY := dy
        stepX := dx
        pixelSize := s.pxSize
        pcx := stored (.arr s.pcShape (s.pc.map PC.x))
        pcy := stored (.arr s.pcShape (s.pc.map PC.y))
        pcz := stored (.arr s.pcShape (s.pc.map PC.z))
        staticBackground := stored (match s.staticBackground with
          | .noneVal => .scalar (-1)
          | v => v) }
  | _ => .error .indexError

/-- `get_data` (`_h5ebsd.py` L347-381): zero padding if the file is too short. -/
def getData (patterns : FlatArr K) (ny nx sy sx : ℕ) : Except Err (FlatArr K) :=
  match patterns.reshape [ny, nx, sy, sx] with
  | .ok a => .ok a.squeeze
  | .error _ => (patterns.padTo 0 (ny * nx * sy * sx)).reshape [ny, nx, sy, sx]

/-- `get_axes_list` (`_h5ebsd.py` L384-445). -/
def axesList (ny nx sy sx : ℕ) (dy dx px : K) : List (SignalAxis K) :=
  let sig := [⟨"dy", sy, px⟩, ⟨"dx", sx, px⟩]
  if ny ≠ 1 ∧ nx ≠ 1 then ⟨"y", ny, dy⟩ :: ⟨"x", nx, dx⟩ :: sig
  else if ny ≠ 1 ∨ nx ≠ 1 then
    if nx < ny then ⟨"y", ny, dy⟩ :: sig else ⟨"x", nx, dx⟩ :: sig
  else sig

/-- Shape and values of a PC coordinate as seen by `np.dstack`, which makes arrays at least
three-dimensional. -/
def dstackPart : PyVal K → Option (List ℕ × List K)
  | .scalar v => some ([1, 1], [v])
  | .arr [n] d => some ([1, n], d)
  | .arr [m, n] d => some ([m, n], d)
  | _ => none

/-- The PCs in `scan2dict` (`kikuchipy_h5ebsd/_api.py` L129-158): shape of the array without its
last axis and the PCs. `none`: the coordinates do not have the expected shapes, or the number of
PCs does not fit the map, in which case the code pads with a warning (not modelled). -/
def readPcs (ny nx : ℕ) (pcx pcy pcz : PyVal K) : Option (List ℕ × List (PC K)) :=
  match dstackPart pcx, dstackPart pcy, dstackPart pcz with
  | some (s, x), some (s', y), some (s'', z) =>
    if s = s' ∧ s = s'' then
      let pcs := List.zipWith (fun x yz => PC.mk x yz.1 yz.2) x (List.zip y z)
      if 3 < 3 * pcs.length then
        if pcs.length = ny * nx then some ([ny, nx].filter (· ≠ 1), pcs) else none
      else some (s.filter (· ≠ 1), pcs)
    else none
  | _, _, _ => none

/-- `scan2dict` (`kikuchipy_h5ebsd/_api.py` L65-173) and the signal made from the dictionary. A
detector with a single PC has navigation shape (1,) (`np.atleast_2d`). -/
def readScan (g : ScanGroup K) : Except Err (EbsdSignal K) :=
  match getData g.patterns g.nRows g.nColumns g.patternHeight g.patternWidth with
  | .error e => .error e
  | .ok data =>
    let axes := axesList g.nRows g.nColumns g.patternHeight g.patternWidth g.stepY g.stepX
      g.pixelSize
    match readPcs g.nRows g.nColumns g.pcx g.pcy g.pcz with
    | none => .error .notImplemented
    | some (s, pcs) => .ok {
        data := data
        navAxes := axes.take (axes.length - 2)
        sigAxes := axes.drop (axes.length - 2)
        pxSize := g.pixelSize
        pcShape := if s = [] then [1] else s
        pc := pcs
        staticBackground := g.staticBackground }

end Kp
