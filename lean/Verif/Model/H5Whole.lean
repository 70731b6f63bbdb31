import Verif.Model.H5Ebsd

/-
Model of all that is written of a signal to kikuchipy's h5ebsd format, and read: besides what is in
`H5Ebsd.lean`, the microscope, the detector's angles and binning, projection centers which do not fit
the map, and the crystal map.

`KikuchipyH5EBSDWriter.write`, `get_xmap_dict`
(`src/kikuchipy/io/plugins/kikuchipy_h5ebsd/_api.py` L358-460) and `KikuchipyH5EBSDReader.scan2dict`
(L65-173).

Simplifications: writing a crystal map as a dictionary and making one from it (orix) is a parameter
(`reload`), as are its shape and making an empty one; original metadata is not modelled.
-/

namespace Kp

section
variable {K : Type} [Field K] [LinearOrder K]

/-- The default projection center (`_api.py` L130, L153, L160). -/
def pcHalf : PC K := ⟨1 / 2, 1 / 2, 1 / 2⟩

/-- `np.pad(pc, pad_width, constant_values=0.5)` of an array of `m` times `n` projection centers
(`_api.py` L144-153). -/
def padPcs (n m ny nx : ℕ) (l : List (PC K)) : List (PC K) :=
  (List.range ny).flatMap fun r => (List.range nx).map fun c =>
    if r < m ∧ c < n then l.getD (r * n + c) pcHalf else pcHalf

/-- The projection centers (`_api.py` L129-161): shape of the array without its last axis and the
PCs. If their number does not fit the map they are padded, and if there are more rows or columns than
in the map (`np.pad` raises for negative numbers) there is a single default PC. -/
def readPcsAll (ny nx : ℕ) (pcx pcy pcz : PyVal K) : Except Err (List ℕ × List (PC K)) :=
  match dstackPart pcx, dstackPart pcy, dstackPart pcz with
  | some (s, x), some (s', y), some (s'', z) =>
    if s = s' ∧ s = s'' then
      let pcs := List.zipWith (fun x yz => PC.mk x yz.1 yz.2) x (List.zip y z)
      if 3 < 3 * pcs.length then
        if pcs.length = ny * nx then .ok ([ny, nx].filter (· ≠ 1), pcs)
        else
          let m := s.getD 0 1
          let n := s.getD 1 1
          if m ≤ ny ∧ n ≤ nx then .ok ([ny, nx].filter (· ≠ 1), padPcs n m ny nx pcs)
          else .ok ([], [pcHalf])
      else .ok (s.filter (· ≠ 1), pcs)
    else .error .valueError
  | _, _, _ => .error .notImplemented

/-- `scan2dict` (`_api.py` L65-173): the parts in `EbsdSignal`, see `readScan`. -/
def readScanAll (g : ScanGroup K) : Except Err (EbsdSignal K) :=
  match getData g.patterns g.nRows g.nColumns g.patternHeight g.patternWidth with
  | .error e => .error e
  | .ok data =>
    let axes := axesList g.nRows g.nColumns g.patternHeight g.patternWidth g.stepY g.stepX
      g.pixelSize
    match readPcsAll g.nRows g.nColumns g.pcx g.pcy g.pcz with
    | .error e => .error e
    | .ok (s, pcs) => .ok {
        data := data
        navAxes := axes.take (axes.length - 2)
        sigAxes := axes.drop (axes.length - 2)
        pxSize := g.pixelSize
        pcShape := if s = [] then [1] else s
        pc := pcs
        staticBackground := g.staticBackground }

/-- `dict.get(key, default)`. -/
def PyDict.find (k : List Char) (default : PyVal K) : PyDict K → PyVal K
  | .nil => default
  | .cons k' v rest => if k' = k then v else rest.find k default

/-- What is written about the microscope (`_api.py` L446-458). -/
def semDict (sem : PyDict K) : PyDict K :=
  .cons "beam_energy".toList (sem.find "beam_energy".toList (.scalar 0))
    (.cons "magnification".toList (sem.find "magnification".toList (.scalar 0))
      (.cons "microscope".toList (sem.find "microscope".toList (.str []))
        (.cons "working_distance".toList (sem.find "working_distance".toList (.scalar 0)) .nil)))

/-- Angles and binning of a detector. -/
@[ext] structure DetectorAngles (K : Type) where
  azimuthal : K
  twist : K
  binning : K
  tilt : K
  sampleTilt : K
  deriving DecidableEq

/-- Crystal maps: what is used of orix. -/
structure OrixMaps (K X : Type) where
  shape : X → List ℕ
  reload : X → X
  empty : ℕ × ℕ → K × K → X

/-- A signal with all its attributes. -/
structure WholeSignal (K X : Type) where
  base : EbsdSignal K
  angles : DetectorAngles K
  sem : PyDict K
  xmap : Option X

/-- A scan group. -/
structure WholeScan (K X : Type) where
  base : ScanGroup K
  angles : PyVal K × PyVal K × PyVal K × PyVal K × PyVal K
  sem : H5Grp K
  xmap : X

variable {X : Type}

/-- The crystal map which is written (`get_xmap_dict`, `_api.py` L358-368): the signal's if it has the
shape of the map (`_xmap_is_compatible_with_signal`, `signals/util/_crystal_map.py` L34-61), else an
empty one. -/
def writtenMap (o : OrixMaps K X) (s : WholeSignal K X) : X :=
  let (n, d) := mapShapeScale s.base.navAxes
  match s.xmap with
  | none => o.empty n d
  | some x => if o.shape x = s.base.navAxes.map SignalAxis.size then x else o.empty n d

/-- `write` (`_api.py` L370-460). -/
def writeWhole (o : OrixMaps K X) (s : WholeSignal K X) : Except Err (WholeScan K X) := do
  let base ← writeScan s.base
  let sem ← writeDict (semDict s.sem) .nil
  pure
    { base := base
      angles := (stored (.scalar s.angles.azimuthal), stored (.scalar s.angles.twist),
        stored (.scalar s.angles.binning), stored (.scalar s.angles.tilt),
        stored (.scalar s.angles.sampleTilt))
      sem := sem
      xmap := writtenMap o s }

/-- A number in the header, as given to `EBSDDetector` (others are not modelled). -/
def headerNumber : PyVal K → Except Err K
  | .scalar v => .ok v
  | _ => .error .notImplemented

/-- `scan2dict` (`_api.py` L65-173). -/
def readWhole (o : OrixMaps K X) (g : WholeScan K X) : Except Err (WholeSignal K X) := do
  let base ← readScanAll g.base
  let azimuthal ← headerNumber g.angles.1
  let twist ← headerNumber g.angles.2.1
  let binning ← headerNumber g.angles.2.2.1
  let tilt ← headerNumber g.angles.2.2.2.1
  let sampleTilt ← headerNumber g.angles.2.2.2.2
  pure
    { base := base
      angles :=
        { binning := binning, tilt := tilt, azimuthal := azimuthal, twist := twist,
          sampleTilt := sampleTilt }
      sem := readGroup g.sem .nil
      xmap := some (o.reload g.xmap) }

/-- `s.save("a.h5")` and `kp.load("a.h5")`. -/
def saveLoad (o : OrixMaps K X) (s : WholeSignal K X) : Except Err (WholeSignal K X) := do
  let g ← writeWhole o s
  readWhole o g

end

end Kp
