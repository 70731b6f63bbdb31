import Verif.Model.H5Ebsd
import Verif.Model.Save
import Mathlib.Data.List.Basic

/-
Model of reading simulated patterns from a file made by EMsoft's program EMEBSD.f90:
`src/kikuchipy/io/plugins/emsoft_ebsd/_api.py`.

A file is given by the datasets the reader uses, read by h5py. `R` are rotations and
`fromEuler` is orix' `Rotation.from_euler` of one row of Euler angles. Symmetry, colours and other
attributes of orix' `Phase` are left out. Numbers are of a field `K` without rounding.
-/

namespace Kp

/-- The group "CrystalData" as the dictionary `_hdf5group2dict` returns (`_h5ebsd.py` L36-86):
`atomTypes` has one entry per atom type (for one type the dataset with one entry was replaced by
that entry), `atomData` the five rows x, y, z, occupancy and Debye-Waller factor of the dataset.
`lattice` are the six lattice parameters. -/
structure EmCrystalData (K : Type) where
  nAtomTypes : ℕ
  atomTypes : List ℤ
  atomData : List (List K)
  spaceGroup : ℤ
  lattice : List K

/-- The datasets of the file used by the reader: `programName` is "EMheader/EBSD/ProgramName"
(`none`: no such dataset), `patterns` "EMData/EBSD/EBSDPatterns", `chunked` whether it is stored
chunked, `xtalName` the first string of "EMData/EBSD/xtalname" and `euler` the rows of
"EMData/EBSD/EulerAngles". The others are in "NMLparameters/EBSDNameList". -/
structure EmsoftEbsdFile (K : Type) where
  programName : Option (List (List Char))
  energyMax : K
  numsy : ℕ
  numsx : ℕ
  delta : K
  binning : K
  thetac : K
  xpc : K
  ypc : K
  detectorDistance : K
  patterns : FlatArr K
  xtalName : List Char
  euler : List (K × K × K)
  crystal : EmCrystalData K

/-- An atom of the structure of a phase: diffpy's `Atom`. -/
structure EmAtom (K : Type) where
  element : ℤ
  xyz : K × K × K
  occupancy : K
  uIso : K
  deriving DecidableEq

/-- The phase: name, space group, lattice parameters and atoms. -/
structure EmPhase (K : Type) where
  name : List Char
  spaceGroup : ℤ
  lattice : List K
  atoms : List (EmAtom K)
  deriving DecidableEq

/-- Argument `scan_size`: not given, an integer or a tuple. -/
inductive EmScanSize
  | none
  | int (n : ℕ)
  | tuple (l : List ℕ)

/-- The dictionary returned for the signal. `open_` tells whether the file is left open. The map
has one point per rotation along one axis: `CrystalMap` without coordinates. -/
structure EmsoftEbsdScan (K R : Type) where
  beamEnergy : K
  title : List Char
  data : FlatArr K
  axes : List (SignalAxis K × String)
  mapShape : List ℕ
  rotations : List R
  phase : EmPhase K
  detector : Detector K
  fileOpen : Bool

/-- `_check_file_format` (`emsoft_ebsd/_api.py` L150-160): an absent dataset is a `KeyError`, which
becomes an `IOError`; the first string of an empty dataset is an `IndexError`. -/
def checkEmsoftEbsd (programName : Option (List (List Char))) : Except Err Unit :=
  match programName with
  | none => .error .ioError
  | some [] => .error .indexError
  | some (p :: _) => if p ≠ "EMEBSD.f90".toList then .error .ioError else .ok ()

/-- The part of a path after the last "/": `os.path.basename` and `.split("/")[-1]`. -/
def afterSlash : List Char → List Char
  | [] => []
  | c :: cs => if '/' ∈ cs then afterSlash cs else if c = '/' then cs else c :: cs

/-- `os.path.basename(filename).split(".")[0]` (`emsoft_ebsd/_api.py` L73). -/
def emsoftTitle (filename : List Char) : List Char := (afterSlash filename).takeWhile (· ≠ '.')

/-- One entry of a row of the atom data, `atom_data[r, i]` (`IndexError` outside). -/
def atomEntry {K : Type} (data : List (List K)) (r i : ℕ) : Except Err K :=
  match data[r]? with
  | none => .error .indexError
  | some row => match row[i]? with
    | none => .error .indexError
    | some v => .ok v

section
variable {K : Type} [Field K]

/-- The atom of position `i` (`emsoft_ebsd/_api.py` L183-193). `eightPiSq` is `8 * np.pi**2`. -/
def emAtom (eightPiSq : K) (c : EmCrystalData K) (i : ℕ) : Except Err (EmAtom K) := do
  let element ← match c.atomTypes[i]? with
    | some t => Except.ok t
    | none => .error .indexError
  let x ← atomEntry c.atomData 0 i
  let y ← atomEntry c.atomData 1 i
  let z ← atomEntry c.atomData 2 i
  let occ ← atomEntry c.atomData 3 i
  let b ← atomEntry c.atomData 4 i
  return ⟨element, (x, y, z), occ, b / eightPiSq * 100⟩

/-- The atoms of positions 0 to `n - 1`: the loop in L183-193. -/
def emAtoms (eightPiSq : K) (c : EmCrystalData K) : ℕ → Except Err (List (EmAtom K))
  | 0 => .ok []
  | n + 1 => do
    let l ← emAtoms eightPiSq c n
    let a ← emAtom eightPiSq c n
    return l ++ [a]

/-- `_crystaldata2phase` (`emsoft_ebsd/_api.py` L163-203) and the name of the phase (L126-128).
`Lattice(*parameters)` with other than six parameters is a `TypeError` or `ValueError`, here a
`TypeError`. -/
def crystalPhase (eightPiSq : K) (c : EmCrystalData K) (xtalName : List Char) :
    Except Err (EmPhase K) := do
  let atoms ← emAtoms eightPiSq c c.nAtomTypes
  if c.lattice.length ≠ 6 then .error .typeError
  else return ⟨(splitext (afterSlash xtalName)).1, c.spaceGroup, c.lattice, atoms⟩

/-- The data (`emsoft_ebsd/_api.py` L84-99): a tuple given as `scan_size` is put in front of the
detector shape. Lazy and other data have the same values. -/
def emsoftData (f : EmsoftEbsdFile K) : EmScanSize → Except Err (FlatArr K)
  | .none => .ok f.patterns
  | .int n => f.patterns.reshape [n, f.numsy, f.numsx]
  | .tuple l => f.patterns.reshape (l ++ [f.numsy, f.numsx])

/-- Axes from lists of names, units and scales (L112-122): `IndexError` if there are more axes than
names. -/
def emsoftAxesFrom : List ℕ → List (String × String × K) → Except Err (List (SignalAxis K × String))
  | [], _ => .ok []
  | _ :: _, [] => .error .indexError
  | n :: ns, (name, unit, scale) :: rest =>
    match emsoftAxesFrom ns rest with
    | .error e => .error e
    | .ok l => .ok ((⟨name, n, scale⟩, unit) :: l)

/-- The axes, with their units (`emsoft_ebsd/_api.py` L102-123). -/
def emsoftAxes (pxSize : K) (shape : List ℕ) : Except Err (List (SignalAxis K × String)) :=
  let three := [("x", "px", 1), ("dy", "um", pxSize), ("dx", "um", pxSize)]
  emsoftAxesFrom shape (if shape.length = 4 then ("y", "px", 1) :: three else three)

variable [LinearOrder K]

/-- The detector (`emsoft_ebsd/_api.py` L135-142); arguments which are not given have the default
values of `EBSDDetector.__init__` (`_ebsd_detector.py` L282-293). -/
def emsoftDetector (f : EmsoftEbsdFile K) : Except Err (Detector K) :=
  Detector.init
    { nrows := f.numsy, ncols := f.numsx, pxSize := f.delta, binning := f.binning,
      tilt := f.thetac, azimuthal := 0, twist := 0, sampleTilt := 70, nav := [1],
      pc := [⟨f.xpc, f.ypc, f.detectorDistance⟩] } "emsoft"

/-- `file_reader` (`emsoft_ebsd/_api.py` L36-147). -/
def readEmsoftEbsd {R : Type} (eightPiSq : K) (fromEuler : K × K × K → R) (filename : List Char)
    (scanSize : EmScanSize) (lazy : Bool) (f : EmsoftEbsdFile K) :
    Except Err (EmsoftEbsdScan K R) :=
  match checkEmsoftEbsd f.programName with
  | .error e => .error e
  | .ok () => match emsoftData f scanSize with
    | .error e => .error e
    | .ok data => match emsoftAxes f.delta data.shape with
      | .error e => .error e
      | .ok axes => match crystalPhase eightPiSq f.crystal f.xtalName with
        | .error e => .error e
        | .ok phase => match emsoftDetector f with
          | .error e => .error e
          | .ok detector => .ok {
              beamEnergy := f.energyMax, title := emsoftTitle filename, data := data,
              axes := axes, mapShape := [f.euler.length], rotations := f.euler.map fromEuler,
              phase := phase, detector := detector, fileOpen := lazy }

end
end Kp
