import Verif.Model.Detector
import Verif.Model.H5Ebsd

/-
Model of the readers of Oxford Instruments (`src/kikuchipy/io/plugins/oxford_h5ebsd/_api.py`) and
EDAX (`src/kikuchipy/io/plugins/edax_h5ebsd/_api.py`) h5ebsd files, from the content of one scan
group to the keyword arguments of `EBSD`.  The shared `get_data` and `get_axes_list` are in
`Verif.Model.H5Ebsd`.

Simplifications: numbers are elements of an ordered field; the header and data groups are the
dictionaries that `_hdf5group2dict` returns (its own model is in `Verif.Model.H5Dict`), with only
the entries that these readers use; metadata that is only copied is left out; lazy and non-lazy
reading give the same values.
-/

namespace Kp

/-! ### Camera mode -/

/-- Value of a character as a decimal digit: `\d` of the regular expression and `int`
(simplification: ASCII digits only). -/
def digitOf (c : Char) : Option ℕ :=
  if '0'.toNat ≤ c.toNat ∧ c.toNat ≤ '9'.toNat then some (c.toNat - '0'.toNat) else none

/-- `\d+` at the start of a text, greedily, together with `int` of what it matched: the value so
far, whether there has been a digit, and the rest of the text.  Backtracking is not needed, as what
follows in the regular expression is not a digit. -/
def takeNumber : ℕ → Bool → List Char → Option (ℕ × List Char)
  | v, seen, [] => if seen then some (v, []) else none
  | v, seen, c :: cs =>
    match digitOf c with
    | some d => takeNumber (10 * v + d) true cs
    | none => if seen then some (v, c :: cs) else none

/-- A literal part of a regular expression at the start of a text. -/
def takeLiteral : List Char → List Char → Option (List Char)
  | [], cs => some cs
  | l :: ls, c :: cs => if c = l then takeLiteral ls cs else none
  | _ :: _, [] => none

/-- The regular expression `\((\d+)x(\d+) px\)` (`oxford_h5ebsd/_api.py` L232) at the start of a
text: the two numbers and the rest of the text. -/
def matchShape (cs : List Char) : Option ((ℕ × ℕ) × List Char) := do
  let r1 ← takeLiteral ['('] cs
  let (w, r2) ← takeNumber 0 false r1
  let r3 ← takeLiteral ['x'] r2
  let (h, r4) ← takeNumber 0 false r3
  let r5 ← takeLiteral [' ', 'p', 'x', ')'] r4
  return ((w, h), r5)

/-- `re.findall` (`oxford_h5ebsd/_api.py` L247): all matches from left to right.  The first
argument bounds the number of steps; the length of the text is enough. -/
def findShapes : ℕ → List Char → List (ℕ × ℕ)
  | 0, _ => []
  | _ + 1, [] => []
  | n + 1, c :: cs =>
    match matchShape (c :: cs) with
    | some (m, rest) => m :: findShapes n rest
    | none => findShapes n cs

/-- `int(np.round(1_024 / sy))` (`oxford_h5ebsd/_api.py` L246): to nearest, ties to even; division
by zero raises `ZeroDivisionError`. -/
def roundedRatio (sy : ℕ) : Except Err ℕ :=
  if sy = 0 then .error .zeroDivision
  else
    let q := 1024 / sy
    let r := 1024 % sy
    if 2 * r < sy then .ok q
    else if sy < 2 * r then .ok (q + 1)
    else if q % 2 = 0 then .ok q else .ok (q + 1)

/-- The entries of the header group that the Oxford reader uses (`oxford_h5ebsd/_api.py` L96-150,
L217-229). `version` are the numbers of the version, most significant first. -/
structure OxfordHeader (K : Type) where
  version : List ℕ
  yCells : ℕ
  xCells : ℕ
  height : ℕ
  width : ℕ
  yStep : Option K
  xStep : Option K
  tiltAngle : Option K
  detectorEuler : Option (List K)
  cameraMode : Option (List Char)
  cameraBinningMode : Option (List Char)
  staticBackground : Option (List K)

/-- The entries of the data group that the Oxford reader uses (`oxford_h5ebsd/_api.py` L58,
L151-157).  A dataset with a single value is read as a scalar, which `np.column_stack` treats as
an array with a single value. -/
structure OxfordData (K : Type) where
  unprocessed : Option (FlatArr K)
  processed : Option (FlatArr K)
  pcx : Option (List K)
  pcy : Option (List K)
  distance : Option (List K)

variable {K : Type} [Field K] [LinearOrder K]

/-- `get_binning` (`oxford_h5ebsd/_api.py` L187-261). `Version(version) >= Version("7.0")` compares
the first number. -/
def oxfordBinning (h : OxfordHeader K) : Except Err (Option ℕ) :=
  let mode := if 7 ≤ h.version.headD 0 then h.cameraMode else h.cameraBinningMode
  match mode with
  | none => .ok none
  | some text =>
    match findShapes text.length text with
    | [(_, sy)] =>
      if sy = 88 then .ok (some 8)
      else
        match roundedRatio sy with
        | .ok b => .ok (some b)
        | .error e => .error e
    | _ => .ok none

/-- The array of PCs in `OxfordH5EBSDReader.get_detector` (`oxford_h5ebsd/_api.py` L151-159): shape
without the last axis, and the PCs. `np.column_stack` raises `ValueError` for columns with different
lengths, and `reshape` if there is not one PC per map point. -/
def oxfordPcs (ny nx : ℕ) (d : OxfordData K) : Except Err (List ℕ × List (PC K)) :=
  let x := d.pcx.getD [1 / 2]
  let y := d.pcy.getD [1 / 2]
  let z := d.distance.getD [1 / 2]
  if x.length = y.length ∧ x.length = z.length then
    let pcs := List.zipWith (fun x yz => PC.mk x yz.1 yz.2) x (List.zip y z)
    if 1 < x.length then
      if x.length = ny * nx then .ok ([ny, nx], pcs) else .error .valueError
    else .ok ([x.length], pcs)
  else .error .valueError

/-- The detector tilt (`oxford_h5ebsd/_api.py` L165-169): the second of the Euler angles less 90
degrees, the default zero if it cannot be read. -/
def oxfordTilt (deg : K) (h : OxfordHeader K) : K :=
  match h.detectorEuler with
  | some (_ :: e :: _) => e * deg - 90
  | _ => 0

/-- `OxfordH5EBSDReader.get_detector` (`oxford_h5ebsd/_api.py` L141-184). `deg` is the number of
degrees per radian, by which `np.rad2deg` multiplies.  The constructor's defaults are those of
`EBSDDetector.__init__` (`_ebsd_detector.py` L282-318). -/
def oxfordDetector (deg : K) (h : OxfordHeader K) (d : OxfordData K) :
    Except Err (Detector K) := do
  let (nav, pc) ← oxfordPcs h.yCells h.xCells d
  let binning ← oxfordBinning h
  Detector.init
    { nrows := h.height, ncols := h.width, pxSize := 1
      binning := binning.elim 1 (fun n : ℕ => (n : K))
      tilt := oxfordTilt deg h, azimuthal := 0, twist := 0
      sampleTilt := (h.tiltAngle.map (· * deg)).getD 70
      nav := nav, pc := pc } "oxford"

/-- What a reader passes on to `EBSD`: `data`, `axes`, shape and steps of the crystal map,
`static_background` and `detector`. -/
structure LoadedScan (K : Type) where
  data : FlatArr K
  axes : List (SignalAxis K)
  mapShape : ℕ × ℕ
  mapSteps : K × K
  staticBackground : Option (List K)
  detector : Detector K

/-- `OxfordH5EBSDReader.scan2dict` (`oxford_h5ebsd/_api.py` L58-62, L73-139). -/
def oxfordScan (deg : K) (h : OxfordHeader K) (d : OxfordData K) (processed : Bool) :
    Except Err (LoadedScan K) := do
  let dy := h.yStep.getD 1
  let dx := h.xStep.getD 1
  let patterns ← match (if processed then d.processed else d.unprocessed) with
    | some p => .ok p
    | none => .error Err.keyError
  let data ← getData patterns h.yCells h.xCells h.height h.width
  let detector ← oxfordDetector deg h d
  return { data := data
           axes := axesList h.yCells h.xCells h.height h.width dy dx 1
           mapShape := (h.yCells, h.xCells), mapSteps := (dy, dx)
           staticBackground := h.staticBackground, detector := detector }

/-! ### EDAX -/

/-- The entries of a scan group that the EDAX reader uses (`edax_h5ebsd/_api.py` L76-132). -/
structure EdaxGroup (K : Type) where
  gridType : Option String
  nRows : ℕ
  nColumns : ℕ
  height : ℕ
  width : ℕ
  stepY : Option K
  stepX : Option K
  elevation : Option K
  azimuthal : Option K
  sampleTilt : Option K
  xstar : Option K
  ystar : Option K
  zstar : Option K
  patterns : Option (FlatArr K)

/-- `EDAXH5EBSDReader.scan2dict` (`edax_h5ebsd/_api.py` L54-135). -/
def edaxScan (g : EdaxGroup K) : Except Err (LoadedScan K) := do
  if g.gridType ≠ some "SqrGrid" then
    throw .ioError
  let dy := g.stepY.getD 1
  let dx := g.stepX.getD 1
  let patterns ← match g.patterns with
    | some p => .ok p
    | none => .error Err.keyError
  let data ← getData patterns g.nRows g.nColumns g.height g.width
  let detector ← Detector.init
    { nrows := g.height, ncols := g.width, pxSize := 1, binning := 1
      tilt := g.elevation.getD 0, azimuthal := g.azimuthal.getD 0, twist := 0
      sampleTilt := g.sampleTilt.getD 70, nav := [1]
      pc := [⟨g.xstar.getD (1 / 2), g.ystar.getD (1 / 2), g.zstar.getD (1 / 2)⟩] } "edax"
  return { data := data
           axes := axesList g.nRows g.nColumns g.height g.width dy dx 1
           mapShape := (g.nRows, g.nColumns), mapSteps := (dy, dx)
           staticBackground := none, detector := detector }

end Kp
