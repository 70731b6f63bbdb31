import Verif.Model.Base
import Mathlib.Data.List.Infix
import Mathlib.Data.Int.Notation

/-
Model of reading NORDIF setting files and calibration patterns:
`_get_settings_from_file()`, `_get_string()` and `_get_calibration_pattern_settings()` of
`src/kikuchipy/io/plugins/nordif/_api.py` L204-432 and `_get_patterns()` of
`src/kikuchipy/io/plugins/nordif_calibration_patterns/_api.py` L104-111.

A file is the list of its lines, a line the list of its characters. `int()` and `float()` are
parameters: any partial functions of a text. Of the original metadata, the lines and the parameters
of the region of interest for overview images are left out.
-/

namespace Kp

abbrev Text := List Char

/-- `t in s`. -/
def hasInfix (t : Text) : Text → Bool
  | [] => t.isEmpty
  | c :: s => t.isPrefixOf (c :: s) || hasInfix t s

/-- The longest text before an occurrence of `suffix`: what a greedy `(.*)suffix` captures. -/
def beforeLast (suffix : Text) : Text → Option Text
  | [] => if suffix.isEmpty then some [] else none
  | c :: s =>
    match beforeLast suffix s with
    | some t => some (c :: t)
    | none => if suffix.isPrefixOf (c :: s) then some [] else none

/-- `re.search(key + "(.*)" + suffix, line).group(1)`, with key and suffix taken literally. -/
def searchBetween (key suffix : Text) : Text → Option Text
  | [] => if key.isEmpty then beforeLast suffix [] else none
  | c :: s =>
    match (if key.isPrefixOf (c :: s) then beforeLast suffix ((c :: s).drop key.length) else none) with
    | some t => some t
    | none => searchBetween key suffix s

/-- Line number of a block, the last one if there are several lines with its name, -1 if there is
none (L229-241). -/
def blockLine (title : Text) (lines : List Text) : ℤ :=
  lines.zipIdx.foldl (fun b l => if hasInfix title l.1 then (l.2 : ℤ) else b) (-1)

/-- `content[i]` for a non-negative index. -/
def lineAt (lines : List Text) (i : ℤ) : Except Err Text :=
  match lines[i.toNat]? with
  | some l => .ok l
  | none => .error .indexError

/-- `_get_string()` (L307-336): a line that does not match gives the empty text. -/
def getSettingString (lines : List Text) (key suffix : String) (i : ℤ) : Except Err Text := do
  let l ← lineAt lines i
  pure ((searchBetween key.toList suffix.toList l).getD [])

/-- `a, b = text.split("x")`, with all parts converted first. -/
def splitOnX : Text → List Text
  | [] => [[]]
  | c :: s =>
    if c = 'x' then [] :: splitOnX s
    else
      match splitOnX s with
      | [] => [[c]]
      | t :: ts => (c :: t) :: ts

/-- A conversion that may raise `ValueError`. -/
def convertText {N : Type} (f : Text → Option N) (t : Text) : Except Err N :=
  match f t with
  | some n => .ok n
  | none => .error .valueError

/-- `[int(i) for i in text.split("x")]`, unpacked to two numbers. -/
def twoNumbers (int : Text → Option ℤ) (t : Text) : Except Err (ℤ × ℤ) := do
  let l ← (splitOnX t).mapM (convertText int)
  match l with
  | [a, b] => pure (a, b)
  | _ => .error .valueError

/-- What is read from a setting file (L249-289). -/
structure NordifSettings (K : Type) where
  beamEnergy : K
  magnification : ℤ
  microscope : Text
  workingDistance : K
  ny : ℤ
  nx : ℤ
  sy : ℤ
  sx : ℤ
  step : K
  sampleTilt : K
  tilt : K
  azimuthal : K

/-- `_get_settings_from_file()` (L228-291), with the name of the block of acquisition or calibration
settings. -/
def nordifSettings {K : Type} [Neg K] (int : Text → Option ℤ) (float : Text → Option K)
    (settingsBlock : String) (lines : List Text) : Except Err (NordifSettings K) := do
  let lMic := blockLine "[Microscope]".toList lines
  let lAng := blockLine "[Detector angles]".toList lines
  let lAcq := blockLine settingsBlock.toList lines
  let lArea := blockLine "[Area]".toList lines
  let beamEnergy ← getSettingString lines "Accelerating voltage\t" "\tkV" (lMic + 5)
  let manufacturer ← getSettingString lines "Manufacturer\t" "\t" (lMic + 1)
  let model ← getSettingString lines "Model\t" "\t" (lMic + 2)
  let mag ← getSettingString lines "Magnification\t" "\t#" (lMic + 3)
  let wd ← getSettingString lines "Working distance\t" "\tmm" (lMic + 6)
  let beamEnergy ← convertText float beamEnergy
  let mag ← convertText int mag
  let wd ← convertText float wd
  let numSamp ← getSettingString lines "Number of samples\t" "\t#" (lArea + 6)
  let (ny, nx) ← twoNumbers int numSamp
  let patternSize ← getSettingString lines "Resolution\t" "\tpx" (lAcq + 2)
  let (sx, sy) ← twoNumbers int patternSize
  let step ← getSettingString lines "Step size\t" "\t" (lArea + 5)
  let step ← convertText float step
  let sampleTilt ← getSettingString lines "Tilt angle\t" "\t" (lMic + 7)
  let sampleTilt ← convertText float sampleTilt
  let tilt ← getSettingString lines "Elevation\t" "\t" (lAng + 5)
  let tilt ← convertText float tilt
  let azimuthal ← getSettingString lines "Azimuthal\t" "\t" (lAng + 4)
  let azimuthal ← convertText float azimuthal
  pure
    { beamEnergy := beamEnergy, magnification := mag, microscope := manufacturer ++ [' '] ++ model,
      workingDistance := wd, ny := ny, nx := nx, sy := sy, sx := sx, step := step,
      sampleTilt := sampleTilt, tilt := -tilt, azimuthal := azimuthal }

/-! ### Calibration patterns -/

/-- `text.split(",")`. -/
def splitOnComma : Text → List Text
  | [] => [[]]
  | c :: s =>
    if c = ',' then [] :: splitOnComma s
    else
      match splitOnComma s with
      | [] => [[c]]
      | t :: ts => (c :: t) :: ts

/-- Coordinates (row, column) in one line (L359-365): `none` if the line does not match. Other than
two coordinates are an error here; in the code, they are one when the array is made or unpacked. -/
def calibrationCoordinates (int : Text → Option ℤ) (line : Text) : Except Err (Option (ℤ × ℤ)) :=
  match searchBetween "Calibration (".toList ")".toList line with
  | none => .ok none
  | some t => do
    let l ← (splitOnComma t).mapM (convertText int)
    match l with
    | [x, y] => pure (some (y, x))
    | _ => .error .valueError

/-- Coordinates of all calibration patterns (L349-368). -/
def calibrationIndices (int : Text → Option ℤ) (lines : List Text) :
    Except Err (List (ℤ × ℤ)) := do
  let lCal := blockLine "[Calibration patterns]".toList lines
  if lCal = -1 then throw .valueError
  let l ← (lines.drop (lCal + 1).toNat).mapM (calibrationCoordinates int)
  let rc := l.filterMap id
  if rc.length = 0 then throw .valueError
  pure rc

/-- Names of the files read, in order (`nordif_calibration_patterns/_api.py` L106-107). -/
def calibrationFiles (str : ℤ → Text) (rc : List (ℤ × ℤ)) : List Text :=
  rc.map fun p => "Calibration (".toList ++ str p.2 ++ [','] ++ str p.1 ++ ").bmp".toList

/-! ### Areas -/

/-- `omd["area"]` (L376-384): set to the shape in a line with two numbers, to no shape if the line
does not match, and not set at all if there are not two numbers. `numbers` are the numbers in the
line behind `Resolution`, if the line has it. -/
def areaShape (numbers : Option (List ℤ)) : Option (Option (ℤ × ℤ)) :=
  match numbers with
  | none => some none
  | some [a, b] => some (some (b, a))
  | some _ => none

/-- Whether the look-up `omd["area"]["shape"]` (L418) raises: it is made if the scaled width of the
region of interest was read. -/
def areaLookup (numbers : Option (List ℤ)) (scaledWidthRead : Bool) : Except Err Unit :=
  if scaledWidthRead then
    match areaShape numbers with
    | none => .error .keyError
    | some _ => .ok ()
  else .ok ()

/-- Scaling of indices in pixels to map steps (L403-409), before rounding. -/
def scaleIndex {K : Type} [Mul K] [Div K] (step width widthScaled x : K) : K :=
  x / (step * width / widthScaled)

end Kp
