import Verif.Model.DetectorFile

/-
The text of detector files, character by character (src/kikuchipy/io/_detectors.py), and what is read
from a file whose writing stopped. `DetectorFile` has the lines and numbers, this file their text.

Simplifications: NumPy's `savetxt()` and `loadtxt()` are modelled from their documentation. Numbers in
the rows are read as they are written (an optional minus, digits, an optional point, digits); other
texts NumPy can read are not written. Two or more rows with one number each, which `loadtxt()` gives as
an array with one axis, do not occur. What `EBSDDetector` makes of a PC array without three columns is
not modelled.
-/

namespace Kp

section
variable {K : Type} [Field K] [LinearOrder K] [FloorRing K]

/-- The last `n` decimal digits of a number. -/
def lastDigits : ℕ → ℕ → List Char
  | 0, _ => []
  | n + 1, f => Nat.digitChar (f / 10 ^ n % 10) :: lastDigits n f

/-- Text of a number formatted with `"%.{dec}f"` (L122). -/
def fixedText (dec : ℕ) (x : K) : List Char :=
  let n := (npRound (x * (10 : K) ^ dec)).natAbs
  (if x < 0 then ['-'] else []) ++ Nat.toDigits 10 (n / 10 ^ dec) ++
    (if dec = 0 then [] else '.' :: lastDigits dec n)

/-- A row written by `savetxt()` (L123), without the line break. -/
def rowText (dec : ℕ) (p : PC K) : List Char :=
  fixedText dec p.x ++ ' ' :: (fixedText dec p.y ++ ' ' :: fixedText dec p.z)

end

/-- Lines with their line breaks. -/
def joinLines (ls : List (List Char)) : List Char := (ls.map (· ++ ['\n'])).flatten

section
variable {K : Type} [Field K] [LinearOrder K] [IsStrictOrderedRing K] [FloorRing K]

/-- `write_ebsd_detector_to_file`, L90-123: the text of the file. -/
def detectorText (ft : FloatText K) (d : Detector K) (convention : String) (dec : ℕ)
    (version time : List Char) : Except Err (List Char) :=
  match d.getPcInConvention convention with
  | .error e => .error e
  | .ok pcs => .ok (joinLines (detHeader ft d convention version time ++ pcs.map (rowText dec)))

end

/-- Python's `readlines()` (L53): lines with their line breaks; the last line may have none. -/
def readLines : List Char → List (List Char)
  | [] => []
  | c :: l =>
    if c = '\n' then [c] :: readLines l
    else match readLines l with
      | [] => [[c]]
      | w :: ws => (c :: w) :: ws

/-- Parts of a text between spaces. -/
def splitSpace : List Char → List (List Char)
  | [] => [[]]
  | c :: l =>
    if c = ' ' then [] :: splitSpace l
    else match splitSpace l with
      | [] => [[c]]
      | w :: ws => (c :: w) :: ws

/-- The columns `loadtxt()` finds in a line (L37): what is before a comment, between white space. -/
def lineColumns (line : List Char) : List (List Char) :=
  (splitSpace (line.takeWhile fun c => c ≠ '#' && c ≠ '\n')).filter (· ≠ [])

section
variable {K : Type} [Field K]

/-- Digits with an optional point. -/
def parseUnsigned (s : List Char) : Option K :=
  let i := s.takeWhile Char.isDigit
  match s.dropWhile Char.isDigit with
  | [] => if i = [] then none else some ((Nat.ofDigitChars 10 i 0 : ℕ) : K)
  | '.' :: f =>
    if (i = [] ∧ f = []) ∨ f.all Char.isDigit = false then none
    else some (((Nat.ofDigitChars 10 i 0 : ℕ) : K) + ((Nat.ofDigitChars 10 f 0 : ℕ) : K) / (10 : K) ^ f.length)
  | _ => none

/-- A number in a row. -/
def parseDecimal (s : List Char) : Option K :=
  match s with
  | '-' :: t => (parseUnsigned t).map fun x => -x
  | t => parseUnsigned t

/-- NumPy's `loadtxt()` (L37): a column which is no number, or rows of different length, raise
ValueError. -/
def loadTxt (text : List Char) : Except Err (List (List K)) :=
  match (((readLines text).map lineColumns).filter (· ≠ [])).mapM (fun r => r.mapM parseDecimal) with
  | none => .error .valueError
  | some v =>
    if v.all (fun r => r.length = (v.headD []).length) then .ok v else .error .valueError

end

/-- The header lines (L52-64): lines up to the first which does not start with "#", without their last
character (`line[2:-1]`), which is not a line break if the file ends in the line. -/
def headerLines (text : List Char) : List (List Char) :=
  ((readLines text).takeWhile fun line => line.head? = some '#').map List.dropLast

/-- Navigation shape and number of columns of the PC array (L81-84): reshaped if a navigation shape was
read, else as read by `loadtxt()` and made an array with at least two axes by the PC setter
(src/kikuchipy/detectors/_ebsd_detector.py L457-459). -/
def reshapePc {K : Type} (rows : List (List K)) : Option (List ℕ) → Except Err (List ℕ × ℕ)
  | none => .ok (if rows = [] then ([1], 0) else ([rows.length], (rows.headD []).length))
  | some nav =>
    if nav.prod * 3 = rows.flatten.length then .ok (nav, 3) else .error .valueError

/-- What is passed to the detector class. -/
structure LoadedText (K : Type) where
  nrows : ℕ
  ncols : ℕ
  pxSize : K
  binning : K
  tilt : K
  azimuthal : K
  twist : K
  sampleTilt : K
  convention : String
  nav : List ℕ
  columns : ℕ
  /-- The numbers of the PC array, flat. -/
  numbers : List K

section
variable {K : Type} [Field K]

/-- `read_ebsd_detector_from_file` (L33-87). As in `loadDetector`, errors of the detector's setters are
raised here. -/
def loadDetectorText (ft : FloatText K) (text : List Char) : Except Err (LoadedText K) := do
  let rows ← loadTxt (K := K) text
  let header := headerLines text
  let shape ← headerShape header kShape
  let navShape ← headerShape header kNavShape
  let pxSize ← headerFloat ft header kPxSize
  let binning ← headerFloat ft header kBinning
  let tilt ← headerFloat ft header kTilt
  let azimuthal ← headerFloat ft header kAzimuthal
  let twist ← headerFloat ft header kTwist
  let sampleTilt ← headerFloat ft header kSampleTilt
  let navCols ← reshapePc rows navShape
  match shape, headerValue header kConvention with
  | some [nrows, ncols], some conv =>
    .ok ⟨nrows, ncols, pxSize, binning, tilt, azimuthal, twist, sampleTilt, String.ofList conv, navCols.1,
      navCols.2, rows.flatten⟩
  | _, _ => .error .valueError

/-- Rows of three numbers. -/
def pcTriples : List K → List (PC K)
  | x :: y :: z :: l => ⟨x, y, z⟩ :: pcTriples l
  | _ => []

end

section
variable {K : Type} [Field K] [LinearOrder K]

/-- The detector made of what was read (src/kikuchipy/detectors/_ebsd_detector.py L880-899), for three
columns. -/
def LoadedText.detector (t : LoadedText K) : Except Err (Detector K) :=
  Detector.init ⟨t.nrows, t.ncols, t.pxSize, t.binning, t.tilt, t.azimuthal, t.twist, t.sampleTilt, t.nav,
    pcTriples t.numbers⟩ t.convention

end

end Kp
