/-
Detector text files, src/kikuchipy/io/_detectors.py: header lines are modelled as lists of
characters.
-/
import Verif.Model.Detector
import Verif.Model.ExtrapolatePc

namespace Kp

/-- Text of floating point numbers: Python's `str(float)` and `float(str)`.  The number read back
is the one written, and the text ends with a character other than those of " deg" (a digit, or
the last letter of "nan" or "inf"). -/
structure FloatText (K : Type) where
  repr : K → List Char
  parse : List Char → Option K
  parse_repr : ∀ x, parse (repr x) = some x
  repr_last : ∀ x, ∃ l c, repr x = l ++ [c] ∧ c ∉ [' ', 'd', 'e', 'g']

/-- A detector file: header lines, each with the leading "# " and without the line break, and
rows of PC coordinates.  Simplification: the text of the coordinates is not modelled, a row has
the (rounded) numbers. -/
structure DetFile (K : Type) where
  header : List (List Char)
  rows : List (PC K)

/-- Python's text of a tuple of integers, as of `detector.shape` and
`detector.navigation_shape`. -/
def tupleText : List ℕ → List Char
  | [] => ['(', ')']
  | [a] => '(' :: Nat.toDigits 10 a ++ [',', ')']
  | a :: b :: l =>
    '(' :: Nat.toDigits 10 a ++
      ((b :: l).map fun n => ',' :: ' ' :: Nat.toDigits 10 n).flatten ++ [')']

/-- A line `  key: value` of the header, with the leading comment characters of NumPy's
`savetxt()`. -/
def keyLine (key value : List Char) : List Char :=
  ['#', ' ', ' ', ' '] ++ key ++ [':', ' '] ++ value

def kShape : List Char := ['s', 'h', 'a', 'p', 'e']
def kPxSize : List Char := ['p', 'x', '_', 's', 'i', 'z', 'e']
def kBinning : List Char := ['b', 'i', 'n', 'n', 'i', 'n', 'g']
def kTilt : List Char := ['t', 'i', 'l', 't']
def kAzimuthal : List Char := ['a', 'z', 'i', 'm', 'u', 't', 'h', 'a', 'l']
def kTwist : List Char := ['t', 'w', 'i', 's', 't']
def kSampleTilt : List Char := ['s', 'a', 'm', 'p', 'l', 'e', '_', 't', 'i', 'l', 't']
def kConvention : List Char := ['c', 'o', 'n', 'v', 'e', 'n', 't', 'i', 'o', 'n']
def kNavShape : List Char :=
  ['n', 'a', 'v', 'i', 'g', 'a', 't', 'i', 'o', 'n', '_', 's', 'h', 'a', 'p', 'e']

/-- " deg" -/
def degText : List Char := [' ', 'd', 'e', 'g']

/-- The header written, L104-121.  `version` and `time` are the texts of the version and time. -/
def detHeader {K : Type} (ft : FloatText K) (d : Detector K) (convention : String)
    (version time : List Char) : List (List Char) :=
  [ ['#', ' ', 'E', 'B', 'S', 'D', 'D', 'e', 't', 'e', 'c', 't', 'o', 'r'],
    keyLine kShape (tupleText [d.nrows, d.ncols]),
    keyLine kPxSize (ft.repr d.pxSize),
    keyLine kBinning (ft.repr d.binning),
    keyLine kTilt (ft.repr d.tilt ++ degText),
    keyLine kAzimuthal (ft.repr d.azimuthal ++ degText),
    keyLine kTwist (ft.repr d.twist ++ degText),
    keyLine kSampleTilt (ft.repr d.sampleTilt ++ degText),
    keyLine kConvention convention.toList,
    keyLine kNavShape (tupleText d.nav),
    ['#', ' '],
    ['#', ' ', 'k', 'i', 'k', 'u', 'c', 'h', 'i', 'p', 'y', ' ', 'v', 'e', 'r', 's', 'i', 'o', 'n',
      ':', ' '] ++ version,
    ['#', ' ', 'T', 'i', 'm', 'e', ':', ' '] ++ time,
    ['#', ' '],
    ['#', ' ', 'C', 'o', 'l', 'u', 'm', 'n', ' ', 'n', 'a', 'm', 'e', 's', ':', ' ', 'P', 'C', 'x',
      ',', ' ', 'P', 'C', 'y', ',', ' ', 'P', 'C', 'z'] ]

section
variable {K : Type} [Field K] [LinearOrder K] [IsStrictOrderedRing K] [FloorRing K]

/-- A number written with `dec` decimals (`"%.7f"` by default, L122), rounded half to even. -/
def fixedPoint (dec : ℕ) (x : K) : K := (npRound (x * (10 : K) ^ dec) : K) / (10 : K) ^ dec

/-- A row of the file. -/
def fixedRow (dec : ℕ) (p : PC K) : PC K :=
  ⟨fixedPoint dec p.x, fixedPoint dec p.y, fixedPoint dec p.z⟩

/-- `write_ebsd_detector_to_file`, L90-123, with the default header and `fmt=f"%.{dec}f"`. -/
def writeDetector (ft : FloatText K) (d : Detector K) (convention : String) (dec : ℕ)
    (version time : List Char) : Except Err (DetFile K) :=
  match d.getPcInConvention convention with
  | .error e => .error e
  | .ok pcs => .ok ⟨detHeader ft d convention version time, pcs.map (fixedRow dec)⟩

end

/-- The character class `\w` of the regular expression, L58 (ASCII only). -/
def wordChar (c : Char) : Bool := c.isAlphanum || c == '_'

/-- The match of `^(\w+|\w+\s\w+): (.*)` on a line, L58, as far as it matters: keys with a space
are no keys looked for, so the second alternative counts as no match. -/
def matchKey (line : List Char) : Option (List Char × List Char) :=
  match line.takeWhile wordChar, line.dropWhile wordChar with
  | [], _ => none
  | k, ':' :: ' ' :: v => some (k, v)
  | _, _ => none

/-- The value of a key in the header: L52-64, `line[2:-1].lstrip(" ")`.  A later line overwrites
an earlier one. -/
def headerValue (header : List (List Char)) (key : List Char) : Option (List Char) :=
  (header.filterMap fun line =>
    match matchKey ((line.drop 2).dropWhile (· == ' ')) with
    | some (k, v) => if k = key then some v else none
    | none => none).getLast?

/-- Python's `str.split(",")`. -/
def splitComma : List Char → List (List Char)
  | [] => [[]]
  | c :: l =>
    if c = ',' then [] :: splitComma l
    else match splitComma l with
      | [] => [[c]]
      | w :: ws => (c :: w) :: ws

/-- Python's `int()` of a text: leading and trailing spaces are allowed, otherwise there must be
digits only.  Simplification: signs and underscores are not modelled (`none`). -/
def pyIntText (s : List Char) : Option ℕ :=
  let t := ((s.dropWhile (· == ' ')).reverse.dropWhile (· == ' ')).reverse
  if t ≠ [] ∧ t.all Char.isDigit then some (Nat.ofDigitChars 10 t 0) else none

/-- `tuple(int(i) for i in shape[1:-1].split(","))`, L68-71: `none` if a ValueError is
raised. -/
def parseTuple (s : List Char) : Option (List ℕ) :=
  (splitComma (s.drop 1).dropLast).mapM pyIntText

/-- `value.rstrip(" deg")`, L75: remove all trailing characters of the set. -/
def rstripDeg (s : List Char) : List Char :=
  (s.reverse.dropWhile fun c => c ∈ [' ', 'd', 'e', 'g']).reverse

/-- A number in the header, L74-79 and the detector's setters: a missing key raises
AttributeError, a value which is no number becomes None, for which the setters raise
ValueError. -/
def headerFloat {K : Type} (ft : FloatText K) (header : List (List Char)) (key : List Char) :
    Except Err K :=
  match headerValue header key with
  | none => .error .attributeError
  | some v => match ft.parse (rstripDeg v) with
    | some x => .ok x
    | none => .error .valueError

/-- A shape in the header, L66-73: a missing key raises TypeError. -/
def headerShape (header : List (List Char)) (key : List Char) : Except Err (Option (List ℕ)) :=
  match headerValue header key with
  | none => .error .typeError
  | some v => .ok (parseTuple v)

/-- Navigation shape of the PC array, L81-84: the array read by NumPy's `loadtxt()` has shape
`(n, 3)`, or `(3,)` for a single row (which the PC setter makes `(1, 3)`), unless it is reshaped
to the navigation shape of the header. -/
def readNav (n : ℕ) : Option (List ℕ) → Except Err (List ℕ)
  | none => if n = 0 then .error .valueError else .ok [n]
  | some nav => if nav.foldl (· * ·) 1 = n then .ok nav else .error .valueError

section
variable {K : Type} [Field K] [LinearOrder K]

/-- `read_ebsd_detector_from_file`, L33-87, and `EBSDDetector.load`
(src/kikuchipy/detectors/_ebsd_detector.py L880-899).  A shape which is not two integers makes
the shape setter raise ValueError. -/
def loadDetector (ft : FloatText K) (f : DetFile K) : Except Err (Detector K) := do
  let shape ← headerShape f.header kShape
  let navShape ← headerShape f.header kNavShape
  let pxSize ← headerFloat ft f.header kPxSize
  let binning ← headerFloat ft f.header kBinning
  let tilt ← headerFloat ft f.header kTilt
  let azimuthal ← headerFloat ft f.header kAzimuthal
  let twist ← headerFloat ft f.header kTwist
  let sampleTilt ← headerFloat ft f.header kSampleTilt
  let nav ← readNav f.rows.length navShape
  match shape, headerValue f.header kConvention with
  | some [nrows, ncols], some conv =>
    Detector.init ⟨nrows, ncols, pxSize, binning, tilt, azimuthal, twist, sampleTilt, nav, f.rows⟩
      (String.ofList conv)
  | _, _ => .error .valueError

end

end Kp
