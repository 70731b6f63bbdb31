import Verif.Model.NordifSettings
import Verif.Model.ExtrapolatePc

/-
Model of the reader of NORDIF calibration patterns: `file_reader()` and `_get_patterns()`
(`src/kikuchipy/io/plugins/nordif_calibration_patterns/_api.py` L33-117) and the positions in
`_get_calibration_pattern_settings()` (`src/kikuchipy/io/plugins/nordif/_api.py` L370-432).

Files are given as a function from names (in the directory of the setting file) to images. Numbers
are exact. Logging and warnings are not modelled.
-/

namespace Kp

/-- A run of decimal digits at the start of a text, and the rest. -/
def digitRun : Text → Text × Text
  | [] => ([], [])
  | c :: s => if c.isDigit then ((c :: (digitRun s).1), (digitRun s).2) else ([], c :: s)

theorem digitRun_rest_length (s : Text) : (digitRun s).2.length ≤ s.length := by
  induction s with
  | nil => simp [digitRun]
  | cons c s ih =>
    unfold digitRun
    split_ifs
    · simp only [List.length_cons]; omega
    · simp

/-- `re.findall(r"\d+", text)` for text with no other than ASCII digits. -/
def digitRuns : Text → List Text
  | [] => []
  | c :: s =>
    if c.isDigit then (c :: (digitRun s).1) :: digitRuns (digitRun s).2 else digitRuns s
termination_by s => s.length
decreasing_by
  · have := digitRun_rest_length s; simp only [List.length_cons]; omega
  · simp

/-- `int(text)` of digits. -/
def digitsValue (t : Text) : ℕ := t.foldl (fun a c => 10 * a + (c.toNat - '0'.toNat)) 0

/-- `float(f"{a}.{b}")` of digits, exact. -/
def decimalValue (K : Type) [Field K] (a b : Text) : K :=
  (digitsValue a : K) + (digitsValue b : K) / 10 ^ b.length

/-- One value of the region of interest (`nordif/_api.py` L389-398): the third number in the line
behind the key, and the decimal number before it. `none` if the line does not exist, does not have
the key or less than three numbers (`AttributeError`, `IndexError`). -/
def roiValue (K : Type) [Field K] (key : String) (line : Option Text) : Option (ℕ × K) :=
  match line.bind (searchBetween key.toList []) with
  | none => none
  | some t =>
    match digitRuns t with
    | a :: b :: c :: _ => some (digitsValue c, decimalValue K a b)
    | _ => none

/-- The region of interest (`nordif/_api.py` L386-403): values which were not read are zero. -/
structure NordifRoi (K : Type) where
  top : ℕ
  left : ℕ
  height : ℕ
  width : ℕ
  widthScaled : K

/-- `roi` (`nordif/_api.py` L386-403). -/
def nordifRoi (K : Type) [Field K] (lines : List Text) (lArea : ℤ) : NordifRoi K :=
  let get (key : String) (i : ℤ) := roiValue K key lines[(lArea + i + 1).toNat]?
  { top := ((get "Top" 0).map Prod.fst).getD 0
    left := ((get "Left" 1).map Prod.fst).getD 0
    width := ((get "Width" 2).map Prod.fst).getD 0
    widthScaled := ((get "Width" 2).map Prod.snd).getD 0
    height := ((get "Height" 3).map Prod.fst).getD 0 }

/-- Positions and shapes in map steps (`nordif/_api.py` L405-419). -/
structure ScaledPositions where
  indices : List (ℤ × ℤ)
  origin : ℤ × ℤ
  shape : ℤ × ℤ
  area : Option (ℤ × ℤ)
  deriving DecidableEq

section
variable {K : Type} [Field K] [LinearOrder K] [FloorRing K]

/-- `np.round(x / factor).astype(int)` (`nordif/_api.py` L407-411). Division by zero gives infinite
or invalid values, which become the integer `invalid`. -/
def scalePosition (invalid : ℤ) (factor : K) (x : ℤ) : ℤ :=
  if factor = 0 then invalid else npRound ((x : K) / factor)

/-- Both coordinates. -/
def scalePair (invalid : ℤ) (factor : K) (p : ℤ × ℤ) : ℤ × ℤ :=
  (scalePosition invalid factor p.1, scalePosition invalid factor p.2)

/-- The scaled positions (`nordif/_api.py` L403-419): none if the width was not read. A line of the
overview image with a resolution which is not two numbers leaves the shape of the area undefined,
which is looked up. -/
def scaledPositions (invalid : ℤ) (step : K) (roi : NordifRoi K) (rc : List (ℤ × ℤ))
    (area : Option (Option (ℤ × ℤ))) : Except Err (Option ScaledPositions) :=
  if roi.widthScaled = 0 then .ok none
  else
    let factor := step * roi.width / roi.widthScaled
    match area with
    | none => .error .keyError
    | some a => .ok (some
        { indices := rc.map (scalePair invalid factor)
          origin := scalePair invalid factor (roi.top, roi.left)
          shape := scalePair invalid factor (roi.height, roi.width)
          area := a.map (scalePair invalid factor) })

end

/-- An image file: shape (with the number of channels if it is not of gray levels) and values. -/
structure ImageFile where
  shape : List ℕ
  data : List ℕ
  deriving DecidableEq

/-- What the reader returns (`nordif_calibration_patterns/_api.py` L52-106). -/
structure CalibrationScan (K : Type) where
  shape : List ℕ
  patterns : List (List ℕ)
  axes : List (ℕ × String)
  background : Option ImageFile
  settings : NordifSettings K
  indices : List (ℤ × ℤ)
  roi : NordifRoi K
  scaled : Option ScaledPositions

/-- `np.asarray(patterns)` of images (`nordif_calibration_patterns/_api.py` L117): the shape.
Images of different shapes are refused. -/
def stackShape (images : List ImageFile) : Except Err (List ℕ) :=
  match images with
  | [] => .ok [0]
  | i :: rest =>
    if rest.all (fun j => decide (j.shape = i.shape)) then .ok ((rest.length + 1) :: i.shape)
    else .error .valueError

/-- The axes (`nordif_calibration_patterns/_api.py` L88-103): there are three names. -/
def calibrationAxes (shape : List ℕ) : Except Err (List (ℕ × String)) :=
  if 3 < shape.length then .error .indexError else .ok (shape.zip ["x", "dy", "dx"])

/-- Numbers in the line behind `Resolution` (`nordif/_api.py` L374-377). -/
def resolutionNumbers (line : Text) : Option (List ℤ) :=
  (searchBetween "Resolution".toList [] line).map (fun t => (digitRuns t).map (fun d => (digitsValue d : ℤ)))

/-- `imread()` of a file (`nordif_calibration_patterns/_api.py` L112-114). -/
def openImage (image : Text → Option ImageFile) (name : Text) : Except Err ImageFile :=
  match image name with
  | none => .error .ioError
  | some i => .ok i

/-- `file_reader()` (`nordif_calibration_patterns/_api.py` L33-106) with
`_get_calibration_pattern_settings()` (`nordif/_api.py` L339-432). -/
def calibrationReader {K : Type} [Field K] [LinearOrder K] [FloorRing K] (int : Text → Option ℤ)
    (float : Text → Option K) (str : ℤ → Text) (invalid : ℤ) (image : Text → Option ImageFile)
    (lines : List Text) : Except Err (CalibrationScan K) := do
  let settings ← nordifSettings int float "[Calibration settings]" lines
  let rc ← calibrationIndices int lines
  let overview ← lineAt lines (blockLine "[Electron image]".toList lines + 2)
  let roi := nordifRoi K lines (blockLine "[Area]".toList lines)
  let scaled ← scaledPositions invalid settings.step roi rc (areaShape (resolutionNumbers overview))
  let images ← (calibrationFiles str rc).mapM (openImage image)
  let shape ← stackShape images
  let axes ← calibrationAxes shape
  pure
    { shape := shape
      patterns := images.map ImageFile.data
      axes := axes
      background := image "Background calibration pattern.bmp".toList
      settings := settings
      indices := rc
      roi := roi
      scaled := scaled }

end Kp
