import Verif.Model.Detector

/-
Model of the argument `pos` of `EBSDDetector.to_gnomonic_coords` and `to_pixel_coords`
(`src/kikuchipy/detectors/_ebsd_detector.py` L902-984, L2360-2403,
`_convert_detector_coordinates.py` L119-185).

Simplification: items of a tuple with two items are integers (NumPy would also take slices).
-/

namespace Kp

/-- An item of a tuple: an integer (Python's or NumPy's) or another object. -/
inductive PosItem
  | int (i : ℤ)
  | other
  deriving DecidableEq

/-- The argument `pos`. -/
inductive PyPos
  | none
  | int (i : ℤ)
  | tuple (items : List PosItem)
  | other
  deriving DecidableEq

/-- `_parse_sample_position` (`_ebsd_detector.py` L2360-2403): `none` for all positions, otherwise
the index. The check of the first item of a tuple with two items is NumPy's when indexing. -/
def parseSamplePosition (navDim : ℕ) : PyPos → Except Err (Option (List PosItem))
  | .none => .ok none
  | .int i => if navDim ≠ 1 then .error .valueError else .ok (some [.int i])
  | .tuple [x] =>
    if navDim ≠ 1 then .error .valueError
    else
      match x with
      | .int i => .ok (some [.int i])
      | .other => .error .typeError
  | .tuple [x, y] => if navDim ≠ 2 then .error .valueError else .ok (some [x, y])
  | .tuple _ => .error .valueError
  | .other => .error .typeError

/-- NumPy's index along an axis: negative from the end, `IndexError` outside the axis or if it is
not an integer. -/
def axisIndex (n : ℕ) : PosItem → Except Err ℕ
  | .other => .error .indexError
  | .int i =>
    if 0 ≤ i ∧ i < n then .ok i.toNat
    else if -n ≤ i ∧ i < 0 then .ok (i + n).toNat
    else .error .indexError

/-- Indexing of an array with one item per axis. -/
def arrayIndex (shape : List ℕ) (items : List PosItem) : Except Err (List ℕ) :=
  (List.zip shape items).mapM (fun p => axisIndex p.1 p.2)

variable {K : Type} [Field K]

/-- `convert_coordinates` with `detector_index` (`_convert_detector_coordinates.py` L119-185). -/
def convertCoordinatesIndexed (nav : List ℕ) (factors : List ℕ → Factors K) (c : Coords K) :
    Option (List PosItem) → Except Err (Coords K)
  | none => .ok (convertCoordinates nav factors c)
  | some items =>
    match arrayIndex nav items with
    | .error e => .error e
    | .ok i => .ok (convertCoordinatesAt (factors i) c)

/-- `to_gnomonic_coords(coords, pos)` (`_ebsd_detector.py` L902-942). -/
def Detector.toGnomonicCoordsPos (d : Detector K) (pcAt : List ℕ → PC K) (c : Coords K)
    (pos : PyPos) : Except Err (Coords K) :=
  match parseSamplePosition d.nav.length pos with
  | .error e => .error e
  | .ok p => convertCoordinatesIndexed d.nav (fun i => d.pixToGn (pcAt i)) c p

/-- `to_pixel_coords(coords, pos)` (`_ebsd_detector.py` L944-984). -/
def Detector.toPixelCoordsPos (d : Detector K) (pcAt : List ℕ → PC K) (c : Coords K)
    (pos : PyPos) : Except Err (Coords K) :=
  match parseSamplePosition d.nav.length pos with
  | .error e => .error e
  | .ok p => convertCoordinatesIndexed d.nav (fun i => d.gnToPix (pcAt i)) c p

end Kp
