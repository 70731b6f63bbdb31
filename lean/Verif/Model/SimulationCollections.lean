/-
What a geometrical simulation gives to Matplotlib for one pattern:
`GeometricalKikuchiPatternSimulation.as_collections`, `lines_coordinates`, `zone_axes_coordinates`
and `plot` (/repo/src/kikuchipy/simulations/_kikuchi_pattern_simulation.py) with all their flags,
indices and coordinate formats.

Simplifications: colours, line widths and other keyword arguments are not modelled; a map has at
least one pattern; an index with more numbers than the map has dimensions, which would select single
lines, is `notImplemented`.
-/
import Verif.Model.PatternSimulation
import Verif.Model.DetectorViews
import Verif.Model.Decomposition

namespace Kp

/-- `parse_coordinate_format` (/repo/src/kikuchipy/detectors/_convert_detector_coordinates.py
L39-52).  The warning for `"detector"` is not modelled. -/
def parseCoordinateFormat (fmt : String) : Except Err PlaneFormat :=
  let fmt := if fmt = "detector" then "pixel" else fmt
  if fmt = "pixel" then .ok .pixel
  else if fmt = "gnomonic" then .ok .gnomonic
  else .error .valueError

/-- The argument `index`: not given, a number or a tuple of numbers. -/
inductive SimIndex
  | none
  | int (i : ℤ)
  | tuple (l : List ℤ)

/-- The index used (`_kikuchi_pattern_simulation.py` L181-182, L312-313, L455-456). -/
def SimIndex.numbers (ndim : ℕ) : SimIndex → List ℤ
  | .none => ([0, 0] : List ℤ).take ndim
  | .int i => [i]
  | .tuple l => l

/-- The patterns `array[index]` selects from an array of the given navigation shape (NumPy's basic
indexing, used in L315-317 and L458-460), as positions in the flattened map. -/
def selectPatterns : List ℕ → List ℤ → Except Err (List ℕ)
  | shape, [] => .ok (List.range shape.prod)
  | [], _ :: _ => .error .notImplemented
  | n :: shape, i :: idx => do
    let k ← pyIndex n i
    let r ← selectPatterns shape idx
    .ok (r.map fun j => k * shape.prod + j)

noncomputable section

/-- A Matplotlib collection (`LineCollection`, `PathCollection`) or list of texts: line segments,
circles with radii, or texts at positions. -/
inductive SimCollection
  | lines (segments : List ((ℝ × ℝ) × (ℝ × ℝ)))
  | circles (l : List ((ℝ × ℝ) × ℝ))
  | texts (l : List ((ℝ × ℝ) × List Char))

/-- `isinstance(c, list) and isinstance(c[0], mtext.Text)` (L413): an empty list of texts has no
first one. -/
def SimCollection.hasNoFirstText : SimCollection → Bool
  | .texts [] => true
  | _ => false

/-- Which collections are asked for (L128-130). -/
structure CollectionFlags where
  lines : Bool := true
  zoneAxes : Bool := false
  labels : Bool := false

namespace PatternSimulation
variable (s : PatternSimulation)

/-- The array of lines in a format (L314-317). -/
def linesIn : PlaneFormat → List (List (Option BandTrace))
  | .pixel => s.linesPixel
  | .gnomonic => s.lines

/-- The array of zone axes in a format (L457-460). -/
def zoneIn : PlaneFormat → List (List (Option (ℝ × ℝ)))
  | .pixel => s.zonePixel
  | .gnomonic => s.zonePoints

/-- `lines_coordinates(index, coordinates)` (L280-321). -/
def linesCoordinatesAt (ix : SimIndex) (fmt : String) : Except Err (List BandTrace) := do
  let f ← parseCoordinateFormat fmt
  let pos ← selectPatterns s.shape (ix.numbers s.shape.length)
  .ok (pos.flatMap fun i => ((s.linesIn f).getD i []).filterMap id)

/-- `zone_axes_coordinates(index, coordinates)` (L423-464). -/
def zoneAxesCoordinatesAt (ix : SimIndex) (fmt : String) : Except Err (List (ℝ × ℝ)) := do
  let f ← parseCoordinateFormat fmt
  let pos ← selectPatterns s.shape (ix.numbers s.shape.length)
  .ok (pos.flatMap fun i => ((s.zoneIn f).getD i []).filterMap id)

/-- The PC whose gnomonic range gives sizes in gnomonic plots (L565-570, L599-604): the only one of
the detector, or that of the (first) pattern selected. -/
def sizePc (ix : SimIndex) : Except Err (PC ℝ) := do
  let pos ← if s.detector.nav = [1] then .ok [0]
    else selectPatterns s.detector.nav (ix.numbers s.shape.length)
  match pos.head?.bind (s.detector.pc[·]?) with
  | some p => .ok p
  | Option.none => .error .indexError

/-- `_lines_as_collection` (L536-552): rows `x0, y0, x1, y1` reshaped to two points. -/
def linesCollection (ix : SimIndex) (fmt : String) : Except Err SimCollection := do
  let l ← s.linesCoordinatesAt ix fmt
  .ok (.lines (l.map fun b => ((b.x0, b.y0), (b.x1, b.y1))))

/-- `_zone_axes_as_collection` (L554-581). -/
def circlesCollection (ix : SimIndex) (fmt : String) : Except Err SimCollection := do
  let l ← s.zoneAxesCoordinatesAt ix fmt
  let f ← parseCoordinateFormat fmt
  let size : ℝ ← match f with
    | .pixel => .ok (s.detector.nrows : ℝ)
    | .gnomonic => (s.sizePc ix).map fun p => s.detector.xMax p - s.detector.xMin p
  .ok (.circles (l.map fun c => (c, 1 / 100 * size)))

/-- `_zone_axes_labels_as_list` (L583-618).  The arrays of several patterns cannot be unpacked into
two numbers, or their truth value is ambiguous (L613-614). -/
def labelsList (ix : SimIndex) (fmt : String) : Except Err SimCollection := do
  let f ← parseCoordinateFormat fmt
  let pos ← selectPatterns s.shape (ix.numbers s.shape.length)
  let off : ℝ ← match f with
    | .pixel => .ok (-(3 / 100 * (s.detector.nrows : ℝ)))
    | .gnomonic => (s.sizePc ix).map fun p =>
        3 / 100 * (s.detector.yMax p - s.detector.yMin p)
  if (ix.numbers s.shape.length).length < s.shape.length then .error .valueError
  else .ok (.texts (pos.flatMap fun i =>
    (List.zipWith (fun c t => c.map fun c => ((c.1, c.2 + off), t)) ((s.zoneIn f).getD i [])
      (zoneAxisLabels s.zoneAxes)).filterMap id))

/-- `as_collections` (L124-212). -/
def asCollections (ix : SimIndex) (fmt : String) (flags : CollectionFlags) :
    Except Err (List SimCollection) := do
  let _ ← parseCoordinateFormat fmt
  let a ← if flags.lines then (s.linesCollection ix fmt).map fun c => [c] else .ok []
  let b ← if flags.zoneAxes then (s.circlesCollection ix fmt).map fun c => [c] else .ok []
  let c ← if flags.labels then (s.labelsList ix fmt).map fun c => [c] else .ok []
  .ok (a ++ b ++ c)

/-- `plot` (L323-421): the detector plane (`EBSDDetector.plot`, `_ebsd_detector.py` L1806-1898, with
its defaults) and the collections drawn on it.  `pattern` is the shape of the pattern given. -/
def plotWith (ix : SimIndex) (fmt : String) (pattern : Option (ℕ × ℕ)) (flags : CollectionFlags) :
    Except Err (PlaneView × List SimCollection) := do
  let f ← parseCoordinateFormat fmt
  let view ← planeView s.detector f 1 pattern []
  let cs ← s.asCollections ix fmt flags
  if cs.any SimCollection.hasNoFirstText then .error .indexError
  else .ok (view, cs)

end PatternSimulation

end

end Kp
