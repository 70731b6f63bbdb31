/-
Geometrical simulations for all points of a map, `KikuchiPatternSimulator.on_detector`
(/repo/src/kikuchipy/simulations/kikuchi_pattern_simulator.py L217-380), the features of patterns
(/repo/src/kikuchipy/simulations/_kikuchi_pattern_features.py) and
`GeometricalKikuchiPatternSimulation`
(/repo/src/kikuchipy/simulations/_kikuchi_pattern_simulation.py), over the real numbers.

Simplifications: arrays over the map are lists in row-major order; Miller indices are integers;
`None` stands for NaN.
-/
import Verif.Model.GeometricalSimulation

namespace Kp

/-- Miller indices. -/
abbrev Miller := V3 ℤ

/-- Index tuples of an array, in the order of `np.ndindex`. -/
def ndindex : List ℕ → List (List ℕ)
  | [] => [[]]
  | n :: s => (List.range n).flatMap fun i => (ndindex s).map (i :: ·)

/-- The position of an index tuple in the flattened array. -/
def ravelIndex (shape idx : List ℕ) : ℕ :=
  (List.zip shape idx).foldl (fun acc p => acc * p.1 + p.2) 0

/-- Marker data given to HyperSpy: the same for all positions, or an object array with a list for
every position of the navigator (`(x, y)`). -/
inductive MarkerData (α : Type*)
  | fixed (l : List (Option α))
  | varying (l : List (List ℕ × List α))

/-- What HyperSpy draws at a position `(x, y)`: values which are not NaN. -/
def MarkerData.drawnAt {α : Type*} (m : MarkerData α) (pos : List ℕ) : List α :=
  match m with
  | .fixed l => l.filterMap id
  | .varying l => (l.lookup pos).getD []

/-- `_lines_as_markers` and `_zone_axes_as_markers` (`_kikuchi_pattern_simulation.py` L620-636,
L671-685): coordinates of every pattern to marker data. -/
def markerArray {α : Type*} (shape : List ℕ) (coords : List (List (Option α))) : MarkerData α :=
  if shape = [1] then .fixed coords.flatten
  else .varying ((ndindex shape.reverse).map fun idx =>
    (idx, (coords.getD (ravelIndex shape idx.reverse) []).filterMap id))

/-- A zone axis label (`_zone_axes_labels_as_array` L687-692): the text of an array of integers
without spaces and brackets. -/
def zoneAxisLabel (w : Miller) : List Char :=
  (toString w.x).toList ++ (toString w.y).toList ++ (toString w.z).toList

/-- `_zone_axes_labels_as_array` (L687-692): the text of an array without rows is `[]`, which gives
one empty label. -/
def zoneAxisLabels (uvw : List Miller) : List (List Char) :=
  if uvw = [] then [[]] else uvw.map zoneAxisLabel

/-- `_zone_axes_labels_as_markers` (L694-720): positions with labels.  Indexing labels with a mask of
another length is an error. -/
def labelMarkers {α : Type*} (shape : List ℕ) (labels : List (List Char))
    (coords : List (List (Option α))) : Except Err (MarkerData (α × List Char)) :=
  if shape = [1] then
    .ok (.fixed (List.zipWith (fun c l => c.map (·, l)) coords.flatten labels))
  else if coords.any (fun c => c.length != labels.length) then .error .indexError
  else .ok (.varying ((ndindex shape.reverse).map fun idx =>
    (idx, (List.zipWith (fun c l => c.map (·, l))
      (coords.getD (ravelIndex shape idx.reverse) []) labels).filterMap id)))

noncomputable section

/-- Miller indices as real numbers. -/
def Miller.real (v : Miller) : V3 ℝ := ⟨v.x, v.y, v.z⟩

/-- The coordinates of a Kikuchi line for a plane normal in the detector frame
(`KikuchiPatternLine`, `_kikuchi_pattern_features.py` L46-100).  The Hesse distance
`tan(pi / 2 - polar)` is `z / sqrt(x² + y²)`, and larger than any radius for a normal along z. -/
def lineTrace (maxR : ℝ) (n : V3 ℝ) : Option BandTrace :=
  let s := Real.sqrt (n.x * n.x + n.y * n.y)
  if n.z ≤ -(1 / 100000) then none
  else if s = 0 then none
  else if maxR ≤ |n.z / s| then none
  else
    let alpha := Real.arccos (n.z / s / maxR)
    let az := Complex.arg ⟨n.x, n.y⟩ - Real.pi
    some ⟨maxR * Real.cos (az + alpha), maxR * Real.sin (az + alpha),
      maxR * Real.cos (az - alpha), maxR * Real.sin (az - alpha)⟩

/-- Gnomonic coordinates of a direction in the detector frame (`KikuchiPatternZoneAxis`,
`_kikuchi_pattern_features.py` L103-126).  Division by zero gives infinity or NaN, which are not
less than the radius. -/
def zonePoint (maxR : ℝ) (t : V3 ℝ) : Option (ℝ × ℝ) :=
  if t.z ≤ -(1 / 100000) ∨ t.z = 0 then none
  else if maxR ≤ Real.sqrt ((t.x / t.z) ^ 2 + (t.y / t.z) ^ 2) then none
  else some (t.x / t.z, t.y / t.z)

/-- A simulation: detector, navigation shape (that of the rotations), PC of every pattern,
reflectors, zone axes, and for every pattern the gnomonic coordinates of the lines of all
reflectors and of all zone axes. -/
structure PatternSimulation where
  detector : Detector ℝ
  shape : List ℕ
  pcs : List (PC ℝ)
  reflectors : List Miller
  zoneAxes : List Miller
  lines : List (List (Option BandTrace))
  zonePoints : List (List (Option (ℝ × ℝ)))

/-- The arguments and the lattice: `lattice` is `base` and `recbase.T`, `orientations` the products
of the matrices of a rotation and of the detector (`kikuchi_pattern_simulator.py` L258-279), and
`reduce` orix' rounding of Miller indices to smallest integers. -/
structure SimulationArgs where
  detector : Detector ℝ
  base : M3
  recbase : M3
  reduce : Miller → Miller
  reflectors : List Miller
  shape : List ℕ
  orientations : List M3

namespace SimulationArgs
variable (a : SimulationArgs)

/-- A plane normal in the detector frame (L266-276). -/
def normal (v : Miller) (u : M3) : V3 ℝ := M3.vecMul v.real (M3.matMul a.recbase u)

/-- A direction in the detector frame (L302-309). -/
def direction (w : Miller) (u : M3) : V3 ℝ := M3.vecMul w.real (M3.matMul a.base u)

/-- The PC of every pattern: one for all is broadcast. -/
def pcs : List (PC ℝ) :=
  if a.detector.nav = [1] then
    match a.detector.pc with
    | [] => []
    | p :: _ => List.replicate a.orientations.length p
  else a.detector.pc

/-- Reflectors in some pattern (L280-293). -/
def visibleReflectors : List Miller :=
  a.reflectors.filter fun v => a.orientations.any fun u => decide (0 < (a.normal v u).z)

/-- Zone axes of pairs of these (L295-303), in any order. -/
def allZoneAxes : List Miller :=
  (((a.visibleReflectors.flatMap fun v => a.visibleReflectors.map fun w => v.cross w).filter
    fun v => v ≠ ⟨0, 0, 0⟩).map a.reduce).dedup

/-- Zone axes in the upper half in some pattern and within the bounds of some pattern (L311-352). -/
def visibleZoneAxes : List Miller :=
  a.allZoneAxes.filter fun w =>
    (a.orientations.any fun u => decide (0 < (a.direction w u).z)) &&
    (List.zip a.orientations a.pcs).any fun up =>
      let t := a.direction w up.1
      decide (t.z ≠ 0 ∧ withinBounds a.detector up.2 (t.x / t.z, t.y / t.z))

/-- The largest radius of all patterns (L362). -/
def maxR : ℝ := (a.detector.pc.map a.detector.rMax).foldl max 0

end SimulationArgs

/-- `KikuchiPatternSimulator.on_detector` (`kikuchi_pattern_simulator.py` L217-380). -/
def onDetector (a : SimulationArgs) : Except Err PatternSimulation :=
  if a.detector.nav ≠ [1] ∧ a.detector.nav ≠ a.shape then .error .valueError
  else .ok
    { detector := a.detector
      shape := a.shape
      pcs := a.pcs
      reflectors := a.visibleReflectors
      zoneAxes := a.visibleZoneAxes
      lines := a.orientations.map fun u => a.visibleReflectors.map fun v =>
        lineTrace a.maxR (a.normal v u)
      zonePoints := a.orientations.map fun u => a.visibleZoneAxes.map fun w =>
        zonePoint a.maxR (a.direction w u) }

namespace PatternSimulation
variable (s : PatternSimulation)

/-- Pixel coordinates of lines (`_set_lines_detector_coordinates` L468-487). -/
def linesPixel : List (List (Option BandTrace)) :=
  List.zipWith (fun l p => l.map fun b => b.map fun b =>
    let e0 := simToPixel s.detector p (b.x0, b.y0)
    let e1 := simToPixel s.detector p (b.x1, b.y1)
    ⟨e0.1, e0.2, e1.1, e1.2⟩) s.lines s.pcs

/-- Pixel coordinates of zone axes (`_set_zone_axes_detector_coordinates` L489-534). -/
def zonePixel : List (List (Option (ℝ × ℝ))) :=
  List.zipWith (fun l p => l.map fun g => g.bind fun g =>
    if withinBounds s.detector p g then some (simToPixel s.detector p g) else none)
    s.zonePoints s.pcs

/-- `lines_coordinates(index, "pixel")` (L280-321) of one pattern. -/
def linesCoordinates (i : ℕ) : List BandTrace := (s.linesPixel.getD i []).filterMap id

/-- `zone_axes_coordinates(index, "pixel")` (L423-464) of one pattern. -/
def zoneAxesCoordinates (i : ℕ) : List (ℝ × ℝ) := (s.zonePixel.getD i []).filterMap id

/-- `zone_axes_coordinates(index, "gnomonic")`. -/
def zoneAxesGnomonic (i : ℕ) : List (ℝ × ℝ) := (s.zonePoints.getD i []).filterMap id

/-- Line markers (`_lines_as_markers` L620-635). -/
def lineMarkers : MarkerData BandTrace := markerArray s.shape s.linesPixel

/-- Zone axes markers (`_zone_axes_as_markers` L671-685). -/
def zoneMarkers : MarkerData (ℝ × ℝ) := markerArray s.shape s.zonePixel

/-- Zone axes label markers (`_zone_axes_labels_as_markers` L694-720). -/
def zoneLabelMarkers : Except Err (MarkerData ((ℝ × ℝ) × List Char)) :=
  labelMarkers s.shape (zoneAxisLabels s.zoneAxes) s.zonePixel

/-- The average PC (`EBSDDetector.pc_average`, `_ebsd_detector.py` L465-479). -/
def pcAverage : PC ℝ :=
  let n : ℝ := s.detector.pc.length
  ⟨(s.detector.pc.map PC.x).sum / n, (s.detector.pc.map PC.y).sum / n,
    (s.detector.pc.map PC.z).sum / n⟩

/-- A PC in pixels (L650-669, and `plot_ebsd_detector`, `draw/_ebsd_detector_plot.py` L113-119). -/
def pcPixel (p : PC ℝ) : ℝ × ℝ :=
  (p.x * (if 1 < s.detector.ncols then (s.detector.ncols : ℝ) - 1 else 1),
    p.y * (if 1 < s.detector.nrows then (s.detector.nrows : ℝ) - 1 else 1))

/-- PC markers (`_pc_as_markers`, `_pc_xy_offsets` L637-669). -/
def pcMarkers : MarkerData (ℝ × ℝ) :=
  if s.detector.nav = s.shape ∧ s.shape ≠ [1] then
    .varying ((ndindex s.shape.reverse).map fun idx =>
      (idx, ((s.detector.pc[ravelIndex s.shape idx.reverse]?).map s.pcPixel).toList))
  else .fixed [some (s.pcPixel s.pcAverage)]

/-- What `plot(index)` in pixels shows: the PC, lines and zone axes with labels. -/
structure SimulationPlot where
  pc : ℝ × ℝ
  lines : List BandTrace
  zoneAxes : List (ℝ × ℝ)
  labels : List ((ℝ × ℝ) × List Char)

/-- `plot(index)` with defaults (L323-421) of the pattern at position `i` of the flattened map: the
class of the first label is looked at, which is an error if there are none (L411-414). -/
def plot (i : ℕ) : Except Err SimulationPlot :=
  let texts := (List.zipWith (fun c l => c.map (·, l)) (s.zonePixel.getD i [])
    (zoneAxisLabels s.zoneAxes)).filterMap id
  if texts = [] then .error .indexError
  else .ok ⟨s.pcPixel s.pcAverage, s.linesCoordinates i, s.zoneAxesCoordinates i, texts⟩

end PatternSimulation

end

end Kp
