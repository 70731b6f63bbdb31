import Verif.Model.Base
import Verif.Model.Detector
import Mathlib.Algebra.Field.Defs
import Mathlib.Order.Defs.LinearOrder

/-
Model of `plot_pattern_positions_in_map`
(`/repo/src/kikuchipy/draw/_plot_pattern_positions_in_map.py` L32-138), `EBSDDetector.plot_pc`
(`/repo/src/kikuchipy/detectors/_ebsd_detector.py` L2097-2174) and the functions it uses
(`/repo/src/kikuchipy/draw/_projection_center_plot.py` L134-250).

A figure is what is in it: positions of markers with their labels, where images are placed, limits
of axes. Colors, sizes and fonts are left out. Matplotlib's `imshow` is modelled for images with
the first row at the top of their extent, the default.
-/

namespace Kp

/-! ### Positions in a map -/

/-- An image in a figure: its pixels, and its extent (left, right, bottom, top). -/
structure PlacedImage (K P : Type*) where
  rows : ℕ
  cols : ℕ
  val : ℕ → ℕ → P
  left : K
  right : K
  bottom : K
  top : K

section
variable {K : Type} [Field K]

/-- Where the center of a pixel of an image is drawn (x, y), as Matplotlib does it. -/
def PlacedImage.center {P : Type*} (p : PlacedImage K P) (r c : ℕ) : K × K :=
  (p.left + (p.right - p.left) * ((c : K) + 1 / 2) / p.cols,
    p.top + (p.bottom - p.top) * ((r : K) + 1 / 2) / p.rows)

/-- The part of a figure made by the function. Markers are (x, y) with their number. `roi` is the
rectangle (x, y, width, height), drawn if there is an area. -/
structure PositionFigure (K P : Type) where
  markers : List ((K × K) × ℕ)
  roi : Option (K × K × K × K)
  roiImage : Option (PlacedImage K P)
  areaImage : Option (PlacedImage K P)
  xlim : Option (K × K)
  ylim : Option (K × K)
  yDown : Bool

/-- The arguments. `rc` are (row, column). `rcInt` and `originInt` tell whether the arrays are of
integers, `originArray` whether the origin is an array instead of a tuple. Images are rows, columns
and pixels. `existing`: an axis is passed. -/
structure PositionArgs (K P : Type) where
  rc : List (K × K)
  rcInt : Bool
  roiShape : K × K
  roiOrigin : K × K
  originInt : Bool
  originArray : Bool
  areaShape : Option (K × K)
  roiImage : Option (ℕ × ℕ × (ℕ → ℕ → P))
  areaImage : Option (ℕ × ℕ × (ℕ → ℕ → P))
  existing : Bool

/-- The coordinates and the origin which are used (L96-115): changed unless there is an area and a
new axis. Comparing an array with a tuple gives an array, whose truth value is ambiguous; floats
cannot be subtracted from integers in place. -/
def PositionArgs.used {P : Type} [DecidableEq K] (a : PositionArgs K P) :
    Except Err (List (K × K) × (K × K)) :=
  if a.existing = false ∧ a.areaShape.isSome then .ok (a.rc, a.roiOrigin)
  else if a.originArray then .error .valueError
  else if a.roiOrigin = (0, 0) then .ok (a.rc, (0, 0))
  else if a.rcInt ∧ a.originInt = false then .error .typeError
  else .ok (a.rc.map fun p => (p.1 - a.roiOrigin.1, p.2 - a.roiOrigin.2), (0, 0))

/-- The image of the area (L97-102), if there is an area: it is reversed and placed with row zero of
the axis at the bottom of the extent. -/
def PositionArgs.placedArea {P : Type} (a : PositionArgs K P) : Option (PlacedImage K P) :=
  match a.areaShape, a.areaImage with
  | some s, some im => some
    { rows := im.1, cols := im.2.1
      val := fun r c => im.2.2 (im.1 - 1 - r) c
      left := 0, right := s.2, bottom := 0, top := s.1 }
  | _, _ => none

/-- `plot_pattern_positions_in_map` (L84-138). -/
def plotPositions {P : Type} [DecidableEq K] (a : PositionArgs K P) :
    Except Err (PositionFigure K P) :=
  match a.used with
  | .error e => .error e
  | .ok (rc, origin) =>
    let markers := rc.mapIdx fun i p => ((p.2, p.1), i)
    if a.existing then .ok ⟨markers, none, none, none, none, none, true⟩
    else
      let lim := a.areaShape.getD a.roiShape
      .ok
        { markers := markers
          roi := a.areaShape.map fun _ => (origin.2, origin.1, a.roiShape.2, a.roiShape.1)
          roiImage := a.roiImage.map fun im =>
            { rows := im.1, cols := im.2.1, val := im.2.2
              left := origin.2, right := origin.2 + a.roiShape.2
              bottom := origin.1 + a.roiShape.1, top := origin.1 }
          areaImage := a.placedArea
          xlim := some (0, lim.2)
          ylim := some (0, lim.1)
          yDown := true }

end

/-! ### Projection centers -/

/-- A panel with points: labels of axes, points with the number they are coloured by, texts. -/
structure PointPanel (K : Type) where
  labels : List String
  points : List (List K)
  texts : List (List K × ℕ)

/-- A figure of projection centers. A map is its label and its value in row, column. Limits are for
the axes of the figure in three dimensions. -/
inductive PcFigure (K : Type) where
  | maps (l : List (String × (ℕ → ℕ → K)))
  | scatter (l : List (PointPanel K))
  | threeD (p : PointPanel K) (limits : List (K × K))

/-- `figure_kwargs`, as far as used: size and layout. -/
structure FigureKwargs (K : Type) where
  figsize : Option (K × K)
  layout : Option String
  deriving DecidableEq

/-- `PCx`, `PCy` and `PCz` of a projection center, in this order. -/
def PC.component {K : Type} (p : PC K) : ℕ → K
  | 0 => p.x
  | 1 => p.y
  | _ => p.z

/-- `labels[i]` (`_projection_center_plot.py` L160). -/
def pcLabel (i : ℕ) : String := ["PCx", "PCy", "PCz"].getD i ""

/-- A panel with the components `is` of projection centers. -/
def pcPanel {K : Type} (pcs : List (PC K)) (annotate : Bool) (is : List ℕ) : PointPanel K where
  labels := is.map pcLabel
  points := pcs.map fun p => is.map p.component
  texts := if annotate then pcs.mapIdx fun n p => (is.map p.component, n) else []

section
variable {K : Type} [Field K] [LinearOrder K]

/-- Lowest and highest value (`_projection_center_plot.py` L236-237), zero if there are none. -/
def pcExtent (pcs : List (PC K)) (i : ℕ) : K × K :=
  match pcs with
  | [] => (0, 0)
  | p :: l => (l.foldl (fun a q => min a (q.component i)) (p.component i),
      l.foldl (fun a q => max a (q.component i)) (p.component i))

/-- `plot_all_projection_centers` (`_projection_center_plot.py` L134-180) with `k` a third of the
longest side of the default figure: the figure, how many columns and rows of panels it has and its
settings. -/
def plotAllPcs (k : K) (nav : List ℕ) (pcs : List (PC K)) (mode orientation : String)
    (annotate : Bool) (kw : FigureKwargs K) : PcFigure K × (ℕ × ℕ) × FigureKwargs K :=
  let kw := { kw with layout := some (kw.layout.getD "tight") }
  let horizontal := orientation = "horizontal"
  let sized : FigureKwargs K := if mode = "3d" then kw
    else { kw with figsize := some (kw.figsize.getD
      (if horizontal then (6 * k, 2 * k) else (2 * k, 6 * k))) }
  let grid := if mode = "3d" then (1, 1) else if horizontal then (3, 1) else (1, 3)
  if mode = "map" then
    (.maps ((List.range 3).map fun i => (pcLabel i, fun r c =>
      ((pcs[r * nav.getD 1 0 + c]?).map (PC.component · i)).getD 0)), grid, sized)
  else if mode = "scatter" then
    (.scatter ([[0, 1], [0, 2], [2, 1]].map (pcPanel pcs annotate)), grid, sized)
  else
    (.threeD (pcPanel pcs annotate [0, 2, 1]) ([0, 2, 1].map (pcExtent pcs)), grid, sized)

/-- `EBSDDetector.plot_pc` (`_ebsd_detector.py` L2139-2174) for a detector with navigation shape
`nav`: what is drawn, and the caller's dictionary `figure_kwargs` afterwards, if one is passed. -/
def plotPc (k : K) (nav : List ℕ) (pcs : List (PC K)) (mode orientation : String)
    (annotate : Bool) (kw : Option (FigureKwargs K)) :
    Except Err ((PcFigure K × (ℕ × ℕ) × FigureKwargs K) × Option (FigureKwargs K)) :=
  if nav.prod = 1 then .error .valueError
  else if mode = "map" ∧ nav.length ≠ 2 then .error .valueError
  else if mode ∉ ["map", "scatter", "3d"] then .error .valueError
  else
    let fig := plotAllPcs k nav pcs mode orientation annotate (kw.getD ⟨none, none⟩)
    .ok (fig, kw.map fun _ => fig.2.2)

end
end Kp
