import Verif.Model.Detector
import Mathlib.Algebra.Order.Field.Basic

/-
Model of the interactive detector plot `EBSDDetectorPlotter`
(`src/kikuchipy/draw/_ebsd_detector_plotter.py` L60-251, L409-972) as a machine driven by widget
events, calls of its methods and changes of the caller's detector.

A panel of a figure is represented by the arguments it was last drawn with. What is drawn from
them is modelled in `Model/GeometricalSimulation.lean` and `Model/PatternSimulation.lean`.

Simplifications: no projection centre is NaN. Widgets are as documented by ipywidgets: a slider
keeps its value within its limits, and observers are called in order when a value changes. Master
patterns are suitable for projection. The matplotlib keyword arguments are only modelled in
`overlayKwargs`.
-/

namespace Kp

/-- The values which can be changed with sliders. -/
@[ext] structure GeoSettings (K : Type*) where
  sampleTilt : K
  tilt : K
  azimuthal : K
  twist : K
  pcx : K
  pcy : K
  pcz : K

/-- The names of the sliders of the detector (`_ebsd_detector_plotter.py` L828-845). -/
inductive DetSlider
  | sampleTilt | tilt | azimuthal | twist | pcx | pcy | pcz
  deriving DecidableEq

/-- An `ipywidgets.FloatSlider`. -/
@[ext] structure Slider (K : Type*) where
  value : K
  min : K
  max : K

variable {K R : Type} [Field K] [LinearOrder K]

/-- ipywidgets' validation of a new value: it is kept within the limits. -/
def Slider.set (s : Slider K) (v : K) : Slider K :=
  { s with value := Min.min (Max.max v s.min) s.max }

/-- `get_detector_value_range` (`_ebsd_detector_plotter.py` L60-69). -/
def getDetectorValueRange (value vmin vmax : K) : K × K :=
  let margin := Max.max ((vmax - vmin) * (1 / 10)) (1 / 10)
  let vmin' := if value < vmin then value - margin else vmin
  let vmax' := if value > vmax then value + margin else vmax
  (vmin', vmax')

/-- The usual limits of each slider (`_ebsd_detector_plotter.py` L77-200). -/
def DetSlider.limits : DetSlider → K × K
  | .sampleTilt => (0, 90)
  | .tilt => (-90, 90)
  | .azimuthal => (-10, 10)
  | .twist => (-10, 10)
  | .pcx => (0, 1)
  | .pcy => (-(1 / 2), 3 / 2)
  | .pcz => (1 / 5, 1)

/-- The average of the projection centres (`pc_average`, `_ebsd_detector.py` L465-479). -/
def Detector.averagePc (d : Detector K) : PC K :=
  let n := (d.pc.length : K)
  ⟨(d.pc.map (fun p => p.x)).sum / n, (d.pc.map (fun p => p.y)).sum / n,
    (d.pc.map (fun p => p.z)).sum / n⟩

/-- What the sliders and the views show of a detector. -/
def Detector.geo (d : Detector K) : GeoSettings K :=
  let p := d.averagePc
  ⟨d.sampleTilt, d.tilt, d.azimuthal, d.twist, p.x, p.y, p.z⟩

/-- The value of a slider's setting. -/
def GeoSettings.get (g : GeoSettings K) : DetSlider → K
  | .sampleTilt => g.sampleTilt
  | .tilt => g.tilt
  | .azimuthal => g.azimuthal
  | .twist => g.twist
  | .pcx => g.pcx
  | .pcy => g.pcy
  | .pcz => g.pcz

/-- A slider made from a detector (`get_*_slider`, `_ebsd_detector_plotter.py` L77-200). -/
def Detector.slider (d : Detector K) (name : DetSlider) : Slider K :=
  let v := d.geo.get name
  let lim := getDetectorValueRange v (DetSlider.limits name).1 (DetSlider.limits name).2
  ({ value := v, min := lim.1, max := lim.2 } : Slider K).set v

/-- `update_detector_from_sliders` (`_ebsd_detector_plotter.py` L900-905). -/
def Detector.setGeo (d : Detector K) (g : GeoSettings K) : Detector K :=
  { d with
    sampleTilt := g.sampleTilt
    tilt := g.tilt
    azimuthal := g.azimuthal
    twist := g.twist
    nav := [1]
    pc := [⟨g.pcx, g.pcy, g.pcz⟩] }

/-- The two kinds of overlays. -/
inductive OverlayKind
  | geometrical | masterPattern
  deriving DecidableEq

/-- An overlay: `source` stands for the reflectors or the master pattern and energy, `checked` is
the value of its check box, which is part of the overlay. -/
structure Overlay where
  kind : OverlayKind
  source : ℕ
  checked : Bool
  deriving DecidableEq

/-- A call of an overlay's `draw` which drew something. -/
structure OverlayDrawn (K R : Type) where
  kind : OverlayKind
  source : ℕ
  detector : Detector K
  rotation : R
  pixels : Bool

/-- The three panels of a figure. -/
structure Panels (K R : Type) where
  side : Detector K
  top : Detector K
  plane : Detector K
  showPc : Bool
  circles : Bool
  pixels : Bool
  overlays : List (OverlayDrawn K R)

/-- A figure returned from `show` with its widgets. `nObserved` is the number of overlays whose
check boxes the figure observes. -/
structure PlotFigure (K R : Type) where
  sliders : DetSlider → Slider K
  euler : Option (Fin 3 → Slider K)
  showPc : Bool
  circles : Bool
  pixels : Bool
  nObserved : ℕ
  panels : Panels K R

/-- A plotter: `given` is the caller's detector, `copy` the plotter's own, which is used unless
`inplace`. -/
structure Plotter (K R : Type) where
  given : Detector K
  copy : Detector K
  inplace : Bool
  rotation : Option R
  overlays : List Overlay
  figures : List (PlotFigure K R)

/-- The detector of the plotter. -/
def Plotter.det (p : Plotter K R) : Detector K := if p.inplace then p.given else p.copy

/-- Changes of the plotter's detector. -/
def Plotter.setDet (p : Plotter K R) (d : Detector K) : Plotter K R :=
  if p.inplace then { p with given := d } else { p with copy := d }

/-- `EBSDDetectorPlotter.__init__` (`_ebsd_detector_plotter.py` L663-676). -/
def Plotter.new (d : Detector K) (rotation : Option R) (inplace : Bool) : Plotter K R :=
  let p : Plotter K R :=
    { given := d, copy := d, inplace := inplace, rotation := rotation, overlays := [], figures := [] }
  p.setDet { p.det with nav := [1], pc := [p.det.averagePc] }

/-- orix' conversions between rotations and Euler angles in degrees. -/
structure EulerOps (K R : Type) where
  toEuler : R → Fin 3 → K
  fromEuler : (Fin 3 → K) → R

/-- What setting an overlay raises. -/
inductive PlotterErr
  | runtimeError | valueError
  deriving DecidableEq

/-- `_raise_if_no_rotation` and `_raise_if_has_overlay` (L961-972) followed by adding the overlay
(`set_geometrical_simulation`, `set_master_pattern` L701-758). -/
def Plotter.setOverlay (p : Plotter K R) (kind : OverlayKind) (source : ℕ) :
    Except PlotterErr (Plotter K R) :=
  if p.rotation.isNone then .error .runtimeError
  else if kind ∈ p.overlays.map (fun o => o.kind) then .error .valueError
  else .ok { p with overlays := p.overlays ++ [⟨kind, source, true⟩] }

/-- The values of the sliders of the detector. -/
def PlotFigure.values (f : PlotFigure K R) : GeoSettings K :=
  ⟨(f.sliders .sampleTilt).value, (f.sliders .tilt).value, (f.sliders .azimuthal).value,
    (f.sliders .twist).value, (f.sliders .pcx).value, (f.sliders .pcy).value,
    (f.sliders .pcz).value⟩

/-- `get_rotation` (`_ebsd_detector_plotter.py` L858-862). -/
def PlotFigure.rotation (ops : EulerOps K R) (rot : Option R) (f : PlotFigure K R) : Option R :=
  match f.euler with
  | some e => some (ops.fromEuler (fun i => (e i).value))
  | none => rot

/-- `draw` of the overlays (L523-543, L594-631 and L889-892): nothing if not checked. -/
def drawOverlays (overlays : List Overlay) (d : Detector K) (rot : Option R) (pixels : Bool) :
    List (OverlayDrawn K R) :=
  match rot with
  | none => []
  | some r => (overlays.filter (fun o => o.checked)).map
      (fun o => ⟨o.kind, o.source, d, r, pixels⟩)

/-- `redraw_all` (`_ebsd_detector_plotter.py` L864-898). -/
def PlotFigure.redraw (ops : EulerOps K R) (p : Plotter K R) (f : PlotFigure K R) :
    PlotFigure K R :=
  { f with
    panels :=
      { side := p.det
        top := p.det
        plane := p.det
        showPc := f.showPc
        circles := f.circles
        pixels := f.pixels
        overlays := drawOverlays p.overlays p.det (f.rotation ops p.rotation) f.pixels } }

/-- The limits of the sliders of the Euler angles (L203-251). -/
def eulerMax : Fin 3 → K := fun i => if i = 1 then 180 else 360

/-- `show` (`_ebsd_detector_plotter.py` L760-950): a new figure with its own widgets. -/
def Plotter.showFigure (ops : EulerOps K R) (p : Plotter K R) (pixels : Bool) : Plotter K R :=
  let euler : Option (Fin 3 → Slider K) :=
    match p.rotation with
    | some r =>
      if p.overlays = [] then none
      else some (fun i => ({ value := ops.toEuler r i, min := 0, max := eulerMax i } : Slider K).set
        (ops.toEuler r i))
    | none => none
  let f : PlotFigure K R :=
    { sliders := p.det.slider
      euler := euler
      showPc := true
      circles := false
      pixels := pixels
      nObserved := p.overlays.length
      panels := ⟨p.det, p.det, p.det, true, false, pixels, []⟩ }
  { p with figures := p.figures ++ [f.redraw ops p] }

/-- `on_slider_change` of figure `k` (`_ebsd_detector_plotter.py` L907-923). -/
def Plotter.onChange (ops : EulerOps K R) (p : Plotter K R) (k : ℕ) : Plotter K R :=
  match p.figures[k]? with
  | none => p
  | some f =>
    let p' := p.setDet (p.det.setGeo f.values)
    { p' with figures := p.figures.set k (f.redraw ops p') }

/-- A change of a widget of figure `k` to the widgets of `f`. -/
def Plotter.setFigure (p : Plotter K R) (k : ℕ) (f : PlotFigure K R) : Plotter K R :=
  { p with figures := p.figures.set k f }

/-- What can happen. -/
inductive PlotEvent (K : Type)
  /-- A slider of the detector of a figure is moved. -/
  | slider (k : ℕ) (name : DetSlider) (v : K)
  /-- A slider of an Euler angle of a figure is moved. -/
  | euler (k : ℕ) (i : Fin 3) (v : K)
  /-- The PC check box of a figure. -/
  | pcBox (k : ℕ) (b : Bool)
  /-- The check box of the gnomonic circles of a figure. -/
  | circlesBox (k : ℕ) (b : Bool)
  /-- The check box of an overlay. -/
  | overlayBox (j : ℕ) (b : Bool)
  /-- `set_geometrical_simulation` or `set_master_pattern`. -/
  | setOverlay (kind : OverlayKind) (source : ℕ)
  /-- `show`. -/
  | showFigure (pixels : Bool)
  /-- The caller changes their detector. -/
  | callerSets (d : Detector K)

/-- The new state; a call which raises leaves it as it is. Observers are called only if the value
of a widget changes (L926-929). -/
def Plotter.step (ops : EulerOps K R) (p : Plotter K R) : PlotEvent K → Plotter K R
  | .slider k name v =>
    match p.figures[k]? with
    | none => p
    | some f =>
      let s := (f.sliders name).set v
      if s.value = (f.sliders name).value then p
      else
        (p.setFigure k { f with sliders := Function.update f.sliders name s }).onChange ops k
  | .euler k i v =>
    match p.figures[k]? with
    | none => p
    | some f =>
      match f.euler with
      | none => p
      | some e =>
        let s := (e i).set v
        if s.value = (e i).value then p
        else (p.setFigure k { f with euler := some (Function.update e i s) }).onChange ops k
  | .pcBox k b =>
    match p.figures[k]? with
    | none => p
    | some f =>
      if b = f.showPc then p else (p.setFigure k { f with showPc := b }).onChange ops k
  | .circlesBox k b =>
    match p.figures[k]? with
    | none => p
    | some f =>
      if b = f.circles then p else (p.setFigure k { f with circles := b }).onChange ops k
  | .overlayBox j b =>
    match p.overlays[j]? with
    | none => p
    | some o =>
      if b = o.checked then p
      else
        let p' := { p with overlays := p.overlays.set j { o with checked := b } }
        ((List.range p.figures.length).filter
          (fun k => decide (j < (p.figures[k]?.elim 0 (fun f => f.nObserved))))).foldl
          (fun q k => q.onChange ops k) p'
  | .setOverlay kind source =>
    match p.setOverlay kind source with
    | .ok p' => p'
    | .error _ => p
  | .showFigure pixels => p.showFigure ops pixels
  | .callerSets d => { p with given := d }

/-- A sequence of events. -/
def Plotter.run (ops : EulerOps K R) (p : Plotter K R) (l : List (PlotEvent K)) : Plotter K R :=
  l.foldl (fun q e => q.step ops e) p

/-- `dict.setdefault` for the items of a dictionary of defaults. -/
def setDefaults (d : String → Option String) (defaults : List (String × String)) :
    String → Option String :=
  defaults.foldl (fun d kv => if (d kv.1).isNone then Function.update d kv.1 (some kv.2) else d) d

/-- The default arguments of bands and zone axes (`_ebsd_detector_plotter.py` L497, L504). -/
def bandsDefaults : List (String × String) := [("color", "r"), ("linewidth", "1"), ("zorder", "2")]

/-- See `bandsDefaults`. -/
def zoneAxesDefaults : List (String × String) := [("fc", "w"), ("ec", "k"), ("zorder", "3")]

/-- `GeometricalSimulationOverlay.__init__` (`_ebsd_detector_plotter.py` L487-508): `heap` has the
dictionaries of the program, `bands` and `zoneAxes` are references to those passed. -/
def overlayKwargs (heap : ℕ → String → Option String) (bands zoneAxes : ℕ) :
    ℕ → String → Option String :=
  let h := Function.update heap bands (setDefaults (heap bands) bandsDefaults)
  Function.update h zoneAxes (setDefaults (h zoneAxes) zoneAxesDefaults)

end Kp
