import Verif.Model.Rebin
import Verif.Model.Detector
import Verif.Model.DetectorPlotter
import Verif.Model.SampleToDetector
import Verif.Model.FitPc
import Verif.Model.Base

/-
Model of the drawings of a detector: the side view, the top view and the detector plane
(`draw/_ebsd_detector_plot.py`).  Only the coordinates handed to Matplotlib are modelled, as real
numbers.  Not modelled: colours, labels, legends, line widths, and how Matplotlib draws.
-/

namespace Kp
noncomputable section

/-- `detector.specimen_scintillator_distance[0]`: a number when the projection centres form a
line, and a row of numbers when they form a map. -/
inductive FirstDistance
  | number (l : ℝ)
  | row (ls : List ℝ)

/-- `detector.specimen_scintillator_distance[0]` (`_ebsd_detector.py` L722-726, used in
`_ebsd_detector_plot.py` L198 and L355): the first entry of an array in the navigation shape. -/
def Detector.firstDistance (d : Detector ℝ) : Except Err FirstDistance :=
  match d.nav, d.pc with
  | [_], p :: _ => .ok (.number (p.z * d.height))
  | [_, nx], p :: ps => .ok (.row (((p :: ps).take nx).map (fun q => q.z * d.height)))
  | _, _ => .error .indexError

/-- NumPy's product `L * v` of the distance and a vector: a number scales the vector, a row of the
vector's length is multiplied entry by entry, a row of length one scales, and other lengths raise
a `ValueError`. -/
def FirstDistance.times (l : FirstDistance) (v : List ℝ) : Except Err (List ℝ) :=
  match l with
  | .number a => .ok (v.map (a * ·))
  | .row ls =>
    if ls.length = v.length then .ok (List.zipWith (· * ·) ls v)
    else match ls with
      | [a] => .ok (v.map (a * ·))
      | _ => .error .valueError

/-- `get_axis_limit_pad` (`_ebsd_detector_plot.py` L513-519). -/
def axisLimitPad (width : ℝ) : ℝ := 11 / 10 * (width * (1 / 1000))

/-- `trans` in the side view (`_ebsd_detector_plot.py` L225-228). -/
def sideTrans (p : ℝ × ℝ) : ℝ × ℝ := (p.1 * (1 / 1000), -(p.2 * (1 / 1000)))

/-- What the side view draws: pairs (microscope Y, microscope Z) in mm, and the axis limits
`(pad, -pad)` and `(-pad, pad)`. -/
structure SideView where
  beamStart : ℝ × ℝ
  beamEnd : ℝ × ℝ
  sampleStart : ℝ × ℝ
  sampleEnd : ℝ × ℝ
  screenTop : ℝ × ℝ
  screenBottom : ℝ × ℝ
  pc : ℝ × ℝ
  pad : ℝ

/-- `plot_detector_sample_geometry_side_view` (`_ebsd_detector_plot.py` L177-302). -/
def sideView (d : Detector ℝ) : Except Err SideView :=
  match d.firstDistance with
  | .error e => .error e
  | .ok l =>
    let height := d.height
    let sigma := deg2radR d.sampleTilt
    let theta := deg2radR d.tilt
    let sx := 3 / 10 * height * Real.cos sigma
    let sy := 3 / 10 * height * Real.sin sigma
    match l.times [Real.cos theta, Real.sin theta] with
    | .ok [p0, p1] =>
      let y0 := -Real.sin theta
      let y1 := Real.cos theta
      let pcy := d.averagePc.y
      .ok
        { beamStart := sideTrans (0, -(1 / 2 * height))
          beamEnd := sideTrans (0, 0)
          sampleStart := sideTrans (-sx, -sy)
          sampleEnd := sideTrans (sx, sy)
          screenTop := sideTrans (p0 - pcy * height * y0, p1 - pcy * height * y1)
          screenBottom :=
            sideTrans (p0 + (1 - pcy) * height * y0, p1 + (1 - pcy) * height * y1)
          pc := sideTrans (p0, p1)
          pad := axisLimitPad height }
    | .ok _ => .error .valueError
    | .error e => .error e

/-- `rotate_about_axis` (`_ebsd_detector_plot.py` L319-328): the same Rodrigues formula as in
`_sample_to_detector_matrix`, about the normalised axis. -/
def rotateAboutAxis (v axis : V3 ℝ) (angle : ℝ) : V3 ℝ :=
  rodriguesRow (normalizeV axis) angle v

/-- What the top view draws: pairs (microscope X, microscope Y) in mm, the drawing order of sample
and detector, and the axis limits `(pad, -pad)` on both axes. -/
structure TopView where
  sample : List (ℝ × ℝ)
  corners : List (ℝ × ℝ)
  pc : ℝ × ℝ
  sampleZorder : ℕ
  detectorZorder : ℕ
  pad : ℝ

/-- The axes `x_d`, `y_d`, `z_d` of the top view (`_ebsd_detector_plot.py` L361-373). -/
def topViewAxes (theta azimuthal : ℝ) : V3 ℝ × V3 ℝ × V3 ℝ :=
  let x0 : V3 ℝ := ⟨-1, 0, 0⟩
  let y1 := rotateAboutAxis ⟨0, 0, 1⟩ x0 (-theta)
  let z1 := rotateAboutAxis ⟨0, 1, 0⟩ x0 (-theta)
  let x2 := rotateAboutAxis x0 y1 (-azimuthal)
  let z2 := rotateAboutAxis z1 y1 (-azimuthal)
  (x2, y1, z2)

/-- `sample_zorder` and `detector_zorder` (`_ebsd_detector_plot.py` L418-428). -/
def topViewZorders (tilt : ℝ) : ℕ × ℕ :=
  if 0 < tilt then (5, 4) else if tilt < 0 then (4, 5) else (4, 4)

/-- `plot_detector_sample_geometry_top_view` (`_ebsd_detector_plot.py` L331-510). -/
def topView (d : Detector ℝ) : Except Err TopView :=
  match d.firstDistance with
  | .error e => .error e
  | .ok l =>
    let width := d.width
    let height := d.height
    let sigma := deg2radR d.sampleTilt
    let axes := topViewAxes (deg2radR d.tilt) (deg2radR d.azimuthal)
    let x := axes.1
    let y := axes.2.1
    let z := axes.2.2
    match l.times [z.x, z.y, z.z] with
    | .ok [p0, p1, _] =>
      let half := 6 / 10 * height * (1 / 2)
      let halfY := half * Real.cos sigma
      let left := d.averagePc.x * width
      let right := (1 - d.averagePc.x) * width
      let top := d.averagePc.y * height
      let bottom := (1 - d.averagePc.y) * height
      let mm : ℝ × ℝ → ℝ × ℝ := fun p => (p.1 * (1 / 1000), p.2 * (1 / 1000))
      .ok
        { sample := [(-half, -halfY), (half, -halfY), (half, halfY), (-half, halfY)].map mm
          corners :=
            [ (p0 - left * x.x - top * y.x, p1 - left * x.y - top * y.y),
              (p0 + right * x.x - top * y.x, p1 + right * x.y - top * y.y),
              (p0 + right * x.x + bottom * y.x, p1 + right * x.y + bottom * y.y),
              (p0 - left * x.x + bottom * y.x, p1 - left * x.y + bottom * y.y) ].map mm
          pc := mm (p0, p1)
          sampleZorder := (topViewZorders d.tilt).1
          detectorZorder := (topViewZorders d.tilt).2
          pad := axisLimitPad (max width height) }
    | .ok _ => .error .valueError
    | .error e => .error e

/-! ### The detector plane -/

/-- `coords_fmt` of the detector plane. -/
inductive PlaneFormat
  | pixel
  | gnomonic
  deriving DecidableEq

/-- What the detector plane shows: the bounds of the detector (`xMin` left, `xMax` right, `yMin`
lower edge of the figure, `yMax` upper edge), the axis limits, the projection centre and the radii
of the gnomonic circles about it. -/
structure PlaneView where
  xMin : ℝ
  xMax : ℝ
  yMin : ℝ
  yMax : ℝ
  xlim : ℝ × ℝ
  ylim : ℝ × ℝ
  pc : ℝ × ℝ
  radii : List ℝ

/-- `_average_gnomonic_bounds` (`_ebsd_detector.py` L848-851), one bound: the mean over all
projection centres. -/
def Detector.meanBound (d : Detector ℝ) (f : PC ℝ → ℝ) : ℝ := (d.pc.map f).sum / d.pc.length

/-- `plot_ebsd_detector` (`_ebsd_detector_plot.py` L90-174).  `pattern` is the shape of the pattern
to show, if one is given, and `angles` the gnomonic angles in degrees (empty when no circles are
drawn). -/
def planeView (d : Detector ℝ) (fmt : PlaneFormat) (zoom : ℝ) (pattern : Option (ℕ × ℕ))
    (angles : List ℝ) : Except Err PlaneView :=
  if pattern.any (fun s => s ≠ (d.nrows, d.ncols)) then .error .valueError
  else
    let radii := angles.map (fun a => Real.tan (deg2radR a))
    match fmt with
    | .pixel =>
      let xMin : ℝ := 0
      let xMax : ℝ := max ((d.ncols : ℝ) - 1) 1
      let yMax : ℝ := 0
      let yMin : ℝ := max ((d.nrows : ℝ) - 1) 1
      .ok
        { xMin := xMin, xMax := xMax, yMin := yMin, yMax := yMax
          xlim := (xMin * zoom, xMax * zoom)
          ylim := (yMin * zoom, yMax * zoom)
          pc := (d.averagePc.x * max ((d.ncols : ℝ) - 1) 1,
            d.averagePc.y * max ((d.nrows : ℝ) - 1) 1)
          radii := radii }
    | .gnomonic =>
      let xMin := d.meanBound d.xMin
      let xMax := d.meanBound d.xMax
      let yMin := d.meanBound d.yMin
      let yMax := d.meanBound d.yMax
      .ok
        { xMin := xMin, xMax := xMax, yMin := yMin, yMax := yMax
          xlim := (xMin * zoom, xMax * zoom)
          ylim := (yMin * zoom, yMax * zoom)
          pc := (0, 0)
          radii := radii }

end
end Kp
