import Verif.Model.DetectorViews
import Verif.Props.SampleToDetector
import Mathlib.Tactic.Linarith
import Mathlib.Tactic.NormNum
import Mathlib.Tactic.FieldSimp

/-
C94: the drawings of a detector show where its screen is.

Specification.  A point of the microscope has coordinates `(X, Y, Z)` with `Z` up (against the
beam), `Y` towards the detector and `X` such that the frame is right-handed.  An untilted sample has
its x axis along `Y`, its y axis along `-X` and its z axis along `Z`, so the coordinates of a
microscope point in the detector frame are given by the sample-to-detector matrix (property C08)
without sample tilt.
-/

namespace Kp
noncomputable section

/-- The coordinates in the detector frame of a point of the microscope. -/
def inDetectorFrame (d : Detector ℝ) (q : V3 ℝ) : V3 ℝ :=
  (sampleToDetectorMatrix 0 (deg2radR d.tilt) (deg2radR d.azimuthal) (deg2radR d.twist)).apply
    ⟨q.y, -q.x, q.z⟩

/-- `q` is where the screen has its point at the fraction `u` of the width from the left and the
fraction `v` of the height from the top, for projection centre `p`. -/
def IsScreenPoint (d : Detector ℝ) (p : PC ℝ) (u v : ℝ) (q : V3 ℝ) : Prop :=
  inDetectorFrame d q = ⟨(u - p.x) * d.width, (p.y - v) * d.height, p.z * d.height⟩

/-- `q` is where the point `s` of the (tilted) sample frame is. -/
def IsSamplePoint (d : Detector ℝ) (s q : V3 ℝ) : Prop :=
  (sampleToDetectorMatrix (deg2radR d.sampleTilt) 0 0 0).apply s =
    (sampleToDetectorMatrix 0 0 0 0).apply ⟨q.y, -q.x, q.z⟩

/-- Shown in the side view: microscope `(Y, Z)` in mm. -/
def ShownFromSide (q : V3 ℝ) (a : ℝ × ℝ) : Prop := a = (q.y / 1000, q.z / 1000)

/-- Shown in the top view: microscope `(X, Y)` in mm. -/
def ShownFromTop (q : V3 ℝ) (a : ℝ × ℝ) : Prop := a = (q.x / 1000, q.y / 1000)

/-- An example detector with one projection centre. -/
def exView : Detector ℝ :=
  { nrows := 60, ncols := 80, pxSize := 70, binning := 8, tilt := 10, azimuthal := 5, twist := 0,
    sampleTilt := 70, nav := [1], pc := [⟨4 / 10, 2 / 10, 6 / 10⟩] }

theorem deg2radR_zero : deg2radR 0 = 0 := by simp [deg2radR]

/-- The frame in numbers. -/
theorem inDetectorFrame_noTwist (d : Detector ℝ) (htw : d.twist = 0) (q : V3 ℝ) :
    inDetectorFrame d q =
      let t := deg2radR d.tilt
      let w := deg2radR d.azimuthal
      let yd := Real.sin t * q.y + Real.cos t * q.z
      let zd := Real.cos t * q.y - Real.sin t * q.z
      ⟨-q.x * Real.cos w + zd * Real.sin w, yd, zd * Real.cos w + q.x * Real.sin w⟩ := by
  unfold inDetectorFrame
  rw [htw, deg2radR_zero, C08_azimuthal_is_to_the_right, C08_only_tilts]
  ext <;> simp only [M3.apply, V3.dot, sub_zero] <;> ring

theorem topViewAxes_eq (t w : ℝ) :
    topViewAxes t w =
      (⟨-Real.cos w, Real.cos t * Real.sin w, Real.sin t * Real.sin w⟩,
       ⟨0, -Real.sin t, Real.cos t⟩,
       ⟨Real.sin w, Real.cos t * Real.cos w, Real.sin t * Real.cos w⟩) := by
  have hx : normalizeV (⟨-1, 0, 0⟩ : V3 ℝ) = ⟨-1, 0, 0⟩ :=
    normalizeV_of_unit _ (by simp [V3.dot])
  have hcs := Real.sin_sq_add_cos_sq t
  have hy : normalizeV (⟨0, -Real.sin t, Real.cos t⟩ : V3 ℝ) = ⟨0, -Real.sin t, Real.cos t⟩ :=
    normalizeV_of_unit _ (by simp only [V3.dot]; linarith)
  have h1 : rotateAboutAxis ⟨0, 0, 1⟩ ⟨-1, 0, 0⟩ (-t) = ⟨0, -Real.sin t, Real.cos t⟩ := by
    simp [rotateAboutAxis, hx, rodriguesRow]
  have h2 : rotateAboutAxis ⟨0, 1, 0⟩ ⟨-1, 0, 0⟩ (-t) = ⟨0, Real.cos t, Real.sin t⟩ := by
    simp [rotateAboutAxis, hx, rodriguesRow]
  unfold topViewAxes
  simp only [h1, h2]
  refine Prod.ext ?_ (Prod.ext rfl ?_)
  · simp only [rotateAboutAxis, hy]
    ext <;> simp [rodriguesRow]
  · simp only [rotateAboutAxis, hy]
    ext <;> simp [rodriguesRow] <;> grind

/-- A microscope point is determined by its coordinates in the detector frame, so the screen has
each of its points in one place. -/
theorem C94_screen_point_unique (d : Detector ℝ) (p : PC ℝ) (u v : ℝ) (q r : V3 ℝ)
    (hq : IsScreenPoint d p u v q) (hr : IsScreenPoint d p u v r) : q = r := by
  have h : inDetectorFrame d q = inDetectorFrame d r := hq.trans hr.symm
  unfold inDetectorFrame at h
  set m := sampleToDetectorMatrix 0 (deg2radR d.tilt) (deg2radR d.azimuthal) (deg2radR d.twist)
  have hiso := C08_sample_to_detector_is_isometry 0 (deg2radR d.tilt) (deg2radR d.azimuthal)
    (deg2radR d.twist)
  have h0 := hiso ⟨q.y - r.y, -q.x - -r.x, q.z - r.z⟩ ⟨q.y - r.y, -q.x - -r.x, q.z - r.z⟩
  have hz : m.apply ⟨q.y - r.y, -q.x - -r.x, q.z - r.z⟩ = ⟨0, 0, 0⟩ := by
    have hx := congrArg V3.x h
    have hy := congrArg V3.y h
    have hz := congrArg V3.z h
    simp only [M3.apply, V3.dot] at hx hy hz ⊢
    ext <;> simp only <;> linarith
  have h0' : (m.apply ⟨q.y - r.y, -q.x - -r.x, q.z - r.z⟩).dot
      (m.apply ⟨q.y - r.y, -q.x - -r.x, q.z - r.z⟩) = _ := h0
  rw [hz] at h0'
  simp only [V3.dot] at h0'
  have ha : q.y - r.y = 0 := by
    nlinarith [sq_nonneg (q.y - r.y), sq_nonneg (-q.x - -r.x), sq_nonneg (q.z - r.z)]
  have hb : -q.x - -r.x = 0 := by
    nlinarith [sq_nonneg (q.y - r.y), sq_nonneg (-q.x - -r.x), sq_nonneg (q.z - r.z)]
  have hc : q.z - r.z = 0 := by
    nlinarith [sq_nonneg (q.y - r.y), sq_nonneg (-q.x - -r.x), sq_nonneg (q.z - r.z)]
  ext <;> linarith

/-- The mean of one projection centre. -/
theorem averagePc_single (d : Detector ℝ) (p : PC ℝ) (h : d.pc = [p]) : d.averagePc = p := by
  simp [Detector.averagePc, h]

/-- C94: for a detector with one projection centre and without twist, the top view is drawn, and the
corners of the drawn detector are the upper left, upper right, lower right and lower left corners of
the screen seen from above, whatever the tilt and azimuthal angles. -/
theorem C94_top_view_partial (d : Detector ℝ) (n : ℕ) (p : PC ℝ) (hnav : d.nav = [n])
    (hpc : d.pc = [p]) (htw : d.twist = 0) :
    ∃ (w : TopView) (a b c e : ℝ × ℝ), topView d = .ok w ∧ w.corners = [a, b, c, e] ∧
      (∃ q, IsScreenPoint d p 0 0 q ∧ ShownFromTop q a) ∧
      (∃ q, IsScreenPoint d p 1 0 q ∧ ShownFromTop q b) ∧
      (∃ q, IsScreenPoint d p 1 1 q ∧ ShownFromTop q c) ∧
      (∃ q, IsScreenPoint d p 0 1 q ∧ ShownFromTop q e) := by
  have havg := averagePc_single d p hpc
  have hcs := Real.sin_sq_add_cos_sq (deg2radR d.tilt)
  have hws := Real.sin_sq_add_cos_sq (deg2radR d.azimuthal)
  refine ⟨_, _, _, _, _, by
    simp only [topView, Detector.firstDistance, hnav, hpc, FirstDistance.times, List.map_cons,
      List.map_nil]
    rfl, rfl, ?_, ?_, ?_, ?_⟩
  all_goals
    simp only [topViewAxes_eq, havg]
    simp only [IsScreenPoint, inDetectorFrame_noTwist d htw, ShownFromTop]
    generalize Real.cos (deg2radR d.tilt) = ct at *
    generalize Real.sin (deg2radR d.tilt) = st at *
    generalize Real.cos (deg2radR d.azimuthal) = cw at *
    generalize Real.sin (deg2radR d.azimuthal) = sw at *
  · refine ⟨⟨p.z * d.height * sw + p.x * d.width * cw,
      p.z * d.height * (ct * cw) - p.x * d.width * (ct * sw) + p.y * d.height * st,
      -(p.z * d.height * (st * cw) - p.x * d.width * (st * sw) - p.y * d.height * ct)⟩, ?_, ?_⟩
    · ext <;> simp only <;> grind
    · ext <;> simp only <;> ring
  · refine ⟨⟨p.z * d.height * sw - (1 - p.x) * d.width * cw,
      p.z * d.height * (ct * cw) + (1 - p.x) * d.width * (ct * sw) + p.y * d.height * st,
      -(p.z * d.height * (st * cw) + (1 - p.x) * d.width * (st * sw) - p.y * d.height * ct)⟩,
      ?_, ?_⟩
    · ext <;> simp only <;> grind
    · ext <;> simp only <;> ring
  · refine ⟨⟨p.z * d.height * sw - (1 - p.x) * d.width * cw,
      p.z * d.height * (ct * cw) + (1 - p.x) * d.width * (ct * sw) - (1 - p.y) * d.height * st,
      -(p.z * d.height * (st * cw) + (1 - p.x) * d.width * (st * sw) + (1 - p.y) * d.height * ct)⟩,
      ?_, ?_⟩
    · ext <;> simp only <;> grind
    · ext <;> simp only <;> ring
  · refine ⟨⟨p.z * d.height * sw + p.x * d.width * cw,
      p.z * d.height * (ct * cw) - p.x * d.width * (ct * sw) - (1 - p.y) * d.height * st,
      -(p.z * d.height * (st * cw) - p.x * d.width * (st * sw) + (1 - p.y) * d.height * ct)⟩,
      ?_, ?_⟩
    · ext <;> simp only <;> grind
    · ext <;> simp only <;> ring

example : ∃ w : TopView, topView exView = .ok w :=
  let ⟨w, _, _, _, _, h, _⟩ := C94_top_view_partial exView 1 _ rfl rfl rfl
  ⟨w, h⟩

/-- C94: the projection centre in the top view is where it is, for every tilt, azimuthal and twist
angle. -/
theorem C94_top_view_pc (d : Detector ℝ) (n : ℕ) (p : PC ℝ) (hnav : d.nav = [n])
    (hpc : d.pc = [p]) :
    ∃ (w : TopView) (q : V3 ℝ), topView d = .ok w ∧ IsScreenPoint d p p.x p.y q ∧
      ShownFromTop q w.pc := by
  have hcs := Real.sin_sq_add_cos_sq (deg2radR d.tilt)
  have hws := Real.sin_sq_add_cos_sq (deg2radR d.azimuthal)
  have hd := inDetectorFrame_noTwist { d with twist := 0 } rfl
  have hq : inDetectorFrame { d with twist := 0 }
      ⟨p.z * d.height * Real.sin (deg2radR d.azimuthal),
       p.z * d.height * (Real.cos (deg2radR d.tilt) * Real.cos (deg2radR d.azimuthal)),
       -(p.z * d.height * (Real.sin (deg2radR d.tilt) * Real.cos (deg2radR d.azimuthal)))⟩ =
      ⟨0, 0, p.z * d.height⟩ := by
    rw [hd]
    clear hd
    simp only
    generalize Real.cos (deg2radR d.tilt) = ct at *
    generalize Real.sin (deg2radR d.tilt) = st at *
    generalize Real.cos (deg2radR d.azimuthal) = cw at *
    generalize Real.sin (deg2radR d.azimuthal) = sw at *
    ext <;> simp only <;> grind
  refine ⟨_, ⟨p.z * d.height * Real.sin (deg2radR d.azimuthal),
       p.z * d.height * (Real.cos (deg2radR d.tilt) * Real.cos (deg2radR d.azimuthal)),
       -(p.z * d.height * (Real.sin (deg2radR d.tilt) * Real.cos (deg2radR d.azimuthal)))⟩, by
    simp only [topView, Detector.firstDistance, hnav, hpc, FirstDistance.times, List.map_cons,
      List.map_nil]
    rfl, ?_, ?_⟩
  · unfold IsScreenPoint
    unfold inDetectorFrame at hq ⊢
    rw [C08_twist_is_counter_clockwise]
    simp only [deg2radR_zero] at hq
    rw [hq]
    simp
  · simp only [ShownFromTop, topViewAxes_eq]
    ext <;> simp only <;> ring

/-- C94: for a detector with one projection centre and without azimuthal angle and twist, the side
view is drawn, and the ends of the drawn detector are the upper and lower edge of the screen seen
from the side (every point of an edge, as `u` is any), and the projection centre is where it is. -/
theorem C94_side_view_partial (d : Detector ℝ) (n : ℕ) (p : PC ℝ) (hnav : d.nav = [n])
    (hpc : d.pc = [p]) (htw : d.twist = 0) (haz : d.azimuthal = 0) :
    ∃ w : SideView, sideView d = .ok w ∧
      (∀ u : ℝ, ∃ q, IsScreenPoint d p u 0 q ∧ ShownFromSide q w.screenTop) ∧
      (∀ u : ℝ, ∃ q, IsScreenPoint d p u 1 q ∧ ShownFromSide q w.screenBottom) ∧
      (∀ u : ℝ, ∃ q, IsScreenPoint d p u p.y q ∧ ShownFromSide q w.pc) := by
  have havg := averagePc_single d p hpc
  have hcs := Real.sin_sq_add_cos_sq (deg2radR d.tilt)
  refine ⟨_, by
    simp only [sideView, Detector.firstDistance, hnav, hpc, FirstDistance.times, List.map_cons,
      List.map_nil]
    rfl, ?_, ?_, ?_⟩
  all_goals
    intro u
    simp only [havg]
    simp only [IsScreenPoint, inDetectorFrame_noTwist d htw, ShownFromSide, haz, deg2radR_zero,
      Real.cos_zero, Real.sin_zero, sideTrans]
    generalize Real.cos (deg2radR d.tilt) = ct at *
    generalize Real.sin (deg2radR d.tilt) = st at *
  · refine ⟨⟨-(u - p.x) * d.width, p.z * d.height * ct + p.y * d.height * st,
      -(p.z * d.height * st - p.y * d.height * ct)⟩, ?_, ?_⟩
    · ext <;> simp only <;> grind
    · ext <;> simp only <;> ring
  · refine ⟨⟨-(u - p.x) * d.width, p.z * d.height * ct - (1 - p.y) * d.height * st,
      -(p.z * d.height * st + (1 - p.y) * d.height * ct)⟩, ?_, ?_⟩
    · ext <;> simp only <;> grind
    · ext <;> simp only <;> ring
  · refine ⟨⟨-(u - p.x) * d.width, p.z * d.height * ct, -(p.z * d.height * st)⟩, ?_, ?_⟩
    · ext <;> simp only <;> grind
    · ext <;> simp only <;> ring

example : ∃ w : SideView, sideView { exView with azimuthal := 0 } = .ok w :=
  let ⟨w, h, _⟩ := C94_side_view_partial { exView with azimuthal := 0 } 1 _ rfl rfl rfl rfl
  ⟨w, h⟩

/-- C94 is false of the side view when the detector has an azimuthal angle: the drawn projection
centre is not where it is, for every such detector with a screen at a distance. -/
theorem C94_side_azimuthal_violated (d : Detector ℝ) (n : ℕ) (p : PC ℝ) (hnav : d.nav = [n])
    (hpc : d.pc = [p]) (htw : d.twist = 0) (hz : p.z * d.height ≠ 0)
    (haz : Real.cos (deg2radR d.azimuthal) ≠ 1) :
    ∃ w : SideView, sideView d = .ok w ∧
      ¬ ∃ q, IsScreenPoint d p p.x p.y q ∧ ShownFromSide q w.pc := by
  have hcs := Real.sin_sq_add_cos_sq (deg2radR d.tilt)
  have hws := Real.sin_sq_add_cos_sq (deg2radR d.azimuthal)
  refine ⟨_, by
    simp only [sideView, Detector.firstDistance, hnav, hpc, FirstDistance.times, List.map_cons,
      List.map_nil]
    rfl, ?_⟩
  rintro ⟨q, hq, hs⟩
  simp only [IsScreenPoint, inDetectorFrame_noTwist d htw, ShownFromSide, sideTrans, sub_self,
    zero_mul] at hq hs
  have h1 := congrArg V3.x hq
  have h3 := congrArg V3.z hq
  have hy := congrArg Prod.fst hs
  have hz' := congrArg Prod.snd hs
  simp only at h1 h3 hy hz'
  generalize Real.cos (deg2radR d.tilt) = ct at *
  generalize Real.sin (deg2radR d.tilt) = st at *
  generalize Real.cos (deg2radR d.azimuthal) = cw at *
  generalize Real.sin (deg2radR d.azimuthal) = sw at *
  generalize p.z * d.height = L at *
  have hqy : q.y = L * ct := by linarith
  have hqz : q.z = -(L * st) := by linarith
  have hzd : ct * q.y - st * q.z = L := by rw [hqy, hqz]; linear_combination L * hcs
  rw [hzd] at h1 h3
  have h4 : L = L * cw := by linear_combination cw * h3 + sw * h1 - L * hws
  exact haz (by
    have : L * (cw - 1) = 0 := by linarith
    rcases mul_eq_zero.mp this with h | h
    · exact absurd h hz
    · linarith)

example : ∃ w : SideView, sideView { exView with azimuthal := 180 } = .ok w ∧
    ¬ ∃ q, IsScreenPoint { exView with azimuthal := 180 } ⟨4 / 10, 2 / 10, 6 / 10⟩ (4 / 10) (2 / 10) q
      ∧ ShownFromSide q w.pc := by
  refine C94_side_azimuthal_violated _ 1 ⟨4 / 10, 2 / 10, 6 / 10⟩ rfl rfl rfl ?_ ?_
  · simp [exView, Detector.height]
  · have : deg2radR 180 = Real.pi := by unfold deg2radR; ring
    simp [this]
    norm_num

/-- C94 is false of the top view when the detector is twisted: a screen turned upside down is drawn
with its projection centre at the same fraction as if it were not. -/
theorem C94_top_twist_violated :
    ∃ (d : Detector ℝ) (p : PC ℝ) (w : TopView), d.nav = [1] ∧ d.pc = [p] ∧
      topView d = .ok w ∧ ¬ ∃ q a, w.corners[0]? = some a ∧ IsScreenPoint d p 0 0 q ∧
        ShownFromTop q a := by
  refine ⟨{ exView with tilt := 0, azimuthal := 0, twist := 180 }, ⟨4 / 10, 2 / 10, 6 / 10⟩, _, rfl,
    rfl, by
    simp only [topView, Detector.firstDistance, exView, FirstDistance.times, List.map_cons,
      List.map_nil]
    rfl, ?_⟩
  rintro ⟨q, a, ha, hq, hs⟩
  simp only [topViewAxes_eq, deg2radR_zero, List.getElem?_cons_zero, Option.some.injEq] at ha
  subst ha
  have hpi : deg2radR 180 = Real.pi := by unfold deg2radR; ring
  simp only [IsScreenPoint, inDetectorFrame, hpi, deg2radR_zero] at hq
  rw [C08_twist_is_counter_clockwise, C08_only_tilts] at hq
  have hx := congrArg V3.x hq
  simp [M3.apply, V3.dot, exView, Detector.width] at hx
  have h1 := congrArg Prod.fst hs
  simp [Detector.width, Detector.averagePc] at h1
  norm_num at h1 hx
  linarith

/-- C94: the sample is drawn where it is in the side view: its drawn ends are at ±0.3 detector
heights along the tilted sample's x axis; and the beam comes from straight above to the origin. -/
theorem C94_side_sample (d : Detector ℝ) (w : SideView) (h : sideView d = .ok w) :
    (∃ q, IsSamplePoint d ⟨3 / 10 * d.height, 0, 0⟩ q ∧ ShownFromSide q w.sampleEnd) ∧
    (∃ q, IsSamplePoint d ⟨-(3 / 10 * d.height), 0, 0⟩ q ∧ ShownFromSide q w.sampleStart) ∧
    ShownFromSide ⟨0, 0, 0⟩ w.beamEnd ∧ ShownFromSide ⟨0, 0, d.height / 2⟩ w.beamStart := by
  unfold sideView at h
  split at h
  · simp at h
  · simp only at h
    split at h
    · simp only [Except.ok.injEq] at h
      subst h
      simp only [IsSamplePoint, C08_only_tilts, ShownFromSide, sideTrans, M3.apply, V3.dot]
      refine ⟨⟨⟨0, 3 / 10 * d.height * Real.cos (deg2radR d.sampleTilt),
        -(3 / 10 * d.height * Real.sin (deg2radR d.sampleTilt))⟩, ?_, ?_⟩,
        ⟨⟨0, -(3 / 10 * d.height * Real.cos (deg2radR d.sampleTilt)),
        3 / 10 * d.height * Real.sin (deg2radR d.sampleTilt)⟩, ?_, ?_⟩, ?_, ?_⟩
      · ext <;> simp <;> ring
      · ext <;> simp only <;> ring
      · ext <;> simp <;> ring
      · ext <;> simp only <;> ring
      · ext <;> simp
      · ext
        · simp
        · simp only; ring
    · simp at h
    · simp at h

/-- C94: the corners of the sample in the top view are the corners of a square of side 0.6 detector
heights on the tilted sample surface, seen from above. -/
theorem C94_top_sample (d : Detector ℝ) (w : TopView) (h : topView d = .ok w) :
    ∃ a b c e : ℝ × ℝ, w.sample = [a, b, c, e] ∧
      let s := 3 / 10 * d.height
      (∃ q, IsSamplePoint d ⟨-s, s, 0⟩ q ∧ ShownFromTop q a) ∧
      (∃ q, IsSamplePoint d ⟨-s, -s, 0⟩ q ∧ ShownFromTop q b) ∧
      (∃ q, IsSamplePoint d ⟨s, -s, 0⟩ q ∧ ShownFromTop q c) ∧
      (∃ q, IsSamplePoint d ⟨s, s, 0⟩ q ∧ ShownFromTop q e) := by
  unfold topView at h
  split at h
  · simp at h
  · simp only at h
    split at h
    · simp only [Except.ok.injEq] at h
      subst h
      refine ⟨_, _, _, _, rfl, ?_⟩
      simp only [IsSamplePoint, C08_only_tilts, ShownFromTop, M3.apply, V3.dot]
      set s := 3 / 10 * d.height with hs
      have hh : 6 / 10 * d.height * (1 / 2) = s := by rw [hs]; ring
      refine ⟨⟨⟨-s, -(s * Real.cos (deg2radR d.sampleTilt)),
          s * Real.sin (deg2radR d.sampleTilt)⟩, ?_, ?_⟩,
        ⟨⟨s, -(s * Real.cos (deg2radR d.sampleTilt)),
          s * Real.sin (deg2radR d.sampleTilt)⟩, ?_, ?_⟩,
        ⟨⟨s, s * Real.cos (deg2radR d.sampleTilt),
          -(s * Real.sin (deg2radR d.sampleTilt))⟩, ?_, ?_⟩,
        ⟨⟨-s, s * Real.cos (deg2radR d.sampleTilt),
          -(s * Real.sin (deg2radR d.sampleTilt))⟩, ?_, ?_⟩⟩
      all_goals first
        | (ext <;> simp only [hh] <;> ring1)
        | (ext <;> simp <;> ring1)
    · simp at h
    · simp at h

/-- C94: the corners of the sample are within the limits of both views, whatever the shape of the
detector. -/
theorem C94_sample_in_view (d : Detector ℝ) (hp : 0 < d.pxSize) (hb : 0 < d.binning) (hr : 0 < d.nrows) :
    (∀ w, topView d = .ok w → ∀ a ∈ w.sample, |a.1| < w.pad ∧ |a.2| < w.pad) ∧
    (∀ w, sideView d = .ok w → |w.sampleStart.1| < w.pad ∧ |w.sampleStart.2| < w.pad ∧
      |w.sampleEnd.1| < w.pad ∧ |w.sampleEnd.2| < w.pad) := by
  have hh : 0 < d.height := by
    have : (0 : ℝ) < d.nrows := by exact_mod_cast hr
    unfold Detector.height
    positivity
  have trig : ∀ a : ℝ, |a| ≤ 1 → |3 / 10 * d.height * a| ≤ 3 / 10 * d.height := fun a ha => by
    rw [abs_mul, abs_of_pos (by positivity : 0 < 3 / 10 * d.height)]
    nlinarith
  constructor
  · intro w h
    unfold topView at h
    split at h
    · simp at h
    · simp only at h
      split at h
      · simp only [Except.ok.injEq] at h
        subst h
        have hm : d.height ≤ max d.width d.height := le_max_right _ _
        have hc := abs_le.mp (trig _ (Real.abs_cos_le_one (deg2radR d.sampleTilt)))
        intro a ha
        simp only [List.map_cons, List.map_nil, List.mem_cons, List.not_mem_nil, or_false] at ha
        unfold axisLimitPad
        rcases ha with rfl | rfl | rfl | rfl <;> simp only [abs_lt] <;>
          refine ⟨⟨?_, ?_⟩, ?_, ?_⟩ <;> linarith [hc.1, hc.2]
      · simp at h
      · simp at h
  · intro w h
    unfold sideView at h
    split at h
    · simp at h
    · simp only at h
      split at h
      · simp only [Except.ok.injEq] at h
        subst h
        have hc := abs_le.mp (trig _ (Real.abs_cos_le_one (deg2radR d.sampleTilt)))
        have hs := abs_le.mp (trig _ (Real.abs_sin_le_one (deg2radR d.sampleTilt)))
        unfold axisLimitPad sideTrans
        simp only [abs_lt]
        refine ⟨⟨?_, ?_⟩, ⟨?_, ?_⟩, ⟨?_, ?_⟩, ?_, ?_⟩ <;> linarith [hc.1, hc.2, hs.1, hs.2]
      · simp at h
      · simp at h

/-- C94: in the top view the one that is nearer to the viewer at the projection centre is drawn on
top: with a detector tilt between 0 and 180 degrees and an azimuthal angle below 90 degrees the
projection centre is below the sample and the detector is drawn below it, and for the opposite tilt
it is above. -/
theorem C94_top_order (d : Detector ℝ) (n : ℕ) (p : PC ℝ) (hnav : d.nav = [n]) (hpc : d.pc = [p])
    (htw : d.twist = 0) (hL : 0 < p.z * d.height) (haz : |d.azimuthal| < 90)
    (h0 : d.tilt ≠ 0) (ht : |d.tilt| < 180) :
    ∃ (w : TopView) (q : V3 ℝ), topView d = .ok w ∧ IsScreenPoint d p p.x p.y q ∧
      (q.z < 0 ↔ w.detectorZorder < w.sampleZorder) ∧
      (0 < q.z ↔ w.sampleZorder < w.detectorZorder) := by
  have hcs := Real.sin_sq_add_cos_sq (deg2radR d.tilt)
  have hws := Real.sin_sq_add_cos_sq (deg2radR d.azimuthal)
  have hcw : 0 < Real.cos (deg2radR d.azimuthal) := by
    obtain ⟨h1, h2⟩ := abs_lt.mp haz
    apply Real.cos_pos_of_mem_Ioo
    constructor <;> unfold deg2radR <;> nlinarith [Real.pi_pos]
  obtain ⟨ht1, ht2⟩ := abs_lt.mp ht
  refine ⟨_, ⟨p.z * d.height * Real.sin (deg2radR d.azimuthal),
       p.z * d.height * (Real.cos (deg2radR d.tilt) * Real.cos (deg2radR d.azimuthal)),
       -(p.z * d.height * (Real.sin (deg2radR d.tilt) * Real.cos (deg2radR d.azimuthal)))⟩, by
    simp only [topView, Detector.firstDistance, hnav, hpc, FirstDistance.times, List.map_cons,
      List.map_nil]
    rfl, ?_, ?_⟩
  · simp only [IsScreenPoint, inDetectorFrame_noTwist d htw]
    generalize Real.cos (deg2radR d.tilt) = ct at *
    generalize Real.sin (deg2radR d.tilt) = st at *
    generalize Real.cos (deg2radR d.azimuthal) = cw at *
    generalize Real.sin (deg2radR d.azimuthal) = sw at *
    ext <;> simp only <;> grind
  · have hpos : 0 < p.z * d.height * Real.cos (deg2radR d.azimuthal) := mul_pos hL hcw
    rcases lt_or_gt_of_ne h0 with h | h
    · have hs : Real.sin (deg2radR d.tilt) < 0 :=
        Real.sin_neg_of_neg_of_neg_pi_lt (by unfold deg2radR; nlinarith [Real.pi_pos])
          (by unfold deg2radR; nlinarith [Real.pi_pos])
      simp only [topViewZorders, if_neg (not_lt.mpr h.le), if_pos h]
      constructor <;> constructor <;> intro h' <;> first | omega | nlinarith
    · have hs : 0 < Real.sin (deg2radR d.tilt) :=
        Real.sin_pos_of_pos_of_lt_pi (by unfold deg2radR; nlinarith [Real.pi_pos])
          (by unfold deg2radR; nlinarith [Real.pi_pos])
      simp only [topViewZorders, if_pos h]
      constructor <;> constructor <;> intro h' <;> first | omega | nlinarith

example : ∃ (w : TopView) (q : V3 ℝ), topView exView = .ok w ∧
    IsScreenPoint exView ⟨4 / 10, 2 / 10, 6 / 10⟩ (4 / 10) (2 / 10) q ∧
    (q.z < 0 ↔ w.detectorZorder < w.sampleZorder) ∧
    (0 < q.z ↔ w.sampleZorder < w.detectorZorder) :=
  C94_top_order exView 1 ⟨4 / 10, 2 / 10, 6 / 10⟩ rfl rfl rfl
    (by simp [exView, Detector.height]) (by simp only [exView]; norm_num)
    (by simp only [exView]; norm_num) (by simp only [exView]; norm_num)

/-! ### The distance to the screen -/

/-- C94: which detectors have a side view: those with a line of projection centres, and of those
with a map of them (rows of `nx`) only maps with one or two columns. -/
theorem C94_side_view_drawn (d : Detector ℝ) (p : PC ℝ) (ps : List (PC ℝ)) (hpc : d.pc = p :: ps) :
    (∀ n : ℕ, d.nav = [n] → ∃ w, sideView d = .ok w) ∧
    (∀ ny nx : ℕ, d.nav = [ny, nx] → nx ≤ d.pc.length →
      ((∃ w, sideView d = .ok w) ↔ nx = 1 ∨ nx = 2) ∧
      (¬ (nx = 1 ∨ nx = 2) → sideView d = .error .valueError)) := by
  constructor
  · intro n hn
    exact ⟨_, by
      simp only [sideView, Detector.firstDistance, hn, hpc, FirstDistance.times, List.map_cons,
        List.map_nil]
      rfl⟩
  · intro ny nx hn hle
    have hlen : (((p :: ps).take nx).map (fun q => q.z * d.height)).length = nx := by
      rw [List.length_map, List.length_take, ← hpc]
      omega
    have key : sideView d = .error .valueError ∨ ((nx = 1 ∨ nx = 2) ∧ ∃ w, sideView d = .ok w) := by
      simp only [sideView, Detector.firstDistance, hn, hpc]
      generalize ((p :: ps).take nx).map (fun q => q.z * d.height) = ls at hlen
      match ls, hlen with
      | [], hlen => left; simp [FirstDistance.times]
      | [a], hlen =>
        right
        exact ⟨Or.inl (by simpa using hlen.symm), by simp [FirstDistance.times]⟩
      | [a, b], hlen =>
        right
        exact ⟨Or.inr (by simpa using hlen.symm), by simp [FirstDistance.times]⟩
      | a :: b :: c :: t, hlen => left; simp [FirstDistance.times]
    have key2 : nx = 1 ∨ nx = 2 → ∃ w, sideView d = .ok w := by
      simp only [sideView, Detector.firstDistance, hn, hpc]
      generalize ((p :: ps).take nx).map (fun q => q.z * d.height) = ls at hlen
      rintro (h | h) <;> subst h
      · obtain ⟨a, rfl⟩ := List.length_eq_one_iff.mp hlen
        simp [FirstDistance.times]
      · obtain ⟨a, b, rfl⟩ := List.length_eq_two.mp hlen
        simp [FirstDistance.times]
    refine ⟨⟨?_, key2⟩, ?_⟩
    · rintro ⟨w, hw⟩
      rcases key with h | h
      · rw [h] at hw; simp at hw
      · exact h.1
    · intro h
      rcases key with h' | h'
      · exact h'
      · exact absurd h'.1 h

/-- C94: which detectors have a top view: those with a line of projection centres, and of those
with a map of them (rows of `nx`) only maps with one or three columns. -/
theorem C94_top_view_drawn (d : Detector ℝ) (p : PC ℝ) (ps : List (PC ℝ)) (hpc : d.pc = p :: ps) :
    (∀ n : ℕ, d.nav = [n] → ∃ w, topView d = .ok w) ∧
    (∀ ny nx : ℕ, d.nav = [ny, nx] → nx ≤ d.pc.length →
      ((∃ w, topView d = .ok w) ↔ nx = 1 ∨ nx = 3) ∧
      (¬ (nx = 1 ∨ nx = 3) → topView d = .error .valueError)) := by
  constructor
  · intro n hn
    exact ⟨_, by
      simp only [topView, Detector.firstDistance, hn, hpc, FirstDistance.times, List.map_cons,
        List.map_nil]
      rfl⟩
  · intro ny nx hn hle
    have hlen : (((p :: ps).take nx).map (fun q => q.z * d.height)).length = nx := by
      rw [List.length_map, List.length_take, ← hpc]
      omega
    have key : topView d = .error .valueError ∨ ((nx = 1 ∨ nx = 3) ∧ ∃ w, topView d = .ok w) := by
      simp only [topView, Detector.firstDistance, hn, hpc]
      generalize ((p :: ps).take nx).map (fun q => q.z * d.height) = ls at hlen
      match ls, hlen with
      | [], hlen => left; simp [FirstDistance.times]
      | [a], hlen =>
        right
        exact ⟨Or.inl (by simpa using hlen.symm), by simp [FirstDistance.times]⟩
      | [a, b], hlen => left; simp [FirstDistance.times]
      | [a, b, c], hlen =>
        right
        exact ⟨Or.inr (by simpa using hlen.symm), by simp [FirstDistance.times]⟩
      | a :: b :: c :: e :: t, hlen => left; simp [FirstDistance.times]
    have key2 : nx = 1 ∨ nx = 3 → ∃ w, topView d = .ok w := by
      simp only [topView, Detector.firstDistance, hn, hpc]
      generalize ((p :: ps).take nx).map (fun q => q.z * d.height) = ls at hlen
      rintro (h | h) <;> subst h
      · obtain ⟨a, rfl⟩ := List.length_eq_one_iff.mp hlen
        simp [FirstDistance.times]
      · obtain ⟨a, b, c, rfl⟩ := List.length_eq_three.mp hlen
        simp [FirstDistance.times]
    refine ⟨⟨?_, key2⟩, ?_⟩
    · rintro ⟨w, hw⟩
      rcases key with h | h
      · rw [h] at hw; simp at hw
      · exact h.1
    · intro h
      rcases key with h' | h'
      · exact h'
      · exact absurd h'.1 h

/-- C94: a detector with a map of projection centres of three columns has no side view, although
it has a top view; one with two columns has a side view but no top view. -/
theorem C94_map_of_pcs_violated (p : PC ℝ) :
    sideView { exView with nav := [1, 3], pc := [p, p, p] } = .error .valueError ∧
    (∃ w, topView { exView with nav := [1, 3], pc := [p, p, p] } = .ok w) ∧
    (∃ w, sideView { exView with nav := [1, 2], pc := [p, p] } = .ok w) ∧
    topView { exView with nav := [1, 2], pc := [p, p] } = .error .valueError := by
  refine ⟨?_, ?_, ?_, ?_⟩
  · simp [sideView, Detector.firstDistance, FirstDistance.times]
  · simp [topView, Detector.firstDistance, FirstDistance.times]
  · simp [sideView, Detector.firstDistance, FirstDistance.times]
  · simp [topView, Detector.firstDistance, FirstDistance.times]

/-- C94 is false of a detector with several projection centres: the distance to the screen in the
side view is the one of the first, while the screen is otherwise drawn for the average.  No
projection centre of the detector, and not the average, has the drawn position of both. -/
theorem C94_first_pc_violated :
    ∃ (d : Detector ℝ) (w : SideView), d.nav = [2] ∧ d.pc.length = 2 ∧ d.tilt = 0 ∧
      sideView d = .ok w ∧ w.pc.1 = (d.pc.head?.map (fun p => p.z * d.height)).getD 0 / 1000 ∧
      w.pc.1 ≠ d.averagePc.z * d.height / 1000 := by
  refine ⟨{ exView with tilt := 0, nav := [2],
                        pc := [⟨4 / 10, 2 / 10, 6 / 10⟩, ⟨4 / 10, 2 / 10, 8 / 10⟩] }, _, rfl, rfl, rfl,
    by
      simp only [sideView, Detector.firstDistance, exView, FirstDistance.times, List.map_cons,
        List.map_nil]
      rfl, ?_, ?_⟩
  · simp [sideTrans, deg2radR_zero, exView, Detector.height]
    norm_num
  · simp [sideTrans, deg2radR_zero, exView, Detector.height, Detector.averagePc]
    norm_num

/-! ### Axis limits -/

/-- C94: the drawn screen is within the axis limits of the side view when the distance and the
longer part of the screen beside the projection centre are not too large. -/
theorem C94_limits_partial (d : Detector ℝ) (n : ℕ) (p : PC ℝ) (hnav : d.nav = [n])
    (hpc : d.pc = [p]) (hh : 0 ≤ d.height)
    (h1 : p.z ^ 2 + p.y ^ 2 ≤ (11 / 10) ^ 2) (h2 : p.z ^ 2 + (1 - p.y) ^ 2 ≤ (11 / 10) ^ 2) :
    ∃ w : SideView, sideView d = .ok w ∧
      ∀ a ∈ [w.screenTop, w.screenBottom, w.pc], |a.1| ≤ w.pad ∧ |a.2| ≤ w.pad := by
  have havg := averagePc_single d p hpc
  have hcs := Real.sin_sq_add_cos_sq (deg2radR d.tilt)
  refine ⟨_, by
    simp only [sideView, Detector.firstDistance, hnav, hpc, FirstDistance.times, List.map_cons,
      List.map_nil]
    rfl, ?_⟩
  simp only [havg, sideTrans, axisLimitPad]
  generalize Real.cos (deg2radR d.tilt) = c at *
  generalize Real.sin (deg2radR d.tilt) = s at *
  generalize d.height = h at *
  have key : ∀ z y : ℝ, z ^ 2 + y ^ 2 ≤ (11 / 10) ^ 2 →
      |(z * h * c - y * h * s) * (1 / 1000)| ≤ 11 / 10 * (h * (1 / 1000)) ∧
      |(z * h * s + y * h * c) * (1 / 1000)| ≤ 11 / 10 * (h * (1 / 1000)) := by
    intro z y hzy
    have hb : ∀ t : ℝ, t ^ 2 ≤ (11 / 10) ^ 2 → |t * h * (1 / 1000)| ≤ 11 / 10 * (h * (1 / 1000)) := by
      intro t ht
      have : |t| ≤ 11 / 10 := abs_le_of_sq_le_sq ht (by norm_num)
      rw [abs_mul, abs_mul, abs_of_nonneg hh, abs_of_pos (show (0:ℝ) < 1 / 1000 by norm_num)]
      nlinarith
    constructor
    · have := hb (z * c - y * s) (by nlinarith [sq_nonneg (z * s + y * c)])
      rwa [show (z * c - y * s) * h = z * h * c - y * h * s by ring] at this
    · have := hb (z * s + y * c) (by nlinarith [sq_nonneg (z * c - y * s)])
      rwa [show (z * s + y * c) * h = z * h * s + y * h * c by ring] at this
  intro a ha
  simp only [List.mem_cons, List.not_mem_nil, or_false] at ha
  rcases ha with rfl | rfl | rfl
  · obtain ⟨k1, k2⟩ := key p.z (-p.y) (by nlinarith)
    constructor
    · convert k1 using 2; ring
    · rw [abs_neg]; convert k2 using 2; ring
  · obtain ⟨k1, k2⟩ := key p.z (1 - p.y) h2
    constructor
    · convert k1 using 2; ring
    · rw [abs_neg]; convert k2 using 2
  · obtain ⟨k1, k2⟩ := key p.z 0 (by nlinarith [sq_nonneg p.y])
    constructor
    · convert k1 using 2; ring
    · rw [abs_neg]; convert k2 using 2; ring

example : ∃ w : SideView, sideView exView = .ok w ∧
    ∀ a ∈ [w.screenTop, w.screenBottom, w.pc], |a.1| ≤ w.pad ∧ |a.2| ≤ w.pad :=
  C94_limits_partial exView 1 _ rfl rfl (by simp [exView, Detector.height])
    (by norm_num) (by norm_num)

/-- C94 is false of the axis limits, described as sufficient for the detector to move around without
moving outside the axis: a detector further away than 1.1 times its height is outside. -/
theorem C94_limits_violated :
    ∃ (d : Detector ℝ) (w : SideView), sideView d = .ok w ∧ w.pad < w.pc.1 ∧
      w.pad < w.screenTop.1 ∧ w.pad < w.screenBottom.1 := by
  refine ⟨{ exView with tilt := 0, pc := [⟨4 / 10, 2 / 10, 2⟩] }, _, by
    simp only [sideView, Detector.firstDistance, exView, FirstDistance.times, List.map_cons,
      List.map_nil]
    rfl, ?_, ?_, ?_⟩
  all_goals
    simp [sideTrans, deg2radR_zero, Detector.height, axisLimitPad]
    norm_num

/-! ### The detector plane -/

/-- C94: a pattern of another shape than the detector is rejected, and only that. -/
theorem C94_plane_pattern (d : Detector ℝ) (fmt : PlaneFormat) (zoom : ℝ)
    (pattern : Option (ℕ × ℕ)) (angles : List ℝ) :
    ((∃ w, planeView d fmt zoom pattern angles = .ok w) ↔
      ∀ s, pattern = some s → s = (d.nrows, d.ncols)) ∧
    (¬ (∀ s, pattern = some s → s = (d.nrows, d.ncols)) →
      planeView d fmt zoom pattern angles = .error .valueError) := by
  cases pattern with
  | none => cases fmt <;> simp [planeView]
  | some s =>
    by_cases h : s = (d.nrows, d.ncols)
    · cases fmt <;> simp [planeView, h]
    · simp [planeView, h]

/-- C94: with one projection centre, it is drawn at the fraction `pcx` of the drawn detector's width
from the left and `pcy` of its height from the top, in both formats. -/
theorem C94_plane_pc_partial (d : Detector ℝ) (fmt : PlaneFormat) (zoom : ℝ)
    (pattern : Option (ℕ × ℕ)) (angles : List ℝ) (p : PC ℝ) (hpc : d.pc = [p]) (hz : p.z ≠ 0)
    (w : PlaneView) (hw : planeView d fmt zoom pattern angles = .ok w) :
    w.pc.1 - w.xMin = p.x * (w.xMax - w.xMin) ∧ w.yMax - w.pc.2 = p.y * (w.yMax - w.yMin) := by
  have havg := averagePc_single d p hpc
  unfold planeView at hw
  split at hw
  · simp at hw
  · cases fmt
    · simp only [Except.ok.injEq] at hw
      subst hw
      simp only [havg]
      constructor <;> ring
    · simp only [Except.ok.injEq] at hw
      subst hw
      simp only [Detector.meanBound, hpc, Detector.xMin, Detector.xMax, Detector.yMin,
        Detector.yMax, List.map_cons, List.map_nil, List.sum_cons, List.sum_nil, List.length_cons,
        List.length_nil]
      constructor <;> field_simp <;> push_cast <;> ring

example : ∃ w, planeView exView .gnomonic 1 none [10, 20] = .ok w ∧
    w.pc.1 - w.xMin = 4 / 10 * (w.xMax - w.xMin) := by
  obtain ⟨w, hw⟩ := (C94_plane_pattern exView .gnomonic 1 none [10, 20]).1.mpr (by simp)
  exact ⟨w, hw, (C94_plane_pc_partial exView .gnomonic 1 none [10, 20] _ rfl (by norm_num) w hw).1⟩

/-- C94 is false of several projection centres at different distances: in gnomonic coordinates the
drawn one is not at the average's fraction of the drawn detector. -/
theorem C94_plane_average_violated :
    ∃ (d : Detector ℝ) (w : PlaneView), planeView d .gnomonic 1 none [] = .ok w ∧
      d.pc.length = 2 ∧ w.pc.1 - w.xMin ≠ d.averagePc.x * (w.xMax - w.xMin) := by
  refine ⟨{ exView with nav := [2], pc := [⟨4 / 10, 2 / 10, 1 / 2⟩, ⟨6 / 10, 2 / 10, 1⟩] }, _, by
    simp only [planeView, Option.any_none, Bool.false_eq_true, if_false]
    rfl, rfl, ?_⟩
  simp [Detector.meanBound, exView, Detector.xMin, Detector.xMax, Detector.averagePc,
    Detector.aspect]
  norm_num

/-- C94 is false of the projection centre in pixel coordinates: converting the gnomonic origin to
pixel coordinates with the detector's own conversion gives another column, for every detector of
more than one column whose projection centre is not on the left edge. -/
theorem C94_plane_pixel_pc_violated (d : Detector ℝ) (zoom : ℝ) (p : PC ℝ) (hpc : d.pc = [p])
    (hc : 1 < d.ncols) (hr : 0 < d.nrows) (hx : p.x ≠ 0) (hz : p.z ≠ 0) :
    ∃ w, planeView d .pixel zoom none [] = .ok w ∧
      (convertPair (d.gnToPix p) (0, 0)).2 = w.pc.1 + p.x ∧
      (convertPair (d.gnToPix p) (0, 0)).2 ≠ w.pc.1 := by
  have havg := averagePc_single d p hpc
  refine ⟨_, by
    simp only [planeView, Option.any_none, Bool.false_eq_true, if_false]
    rfl, ?_⟩
  have hc' : (2 : ℝ) ≤ d.ncols := by exact_mod_cast hc
  have hr' : (0 : ℝ) < d.nrows := by exact_mod_cast hr
  have hmax : max ((d.ncols : ℝ) - 1) 1 = (d.ncols : ℝ) - 1 := max_eq_left (by linarith)
  have ha : d.aspect ≠ 0 := by
    simp only [Detector.aspect]
    exact div_ne_zero (by linarith) (by linarith)
  have hdiff : d.xMax p - d.xMin p = d.aspect / p.z := by
    simp only [Detector.xMax, Detector.xMin]
    field_simp
    ring
  have hconv : (convertPair (d.gnToPix p) (0, 0)).2 = p.x * d.ncols := by
    simp only [convertPair, Detector.gnToPix, mul_zero, zero_add, hdiff]
    simp only [Detector.xMin]
    field_simp
    ring
  rw [hconv]
  simp only [havg, hmax]
  constructor
  · ring
  · intro h
    apply hx
    linarith

example : ∃ w, planeView exView .pixel 1 none [] = .ok w ∧
    (convertPair (exView.gnToPix ⟨4 / 10, 2 / 10, 6 / 10⟩) (0, 0)).2 = w.pc.1 + 4 / 10 ∧
    (convertPair (exView.gnToPix ⟨4 / 10, 2 / 10, 6 / 10⟩) (0, 0)).2 ≠ w.pc.1 :=
  C94_plane_pixel_pc_violated exView 1 _ rfl (by simp [exView]) (by simp [exView]) (by norm_num)
    (by norm_num)

/-- C94: zooming out (`zoom ≥ 1`) keeps the drawn detector within the axis limits when the
projection centre is on the detector (always in pixel coordinates). -/
theorem C94_zoom_partial (d : Detector ℝ) (fmt : PlaneFormat) (zoom : ℝ) (hzoom : 1 ≤ zoom)
    (pattern : Option (ℕ × ℕ)) (angles : List ℝ) (w : PlaneView)
    (hw : planeView d fmt zoom pattern angles = .ok w)
    (hon : fmt = .gnomonic → w.xMin ≤ 0 ∧ 0 ≤ w.xMax ∧ w.yMin ≤ 0 ∧ 0 ≤ w.yMax) :
    w.xlim.1 ≤ w.xMin ∧ w.xMax ≤ w.xlim.2 ∧
      min w.ylim.1 w.ylim.2 ≤ min w.yMin w.yMax ∧ max w.yMin w.yMax ≤ max w.ylim.1 w.ylim.2 := by
  unfold planeView at hw
  split at hw
  · simp at hw
  · cases fmt
    · simp only [Except.ok.injEq] at hw
      subst hw
      have h1 : (1 : ℝ) ≤ max ((d.ncols : ℝ) - 1) 1 := le_max_right _ _
      have h2 : (1 : ℝ) ≤ max ((d.nrows : ℝ) - 1) 1 := le_max_right _ _
      simp only [zero_mul]
      generalize max ((d.ncols : ℝ) - 1) 1 = mx at *
      generalize max ((d.nrows : ℝ) - 1) 1 = my at *
      refine ⟨le_refl _, by nlinarith, ?_, ?_⟩
      · rw [min_eq_right (by nlinarith), min_eq_right (by linarith)]
      · rw [max_eq_left (by nlinarith), max_eq_left (by nlinarith)]
        nlinarith
    · have hon' := hon rfl
      simp only [Except.ok.injEq] at hw
      subst hw
      simp only at hon' ⊢
      obtain ⟨a, b, c, e⟩ := hon'
      refine ⟨by nlinarith, by nlinarith, ?_, ?_⟩
      · exact le_min (le_trans (min_le_left _ _) (by nlinarith))
          (le_trans (min_le_left _ _) (by nlinarith))
      · exact max_le (le_trans (by nlinarith) (le_max_right _ _))
          (le_trans (by nlinarith) (le_max_right _ _))

/-- C94 is false of zooming out of a detector whose projection centre is beside it: all of the
detector is outside the axis limits. -/
theorem C94_zoom_violated :
    ∃ (d : Detector ℝ) (w : PlaneView), planeView d .gnomonic 4 none [] = .ok w ∧
      w.xMin < w.xMax ∧ w.xlim.1 < w.xlim.2 ∧ w.xlim.2 < w.xMin := by
  refine ⟨{ exView with pc := [⟨3 / 2, 1 / 2, 1 / 2⟩] }, _, by
    simp only [planeView, Option.any_none, Bool.false_eq_true, if_false]
    rfl, ?_, ?_, ?_⟩
  all_goals
    simp [Detector.meanBound, exView, Detector.xMin, Detector.xMax, Detector.aspect]
    norm_num

/-- C94: in gnomonic coordinates, a direction meets the detector plane on the circle drawn for the
angle `a` (between 0 and 90 degrees) exactly when it makes this angle with the direction to the
projection centre, where `(x, y, 1)` points to gnomonic `(x, y)`. -/
theorem C94_gnomonic_circles (d : Detector ℝ) (zoom : ℝ) (pattern : Option (ℕ × ℕ))
    (angles : List ℝ) (w : PlaneView) (hw : planeView d .gnomonic zoom pattern angles = .ok w)
    (i : ℕ) (a : ℝ) (hi : angles[i]? = some a) (h0 : 0 ≤ a) (h90 : a < 90) (x y : ℝ) :
    ∃ r, w.radii[i]? = some r ∧
      ((x - w.pc.1) ^ 2 + (y - w.pc.2) ^ 2 = r ^ 2 ↔
        Real.cos (a * Real.pi / 180) * Real.sqrt (x ^ 2 + y ^ 2 + 1) = 1) := by
  unfold planeView at hw
  split at hw
  · simp at hw
  · simp only [Except.ok.injEq] at hw
    subst hw
    refine ⟨Real.tan (deg2radR a), by simp [hi], ?_⟩
    have hang : a * Real.pi / 180 = deg2radR a := by unfold deg2radR; ring
    rw [hang]
    have hc : 0 < Real.cos (deg2radR a) := by
      apply Real.cos_pos_of_mem_Ioo
      constructor <;> unfold deg2radR <;> nlinarith [Real.pi_pos]
    have hcs := Real.sin_sq_add_cos_sq (deg2radR a)
    rw [Real.tan_eq_sin_div_cos, div_pow]
    simp only [sub_zero]
    have hs := Real.sq_sqrt (show (0 : ℝ) ≤ x ^ 2 + y ^ 2 + 1 by positivity)
    have hsn := Real.sqrt_nonneg (x ^ 2 + y ^ 2 + 1)
    generalize Real.sqrt (x ^ 2 + y ^ 2 + 1) = n at *
    generalize Real.cos (deg2radR a) = c at *
    generalize Real.sin (deg2radR a) = s at *
    rw [eq_div_iff (by positivity)]
    constructor
    · intro h
      have h2 : (c * n) ^ 2 = 1 := by
        rw [mul_pow, hs]; linarith
      have h3 : 0 ≤ c * n := mul_nonneg hc.le hsn
      nlinarith
    · intro h
      have h2 : c ^ 2 * n ^ 2 = 1 := by rw [← mul_pow, h]; norm_num
      rw [hs] at h2
      linarith

example : ∃ (w : PlaneView) (r : ℝ), planeView exView .gnomonic 1 none [45] = .ok w ∧
    w.radii[0]? = some r ∧ ((3 - w.pc.1) ^ 2 + (4 - w.pc.2) ^ 2 = r ^ 2 ↔
      Real.cos (45 * Real.pi / 180) * Real.sqrt (3 ^ 2 + 4 ^ 2 + 1) = 1) := by
  obtain ⟨w, hw⟩ := (C94_plane_pattern exView .gnomonic 1 none [45]).1.mpr (by simp)
  obtain ⟨r, h1, h2⟩ := C94_gnomonic_circles exView 1 none [45] w hw 0 45 rfl (by norm_num)
    (by norm_num) 3 4
  exact ⟨w, r, hw, h1, h2⟩

end
end Kp
