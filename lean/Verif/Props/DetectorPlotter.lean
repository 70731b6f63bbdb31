import Verif.Model.DetectorPlotter
import Verif.Props.PcConventions
import Mathlib.Data.Fin.VecNotation
import Mathlib.Data.Fintype.Basic
import Mathlib.Tactic.FinCases
import Mathlib.Tactic.Linarith
import Mathlib.Tactic.NormNum

/-
C93: the interactive detector plot, for every history of widget events, calls and changes of the
caller's detector.
-/

namespace Kp

variable {K R : Type} [Field K] [LinearOrder K] [IsStrictOrderedRing K]

/-! ### Specification -/

/-- A figure shows its own widgets: the three panels show the values of its sliders, its check
boxes and its coordinate format, and overlays are drawn for the detector shown and the rotation of
its sliders (`rot` is the plotter's own rotation, used without rotation sliders). -/
structure ShowsWidgets (ops : EulerOps K R) (rot : Option R) (f : PlotFigure K R) : Prop where
  side : f.panels.side.geo = f.values
  top : f.panels.top = f.panels.side
  plane : f.panels.plane = f.panels.side
  showPc : f.panels.showPc = f.showPc
  circles : f.panels.circles = f.circles
  pixels : f.panels.pixels = f.pixels
  overlays : ∀ o ∈ f.panels.overlays, o.detector = f.panels.plane ∧ o.pixels = f.pixels ∧
    some o.rotation = (f.euler.elim rot (fun e => some (ops.fromEuler (fun i => (e i).value))))

/-! ### Lemmas -/

/-- C93: the limits of a slider contain its value and the usual limits. -/
theorem C93_slider_range (value vmin vmax : K) :
    let r := getDetectorValueRange value vmin vmax
    r.1 ≤ value ∧ value ≤ r.2 ∧ r.1 ≤ vmin ∧ vmax ≤ r.2 := by
  have hm : (0 : K) < Max.max ((vmax - vmin) * (1 / 10)) (1 / 10) :=
    lt_max_of_lt_right (by norm_num)
  simp only [getDetectorValueRange]
  generalize Max.max ((vmax - vmin) * (1 / 10)) (1 / 10) = m at hm
  refine ⟨?_, ?_, ?_, ?_⟩ <;> split_ifs <;> linarith

theorem slider_value (d : Detector K) (name : DetSlider) : (d.slider name).value = d.geo.get name := by
  have h := C93_slider_range (d.geo.get name) (DetSlider.limits name).1 (DetSlider.limits name).2
  simp only [Detector.slider, Slider.set]
  rw [max_eq_left h.1, min_eq_left h.2.1]

omit [LinearOrder K] [IsStrictOrderedRing K] in
theorem geo_setGeo (d : Detector K) (g : GeoSettings K) : (d.setGeo g).geo = g := by
  simp [Detector.geo, Detector.setGeo, Detector.averagePc]

omit [Field K] [LinearOrder K] [IsStrictOrderedRing K] in
theorem det_setDet (p : Plotter K R) (d : Detector K) : (p.setDet d).det = d := by
  unfold Plotter.setDet Plotter.det
  cases p.inplace <;> simp

omit [Field K] [LinearOrder K] [IsStrictOrderedRing K] in
theorem setDet_fields (p : Plotter K R) (d : Detector K) :
    (p.setDet d).rotation = p.rotation ∧ (p.setDet d).overlays = p.overlays ∧
      (p.setDet d).figures = p.figures ∧ (p.setDet d).inplace = p.inplace := by
  unfold Plotter.setDet
  split_ifs <;> simp

omit [LinearOrder K] [IsStrictOrderedRing K] in
theorem redraw_shows (ops : EulerOps K R) (p : Plotter K R) (f : PlotFigure K R)
    (h : p.det.geo = f.values) : ShowsWidgets ops p.rotation (f.redraw ops p) := by
  refine ⟨h, rfl, rfl, rfl, rfl, rfl, ?_⟩
  intro o ho
  simp only [PlotFigure.redraw, drawOverlays, PlotFigure.rotation] at ho
  cases he : f.euler with
  | none =>
    simp only [he] at ho
    cases hr : p.rotation with
    | none => simp [hr] at ho
    | some r =>
      simp only [hr, List.mem_map] at ho
      obtain ⟨a, _, rfl⟩ := ho
      simp [PlotFigure.redraw, he]
  | some e =>
    simp only [he, List.mem_map] at ho
    obtain ⟨a, _, rfl⟩ := ho
    simp [PlotFigure.redraw, he]

omit [Field K] [LinearOrder K] [IsStrictOrderedRing K] in
theorem onChange_rotation (ops : EulerOps K R) (p : Plotter K R) (k : ℕ) :
    (p.onChange ops k).rotation = p.rotation ∧ (p.onChange ops k).overlays = p.overlays ∧
      (p.onChange ops k).inplace = p.inplace ∧
      (p.onChange ops k).figures.length = p.figures.length := by
  unfold Plotter.onChange
  cases h : p.figures[k]? with
  | none => simp
  | some f => simp [setDet_fields]

omit [LinearOrder K] [IsStrictOrderedRing K] in
theorem onChange_shows (ops : EulerOps K R) (p : Plotter K R) (k : ℕ)
    (h : ∀ (j : ℕ) (f : PlotFigure K R), j ≠ k → p.figures[j]? = some f → ShowsWidgets ops p.rotation f) :
    ∀ (j : ℕ) (f : PlotFigure K R), (p.onChange ops k).figures[j]? = some f → ShowsWidgets ops p.rotation f := by
  intro j f hj
  unfold Plotter.onChange at hj
  cases hk : p.figures[k]? with
  | none =>
    simp only [hk] at hj
    exact h j f (fun e => by rw [e, hk] at hj; cases hj) hj
  | some g =>
    simp only [hk] at hj
    by_cases e : j = k
    · subst e
      have hlt : j < p.figures.length := (List.getElem?_eq_some_iff.1 hk).1
      rw [List.getElem?_set_self hlt, Option.some.injEq] at hj
      subst hj
      have := redraw_shows ops (p.setDet (p.det.setGeo g.values)) g (by rw [det_setDet, geo_setGeo])
      rwa [(setDet_fields p _).1] at this
    · rw [List.getElem?_set_ne (Ne.symm e)] at hj
      exact h j f e hj

/-- All figures show their widgets. -/
def AllShow (ops : EulerOps K R) (p : Plotter K R) : Prop :=
  ∀ (j : ℕ) (f : PlotFigure K R), p.figures[j]? = some f → ShowsWidgets ops p.rotation f

omit [IsStrictOrderedRing K] in
theorem setFigure_onChange (ops : EulerOps K R) (p : Plotter K R) (k : ℕ) (f : PlotFigure K R)
    (h : AllShow ops p) : AllShow ops ((p.setFigure k f).onChange ops k) := by
  intro j g hj
  rw [(onChange_rotation ops _ k).1]
  refine onChange_shows ops _ k ?_ j g hj
  intro j' f' hne hj'
  simp only [Plotter.setFigure] at hj'
  rw [List.getElem?_set_ne (Ne.symm hne)] at hj'
  exact h j' f' hj'

omit [IsStrictOrderedRing K] in
theorem foldl_onChange (ops : EulerOps K R) (l : List ℕ) : ∀ (p : Plotter K R), AllShow ops p →
    AllShow ops (l.foldl (fun q k => q.onChange ops k) p) := by
  induction l with
  | nil => intro p h; exact h
  | cons k l ih =>
    intro p h
    refine ih _ ?_
    intro j f hj
    rw [(onChange_rotation ops p k).1]
    exact onChange_shows ops p k (fun j f _ hj => h j f hj) j f hj

theorem showFigure_shows (ops : EulerOps K R) (p : Plotter K R) (b : Bool) (h : AllShow ops p) :
    AllShow ops (p.showFigure ops b) := by
  intro j f hj
  simp only [Plotter.showFigure] at hj
  rw [List.getElem?_append] at hj
  by_cases hlt : j < p.figures.length
  · rw [if_pos hlt] at hj
    exact h j f hj
  · rw [if_neg hlt] at hj
    obtain rfl := List.mem_singleton.1 (List.mem_of_getElem? hj)
    refine redraw_shows ops p _ ?_
    simp only [PlotFigure.values, slider_value]
    rfl

theorem step_shows (ops : EulerOps K R) (p : Plotter K R) (e : PlotEvent K) (h : AllShow ops p) :
    AllShow ops (p.step ops e) := by
  cases e with
  | slider k name v =>
    simp only [Plotter.step]
    split
    · exact h
    · split_ifs
      · exact h
      · exact setFigure_onChange ops p k _ h
  | euler k i v =>
    simp only [Plotter.step]
    split
    · exact h
    · split
      · exact h
      · split_ifs
        · exact h
        · exact setFigure_onChange ops p k _ h
  | pcBox k b =>
    simp only [Plotter.step]
    split
    · exact h
    · split_ifs
      · exact h
      · exact setFigure_onChange ops p k _ h
  | circlesBox k b =>
    simp only [Plotter.step]
    split
    · exact h
    · split_ifs
      · exact h
      · exact setFigure_onChange ops p k _ h
  | overlayBox j b =>
    simp only [Plotter.step]
    split
    · exact h
    · split_ifs
      · exact h
      · exact foldl_onChange ops _ _ h
  | setOverlay kind source =>
    simp only [Plotter.step, Plotter.setOverlay]
    split_ifs <;> exact h
  | showFigure b => exact showFigure_shows ops p b h
  | callerSets d => exact h

omit [IsStrictOrderedRing K] in
theorem step_rotation (ops : EulerOps K R) (p : Plotter K R) (e : PlotEvent K) :
    (p.step ops e).rotation = p.rotation ∧ (p.step ops e).inplace = p.inplace := by
  have hf : ∀ (l : List ℕ) (q : Plotter K R),
      (l.foldl (fun q k => q.onChange ops k) q).rotation = q.rotation ∧
      (l.foldl (fun q k => q.onChange ops k) q).inplace = q.inplace := by
    intro l
    induction l with
    | nil => intro q; exact ⟨rfl, rfl⟩
    | cons k l ih =>
      intro q
      rw [List.foldl_cons]
      rw [(ih _).1, (ih _).2, (onChange_rotation ops q k).1, (onChange_rotation ops q k).2.2.1]
      exact ⟨rfl, rfl⟩
  have hs : ∀ k f, ((p.setFigure k f).onChange ops k).rotation = p.rotation ∧
      ((p.setFigure k f).onChange ops k).inplace = p.inplace := by
    intro k f
    rw [(onChange_rotation ops _ k).1, (onChange_rotation ops _ k).2.2.1]
    exact ⟨rfl, rfl⟩
  cases e with
  | slider k name v =>
    simp only [Plotter.step]
    split
    · exact ⟨rfl, rfl⟩
    · split_ifs
      · exact ⟨rfl, rfl⟩
      · exact hs _ _
  | euler k i v =>
    simp only [Plotter.step]
    split
    · exact ⟨rfl, rfl⟩
    · split
      · exact ⟨rfl, rfl⟩
      · split_ifs
        · exact ⟨rfl, rfl⟩
        · exact hs _ _
  | pcBox k b =>
    simp only [Plotter.step]
    split
    · exact ⟨rfl, rfl⟩
    · split_ifs
      · exact ⟨rfl, rfl⟩
      · exact hs _ _
  | circlesBox k b =>
    simp only [Plotter.step]
    split
    · exact ⟨rfl, rfl⟩
    · split_ifs
      · exact ⟨rfl, rfl⟩
      · exact hs _ _
  | overlayBox j b =>
    simp only [Plotter.step]
    split
    · exact ⟨rfl, rfl⟩
    · split_ifs
      · exact ⟨rfl, rfl⟩
      · exact hf _ _
  | setOverlay kind source =>
    simp only [Plotter.step, Plotter.setOverlay]
    split_ifs <;> exact ⟨rfl, rfl⟩
  | showFigure b => exact ⟨rfl, rfl⟩
  | callerSets d => exact ⟨rfl, rfl⟩

omit [IsStrictOrderedRing K] in
theorem run_rotation (ops : EulerOps K R) (l : List (PlotEvent K)) : ∀ p : Plotter K R,
    (p.run ops l).rotation = p.rotation ∧ (p.run ops l).inplace = p.inplace := by
  induction l with
  | nil => intro p; exact ⟨rfl, rfl⟩
  | cons e l ih =>
    intro p
    have h1 := ih (p.step ops e)
    have h2 := step_rotation ops p e
    exact ⟨h1.1.trans h2.1, h1.2.trans h2.2⟩

/-! ### C93 -/

/-- C93: after every history, every figure shows its own widgets. -/
theorem C93_figures_show_widgets (ops : EulerOps K R) (d : Detector K) (rot : Option R)
    (inplace : Bool) (l : List (PlotEvent K)) :
    ∀ f ∈ ((Plotter.new d rot inplace).run ops l).figures, ShowsWidgets ops rot f := by
  have key : ∀ (l : List (PlotEvent K)) (p : Plotter K R), AllShow ops p → AllShow ops (p.run ops l) := by
    intro l
    induction l with
    | nil => intro p h; exact h
    | cons e l ih => intro p h; exact ih _ (step_shows ops p e h)
  intro f hf
  obtain ⟨j, hj⟩ := List.mem_iff_getElem?.1 hf
  have h0 : AllShow ops (Plotter.new d rot inplace) := by
    intro j f hj
    unfold Plotter.new at hj
    rw [(setDet_fields _ _).2.2.1] at hj
    simp at hj
  have := key l _ h0 j f hj
  rw [(run_rotation ops l _).1] at this
  have hr : (Plotter.new d rot inplace).rotation = rot := by
    unfold Plotter.new
    rw [(setDet_fields _ _).1]
  rwa [hr] at this

/-- C93: moving a slider of figure `k` to a new value within its limits changes this setting of the
plotter's detector, gives it the values of all other sliders of this figure, and leaves the shape,
pixel size and binning. -/
theorem C93_slider_moves_detector (ops : EulerOps K R) (p : Plotter K R) (k : ℕ)
    (f : PlotFigure K R) (hk : p.figures[k]? = some f) (name : DetSlider) (v : K)
    (h1 : (f.sliders name).min ≤ v) (h2 : v ≤ (f.sliders name).max)
    (hne : v ≠ (f.sliders name).value) :
    let d := (p.step ops (.slider k name v)).det
    (∀ name', d.geo.get name' = if name' = name then v else (f.sliders name').value) ∧
    d.nrows = p.det.nrows ∧ d.ncols = p.det.ncols ∧ d.pxSize = p.det.pxSize ∧
    d.binning = p.det.binning ∧ d.nav = [1] := by
  have hlt : k < p.figures.length := (List.getElem?_eq_some_iff.1 hk).1
  have hset : ((f.sliders name).set v).value = v := by
    simp only [Slider.set]
    rw [max_eq_left h1, min_eq_left h2]
  have hd : (p.step ops (.slider k name v)).det = p.det.setGeo
      (PlotFigure.values { f with sliders := Function.update f.sliders name ((f.sliders name).set v) }) := by
    simp only [Plotter.step, hk]
    rw [if_neg (by rw [hset]; exact hne)]
    unfold Plotter.onChange
    simp only [Plotter.setFigure, List.getElem?_set_self hlt]
    have : ∀ (q : Plotter K R) (fs), ({ q with figures := fs } : Plotter K R).det = q.det := fun _ _ => rfl
    rw [this, det_setDet]
    rfl
  intro d
  refine ⟨?_, ?_, ?_, ?_, ?_, ?_⟩
  · intro name'
    rw [show d = _ from hd, geo_setGeo]
    by_cases e : name' = name
    · subst e
      rw [if_pos rfl]
      cases name' <;> simpa [GeoSettings.get, PlotFigure.values] using hset
    · rw [if_neg e]
      cases name' <;> cases name <;> first | (exact absurd rfl e) | rfl
  all_goals rw [show d = _ from hd]; rfl

/-- C93: creating a plotter in place replaces the projection centres of the given detector by
their average and changes nothing else; otherwise the given detector is not changed and the plotter
has a copy with the average. -/
theorem C93_created (d : Detector K) (rot : Option R) :
    (Plotter.new d rot true).given = { d with nav := [1], pc := [d.averagePc] } ∧
    (Plotter.new d rot false).given = d ∧
    (Plotter.new d rot false).det = { d with nav := [1], pc := [d.averagePc] } :=
  ⟨rfl, rfl, rfl⟩

omit [IsStrictOrderedRing K] in
/-- Not in place, the state apart from `given` does not depend on `given`, and `given` is only
changed by the caller. -/
theorem step_copy (ops : EulerOps K R) (p : Plotter K R) (hp : p.inplace = false) (g : Detector K)
    (e : PlotEvent K) :
    (∀ d, e ≠ .callerSets d) →
      (p.step ops e).given = p.given ∧
      ({ p with given := g } : Plotter K R).step ops e = { p.step ops e with given := g } := by
  intro he
  have hc : ∀ (q : Plotter K R) (k : ℕ), q.inplace = false →
      (q.onChange ops k).given = q.given ∧
      ({ q with given := g } : Plotter K R).onChange ops k = { q.onChange ops k with given := g } := by
    intro q k hq
    unfold Plotter.onChange
    cases hk : q.figures[k]? with
    | none => simp
    | some f => simp [Plotter.setDet, Plotter.det, hq, PlotFigure.redraw]
  have hf : ∀ (l : List ℕ) (q : Plotter K R), q.inplace = false →
      (l.foldl (fun q k => q.onChange ops k) q).given = q.given ∧
      l.foldl (fun q k => q.onChange ops k) ({ q with given := g } : Plotter K R) =
        { l.foldl (fun q k => q.onChange ops k) q with given := g } := by
    intro l
    induction l with
    | nil => intro q _; exact ⟨rfl, rfl⟩
    | cons k l ih =>
      intro q hq
      have h2 : (q.onChange ops k).inplace = false := by rw [(onChange_rotation ops q k).2.2.1, hq]
      simp only [List.foldl_cons]
      rw [(hc q k hq).2, (ih _ h2).1, (hc q k hq).1]
      exact ⟨rfl, (ih _ h2).2⟩
  have hs : ∀ k f, ((p.setFigure k f).onChange ops k).given = p.given ∧
      (({ p with given := g } : Plotter K R).setFigure k f).onChange ops k =
        { (p.setFigure k f).onChange ops k with given := g } := fun k f =>
    hc (p.setFigure k f) k hp
  cases e with
  | slider k name v =>
    simp only [Plotter.step]
    cases hk : p.figures[k]? with
    | none => simp
    | some f =>
      simp only
      split_ifs
      · exact ⟨rfl, rfl⟩
      · exact hs _ _
  | euler k i v =>
    simp only [Plotter.step]
    cases hk : p.figures[k]? with
    | none => simp
    | some f =>
      simp only
      cases hk : f.euler with
      | none => simp
      | some e =>
        simp only
        split_ifs
        · exact ⟨rfl, rfl⟩
        · exact hs _ _
  | pcBox k b =>
    simp only [Plotter.step]
    cases hk : p.figures[k]? with
    | none => simp
    | some f =>
      simp only
      split_ifs
      · exact ⟨rfl, rfl⟩
      · exact hs _ _
  | circlesBox k b =>
    simp only [Plotter.step]
    cases hk : p.figures[k]? with
    | none => simp
    | some f =>
      simp only
      split_ifs
      · exact ⟨rfl, rfl⟩
      · exact hs _ _
  | overlayBox j b =>
    simp only [Plotter.step]
    cases hk : p.overlays[j]? with
    | none => simp
    | some o =>
      simp only
      split_ifs
      · exact ⟨rfl, rfl⟩
      · exact hf _ _ hp
  | setOverlay kind source =>
    simp only [Plotter.step, Plotter.setOverlay]
    split_ifs <;> exact ⟨rfl, rfl⟩
  | showFigure b =>
    simp [Plotter.step, Plotter.showFigure, Plotter.det, hp, PlotFigure.redraw]
  | callerSets d => exact absurd rfl (he d)

/-- The caller's own changes of their detector. -/
def lastCallerSet (d : Detector K) (l : List (PlotEvent K)) : Detector K :=
  l.foldl (fun d e => match e with | .callerSets d' => d' | _ => d) d

/-- Whether an event is not a change by the caller of their detector. -/
def PlotEvent.isPlotEvent : PlotEvent K → Bool
  | .callerSets _ => false
  | _ => true

/-- C93: not in place, no history of the plot changes the given detector, and no change of the
given detector changes the plot: figures, overlays and the plotter's detector are those of the
history without the caller's changes. -/
theorem C93_copy_is_independent (ops : EulerOps K R) (d : Detector K) (rot : Option R)
    (l : List (PlotEvent K)) :
    ((Plotter.new d rot false).run ops l).given = lastCallerSet d l ∧
    ((Plotter.new d rot false).run ops l).figures =
      ((Plotter.new d rot false).run ops (l.filter PlotEvent.isPlotEvent)).figures ∧
    ((Plotter.new d rot false).run ops l).overlays =
      ((Plotter.new d rot false).run ops (l.filter PlotEvent.isPlotEvent)).overlays ∧
    ((Plotter.new d rot false).run ops l).det =
      ((Plotter.new d rot false).run ops (l.filter PlotEvent.isPlotEvent)).det := by
  have key : ∀ (l : List (PlotEvent K)) (p : Plotter K R), p.inplace = false → ∀ g,
      (p.run ops l).given = lastCallerSet p.given l ∧
      { p.run ops l with given := g } =
        ({ p with given := g } : Plotter K R).run ops (l.filter PlotEvent.isPlotEvent) := by
    intro l
    induction l with
    | nil => intro p _ g; exact ⟨rfl, rfl⟩
    | cons e l ih =>
      intro p hp g
      have hp' : (p.step ops e).inplace = false := by rw [(step_rotation ops p e).2, hp]
      have h := ih (p.step ops e) hp' g
      by_cases he : e.isPlotEvent = true
      · have hne : ∀ d, e ≠ .callerSets d := by
          rintro d rfl
          simp [PlotEvent.isPlotEvent] at he
        have hst := step_copy ops p hp g e hne
        constructor
        · show ((p.step ops e).run ops l).given = lastCallerSet p.given (e :: l)
          rw [h.1, hst.1]
          cases e <;> first | rfl | simp [PlotEvent.isPlotEvent] at he
        · show ({ (p.step ops e).run ops l with given := g } : Plotter K R) = _
          rw [h.2, List.filter_cons_of_pos he, ← hst.2]
          rfl
      · cases e with
        | callerSets d' =>
          refine ⟨h.1, ?_⟩
          show ({ (p.step ops (.callerSets d')).run ops l with given := g } : Plotter K R) = _
          rw [h.2, List.filter_cons_of_neg he]
          rfl
        | _ => simp [PlotEvent.isPlotEvent] at he
  have h := key l (Plotter.new d rot false) rfl d
  have hd : ({ Plotter.new d rot false with given := d } : Plotter K R) = Plotter.new d rot false := rfl
  rw [hd] at h
  have hip := (run_rotation ops l (Plotter.new d rot false)).2
  have hip' : ((Plotter.new d rot false).run ops l).inplace = false := by rw [hip]; rfl
  refine ⟨h.1, ?_, ?_, ?_⟩
  · rw [← h.2]
  · rw [← h.2]
  · rw [← h.2]
    simp [Plotter.det, hip']

/-- C93: at most one overlay of each kind and none without a rotation, after every history;
setting an overlay fails exactly otherwise. -/
theorem C93_overlays (ops : EulerOps K R) (d : Detector K) (rot : Option R) (inplace : Bool)
    (l : List (PlotEvent K)) :
    let p := (Plotter.new d rot inplace).run ops l
    (p.overlays.map (fun o => o.kind)).Nodup ∧ (rot = none → p.overlays = []) ∧
    ∀ kind source,
      p.setOverlay kind source =
        if rot = none then .error .runtimeError
        else if ∃ o ∈ p.overlays, o.kind = kind then .error .valueError
        else .ok { p with overlays := p.overlays ++ [⟨kind, source, true⟩] } := by
  have hov : ∀ (l : List ℕ) (q : Plotter K R),
      (l.foldl (fun q k => q.onChange ops k) q).overlays = q.overlays := by
    intro l
    induction l with
    | nil => intro q; rfl
    | cons k l ih =>
      intro q
      rw [List.foldl_cons, ih, (onChange_rotation ops q k).2.1]
  have hsf : ∀ (p : Plotter K R) k f, ((p.setFigure k f).onChange ops k).overlays = p.overlays := by
    intro p k f
    rw [(onChange_rotation ops _ k).2.1]
    rfl
  have hstep : ∀ (p : Plotter K R) (e : PlotEvent K),
      (p.step ops e).overlays.map (fun o => o.kind) = p.overlays.map (fun o => o.kind) ∨
      (p.rotation ≠ none ∧ ∃ kind, kind ∉ p.overlays.map (fun o => o.kind) ∧
        (p.step ops e).overlays.map (fun o => o.kind) = p.overlays.map (fun o => o.kind) ++ [kind]) := by
    intro p e
    cases e with
    | slider k name v =>
      left
      simp only [Plotter.step]
      split
      · rfl
      · split_ifs
        · rfl
        · rw [hsf]
    | euler k i v =>
      left
      simp only [Plotter.step]
      split
      · rfl
      · split
        · rfl
        · split_ifs
          · rfl
          · rw [hsf]
    | pcBox k b =>
      left
      simp only [Plotter.step]
      split
      · rfl
      · split_ifs
        · rfl
        · rw [hsf]
    | circlesBox k b =>
      left
      simp only [Plotter.step]
      split
      · rfl
      · split_ifs
        · rfl
        · rw [hsf]
    | overlayBox j b =>
      left
      simp only [Plotter.step]
      cases hj : p.overlays[j]? with
      | none => rfl
      | some o =>
        simp only
        split_ifs
        · rfl
        · rw [hov, List.map_set]
          refine List.ext_getElem? fun i => ?_
          by_cases e : j = i
          · subst e
            have hlt := (List.getElem?_eq_some_iff.1 hj).1
            rw [List.getElem?_set_self (by simpa using hlt), List.getElem?_map, hj]
            rfl
          · rw [List.getElem?_set_ne e]
    | setOverlay kind source =>
      simp only [Plotter.step, Plotter.setOverlay]
      by_cases h1 : p.rotation.isNone = true
      · left; simp only [if_pos h1]
      · by_cases h2 : kind ∈ p.overlays.map (fun o => o.kind)
        · left; simp only [if_neg h1, if_pos h2]
        · right
          refine ⟨by simpa using h1, kind, h2, ?_⟩
          simp only [if_neg h1, if_neg h2, List.map_append, List.map_cons, List.map_nil]
    | showFigure b => left; rfl
    | callerSets d => left; rfl
  have hinv : ∀ (l : List (PlotEvent K)) (p : Plotter K R),
      (p.overlays.map (fun o => o.kind)).Nodup →
      (p.rotation = none → p.overlays.map (fun o => o.kind) = []) →
      ((p.run ops l).overlays.map (fun o => o.kind)).Nodup ∧
      (p.rotation = none → (p.run ops l).overlays.map (fun o => o.kind) = []) := by
    intro l
    induction l with
    | nil => intro p h1 h2; exact ⟨h1, h2⟩
    | cons e l ih =>
      intro p h1 h2
      have hr := (step_rotation ops p e).1
      have := ih (p.step ops e) ?_ ?_
      · rw [hr] at this; exact this
      · rcases hstep p e with h | ⟨_, kind, hk, h⟩
        · rw [h]; exact h1
        · rw [h]
          exact List.nodup_append.2 ⟨h1, by simp, fun a ha b hb => by
            rw [List.mem_singleton] at hb
            rintro rfl
            exact hk (hb ▸ ha)⟩
      · rw [hr]
        intro h0
        rcases hstep p e with h | ⟨hn, _⟩
        · rw [h]; exact h2 h0
        · exact absurd h0 hn
  have hrot : (Plotter.new d rot inplace).rotation = rot := by
    unfold Plotter.new
    rw [(setDet_fields _ _).1]
  have hnil : (Plotter.new d rot inplace).overlays = [] := by
    unfold Plotter.new
    rw [(setDet_fields _ _).2.1]
  intro p
  have hp := hinv l (Plotter.new d rot inplace) (by simp [hnil]) (by simp [hnil])
  have hpr : p.rotation = rot := by rw [(run_rotation ops l _).1, hrot]
  refine ⟨hp.1, fun h => ?_, ?_⟩
  · have := hp.2 (by rw [hrot, h])
    exact List.map_eq_nil_iff.1 this
  · intro kind source
    unfold Plotter.setOverlay
    rw [hpr]
    by_cases h1 : rot = none
    · simp [h1]
    · have h1' : ¬ rot.isNone = true := by simpa using h1
      simp only [if_neg h1, if_neg h1']
      by_cases h2 : ∃ o ∈ p.overlays, o.kind = kind
      · rw [if_pos h2, if_pos (List.mem_map.2 h2)]
      · rw [if_neg h2, if_neg (fun h => h2 (List.mem_map.1 h))]

/-! ### Overlays drawn -/

/-- Specification: a figure shows exactly the overlays of `ov` whose check boxes are checked. -/
def ShowsOverlays (ov : List Overlay) (f : PlotFigure K R) : Prop :=
  f.panels.overlays.map (fun o => (o.kind, o.source)) =
    (ov.filter (fun o => o.checked)).map (fun o => (o.kind, o.source))

omit [Field K] [LinearOrder K] [IsStrictOrderedRing K] in
theorem redraw_showsOverlays (ops : EulerOps K R) (p : Plotter K R) (f : PlotFigure K R)
    (hr : p.rotation ≠ none) : ShowsOverlays p.overlays (f.redraw ops p) := by
  obtain ⟨r, hr⟩ := Option.ne_none_iff_exists'.1 hr
  unfold ShowsOverlays PlotFigure.redraw PlotFigure.rotation drawOverlays
  cases f.euler <;> simp [hr, Function.comp_def]

/-- All figures observe all overlays. -/
def AllObserve (p : Plotter K R) : Prop :=
  ∀ f ∈ p.figures, f.nObserved = p.overlays.length

omit [Field K] [LinearOrder K] [IsStrictOrderedRing K] in
theorem onChange_get (ops : EulerOps K R) (p : Plotter K R) (k j : ℕ) (f : PlotFigure K R)
    (hr : p.rotation ≠ none) (hj : (p.onChange ops k).figures[j]? = some f) :
    (j = k ∧ ShowsOverlays p.overlays f ∧ ∃ g, p.figures[j]? = some g ∧ g.nObserved = f.nObserved) ∨
    (j ≠ k ∧ p.figures[j]? = some f) := by
  unfold Plotter.onChange at hj
  cases hk : p.figures[k]? with
  | none =>
    simp only [hk] at hj
    right
    exact ⟨fun e => (by rw [e, hk] at hj; cases hj), hj⟩
  | some g =>
    simp only [hk] at hj
    by_cases e : j = k
    · subst e
      have hlt : j < p.figures.length := (List.getElem?_eq_some_iff.1 hk).1
      rw [List.getElem?_set_self hlt, Option.some.injEq] at hj
      subst hj
      left
      refine ⟨rfl, ?_, g, hk, rfl⟩
      have := redraw_showsOverlays ops (p.setDet (p.det.setGeo g.values)) g
        (by rw [(setDet_fields p _).1]; exact hr)
      rwa [(setDet_fields p _).2.1] at this
    · rw [List.getElem?_set_ne (Ne.symm e)] at hj
      exact Or.inr ⟨e, hj⟩

omit [Field K] [LinearOrder K] [IsStrictOrderedRing K] in
theorem onChange_observe (ops : EulerOps K R) (p : Plotter K R) (k : ℕ) (hr : p.rotation ≠ none)
    (h : AllObserve p) : AllObserve (p.onChange ops k) := by
  intro f hf
  obtain ⟨j, hj⟩ := List.mem_iff_getElem?.1 hf
  rw [(onChange_rotation ops p k).2.1]
  rcases onChange_get ops p k j f hr hj with ⟨_, _, g, hg, hgf⟩ | ⟨_, hg⟩
  · rw [← hgf]
    exact h g (List.mem_of_getElem? hg)
  · exact h f (List.mem_of_getElem? hg)

omit [Field K] [LinearOrder K] [IsStrictOrderedRing K] in
theorem foldl_showsOverlays (ops : EulerOps K R) (ks : List ℕ) : ∀ (p : Plotter K R),
    p.rotation ≠ none → AllObserve p →
    let q := ks.foldl (fun q k => q.onChange ops k) p
    AllObserve q ∧ q.overlays = p.overlays ∧ q.figures.length = p.figures.length ∧
    ∀ (j : ℕ) (f : PlotFigure K R), q.figures[j]? = some f →
      (j ∈ ks ∨ ∀ g, p.figures[j]? = some g → ShowsOverlays p.overlays g) →
      ShowsOverlays p.overlays f := by
  induction ks with
  | nil =>
    intro p hr ho
    exact ⟨ho, rfl, rfl, fun j f hj h => by
      rcases h with h | h
      · cases h
      · exact h f hj⟩
  | cons k ks ih =>
    intro p hr ho
    obtain ⟨h1, h2, h3, h4⟩ := ih (p.onChange ops k)
      (by rw [(onChange_rotation ops p k).1]; exact hr) (onChange_observe ops p k hr ho)
    rw [(onChange_rotation ops p k).2.1] at h2 h4
    refine ⟨h1, h2, h3.trans (onChange_rotation ops p k).2.2.2, ?_⟩
    intro j f hj h
    refine h4 j f hj ?_
    by_cases hjks : j ∈ ks
    · exact Or.inl hjks
    · right
      intro g hg
      rcases onChange_get ops p k j g hr hg with ⟨_, hs, _⟩ | ⟨hne, hg'⟩
      · exact hs
      · rcases h with h | h
        · rcases List.mem_cons.1 h with h | h
          · exact absurd h hne
          · exact absurd h hjks
        · exact h g hg'

omit [IsStrictOrderedRing K] in
theorem step_showsOverlays (ops : EulerOps K R) (p : Plotter K R) (e : PlotEvent K)
    (he : ∀ kind source, e ≠ .setOverlay kind source) (hr : p.rotation ≠ none)
    (ho : AllObserve p) (hs : ∀ f ∈ p.figures, ShowsOverlays p.overlays f) :
    AllObserve (p.step ops e) ∧
      ∀ f ∈ (p.step ops e).figures, ShowsOverlays (p.step ops e).overlays f := by
  have key : ∀ k g, (∃ f ∈ p.figures, g.nObserved = f.nObserved) →
      AllObserve ((p.setFigure k g).onChange ops k) ∧
      ∀ f ∈ ((p.setFigure k g).onChange ops k).figures,
        ShowsOverlays ((p.setFigure k g).onChange ops k).overlays f := by
    intro k g hg
    obtain ⟨f0, hf0, hgf⟩ := hg
    have ho' : AllObserve (p.setFigure k g) := by
      intro f hf
      rcases List.mem_or_eq_of_mem_set hf with h | h
      · exact ho f h
      · rw [h, hgf]
        exact ho f0 hf0
    refine ⟨onChange_observe ops _ k hr ho', ?_⟩
    intro f hf
    obtain ⟨j, hj⟩ := List.mem_iff_getElem?.1 hf
    rw [(onChange_rotation ops _ k).2.1]
    rcases onChange_get ops (p.setFigure k g) k j f hr hj with ⟨_, h, _⟩ | ⟨hne, h⟩
    · exact h
    · simp only [Plotter.setFigure] at h
      rw [List.getElem?_set_ne (Ne.symm hne)] at h
      exact hs f (List.mem_of_getElem? h)
  cases e with
  | slider k name v =>
    simp only [Plotter.step]
    cases hk : p.figures[k]? with
    | none => exact ⟨ho, hs⟩
    | some f =>
      simp only
      split_ifs
      · exact ⟨ho, hs⟩
      · exact key k _ ⟨f, List.mem_of_getElem? hk, rfl⟩
  | euler k i v =>
    simp only [Plotter.step]
    cases hk : p.figures[k]? with
    | none => exact ⟨ho, hs⟩
    | some f =>
      simp only
      cases f.euler with
      | none => exact ⟨ho, hs⟩
      | some e =>
        simp only
        split_ifs
        · exact ⟨ho, hs⟩
        · exact key k _ ⟨f, List.mem_of_getElem? hk, rfl⟩
  | pcBox k b =>
    simp only [Plotter.step]
    cases hk : p.figures[k]? with
    | none => exact ⟨ho, hs⟩
    | some f =>
      simp only
      split_ifs
      · exact ⟨ho, hs⟩
      · exact key k _ ⟨f, List.mem_of_getElem? hk, rfl⟩
  | circlesBox k b =>
    simp only [Plotter.step]
    cases hk : p.figures[k]? with
    | none => exact ⟨ho, hs⟩
    | some f =>
      simp only
      split_ifs
      · exact ⟨ho, hs⟩
      · exact key k _ ⟨f, List.mem_of_getElem? hk, rfl⟩
  | overlayBox j b =>
    simp only [Plotter.step]
    cases hk : p.overlays[j]? with
    | none => exact ⟨ho, hs⟩
    | some o =>
      simp only
      split_ifs
      · exact ⟨ho, hs⟩
      · have hlt : j < p.overlays.length := (List.getElem?_eq_some_iff.1 hk).1
        have hfold := foldl_showsOverlays ops
          ((List.range p.figures.length).filter
            (fun k => decide (j < (p.figures[k]?.elim 0 (fun f => f.nObserved)))))
          { p with overlays := p.overlays.set j { o with checked := b } } hr
          (by intro f hf; simpa using ho f hf)
        obtain ⟨h1, h2, h3, h4⟩ := hfold
        refine ⟨h1, ?_⟩
        intro f hf
        obtain ⟨i, hi⟩ := List.mem_iff_getElem?.1 hf
        rw [h2]
        refine h4 i f hi (Or.inl ?_)
        have hil : i < p.figures.length := by
          have := (List.getElem?_eq_some_iff.1 hi).1
          rw [h3] at this
          exact this
        rw [List.mem_filter, List.mem_range]
        refine ⟨hil, ?_⟩
        rw [decide_eq_true_eq, List.getElem?_eq_getElem hil]
        simp only [Option.elim_some]
        rw [ho _ (List.getElem_mem hil)]
        exact hlt
  | setOverlay kind source => exact absurd rfl (he kind source)
  | showFigure b =>
    simp only [Plotter.step, Plotter.showFigure]
    constructor
    · intro f hf
      rcases List.mem_append.1 hf with h | h
      · exact ho f h
      · rw [List.mem_singleton.1 h]
        rfl
    · intro f hf
      rcases List.mem_append.1 hf with h | h
      · exact hs f h
      · rw [List.mem_singleton.1 h]
        exact redraw_showsOverlays ops p _ hr
  | callerSets d => exact ⟨ho, hs⟩

omit [IsStrictOrderedRing K] in
theorem step_noFigures (ops : EulerOps K R) (p : Plotter K R) (e : PlotEvent K)
    (he : ∀ b, e ≠ .showFigure b) (h : p.figures = []) : (p.step ops e).figures = [] := by
  cases e with
  | slider k name v => simp [Plotter.step, h]
  | euler k i v => simp [Plotter.step, h]
  | pcBox k b => simp [Plotter.step, h]
  | circlesBox k b => simp [Plotter.step, h]
  | overlayBox j b =>
    simp only [Plotter.step]
    cases p.overlays[j]? with
    | none => exact h
    | some o =>
      simp only
      split_ifs
      · exact h
      · simp [h]
  | setOverlay kind source =>
    simp only [Plotter.step, Plotter.setOverlay]
    split_ifs <;> exact h
  | showFigure b => exact absurd rfl (he b)
  | callerSets d => exact h

/-- C93 (partial): if all overlays are set before the first figure is shown, every figure shows
exactly the overlays whose check boxes are checked, after every further history. Overlays set later
are not shown (`C93_late_overlay_violated`). -/
theorem C93_overlays_shown_partial (ops : EulerOps K R) (d : Detector K) (r : R) (inplace : Bool)
    (before after : List (PlotEvent K)) (hb : ∀ b, PlotEvent.showFigure b ∉ before)
    (ha : ∀ kind source, PlotEvent.setOverlay kind source ∉ after) :
    let p := (Plotter.new d (some r) inplace).run ops (before ++ after)
    ∀ f ∈ p.figures, ShowsOverlays p.overlays f := by
  have h1 : ∀ (l : List (PlotEvent K)) (p : Plotter K R), (∀ b, PlotEvent.showFigure b ∉ l) →
      p.figures = [] → (p.run ops l).figures = [] := by
    intro l
    induction l with
    | nil => intro p _ h; exact h
    | cons e l ih =>
      intro p hl h
      refine ih _ (fun b hb => hl b (List.mem_cons_of_mem _ hb)) ?_
      exact step_noFigures ops p e (fun b hb => hl b (hb ▸ List.mem_cons_self)) h
  have h2 : ∀ (l : List (PlotEvent K)) (p : Plotter K R),
      (∀ kind source, PlotEvent.setOverlay kind source ∉ l) → p.rotation ≠ none → AllObserve p →
      (∀ f ∈ p.figures, ShowsOverlays p.overlays f) →
      ∀ f ∈ (p.run ops l).figures, ShowsOverlays (p.run ops l).overlays f := by
    intro l
    induction l with
    | nil => intro p _ _ _ h; exact h
    | cons e l ih =>
      intro p hl hr ho hs
      obtain ⟨h3, h4⟩ := step_showsOverlays ops p e
        (fun kind source h => hl kind source (h ▸ List.mem_cons_self)) hr ho hs
      exact ih _ (fun kind source h => hl kind source (List.mem_cons_of_mem _ h))
        (by rw [(step_rotation ops p e).1]; exact hr) h3 h4
  have h0 : (Plotter.new d (some r) inplace).figures = [] := by
    unfold Plotter.new
    rw [(setDet_fields _ _).2.2.1]
  have hr0 : (Plotter.new d (some r) inplace).rotation = some r := by
    unfold Plotter.new
    rw [(setDet_fields _ _).1]
  have hb' := h1 before _ hb h0
  intro p
  have hp : p = ((Plotter.new d (some r) inplace).run ops before).run ops after := by
    show List.foldl _ _ _ = _
    rw [List.foldl_append]
    rfl
  rw [hp]
  refine h2 after _ ha ?_ ?_ ?_
  · rw [(run_rotation ops before _).1, hr0]
    simp
  · intro f hf
    rw [hb'] at hf
    cases hf
  · intro f hf
    rw [hb'] at hf
    cases hf

/-- C93: a new figure shows the plotter's detector, and draws overlays for the rotation given to the
plotter, if orix' Euler angles of it are within their usual limits and give it back. The sliders of the
Euler angles have these limits. -/
theorem C93_new_figure (ops : EulerOps K R) (p : Plotter K R) (r : R) (hr : p.rotation = some r)
    (h0 : ∀ i, 0 ≤ ops.toEuler r i ∧ ops.toEuler r i ≤ (![360, 180, 360] : Fin 3 → K) i)
    (hrt : ops.fromEuler (ops.toEuler r) = r) (b : Bool) :
    ∃ f, (p.step ops (.showFigure b)).figures = p.figures ++ [f] ∧
      f.values = p.det.geo ∧ f.panels.side = p.det ∧ f.panels.top = p.det ∧ f.panels.plane = p.det ∧
      f.panels.overlays = (p.overlays.filter (fun o => o.checked)).map
        (fun o => ⟨o.kind, o.source, p.det, r, b⟩) ∧
      ∀ s, f.euler = some s → ∀ i, (s i).min = 0 ∧ (s i).max = (![360, 180, 360] : Fin 3 → K) i := by
  have hmax : ∀ i, (eulerMax i : K) = (![360, 180, 360] : Fin 3 → K) i := fun i => by
    fin_cases i <;> simp [eulerMax]
  refine ⟨_, rfl, ?_, rfl, rfl, rfl, ?_, ?_⟩
  · simp only [PlotFigure.redraw, PlotFigure.values, slider_value]
    rfl
  · simp only [PlotFigure.redraw, PlotFigure.rotation, drawOverlays, hr]
    by_cases hov : p.overlays = []
    · simp [hov]
    · have : (fun i => (({ value := ops.toEuler r i, min := 0, max := eulerMax i } : Slider K).set
          (ops.toEuler r i)).value) = ops.toEuler r := by
        funext i
        simp only [Slider.set]
        rw [hmax, max_eq_left (h0 i).1, min_eq_left (h0 i).2]
      simp only [if_neg hov, this, hrt]
  · intro s hs i
    simp only [PlotFigure.redraw, hr] at hs
    split_ifs at hs with hov
    simp only [Option.some.injEq] at hs
    rw [← hs]
    exact ⟨rfl, hmax i⟩

/-! ### Violations -/

/-- Trivial conversions for the witnesses. -/
def unitEuler : EulerOps ℚ Unit := ⟨fun _ _ => 0, fun _ => ()⟩

/-- C93 (violated): with the detector in place, a change of the detector by the caller is not shown
in an existing figure, and is undone when another slider is moved. -/
theorem C93_outside_change_violated :
    let p := (Plotter.new exDet (none : Option Unit) true).run unitEuler [.showFigure false]
    let p1 := p.step unitEuler (.callerSets { p.given with tilt := 5 })
    let p2 := p1.step unitEuler (.slider 0 .twist 4)
    (p1.figures.map (fun f => f.panels.side.tilt)) = [0] ∧ p1.given.tilt = 5 ∧
      p2.given.twist = 4 ∧ p2.given.tilt = 0 := by
  decide +kernel

/-- C93 (violated): two figures of one plotter show different detectors, and moving a slider in one
takes back what was set in the other. -/
theorem C93_two_figures_violated :
    let p := (Plotter.new exDet (none : Option Unit) true).run unitEuler
      [.showFigure false, .showFigure false, .slider 0 .tilt 5]
    let p1 := p.step unitEuler (.slider 1 .twist 4)
    (p.figures.map (fun f => f.panels.side.tilt)) = [5, 0] ∧ p.given.tilt = 5 ∧
      p1.given.twist = 4 ∧ p1.given.tilt = 0 := by
  decide +kernel

/-- C93 (violated): an overlay set after a figure was shown is not shown in it, and checking its box
does not make it so. -/
theorem C93_late_overlay_violated :
    let p := (Plotter.new exDet (some ()) true).run unitEuler
      [.showFigure false, .setOverlay .geometrical 7]
    let p1 := p.run unitEuler [.overlayBox 0 false, .overlayBox 0 true]
    p.overlays = [⟨.geometrical, 7, true⟩] ∧ p1.overlays = [⟨.geometrical, 7, true⟩] ∧
      p.figures.map (fun f => f.panels.overlays.length) = [0] ∧
      p1.figures.map (fun f => f.panels.overlays.length) = [0] := by
  decide +kernel

/-- C93 (violated): for every detector with an average PCz of at most 0.1, the PCz slider can be
moved to 0, for which no gnomonic coordinates exist. -/
theorem C93_pcz_zero_violated (ops : EulerOps K R) (d : Detector K) (rot : Option R)
    (h0 : 0 < d.averagePc.z) (h1 : d.averagePc.z ≤ 1 / 10) (b : Bool) :
    ((Plotter.new d rot false).run ops [.showFigure b, .slider 0 .pcz 0]).det.averagePc.z = 0 := by
  have hav : (Plotter.new d rot false).det.averagePc = d.averagePc := by
    simp [Plotter.new, Plotter.det, Plotter.setDet, Detector.averagePc]
  have hfig : (((Plotter.new d rot false).step ops (.showFigure b)).figures)[0]? =
      some (PlotFigure.redraw ops (Plotter.new d rot false) _) := rfl
  have hs := C93_slider_moves_detector ops ((Plotter.new d rot false).step ops (.showFigure b)) 0 _
    hfig .pcz 0
  have hsl : ∀ f, ((PlotFigure.redraw ops (Plotter.new d rot false) f).sliders) = f.sliders :=
    fun _ => rfl
  rw [hsl] at hs
  have hmin : ((Plotter.new d rot false).det.slider DetSlider.pcz).min ≤ 0 := by
    simp only [Detector.slider, Slider.set, Detector.geo, GeoSettings.get, hav,
      getDetectorValueRange, DetSlider.limits]
    rw [if_pos (by linarith)]
    have : (1 : K) / 10 ≤ Max.max ((1 - 1 / 5) * (1 / 10)) (1 / 10) := le_max_right _ _
    linarith
  have hmax : (0 : K) ≤ ((Plotter.new d rot false).det.slider DetSlider.pcz).max := by
    simp only [Detector.slider, Slider.set, Detector.geo, GeoSettings.get, hav,
      getDetectorValueRange, DetSlider.limits]
    rw [if_neg (by linarith)]
    norm_num
  have hval : (0 : K) ≠ ((Plotter.new d rot false).det.slider DetSlider.pcz).value := by
    rw [slider_value]
    simp only [Detector.geo, GeoSettings.get, hav]
    exact ne_of_lt h0
  have := (hs hmin hmax hval).1 .pcz
  rw [if_pos rfl] at this
  exact this

/-- C93: given keyword arguments are kept and missing ones get the first default. -/
theorem C93_kwargs (d : String → Option String) (defaults : List (String × String)) (k : String) :
    setDefaults d defaults k =
      (d k).or ((defaults.find? (fun kv => kv.1 = k)).map (fun kv => kv.2)) := by
  induction defaults generalizing d with
  | nil => simp [setDefaults]
  | cons kv l ih =>
    have : setDefaults d (kv :: l) =
        setDefaults (if (d kv.1).isNone then Function.update d kv.1 (some kv.2) else d) l := rfl
    rw [this, ih]
    by_cases hk : kv.1 = k
    · subst hk
      cases h : d kv.1 <;> simp [h]
    · have hk' : k ≠ kv.1 := fun e => hk e.symm
      split_ifs
      · simp [hk, Function.update_of_ne hk']
      · simp [hk]

/-- C93 (violated): the caller's dictionaries of keyword arguments are changed, and if one
dictionary is passed for both bands and zone axes, the zone axes get the bands' `zorder`. -/
theorem C93_kwargs_violated (heap : ℕ → String → Option String) (hb : heap 0 = fun _ => none)
    (hz : heap 1 = fun _ => none) :
    (overlayKwargs heap 0 1 0 "color" = some "r" ∧ heap 0 "color" = none) ∧
    overlayKwargs heap 0 1 1 "zorder" = some "3" ∧ overlayKwargs heap 0 0 0 "zorder" = some "2" := by
  refine ⟨⟨?_, by rw [hb]⟩, ?_, ?_⟩
  · simp [overlayKwargs, setDefaults, hb, bandsDefaults, Function.update]
  · simp [overlayKwargs, setDefaults, hz, zoneAxesDefaults, Function.update]
  · simp [overlayKwargs, setDefaults, hb, bandsDefaults, zoneAxesDefaults, Function.update]

/-- The hypotheses of the theorems are met: a history with two figures and an overlay, whose
figures show different tilts, with the overlay drawn in both. -/
example :
    let before : List (PlotEvent ℚ) := [.setOverlay .masterPattern 3]
    let after : List (PlotEvent ℚ) :=
      [.showFigure true, .showFigure false, .slider 1 .tilt 8, .callerSets exDet]
    let p := (Plotter.new exDet (some ()) false).run unitEuler (before ++ after)
    p.figures.map (fun f => (f.panels.side.tilt, f.panels.overlays.length)) = [(0, 1), (8, 1)] ∧
      p.given.tilt = 0 ∧ p.det.tilt = 8 ∧ p.det.pc = [⟨5/12, 13/30, 5/8⟩] := by
  decide +kernel

/-- The hypotheses of `C93_pcz_zero_violated` are met. -/
example : ∃ d : Detector ℚ, 0 < d.averagePc.z ∧ d.averagePc.z ≤ 1 / 10 :=
  ⟨{ exDet with nav := [1], pc := [⟨1/2, 1/2, 1/20⟩] }, by decide +kernel, by decide +kernel⟩

end Kp
