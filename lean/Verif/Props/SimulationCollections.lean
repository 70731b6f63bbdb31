/-
C141: collections and plots of a geometrical simulation show the lines and zone axes of the pattern
asked for.
-/
import Verif.Spec.SimulationCollections
import Verif.Props.PatternSimulation

namespace Kp
open Spec
noncomputable section

/-! ### Indices -/

theorem pyIndex_counts {n : ℕ} {k : ℤ} {j : ℕ} (h : Counts n k j) : pyIndex n k = .ok j := by
  obtain ⟨hj, rfl | rfl⟩ := h
  · simp [pyIndex, hj]
  · have h1 : ¬ (0 ≤ (j : ℤ) - n ∧ (j : ℤ) - n < n) := by omega
    have h2 : (j : ℤ) - n < 0 ∧ 0 ≤ (j : ℤ) - n + n := by omega
    rw [pyIndex, if_neg h1, if_pos h2]
    congr 1
    omega

theorem select_names {shape : List ℕ} {ix : SimIndex} {i : ℕ} (h : NamesPattern shape ix i) :
    selectPatterns shape (ix.numbers shape.length) = .ok [i] ∧
      (ix.numbers shape.length).length = shape.length := by
  cases h with
  | first hl hp =>
    rcases hl with hl | hl
    · obtain ⟨n, rfl⟩ := List.length_eq_one_iff.mp hl
      have hn : 0 < n := by simpa using hp
      have : pyIndex n 0 = .ok 0 := pyIndex_counts ⟨hn, by simp⟩
      simp [SimIndex.numbers, selectPatterns, this, bind, Except.bind]
    · obtain ⟨n, m, rfl⟩ := List.length_eq_two.mp hl
      have hnm : 0 < n * m := by simpa using hp
      have h1 : pyIndex n 0 = .ok 0 := pyIndex_counts ⟨Nat.pos_of_mul_pos_right hnm, by simp⟩
      have h2 : pyIndex m 0 = .ok 0 := pyIndex_counts ⟨Nat.pos_of_mul_pos_left hnm, by simp⟩
      simp [SimIndex.numbers, selectPatterns, h1, h2, bind, Except.bind]
  | number hc =>
    simp [SimIndex.numbers, selectPatterns, pyIndex_counts hc, bind, Except.bind]
  | tuple1 hc =>
    simp [SimIndex.numbers, selectPatterns, pyIndex_counts hc, bind, Except.bind]
  | tuple2 h1 h2 =>
    simp [SimIndex.numbers, selectPatterns, pyIndex_counts h1, pyIndex_counts h2, bind,
      Except.bind]

theorem names_lt {shape : List ℕ} {ix : SimIndex} {i : ℕ} (h : NamesPattern shape ix i) :
    i < shape.prod := by
  cases h with
  | first _ hp => exact hp
  | number hc => simpa using hc.1
  | tuple1 hc => simpa using hc.1
  | @tuple2 ny nx k l y x h1 h2 =>
    have h3 := h1.1
    have h4 := h2.1
    simp only [List.prod_cons, List.prod_nil, mul_one]
    calc y * nx + x < y * nx + nx := by omega
      _ = (y + 1) * nx := by ring
      _ ≤ ny * nx := Nat.mul_le_mul_right _ h3

/-! ### Formats -/

/-- C141: formats other than `"pixel"`, `"gnomonic"` and the deprecated `"detector"`, which is the
same as `"pixel"`, are refused. -/
theorem C141_formats (s : PatternSimulation) (ix : SimIndex) (fmt : String)
    (flags : CollectionFlags) (pattern : Option (ℕ × ℕ)) :
    (fmt ≠ "pixel" → fmt ≠ "gnomonic" → fmt ≠ "detector" →
      s.asCollections ix fmt flags = .error .valueError ∧
      s.plotWith ix fmt pattern flags = .error .valueError ∧
      s.linesCoordinatesAt ix fmt = .error .valueError ∧
      s.zoneAxesCoordinatesAt ix fmt = .error .valueError) ∧
    s.asCollections ix "detector" flags = s.asCollections ix "pixel" flags ∧
    s.plotWith ix "detector" pattern flags = s.plotWith ix "pixel" pattern flags ∧
    s.linesCoordinatesAt ix "detector" = s.linesCoordinatesAt ix "pixel" ∧
    s.zoneAxesCoordinatesAt ix "detector" = s.zoneAxesCoordinatesAt ix "pixel" := by
  refine ⟨fun h1 h2 h3 => ?_, ?_⟩
  · have h : parseCoordinateFormat fmt = .error .valueError := by
      simp [parseCoordinateFormat, h1, h2, h3]
    simp [PatternSimulation.asCollections, PatternSimulation.plotWith,
      PatternSimulation.linesCoordinatesAt, PatternSimulation.zoneAxesCoordinatesAt, h, bind,
      Except.bind]
  · have h : parseCoordinateFormat "detector" = parseCoordinateFormat "pixel" := by
      simp [parseCoordinateFormat]
    have hl : s.linesCoordinatesAt ix "detector" = s.linesCoordinatesAt ix "pixel" := by
      simp only [PatternSimulation.linesCoordinatesAt, h]
    have hz : s.zoneAxesCoordinatesAt ix "detector" = s.zoneAxesCoordinatesAt ix "pixel" := by
      simp only [PatternSimulation.zoneAxesCoordinatesAt, h]
    have ha : s.asCollections ix "detector" flags = s.asCollections ix "pixel" flags := by
      simp only [PatternSimulation.asCollections, PatternSimulation.linesCollection,
        PatternSimulation.circlesCollection, PatternSimulation.labelsList, h, hl, hz]
    refine ⟨ha, ?_, hl, hz⟩
    simp only [PatternSimulation.plotWith, h, ha]

theorem parse_fmt {fmt : String} (hf : fmt = "pixel" ∨ fmt = "gnomonic") :
    parseCoordinateFormat fmt = .ok (if fmt = "pixel" then .pixel else .gnomonic) := by
  rcases hf with rfl | rfl <;> simp [parseCoordinateFormat]

/-! ### One pattern -/

/-- C141: `lines_coordinates` and `zone_axes_coordinates` of an index give those of the pattern the
index names, from the start or from the end of the map, and of the first pattern without an
index. -/
theorem C141_one_pattern (s : PatternSimulation) {ix : SimIndex} {i : ℕ}
    (hi : NamesPattern s.shape ix i) :
    s.linesCoordinatesAt ix "pixel" = .ok (s.linesCoordinates i) ∧
    s.linesCoordinatesAt ix "gnomonic" = .ok ((s.lines.getD i []).filterMap id) ∧
    s.zoneAxesCoordinatesAt ix "pixel" = .ok (s.zoneAxesCoordinates i) ∧
    s.zoneAxesCoordinatesAt ix "gnomonic" = .ok (s.zoneAxesGnomonic i) := by
  have h := (select_names hi).1
  have hp : parseCoordinateFormat "pixel" = .ok .pixel := by simp [parseCoordinateFormat]
  have hg : parseCoordinateFormat "gnomonic" = .ok .gnomonic := by simp [parseCoordinateFormat]
  refine ⟨?_, ?_, ?_, ?_⟩ <;>
    simp [PatternSimulation.linesCoordinatesAt, PatternSimulation.zoneAxesCoordinatesAt, h, hp, hg,
      bind, Except.bind, PatternSimulation.linesIn, PatternSimulation.zoneIn,
      PatternSimulation.linesCoordinates, PatternSimulation.zoneAxesCoordinates,
      PatternSimulation.zoneAxesGnomonic]

theorem sizePc_names {a : SimulationArgs} {s : PatternSimulation} (h : onDetector a = .ok s)
    {ix : SimIndex} {i : ℕ} (hi : NamesPattern a.shape ix i) {p : PC ℝ} (hp : a.pcOf i p) :
    s.sizePc ix = .ok p := by
  obtain ⟨hn, hd, hs, -⟩ := onDetector_ok h
  rcases hp with ⟨h1, h2⟩ | ⟨h1, h2⟩
  · simp [PatternSimulation.sizePc, hd, h1, h2, bind, Except.bind]
  · have hnav := hn.resolve_left h1
    rw [← hs] at hi hnav
    have h3 := (select_names hi).1
    rw [← hd] at h1 h2 hnav
    rw [PatternSimulation.sizePc, if_neg h1, hnav, h3]
    simp [bind, Except.bind, h2]

theorem names_orientation {a : SimulationArgs} (wf : a.WF) {ix : SimIndex} {i : ℕ}
    (hi : NamesPattern a.shape ix i) : ∃ u, a.orientations[i]? = some u := by
  have h := names_lt hi
  have hl : a.orientations.length = a.shape.prod := by
    rcases wf.shape with ⟨n, h1, h2⟩ | ⟨ny, nx, h1, h2⟩ <;> simp [h1, h2]
  exact ⟨_, List.getElem?_eq_getElem (by omega)⟩

theorem names_pc {a : SimulationArgs} (wf : a.WF) {s : PatternSimulation}
    (h : onDetector a = .ok s) {ix : SimIndex} {i : ℕ} (hi : NamesPattern a.shape ix i) :
    ∃ p, a.pcOf i p := by
  obtain ⟨hn, -⟩ := onDetector_ok h
  obtain ⟨u, hu⟩ := names_orientation wf hi
  have hlt := (List.getElem?_eq_some_iff.1 hu).1
  by_cases h1 : a.detector.nav = [1]
  · obtain ⟨q, hq⟩ := List.length_eq_one_iff.1 (wf.onePc h1)
    exact ⟨q, .inl ⟨h1, hq⟩⟩
  · have h2 := wf.pcs h1 (hn.resolve_left h1)
    exact ⟨_, .inr ⟨h1, List.getElem?_eq_getElem (by omega)⟩⟩

theorem asCollections_names {a : SimulationArgs} {s : PatternSimulation}
    (h : onDetector a = .ok s) {ix : SimIndex} {i : ℕ} (hi : NamesPattern a.shape ix i) {p : PC ℝ}
    (hp : a.pcOf i p) {fmt : String} {f : PlaneFormat} (hf : parseCoordinateFormat fmt = .ok f)
    (flags : CollectionFlags) :
    s.asCollections ix fmt flags = .ok
      ((if flags.lines then [.lines (((s.linesIn f).getD i []).filterMap id |>.map fun b =>
          ((b.x0, b.y0), (b.x1, b.y1)))] else []) ++
        (if flags.zoneAxes then [.circles (((s.zoneIn f).getD i []).filterMap id |>.map fun c =>
          (c, 1 / 100 * circleScale a.detector p f))] else []) ++
        (if flags.labels then [.texts ((List.zipWith (fun c t => c.map fun c =>
            ((c.1, c.2 + 3 / 100 * upwardHeight a.detector p f), t)) ((s.zoneIn f).getD i [])
            (zoneAxisLabels s.zoneAxes)).filterMap id)] else [])) := by
  obtain ⟨-, hd, hs, -⟩ := onDetector_ok h
  have hsz := sizePc_names h hi hp
  rw [← hs] at hi
  obtain ⟨h1, h2⟩ := select_names hi
  obtain ⟨fl, fz, ft⟩ := flags
  have hlen : ¬ (ix.numbers s.shape.length).length < s.shape.length := by omega
  cases f <;> cases fl <;> cases fz <;> cases ft <;>
    simp [PatternSimulation.asCollections, PatternSimulation.linesCollection,
      PatternSimulation.circlesCollection, PatternSimulation.labelsList,
      PatternSimulation.linesCoordinatesAt, PatternSimulation.zoneAxesCoordinatesAt, hf, h1, h2,
      hsz, bind, Except.bind, Except.map, upwardHeight, circleScale, hd]

/-- C141: `as_collections` of a pattern returns exactly the collections asked for, in the order
lines, zone axes, labels: a segment for every row of `lines_coordinates` and a circle about every
row of `zone_axes_coordinates` of the same index and format. -/
theorem C141_collections {a : SimulationArgs} (wf : a.WF) {s : PatternSimulation}
    (h : onDetector a = .ok s) {ix : SimIndex} {i : ℕ} (hi : NamesPattern a.shape ix i)
    {fmt : String} (hf : fmt = "pixel" ∨ fmt = "gnomonic") (flags : CollectionFlags) :
    ∃ cs l z, s.asCollections ix fmt flags = .ok cs ∧ s.linesCoordinatesAt ix fmt = .ok l ∧
      s.zoneAxesCoordinatesAt ix fmt = .ok z ∧
      kinds cs = (if flags.lines then ["lines"] else []) ++
        (if flags.zoneAxes then ["zone axes"] else []) ++
        (if flags.labels then ["labels"] else []) ∧
      segmentsDrawn cs =
        (if flags.lines then l.map fun b => ((b.x0, b.y0), (b.x1, b.y1)) else []) ∧
      centresDrawn cs = if flags.zoneAxes then z else [] := by
  obtain ⟨p, hp⟩ := names_pc wf h hi
  have hpf := parse_fmt hf
  have hc := asCollections_names h hi hp hpf flags
  obtain ⟨-, hd, hs, -⟩ := onDetector_ok h
  rw [← hs] at hi
  have h1 := (select_names hi).1
  refine ⟨_, ((s.linesIn (if fmt = "pixel" then .pixel else .gnomonic)).getD i []).filterMap id,
    ((s.zoneIn (if fmt = "pixel" then .pixel else .gnomonic)).getD i []).filterMap id, hc,
    ?_, ?_, ?_, ?_, ?_⟩
  · simp [PatternSimulation.linesCoordinatesAt, hpf, h1, bind, Except.bind]
  · simp [PatternSimulation.zoneAxesCoordinatesAt, hpf, h1, bind, Except.bind]
  all_goals
    obtain ⟨fl, fz, ft⟩ := flags
    cases fl <;> cases fz <;> cases ft <;>
      simp [kinds, segmentsDrawn, centresDrawn, circlesDrawn, Function.comp_def]

theorem drawn_three (fl fz ft : Bool) (x : List ((ℝ × ℝ) × (ℝ × ℝ))) (y : List ((ℝ × ℝ) × ℝ))
    (z : List ((ℝ × ℝ) × List Char)) :
    textsDrawn ((if fl then [.lines x] else []) ++ (if fz then [.circles y] else []) ++
      (if ft then [.texts z] else [])) = (if ft then z else []) ∧
    circlesDrawn ((if fl then [.lines x] else []) ++ (if fz then [.circles y] else []) ++
      (if ft then [.texts z] else [])) = (if fz then y else []) ∧
    ((((if fl then [.lines x] else []) ++ (if fz then [.circles y] else []) ++
      (if ft then [.texts z] else [])) : List SimCollection).any SimCollection.hasNoFirstText = true ↔
      ft = true ∧ z = []) := by
  cases fl <;> cases fz <;> cases ft <;> cases z <;>
    simp [textsDrawn, circlesDrawn, SimCollection.hasNoFirstText]

theorem zoneIn_length {a : SimulationArgs} {s : PatternSimulation} (h : onDetector a = .ok s)
    {f : PlaneFormat} {i : ℕ} {l : List (Option (ℝ × ℝ))} (hl : (s.zoneIn f)[i]? = some l) :
    l.length = s.zoneAxes.length := by
  obtain ⟨-, -, -, -, -, hza, -, hzp⟩ := onDetector_ok h
  have hz : ∀ m, s.zonePoints[i]? = some m → m.length = s.zoneAxes.length := by
    intro m hm
    rw [hzp, List.getElem?_map] at hm
    obtain ⟨u, -, rfl⟩ := Option.map_eq_some_iff.1 hm
    simp [hza]
  cases f with
  | gnomonic => exact hz l hl
  | pixel =>
    simp only [PatternSimulation.zoneIn, PatternSimulation.zonePixel, List.getElem?_zipWith] at hl
    cases hm : s.zonePoints[i]? with
    | none => simp [hm] at hl
    | some m =>
      cases hq : s.pcs[i]? with
      | none => simp [hm, hq] at hl
      | some q =>
        simp only [hm, hq, Option.some.injEq] at hl
        rw [← hl, List.length_map, hz m hm]

theorem zip_positions {α : Type*} (g : ℝ × ℝ → ℝ × ℝ) (l : List (Option (ℝ × ℝ))) (t : List α)
    (h : l.length ≤ t.length) :
    ((List.zipWith (fun c t => c.map fun c => (g c, t)) l t).filterMap id).map Prod.fst =
      (l.filterMap id).map g := by
  induction l generalizing t with
  | nil => simp
  | cons c l ih =>
    cases t with
    | nil => simp at h
    | cons b t =>
      have := ih t (by simpa using h)
      cases c with
      | none => simpa using this
      | some c => simpa using this

theorem zoneAxisLabels_length (w : List Miller) : w.length ≤ (zoneAxisLabels w).length := by
  unfold zoneAxisLabels
  split_ifs with h
  · simp [h]
  · simp

/-- C141: there is one label for every row of `zone_axes_coordinates`, in the same order and 3% of
the detector's height above it, and labels are those of the zone axes with these coordinates in this
pattern and format. -/
theorem C141_labels {a : SimulationArgs} {s : PatternSimulation}
    (h : onDetector a = .ok s) {ix : SimIndex} {i : ℕ} (hi : NamesPattern a.shape ix i)
    {p : PC ℝ} (hp : a.pcOf i p) {fmt : String} {f : PlaneFormat}
    (hf : fmt = "pixel" ∧ f = .pixel ∨ fmt = "gnomonic" ∧ f = .gnomonic)
    {flags : CollectionFlags} (ht : flags.labels = true) {cs : List SimCollection}
    (hcs : s.asCollections ix fmt flags = .ok cs) {l : List (Option (ℝ × ℝ))}
    (hl : (match f with | .pixel => s.zonePixel | .gnomonic => s.zonePoints)[i]? = some l) :
    (∃ z, s.zoneAxesCoordinatesAt ix fmt = .ok z ∧ (textsDrawn cs).map Prod.fst =
      z.map fun c => (c.1, c.2 + 3 / 100 * upwardHeight a.detector p f)) ∧
    ∀ (q : ℝ × ℝ) (t : List Char),
      (q, t) ∈ textsDrawn cs ↔ ∃ (k : ℕ) (w : Miller) (c : ℝ × ℝ), l[k]? = some (some c) ∧
        s.zoneAxes[k]? = some w ∧ t = zoneAxisLabel w ∧
        q = (c.1, c.2 + 3 / 100 * upwardHeight a.detector p f) := by
  have hpf : parseCoordinateFormat fmt = .ok f := by
    rcases hf with ⟨rfl, rfl⟩ | ⟨rfl, rfl⟩ <;> simp [parseCoordinateFormat]
  have hc := asCollections_names h hi hp hpf flags
  rw [hcs] at hc
  cases Except.ok.inj hc
  have hl' : (s.zoneIn f)[i]? = some l := by
    cases f <;> simpa [PatternSimulation.zoneIn] using hl
  have hzi : (s.zoneIn f).getD i [] = l := by
    rw [List.getD_eq_getElem?_getD, hl']; rfl
  have hlen := zoneIn_length h hl'
  rw [(drawn_three _ _ _ _ _ _).1, if_pos ht, hzi]
  refine ⟨⟨l.filterMap id, ?_, ?_⟩, fun q t => ?_⟩
  · obtain ⟨-, -, hs, -⟩ := onDetector_ok h
    rw [← hs] at hi
    have h1 := (select_names hi).1
    simp only [PatternSimulation.zoneAxesCoordinatesAt, hpf, h1, bind, Except.bind,
      List.flatMap_cons, List.flatMap_nil, List.append_nil, hzi]
  · exact zip_positions (fun c => (c.1, c.2 + 3 / 100 * upwardHeight a.detector p f)) l _
      (hlen.le.trans (zoneAxisLabels_length _))
  have hlab : ∀ (k : ℕ) (w : Miller), s.zoneAxes[k]? = some w →
      (zoneAxisLabels s.zoneAxes)[k]? = some (zoneAxisLabel w) := by
    intro k w hw
    unfold zoneAxisLabels
    rw [if_neg (by rintro h0; simp [h0] at hw), List.getElem?_map, hw]
    rfl
  simp only [List.mem_filterMap, id]
  constructor
  · rintro ⟨o, ho, rfl⟩
    obtain ⟨k, hk⟩ := List.mem_iff_getElem?.1 ho
    rw [List.getElem?_zipWith] at hk
    cases hlk : l[k]? with
    | none => simp [hlk] at hk
    | some o' =>
      have hkl := (List.getElem?_eq_some_iff.1 hlk).1
      obtain ⟨w, hw⟩ : ∃ w, s.zoneAxes[k]? = some w :=
        ⟨_, List.getElem?_eq_getElem (by omega)⟩
      rw [hlk, hlab k w hw] at hk
      cases o' with
      | none => simp at hk
      | some c =>
        simp only [Option.map_some, Option.some.injEq, Prod.mk.injEq] at hk
        exact ⟨k, w, c, hlk, hw, hk.2.symm, hk.1.symm⟩
  · rintro ⟨k, w, c, hlk, hw, rfl, rfl⟩
    refine ⟨_, List.mem_iff_getElem?.2 ⟨k, ?_⟩, rfl⟩
    rw [List.getElem?_zipWith, hlk, hlab k w hw]
    rfl

/-- C141: circles about zone axes have a radius of 1% of the detector's rows, or of its gnomonic
width with the PC of the pattern. -/
theorem C141_circle_size {a : SimulationArgs} {s : PatternSimulation}
    (h : onDetector a = .ok s) {ix : SimIndex} {i : ℕ} (hi : NamesPattern a.shape ix i)
    {p : PC ℝ} (hp : a.pcOf i p) {fmt : String} {f : PlaneFormat}
    (hf : fmt = "pixel" ∧ f = .pixel ∨ fmt = "gnomonic" ∧ f = .gnomonic)
    {flags : CollectionFlags} {cs : List SimCollection}
    (hcs : s.asCollections ix fmt flags = .ok cs) {c : ℝ × ℝ} {r : ℝ}
    (hc : (c, r) ∈ circlesDrawn cs) : r = 1 / 100 * circleScale a.detector p f := by
  have hpf : parseCoordinateFormat fmt = .ok f := by
    rcases hf with ⟨rfl, rfl⟩ | ⟨rfl, rfl⟩ <;> simp [parseCoordinateFormat]
  have hc' := asCollections_names h hi hp hpf flags
  rw [hcs] at hc'
  cases Except.ok.inj hc'
  rw [(drawn_three _ _ _ _ _ _).2.1] at hc
  split_ifs at hc with hz
  · obtain ⟨c', -, h2⟩ := List.mem_map.1 hc
    exact (Prod.mk.inj h2).2.symm
  · simp at hc

/-- C141: pixel and gnomonic coordinates of lines are those of the same lines, in the same order,
converted with the PC of the pattern. -/
theorem C141_line_formats {a : SimulationArgs} (wf : a.WF) {s : PatternSimulation}
    (h : onDetector a = .ok s) {ix : SimIndex} {i : ℕ} (hi : NamesPattern a.shape ix i)
    {p : PC ℝ} (hp : a.pcOf i p) :
    ∃ lp lg, s.linesCoordinatesAt ix "pixel" = .ok lp ∧
      s.linesCoordinatesAt ix "gnomonic" = .ok lg ∧
      lp.map (fun b => ((b.x0, b.y0), (b.x1, b.y1))) = lg.map (fun b =>
        (simToPixel a.detector p (b.x0, b.y0), simToPixel a.detector p (b.x1, b.y1))) := by
  obtain ⟨hn, hd, hs, hpc, -, -, -, -⟩ := onDetector_ok h
  obtain ⟨u, hu⟩ := names_orientation wf hi
  have hpi := (pcs_getElem wf hn hu).2 hp
  rw [← hs] at hi
  obtain ⟨h1, h2, -, -⟩ := C141_one_pattern s hi
  refine ⟨_, _, h1, h2, ?_⟩
  unfold PatternSimulation.linesCoordinates PatternSimulation.linesPixel
  rw [List.getD_eq_getElem?_getD, List.getD_eq_getElem?_getD, List.getElem?_zipWith, hpc, hpi]
  cases s.lines[i]? with
  | none => simp
  | some l =>
    simp only [Option.getD_some]
    induction l with
    | nil => simp
    | cons b l ih =>
      cases b with
      | none => simpa using ih
      | some b => simpa [hd] using ih

/-! ### Plots -/

theorem plotWith_of {s : PatternSimulation} {ix : SimIndex} {fmt : String} {f : PlaneFormat}
    {pattern : Option (ℕ × ℕ)} {flags : CollectionFlags} {view : PlaneView}
    {cs : List SimCollection} (hf : parseCoordinateFormat fmt = .ok f)
    (hv : planeView s.detector f 1 pattern [] = .ok view)
    (hc : s.asCollections ix fmt flags = .ok cs) :
    s.plotWith ix fmt pattern flags =
      if cs.any SimCollection.hasNoFirstText then .error .indexError else .ok (view, cs) := by
  simp only [PatternSimulation.plotWith, hf, hv, hc, bind, Except.bind]

/-- C141 (partial): a plot of a pattern shows the collections of `as_collections` on the detector,
or is an error, exactly if labels are asked for and the pattern has no zone axis. -/
theorem C141_plot_partial {a : SimulationArgs} (wf : a.WF) {s : PatternSimulation}
    (h : onDetector a = .ok s) {ix : SimIndex} {i : ℕ} (hi : NamesPattern a.shape ix i)
    {fmt : String} (hf : fmt = "pixel" ∨ fmt = "gnomonic") (flags : CollectionFlags)
    {pattern : Option (ℕ × ℕ)}
    (hpat : ∀ sh, pattern = some sh → sh = (a.detector.nrows, a.detector.ncols)) :
    (s.plotWith ix fmt pattern flags = .error .indexError ∧ flags.labels = true ∧
        s.zoneAxesCoordinatesAt ix fmt = .ok []) ∨
      ∃ view cs, s.plotWith ix fmt pattern flags = .ok (view, cs) ∧
        s.asCollections ix fmt flags = .ok cs ∧
        planeView a.detector (if fmt = "pixel" then .pixel else .gnomonic) 1 pattern [] = .ok view ∧
        ¬ (flags.labels = true ∧ s.zoneAxesCoordinatesAt ix fmt = .ok []) := by
  obtain ⟨p, hp⟩ := names_pc wf h hi
  have hpf := parse_fmt hf
  set f : PlaneFormat := if fmt = "pixel" then .pixel else .gnomonic
  have hc := asCollections_names h hi hp hpf flags
  obtain ⟨-, hd, hs, -⟩ := onDetector_ok h
  obtain ⟨u, hu⟩ := names_orientation wf hi
  have hv : ∃ view, planeView s.detector f 1 pattern [] = .ok view := by
    have hany : pattern.any (fun s' => s' ≠ (s.detector.nrows, s.detector.ncols)) = false := by
      cases hpt : pattern with
      | none => rfl
      | some sh => simp [hpat sh hpt, hd]
    unfold planeView
    rw [hany]
    cases f <;> exact ⟨_, rfl⟩
  obtain ⟨view, hv⟩ := hv
  have hz : s.zoneAxesCoordinatesAt ix fmt = .ok (((s.zoneIn f).getD i []).filterMap id) := by
    rw [← hs] at hi
    have h1 := (select_names hi).1
    simp only [PatternSimulation.zoneAxesCoordinatesAt, hpf, h1, bind, Except.bind,
      List.flatMap_cons, List.flatMap_nil, List.append_nil]
  have hlen : ((s.zoneIn f).getD i []).length ≤ (zoneAxisLabels s.zoneAxes).length := by
    rw [List.getD_eq_getElem?_getD]
    cases hl : (s.zoneIn f)[i]? with
    | none => simp
    | some l => exact (zoneIn_length h hl).le.trans (zoneAxisLabels_length _)
  have hpos := zip_positions (fun c => (c.1, c.2 + 3 / 100 * upwardHeight a.detector p f)) _ _ hlen
  have hiff := (drawn_three flags.lines flags.zoneAxes flags.labels
    (((s.linesIn f).getD i []).filterMap id |>.map fun b => ((b.x0, b.y0), (b.x1, b.y1)))
    (((s.zoneIn f).getD i []).filterMap id |>.map fun c =>
          (c, 1 / 100 * circleScale a.detector p f))
    ((List.zipWith (fun c t => c.map fun c =>
            ((c.1, c.2 + 3 / 100 * upwardHeight a.detector p f), t)) ((s.zoneIn f).getD i [])
            (zoneAxisLabels s.zoneAxes)).filterMap id)).2.2
  have hnil : (List.zipWith (fun c t => c.map fun c =>
            ((c.1, c.2 + 3 / 100 * upwardHeight a.detector p f), t)) ((s.zoneIn f).getD i [])
            (zoneAxisLabels s.zoneAxes)).filterMap id = [] ↔
      ((s.zoneIn f).getD i []).filterMap id = [] := by
    rw [← List.map_eq_nil_iff (f := Prod.fst), hpos, List.map_eq_nil_iff]
  rw [hnil] at hiff
  obtain ⟨cs, hc, hiff⟩ : ∃ cs, s.asCollections ix fmt flags = .ok cs ∧
      (cs.any SimCollection.hasNoFirstText = true ↔
        flags.labels = true ∧ ((s.zoneIn f).getD i []).filterMap id = []) := ⟨_, hc, hiff⟩
  have hplot := plotWith_of hpf hv hc
  rw [hplot, hz]
  simp only [Except.ok.injEq]
  split_ifs with hb
  · exact .inl ⟨rfl, hiff.1 hb⟩
  · exact .inr ⟨_, _, rfl, hc, hd ▸ hv, fun h' => hb (hiff.2 h')⟩

/-! ### Rows of a map -/

/-- C141: with a number as index into a map with rows and columns, all lines and zone axes of all
patterns in this row are returned as if they were of one pattern, and labels are refused. -/
theorem C141_row (s : PatternSimulation) {ny nx : ℕ} (hs : s.shape = [ny, nx]) {k : ℤ} {y : ℕ}
    (hk : Counts ny k y) :
    s.linesCoordinatesAt (.int k) "pixel" =
      .ok ((List.range nx).flatMap fun x => s.linesCoordinates (y * nx + x)) ∧
    s.zoneAxesCoordinatesAt (.int k) "pixel" =
      .ok ((List.range nx).flatMap fun x => s.zoneAxesCoordinates (y * nx + x)) ∧
    s.asCollections (.int k) "pixel" { labels := true } = .error .valueError := by
  have hp : parseCoordinateFormat "pixel" = .ok .pixel := by simp [parseCoordinateFormat]
  have hsel : selectPatterns s.shape ((SimIndex.int k).numbers s.shape.length) =
      .ok ((List.range nx).map fun x => y * nx + x) := by
    simp [hs, SimIndex.numbers, selectPatterns, pyIndex_counts hk, bind, Except.bind]
  refine ⟨?_, ?_, ?_⟩
  · simp only [PatternSimulation.linesCoordinatesAt, hp, hsel, bind, Except.bind,
      List.flatMap_map, PatternSimulation.linesIn]
    rfl
  · simp only [PatternSimulation.zoneAxesCoordinatesAt, hp, hsel, bind, Except.bind,
      List.flatMap_map, PatternSimulation.zoneIn]
    rfl
  · simp only [PatternSimulation.asCollections, PatternSimulation.linesCollection,
      PatternSimulation.labelsList, PatternSimulation.linesCoordinatesAt, hp, hsel, bind,
      Except.bind, Except.map]
    simp [hs, SimIndex.numbers]

/-- A map of one row and two columns of a crystal in one orientation. -/
def exampleRowArgs : SimulationArgs where
  detector := ⟨61, 61, 1, 1, 0, 0, 0, 70, [1], [examplePc]⟩
  base := ⟨⟨1, 0, 0⟩, ⟨0, 1, 0⟩, ⟨0, 0, 1⟩⟩
  recbase := ⟨⟨1, 0, 0⟩, ⟨0, 1, 0⟩, ⟨0, 0, 1⟩⟩
  reduce := id
  reflectors := [⟨-1, 0, 1⟩]
  shape := [1, 2]
  orientations := [⟨⟨1, 0, 0⟩, ⟨0, 1, 0⟩, ⟨0, 0, 1⟩⟩, ⟨⟨1, 0, 0⟩, ⟨0, 1, 0⟩, ⟨0, 0, 1⟩⟩]

theorem exampleRow_wf : exampleRowArgs.WF :=
  ⟨.inr ⟨1, 2, rfl, rfl⟩, fun _ => rfl, fun h => absurd rfl h⟩

theorem exampleRow_lines {s : PatternSimulation} (h : onDetector exampleRowArgs = .ok s) :
    ∃ b, s.linesCoordinates 0 = [b] ∧ s.linesCoordinates 1 = [b] ∧
      ∀ i, s.linesCoordinates (i + 2) = [] := by
  obtain ⟨-, hd, hs, hpc, -, -, hl, -⟩ := onDetector_ok h
  have hn : exampleRowArgs.normal ⟨-1, 0, 1⟩ ⟨⟨1, 0, 0⟩, ⟨0, 1, 0⟩, ⟨0, 0, 1⟩⟩ = ⟨-1, 0, 1⟩ := by
    simp [SimulationArgs.normal, exampleRowArgs, M3.vecMul, M3.matMul, Miller.real]
  have hvis : exampleRowArgs.visibleReflectors = [⟨-1, 0, 1⟩] := by
    have h1 : exampleRowArgs.orientations =
      [⟨⟨1, 0, 0⟩, ⟨0, 1, 0⟩, ⟨0, 0, 1⟩⟩, ⟨⟨1, 0, 0⟩, ⟨0, 1, 0⟩, ⟨0, 0, 1⟩⟩] := rfl
    have h2 : exampleRowArgs.reflectors = [⟨-1, 0, 1⟩] := rfl
    simp [SimulationArgs.visibleReflectors, h1, h2, hn]
  have hrm : exampleRowArgs.detector.rMax examplePc = Real.sqrt 2 := by
    have hxmin : exampleRowArgs.detector.xMin examplePc = -1 := by
      simp [exampleRowArgs, examplePc, Detector.xMin, Detector.aspect]
    have hxmax : exampleRowArgs.detector.xMax examplePc = 1 := by
      simp [exampleRowArgs, examplePc, Detector.xMax, Detector.aspect]; norm_num
    have hymin : exampleRowArgs.detector.yMin examplePc = -1 := by
      simp [examplePc, Detector.yMin]; norm_num
    have hymax : exampleRowArgs.detector.yMax examplePc = 1 := by
      simp [examplePc, Detector.yMax]
    unfold Detector.rMax Detector.rMaxSq
    rw [hxmin, hxmax, hymin, hymax]
    norm_num
  have hmax : exampleRowArgs.maxR = Real.sqrt 2 := by
    have hpcs : exampleRowArgs.detector.pc = [examplePc] := rfl
    simp [SimulationArgs.maxR, hpcs, hrm]
  have ht : ∃ b, lineTrace (Real.sqrt 2) ⟨-1, 0, 1⟩ = some b := by
    have h1 : (1 : ℝ) < Real.sqrt 2 := by
      rw [Real.lt_sqrt (by norm_num)]; norm_num
    unfold lineTrace
    simp only
    rw [if_neg (by norm_num), if_neg (by norm_num), if_neg (by norm_num)]
    exact ⟨_, rfl⟩
  obtain ⟨b, hb⟩ := ht
  have hpcs : exampleRowArgs.pcs = [examplePc, examplePc] := rfl
  have hlines : s.lines = [[some b], [some b]] := by
    rw [hl, hvis, hmax]
    have h1 : exampleRowArgs.orientations =
      [⟨⟨1, 0, 0⟩, ⟨0, 1, 0⟩, ⟨0, 0, 1⟩⟩, ⟨⟨1, 0, 0⟩, ⟨0, 1, 0⟩, ⟨0, 0, 1⟩⟩] := rfl
    simp [h1, hn, hb]
  simp [PatternSimulation.linesCoordinates, PatternSimulation.linesPixel, hlines, hpc, hpcs]

/-- C141 is false: the collections of a number in a map with rows and columns are not those of a
single pattern. -/
theorem C141_row_violated : ∃ (a : SimulationArgs) (s : PatternSimulation)
    (cs : List SimCollection), a.WF ∧ onDetector a = .ok s ∧
      s.asCollections (.int 0) "pixel" {} = .ok cs ∧
      ∀ i, segmentsDrawn cs ≠ (s.linesCoordinates i).map fun b => ((b.x0, b.y0), (b.x1, b.y1)) := by
  obtain ⟨s, hs, hsh⟩ := (C88_shapes exampleRowArgs).2 (.inl rfl)
  obtain ⟨b, h0, h1, h2⟩ := exampleRow_lines hs
  have hrow := (C141_row s (ny := 1) (nx := 2) hsh (k := 0) (y := 0) ⟨by omega, by simp⟩).1
  have hl : s.linesCoordinatesAt (.int 0) "pixel" = .ok [b, b] := by
    rw [hrow]; simp [List.range_succ, h0, h1]
  have hp : parseCoordinateFormat "pixel" = .ok .pixel := by simp [parseCoordinateFormat]
  refine ⟨exampleRowArgs, s, [.lines [((b.x0, b.y0), (b.x1, b.y1)), ((b.x0, b.y0), (b.x1, b.y1))]],
    exampleRow_wf, hs, ?_, fun i hi => ?_⟩
  · simp [PatternSimulation.asCollections, PatternSimulation.linesCollection, hp, hl, bind,
      Except.bind, Except.map]
  · have hlen := congrArg List.length hi
    have hle : (s.linesCoordinates i).length ≤ 1 := by
      match i with
      | 0 => simp [h0]
      | 1 => simp [h1]
      | n + 2 => simp [h2]
    simp [segmentsDrawn] at hlen
    omega

example : NamesPattern exampleRowArgs.shape (.tuple [0, -1]) 1 :=
  .tuple2 (ny := 1) (nx := 2) (y := 0) (x := 1) ⟨by omega, .inl rfl⟩ ⟨by omega, .inr rfl⟩

example {s : PatternSimulation} (h : onDetector exampleRowArgs = .ok s) :
    ∃ view cs, s.plotWith (.tuple [0, -1]) "gnomonic" (some (61, 61)) {} = .ok (view, cs) := by
  rcases C141_plot_partial exampleRow_wf h (ix := .tuple [0, -1])
    (.tuple2 (ny := 1) (nx := 2) (y := 0) (x := 1) ⟨by omega, .inl rfl⟩ ⟨by omega, .inr rfl⟩)
    (fmt := "gnomonic") (.inr rfl) {} (pattern := some (61, 61)) (fun sh hsh => by
      cases hsh; rfl) with ⟨-, h1, -⟩ | ⟨view, cs, h1, -⟩
  · simp at h1
  · exact ⟨view, cs, h1⟩

example : exampleRowArgs.pcOf 1 examplePc := .inl ⟨rfl, rfl⟩

end
end Kp
