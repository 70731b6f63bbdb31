/-
C116: a geometrical simulation lies on the features of the patterns simulated from a master pattern
with the same rotations and the same detector.
-/
import Verif.Lemmas.PatternOverlay
import Verif.Props.MasterPattern

namespace Kp
open Spec
noncomputable section

/-! ### Patterns -/

/-- C116: every pixel of every pattern simulated from a master pattern shows (up to the rescaling of
the whole pattern) the intensity of the master pattern in the crystal direction that the pixel's
centre looks along, for its own rotation and PC. -/
theorem C116_pixels (mp : MasterPattern) (hs : mp.checkSuitable = .ok ())
    {rotShape : List ℕ} {rots : List Quat} (hr : rots.length = rotShape.prod)
    (h2 : rotShape.length ≤ 2) {d : Detector ℝ} (hd : d.pc.length = d.nav.prod)
    (hsh : d.nav = rotShape ∨ d.nav = [1]) {m : M3} (hm : ProperRotation m)
    (hz : ∀ p ∈ d.pc, 0 < p.z) {energy : Option ℝ} {upper lower : Img ℝ}
    (ha : mp.arraysFromEnergy energy = some (upper, lower)) {dtypeOut : DType} {lo hi : ℤ}
    (hrange : (if dtypeOut ≠ mp.dtype then dtypeRange dtypeOut else some (1, 2)) = some (lo, hi))
    {chunks : List ℕ} (hc : chunks.sum = rots.length) :
    ∃ out, mp.getPatterns rotShape rots d m energy dtypeOut chunks = .ok (rotShape, out) ∧
      ∀ k q, rots[k]? = some q → ∃ p, d.pc[if d.nav = [1] then 0 else k]? = some p ∧
        ∃ w : List ℝ, out[k]? = some (some ((if dtypeOut ≠ mp.dtype then
            rescaleWithMinMax w (listMin w) (listMax w) lo hi else w).map (castTo dtypeOut))) ∧
          w.length = d.nrows * d.ncols ∧
          ∀ r c, r < d.nrows → c < d.ncols → ∃ u, PixelDirection d.nrows d.ncols m q p r c u ∧
            w[r * d.ncols + c]? = some (projectPixel ⟨1, 0, 0, 0⟩ upper lower upper.cols upper.rows
              (((upper.cols : ℝ) - 1) / 2) u) := by
  obtain ⟨out, ho, -, hk⟩ := C63_own_rotation_and_pc_partial mp hs hr h2 hd hsh m ha hrange hc
  refine ⟨out, ho, fun k q hq => ?_⟩
  obtain ⟨p, hp, hout⟩ := hk k q hq
  obtain ⟨hlen, hpix⟩ := C30_pixel_centers (d := d) hm (hz p (List.mem_of_getElem? hp))
    (List.replicate (d.nrows * d.ncols) true)
  refine ⟨p, hp, (pcDirections d m (List.replicate (d.nrows * d.ncols) true) p).map (projectPixel q
    upper lower upper.cols upper.rows (((upper.cols : ℝ) - 1) / 2)),
    by rw [hout]; unfold projectPattern; simp only [decide_eq_true_eq], ?_, ?_⟩
  · simpa using hlen
  · intro r c hrr hcc
    have hlt : r * d.ncols + c < d.nrows * d.ncols := by
      calc r * d.ncols + c < r * d.ncols + d.ncols := by omega
        _ = (r + 1) * d.ncols := by ring
        _ ≤ d.nrows * d.ncols := Nat.mul_le_mul_right _ hrr
    obtain ⟨v, hv, hunit, t, ht, hmv⟩ := hpix r c hrr hcc (by simp [hlt])
    have hidx : ((List.replicate (d.nrows * d.ncols) true).take (r * d.ncols + c)).count true =
        r * d.ncols + c := by
      rw [List.take_replicate, List.count_replicate_self]; omega
    rw [hidx] at hv
    refine ⟨rotateVector q v, ⟨v, ?_, rfl, t, ht, hmv⟩, ?_⟩
    · unfold V3.dot; linarith
    · rw [List.getElem?_map, hv]
      simp only [Option.map_some, projectPixel, rotateVector_one]

/-- C116: the direction of a pixel is one. -/
theorem C116_direction_unique {nr nc : ℕ} {m : M3} (hm : ProperRotation m) {q : Quat} {p : PC ℝ}
    {r c : ℕ} {u u' : V3 ℝ} (h : PixelDirection nr nc m q p r c u)
    (h' : PixelDirection nr nc m q p r c u') : u = u' := by
  obtain ⟨s, hs, rfl, t, ht, hms⟩ := h
  obtain ⟨s', hs', rfl, t', ht', hms'⟩ := h'
  have e1 : t * t * ((gnomonic nr nc p ((r : ℝ) + 1 / 2, (c : ℝ) + 1 / 2)).2 ^ 2 +
      (gnomonic nr nc p ((r : ℝ) + 1 / 2, (c : ℝ) + 1 / 2)).1 ^ 2 + 1) = 1 := by
    have := hm.apply_dot s s
    rw [hms, hs] at this
    unfold V3.smul V3.dot at this
    simp only at this
    linarith
  have e2 : t' * t' * ((gnomonic nr nc p ((r : ℝ) + 1 / 2, (c : ℝ) + 1 / 2)).2 ^ 2 +
      (gnomonic nr nc p ((r : ℝ) + 1 / 2, (c : ℝ) + 1 / 2)).1 ^ 2 + 1) = 1 := by
    have := hm.apply_dot s' s'
    rw [hms', hs'] at this
    unfold V3.smul V3.dot at this
    simp only at this
    linarith
  have hpos : 0 < (gnomonic nr nc p ((r : ℝ) + 1 / 2, (c : ℝ) + 1 / 2)).2 ^ 2 +
      (gnomonic nr nc p ((r : ℝ) + 1 / 2, (c : ℝ) + 1 / 2)).1 ^ 2 + 1 := by positivity
  have ett : t = t' := by
    have h3 : t * t = t' * t' := mul_right_cancel₀ hpos.ne' (e1.trans e2.symm)
    nlinarith
  subst ett
  have hinj : ∀ a b : V3 ℝ, m.apply a = m.apply b → a = b := by
    intro a b hab
    have h0 : (⟨a.x - b.x, a.y - b.y, a.z - b.z⟩ : V3 ℝ).dot ⟨a.x - b.x, a.y - b.y, a.z - b.z⟩ =
        0 := by
      rw [← hm.apply_dot]
      have : m.apply ⟨a.x - b.x, a.y - b.y, a.z - b.z⟩ = ⟨0, 0, 0⟩ := by
        have e := hab
        unfold M3.apply V3.dot at e ⊢
        obtain ⟨e1, e2, e3⟩ := V3.mk.inj e
        ext <;> simp only <;> linarith
      rw [this]; simp [V3.dot]
    unfold V3.dot at h0
    simp only at h0
    have i1 : a.x - b.x = 0 := by
      nlinarith [sq_nonneg (a.x - b.x), sq_nonneg (a.y - b.y), sq_nonneg (a.z - b.z)]
    have i2 : a.y - b.y = 0 := by
      nlinarith [sq_nonneg (a.x - b.x), sq_nonneg (a.y - b.y), sq_nonneg (a.z - b.z)]
    have i3 : a.z - b.z = 0 := by
      nlinarith [sq_nonneg (a.x - b.x), sq_nonneg (a.y - b.y), sq_nonneg (a.z - b.z)]
    ext <;> linarith
  rw [hinj s s' (hms.trans hms'.symm)]

/-! ### Zone axes -/

section
variable {d : Detector ℝ} {m base recbase : M3} {reduce : Miller → Miller}
  {reflectors : List Miller} {shape : List ℕ} {rots : List Quat} {s : PatternSimulation}

/-- C116 (partial): if the centre of a pixel looks along a zone axis of the crystal, then this zone
axis is drawn inside that pixel, for every orientation, unit cell, PC and detector.  It is not drawn
at its centre, but off by `1/2 - (c + 1/2) / n` (false: see `C116_exact_violated`).  Missing: PCs in
the lower right quadrant of the detector (false: see `C116_lower_right_violated`). -/
theorem C116_zone_axes_partial
    (wf : (simulationFor d m base recbase reduce reflectors shape rots).WF)
    (h : onDetector (simulationFor d m base recbase reduce reflectors shape rots) = .ok s)
    (hr2 : 2 ≤ d.nrows) (hc2 : 2 ≤ d.ncols) {i : ℕ} {q : Quat} (hqi : rots[i]? = some q)
    (hq : lenSq q = 1) {p : PC ℝ}
    (hp : (simulationFor d m base recbase reduce reflectors shape rots).pcOf i p) (hz : 0 < p.z)
    (hquad : p.x ≤ 1 / 2 ∨ p.y ≤ 1 / 2) {r c : ℕ} (hr : r < d.nrows) (hc : c < d.ncols) {u : V3 ℝ}
    (hu : PixelDirection d.nrows d.ncols m q p r c u) {v1 v2 : Miller} (h1 : v1 ∈ s.reflectors)
    (h2 : v2 ∈ s.reflectors) (hne : v1.cross v2 ≠ ⟨0, 0, 0⟩) {k : ℝ} (hk : 0 < k)
    (hw : M3.vecMul (reduce (v1.cross v2)).real base = V3.smul k u) :
    ∃ pos ∈ s.zoneAxesCoordinates i, InsidePixel r c pos.1 pos.2 ∧
      pos.1 - c = 1 / 2 - ((c : ℝ) + 1 / 2) / d.ncols ∧
      pos.2 - r = 1 / 2 - ((r : ℝ) + 1 / 2) / d.nrows := by
  obtain ⟨t, ht, hdir⟩ := direction_of_pixel hq hu hk hw
  have hoi : (simulationFor d m base recbase reduce reflectors shape rots).orientations[i]? =
      some (M3.matMul q.toMatrix m.transpose) := by
    simp [simulationFor, orientationMatrices, hqi]
  have hT : (simulationFor d m base recbase reduce reflectors shape rots).direction
      (reduce (v1.cross v2)) (M3.matMul q.toMatrix m.transpose) =
      ⟨t * (pixelGn d p r c).1, t * (pixelGn d p r c).2, t⟩ := by
    unfold SimulationArgs.direction simulationFor
    simp only
    rw [vecMul_matMul, hdir]
  have e1 : t * (pixelGn d p r c).1 / t = (pixelGn d p r c).1 := by field_simp
  have e2 : t * (pixelGn d p r c).2 / t = (pixelGn d p r c).2 := by field_simp
  have hlt := pixelGn_lt_rMaxSq hz hquad hr hc
  obtain ⟨j, l, -, hl, hlj⟩ := C88_zone_axes_shown_partial wf h h1 h2 hne hoi hp
    (t := ⟨t * (pixelGn d p r c).1, t * (pixelGn d p r c).2, t⟩) hT.symm ht
    (by
      simp only [e1, e2]
      exact withinBounds_pixelGn (d := d) hz hr hc)
    (by
      simp only [e1, e2]
      unfold Detector.rMax
      exact Real.sqrt_lt_sqrt (by positivity) hlt)
  simp only [e1, e2, Prod.mk.eta] at hlj
  refine ⟨simToPixel d p (pixelGn d p r c), ?_, insidePixel_pixelGn hr2 hc2 hz hr hc, ?_, ?_⟩
  · unfold PatternSimulation.zoneAxesCoordinates
    rw [List.getD_eq_getElem?_getD, hl, Option.getD_some, List.mem_filterMap]
    exact ⟨_, List.mem_of_getElem? hlj, rfl⟩
  · rw [simToPixel_pixelGn hr2 hc2 hz]
    have : (d.ncols : ℝ) ≠ 0 := by exact_mod_cast (by omega : d.ncols ≠ 0)
    field_simp; ring
  · rw [simToPixel_pixelGn hr2 hc2 hz]
    have : (d.nrows : ℝ) ≠ 0 := by exact_mod_cast (by omega : d.nrows ≠ 0)
    field_simp; ring

/-! ### Bands -/

/-- Lines in pixels of one pattern. -/
theorem mem_linesCoordinates {a : SimulationArgs} (wf : a.WF) (h : onDetector a = .ok s) {i : ℕ}
    {u : M3} {p : PC ℝ} (hu : a.orientations[i]? = some u) (hp : a.pcOf i p) (l : BandTrace) :
    l ∈ s.linesCoordinates i ↔ ∃ v ∈ s.reflectors, ∃ b, lineTrace a.maxR (a.normal v u) = some b ∧
      l = ⟨(simToPixel a.detector p (b.x0, b.y0)).1, (simToPixel a.detector p (b.x0, b.y0)).2,
        (simToPixel a.detector p (b.x1, b.y1)).1, (simToPixel a.detector p (b.x1, b.y1)).2⟩ := by
  obtain ⟨hn, hd, -, hpc, hrf, -, hl, -⟩ := onDetector_ok h
  have hpi := (pcs_getElem wf hn hu).2 hp
  unfold PatternSimulation.linesCoordinates PatternSimulation.linesPixel
  rw [List.getD_eq_getElem?_getD, List.getElem?_zipWith, hl, hpc, hpi, List.getElem?_map, hu, hrf, hd]
  simp only [Option.map_some, Option.getD_some, List.mem_filterMap, List.mem_map, id,
    List.map_map, Function.comp]
  constructor
  · rintro ⟨o, ⟨v, hv, rfl⟩, ho⟩
    cases ht : lineTrace a.maxR (a.normal v u) with
    | none => rw [ht] at ho; simp at ho
    | some b =>
      rw [ht] at ho
      simp only [Option.map_some, Option.some.injEq] at ho
      exact ⟨v, hv, b, ht, ho.symm⟩
  · rintro ⟨v, hv, b, ht, rfl⟩
    exact ⟨_, ⟨v, hv, rfl⟩, by rw [ht]; rfl⟩

/-- Opposite Miller indices. -/
def oppositeMiller (v : Miller) : Miller := ⟨-v.x, -v.y, -v.z⟩

theorem normal_opposite (a : SimulationArgs) (v : Miller) (u : M3) :
    a.normal (oppositeMiller v) u =
      ⟨-(a.normal v u).x, -(a.normal v u).y, -(a.normal v u).z⟩ := by
  unfold SimulationArgs.normal oppositeMiller Miller.real M3.vecMul
  ext <;> simp only [Int.cast_neg] <;> ring

/-- C116 (partial): if the centre of a pixel looks along a direction in the plane of a reflector,
then a line is drawn through that pixel, for reflectors given with their opposites, every
orientation, unit cell, PC and detector.  Missing: bands exactly through the PC in all patterns
(false: see `C116_band_through_pc_violated`), and PCs in the lower right quadrant. -/
theorem C116_bands_partial
    (wf : (simulationFor d m base recbase reduce reflectors shape rots).WF)
    (h : onDetector (simulationFor d m base recbase reduce reflectors shape rots) = .ok s)
    (hm : ProperRotation m) (hr2 : 2 ≤ d.nrows) (hc2 : 2 ≤ d.ncols) {i : ℕ} {q : Quat}
    (hqi : rots[i]? = some q) (hq : lenSq q = 1) {p : PC ℝ}
    (hp : (simulationFor d m base recbase reduce reflectors shape rots).pcOf i p) (hz : 0 < p.z)
    (hquad : p.x ≤ 1 / 2 ∨ p.y ≤ 1 / 2) {r c : ℕ} (hr : r < d.nrows) (hc : c < d.ncols) {u : V3 ℝ}
    (hu : PixelDirection d.nrows d.ncols m q p r c u) {v : Miller} (hv : v ∈ reflectors)
    (hv' : oppositeMiller v ∈ reflectors)
    (hplane : (M3.vecMul v.real recbase).dot u = 0)
    (hthrough : ∃ q' ∈ rots, (M3.vecMul (M3.vecMul v.real recbase)
      (M3.matMul q'.toMatrix m.transpose)).z ≠ 0) :
    ∃ l ∈ s.linesCoordinates i, ∃ x y, OnDrawnLine l x y ∧ InsidePixel r c x y := by
  set a := simulationFor d m base recbase reduce reflectors shape rots with ha
  have hoi : a.orientations[i]? = some (M3.matMul q.toMatrix m.transpose) := by
    simp [ha, simulationFor, orientationMatrices, hqi]
  have hnorm : ∀ (v : Miller) (q : Quat), a.normal v (M3.matMul q.toMatrix m.transpose) =
      M3.vecMul (M3.vecMul v.real recbase) (M3.matMul q.toMatrix m.transpose) := by
    intro v q
    unfold SimulationArgs.normal
    rw [vecMul_matMul]
    rfl
  -- the reflector or its opposite is kept and not turned away from the detector
  obtain ⟨w, hws, hwz, hw0, hwon⟩ : ∃ w ∈ s.reflectors,
      0 ≤ (a.normal w (M3.matMul q.toMatrix m.transpose)).z ∧
      a.normal w (M3.matMul q.toMatrix m.transpose) ≠ ⟨0, 0, 0⟩ ∧
      OnTrace (a.normal w (M3.matMul q.toMatrix m.transpose)) (pixelGn d p r c).1
        (pixelGn d p r c).2 := by
    have hon : OnTrace (a.normal v (M3.matMul q.toMatrix m.transpose)) (pixelGn d p r c).1
        (pixelGn d p r c).2 := by
      rw [hnorm]
      exact (normal_of_pixel hm hu _).2 hplane
    have hon' : OnTrace (a.normal (oppositeMiller v) (M3.matMul q.toMatrix m.transpose))
        (pixelGn d p r c).1 (pixelGn d p r c).2 := by
      rw [normal_opposite]
      unfold OnTrace at hon ⊢
      simp only
      linarith
    have hmemq : ∀ q' ∈ rots, M3.matMul q'.toMatrix m.transpose ∈ a.orientations := by
      intro q' hq'
      exact List.mem_map.2 ⟨q', hq', rfl⟩
    have hopz : ∀ q' : Quat, (a.normal (oppositeMiller v) (M3.matMul q'.toMatrix m.transpose)).z =
        -(a.normal v (M3.matMul q'.toMatrix m.transpose)).z := fun q' => by rw [normal_opposite]
    have hqr : q ∈ rots := List.mem_of_getElem? hqi
    rcases lt_trichotomy (a.normal v (M3.matMul q.toMatrix m.transpose)).z 0 with hlt | h0 | hgt
    · refine ⟨oppositeMiller v, (C88_reflectors_kept h _).2 ⟨hv', _, hmemq q hqr, ?_⟩, ?_, ?_, hon'⟩
      · rw [hopz]; linarith
      · rw [hopz]; linarith
      · intro he
        have := hopz q
        rw [he] at this
        simp only at this
        linarith
    · obtain ⟨q', hq', hne'⟩ := hthrough
      rw [← hnorm] at hne'
      have hnz : a.normal v (M3.matMul q.toMatrix m.transpose) ≠ ⟨0, 0, 0⟩ := by
        intro he
        apply hne'
        rw [hnorm] at he ⊢
        rw [normal_ne_zero hm hq he]
        simp [M3.vecMul]
      rcases lt_or_gt_of_ne hne' with hl | hg
      · refine ⟨oppositeMiller v, (C88_reflectors_kept h _).2 ⟨hv', _, hmemq q' hq', ?_⟩, ?_, ?_,
          hon'⟩
        · rw [hopz]; linarith
        · rw [hopz, h0]; simp
        · intro he
          apply hnz
          rw [normal_opposite] at he
          obtain ⟨e1, e2, e3⟩ := V3.mk.inj he
          ext <;> simp only <;> linarith
      · exact ⟨v, (C88_reflectors_kept h _).2 ⟨hv, _, hmemq q' hq', hg⟩, h0.ge, hnz, hon⟩
    · refine ⟨v, (C88_reflectors_kept h _).2 ⟨hv, _, hmemq q hqr, hgt⟩, hgt.le, ?_, hon⟩
      intro he
      rw [he] at hgt
      exact lt_irrefl _ hgt
  have hlt := pixelGn_lt_rMaxSq hz hquad hr hc
  have hrm := rMax_le_maxR a hp
  have hin : (pixelGn d p r c).1 ^ 2 + (pixelGn d p r c).2 ^ 2 < a.maxR ^ 2 := by
    have h0 : 0 ≤ d.rMaxSq p := le_trans (by positivity) hlt.le
    have h1 : d.rMax p ^ 2 = d.rMaxSq p := Real.sq_sqrt h0
    have h2 : (0 : ℝ) ≤ d.rMax p := Real.sqrt_nonneg _
    have h3 : d.rMax p ≤ a.maxR := hrm
    nlinarith
  cases hb : lineTrace a.maxR (a.normal w (M3.matMul q.toMatrix m.transpose)) with
  | none =>
    rcases lineTrace_none hb (by linarith) hw0 _ _ hwon with h' | h'
    · exact absurd hin h'
    · have h3 : 0 ≤ d.rMax p := Real.sqrt_nonneg _
      have h4 : a.maxR = 0 := le_antisymm h' (le_trans h3 hrm)
      rw [h4] at hin
      nlinarith [sq_nonneg (pixelGn d p r c).1, sq_nonneg (pixelGn d p r c).2]
  | some b =>
    have htr := lineTrace_isTrace hb
    obtain ⟨t, ht0, ht1, hx, hy⟩ := between_ends htr hwon hin hw0
    refine ⟨_, (mem_linesCoordinates wf h hoi hp _).2 ⟨w, hws, b, hb, rfl⟩,
      (simToPixel d p (pixelGn d p r c)).1, (simToPixel d p (pixelGn d p r c)).2,
      ⟨t, ht0, ht1, ?_⟩, insidePixel_pixelGn hr2 hc2 hz hr hc⟩
    exact simToPixel_between d p hx hy

/-- C116: lines are drawn nowhere else: if a line of a pattern runs through the point where a zone
axis along the direction of a pixel would be drawn (inside that pixel, `C116_zone_axes_partial`),
then that direction is in the plane of a reflector of the simulation. -/
theorem C116_no_other_bands
    (wf : (simulationFor d m base recbase reduce reflectors shape rots).WF)
    (h : onDetector (simulationFor d m base recbase reduce reflectors shape rots) = .ok s)
    (hm : ProperRotation m) (hr2 : 2 ≤ d.nrows) (hc2 : 2 ≤ d.ncols) {i : ℕ} {q : Quat}
    (hqi : rots[i]? = some q) {p : PC ℝ}
    (hp : (simulationFor d m base recbase reduce reflectors shape rots).pcOf i p) (hz : 0 < p.z)
    {r c : ℕ} {u : V3 ℝ} (hu : PixelDirection d.nrows d.ncols m q p r c u) {l : BandTrace}
    (hl : l ∈ s.linesCoordinates i)
    (hon : OnDrawnLine l (c + (1 / 2 - ((c : ℝ) + 1 / 2) / d.ncols))
      (r + (1 / 2 - ((r : ℝ) + 1 / 2) / d.nrows))) :
    ∃ v ∈ reflectors, (M3.vecMul v.real recbase).dot u = 0 := by
  set a := simulationFor d m base recbase reduce reflectors shape rots with ha
  have hoi : a.orientations[i]? = some (M3.matMul q.toMatrix m.transpose) := by
    simp [ha, simulationFor, orientationMatrices, hqi]
  obtain ⟨v, hv, b, hb, rfl⟩ := (mem_linesCoordinates wf h hoi hp l).1 hl
  refine ⟨v, ((C88_reflectors_kept h v).1 hv).1, ?_⟩
  obtain ⟨t, -, -, hx, hy⟩ := hon
  obtain ⟨h0, h1, -⟩ := lineTrace_isTrace hb
  have hpos : simToPixel d p (pixelGn d p r c) =
      (c + (1 / 2 - ((c : ℝ) + 1 / 2) / d.ncols), r + (1 / 2 - ((r : ℝ) + 1 / 2) / d.nrows)) := by
    rw [simToPixel_pixelGn hr2 hc2 hz]
    have h3 : (d.ncols : ℝ) ≠ 0 := by exact_mod_cast (by omega : d.ncols ≠ 0)
    have h4 : (d.nrows : ℝ) ≠ 0 := by exact_mod_cast (by omega : d.nrows ≠ 0)
    refine Prod.ext ?_ ?_ <;> simp only <;> field_simp <;> ring
  obtain ⟨k1, k2⟩ := simToPixel_between d p (b := b) (s := t) rfl rfl
  have he : pixelGn d p r c = (b.x0 + t * (b.x1 - b.x0), b.y0 + t * (b.y1 - b.y0)) := by
    apply simToPixel_inj hr2 hc2 hz
    rw [hpos]
    exact Prod.ext (hx.trans k1.symm) (hy.trans k2.symm)
  have hon : OnTrace (a.normal v (M3.matMul q.toMatrix m.transpose)) (pixelGn d p r c).1
      (pixelGn d p r c).2 := by
    rw [he]
    unfold OnTrace at h0 h1 ⊢
    simp only
    linear_combination (1 - t) * h0 + t * h1
  have hn : a.normal v (M3.matMul q.toMatrix m.transpose) =
      M3.vecMul (M3.vecMul v.real recbase) (M3.matMul q.toMatrix m.transpose) := by
    unfold SimulationArgs.normal
    rw [vecMul_matMul]
    rfl
  rw [hn] at hon
  exact (normal_of_pixel hm hu _).1 hon

end

/-! ### Where it fails -/

/-- The detector without tilts. -/
def flatMatrix : M3 := sampleToDetectorMatrix 0 0 0 0

theorem flatMatrix_proper : ProperRotation flatMatrix :=
  C08_sample_to_detector_is_proper_rotation 0 0 0 0

/-- A rotation which aligns crystal and detector axes. -/
def alignedQuat : Quat := ⟨1 / 2, -1 / 2, -1 / 2, -1 / 2⟩

theorem alignedQuat_unit : lenSq alignedQuat = 1 := by
  unfold lenSq alignedQuat; norm_num

theorem aligned (w : V3 ℝ) :
    M3.vecMul w (M3.matMul alignedQuat.toMatrix flatMatrix.transpose) = w := by
  rw [vecMul_matMul, vecMul_transpose]
  unfold flatMatrix
  rw [C08_zero_angles]
  unfold M3.vecMul Quat.toMatrix alignedQuat
  ext <;> simp only <;> ring

/-- In the aligned crystal, the direction of a pixel is along its gnomonic coordinates. -/
theorem aligned_pixel {d : Detector ℝ} {p : PC ℝ} {r c : ℕ} {w : V3 ℝ} (hz : 0 < w.z)
    (hx : w.x / w.z = (pixelGn d p r c).1) (hy : w.y / w.z = (pixelGn d p r c).2) :
    ∃ u k, 0 < k ∧ w = V3.smul k u ∧
      PixelDirection d.nrows d.ncols flatMatrix alignedQuat p r c u := by
  have hl : 0 < w.dot w := by
    unfold V3.dot
    nlinarith [sq_nonneg w.x, sq_nonneg w.y, mul_pos hz hz]
  set L := Real.sqrt (w.dot w) with hL
  have hLp : 0 < L := Real.sqrt_pos.2 hl
  have hLL : L * L = w.dot w := Real.mul_self_sqrt hl.le
  -- the same direction in the sample frame
  set s : V3 ℝ := ⟨w.z / L, w.x / L, w.y / L⟩ with hs
  refine ⟨⟨w.x / L, w.y / L, w.z / L⟩, L, hLp, ?_, s, ?_, ?_, w.z / L, div_pos hz hLp, ?_⟩
  · unfold V3.smul
    ext <;> simp only <;> field_simp
  · have h1 : w.x * w.x + w.y * w.y + w.z * w.z = L * L := hLL.symm
    rw [hs]
    unfold V3.dot
    simp only
    field_simp
    linarith
  · rw [hs]
    unfold rotateVector alignedQuat
    ext <;> simp only <;> ring
  · rw [flatMatrix, C08_zero_angles, hs]
    change _ = V3.smul (w.z / L) ⟨(pixelGn d p r c).1, (pixelGn d p r c).2, 1⟩
    rw [← hx, ← hy]
    unfold V3.smul
    ext <;> simp only <;> field_simp

/-- The unit cell of a cube. -/
def cubeMatrix : M3 := ⟨⟨1, 0, 0⟩, ⟨0, 1, 0⟩, ⟨0, 0, 1⟩⟩

theorem vecMul_cube (v : V3 ℝ) : M3.vecMul v cubeMatrix = v := by
  unfold M3.vecMul cubeMatrix
  ext <;> simp

/-- One pattern of 10 x 10 pixels of the aligned cubic crystal. -/
def overlayArgs (p : PC ℝ) (reflectors : List Miller) : SimulationArgs :=
  simulationFor ⟨10, 10, 1, 1, 0, 0, 0, 0, [1], [p]⟩ flatMatrix cubeMatrix cubeMatrix id reflectors
    [1] [alignedQuat]

theorem overlayArgs_wf (p : PC ℝ) (reflectors : List Miller) : (overlayArgs p reflectors).WF where
  shape := .inl ⟨1, rfl, rfl⟩
  onePc := fun _ => rfl
  pcs := fun h => absurd rfl h

theorem overlayArgs_pc (p : PC ℝ) (reflectors : List Miller) :
    (overlayArgs p reflectors).pcOf 0 p := .inl ⟨rfl, rfl⟩

theorem overlayArgs_ok (p : PC ℝ) (reflectors : List Miller) :
    ∃ s, onDetector (overlayArgs p reflectors) = .ok s := by
  unfold onDetector
  rw [if_neg (by rintro ⟨h, -⟩; exact h rfl)]
  exact ⟨_, rfl⟩

theorem overlayArgs_normal (p : PC ℝ) (reflectors : List Miller) (v : Miller) (u : M3)
    (hu : u ∈ (overlayArgs p reflectors).orientations) :
    (overlayArgs p reflectors).normal v u = v.real ∧
      (overlayArgs p reflectors).direction v u = v.real := by
  have : u = M3.matMul alignedQuat.toMatrix flatMatrix.transpose := by
    simpa [overlayArgs, simulationFor, orientationMatrices] using hu
  subst this
  unfold SimulationArgs.normal SimulationArgs.direction
  constructor
  · rw [vecMul_matMul, aligned]
    exact vecMul_cube _
  · rw [vecMul_matMul, aligned]
    exact vecMul_cube _

/-- C116 is false if the position should be that of the pixel: the zone axis along the direction of
pixel (0, 0) of a pattern of 10 x 10 pixels is drawn at (9/20, 9/20), almost half a pixel off. -/
theorem C116_exact_violated : ∃ (a : SimulationArgs) (s : PatternSimulation) (p : PC ℝ) (u : V3 ℝ),
    a = overlayArgs p [⟨10, 0, 9⟩, ⟨11, 1, 9⟩] ∧ onDetector a = .ok s ∧
    PixelDirection 10 10 flatMatrix alignedQuat p 0 0 u ∧ (∃ k, 0 < k ∧ ⟨-9, 9, 10⟩ = V3.smul k u) ∧
    (9 / 20, 9 / 20) ∈ s.zoneAxesCoordinates 0 := by
  obtain ⟨s, hs⟩ := overlayArgs_ok ⟨1 / 2, 1 / 2, 1 / 2⟩ [⟨10, 0, 9⟩, ⟨11, 1, 9⟩]
  obtain ⟨u, k, hk, hku, hu⟩ := aligned_pixel (d := ⟨10, 10, 1, 1, 0, 0, 0, 0, [1],
    [⟨1 / 2, 1 / 2, 1 / 2⟩]⟩) (p := ⟨1 / 2, 1 / 2, 1 / 2⟩) (r := 0) (c := 0) (w := ⟨-9, 9, 10⟩)
    (by norm_num) (by simp only [pixelGn, gnomonic]; norm_num)
    (by simp only [pixelGn, gnomonic]; norm_num)
  refine ⟨_, s, ⟨1 / 2, 1 / 2, 1 / 2⟩, u, rfl, hs, hu, ⟨k, hk, hku⟩, ?_⟩
  have hkept : ∀ v ∈ [(⟨10, 0, 9⟩ : Miller), ⟨11, 1, 9⟩], v ∈ s.reflectors := by
    intro v hv
    refine (C88_reflectors_kept hs v).2 ⟨hv, M3.matMul alignedQuat.toMatrix flatMatrix.transpose,
      by simp [overlayArgs, simulationFor, orientationMatrices], ?_⟩
    rw [(overlayArgs_normal _ _ v _ (by simp [overlayArgs, simulationFor, orientationMatrices])).1]
    simp only [List.mem_cons, List.not_mem_nil, or_false] at hv
    rcases hv with rfl | rfl <;> norm_num [Miller.real]
  obtain ⟨pos, hpos, -, e1, e2⟩ := C116_zone_axes_partial (overlayArgs_wf _ _) hs (by norm_num)
    (by norm_num) (i := 0) (q := alignedQuat) rfl alignedQuat_unit (overlayArgs_pc _ _)
    (by norm_num) (by norm_num) (r := 0) (c := 0) (by norm_num) (by norm_num) hu
    (v1 := ⟨10, 0, 9⟩) (v2 := ⟨11, 1, 9⟩) (hkept _ (by simp)) (hkept _ (by simp)) (by decide) hk
    (by
      rw [vecMul_cube, ← hku]
      simp [Miller.real, V3.cross])
  have he : pos = (9 / 20, 9 / 20) := by
    refine Prod.ext ?_ ?_
    · norm_num at e1 ⊢; linarith
    · norm_num at e2 ⊢; linarith
  exact he ▸ hpos

/-- C116 is false for PCs in the lower right quadrant: the first pixel looks along the zone axis of
(10 0 17) and (11 1 17), but no zone axis is drawn. -/
theorem C116_lower_right_violated : ∃ (s : PatternSimulation) (p : PC ℝ) (u : V3 ℝ),
    onDetector (overlayArgs p [⟨10, 0, 17⟩, ⟨11, 1, 17⟩]) = .ok s ∧
    PixelDirection 10 10 flatMatrix alignedQuat p 0 0 u ∧
    (∃ k, 0 < k ∧ ⟨-17, 17, 10⟩ = V3.smul k u) ∧
    (⟨10, 0, 17⟩ : Miller).cross ⟨11, 1, 17⟩ = ⟨-17, 17, 10⟩ ∧
    s.reflectors = [⟨10, 0, 17⟩, ⟨11, 1, 17⟩] ∧ s.zoneAxesCoordinates 0 = [] := by
  obtain ⟨s, hs⟩ := overlayArgs_ok ⟨9 / 10, 9 / 10, 1 / 2⟩ [⟨10, 0, 17⟩, ⟨11, 1, 17⟩]
  obtain ⟨u, k, hk, hku, hu⟩ := aligned_pixel (d := ⟨10, 10, 1, 1, 0, 0, 0, 0, [1],
    [⟨9 / 10, 9 / 10, 1 / 2⟩]⟩) (p := ⟨9 / 10, 9 / 10, 1 / 2⟩) (r := 0) (c := 0)
    (w := ⟨-17, 17, 10⟩) (by norm_num) (by simp only [pixelGn, gnomonic]; norm_num)
    (by simp only [pixelGn, gnomonic]; norm_num)
  have hrefl : (overlayArgs ⟨9 / 10, 9 / 10, 1 / 2⟩ [⟨10, 0, 17⟩, ⟨11, 1, 17⟩]).visibleReflectors =
      [⟨10, 0, 17⟩, ⟨11, 1, 17⟩] := by
    unfold SimulationArgs.visibleReflectors
    apply List.filter_eq_self.2
    intro v hv
    rw [List.any_eq_true]
    refine ⟨M3.matMul alignedQuat.toMatrix flatMatrix.transpose,
      by simp [overlayArgs, simulationFor, orientationMatrices], ?_⟩
    rw [decide_eq_true_eq,
      (overlayArgs_normal _ _ v _ (by simp [overlayArgs, simulationFor, orientationMatrices])).1]
    have hv' : v ∈ [(⟨10, 0, 17⟩ : Miller), ⟨11, 1, 17⟩] := hv
    simp only [List.mem_cons, List.not_mem_nil, or_false] at hv'
    rcases hv' with rfl | rfl <;> norm_num [Miller.real]
  obtain ⟨-, hd, -, hpc, hrf, hza, -, hzp⟩ := onDetector_ok hs
  refine ⟨s, ⟨9 / 10, 9 / 10, 1 / 2⟩, u, hs, hu, ⟨k, hk, hku⟩, by decide, hrf.trans hrefl, ?_⟩
  rw [List.eq_nil_iff_forall_not_mem]
  intro g hg
  have horient : (overlayArgs ⟨9 / 10, 9 / 10, 1 / 2⟩ [⟨10, 0, 17⟩, ⟨11, 1, 17⟩]).orientations[0]? =
      some (M3.matMul alignedQuat.toMatrix flatMatrix.transpose) := rfl
  obtain ⟨g', hg', -, -⟩ := (C88_pixel_partial (overlayArgs_wf _ _) hs horient
    (overlayArgs_pc _ _) g).1 hg
  unfold PatternSimulation.zoneAxesGnomonic at hg'
  rw [hzp, List.getD_eq_getElem?_getD, List.getElem?_map, horient] at hg'
  simp only [Option.map_some, Option.getD_some, List.mem_filterMap, List.mem_map, id] at hg'
  obtain ⟨o, ⟨w, hw, rfl⟩, hw2⟩ := hg'
  rw [(overlayArgs_normal _ _ w _ (List.mem_of_getElem? horient)).2, zonePoint_eq_some] at hw2
  obtain ⟨hz1, hz2, rfl, hlt⟩ := hw2
  have hwz : w = ⟨-17, 17, 10⟩ ∨ w = ⟨17, -17, -10⟩ := by
    unfold SimulationArgs.visibleZoneAxes at hw
    have hw' := (List.mem_filter.1 hw).1
    unfold SimulationArgs.allZoneAxes at hw'
    rw [hrefl, List.mem_dedup] at hw'
    obtain ⟨w0, hw0, rfl⟩ := List.mem_map.1 hw'
    have : w0 ∈ [(⟨-17, 17, 10⟩ : Miller), ⟨17, -17, -10⟩] := by
      revert hw0
      have e : (([(⟨10, 0, 17⟩ : Miller), ⟨11, 1, 17⟩].flatMap fun v =>
          [(⟨10, 0, 17⟩ : Miller), ⟨11, 1, 17⟩].map fun w => v.cross w).filter
            fun v => v ≠ ⟨0, 0, 0⟩) = [⟨-17, 17, 10⟩, ⟨17, -17, -10⟩] := by decide
      rw [e]
      exact id
    simpa [overlayArgs, simulationFor] using this
  have hmax : (overlayArgs ⟨9 / 10, 9 / 10, 1 / 2⟩ [⟨10, 0, 17⟩, ⟨11, 1, 17⟩]).maxR ≤ 2 := by
    unfold SimulationArgs.maxR overlayArgs simulationFor
    simp only [List.map_cons, List.map_nil, List.foldl_cons, List.foldl_nil]
    apply max_le (by norm_num)
    unfold Detector.rMax
    rw [Real.sqrt_le_left (by norm_num)]
    unfold Detector.rMaxSq Detector.xMin Detector.xMax Detector.yMin Detector.yMax Detector.aspect
    norm_num
  rcases hwz with rfl | rfl
  · have : (2 : ℝ) < Real.sqrt (((Miller.real ⟨-17, 17, 10⟩).x / (Miller.real ⟨-17, 17, 10⟩).z) ^ 2 +
        ((Miller.real ⟨-17, 17, 10⟩).y / (Miller.real ⟨-17, 17, 10⟩).z) ^ 2) := by
      rw [Real.lt_sqrt (by norm_num)]
      norm_num [Miller.real]
    linarith
  · norm_num [Miller.real] at hz1

/-- C116 is false for bands through the PC: in a pattern of 11 columns, all pixels of the middle
column look along directions in the plane (1 0 0), and no line is drawn. -/
theorem C116_band_through_pc_violated : ∃ (d : Detector ℝ) (s : PatternSimulation) (p : PC ℝ),
    d = ⟨11, 11, 1, 1, 0, 0, 0, 0, [1], [p]⟩ ∧
    onDetector (simulationFor d flatMatrix cubeMatrix cubeMatrix id [⟨1, 0, 0⟩, ⟨-1, 0, 0⟩] [1]
      [alignedQuat]) = .ok s ∧
    (∀ r < 11, ∃ u, PixelDirection 11 11 flatMatrix alignedQuat p r 5 u ∧
      (M3.vecMul (Miller.real ⟨1, 0, 0⟩) cubeMatrix).dot u = 0) ∧
    s.linesCoordinates 0 = [] := by
  refine ⟨⟨11, 11, 1, 1, 0, 0, 0, 0, [1], [⟨1 / 2, 1 / 2, 1 / 2⟩]⟩, _, ⟨1 / 2, 1 / 2, 1 / 2⟩, rfl,
    by unfold onDetector; rw [if_neg (by rintro ⟨h, -⟩; exact h rfl)], ?_, ?_⟩
  · intro r _
    obtain ⟨u, k, hk, hku, hu⟩ := aligned_pixel (d := ⟨11, 11, 1, 1, 0, 0, 0, 0, [1],
      [⟨1 / 2, 1 / 2, 1 / 2⟩]⟩) (p := ⟨1 / 2, 1 / 2, 1 / 2⟩) (r := r) (c := 5)
      (w := ⟨0, (pixelGn ⟨11, 11, 1, 1, 0, 0, 0, 0, [1], [⟨1 / 2, 1 / 2, 1 / 2⟩]⟩
        ⟨1 / 2, 1 / 2, 1 / 2⟩ r 5).2, 1⟩) (by norm_num)
      (by simp only [pixelGn, gnomonic]; norm_num) (by simp only [div_one])
    refine ⟨u, hu, ?_⟩
    rw [vecMul_cube]
    have hx : 0 = k * u.x := congrArg V3.x hku
    have : u.x = 0 := (mul_eq_zero.1 hx.symm).resolve_left hk.ne'
    simp [V3.dot, Miller.real, this]
  · have hrefl : (simulationFor ⟨11, 11, 1, 1, 0, 0, 0, 0, [1], [⟨1 / 2, 1 / 2, 1 / 2⟩]⟩ flatMatrix
        cubeMatrix cubeMatrix id [⟨1, 0, 0⟩, ⟨-1, 0, 0⟩] [1] [alignedQuat]).visibleReflectors =
        [] := by
      unfold SimulationArgs.visibleReflectors
      apply List.filter_eq_nil_iff.2
      intro v hv
      rw [List.any_eq_true]
      rintro ⟨u, hu, hz⟩
      have hu' : u = M3.matMul alignedQuat.toMatrix flatMatrix.transpose := by
        simpa [simulationFor, orientationMatrices] using hu
      subst hu'
      have hn : (simulationFor ⟨11, 11, 1, 1, 0, 0, 0, 0, [1], [⟨1 / 2, 1 / 2, 1 / 2⟩]⟩ flatMatrix
        cubeMatrix cubeMatrix id [⟨1, 0, 0⟩, ⟨-1, 0, 0⟩] [1] [alignedQuat]).normal v
          (M3.matMul alignedQuat.toMatrix flatMatrix.transpose) = v.real := by
        unfold SimulationArgs.normal
        rw [vecMul_matMul, aligned]
        exact vecMul_cube _
      rw [hn, decide_eq_true_eq] at hz
      have hv' : v ∈ [(⟨1, 0, 0⟩ : Miller), ⟨-1, 0, 0⟩] := hv
      simp only [List.mem_cons, List.not_mem_nil, or_false] at hv'
      rcases hv' with rfl | rfl <;> simp [Miller.real] at hz
    unfold PatternSimulation.linesCoordinates PatternSimulation.linesPixel
    simp only [hrefl, List.map_nil]
    simp [simulationFor, orientationMatrices, SimulationArgs.pcs]

/-! ### Non-vacuity -/

/-- A master pattern, two rotations and a detector with one PC meet the hypotheses of
`C116_pixels`. -/
example : ∃ (d : Detector ℝ) (upper lower : Img ℝ), exampleMaster.checkSuitable = .ok () ∧
    [alignedQuat, alignedQuat].length = [2].prod ∧ d.pc.length = d.nav.prod ∧ d.nav = [1] ∧
    (∀ p ∈ d.pc, 0 < p.z) ∧ exampleMaster.arraysFromEnergy none = some (upper, lower) ∧
    [1, 1].sum = [alignedQuat, alignedQuat].length :=
  ⟨⟨10, 10, 1, 1, 0, 0, 0, 0, [1], [⟨1 / 2, 1 / 2, 1 / 2⟩]⟩, _, _, rfl, rfl, rfl, rfl,
    by simp, rfl, rfl⟩

/-- Two reflectors and their opposites, and the first pixel: all hypotheses of the theorems about
zone axes and bands hold. -/
example : ∃ (s : PatternSimulation) (u : V3 ℝ), onDetector (overlayArgs ⟨1 / 2, 1 / 2, 1 / 2⟩
      [⟨10, 0, 9⟩, ⟨-10, 0, -9⟩]) = .ok s ∧
    PixelDirection 10 10 flatMatrix alignedQuat ⟨1 / 2, 1 / 2, 1 / 2⟩ 0 0 u ∧
    ∃ l ∈ s.linesCoordinates 0, ∃ x y, OnDrawnLine l x y ∧ InsidePixel 0 0 x y := by
  obtain ⟨s, hs⟩ := overlayArgs_ok ⟨1 / 2, 1 / 2, 1 / 2⟩ [⟨10, 0, 9⟩, ⟨-10, 0, -9⟩]
  obtain ⟨u, k, hk, hku, hu⟩ := aligned_pixel (d := ⟨10, 10, 1, 1, 0, 0, 0, 0, [1],
    [⟨1 / 2, 1 / 2, 1 / 2⟩]⟩) (p := ⟨1 / 2, 1 / 2, 1 / 2⟩) (r := 0) (c := 0) (w := ⟨-9, 9, 10⟩)
    (by norm_num) (by simp only [pixelGn, gnomonic]; norm_num)
    (by simp only [pixelGn, gnomonic]; norm_num)
  refine ⟨s, u, hs, hu, C116_bands_partial (overlayArgs_wf _ _) hs flatMatrix_proper (by norm_num)
    (by norm_num) (i := 0) (q := alignedQuat) rfl alignedQuat_unit (overlayArgs_pc _ _)
    (by norm_num) (by norm_num) (r := 0) (c := 0) (by norm_num) (by norm_num) hu
    (v := ⟨10, 0, 9⟩) (by simp) (by simp [oppositeMiller]) ?_ ⟨alignedQuat, by simp, ?_⟩⟩
  · rw [vecMul_cube]
    have hx : -9 = k * u.x := congrArg V3.x hku
    have hz : 10 = k * u.z := congrArg V3.z hku
    apply mul_left_cancel₀ hk.ne'
    simp only [V3.dot, Miller.real]
    push_cast
    linear_combination (-10) * hx - 9 * hz
  · rw [aligned, vecMul_cube]
    norm_num [Miller.real]

end
end Kp
