import Verif.Model.PatternSimulation
import Verif.Props.PatternSimulation

/-
C114: `KikuchiPatternSimulator.on_detector` and the overlay of the interactive detector plot are two
implementations of the same simulation.
-/

namespace Kp
noncomputable section

/-- One pattern: a detector with one PC and one orientation. -/
structure OnePattern (a : SimulationArgs) (p : PC ℝ) (uO uS : M3) : Prop where
  nav : a.detector.nav = [1]
  pc : a.detector.pc = [p]
  orientation : a.orientations = [M3.matMul uO uS]

/-- No band is a line through the PC exactly. -/
def NoBandThroughPc (a : SimulationArgs) (uO uS : M3) : Prop :=
  ∀ v ∈ a.reflectors, (a.normal v (M3.matMul uO uS)).z ≠ 0

theorem lineTrace_eq_bandTrace {r : ℝ} {n : V3 ℝ} (h : 0 < n.z) : lineTrace r n = bandTrace r n := by
  unfold lineTrace bandTrace
  simp only
  rw [if_neg (by linarith [show (0 : ℝ) < 1 / 100000 by norm_num]), if_neg (not_lt.2 h.le)]

theorem zonePoint_eq_zoneAxis {r : ℝ} {t : V3 ℝ} (h : 0 < t.z) : zonePoint r t = zoneAxis r t := by
  unfold zonePoint zoneAxis
  rw [if_neg (by
    push Not
    exact ⟨by linarith [show (0 : ℝ) < 1 / 100000 by norm_num], h.ne'⟩), if_neg (not_le.2 h)]
  simp only [pow_two]

theorem maxR_onePattern {a : SimulationArgs} {p : PC ℝ} (hpc : a.detector.pc = [p]) :
    a.maxR = a.detector.rMax p := by
  unfold SimulationArgs.maxR
  rw [hpc]
  simp only [List.map_cons, List.map_nil, List.foldl_cons, List.foldl_nil]
  exact max_eq_right (Real.sqrt_nonneg _)

theorem filterMap_filter_eq {α β : Type*} (l : List α) (P : α → Bool) (f g : α → Option β)
    (h1 : ∀ x ∈ l, P x = true → f x = g x) (h2 : ∀ x ∈ l, P x = false → g x = none) :
    (l.filter P).filterMap f = l.filterMap g := by
  induction l with
  | nil => rfl
  | cons x l ih =>
    have ih := ih (fun y hy => h1 y (by simp [hy])) (fun y hy => h2 y (by simp [hy]))
    cases hP : P x with
    | true =>
      rw [List.filter_cons_of_pos hP, List.filterMap_cons, List.filterMap_cons,
        h1 x (by simp) hP, ih]
    | false =>
      rw [List.filter_cons_of_neg (by simp [hP]), List.filterMap_cons, h2 x (by simp) hP]
      exact ih

/-- C114: the lines of a simulated pattern are those the interactive plot draws for the same
detector, orientation and reflectors, in the same order. Missing: bands through the PC, see
`C114_band_through_pc_violated`. -/
theorem C114_lines_partial {a : SimulationArgs} {p : PC ℝ} {uO uS : M3} (h : OnePattern a p uO uS)
    (hz : NoBandThroughPc a uO uS) :
    ∃ s, onDetector a = .ok s ∧
      s.linesCoordinates 0 = (geometricalSimulationPixel a.detector p a.base a.recbase uO uS
        (a.reflectors.map Miller.real)).1 := by
  obtain ⟨hn, hpc, ho⟩ := h
  unfold onDetector
  rw [if_neg (by simp [hn])]
  refine ⟨_, rfl, ?_⟩
  unfold PatternSimulation.linesCoordinates PatternSimulation.linesPixel
  simp only [ho, List.map_cons, List.map_nil]
  have hpcs : a.pcs = [p] := by
    unfold SimulationArgs.pcs
    rw [if_pos hn, hpc, ho]
    rfl
  rw [hpcs, maxR_onePattern hpc]
  simp only [List.zipWith_cons_cons, List.zipWith_nil_left, List.getD_cons_zero, List.map_map,
    List.filterMap_map]
  unfold geometricalSimulationPixel geometricalSimulation bandsAndZoneAxes
  simp only [List.map_filterMap, List.filterMap_map]
  unfold SimulationArgs.visibleReflectors
  simp only [ho, List.any_cons, List.any_nil, Bool.or_false]
  refine filterMap_filter_eq _ _ _ _ (fun v _ hv => ?_) (fun v hv hf => ?_)
  · simp only [decide_eq_true_eq] at hv
    simp only [Function.comp, id]
    rw [lineTrace_eq_bandTrace hv]
    rfl
  · simp only [decide_eq_false_iff_not, not_lt] at hf
    have hlt := lt_of_le_of_ne hf (hz v hv)
    have : bandTrace (a.detector.rMax p) (a.normal v (M3.matMul uO uS)) = none := by
      unfold bandTrace
      simp only
      rw [if_pos hlt]
    simp only [Function.comp]
    change Option.map _ (bandTrace (a.detector.rMax p) (a.normal v (M3.matMul uO uS))) = none
    rw [this]
    rfl

/-! ### Zone axes -/

theorem vecMul_smul (c : ℝ) (v : V3 ℝ) (m : M3) :
    M3.vecMul (V3.smul c v) m = V3.smul c (M3.vecMul v m) := by
  unfold M3.vecMul V3.smul
  ext <;> simp only <;> ring

theorem zoneAxis_smul {c : ℝ} (hc : 0 < c) (r : ℝ) (t : V3 ℝ) :
    zoneAxis r (V3.smul c t) = zoneAxis r t := by
  unfold zoneAxis V3.smul
  simp only
  rw [mul_div_mul_left _ _ hc.ne', mul_div_mul_left _ _ hc.ne']
  by_cases h : t.z ≤ 0
  · rw [if_pos h, if_pos (mul_nonpos_of_nonneg_of_nonpos hc.le h)]
  · rw [if_neg h, if_neg (fun h' => h (by
      by_contra hn
      push Not at hn
      exact absurd h' (not_le.2 (mul_pos hc hn))))]

theorem zoneAxis_pos {r : ℝ} {t : V3 ℝ} {g : ℝ × ℝ} (h : zoneAxis r t = some g) :
    0 < t.z ∧ g = (t.x / t.z, t.y / t.z) := by
  unfold zoneAxis at h
  simp only at h
  split_ifs at h with h1 h2
  exact ⟨not_le.1 h1, (Option.some.inj h).symm⟩

theorem real_cross (v w : Miller) : Miller.real (V3.cross v w) = V3.cross v.real w.real := by
  unfold Miller.real V3.cross
  ext <;> simp

theorem real_eq_zero (v : Miller) : v.real = ⟨0, 0, 0⟩ ↔ v = ⟨0, 0, 0⟩ := by
  unfold Miller.real
  rw [V3.ext_iff, V3.ext_iff]
  simp

/-- What orix' rounding of indices is for: smallest integers of the same direction. -/
def KeepsDirection (reduce : Miller → Miller) : Prop :=
  ∀ w, w ≠ ⟨0, 0, 0⟩ → ∃ c : ℝ, 0 < c ∧ w.real = V3.smul c (reduce w).real

/-- With every reflector, the opposite one. -/
def Centrosymmetric (l : List Miller) : Prop := ∀ v ∈ l, (⟨-v.x, -v.y, -v.z⟩ : Miller) ∈ l

/-- C114: the zone axes of a simulated pattern are at the places where the interactive plot draws
them. Missing: zone axes of bands through the PC. -/
theorem C114_zone_axes_partial {a : SimulationArgs} {p : PC ℝ} {uO uS : M3}
    (h : OnePattern a p uO uS) (hz : NoBandThroughPc a uO uS) (hred : KeepsDirection a.reduce)
    (hsym : Centrosymmetric a.reflectors) :
    ∃ s, onDetector a = .ok s ∧
      ∀ q, q ∈ s.zoneAxesCoordinates 0 ↔ q ∈ (geometricalSimulationPixel a.detector p a.base
        a.recbase uO uS (a.reflectors.map Miller.real)).2 := by
  obtain ⟨hn, hpc, ho⟩ := h
  unfold onDetector
  rw [if_neg (by simp [hn])]
  refine ⟨_, rfl, fun q => ?_⟩
  unfold PatternSimulation.zoneAxesCoordinates PatternSimulation.zonePixel
  simp only [ho, List.map_cons, List.map_nil]
  have hpcs : a.pcs = [p] := by
    unfold SimulationArgs.pcs
    rw [if_pos hn, hpc, ho]
    rfl
  rw [hpcs, maxR_onePattern hpc]
  simp only [List.zipWith_cons_cons, List.zipWith_nil_left, List.getD_cons_zero, List.map_map,
    List.filterMap_map]
  unfold geometricalSimulationPixel geometricalSimulation bandsAndZoneAxes
  simp only [List.mem_filterMap, List.mem_map, List.mem_filter, decide_eq_true_eq,
    Function.comp, id]
  set u := M3.matMul uO uS with hu
  have hvis : ∀ v, v ∈ a.visibleReflectors ↔ v ∈ a.reflectors ∧ 0 < (a.normal v u).z := by
    intro v
    unfold SimulationArgs.visibleReflectors
    simp [ho]
  constructor
  · rintro ⟨w, hw, e⟩
    unfold SimulationArgs.visibleZoneAxes at hw
    simp only [List.mem_filter, ho, List.any_cons, List.any_nil, Bool.or_false, Bool.and_eq_true,
      decide_eq_true_eq] at hw
    obtain ⟨hall, hpos, -⟩ := hw
    unfold SimulationArgs.allZoneAxes at hall
    simp only [List.mem_dedup, List.mem_map, List.mem_filter, List.mem_flatMap,
      decide_eq_true_eq] at hall
    obtain ⟨x, ⟨⟨v1, h1, v2, h2, rfl⟩, hne⟩, rfl⟩ := hall
    obtain ⟨c, hc, hcw⟩ := hred _ hne
    rw [zonePoint_eq_zoneAxis hpos] at e
    cases hg : zoneAxis (a.detector.rMax p) (a.direction (a.reduce (v1.cross v2)) u) with
    | none => rw [hg] at e; cases e
    | some g =>
      rw [hg] at e
      simp only [Option.bind_some] at e
      split_ifs at e with hb
      refine ⟨g, ⟨⟨Miller.real (V3.cross v1 v2), ?_, ?_⟩, hb⟩, Option.some.inj e⟩
      · unfold zoneAxesFromHkl
        simp only [List.mem_filter, List.mem_flatMap, List.mem_map, decide_eq_true_eq]
        refine ⟨⟨v1.real, ⟨v1, ((hvis v1).1 h1).1, rfl⟩, v2.real,
          ⟨v2, ((hvis v2).1 h2).1, rfl⟩, (real_cross v1 v2).symm⟩, ?_⟩
        rw [Ne, real_eq_zero]
        exact hne
      · rw [hcw, vecMul_smul, zoneAxis_smul hc]
        exact hg
  · rintro ⟨g, ⟨⟨t, ht, hg⟩, hb⟩, rfl⟩
    unfold zoneAxesFromHkl at ht
    simp only [List.mem_filter, List.mem_flatMap, List.mem_map, decide_eq_true_eq] at ht
    obtain ⟨⟨_, ⟨v1, h1, rfl⟩, _, ⟨v2, h2, rfl⟩, rfl⟩, hne⟩ := ht
    -- the reflectors or their opposites point up
    have hup : ∀ v ∈ a.reflectors, v ∈ a.visibleReflectors ∨
        (⟨-v.x, -v.y, -v.z⟩ : Miller) ∈ a.visibleReflectors := by
      intro v hv
      rcases lt_or_gt_of_ne (hz v hv) with hlt | hgt
      · right
        rw [hvis]
        refine ⟨hsym v hv, ?_⟩
        have : (a.normal ⟨-v.x, -v.y, -v.z⟩ u).z = -(a.normal v u).z := by
          unfold SimulationArgs.normal M3.vecMul Miller.real
          push_cast
          ring
        rw [this]
        linarith
      · left
        exact (hvis v).2 ⟨hv, hgt⟩
    have hpair : ∃ w1 ∈ a.visibleReflectors, ∃ w2 ∈ a.visibleReflectors,
        V3.cross w1 w2 = V3.cross v1 v2 := by
      rcases hup v1 h1 with g1 | g1 <;> rcases hup v2 h2 with g2 | g2
      · exact ⟨_, g1, _, g2, rfl⟩
      · exact ⟨_, g2, _, g1, by unfold V3.cross; ext <;> simp only <;> ring⟩
      · exact ⟨_, g2, _, g1, by unfold V3.cross; ext <;> simp only <;> ring⟩
      · exact ⟨_, g1, _, g2, by unfold V3.cross; ext <;> simp only <;> ring⟩
    obtain ⟨w1, hw1, w2, hw2, hcr⟩ := hpair
    rw [← real_cross, ← hcr] at hg hne
    rw [Ne, real_eq_zero] at hne
    obtain ⟨c, hc, hcw⟩ := hred _ hne
    rw [hcw, vecMul_smul, zoneAxis_smul hc] at hg
    obtain ⟨hpos, rfl⟩ := zoneAxis_pos hg
    refine ⟨a.reduce (w1.cross w2), ?_, ?_⟩
    · unfold SimulationArgs.visibleZoneAxes
      simp only [List.mem_filter, ho, hpcs, List.zip_cons_cons, List.zip_nil_left, List.any_cons,
        List.any_nil, Bool.or_false, Bool.and_eq_true, decide_eq_true_eq]
      refine ⟨?_, hpos, hpos.ne', hb⟩
      unfold SimulationArgs.allZoneAxes
      simp only [List.mem_dedup, List.mem_map, List.mem_filter, List.mem_flatMap,
        decide_eq_true_eq]
      exact ⟨_, ⟨⟨w1, hw1, w2, hw2, rfl⟩, hne⟩, rfl⟩
    · have e := zonePoint_eq_zoneAxis (r := a.detector.rMax p)
        (t := a.direction (a.reduce (w1.cross w2)) u) hpos
      rw [e]
      change (zoneAxis (a.detector.rMax p) (M3.vecMul (a.reduce (w1.cross w2)).real
        (M3.matMul a.base u))).bind _ = _
      rw [hg, Option.bind_some, if_pos hb]

/-- C114 is false for bands through the PC: a reflector with the normal in the plane of the detector,
given with the opposite one, is drawn by the interactive plot, but a simulation of the pattern has no
line for it. -/
theorem C114_band_through_pc_violated {a : SimulationArgs} {p : PC ℝ} {uO uS : M3} {v : Miller}
    (h : OnePattern a p uO uS) (hv : a.reflectors = [v, ⟨-v.x, -v.y, -v.z⟩])
    (hz : (a.normal v (M3.matMul uO uS)).z = 0)
    (hxy : (a.normal v (M3.matMul uO uS)) ≠ ⟨0, 0, 0⟩) (hr : 0 < a.detector.rMax p) :
    ∃ s, onDetector a = .ok s ∧ s.linesCoordinates 0 = [] ∧
      (geometricalSimulationPixel a.detector p a.base a.recbase uO uS
        (a.reflectors.map Miller.real)).1.length = 2 := by
  obtain ⟨hn, hpc, ho⟩ := h
  have hneg : a.normal ⟨-v.x, -v.y, -v.z⟩ (M3.matMul uO uS) =
      V3.smul (-1) (a.normal v (M3.matMul uO uS)) := by
    unfold SimulationArgs.normal M3.vecMul Miller.real V3.smul
    ext <;> simp only <;> push_cast <;> ring
  have hvis : a.visibleReflectors = [] := by
    unfold SimulationArgs.visibleReflectors
    rw [List.filter_eq_nil_iff]
    intro w hw
    rw [hv] at hw
    simp only [List.mem_cons, List.not_mem_nil, or_false] at hw
    simp only [ho, List.any_cons, List.any_nil, Bool.or_false, decide_eq_true_eq]
    rcases hw with rfl | rfl
    · rw [hz]; simp
    · rw [hneg]; unfold V3.smul; simp [hz]
  unfold onDetector
  rw [if_neg (by simp [hn])]
  refine ⟨_, rfl, ?_, ?_⟩
  · unfold PatternSimulation.linesCoordinates PatternSimulation.linesPixel
    rw [hvis, ho]
    cases hp : a.pcs with
    | nil => simp
    | cons q l => simp
  · have key : ∀ n : V3 ℝ, n.z = 0 → n ≠ ⟨0, 0, 0⟩ →
        ∃ b, bandTrace (a.detector.rMax p) n = some b := by
      intro n h0 hne
      unfold bandTrace
      simp only
      rw [if_neg (by rw [h0]; simp), if_neg, if_neg]
      · exact ⟨_, rfl⟩
      · rw [h0]; simpa using hr
      · intro hs
        rw [Real.sqrt_eq_zero (by nlinarith [sq_nonneg n.x, sq_nonneg n.y])] at hs
        apply hne
        have hx : n.x = 0 := by nlinarith [sq_nonneg n.x, sq_nonneg n.y]
        have hy : n.y = 0 := by nlinarith [sq_nonneg n.x, sq_nonneg n.y]
        ext <;> simp [hx, hy, h0]
    obtain ⟨b1, e1⟩ := key _ hz hxy
    obtain ⟨b2, e2⟩ := key (a.normal ⟨-v.x, -v.y, -v.z⟩ (M3.matMul uO uS))
      (by rw [hneg]; unfold V3.smul; simp [hz]) (by
        rw [hneg]
        intro e
        apply hxy
        unfold V3.smul at e
        rw [V3.ext_iff] at e
        simp only at e
        obtain ⟨q1, q2, q3⟩ := e
        ext
        · simp only; linarith
        · simp only; linarith
        · simp only; linarith)
    unfold geometricalSimulationPixel geometricalSimulation bandsAndZoneAxes
    simp only [hv, List.map_cons, List.map_nil, List.length_map]
    unfold SimulationArgs.normal at e1 e2
    rw [List.filterMap_cons, e1, List.filterMap_cons, e2]
    rfl

/-! ### A case -/

/-- One pattern of a cubic crystal with the axes of the detector. -/
def agreementArgs (l : List Miller) : SimulationArgs :=
  { exampleSimulationArgs [1] [examplePc] with
    reflectors := l, shape := [1], orientations := [⟨⟨1, 0, 0⟩, ⟨0, 1, 0⟩, ⟨0, 0, 1⟩⟩] }

theorem agreementArgs_onePattern (l : List Miller) :
    OnePattern (agreementArgs l) examplePc ⟨⟨1, 0, 0⟩, ⟨0, 1, 0⟩, ⟨0, 0, 1⟩⟩
      ⟨⟨1, 0, 0⟩, ⟨0, 1, 0⟩, ⟨0, 0, 1⟩⟩ := by
  refine ⟨rfl, rfl, ?_⟩
  change [_] = [_]
  congr 1
  unfold M3.matMul M3.vecMul
  simp

theorem agreementArgs_normal (l : List Miller) (v : Miller) :
    (agreementArgs l).normal v (M3.matMul ⟨⟨1, 0, 0⟩, ⟨0, 1, 0⟩, ⟨0, 0, 1⟩⟩
      ⟨⟨1, 0, 0⟩, ⟨0, 1, 0⟩, ⟨0, 0, 1⟩⟩) = v.real := by
  unfold SimulationArgs.normal agreementArgs exampleSimulationArgs M3.matMul M3.vecMul
  ext <;> simp

/-- Planes on both sides of the detector normal, with the opposite ones. -/
def agreementReflectors : List Miller := [⟨1, 0, 1⟩, ⟨-1, 0, -1⟩, ⟨0, 1, -2⟩, ⟨0, -1, 2⟩]

example : NoBandThroughPc (agreementArgs agreementReflectors)
    ⟨⟨1, 0, 0⟩, ⟨0, 1, 0⟩, ⟨0, 0, 1⟩⟩ ⟨⟨1, 0, 0⟩, ⟨0, 1, 0⟩, ⟨0, 0, 1⟩⟩ := by
  intro v hv
  rw [agreementArgs_normal]
  change v ∈ agreementReflectors at hv
  unfold agreementReflectors at hv
  simp only [List.mem_cons, List.not_mem_nil, or_false] at hv
  rcases hv with rfl | rfl | rfl | rfl <;> simp [Miller.real]

example : KeepsDirection (agreementArgs agreementReflectors).reduce :=
  fun w _ => ⟨1, one_pos, by unfold V3.smul agreementArgs exampleSimulationArgs; simp⟩

example : Centrosymmetric (agreementArgs agreementReflectors).reflectors := by
  change Centrosymmetric agreementReflectors
  unfold Centrosymmetric agreementReflectors
  decide

theorem agreementArgs_rMax (l : List Miller) : 0 < (agreementArgs l).detector.rMax examplePc := by
  apply Real.sqrt_pos.2
  unfold Detector.rMaxSq
  refine lt_max_of_lt_left (lt_max_of_lt_left ?_)
  simp [agreementArgs, exampleSimulationArgs, examplePc, Detector.xMin, Detector.yMin,
    Detector.aspect]
  norm_num

/-- C114 is false for bands through the PC: the plane (100) of a crystal with the axes of the
detector. -/
theorem C114_agreement_violated : ∃ (a : SimulationArgs) (p : PC ℝ) (uO uS : M3)
    (s : PatternSimulation), OnePattern a p uO uS ∧ Centrosymmetric a.reflectors ∧
      onDetector a = .ok s ∧ s.linesCoordinates 0 ≠
        (geometricalSimulationPixel a.detector p a.base a.recbase uO uS
          (a.reflectors.map Miller.real)).1 := by
  obtain ⟨s, hs, h1, h2⟩ := C114_band_through_pc_violated
    (a := agreementArgs [⟨1, 0, 0⟩, ⟨-1, 0, 0⟩]) (v := ⟨1, 0, 0⟩) (agreementArgs_onePattern _)
    rfl (by rw [agreementArgs_normal]; simp [Miller.real])
    (by rw [agreementArgs_normal, Ne, real_eq_zero]; decide) (agreementArgs_rMax _)
  refine ⟨_, _, _, _, s, agreementArgs_onePattern _, ?_, hs, ?_⟩
  · change Centrosymmetric [⟨1, 0, 0⟩, ⟨-1, 0, 0⟩]
    unfold Centrosymmetric
    decide
  · rw [h1]
    intro e
    rw [← e] at h2
    cases h2

end
end Kp
