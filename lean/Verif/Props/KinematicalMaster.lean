import Verif.Lemmas.KinematicalMaster
import Mathlib.Tactic.IntervalCases
import Mathlib.Tactic.NormNum

/-!
C80: Pixels of a kinematical master pattern hold the summed intensities of the bands they lie in,
whatever the number and schedule of threads.
-/

set_option linter.unusedSimpArgs false

namespace Kp

noncomputable section

/-! ### Specification -/

/-- `v` is the unit vector whose stereographic projection from the point `(0, 0, pole)` onto the
equatorial plane is `(x, y)`. -/
structure Projects (pole x y : ℝ) (v : V3 ℝ) : Prop where
  unit : v.x ^ 2 + v.y ^ 2 + v.z ^ 2 = 1
  apart : pole * v.z ≠ 1
  x : v.x / (1 - pole * v.z) = x
  y : v.y / (1 - pole * v.z) = y

/-- A plane with unit normal and a Bragg angle for which the band is wider than 1e-7. -/
structure KinReflector.Valid (r : KinReflector) : Prop where
  unit : r.normal.x ^ 2 + r.normal.y ^ 2 + r.normal.z ^ 2 = 1
  positive : 0 ≤ r.theta
  acute : r.theta ≤ Real.pi / 2
  wide : 1 / 10 ^ 7 ≤ Real.sin r.theta

/-- Documented band intensities. -/
def documentedIntensity (s : KinScaling) (r : KinReflector) : ℝ :=
  match s with
  | .linear => r.factor
  | .square => r.factor ^ 2
  | _ => 1

/-- The pole projected from, per hemisphere. -/
def projectionPole : Bool → ℝ
  | true => -1
  | false => 1

/-- The iterations of the loop over reflectors are given out to threads, each exactly once and in
any order. -/
def GivenOut {n : ℕ} (updates : List (List (ℕ × ℝ))) (work : Fin n → List (ℕ × ℝ)) : Prop :=
  ∃ parts : Fin n → List (List (ℕ × ℝ)), (∀ i, work i = (parts i).flatten) ∧
    (List.ofFn parts).flatten.Perm updates

/-! ### Lemmas -/

theorem projects_unique (pole x y : ℝ) (v : V3 ℝ) (hp : pole * pole = 1)
    (h : Projects pole x y v) : v = stereoVector pole x y := by
  have ht : 1 - pole * v.z ≠ 0 := fun e => h.apart (by linarith)
  have hx := (div_eq_iff ht).mp h.x
  have hy := (div_eq_iff ht).mp h.y
  have hr : (1 + x ^ 2 + y ^ 2) ≠ 0 := by positivity
  have hu := h.unit
  rw [hx, hy] at hu
  have key : (1 - pole * v.z) * ((1 + x ^ 2 + y ^ 2) * (1 - pole * v.z) - 2) = 0 := by
    linear_combination hu + v.z ^ 2 * hp
  have key2 : 1 - pole * v.z = 2 / (1 + x ^ 2 + y ^ 2) := by
    rw [eq_div_iff hr]
    rcases mul_eq_zero.mp key with h | h
    · exact absurd h ht
    · linarith
  have hz : v.z = pole * (1 - 2 / (1 + x ^ 2 + y ^ 2)) := by
    rw [← key2]; linear_combination -v.z * hp
  rw [V3.ext_iff]
  refine ⟨?_, ?_, ?_⟩
  · rw [hx, key2, stereoVector]; field_simp
  · rw [hy, key2, stereoVector]; field_simp
  · rw [hz, stereoVector]; field_simp; ring

theorem projects_stereo (pole x y : ℝ) (hp : pole * pole = 1) :
    Projects pole x y (stereoVector pole x y) := by
  have hr : (1 + x ^ 2 + y ^ 2) ≠ 0 := by positivity
  have key : 1 - pole * (stereoVector pole x y).z = 2 / (1 + x ^ 2 + y ^ 2) := by
    rw [stereoVector]; field_simp; linear_combination (1 - x ^ 2 - y ^ 2) * hp
  refine ⟨?_, ?_, ?_, ?_⟩
  · have := stereoVector_unit pole x y hp
    simp only [V3.dot] at this
    linear_combination this
  · intro e
    rw [e, sub_self] at key
    have : (2 : ℝ) / (1 + x ^ 2 + y ^ 2) ≠ 0 := by positivity
    exact this key.symm
  · rw [key, stereoVector]; field_simp
  · rw [key, stereoVector]; field_simp

theorem calculateMasterPattern_ok (sim : KinSimulator) (h : ℕ) (hemi : String) (s : KinScaling)
    (m : KinMaster) (hm : calculateMasterPattern sim h hemi s = .ok m) :
    ∃ H f, parseKinHemisphere hemi = .ok H ∧ kinIntensity s = .ok f ∧
      m = { images := (hemispherePoles H).map fun p => kinImage h p f sim.reflectors
            size := 2 * h + 1
            axes := (if hemi = "both" then [("hemisphere", 0)] else []) ++
              [("height", (-(2 * (h : ℤ) + 1)) / 2), ("width", (-(2 * (h : ℤ) + 1)) / 2)]
            hemisphere := hemi } := by
  rw [calculateMasterPattern] at hm
  cases ht : sim.hasTheta with
  | false => simp [ht, bind, Except.bind, throw, throwThe, MonadExceptOf.throw] at hm
  | true =>
    cases hf : sim.hasFactor with
    | false => simp [ht, hf, bind, Except.bind, throw, throwThe, MonadExceptOf.throw, pure,
        Except.pure] at hm
    | true =>
      cases hh : parseKinHemisphere hemi with
      | error e => simp [ht, hf, hh, bind, Except.bind, pure, Except.pure] at hm
      | ok H =>
        cases hi : kinIntensity s with
        | error e => simp [ht, hf, hh, hi, bind, Except.bind, pure, Except.pure] at hm
        | ok f =>
          simp only [ht, hf, hh, hi, bind, Except.bind, pure, Except.pure, Bool.not_true,
            Bool.false_eq_true, if_false, Except.ok.injEq] at hm
          exact ⟨H, f, rfl, rfl, hm.symm⟩

theorem calculateMasterPattern_eq (sim : KinSimulator) (h : ℕ) (hemi : String) (s : KinScaling)
    (ht : sim.hasTheta = true) (hf : sim.hasFactor = true) (H : KinHemisphere)
    (hH : parseKinHemisphere hemi = .ok H) (f : KinReflector → ℝ) (hi : kinIntensity s = .ok f) :
    calculateMasterPattern sim h hemi s =
      .ok { images := (hemispherePoles H).map fun p => kinImage h p f sim.reflectors
            size := 2 * h + 1
            axes := (if hemi = "both" then [("hemisphere", 0)] else []) ++
              [("height", (-(2 * (h : ℤ) + 1)) / 2), ("width", (-(2 * (h : ℤ) + 1)) / 2)]
            hemisphere := hemi } := by
  simp only [calculateMasterPattern, ht, hf, hH, hi, bind, Except.bind, pure, Except.pure,
    Bool.not_true, Bool.false_eq_true, if_false]

theorem kinIntensity_documented (s : KinScaling) (f : KinReflector → ℝ)
    (hf : kinIntensity s = .ok f) (r : KinReflector) : f r = documentedIntensity s r := by
  cases s <;> simp only [kinIntensity, Except.ok.injEq, reduceCtorEq] at hf
  · rw [← hf]; rfl
  · rw [← hf, documentedIntensity, pow_two]
  · rw [← hf]; rfl

theorem documentedIntensity_opposite (s : KinScaling) (r : KinReflector) :
    documentedIntensity s r.opposite = documentedIntensity s r := by
  cases s <;> rfl

theorem projectionPole_sq (u : Bool) : projectionPole u * projectionPole u = 1 := by
  cases u <;> norm_num [projectionPole]

/-- Which images a master pattern has. -/
def hasHemisphere (hemi : String) : List Bool :=
  if hemi.toLower = "upper" then [true]
  else if hemi.toLower = "lower" then [false]
  else [true, false]

theorem poles_hasHemisphere (hemi : String) (H : KinHemisphere)
    (h : parseKinHemisphere hemi = .ok H) :
    hemispherePoles H = (hasHemisphere hemi).map projectionPole := by
  rw [parseKinHemisphere] at h
  rw [hasHemisphere]
  by_cases h1 : hemi.toLower = "upper"
  · rw [if_pos h1] at h ⊢; cases h; rfl
  · rw [if_neg h1] at h ⊢
    by_cases h2 : hemi.toLower = "lower"
    · rw [if_pos h2] at h ⊢; cases h; rfl
    · rw [if_neg h2] at h ⊢
      by_cases h3 : hemi.toLower = "both"
      · rw [if_pos h3] at h; cases h; rfl
      · rw [if_neg h3] at h; cases h

theorem sum_pairs (l : List KinReflector) (g : KinReflector → ℝ) :
    ((l ++ l.map KinReflector.opposite).map g).sum = (l.map fun r => g r + g r.opposite).sum := by
  induction l with
  | nil => simp
  | cons r l ih =>
    simp only [List.map_cons, List.cons_append, List.sum_cons, List.map_append, List.sum_append,
      List.map_map] at ih ⊢
    linarith

/-! ### Bands -/

/-- For reflectors given together with their opposite ones, the pixel in row `r` and column `c` of
every returned hemisphere holds the sum of the documented intensities of exactly those bands whose
plane is within the Bragg angle of the pixel's direction. Stereographic coordinates of pixels go
from -1 to 1. The loop is run by one thread. -/
theorem C80_bands (sim : KinSimulator) (h : ℕ) (hh : 1 ≤ h) (hemi : String) (s : KinScaling)
    (m : KinMaster) (hm : calculateMasterPattern sim h hemi s = .ok m)
    (planes : List KinReflector)
    (hp : sim.reflectors.Perm (planes ++ planes.map KinReflector.opposite))
    (hv : ∀ p ∈ planes, p.Valid) (k : ℕ) (upper : Bool) (hk : (hasHemisphere hemi)[k]? = some upper)
    (r c : ℕ) (hr : r ≤ 2 * h) (hc : c ≤ 2 * h) (v : V3 ℝ)
    (hd : Projects (projectionPole upper) (((c : ℝ) - h) / h) (((r : ℝ) - h) / h) v) :
    ∃ image, m.images[k]? = some image ∧ image[r * m.size + c]? =
      some (planes.map fun p => if |p.normal.dot v| ≤ Real.sin p.theta
        then documentedIntensity s p else 0).sum := by
  obtain ⟨H, f, hH, hf, rfl⟩ := calculateMasterPattern_ok sim h hemi s m hm
  refine ⟨kinImage h (projectionPole upper) f sim.reflectors, ?_, ?_⟩
  · simp only [poles_hasHemisphere hemi H hH, List.map_map, List.getElem?_map, hk, Option.map_some]
    rfl
  · simp only
    rw [kinImage_getElem h _ f _ r c hr hc, gridCoordinate_eq h c hh, gridCoordinate_eq h r hh,
      ← projects_unique _ _ _ v (projectionPole_sq upper) hd, (hp.map _).sum_eq, sum_pairs]
    congr 2
    apply List.map_congr_left
    intro p hpl
    obtain ⟨h1, h2, h3, h4⟩ := hv p hpl
    rw [opposite_dot, kinIntensity_documented s f hf, kinIntensity_documented s f hf,
      documentedIntensity_opposite]
    apply band_pair _ _ _ h2 h3 h4
    apply abs_dot_le_one
    · simp only [V3.dot]; linear_combination h1
    · simp only [V3.dot]; linear_combination hd.unit

/-- Every pixel has such a direction, and only one. -/
theorem C80_direction (upper : Bool) (x y : ℝ) :
    ∃! v, Projects (projectionPole upper) x y v :=
  ⟨_, projects_stereo _ x y (projectionPole_sq upper),
    fun v hv => projects_unique _ _ _ v (projectionPole_sq upper) hv⟩

/-- A master pattern is returned exactly if Bragg angles and structure factors were calculated, the
hemisphere is one of the three and the scaling is known. -/
theorem C80_accepted (sim : KinSimulator) (h : ℕ) (hemi : String) (s : KinScaling) :
    (∃ m, calculateMasterPattern sim h hemi s = .ok m) ↔
      sim.hasTheta = true ∧ sim.hasFactor = true ∧
      hemi.toLower ∈ ["upper", "lower", "both"] ∧ s ≠ .unknown := by
  have hpar : (∃ H, parseKinHemisphere hemi = .ok H) ↔ hemi.toLower ∈ ["upper", "lower", "both"] := by
    rw [parseKinHemisphere]
    simp only [List.mem_cons, List.not_mem_nil, or_false]
    by_cases h1 : hemi.toLower = "upper"
    · rw [if_pos h1]; exact ⟨fun _ => Or.inl h1, fun _ => ⟨_, rfl⟩⟩
    · rw [if_neg h1]
      by_cases h2 : hemi.toLower = "lower"
      · rw [if_pos h2]; exact ⟨fun _ => Or.inr (Or.inl h2), fun _ => ⟨_, rfl⟩⟩
      · rw [if_neg h2]
        by_cases h3 : hemi.toLower = "both"
        · rw [if_pos h3]; exact ⟨fun _ => Or.inr (Or.inr h3), fun _ => ⟨_, rfl⟩⟩
        · rw [if_neg h3]
          simp [h1, h2, h3]
  rw [← hpar, calculateMasterPattern]
  cases ht : sim.hasTheta with
  | false => simp [bind, Except.bind, throw, throwThe, MonadExceptOf.throw]
  | true =>
    cases hf : sim.hasFactor with
    | false => simp [bind, Except.bind, throw, throwThe, MonadExceptOf.throw, pure, Except.pure]
    | true =>
      cases hh : parseKinHemisphere hemi with
      | error e => simp [bind, Except.bind, pure, Except.pure]
      | ok H => cases s <;> simp [kinIntensity, bind, Except.bind, pure, Except.pure]

/-- The order of reflectors does not matter. -/
theorem C80_order (sim sim' : KinSimulator) (hp : sim.reflectors.Perm sim'.reflectors)
    (ht : sim.hasTheta = sim'.hasTheta) (hf : sim.hasFactor = sim'.hasFactor) (h : ℕ)
    (hemi : String) (s : KinScaling) :
    calculateMasterPattern sim h hemi s = calculateMasterPattern sim' h hemi s := by
  have key : ∀ p f, kinImage h p f sim.reflectors = kinImage h p f sim'.reflectors := by
    intro p f
    simp only [kinImage]
    apply List.map_congr_left
    intro j _
    rw [getPatternSeq_eq, getPatternSeq_eq, kinUpdates, kinUpdates]
    exact ((hp.map _).map _).sum_eq
  simp only [calculateMasterPattern, ht, hf, key]

theorem stereo_opposite (x y : ℝ) (n : V3 ℝ) :
    n.dot (stereoVector 1 (-x) (-y)) = -(n.dot (stereoVector (-1) x y)) := by
  simp only [stereoVector, V3.dot]
  have e : (1 + (-x) ^ 2 + (-y) ^ 2) = 1 + x ^ 2 + y ^ 2 := by ring
  rw [e]
  have hr : (1 + x ^ 2 + y ^ 2) ≠ 0 := by positivity
  field_simp
  ring

/-- With both hemispheres and a set of reflectors that has the opposite of each, the lower hemisphere
is the upper one seen through the centre: it is rotated by 180 degrees about the middle pixel. -/
theorem C80_inversion (sim : KinSimulator) (h : ℕ) (hh : 1 ≤ h) (hemi : String)
    (hb : hemi.toLower = "both") (s : KinScaling) (m : KinMaster)
    (hm : calculateMasterPattern sim h hemi s = .ok m)
    (hp : sim.reflectors.Perm (sim.reflectors.map KinReflector.opposite)) (r c : ℕ)
    (hr : r ≤ 2 * h) (hc : c ≤ 2 * h) :
    ∃ upper lower, m.images = [upper, lower] ∧
      lower[(2 * h - r) * m.size + (2 * h - c)]? = upper[r * m.size + c]? ∧
      (upper[r * m.size + c]?).isSome = true := by
  obtain ⟨H, f, hH, hf, rfl⟩ := calculateMasterPattern_ok sim h hemi s m hm
  have hH' : H = .both := by
    rw [parseKinHemisphere, hb] at hH
    simpa using hH.symm
  subst hH'
  refine ⟨_, _, rfl, ?_, ?_⟩
  · simp only
    rw [kinImage_getElem h _ f _ (2 * h - r) (2 * h - c) (by omega) (by omega),
      kinImage_getElem h _ f _ r c hr hc]
    congr 1
    have ec : gridCoordinate h (2 * h - c) = -gridCoordinate h c := by
      rw [gridCoordinate_eq h _ hh, gridCoordinate_eq h _ hh, Nat.cast_sub hc]; push_cast; ring
    have er : gridCoordinate h (2 * h - r) = -gridCoordinate h r := by
      rw [gridCoordinate_eq h _ hh, gridCoordinate_eq h _ hh, Nat.cast_sub hr]; push_cast; ring
    rw [ec, er, (hp.map _).sum_eq, List.map_map]
    congr 1
    apply List.map_congr_left
    intro p _
    simp only [Function.comp_apply]
    rw [opposite_dot, stereo_opposite, neg_neg, kinIntensity_documented s f hf,
      kinIntensity_documented s f hf, documentedIntensity_opposite]
    rfl
  · simp only
    rw [kinImage_getElem h _ f _ r c hr hc]
    rfl

/-! ### Threads -/

theorem sum_ofFn_flatten {n : ℕ} (parts : Fin n → List (List (ℕ × ℝ))) (j : ℕ) :
    ((List.ofFn parts).flatten.map fun m => addedTo m j).sum =
      ∑ i, addedTo (parts i).flatten j := by
  rw [← List.sum_ofFn]
  have : (List.ofFn fun i => addedTo (parts i).flatten j) =
      (List.ofFn parts).map fun l => addedTo l.flatten j := by
    rw [List.map_ofFn]; rfl
  rw [this]
  generalize List.ofFn parts = L
  induction L with
  | nil => rfl
  | cons l L ih =>
    simp only [List.flatten_cons, List.map_append, List.sum_append, List.map_cons, List.sum_cons, ih,
      addedTo_flatten]

theorem givenOut_sum {n : ℕ} (updates : List (List (ℕ × ℝ))) (work : Fin n → List (ℕ × ℝ))
    (h : GivenOut updates work) (j : ℕ) :
    ∑ i, addedTo (work i) j = getPatternSeq updates j := by
  obtain ⟨parts, hw, hp⟩ := h
  rw [getPatternSeq_eq, ← (hp.map _).sum_eq, sum_ofFn_flatten]
  apply Finset.sum_congr rfl
  intro i _
  rw [hw i]

theorem givenOut_mem {n : ℕ} (updates : List (List (ℕ × ℝ))) (work : Fin n → List (ℕ × ℝ))
    (h : GivenOut updates work) (i : Fin n) (u : ℕ × ℝ) (hu : u ∈ work i) :
    u ∈ updates.flatten := by
  obtain ⟨parts, hw, hp⟩ := h
  rw [hw i, List.mem_flatten] at hu
  obtain ⟨l, hl, hu⟩ := hu
  rw [List.mem_flatten]
  refine ⟨l, hp.subset ?_, hu⟩
  rw [List.mem_flatten]
  exact ⟨parts i, List.mem_ofFn.mpr ⟨i, rfl⟩, hl⟩

/-- Whatever the schedule, pixels get no more than the sum, and no less than zero, if intensities are
not negative. -/
theorem C80_bounds_partial {n : ℕ} (updates : List (List (ℕ × ℝ))) (work : Fin n → List (ℕ × ℝ))
    (hg : GivenOut updates work) (h0 : ∀ u ∈ updates.flatten, 0 ≤ u.2) (t : KinState n)
    (hr : KinRun (kinStart work) t) (hd : t.Done) (j : ℕ) :
    0 ≤ t.mem j ∧ t.mem j ≤ getPatternSeq updates j := by
  have hn : (kinStart work).Nonneg := fun i u hu => h0 u (givenOut_mem updates work hg i u hu)
  have hb : KinBelow (kinStart work) j (∑ m, addedTo (work m) j) := by
    refine ⟨by simp [kinStart, KinState.pending], ?_⟩
    intro i u l r h
    simp [kinStart] at h
  have ha : KinAbove (kinStart work) := by
    refine ⟨hn, fun j => le_refl _, ?_⟩
    intro i u l r h
    simp [kinStart] at h
  refine ⟨(above_run _ _ hr ha).mem j, ?_⟩
  have := (below_run _ _ j _ hr hn hb).2.mem
  rwa [pending_done t hd, add_zero, givenOut_sum updates work hg] at this

/-- Pixels that only one thread adds to have the right value, whatever the schedule: in particular
all pixels if there is a single thread. -/
theorem C80_schedule_partial {n : ℕ} (updates : List (List (ℕ × ℝ)))
    (work : Fin n → List (ℕ × ℝ)) (hg : GivenOut updates work) (i : Fin n) (j : ℕ)
    (ho : ∀ k, k ≠ i → ∀ u ∈ work k, u.1 ≠ j) (t : KinState n)
    (hr : KinRun (kinStart work) t) (hd : t.Done) : t.mem j = getPatternSeq updates j := by
  have hs : KinOwned (kinStart work) i j (addedTo (work i) j) := by
    refine ⟨by simp [kinStart], ?_, ho⟩
    intro u l r h
    simp [kinStart] at h
  have hm := (owned_run _ _ i j _ hr hs).mem
  rw [hd i, addedTo_nil, add_zero] at hm
  rw [hm, ← givenOut_sum updates work hg j, Finset.sum_eq_single i]
  · intro k _ hk
    exact addedTo_zero _ _ (ho k hk)
  · intro h
    exact absurd (Finset.mem_univ i) h

/-- The calculation always can come to an end. -/
theorem C80_terminates {n : ℕ} (work : Fin n → List (ℕ × ℝ)) (s : KinState n)
    (_ : KinRun (kinStart work) s) : ∃ t, KinRun s t ∧ t.Done := finish s

/-- Whenever two threads have a pixel in common, there is a schedule with which the intensity of a
band is missing from that pixel. -/
theorem C80_schedule_violated {n : ℕ} (updates : List (List (ℕ × ℝ)))
    (work : Fin n → List (ℕ × ℝ)) (hg : GivenOut updates work)
    (h0 : ∀ u ∈ updates.flatten, 0 < u.2) (i k : Fin n) (hik : i ≠ k) (j : ℕ) (a b : ℝ)
    (hi : (j, a) ∈ work i) (hk : (j, b) ∈ work k) :
    ∃ t, KinRun (kinStart work) t ∧ t.Done ∧ t.mem j < getPatternSeq updates j := by
  obtain ⟨t, hr, hd, hm⟩ := race work
    (fun i u hu => le_of_lt (h0 u (givenOut_mem updates work hg i u hu))) i k hik j a b hi hk
  refine ⟨t, hr, hd, ?_⟩
  have := h0 (j, a) (givenOut_mem updates work hg i _ hi)
  rw [← givenOut_sum updates work hg j]
  simp only at this
  linarith

/-! ### Findings -/

/-- A reflector given without its opposite one gives half a band: two pixels at the same distance
from the plane and both within the Bragg angle have different values. -/
theorem C80_one_sided_violated :
    ∃ (sim : KinSimulator) (m : KinMaster) (image : List ℝ),
      calculateMasterPattern sim 10 "upper" .none = .ok m ∧ m.images = [image] ∧
      (∀ r ∈ sim.reflectors, r.Valid) ∧
      (∃ p ∈ sim.reflectors, ∀ v, Projects (-1) (1 / 10) 0 v ∨ Projects (-1) (-1 / 10) 0 v →
        |p.normal.dot v| ≤ Real.sin p.theta) ∧
      image[10 * m.size + 11]? = some 1 ∧ image[10 * m.size + 9]? = some 0 := by
  have hs6 : Real.sin (Real.pi / 6) = 1 / 2 := Real.sin_pi_div_six
  have hpi := Real.pi_pos
  have hu : parseKinHemisphere "upper" = .ok .upper := by
    have : "upper".toLower = "upper" := by decide +kernel
    rw [parseKinHemisphere, this]; simp
  refine ⟨⟨[⟨⟨1, 0, 0⟩, Real.pi / 6, 1⟩], true, true⟩, _, _,
    calculateMasterPattern_eq _ _ _ _ rfl rfl _ hu _ rfl, rfl, ?_, ?_, ?_, ?_⟩
  · intro r hr
    rw [List.mem_singleton] at hr
    subst hr
    refine ⟨by norm_num, by positivity, by simp only; linarith, ?_⟩
    simp only
    rw [hs6]; norm_num
  · refine ⟨_, List.mem_singleton_self _, ?_⟩
    rintro v (hv | hv)
    · rw [projects_unique _ _ _ v (by norm_num) hv]
      simp only [stereoVector, V3.dot]
      rw [hs6]
      norm_num [abs_le]
    · rw [projects_unique _ _ _ v (by norm_num) hv]
      simp only [stereoVector, V3.dot]
      rw [hs6]
      norm_num [abs_le]
  · rw [show (10 * _ + 11 : ℕ) = 10 * (2 * 10 + 1) + 11 from rfl,
      kinImage_getElem 10 _ _ _ 10 11 (by norm_num) (by norm_num),
      gridCoordinate_eq _ _ (by norm_num), gridCoordinate_eq _ _ (by norm_num)]
    simp only [List.map_cons, List.map_nil, List.sum_cons, List.sum_nil, add_zero]
    rw [bandUpdate_eq _ _ _ (by positivity) (by linarith) (by
      simp only [stereoVector, V3.dot]; norm_num [abs_le]), hs6]
    simp only [stereoVector, V3.dot]
    norm_num
  · rw [show (10 * _ + 9 : ℕ) = 10 * (2 * 10 + 1) + 9 from rfl,
      kinImage_getElem 10 _ _ _ 10 9 (by norm_num) (by norm_num),
      gridCoordinate_eq _ _ (by norm_num), gridCoordinate_eq _ _ (by norm_num)]
    simp only [List.map_cons, List.map_nil, List.sum_cons, List.sum_nil, add_zero]
    rw [bandUpdate_eq _ _ _ (by positivity) (by linarith) (by
      simp only [stereoVector, V3.dot]; norm_num [abs_le]), hs6]
    simp only [stereoVector, V3.dot]
    norm_num

/-- With the hemisphere in lower case, there is one axis per dimension of the data. -/
theorem C80_axes_partial (sim : KinSimulator) (h : ℕ) (hemi : String) (s : KinScaling)
    (m : KinMaster) (hm : calculateMasterPattern sim h hemi s = .ok m)
    (hl : hemi.toLower = hemi) : m.axes.length = m.dataDims := by
  obtain ⟨H, f, hH, hf, rfl⟩ := calculateMasterPattern_ok sim h hemi s m hm
  rw [parseKinHemisphere, hl] at hH
  by_cases h1 : hemi = "upper"
  · subst h1; cases hH; rfl
  · rw [if_neg h1] at hH
    by_cases h2 : hemi = "lower"
    · subst h2; cases hH; rfl
    · rw [if_neg h2] at hH
      by_cases h3 : hemi = "both"
      · subst h3; cases hH; rfl
      · rw [if_neg h3] at hH; cases hH

/-- `"Both"` is accepted and both hemispheres are calculated, but their axis is missing. -/
theorem C80_axes_violated (sim : KinSimulator) (ht : sim.hasTheta = true)
    (hf : sim.hasFactor = true) (h : ℕ) :
    ∃ m, calculateMasterPattern sim h "Both" .linear = .ok m ∧ m.dataDims = 3 ∧
      m.axes.length = 2 := by
  have hp : parseKinHemisphere "Both" = .ok .both := by
    have : "Both".toLower = "both" := by decide +kernel
    rw [parseKinHemisphere, this]; simp
  exact ⟨_, calculateMasterPattern_eq _ _ _ _ ht hf _ hp _ rfl, rfl, rfl⟩

/-- The middle pixel, which is the pole, does not have coordinate 0 on the signal axes but -1. -/
theorem C80_middle_violated (sim : KinSimulator) (h : ℕ) (hemi : String) (s : KinScaling)
    (m : KinMaster) (hm : calculateMasterPattern sim h hemi s = .ok m) :
    ∀ a ∈ m.axes, a.1 ≠ "hemisphere" → a.2 + h * 1 = -1 := by
  obtain ⟨H, f, hH, hf, rfl⟩ := calculateMasterPattern_ok sim h hemi s m hm
  intro a ha hne
  have e : (-(2 * (h : ℤ) + 1)) / 2 + h * 1 = -1 := by omega
  simp only [List.mem_append, List.mem_cons, List.not_mem_nil, or_false] at ha
  rcases ha with ha | rfl | rfl
  · split_ifs at ha
    · rw [List.mem_singleton] at ha
      subst ha
      exact absurd rfl hne
    · simp at ha
  · exact e
  · exact e

/-! ### Examples -/

/-- The planes (100) and (010). -/
def twoPlanes : List KinReflector :=
  [⟨⟨1, 0, 0⟩, Real.pi / 6, 2⟩, ⟨⟨0, 1, 0⟩, Real.pi / 6, 3⟩]

theorem twoPlanes_valid : ∀ p ∈ twoPlanes, p.Valid := by
  have hs6 : Real.sin (Real.pi / 6) = 1 / 2 := Real.sin_pi_div_six
  have hpi := Real.pi_pos
  intro p hp
  simp only [twoPlanes, List.mem_cons, List.not_mem_nil, or_false] at hp
  rcases hp with rfl | rfl
  · refine ⟨by norm_num, by positivity, by simp only; linarith, ?_⟩
    simp only
    rw [hs6]; norm_num
  · refine ⟨by norm_num, by positivity, by simp only; linarith, ?_⟩
    simp only
    rw [hs6]; norm_num

/-- Both planes from both sides. -/
def fourReflectors : KinSimulator :=
  ⟨twoPlanes ++ twoPlanes.map KinReflector.opposite, true, true⟩

/-- C80_bands applies to them: the pole lies in both bands. -/
example (h : ℕ) (hh : 1 ≤ h) : ∃ m image,
    calculateMasterPattern fourReflectors h "upper" .linear = .ok m ∧ m.images[0]? = some image ∧
      image[h * m.size + h]? = some 5 := by
  have hl : "upper".toLower = "upper" := by decide +kernel
  have hacc := (C80_accepted fourReflectors h "upper" .linear).mpr
    ⟨rfl, rfl, by rw [hl]; simp, by simp⟩
  obtain ⟨m, hm⟩ := hacc
  have hdir : Projects (projectionPole true) (((h : ℝ) - h) / h) (((h : ℝ) - h) / h) ⟨0, 0, 1⟩ := by
    refine ⟨by norm_num, by norm_num [projectionPole], ?_, ?_⟩ <;> simp
  obtain ⟨image, hi, hv⟩ := C80_bands fourReflectors h hh "upper" .linear m hm twoPlanes
    (List.Perm.refl _) twoPlanes_valid 0 true (by rw [hasHemisphere, hl]; rfl) h h (by omega)
    (by omega) ⟨0, 0, 1⟩ hdir
  refine ⟨m, image, hm, hi, ?_⟩
  rw [hv]
  have hs6 : Real.sin (Real.pi / 6) = 1 / 2 := Real.sin_pi_div_six
  simp only [twoPlanes, List.map_cons, List.map_nil, List.sum_cons, List.sum_nil, V3.dot,
    documentedIntensity]
  rw [hs6]
  norm_num

/-- C80_inversion and C80_order apply to them too. -/
example : fourReflectors.reflectors.Perm (fourReflectors.reflectors.map KinReflector.opposite) := by
  have e : (twoPlanes.map KinReflector.opposite).map KinReflector.opposite = twoPlanes := by
    simp [twoPlanes, KinReflector.opposite]
  simp only [fourReflectors, List.map_append, e]
  exact List.perm_append_comm

/-- The violation is met by any two planes on two threads: with the planes (100) and (010), the pole
may get the intensity of one of them only. -/
example (h : ℕ) (hh : 1 ≤ h) :
    ∃ t : KinState 2,
      KinRun (kinStart fun i => ((kinUpdates h (-1) (fun r => r.factor) twoPlanes)[i]?).getD []) t ∧
      t.Done ∧ t.mem (h * (2 * h + 1) + h) <
        getPatternSeq (kinUpdates h (-1) (fun r => r.factor) twoPlanes) (h * (2 * h + 1) + h) := by
  have hlt := pixel_lt h h h (by omega) (by omega)
  have hdir : (hemisphereDirections h (-1))[h * (2 * h + 1) + h]? = some ⟨0, 0, 1⟩ := by
    rw [List.getElem?_eq_getElem (by rw [hemisphereDirections_length]; exact hlt),
      hemisphereDirections_getElem _ _ _ _ (by omega), gridCoordinate_eq h h hh]
    simp [stereoVector]
  have hmem : ∀ (i : ℝ) (r : KinReflector), r.normal.z = 0 →
      (h * (2 * h + 1) + h, 1 / 2 * i) ∈ reflectorUpdates i r (hemisphereDirections h (-1)) := by
    intro i r hz
    rw [reflectorUpdates, List.mem_filterMap]
    refine ⟨(⟨0, 0, 1⟩, h * (2 * h + 1) + h), ?_, ?_⟩
    · rw [List.mk_mem_zipIdx_iff_getElem?]; exact hdir
    · simp only [V3.dot, hz, bandUpdate]
      norm_num
  have hpos : ∀ u ∈ (kinUpdates h (-1) (fun r => r.factor) twoPlanes).flatten, 0 < u.2 := by
    intro u hu
    rw [List.mem_flatten] at hu
    obtain ⟨l, hl, hu⟩ := hu
    rw [kinUpdates, List.mem_map] at hl
    obtain ⟨r, hr, rfl⟩ := hl
    rw [reflectorUpdates, List.mem_filterMap] at hu
    obtain ⟨w, -, hw⟩ := hu
    rw [Option.map_eq_some_iff] at hw
    obtain ⟨a, ha, rfl⟩ := hw
    have hfac : 0 < r.factor := by
      simp only [twoPlanes, List.mem_cons, List.not_mem_nil, or_false] at hr
      rcases hr with rfl | rfl <;> norm_num
    rw [bandUpdate] at ha
    split_ifs at ha <;> · simp only [Option.some.injEq] at ha; subst ha; simp only; positivity
  refine C80_schedule_violated (n := 2) _ _ ?_ hpos 0 1 (by decide) _ _ _
    (hmem 2 ⟨⟨1, 0, 0⟩, Real.pi / 6, 2⟩ rfl) (hmem 3 ⟨⟨0, 1, 0⟩, Real.pi / 6, 3⟩ rfl)
  refine ⟨fun i => [((kinUpdates h (-1) (fun r => r.factor) twoPlanes)[i]?).getD []], ?_, ?_⟩
  · intro i; simp
  · rw [kinUpdates, twoPlanes]
    simp [List.ofFn_succ]

end

end Kp
