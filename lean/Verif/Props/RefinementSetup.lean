import Verif.Model.RefinementSetup
import Mathlib.Analysis.Real.Pi.Bounds
import Mathlib.Tactic.IntervalCases

/-
C34: trust regions. C35: refinement calls do not affect each other. C36: pseudo-symmetry.
C64: initial steps.
-/

set_option linter.unusedSectionVars false

namespace Kp

open Real

/-- Control variable `i` is an Euler angle. -/
def Spec.isAngle (mode : RMode) (i : ℕ) : Prop := mode = .ori ∨ mode = .oriPc ∧ i < 3

/-- The largest allowed deviation of control variable `i` from the starting point, for a trust
region with deviations in degrees for angles. -/
noncomputable def Spec.width (mode : RMode) (t : List ℝ) (i : ℕ) : ℝ :=
  open Classical in if Spec.isAngle mode i then t.getD i 0 * π / 180 else t.getD i 0

/-- The definition range of control variable `i`, with five degrees to spare for angles. -/
noncomputable def Spec.range (mode : RMode) (i : ℕ) : ℝ × ℝ :=
  open Classical in
  if Spec.isAngle mode i then (-5 * π / 180, (if i = 1 then 185 else 365) * π / 180) else (-2, 2)

theorem deg2rad_eq (x : ℝ) : deg2rad x = x * π / 180 := by unfold deg2rad; ring

theorem upper1 : 2 * π + deg2rad 5 = 365 * π / 180 := by rw [deg2rad_eq]; ring
theorem upper2 : π + deg2rad 5 = 185 * π / 180 := by rw [deg2rad_eq]; ring
theorem lower1 : -deg2rad 5 = -5 * π / 180 := by rw [deg2rad_eq]; ring

/-- C34: with a trust region of floats, the bounds of each control variable are the starting
value minus and plus the trust region, limited to the definition range. Missing: trust regions of
integers when refining orientations and PCs together, see `C34_not_for_integers`. -/
theorem C34_bounds_partial {mode : RMode} {x : List ℝ} (hx : x.length = mode.nControl)
    {t : TrustRegion} (ht : t.values.length = mode.nControl) (hf : t.isInt = false) :
    ∃ lo hi t', boundConstraints mode x (some t) = .ok ((lo, hi), t') ∧
      lo.length = mode.nControl ∧ hi.length = mode.nControl ∧
      ∀ i < mode.nControl,
        lo.getD i 0 = max (x.getD i 0 - Spec.width mode t.values i) (Spec.range mode i).1 ∧
        hi.getD i 0 = min (x.getD i 0 + Spec.width mode t.values i) (Spec.range mode i).2 := by
  obtain ⟨isInt, v⟩ := t
  simp only at ht hf
  subst hf
  cases mode with
  | ori =>
    simp only [RMode.nControl] at hx ht ⊢
    obtain ⟨x0, x1, x2, rfl⟩ := List.length_eq_three.1 hx
    obtain ⟨v0, v1, v2, rfl⟩ := List.length_eq_three.1 ht
    refine ⟨_, _, _, rfl, by simp [RMode.lowerAbs], by simp [RMode.upperAbs], ?_⟩
    intro i hi
    simp only [Spec.width, Spec.range, Spec.isAngle, true_or, if_true, RMode.lowerAbs,
      RMode.upperAbs, upper1, upper2, lower1]
    interval_cases i <;> simp [deg2rad_eq, List.replicate_succ]
  | pc =>
    simp only [RMode.nControl] at hx ht ⊢
    obtain ⟨x0, x1, x2, rfl⟩ := List.length_eq_three.1 hx
    obtain ⟨v0, v1, v2, rfl⟩ := List.length_eq_three.1 ht
    refine ⟨_, _, _, rfl, by simp [RMode.lowerAbs], by simp [RMode.upperAbs], ?_⟩
    intro i hi
    simp only [Spec.width, Spec.range, Spec.isAngle, RMode.lowerAbs, RMode.upperAbs]
    interval_cases i <;> simp [List.replicate_succ]
  | oriPc =>
    simp only [RMode.nControl] at hx ht ⊢
    obtain ⟨x0, x1, x2, x3, x4, x5, rfl⟩ : ∃ a b c d e f, x = [a, b, c, d, e, f] := by
      match x, hx with
      | [a, b, c, d, e, f], _ => exact ⟨a, b, c, d, e, f, rfl⟩
    obtain ⟨v0, v1, v2, v3, v4, v5, rfl⟩ : ∃ a b c d e f, v = [a, b, c, d, e, f] := by
      match v, ht with
      | [a, b, c, d, e, f], _ => exact ⟨a, b, c, d, e, f, rfl⟩
    refine ⟨_, _, _, rfl, by simp [RMode.lowerAbs], by simp [RMode.upperAbs], ?_⟩
    intro i hi
    simp only [Spec.width, Spec.range, Spec.isAngle, RMode.lowerAbs, RMode.upperAbs, upper1,
      upper2, lower1]
    interval_cases i <;> simp [deg2rad_eq, List.replicate_succ, TrustRegion.store]

/-- The starting point is in the definition range: Euler angles in [0, 360], [0, 180] and
[0, 360] degrees, PCs in [-2, 2]. -/
def Spec.inRange (mode : RMode) (x : List ℝ) : Prop :=
  ∀ i < mode.nControl, (Spec.range mode i).1 ≤ x.getD i 0 ∧ x.getD i 0 ≤ (Spec.range mode i).2

/-- C34: for a starting point in the definition range and a trust region of non-negative floats,
the bounds given to every optimizer that supports bounds contain the starting point and are
within the trust region. -/
theorem C34_within_trust_region_partial {mode : RMode} {x : List ℝ} (hx : x.length = mode.nControl)
    (hr : Spec.inRange mode x) {t : TrustRegion} (ht : t.values.length = mode.nControl)
    (hf : t.isInt = false) (hpos : ∀ v ∈ t.values, 0 ≤ v) {m : OptMethod}
    (hm : m.supportsBounds = true) :
    ∃ lo hi t', boundConstraints mode x (some t) = .ok ((lo, hi), t') ∧
      boundsGiven m true (lo, hi) = some (lo, hi) ∧
      ∀ i < mode.nControl, lo.getD i 0 ≤ x.getD i 0 ∧ x.getD i 0 ≤ hi.getD i 0 ∧
        x.getD i 0 - Spec.width mode t.values i ≤ lo.getD i 0 ∧
        hi.getD i 0 ≤ x.getD i 0 + Spec.width mode t.values i := by
  obtain ⟨lo, hi, t', h, _, _, hb⟩ := C34_bounds_partial hx ht hf
  refine ⟨lo, hi, t', h, by cases m <;> first | rfl | simp [OptMethod.supportsBounds] at hm, ?_⟩
  intro i hi'
  obtain ⟨h1, h2⟩ := hb i hi'
  obtain ⟨h3, h4⟩ := hr i hi'
  have hv : 0 ≤ t.values.getD i 0 := by
    rw [List.getD_eq_getElem?_getD, List.getElem?_eq_getElem (by omega)]
    exact hpos _ (List.getElem_mem _)
  have hw : 0 ≤ Spec.width mode t.values i := by
    unfold Spec.width
    split
    · positivity
    · exact hv
  rw [h1, h2]
  exact ⟨max_le (by linarith) h3, le_min (by linarith) h4, le_max_left _ _, min_le_left _ _⟩

/-- C34: without a trust region, no bounds are given to `minimize`, NLopt's Nelder-Mead and
`basinhopping`. The part for other methods is false, see `C34_not_without_trust_region`. -/
theorem C34_no_bounds_partial {m : OptMethod}
    (hm : m = .minimize ∨ m = .lnNelderMead ∨ m = .basinhopping) (b : List ℝ × List ℝ) :
    boundsGiven m false b = none := by
  rcases hm with rfl | rfl | rfl <;> rfl

/-- C34 is false: without a trust region, `differential_evolution`, `dual_annealing` and `shgo`
get bounds that only allow zero for all control variables. -/
theorem C34_not_without_trust_region (mode : RMode) (x : List ℝ) {m : OptMethod}
    (hm : m = .differentialEvolution ∨ m = .dualAnnealing ∨ m = .shgo) :
    ∃ lo hi, boundConstraints mode x none = .ok ((lo, hi), none) ∧
      boundsGiven m false (lo, hi) = some (lo, hi) ∧
      ∀ y : List ℝ, y.length = mode.nControl →
        (∀ i < mode.nControl, lo.getD i 0 ≤ y.getD i 0 ∧ y.getD i 0 ≤ hi.getD i 0) →
        y = List.replicate mode.nControl 0 := by
  refine ⟨_, _, rfl, by rcases hm with rfl | rfl | rfl <;> rfl, fun y hy hb => ?_⟩
  refine List.ext_getElem (by simp [hy]) fun i h1 h2 => ?_
  have := hb i (by omega)
  have h3 : i < mode.nControl := by omega
  simp [h1, h3] at this
  simp
  linarith [this.1, this.2]

/-- C34 is false for trust regions of integers when refining orientations and PCs together: with
two degrees for angles, angles can not change at all. -/
theorem C34_not_for_integers (x0 x1 x2 x3 x4 x5 : ℝ) :
    ∃ lo hi t', boundConstraints .oriPc [x0, x1, x2, x3, x4, x5]
        (some ⟨true, [2, 2, 2, 1, 1, 1]⟩) = .ok ((lo, hi), t') ∧
      ∀ i < 3, hi.getD i 0 ≤ [x0, x1, x2].getD i 0 ∧
        [x0, x1, x2].getD i 0 ≤ lo.getD i 0 := by
  have hz : truncate (deg2rad 2) = 0 := by
    have hpi := Real.pi_lt_four
    have hpi0 := Real.pi_pos
    unfold truncate deg2rad
    rw [if_pos (by positivity)]
    have : ⌊2 * (π / 180)⌋ = 0 := by
      rw [Int.floor_eq_zero_iff]
      constructor
      · positivity
      · linarith
    rw [this]
    simp
  refine ⟨_, _, _, rfl, fun i hi => ?_⟩
  simp only [RMode.lowerAbs, RMode.upperAbs]
  interval_cases i <;> simp [TrustRegion.store, hz, List.replicate_succ]

/-! ### C64 -/

/-- C64: the number of initial steps is checked, and the step of the PC is the given one. -/
theorem C64_initial_step_partial (s s' : ℝ) :
    initialSteps .pc [s] = .ok [s, s, s] ∧
    (∃ l, initialSteps .oriPc [s, s'] = .ok l ∧ l.drop 3 = [s', s', s'] ∧ l.length = 6) ∧
    (∀ mode l, l.length ≠ (if mode = .oriPc then 2 else 1) →
      initialSteps mode l = .error .valueError) := by
  refine ⟨rfl, ⟨_, rfl, rfl, rfl⟩, fun mode l h => ?_⟩
  unfold initialSteps
  rw [if_pos h]

/-- C64 is false: an initial step of `s` degrees for Euler angles, which are in radians, is used
as `s` radians. -/
theorem C64_not_degrees {s : ℝ} (hs : s ≠ 0) :
    initialSteps .ori [s] = .ok [s, s, s] ∧ s ≠ deg2rad s := by
  refine ⟨rfl, fun h => ?_⟩
  unfold deg2rad at h
  have hpi := Real.pi_lt_four
  have : s * (1 - π / 180) = 0 := by linarith
  rcases mul_eq_zero.1 this with h1 | h1
  · exact hs h1
  · linarith

/-! ### C35 -/

variable {Opt Fixed : Type*}

/-- C35: what a refinement call does depends on its arguments only, for every history of earlier
calls (with any methods, completed or failed). -/
theorem C35_history_independent_partial (history : List (RefineCall Opt Fixed))
    (a : RefineCall Opt Fixed) :
    (refineCall (refineHistory {} history) a).1 = (refineCall {} a).1 := by
  have : ∀ s s' : ClassState Opt Fixed, (refineCall s a).1 = (refineCall s' a).1 := by
    intro s s'
    unfold refineCall
    simp only
    split
    · rfl
    split
    · split
      · rfl
      split
      · rfl
      split
      · rfl
      split <;> rfl
    · split
      · rfl
      split <;> rfl
  exact this _ _

/-- C35: NLopt calls do not change the keyword arguments given, and SciPy calls other than
`minimize` and `basinhopping` neither. -/
theorem C35_kwargs_unchanged_partial (s : ClassState Opt Fixed) (a : RefineCall Opt Fixed)
    {m : OptMethod} (hm : OptMethod.ofString a.method = some m)
    (h : m ≠ .minimize ∧ m ≠ .basinhopping) : (refineCall s a).2.2 = a.methodKwargs := by
  unfold refineCall
  simp only [hm]
  have hk : ∀ k, prepareKwargs m k = k := by
    intro k
    unfold prepareKwargs
    simp [h.1, h.2]
  split
  · split
    · rfl
    split
    · rfl
    split
    · rfl
    split <;> rfl
  · simp only [hk]
    rcases a.methodKwargs with _ | k
    · split
      · rfl
      split <;> rfl
    · split
      · rfl
      split <;> rfl

/-- C35: a call which does not raise gives the solver the fixed parameters, the rescaling and the
trust region of its own arguments, with NLopt its own optimizer, with SciPy its own keyword
arguments: the method in them is kept, and those which are not looked at are all kept.  Results of
a chunk lose the axes of the arrays which they do not have: with PCs only the pixel axis, else also
the axis of rotations. -/
theorem C35_own_arguments (s : ClassState Opt Fixed) (a : RefineCall Opt Fixed)
    (t : RefineTask Opt Fixed) (h : (refineCall s a).1 = .ok t) :
    (∃ f, a.fixed = .ok f ∧ t.fixed = some f) ∧ t.rescale = some a.rescale ∧
      t.trustRegionPassed = some a.trustRegionPassed ∧
      (t.dropAxis = some [1] ↔ a.mode = .pc) ∧ (t.dropAxis = some [1, 2] ↔ a.mode ≠ .pc) ∧
      ((∃ o, a.opt = .ok o ∧ t.opt = some o ∧ t.method = none) ∨
        ∃ k k0 m, t.opt = none ∧ t.method = some m ∧ OptMethod.ofString a.method = some m ∧
          t.methodKwargs = some k ∧ k0 = a.methodKwargs.getD ⟨none, false, []⟩ ∧
          k.other = k0.other ∧ (∀ x, k0.method = some x → k.method = some x) ∧
          (k0.minimizerKwargs = true → k.minimizerKwargs = true) ∧
          (m ≠ .minimize → k.method = k0.method) ∧
          (m ≠ .basinhopping → k.minimizerKwargs = k0.minimizerKwargs)) := by
  have hdrop : ((some (if a.mode = .pc then [1] else [1, 2]) : Option (List ℕ)) = some [1] ↔
      a.mode = .pc) ∧ ((some (if a.mode = .pc then [1] else [1, 2]) : Option (List ℕ)) =
      some [1, 2] ↔ a.mode ≠ .pc) := by
    by_cases hm : a.mode = .pc <;> simp [hm]
  unfold refineCall at h
  simp only at h
  split at h
  · simp at h
  rename_i m hm
  split at h
  · split at h
    · simp at h
    split at h
    · simp at h
    rename_i o ho
    split at h
    · simp at h
    rename_i f hf
    split at h
    · simp at h
    obtain rfl := Except.ok.inj h
    exact ⟨⟨f, hf, rfl⟩, rfl, rfl, hdrop.1, hdrop.2, .inl ⟨o, ho, rfl, rfl⟩⟩
  · split at h
    · simp at h
    rename_i f hf
    split at h
    · simp at h
    obtain rfl := Except.ok.inj h
    refine ⟨⟨f, hf, rfl⟩, rfl, rfl, hdrop.1, hdrop.2, .inr ⟨_, _, m, rfl, rfl, hm, rfl, rfl, ?_⟩⟩
    generalize a.methodKwargs.getD ⟨none, false, []⟩ = k0
    unfold prepareKwargs
    simp only
    refine ⟨?_, ?_, ?_, ?_, ?_⟩
    · split_ifs <;> rfl
    · intro x hx
      split_ifs <;> simp_all
    · intro hx
      split_ifs <;> simp_all
    · intro hx
      simp [hx]
      split_ifs <;> rfl
    · intro hx
      simp [hx]
      split_ifs <;> rfl

/-- C35 is false: a dictionary of keyword arguments used in a call with `minimize` is changed,
so that a second call (here with `differential_evolution`) gets another keyword argument than it
would without the first call. -/
theorem C35_not_kwargs (opt : Opt) (fixed : Fixed) :
    ∃ a b : RefineCall Opt Fixed, a.methodKwargs = b.methodKwargs ∧
      (refineCall {} a).2.2 ≠ a.methodKwargs ∧
      (refineCall {} { b with methodKwargs := (refineCall {} a).2.2 }).1 ≠ (refineCall {} b).1 := by
  refine ⟨⟨.ori, "minimize", false, .ok opt, some ⟨none, false, []⟩, .ok fixed, false, false, none⟩,
    ⟨.ori, "differential_evolution", false, .ok opt, some ⟨none, false, []⟩, .ok fixed, false, true,
      none⟩, rfl, ?_, ?_⟩
  · have h : OptMethod.ofString "minimize" = some .minimize := by decide +kernel
    simp [refineCall, h, OptMethod.isNlopt, prepareKwargs]
  · have h : OptMethod.ofString "minimize" = some .minimize := by decide +kernel
    have h' : OptMethod.ofString "differential_evolution" = some .differentialEvolution := by
      decide +kernel
    simp [refineCall, h, h', OptMethod.isNlopt, prepareKwargs]

/-- C35 is false: refining orientations and PCs together changes the trust region array of the
caller, so that a second call with the same array gets narrower bounds. -/
theorem C35_not_trust_region :
    ∃ (x : List ℝ) (t t' : TrustRegion) (b b' : List ℝ × List ℝ),
      boundConstraints .oriPc x (some t) = .ok (b, some t') ∧ t' ≠ t ∧
      (∃ t'', boundConstraints .oriPc x (some t') = .ok (b', t'')) ∧ b' ≠ b := by
  have hpi := Real.pi_gt_three
  have hpi4 := Real.pi_lt_four
  refine ⟨[1, 1, 1, 0, 0, 0], ⟨false, [18, 18, 18, 1, 1, 1]⟩, _, _, _, rfl, ?_, ⟨_, rfl⟩, ?_⟩
  · intro h
    simp only [TrustRegion.mk.injEq, TrustRegion.store, deg2rad, List.take, List.map_cons,
      List.cons_append, List.cons.injEq] at h
    have := h.2.1
    simp only [Bool.false_eq_true, if_false] at this
    linarith
  · intro h
    simp only [Prod.mk.injEq, RMode.lowerAbs, RMode.upperAbs] at h
    have h1 := h.2
    simp [TrustRegion.store, deg2rad] at h1
    have h2 := h1.1
    rw [min_eq_left, min_eq_left] at h2
    · nlinarith
    · nlinarith
    · nlinarith

/-- C35: refining only orientations or only PCs leaves the trust region of the caller alone. -/
theorem C35_trust_region_unchanged_partial {mode : RMode} (hm : mode ≠ .oriPc) (x : List ℝ)
    (t : TrustRegion) {b : List ℝ × List ℝ} {t' : Option TrustRegion}
    (h : boundConstraints mode x (some t) = .ok (b, t')) : t' = some t := by
  have ht : (mode.trustRegion t).2 = t := by
    cases mode with
    | ori => rfl
    | pc => rfl
    | oriPc => exact absurd rfl hm
  unfold boundConstraints at h
  simp only at h
  split at h
  · cases h
  · simp only [Except.ok.injEq, Prod.mk.injEq] at h
    rw [← h.2, ht]

/-! ### C36 -/

section
variable {K X : Type*} [Field K] [LinearOrder K] [IsStrictOrderedRing K]

theorem argminFirst_spec {l : List K} (h : l ≠ []) :
    argminFirst l < l.length ∧ (∀ i < l.length, l.getD (argminFirst l) 0 ≤ l.getD i 0) ∧
      ∀ i < argminFirst l, l.getD (argminFirst l) 0 < l.getD i 0 := by
  have hpos : 0 < l.length := List.length_pos_iff.2 h
  unfold argminFirst
  have key : ∀ n ≤ l.length,
      let b := (List.range n).foldl (fun b i => if l.getD i 0 < l.getD b 0 then i else b) 0
      (b < n ∨ b = 0) ∧ (∀ i < n, l.getD b 0 ≤ l.getD i 0) ∧ ∀ i < b, l.getD b 0 < l.getD i 0 := by
    intro n hn
    induction n with
    | zero => simp
    | succ n ih =>
      obtain ⟨h1, h2, h3⟩ := ih (by omega)
      simp only [List.range_succ, List.foldl_append, List.foldl_cons, List.foldl_nil]
      generalize (List.range n).foldl (fun b i => if l.getD i 0 < l.getD b 0 then i else b) 0 = b at *
      split
      · rename_i hlt
        refine ⟨by omega, fun i hi => ?_, fun i hi => lt_of_lt_of_le hlt (h2 i hi)⟩
        rcases Nat.lt_succ_iff_lt_or_eq.1 hi with hi | rfl
        · exact (hlt.trans_le (h2 i hi)).le
        · exact le_rfl
      · rename_i hlt
        refine ⟨by omega, fun i hi => ?_, h3⟩
        rcases Nat.lt_succ_iff_lt_or_eq.1 hi with hi | rfl
        · exact h2 i hi
        · exact not_lt.1 hlt
  obtain ⟨h1, h2, h3⟩ := key l.length le_rfl
  exact ⟨by omega, h2, h3⟩

theorem argmaxFirst_one_sub (l : List K) :
    argmaxFirst (l.map (fun x => 1 - x)) = argminFirst l := by
  unfold argmaxFirst argminFirst
  rw [List.length_map]
  have : ∀ n ≤ l.length, ∀ b, (b < l.length ∨ n = 0) →
      (List.range n).foldl (fun b i => if (l.map (fun x => 1 - x)).getD b 0 <
        (l.map (fun x => 1 - x)).getD i 0 then i else b) b =
      (List.range n).foldl (fun b i => if l.getD i 0 < l.getD b 0 then i else b) b ∧
      ((List.range n).foldl (fun b i => if l.getD i 0 < l.getD b 0 then i else b) b < l.length ∨
        n = 0) := by
    intro n hn
    induction n with
    | zero => intro b hb; simp
    | succ n ih =>
      intro b hb
      have hb' : b < l.length := by omega
      obtain ⟨h1, h2⟩ := ih (by omega) b (.inl hb')
      simp only [List.range_succ, List.foldl_append, List.foldl_cons, List.foldl_nil]
      rw [h1]
      have hg : (List.range n).foldl (fun b i => if l.getD i 0 < l.getD b 0 then i else b) b <
          l.length := by
        rcases h2 with h | h
        · exact h
        · subst h
          simpa using hb'
      generalize (List.range n).foldl (fun b i => if l.getD i 0 < l.getD b 0 then i else b) b = g at *
      have e : ∀ i < l.length, (l.map (fun x => 1 - x)).getD i 0 = 1 - l.getD i 0 := by
        intro i hi
        simp [hi]
      rw [e _ hg, e _ (by omega)]
      simp only [sub_lt_sub_iff_left]
      refine ⟨trivial, .inl ?_⟩
      split <;> omega
  rcases Nat.eq_zero_or_pos l.length with h0 | h0
  · rw [h0]
    rfl
  · exact (this l.length le_rfl 0 (.inl h0)).1

/-- C36: with pseudo-symmetry operators, SciPy and NLopt both return the result with the highest
score, the first of these if there are several, with its own number of evaluations, control
variables and operator index. -/
theorem C36_best_solution {res : List (OptResult K X)} (h : res ≠ []) :
    ∃ b r, res[b]? = some r ∧
      bestScipy res = some (1 - r.funVal, r.nfev, r.x, b) ∧
      bestNlopt res = some (1 - r.funVal, r.nfev, r.x, b) ∧
      (∀ r' ∈ res, 1 - r'.funVal ≤ 1 - r.funVal) ∧
      ∀ i < b, ∀ r', res[i]? = some r' → 1 - r'.funVal < 1 - r.funVal := by
  have hl : res.map (fun r => r.funVal) ≠ [] := by simpa using h
  obtain ⟨h1, h2, h3⟩ := argminFirst_spec hl
  have hmap : res.map (fun r => 1 - r.funVal) =
      (res.map (fun r => r.funVal)).map (fun x => 1 - x) := by
    rw [List.map_map]
    rfl
  have hb : argminFirst (res.map (fun r => r.funVal)) < res.length := by simpa using h1
  have hget : ∀ (i : ℕ) (hi : i < res.length), (res.map (fun r => r.funVal)).getD i 0 =
      res[i].funVal := by
    intro i hi
    simp [hi]
  refine ⟨argminFirst (res.map (fun r => r.funVal)), _, List.getElem?_eq_getElem hb, ?_, ?_, ?_, ?_⟩
  · unfold bestScipy
    simp only
    rw [hmap, argmaxFirst_one_sub, ← hmap, List.getElem?_map, List.getElem?_eq_getElem hb]
    rfl
  · unfold bestNlopt
    simp only
    rw [List.getElem?_map, List.getElem?_eq_getElem hb]
    rfl
  · intro r' hr'
    obtain ⟨i, hi, rfl⟩ := List.mem_iff_getElem.1 hr'
    have := h2 i (by simpa using hi)
    rw [hget _ hb, hget i hi] at this
    linarith
  · intro i hi r' hr'
    obtain ⟨hi', rfl⟩ := List.getElem?_eq_some_iff.1 hr'
    have := h3 i hi
    rw [hget _ hb, hget i hi'] at this
    linarith

end

/-! ### Non-vacuity -/

/-- Starting points from Euler angles in radians meet `Spec.inRange`. -/
example : Spec.inRange .ori [1, 2, 3] := by
  have hpi := Real.pi_gt_three
  intro i hi
  simp only [Spec.range, Spec.isAngle, true_or, if_true]
  simp only [RMode.nControl] at hi
  interval_cases i <;> norm_num <;> constructor <;> linarith

example : ∀ v ∈ (⟨false, [2, 2, 2]⟩ : TrustRegion).values, 0 ≤ v := by simp

example : bestScipy ([⟨3, 1, "a"⟩, ⟨1, 2, "b"⟩, ⟨1, 3, "c"⟩] : List (OptResult ℚ String)) =
    some (0, 2, "b", 1) := by decide +kernel

/-- A history with a failed NLopt call followed by a SciPy call. -/
example : (refineCall (refineHistory {} [⟨.ori, "LN_NELDERMEAD", true, .ok 1, none,
    .error .indexError, false, false, none⟩] : ClassState ℕ ℕ)
    ⟨.ori, "minimize", true, .ok 1, none, .ok 5, false, false, none⟩).1.toOption.map
      (fun t => (t.opt, t.fixed)) = some (none, some 5) := by decide +kernel

end Kp
