import Verif.Model.RefinementThreads
import Mathlib.Tactic.Linarith
import Mathlib.Algebra.BigOperators.Fin

/-
C89: results of refinement do not depend on the order in which blocks of patterns are refined.
The property is about complete runs of all blocks, in any interleaving. The expected result is that of
`SolverKwargs.run`, which C77 is about: the optimizer called once, with the objective function, starting
point and bounds of the pattern.
-/

namespace Kp
noncomputable section

/-- The result a pattern has if it is refined alone. -/
def SolverKwargs.alone (k : SolverKwargs) (t : SolverTask) : OptResult ℝ (List ℝ) :=
  k.run t.f t.x0 t.lower t.upper

/-- Different optimizations have different positions in the results. -/
def DistinctTasks {n : ℕ} (work : Fin n → List SolverTask) : Prop :=
  (∀ i, ((work i).map SolverTask.idx).Nodup) ∧
    ∀ i j, i ≠ j → ∀ t ∈ work i, ∀ u ∈ work j, t.idx ≠ u.idx

/-- A dictionary nobody wrote to, or only with a method that does not matter. -/
theorem SolverKwargs.call_put (k : SolverKwargs) (t : SolverTask) (d : SharedKwargs)
    (hd : k.method = .minimize → k.trust = false → d.bounds = none) :
    k.call t (k.put t d) = k.alone t := by
  unfold SolverKwargs.call SolverKwargs.put SolverKwargs.alone SolverKwargs.run
  cases hm : k.method <;> simp [startGiven, boundsGiven]
  cases ht : k.trust <;> simp
  rw [hd hm ht]

/-- Whether solvers write to the dictionary. -/
def SolverKwargs.Writes (k : SolverKwargs) : Prop :=
  (k.method = .minimize ∧ k.trust = true) ∨ k.method = .basinhopping

theorem SolverKwargs.put_eq (k : SolverKwargs) (h : ¬ k.Writes) (t : SolverTask) (d : SharedKwargs) :
    k.put t d = d := by
  unfold SolverKwargs.Writes at h
  push Not at h
  unfold SolverKwargs.put
  cases hm : k.method <;> simp_all

/-- What holds at any time: the dictionary of a block is as written for its current pattern, patterns
done have their results, and the others are still to be done. -/
structure RefineInv {n : ℕ} (k : SolverKwargs) (dict : Fin n → ℕ) (work : Fin n → List SolverTask)
    (s : RefineState n) : Prop where
  written : ∀ i t l, s.blocks i = ⟨t :: l, true⟩ → k.call t (s.dicts (dict i)) = k.alone t
  fresh : ∀ j, k.method = .minimize → k.trust = false → (s.dicts j).bounds = none
  split : ∀ i, ∃ done, work i = done ++ (s.blocks i).todo ∧
    ∀ t ∈ done, s.results t.idx = some (k.alone t)
  none : ∀ j, (∀ i, ∀ t ∈ work i, t.idx ≠ j) → s.results j = none

theorem RefineInv.start {n : ℕ} (k : SolverKwargs) (dict : Fin n → ℕ)
    (work : Fin n → List SolverTask) : RefineInv k dict work (refineStart work) where
  written i t l h := by simp [refineStart] at h
  fresh _ _ _ := rfl
  split i := ⟨[], by simp [refineStart], by simp⟩
  none _ _ := rfl

theorem RefineInv.step {n : ℕ} {k : SolverKwargs} {dict : Fin n → ℕ}
    {work : Fin n → List SolverTask} (hw : DistinctTasks work)
    (hd : Function.Injective dict ∨ ¬ k.Writes) {s u : RefineState n}
    (h : RefineInv k dict work s) (st : RefineStep k dict s u) : RefineInv k dict work u := by
  cases st with
  | put i t l hb =>
    refine ⟨?_, ?_, ?_, h.none⟩
    · intro j t' l' hj
      by_cases hij : j = i
      · subst hij
        simp only [Function.update_self, RefineBlock.mk.injEq, List.cons.injEq, and_true] at hj
        obtain ⟨rfl, -⟩ := hj
        simp only [Function.update_self]
        exact k.call_put _ _ (h.fresh _)
      · simp only [Function.update_of_ne hij] at hj
        rcases hd with hd | hd
        · simp only [Function.update_of_ne (fun e => hij (hd e))]
          exact h.written j t' l' hj
        · simp only [k.put_eq hd, Function.update_eq_self]
          exact h.written j t' l' hj
    · intro j hm ht
      by_cases hj : j = dict i
      · subst hj
        simp only [Function.update_self]
        rw [SolverKwargs.put, hm]
        simp only [ht]
        exact h.fresh _ hm ht
      · simp only [Function.update_of_ne hj]
        exact h.fresh _ hm ht
    · intro j
      obtain ⟨done, e, hr⟩ := h.split j
      refine ⟨done, ?_, hr⟩
      by_cases hij : j = i
      · subst hij
        rw [e, hb]
        simp
      · simp only [Function.update_of_ne hij]
        exact e
  | call i t l hb =>
    have hres := h.written i t l hb
    obtain ⟨done, e, hr⟩ := h.split i
    rw [hb] at e
    simp only at e
    have hti : t ∈ work i := by rw [e]; simp
    refine ⟨?_, h.fresh, ?_, ?_⟩
    · intro j t' l' hj
      by_cases hij : j = i
      · subst hij
        simp at hj
      · simp only [Function.update_of_ne hij] at hj
        exact h.written j t' l' hj
    · intro j
      by_cases hij : j = i
      · subst hij
        refine ⟨done ++ [t], by simp [e], ?_⟩
        intro v hv
        rcases List.mem_append.1 hv with hv | hv
        · have hne : v.idx ≠ t.idx := by
            have hn := hw.1 j
            rw [e, List.map_append, List.nodup_append] at hn
            exact hn.2.2 _ (List.mem_map_of_mem hv) _ (List.mem_map_of_mem (List.mem_cons_self))
          simp only [Function.update_of_ne hne]
          exact hr v hv
        · obtain rfl := List.mem_singleton.1 hv
          simp only [Function.update_self]
          rw [hres]
      · obtain ⟨done', e', hr'⟩ := h.split j
        refine ⟨done', by simpa only [Function.update_of_ne hij] using e', ?_⟩
        intro v hv
        have hvj : v ∈ work j := by rw [e']; exact List.mem_append_left _ hv
        simp only [Function.update_of_ne (hw.2 j i hij v hvj t hti)]
        exact hr' v hv
    · intro j hj
      simp only [Function.update_of_ne (hj i t hti).symm]
      exact h.none j hj

theorem RefineInv.run {n m : ℕ} {k : SolverKwargs} {dict : Fin n → ℕ}
    {work : Fin n → List SolverTask} (hw : DistinctTasks work)
    (hd : Function.Injective dict ∨ ¬ k.Writes) {s : RefineState n}
    (h : RefineRun k dict m (refineStart work) s) : RefineInv k dict work s := by
  generalize hs : refineStart work = s0 at h
  induction h with
  | refl => exact hs ▸ RefineInv.start k dict work
  | tail _ _ _ _ _ st ih => exact (ih hs).step hw hd st

/-- What the property asks for: after any complete run, each pattern has the result it has if it is
refined alone. -/
def ScheduleIndependent {n : ℕ} (k : SolverKwargs) (dict : Fin n → ℕ)
    (work : Fin n → List SolverTask) : Prop :=
  ∀ (m : ℕ) (s : RefineState n), RefineRun k dict m (refineStart work) s → s.Done →
    ∀ i, ∀ t ∈ work i, s.results t.idx = some (k.alone t)

/-- C89 (partial): if each block has a dictionary of its own, or with methods that do not write to it,
results are the same for all orders. Missing: SciPy's `minimize` with a trust region and
`basinhopping`, if blocks share the dictionary, see below. -/
theorem C89_schedule_partial {n : ℕ} {k : SolverKwargs} {dict : Fin n → ℕ}
    {work : Fin n → List SolverTask} (hw : DistinctTasks work)
    (hd : Function.Injective dict ∨ ¬ ((k.method = .minimize ∧ k.trust = true) ∨
      k.method = .basinhopping)) : ScheduleIndependent k dict work := by
  intro m s h hdone i t ht
  obtain ⟨done, e, hr⟩ := (RefineInv.run hw hd h).split i
  rw [hdone i, List.append_nil] at e
  exact hr t (e ▸ ht)

/-- C89: a single block is refined correctly with any method: nothing of one pattern is left for the
next. -/
theorem C89_one_block {k : SolverKwargs} {dict : Fin 1 → ℕ} {work : Fin 1 → List SolverTask}
    (hw : ((work 0).map SolverTask.idx).Nodup) : ScheduleIndependent k dict work := by
  apply C89_schedule_partial
  · constructor
    · intro i
      rw [Subsingleton.elim i 0]
      exact hw
    · intro i j h
      exact absurd (Subsingleton.elim i j) h
  · left
    intro i j _
    exact Subsingleton.elim i j

/-- Steps still to be made. -/
def RefineState.remaining {n : ℕ} (s : RefineState n) : ℕ :=
  ∑ i, (2 * (s.blocks i).todo.length - (if (s.blocks i).written then 1 else 0))

theorem sum_update {n : ℕ} (f : Fin n → ℕ) (i : Fin n) (x : ℕ) (h : f i = x + 1) :
    ∑ j, f j = (∑ j, Function.update f i x j) + 1 := by
  rw [Finset.sum_update_of_mem (Finset.mem_univ i), ← Finset.add_sum_erase _ _ (Finset.mem_univ i), h,
    Finset.sdiff_singleton_eq_erase]
  ring

theorem RefineStep.remaining {n : ℕ} {k : SolverKwargs} {dict : Fin n → ℕ} {s u : RefineState n}
    (st : RefineStep k dict s u) : s.remaining = u.remaining + 1 := by
  unfold RefineState.remaining
  cases st with
  | put i t l hb =>
    rw [sum_update _ i (2 * (l.length + 1) - 1) (by simp [hb]; omega)]
    congr 1
    apply Finset.sum_congr rfl
    intro j _
    by_cases hij : j = i
    · subst hij; simp
    · simp [Function.update_of_ne hij]
  | call i t l hb =>
    rw [sum_update _ i (2 * l.length) (by simp [hb]; omega)]
    congr 1
    apply Finset.sum_congr rfl
    intro j _
    by_cases hij : j = i
    · subst hij; simp
    · simp [Function.update_of_ne hij]

/-- C89: refinement ends, whatever the order: every run has at most two steps for each pattern, a run
which cannot go on is complete, and a run with that number of steps is complete. -/
theorem C89_terminates {n m : ℕ} {k : SolverKwargs} {dict : Fin n → ℕ}
    {work : Fin n → List SolverTask} {s : RefineState n}
    (h : RefineRun k dict m (refineStart work) s) :
    m ≤ 2 * ∑ i, (work i).length ∧ (s.Done ∨ ∃ u, RefineStep k dict s u) ∧
      (m = 2 * ∑ i, (work i).length → s.Done) := by
  have key : s.remaining + m = 2 * ∑ i, (work i).length := by
    generalize hs : refineStart work = s0 at h
    induction h with
    | refl => subst hs; simp [RefineState.remaining, refineStart, Finset.mul_sum]
    | tail m s t u _ st ih =>
      have := ih hs
      have := st.remaining
      omega
  have hlive : s.Done ∨ ∃ u, RefineStep k dict s u := by
    by_cases hdone : s.Done
    · exact .inl hdone
    · right
      unfold RefineState.Done at hdone
      push Not at hdone
      obtain ⟨i, hi⟩ := hdone
      obtain ⟨t, l, e⟩ := List.exists_cons_of_ne_nil hi
      cases hb : s.blocks i with
      | mk todo w =>
        rw [hb] at e
        simp only at e
        subst e
        cases w
        · exact ⟨_, .put s i t l hb⟩
        · exact ⟨_, .call s i t l hb⟩
  refine ⟨by omega, hlive, fun hm => ?_⟩
  rcases hlive with hd | ⟨u, st⟩
  · exact hd
  · have := st.remaining
    omega

/-! ### Shared dictionaries -/

/-- Two patterns in two blocks. -/
def twoBlocks (t u : SolverTask) : Fin 2 → List SolverTask := ![[t], [u]]

/-- The interleaving in which the first block changes the dictionary, then the second, and then both
call the optimizer. -/
theorem interleaved (k : SolverKwargs) (t u : SolverTask) (h : t.idx ≠ u.idx) :
    ∃ (m : ℕ) (s : RefineState 2),
      RefineRun k (fun _ => 0) m (refineStart (twoBlocks t u)) s ∧ s.Done ∧
        s.results t.idx = some (k.call t (k.put u (k.put t ⟨none, none⟩))) := by
  let s0 := refineStart (twoBlocks t u)
  have r1 := RefineRun.tail (k := k) (dict := fun _ => 0) _ _ _ _ (.refl s0) (.put s0 0 t [] rfl)
  have r2 := RefineRun.tail _ _ _ _ r1 (.put _ 1 u [] (by simp [s0, refineStart, twoBlocks]))
  have r3 := RefineRun.tail _ _ _ _ r2 (.call _ 0 t [] (by simp))
  have r4 := RefineRun.tail _ _ _ _ r3 (.call _ 1 u [] (by simp))
  refine ⟨_, _, r4, ?_, ?_⟩
  · intro i
    fin_cases i <;> simp
  · simp only [Function.update_of_ne h, Function.update_self, s0, refineStart]

/-- Control variables within bounds. -/
def InBounds (x lower upper : List ℝ) : Prop :=
  List.Forall₂ (fun x (c : ℝ × ℝ) => c.1 ≤ x ∧ x ≤ c.2) x (lower.zip upper)

/-- C89 is false if blocks share the dictionary: with SciPy's `minimize` and a trust region, a pattern
is refined within the trust region of another one. The result is outside its own, for every optimizer
that respects the bounds it is given, if the two have nothing in common. -/
theorem C89_trust_region_violated (k : SolverKwargs) (hm : k.method = .minimize)
    (ht : k.trust = true) (t u : SolverTask) (h : t.idx ≠ u.idx)
    (hopt : ∀ f x0 b, (∃ x, InBounds x b.1 b.2) → InBounds (k.opt f x0 (some b)).x b.1 b.2)
    (hu : ∃ x, InBounds x u.lower u.upper)
    (hdis : ∀ x, ¬ (InBounds x t.lower t.upper ∧ InBounds x u.lower u.upper)) :
    ∃ (m : ℕ) (s : RefineState 2) (r : OptResult ℝ (List ℝ)),
      RefineRun k (fun _ => 0) m (refineStart (twoBlocks t u)) s ∧ s.Done ∧
        s.results t.idx = some r ∧
        ¬ InBounds r.x t.lower t.upper := by
  obtain ⟨m, s, hr, hd, hres⟩ := interleaved k t u h
  refine ⟨m, s, _, hr, hd, hres, fun hin => hdis _ ⟨hin, ?_⟩⟩
  have e : k.call t (k.put u (k.put t ⟨none, none⟩)) =
      k.opt t.f (some t.x0) (some (u.lower, u.upper)) := by
    simp [SolverKwargs.call, SolverKwargs.put, hm, ht]
  rw [e]
  exact hopt _ _ _ hu

/-- C89 is false if blocks share the dictionary: with `basinhopping`, the pattern of another point is
refined instead. -/
theorem C89_pattern_violated (k : SolverKwargs) (hm : k.method = .basinhopping) (t u : SolverTask)
    (h : t.idx ≠ u.idx) : ∃ (m : ℕ) (s : RefineState 2),
      RefineRun k (fun _ => 0) m (refineStart (twoBlocks t u)) s ∧ s.Done ∧
        s.results t.idx = some (k.opt u.f (some t.x0) none) ∧
        k.alone t = k.opt t.f (some t.x0) none := by
  obtain ⟨m, s, hr, hd, hres⟩ := interleaved k t u h
  refine ⟨m, s, hr, hd, ?_, ?_⟩
  · rw [hres]
    simp [SolverKwargs.call, SolverKwargs.put, hm]
  · simp [SolverKwargs.alone, SolverKwargs.run, hm, startGiven, boundsGiven]

/-! ### Examples -/

/-- An optimizer which goes to the lower bounds. -/
def lowerOptimizer : Optimizer := fun f x0 b =>
  let x := match b with
    | some b => (b.1.zip b.2).map Prod.fst
    | none => x0.getD []
  ⟨f x, 1, x⟩

/-- It respects bounds. -/
example (f : List ℝ → ℝ) (x0 : Option (List ℝ)) (b : List ℝ × List ℝ)
    (h : ∃ x, InBounds x b.1 b.2) : InBounds (lowerOptimizer f x0 (some b)).x b.1 b.2 := by
  obtain ⟨x, hx⟩ := h
  unfold InBounds lowerOptimizer at *
  simp only
  generalize b.1.zip b.2 = l at hx
  induction hx with
  | nil => exact .nil
  | cons h _ ih => exact .cons ⟨le_refl _, h.1.trans h.2⟩ ih

/-- Two tasks with one variable. -/
def exampleTask (i : ℕ) : SolverTask := ⟨i, fun _ => i, [i], [(i : ℝ)], [(i : ℝ) + 1 / 2]⟩

example : DistinctTasks (twoBlocks (exampleTask 0) (exampleTask 1)) := by
  constructor
  · intro i
    fin_cases i <;> simp [twoBlocks]
  · intro i j hij
    fin_cases i <;> fin_cases j <;> simp_all [twoBlocks, exampleTask]

example : Function.Injective (fun i : Fin 2 => (i : ℕ)) := fun _ _ h => Fin.ext h

/-- The two trust regions are not empty and have nothing in common. -/
example : (∃ x, InBounds x (exampleTask 1).lower (exampleTask 1).upper) ∧
    ∀ x, ¬ (InBounds x (exampleTask 0).lower (exampleTask 0).upper ∧
      InBounds x (exampleTask 1).lower (exampleTask 1).upper) := by
  constructor
  · exact ⟨[1], .cons (by norm_num [exampleTask]) .nil⟩
  rintro x ⟨h0, h1⟩
  unfold InBounds at h0 h1
  simp only [exampleTask, List.zip_cons_cons, List.zip_nil_right] at h0 h1
  cases h0 with
  | cons ha _ =>
    cases h1 with
    | cons hb _ =>
      have h2 := ha.2
      have h3 := hb.1
      norm_num at h2 h3
      linarith

/-- With `basinhopping`, the results of the two tasks differ. -/
example : ((lowerOptimizer (exampleTask 1).f (some (exampleTask 0).x0) none).funVal,
    (lowerOptimizer (exampleTask 0).f (some (exampleTask 0).x0) none).funVal) = (1, 0) := by
  simp [lowerOptimizer, exampleTask]

end
end Kp
