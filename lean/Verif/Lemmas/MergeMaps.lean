import Verif.Spec.MergeMaps
import Verif.Lemmas.Mask
import Mathlib.Tactic.Linarith

set_option linter.unusedSectionVars false

namespace Kp

section
variable {K R D : Type*} [Field K] [LinearOrder K] [DecidableEq D]

/-- `b` holds the first best value among the first `i` values of `full`. -/
def FirstBest (full : List (Option K)) (i : ℕ) : Option (ℕ × K) → Prop
  | none => ∀ j < i, full.getD j none = none
  | some (k, x) => k < i ∧ full.getD k none = some x ∧
      ∀ j < i, ∀ y, full.getD j none = some y → y ≤ x ∧ (j < k → y < x)

theorem nanargmaxAux_spec (l pre : List (Option K)) (b : Option (ℕ × K))
    (h : FirstBest (pre ++ l) pre.length b) :
    FirstBest (pre ++ l) (pre ++ l).length (nanargmaxAux l pre.length b) := by
  induction l generalizing pre b with
  | nil => simpa [nanargmaxAux] using h
  | cons a l ih =>
    have e : pre ++ a :: l = (pre ++ [a]) ++ l := by simp
    have hlen : (pre ++ [a]).length = pre.length + 1 := by simp
    have hget : (pre ++ a :: l).getD pre.length none = a := by
      simp [List.getD_eq_getElem?_getD]
    cases a with
    | none =>
      unfold nanargmaxAux
      have := ih (pre ++ [none]) b (by
        rw [← e, hlen]
        cases b with
        | none =>
          intro j hj
          rcases Nat.lt_succ_iff_lt_or_eq.1 hj with hj | rfl
          · exact h j hj
          · exact hget
        | some kx =>
          obtain ⟨k, x⟩ := kx
          obtain ⟨h1, h2, h3⟩ := h
          refine ⟨by omega, h2, fun j hj y hy => ?_⟩
          rcases Nat.lt_succ_iff_lt_or_eq.1 hj with hj | rfl
          · exact h3 j hj y hy
          · rw [hget] at hy; cases hy)
      rw [← e, hlen] at this
      exact this
    | some v =>
      cases b with
      | none =>
        unfold nanargmaxAux
        have := ih (pre ++ [some v]) (some (pre.length, v)) (by
          rw [← e, hlen]
          refine ⟨by omega, hget, fun j hj y hy => ?_⟩
          rcases Nat.lt_succ_iff_lt_or_eq.1 hj with hj | rfl
          · have := h j hj
            rw [this] at hy; cases hy
          · rw [hget] at hy
            cases hy
            exact ⟨le_refl _, fun hh => absurd hh (by omega)⟩)
        rw [← e, hlen] at this
        exact this
      | some kx =>
        obtain ⟨k, x⟩ := kx
        obtain ⟨h1, h2, h3⟩ := h
        unfold nanargmaxAux
        split
        · rename_i hlt
          have := ih (pre ++ [some v]) (some (pre.length, v)) (by
            rw [← e, hlen]
            refine ⟨by omega, hget, fun j hj y hy => ?_⟩
            rcases Nat.lt_succ_iff_lt_or_eq.1 hj with hj | rfl
            · have := (h3 j hj y hy).1
              exact ⟨(this.trans_lt hlt).le, fun _ => this.trans_lt hlt⟩
            · rw [hget] at hy
              cases hy
              exact ⟨le_refl _, fun hh => absurd hh (by omega)⟩)
          rw [← e, hlen] at this
          exact this
        · rename_i hlt
          have := ih (pre ++ [some v]) (some (k, x)) (by
            rw [← e, hlen]
            refine ⟨by omega, h2, fun j hj y hy => ?_⟩
            rcases Nat.lt_succ_iff_lt_or_eq.1 hj with hj | rfl
            · exact h3 j hj y hy
            · rw [hget] at hy
              cases hy
              exact ⟨not_lt.1 hlt, fun hh => absurd hh (by omega)⟩)
          rw [← e, hlen] at this
          exact this

theorem nanargmax_some {l : List (Option K)} {k : ℕ} (h : nanargmax l = some k) :
    k < l.length ∧ ∃ x, l.getD k none = some x ∧
      ∀ j < l.length, ∀ y, l.getD j none = some y → y ≤ x ∧ (j < k → y < x) := by
  have := nanargmaxAux_spec l [] none (by intro j hj; simp at hj)
  simp only [List.nil_append, List.length_nil] at this
  unfold nanargmax at h
  cases hb : nanargmaxAux l 0 none with
  | none => rw [hb] at h; cases h
  | some kx =>
    obtain ⟨k', x⟩ := kx
    rw [hb] at h this
    simp only [Option.map_some, Option.some.injEq] at h
    subst h
    exact ⟨this.1, x, this.2.1, this.2.2⟩

theorem nanargmax_none {l : List (Option K)} (h : ∀ x ∈ l, x = none) : nanargmax l = none := by
  cases hb : nanargmax l with
  | none => rfl
  | some k =>
    obtain ⟨h1, x, h2, _⟩ := nanargmax_some hb
    rw [List.getD_eq_getElem?_getD, List.getElem?_eq_getElem h1, Option.getD_some,
      h _ (List.getElem_mem h1)] at h2
    cases h2

/-- The map has data in the point. -/
def Covers (p : XMap K R D × Option (ℕ → Bool)) (m : ℕ) : Prop :=
  match p.2 with
  | none => True
  | some keep => keep m = true

/-- Row of the point in the data of the map. -/
def rowIn (p : XMap K R D × Option (ℕ → Bool)) (m : ℕ) : ℕ :=
  match p.2 with
  | none => m
  | some keep => rank keep m

theorem combined_some {α : Type*} {p : XMap K R D × Option (ℕ → Bool)} {M m n : ℕ}
    {a : ℕ → ℕ → α} (hsize : p.1.size = rank (p.2.getD (fun _ => true)) M) (hm : m < M)
    (hc : Covers p m) : combined p.1 p.2 M a m n = some (a (rowIn p m) n) := by
  obtain ⟨x, mask⟩ := p
  cases mask with
  | none => rfl
  | some keep =>
    unfold combined boolSet
    simp only [Covers] at hc
    simp only [Option.getD_some] at hsize
    simp only
    rw [if_pos ⟨hm, hc⟩, List.getD_eq_getElem?_getD, List.getElem?_map,
      List.getElem?_range (by rw [hsize]; exact rank_lt hm hc)]
    rfl

theorem combined_none {α : Type*} {p : XMap K R D × Option (ℕ → Bool)} {M m n : ℕ}
    {a : ℕ → ℕ → α} (hc : ¬ Covers p m) : combined p.1 p.2 M a m n = none := by
  obtain ⟨x, mask⟩ := p
  cases mask with
  | none => exact absurd trivial hc
  | some keep =>
    unfold combined
    exact boolSet_of_not (mask := keep) (fun _ => none) _ hc

/-- Number of scores averaged. -/
def nAveraged (N : ℕ) (meanNBest : ℤ) : ℕ := if 1 < N then sliceTo meanNBest N else 1

theorem bestScore_some {p : XMap K R D × Option (ℕ → Bool)} {M N m : ℕ} {mnb : ℤ}
    (hsize : p.1.size = rank (p.2.getD (fun _ => true)) M) (hm : m < M) {s : K} :
    bestScore p.1 p.2 M N mnb m = some s ↔
      Covers p m ∧ 0 < nAveraged N mnb ∧ s = Spec.meanScore p.1 (rowIn p m) (nAveraged N mnb) := by
  unfold bestScore nAveraged
  by_cases hc : Covers p m
  · split
    · have h1 : (List.range (sliceTo mnb N)).map (combined p.1 p.2 M p.1.scores m) =
          (List.range (sliceTo mnb N)).map (fun n => some (p.1.scores (rowIn p m) n)) := by
        refine List.map_congr_left fun n _ => ?_
        exact combined_some hsize hm hc
      rw [h1]
      unfold nanmeanO Spec.meanScore
      simp only [List.filterMap_map]
      have h2 : List.filterMap (id ∘ fun n => some (p.1.scores (rowIn p m) n))
          (List.range (sliceTo mnb N)) =
          (List.range (sliceTo mnb N)).map (p.1.scores (rowIn p m)) := by
        rw [← List.filterMap_eq_map]
        rfl
      rw [h2]
      by_cases h0 : sliceTo mnb N = 0
      · simp [h0]
      · rw [if_neg (by simp [h0])]
        simp [hc, Nat.pos_of_ne_zero h0, eq_comm]
    · rw [combined_some hsize hm hc]
      unfold Spec.meanScore
      simp [hc, eq_comm]
  · simp only [hc, false_and, iff_false]
    split
    · have h1 : (List.range (sliceTo mnb N)).map (combined p.1 p.2 M p.1.scores m) =
          (List.range (sliceTo mnb N)).map (fun _ => none) := by
        refine List.map_congr_left fun n _ => ?_
        exact combined_none hc
      rw [h1]
      unfold nanmeanO
      simp only [List.filterMap_map]
      have h2 : List.filterMap (id ∘ fun _ : ℕ => (none : Option K))
          (List.range (sliceTo mnb N)) = [] := by
        simp
      rw [h2]
      simp
    · rw [combined_none hc]
      simp

/-- The rows copied in one iteration. -/
theorem boolSet_selected {α : Type*} {p : XMap K R D × Option (ℕ → Bool)} {M m : ℕ}
    {phaseMask : ℕ → Bool} (hsize : p.1.size = rank (p.2.getD (fun _ => true)) M) (hm : m < M)
    (hp : phaseMask m = true) (hcov : ∀ j < M, phaseMask j = true → Covers p j)
    (old a : ℕ → α) :
    boolSet phaseMask M old (selected p.1 p.2 M phaseMask a) m = a (rowIn p m) := by
  obtain ⟨x, mask⟩ := p
  cases mask with
  | none =>
    simp only [Option.getD_none, rank_true] at hsize
    unfold selected rowIn
    simp only [hsize]
    exact boolSet_boolSel _ _ hm hp
  | some keep =>
    unfold selected rowIn
    exact boolSet_sub _ _ hm hp hcov hsize

theorem addPhase_ids {l : List (ℤ × String × Option D)} {name : String} {p : Option D} {i : ℤ}
    (hi : 0 ≤ i) (h : ∀ e ∈ l, e.1 < i) : ∀ e ∈ addPhase l name p, e.1 < i + 1 := by
  intro e he
  unfold addPhase at he
  rw [List.mem_append, List.mem_singleton] at he
  rcases he with he | rfl
  · have := h e he; omega
  · simp only
    split
    · rename_i j hj
      have := List.max?_mem hj
      rw [List.mem_map] at this
      obtain ⟨e', he', rfl⟩ := this
      have := h e' he'
      linarith
    · omega

theorem addPhase_nonneg {l : List (ℤ × String × Option D)} {name : String} {p : Option D}
    (h : ∀ e ∈ l, 0 ≤ e.1) : ∀ e ∈ addPhase l name p, 0 ≤ e.1 := by
  intro e he
  unfold addPhase at he
  rw [List.mem_append, List.mem_singleton] at he
  rcases he with he | rfl
  · exact h e he
  · simp only
    split
    · rename_i j hj
      have := List.max?_mem hj
      rw [List.mem_map] at this
      obtain ⟨e', he', rfl⟩ := this
      have := h e' he'
      linarith
    · omega

theorem mergeStep_ids (M N : ℕ) (st : MergeState K R D) (x : XMap K R D)
    (mask : Option (ℕ → Bool)) (i : ℕ) (h : ∀ e ∈ st.phases, e.1 < i) :
    (∀ e ∈ (mergeStep M N st x mask i).phases, e.1 < ((i + 1 : ℕ) : ℤ)) ∧
      ∀ m, (st.phaseId m ≠ i → (mergeStep M N st x mask i).phaseId m = st.phaseId m) ∧
        (st.phaseId m = i → (mergeStep M N st x mask i).phaseId m < ((i + 1 : ℕ) : ℤ)) := by
  unfold mergeStep
  simp only
  split
  · split
    · rename_i p hp
      have hpm := List.mem_of_find?_eq_some hp
      have hpi := h p hpm
      split
      · refine ⟨fun e he => ?_, fun m => ⟨fun hne => ?_, fun heq => ?_⟩⟩
        · have := h e he; push_cast; omega
        · simp [hne]
        · simp only [heq, beq_self_eq_true, if_true]; push_cast; omega
      · refine ⟨fun e he => ?_, fun m => ⟨fun _ => rfl, fun heq => ?_⟩⟩
        · have := addPhase_ids (by omega) h e he; push_cast; omega
        · simp only [heq]; push_cast; omega
    · refine ⟨fun e he => ?_, fun m => ⟨fun _ => rfl, fun heq => ?_⟩⟩
      · have := addPhase_ids (by omega) h e he; push_cast; omega
      · simp only [heq]; push_cast; omega
  · refine ⟨fun e he => ?_, fun m => ⟨fun _ => rfl, fun heq => ?_⟩⟩
    · have := h e he; push_cast; omega
    · rw [heq]; push_cast; omega

theorem mergeStep_arrays (M N : ℕ) (st : MergeState K R D) (p : XMap K R D × Option (ℕ → Bool))
    (i : ℕ) (hsize : p.1.size = rank (p.2.getD (fun _ => true)) M)
    (hcov : ∀ j < M, st.phaseId j = i → Covers p j) {m : ℕ} (hm : m < M) :
    (st.phaseId m = i →
      (mergeStep M N st p.1 p.2 i).rots m = p.1.rots (rowIn p m) ∧
      (mergeStep M N st p.1 p.2 i).scores m = (List.range N).map (p.1.scores (rowIn p m)) ∧
      (mergeStep M N st p.1 p.2 i).sims m = (List.range N).map (p.1.sims (rowIn p m))) ∧
    (st.phaseId m ≠ i →
      (mergeStep M N st p.1 p.2 i).rots m = st.rots m ∧
      (mergeStep M N st p.1 p.2 i).scores m = st.scores m ∧
      (mergeStep M N st p.1 p.2 i).sims m = st.sims m) := by
  constructor
  · intro hi
    have hpm : (fun m => st.phaseId m == (i : ℤ)) m = true := by simp [hi]
    have hcov' : ∀ j < M, (fun m => st.phaseId m == (i : ℤ)) j = true → Covers p j :=
      fun j hj h => hcov j hj (by simpa using h)
    unfold mergeStep
    simp only
    rw [if_pos (List.any_eq_true.2 ⟨m, List.mem_range.2 hm, hpm⟩)]
    refine ⟨?_, ?_, ?_⟩
    · exact boolSet_selected hsize hm hpm hcov' _ _
    · exact boolSet_selected hsize hm hpm hcov' _ _
    · exact boolSet_selected hsize hm hpm hcov' _ _
  · intro hi
    have hpm : ¬ (fun m => st.phaseId m == (i : ℤ)) m = true := by simp [hi]
    unfold mergeStep
    simp only
    split
    · refine ⟨?_, ?_, ?_⟩ <;> exact boolSet_of_not (mask := fun m => st.phaseId m == (i : ℤ)) _ _ hpm
    · exact ⟨rfl, rfl, rfl⟩

/-- The loop: points of map `k` get the rows of map `k`, others are not changed. -/
theorem mergeLoop_arrays (M N : ℕ) (l : List (XMap K R D × Option (ℕ → Bool))) (i : ℕ)
    (st : MergeState K R D)
    (hsize : ∀ p ∈ l, p.1.size = rank (p.2.getD (fun _ => true)) M)
    (hids : ∀ e ∈ st.phases, e.1 < i)
    (hcov : ∀ (k : ℕ) (hk : k < l.length), ∀ j < M, st.phaseId j = ((i + k : ℕ) : ℤ) →
      Covers l[k] j) {m : ℕ} (hm : m < M) :
    (∀ (k : ℕ) (hk : k < l.length), st.phaseId m = ((i + k : ℕ) : ℤ) →
      (mergeLoop M N l i st).rots m = l[k].1.rots (rowIn l[k] m) ∧
      (mergeLoop M N l i st).scores m = (List.range N).map (l[k].1.scores (rowIn l[k] m)) ∧
      (mergeLoop M N l i st).sims m = (List.range N).map (l[k].1.sims (rowIn l[k] m))) ∧
    (st.phaseId m < i →
      (mergeLoop M N l i st).rots m = st.rots m ∧
      (mergeLoop M N l i st).scores m = st.scores m ∧
      (mergeLoop M N l i st).sims m = st.sims m ∧
      (mergeLoop M N l i st).phaseId m = st.phaseId m) := by
  induction l generalizing i st with
  | nil =>
    refine ⟨fun k hk => by simp at hk, fun _ => ⟨rfl, rfl, rfl, rfl⟩⟩
  | cons p l ih =>
    obtain ⟨hids', hpid⟩ := mergeStep_ids M N st p.1 p.2 i hids
    have harr := mergeStep_arrays M N st p i (hsize p (by simp))
      (fun j hj h => hcov 0 (by simp) j hj (by simpa using h)) hm
    have ih := ih (i + 1) (mergeStep M N st p.1 p.2 i) (fun q hq => hsize q (by simp [hq])) hids'
      (fun k hk j hj h => by
        have h2 : st.phaseId j = ((i + (k + 1) : ℕ) : ℤ) := by
          by_cases hji : st.phaseId j = i
          · have := (hpid j).2 hji; push_cast at h this ⊢; omega
          · rw [(hpid j).1 hji] at h; push_cast at h ⊢; omega
        exact hcov (k + 1) (by simpa using hk) j hj h2)
    have hloop : mergeLoop M N (p :: l) i st = mergeLoop M N l (i + 1)
        (mergeStep M N st p.1 p.2 i) := rfl
    rw [hloop]
    refine ⟨fun k hk h => ?_, fun h => ?_⟩
    · cases k with
      | zero =>
        have hi : st.phaseId m = i := by simpa using h
        have h1 := harr.1 hi
        obtain ⟨a1, a2, a3, _⟩ := ih.2 ((hpid m).2 hi)
        rw [a1, a2, a3]
        exact h1
      | succ k =>
        have hi : st.phaseId m ≠ i := by push_cast at h; omega
        refine ih.1 k (by simpa using hk) ?_
        rw [(hpid m).1 hi, h]
        push_cast; omega
    · have hi : st.phaseId m ≠ i := by omega
      obtain ⟨b1, b2, b3⟩ := harr.2 hi
      have hp := (hpid m).1 hi
      obtain ⟨a1, a2, a3, a4⟩ := ih.2 (by rw [hp]; push_cast; omega)
      rw [a1, a2, a3, a4]
      exact ⟨b1, b2, b3, hp⟩

/-- Phase IDs stay non-negative if there are no not-indexed points. -/
theorem mergeLoop_nonneg (M N : ℕ) (l : List (XMap K R D × Option (ℕ → Bool))) (i : ℕ)
    (st : MergeState K R D) (hids : ∀ e ∈ st.phases, 0 ≤ e.1) {m : ℕ} (h : 0 ≤ st.phaseId m) :
    0 ≤ (mergeLoop M N l i st).phaseId m := by
  induction l generalizing i st with
  | nil => exact h
  | cons p l ih =>
    have hloop : mergeLoop M N (p :: l) i st = mergeLoop M N l (i + 1)
        (mergeStep M N st p.1 p.2 i) := rfl
    rw [hloop]
    apply ih
    · unfold mergeStep
      simp only
      split
      · split
        · split
          · exact hids
          · exact addPhase_nonneg hids
        · exact addPhase_nonneg hids
      · exact hids
    · unfold mergeStep
      simp only
      split
      · split
        · rename_i q hq
          split
          · simp only
            split
            · exact hids q (List.mem_of_find?_eq_some hq)
            · exact h
          · exact h
        · exact h
      · exact h

/-- ID of the next phase added. -/
def nextId (l : List (ℤ × String × Option D)) : ℤ :=
  match (l.map (·.1)).max? with
  | some i => i + 1
  | none => 0

theorem nextId_addPhase (l : List (ℤ × String × Option D)) (name : String) (p : Option D) :
    nextId (addPhase l name p) = nextId l + 1 ∧
      addPhase l name p = l ++ [(nextId l, name, p)] := by
  refine ⟨?_, rfl⟩
  have h : ((addPhase l name p).map (·.1)).max? = some (nextId l) := by
    rw [List.max?_eq_some_iff]
    have e : (addPhase l name p).map (·.1) = l.map (·.1) ++ [nextId l] := by
      rw [addPhase, List.map_append]
      rfl
    rw [e]
    refine ⟨by simp, fun b hb => ?_⟩
    rcases List.mem_append.1 hb with hb | hb
    · unfold nextId
      cases hm : (l.map (·.1)).max? with
      | none =>
        rw [List.max?_eq_none_iff] at hm
        rw [hm] at hb
        simp at hb
      | some j =>
        have := (List.max?_eq_some_iff.1 hm).2 b hb
        simp only
        omega
    · simp at hb; omega
  unfold nextId at h ⊢
  rw [h]

/-- The phases if all maps are used and no two have the same phase. -/
theorem mergeLoop_phases (M N : ℕ) (l : List (XMap K R D × Option (ℕ → Bool))) (i : ℕ)
    (st : MergeState K R D) (hnext : nextId st.phases = i)
    (hdiff : ∀ a b p q, a < b → l[a]? = some p → l[b]? = some q → p.1.phase = q.1.phase →
      q.1.name ≠ p.1.name ∧ q.1.name ≠ p.1.name ++ toString (i + a))
    (hnew : ∀ e ∈ st.phases, ∀ p ∈ l, ¬ (e.2.1 = p.1.name ∧ e.2.2 = some p.1.phase))
    (hused : ∀ k < l.length, ∃ m < M, st.phaseId m = ((i + k : ℕ) : ℤ)) :
    (mergeLoop M N l i st).phaseId = st.phaseId ∧
      ∃ f : ℕ → String, (∀ k p, l[k]? = some p →
        f (i + k) = p.1.name ∨ f (i + k) = p.1.name ++ toString (i + k)) ∧
      (mergeLoop M N l i st).phases =
        st.phases ++ (l.zipIdx i).map (fun p => ((p.2 : ℤ), f p.2, some p.1.1.phase)) := by
  induction l generalizing i st with
  | nil => exact ⟨rfl, fun _ => "", by simp, by simp [mergeLoop]⟩
  | cons p l ih =>
    have hloop : mergeLoop M N (p :: l) i st = mergeLoop M N l (i + 1)
        (mergeStep M N st p.1 p.2 i) := rfl
    obtain ⟨m, hm, hmi⟩ := hused 0 (by simp)
    rw [add_zero] at hmi
    obtain ⟨name, hname, hstep⟩ : ∃ name, (name = p.1.name ∨ name = p.1.name ++ toString i) ∧
        (mergeStep M N st p.1 p.2 i).phaseId = st.phaseId ∧
        (mergeStep M N st p.1 p.2 i).phases = addPhase st.phases name (some p.1.phase) := by
      unfold mergeStep
      simp only
      rw [if_pos (List.any_eq_true.2 ⟨m, List.mem_range.2 hm, by simp [hmi]⟩)]
      cases hf : st.phases.find? (fun e => e.2.1 == p.1.name) with
      | none => exact ⟨p.1.name, Or.inl rfl, rfl, rfl⟩
      | some e =>
        have hne : e.2.2 ≠ some p.1.phase := fun hh =>
          hnew e (List.mem_of_find?_eq_some hf) p (by simp)
            ⟨by simpa using List.find?_some hf, hh⟩
        simp only [if_neg hne]
        exact ⟨p.1.name ++ toString i, Or.inr rfl, trivial, rfl⟩
    obtain ⟨hn1, hn2⟩ := nextId_addPhase st.phases name (some p.1.phase)
    rw [hloop]
    obtain ⟨h1, f, hf, h2⟩ := ih (i + 1) (mergeStep M N st p.1 p.2 i)
      (by rw [hstep.2, hn1, hnext]; push_cast; rfl)
      (by
        intro a b x y hab hx hy hxy
        have := hdiff (a + 1) (b + 1) x y (by omega) (by simpa using hx) (by simpa using hy) hxy
        rwa [show i + 1 + a = i + (a + 1) by omega])
      (by
        intro e he q hq
        rw [hstep.2, hn2, List.mem_append, List.mem_singleton] at he
        rcases he with he | rfl
        · exact hnew e he q (List.mem_cons_of_mem _ hq)
        · rintro ⟨ha, hb⟩
          simp only [Option.some.injEq] at ha hb
          obtain ⟨k, hk⟩ := List.mem_iff_getElem?.1 hq
          obtain ⟨c1, c2⟩ := hdiff 0 (k + 1) p q (by omega) (by simp) (by simpa using hk) hb
          rw [add_zero] at c2
          rcases hname with h | h
          · exact c1 (by rw [← ha, h])
          · exact c2 (by rw [← ha, h]))
      (by
        intro k hk
        obtain ⟨m, hm, h⟩ := hused (k + 1) (by simpa using hk)
        exact ⟨m, hm, by rw [hstep.1, h]; push_cast; omega⟩)
    refine ⟨by rw [h1, hstep.1], fun k => if k = i then name else f k, ?_, ?_⟩
    · intro k q hq
      cases k with
      | zero =>
        simp only [List.getElem?_cons_zero, Option.some.injEq] at hq
        subst hq
        simpa using hname
      | succ k =>
        simp only
        rw [if_neg (by omega)]
        have := hf k q (by simpa using hq)
        rwa [show i + 1 + k = i + (k + 1) by omega] at this
    · rw [h2, hstep.2, hn2, hnext]
      simp only [List.zipIdx_cons, List.map_cons, if_pos, List.append_assoc, List.singleton_append]
      congr 2
      refine List.map_congr_left fun q hq => ?_
      have : i + 1 ≤ q.2 := (List.mem_zipIdx hq).1
      rw [if_neg (by omega)]

end

/-! ### Sorting -/

section
variable {K R D : Type*} [Field K] [LinearOrder K] [IsStrictOrderedRing K] [DecidableEq D]

instance scoreLe_total (sign : K) (s : List (Option K)) : Std.Total (scoreLe sign s) := by
  constructor
  intro i j
  unfold scoreLe
  cases s.getD i none <;> cases s.getD j none <;> simp [le_total]

instance scoreLe_trans (sign : K) (s : List (Option K)) : IsTrans ℕ (scoreLe sign s) := by
  constructor
  intro i j k
  unfold scoreLe
  cases s.getD i none <;> cases s.getD j none <;> cases s.getD k none <;> simp
  exact fun h1 h2 => h2.trans h1

end

/-! ### Simulation indices -/

theorem foldl_min_le (l : List ℤ) (a : ℤ) :
    l.foldl min a ≤ a ∧ ∀ v ∈ l, l.foldl min a ≤ v := by
  induction l generalizing a with
  | nil => simp
  | cons x l ih =>
    rw [List.foldl_cons]
    obtain ⟨h1, h2⟩ := ih (min a x)
    refine ⟨h1.trans (min_le_left _ _), fun v hv => ?_⟩
    rcases List.mem_cons.1 hv with rfl | hv
    · exact h1.trans (min_le_right _ _)
    · exact h2 v hv

theorem le_foldl_max (l : List ℤ) (a : ℤ) :
    a ≤ l.foldl max a ∧ ∀ v ∈ l, v ≤ l.foldl max a := by
  induction l generalizing a with
  | nil => simp
  | cons x l ih =>
    rw [List.foldl_cons]
    obtain ⟨h1, h2⟩ := ih (max a x)
    refine ⟨(le_max_left _ _).trans h1, fun v hv => ?_⟩
    rcases List.mem_cons.1 hv with rfl | hv
    · exact (le_max_right _ _).trans h1
    · exact h2 v hv

theorem nanMinMax_spec (l : List (Option ℤ)) :
    ((nanMinMax l).getD (0, 0)).1 ≤ ((nanMinMax l).getD (0, 0)).2 ∧
      ∀ v, some v ∈ l → ((nanMinMax l).getD (0, 0)).1 ≤ v ∧ v ≤ ((nanMinMax l).getD (0, 0)).2 := by
  unfold nanMinMax
  have hmem : ∀ v, some v ∈ l ↔ v ∈ l.filterMap id := by simp
  simp only [hmem]
  cases l.filterMap id with
  | nil => simp
  | cons a t =>
    simp only [Option.getD_some]
    have h1 := foldl_min_le t a
    have h2 := le_foldl_max t a
    refine ⟨h1.1.trans h2.1, fun v hv => ?_⟩
    rcases List.mem_cons.1 hv with rfl | hv
    · exact ⟨h1.1, h2.1⟩
    · exact ⟨h1.2 v hv, h2.2 v hv⟩

theorem simIncrements_length (l : List (ℤ × ℤ)) (prev : Option ℤ) :
    (simIncrements l prev).length = l.length := by
  induction l generalizing prev with
  | nil => rfl
  | cons a l ih => cases prev <;> simp [simIncrements, ih]

theorem simIncrements_some (l : List (ℤ × ℤ)) (prev : ℤ) (h : ∀ p ∈ l, p.1 ≤ p.2) :
    (∀ k < l.length, prev < (l.getD k (0, 0)).1 + (simIncrements l (some prev)).getD k 0) ∧
      ∀ k k', k < k' → k' < l.length →
        (l.getD k (0, 0)).2 + (simIncrements l (some prev)).getD k 0 <
          (l.getD k' (0, 0)).1 + (simIncrements l (some prev)).getD k' 0 := by
  induction l generalizing prev with
  | nil => simp
  | cons a l ih =>
    have ih := ih (a.2 + (|prev - a.1| + 1)) (fun p hp => h p (by simp [hp]))
    have ha := h a (by simp)
    have habs := le_abs_self (prev - a.1)
    have e : simIncrements (a :: l) (some prev) =
      (|prev - a.1| + 1) :: simIncrements l (some (a.2 + (|prev - a.1| + 1))) := rfl
    rw [e]
    constructor
    · intro k hk
      cases k with
      | zero => simp only [List.getD_cons_zero]; omega
      | succ k =>
        simp only [List.getD_cons_succ]
        have := ih.1 k (by simpa using hk)
        omega
    · intro k k' hkk hk'
      obtain ⟨k', rfl⟩ : ∃ j, k' = j + 1 := ⟨k' - 1, by omega⟩
      cases k with
      | zero =>
        simp only [List.getD_cons_zero, List.getD_cons_succ]
        have := ih.1 k' (by simpa using hk')
        omega
      | succ k =>
        simp only [List.getD_cons_succ]
        exact ih.2 k k' (by omega) (by simpa using hk')

/-- After the increments, the indices of a later map are larger than those of earlier maps. -/
theorem simIncrements_none (l : List (ℤ × ℤ)) (h : ∀ p ∈ l, p.1 ≤ p.2) {k k' : ℕ} (hkk : k < k')
    (hk' : k' < l.length) :
    (l.getD k (0, 0)).2 + (simIncrements l none).getD k 0 <
      (l.getD k' (0, 0)).1 + (simIncrements l none).getD k' 0 := by
  cases l with
  | nil => simp at hk'
  | cons a l =>
    have e : simIncrements (a :: l) none = 0 :: simIncrements l (some a.2) := rfl
    have ih := simIncrements_some l a.2 (fun p hp => h p (by simp [hp]))
    rw [e]
    obtain ⟨k', rfl⟩ : ∃ j, k' = j + 1 := ⟨k' - 1, by omega⟩
    cases k with
    | zero =>
      simp only [List.getD_cons_zero, List.getD_cons_succ]
      have := ih.1 k' (by simpa using hk')
      omega
    | succ k =>
      simp only [List.getD_cons_succ]
      exact ih.2 k k' (by omega) (by simpa using hk')

end Kp
