import Verif.Spec.StoredChunks
import Verif.Props.Neighbours

/-
C128: processing in place in several chunks, and lazy signals.
-/

namespace Kp
open Spec

/-! ### Storing chunks, in any order -/

section
variable {ι P : Type*} [DecidableEq ι]

/-- What the chunk gives for the array before. -/
def StoreJob.output (j : StoreJob ι P) (orig : ι → P) : List (ι × P) :=
  j.writes.zip (j.result (j.reads.map orig))

/-- The state of a chunk fits the array. -/
def JobFits (orig mem : ι → P) (j : StoreJob ι P) : JobState ι P → Prop
  | .reading todo got => ∃ done, j.reads = done ++ todo ∧ got = done.map orig
  | .writing todo => ∃ fin, j.output orig = fin ++ todo ∧ ∀ q ∈ fin, mem q.1 = q.2

/-- Different chunks have different map points, and do not read those of others, unless these are
copied. -/
structure Separate (copies : Bool) (jobs : List (StoreJob ι P)) : Prop where
  nodup : ∀ j ∈ jobs, j.writes.Nodup
  writes : ∀ (k k' : ℕ) (j j' : StoreJob ι P), jobs[k]? = some j → jobs[k']? = some j' → k ≠ k' →
    ∀ p ∈ j.writes, p ∉ j'.writes
  reads : copies = false → ∀ (k k' : ℕ) (j j' : StoreJob ι P), jobs[k]? = some j → jobs[k']? = some j' → k ≠ k' →
    ∀ p ∈ j.reads, p ∉ j'.writes

/-- Invariant. -/
structure StoreInv (jobs : List (StoreJob ι P)) (orig : ι → P) (s : StoreState ι P) : Prop where
  length : s.jobs.length = jobs.length
  fits : ∀ (k : ℕ) j js, jobs[k]? = some j → s.jobs[k]? = some js → JobFits orig s.mem j js
  mem : ∀ p, s.mem p = orig p ∨ ∃ (k : ℕ) (j : StoreJob ι P) (todo : List (ι × P)), jobs[k]? = some j ∧
    s.jobs[k]? = some (.writing todo) ∧ (p, s.mem p) ∈ j.output orig

omit [DecidableEq ι] in
theorem StoreJob.output_fst {j : StoreJob ι P} {orig : ι → P} {q : ι × P}
    (h : q ∈ j.output orig) : q.1 ∈ j.writes := (List.of_mem_zip (a := q.1) (b := q.2) h).1

theorem zip_nodup_fst {ι P : Type*} {l : List ι} {m : List P} (h : l.Nodup) :
    ((l.zip m).map Prod.fst).Nodup := by
  induction l generalizing m with
  | nil => simp
  | cons a l ih =>
    cases m with
    | nil => simp
    | cons b m =>
      rw [List.nodup_cons] at h
      simp only [List.zip_cons_cons, List.map_cons, List.nodup_cons]
      refine ⟨?_, ih h.2⟩
      intro hc
      rw [List.mem_map] at hc
      obtain ⟨q, hq, rfl⟩ := hc
      exact h.1 (List.of_mem_zip (a := q.1) (b := q.2) hq).1

theorem storeInv_step {copies : Bool} {jobs : List (StoreJob ι P)} {orig : ι → P}
    (hsep : Separate copies jobs) {s : StoreState ι P} (h : StoreInv jobs orig s) (k : ℕ) :
    StoreInv jobs orig (storeStep copies orig jobs s k) := by
  unfold storeStep
  cases hj : jobs[k]? with
  | none => exact h
  | some j =>
  cases hs : s.jobs[k]? with
  | none => exact h
  | some js =>
  simp only
  have hk : k < s.jobs.length := (List.getElem?_eq_some_iff.1 hs).1
  have hget : ∀ (x : JobState ι P) (k' : ℕ), (s.jobs.set k x)[k']? =
      if k' = k then some x else s.jobs[k']? := by
    intro x k'
    rw [List.getElem?_set]
    by_cases e : k = k'
    · subst e; simp [hk]
    · rw [if_neg e, if_neg (Ne.symm e)]
  have hfit := h.fits k j js hj hs
  cases js with
  | reading todo got =>
    cases todo with
    | cons p r =>
      obtain ⟨done, hd, hg⟩ := hfit
      have hval : (if copies then orig p else s.mem p) = orig p := by
        by_cases hc : copies = true
        · rw [if_pos hc]
        · rw [if_neg hc]
          rcases h.mem p with e | ⟨k', j', todo', hj', hs', hm⟩
          · exact e
          · exfalso
            have hne : k ≠ k' := by
              rintro rfl
              rw [hs] at hs'
              cases hs'
            have hpr : p ∈ j.reads := by rw [hd]; simp
            exact hsep.reads (by simpa using hc) k k' j j' hj hj' hne p hpr
              (StoreJob.output_fst hm)
      refine ⟨by simpa [advanceJob] using h.length, ?_, ?_⟩
      · intro k' j' js' hj' hs'
        simp only [advanceJob] at hs' ⊢
        rw [hget] at hs'
        by_cases e : k' = k
        · subst e
          rw [if_pos rfl] at hs'
          rw [hj] at hj'
          cases hj'; cases hs'
          refine ⟨done ++ [p], by rw [hd]; simp, ?_⟩
          rw [hg, List.map_append, hval]
          rfl
        · rw [if_neg e] at hs'
          exact h.fits k' j' js' hj' hs'
      · intro q
        simp only [advanceJob]
        rcases h.mem q with e | ⟨k', j', todo', hj', hs', hm⟩
        · exact Or.inl e
        · right
          refine ⟨k', j', todo', hj', ?_, hm⟩
          rw [hget, if_neg, hs']
          rintro rfl
          rw [hs] at hs'
          cases hs'
    | nil =>
      obtain ⟨done, hd, hg⟩ := hfit
      rw [List.append_nil] at hd
      refine ⟨by simpa [advanceJob] using h.length, ?_, ?_⟩
      · intro k' j' js' hj' hs'
        simp only [advanceJob] at hs' ⊢
        rw [hget] at hs'
        by_cases e : k' = k
        · subst e
          rw [if_pos rfl] at hs'
          rw [hj] at hj'
          cases hj'; cases hs'
          refine ⟨[], ?_, by simp⟩
          rw [StoreJob.output, hg, hd]
          rfl
        · rw [if_neg e] at hs'
          exact h.fits k' j' js' hj' hs'
      · intro q
        simp only [advanceJob]
        rcases h.mem q with e | ⟨k', j', todo', hj', hs', hm⟩
        · exact Or.inl e
        · right
          refine ⟨k', j', todo', hj', ?_, hm⟩
          rw [hget, if_neg, hs']
          rintro rfl
          rw [hs] at hs'
          cases hs'
  | writing todo =>
    cases todo with
    | nil =>
      have e : (s.jobs.set k (JobState.writing [] : JobState ι P)) = s.jobs := by
        apply List.ext_getElem?
        intro k'
        rw [hget]
        by_cases e : k' = k
        · subst e; rw [if_pos rfl, hs]
        · rw [if_neg e]
      simp only [advanceJob, e]
      exact h
    | cons pv r =>
      obtain ⟨p, v⟩ := pv
      obtain ⟨fin, hf, hv⟩ := hfit
      have hpv : (p, v) ∈ j.output orig := by rw [hf]; simp
      have hnd := zip_nodup_fst (m := j.result (j.reads.map orig))
        (hsep.nodup j (List.mem_of_getElem? hj))
      have hfin : ∀ q ∈ fin, q.1 ≠ p := by
        intro q hq e
        rw [show j.writes.zip (j.result (j.reads.map orig)) = fin ++ (p, v) :: r from hf,
          List.map_append, List.nodup_append] at hnd
        exact hnd.2.2 q.1 (List.mem_map_of_mem hq) p (by simp) e
      refine ⟨by simpa [advanceJob] using h.length, ?_, ?_⟩
      · intro k' j' js' hj' hs'
        simp only [advanceJob] at hs' ⊢
        rw [hget] at hs'
        by_cases e : k' = k
        · subst e
          rw [if_pos rfl] at hs'
          rw [hj] at hj'
          cases hj'; cases hs'
          refine ⟨fin ++ [(p, v)], by rw [hf]; simp, ?_⟩
          intro q hq
          rcases List.mem_append.1 hq with hq | hq
          · rw [Function.update_of_ne (hfin q hq)]
            exact hv q hq
          · simp only [List.mem_singleton] at hq
            subst hq
            simp
        · rw [if_neg e] at hs'
          have := h.fits k' j' js' hj' hs'
          cases js' with
          | reading _ _ => exact this
          | writing todo' =>
            obtain ⟨fin', hf', hv'⟩ := this
            refine ⟨fin', hf', fun q hq => ?_⟩
            rw [Function.update_of_ne]
            · exact hv' q hq
            · rintro e'
              have h1 : q.1 ∈ j'.writes :=
                StoreJob.output_fst (orig := orig) (by rw [hf']; simp [hq])
              have h2 : p ∈ j.writes := StoreJob.output_fst hpv
              exact hsep.writes k k' j j' hj hj' (Ne.symm e) p h2 (e' ▸ h1)
      · intro q
        simp only [advanceJob]
        by_cases e : q = p
        · subst e
          right
          refine ⟨k, j, r, hj, by rw [hget, if_pos rfl], ?_⟩
          rw [Function.update_self]
          exact hpv
        · rw [Function.update_of_ne e]
          rcases h.mem q with e | ⟨k', j', todo', hj', hs', hm⟩
          · exact Or.inl e
          · right
            by_cases e' : k' = k
            · subst e'
              exact ⟨k', j', r, hj', by rw [hget, if_pos rfl], hm⟩
            · exact ⟨k', j', todo', hj', by rw [hget, if_neg e', hs'], hm⟩

theorem storeInv_run {copies : Bool} {jobs : List (StoreJob ι P)} (hsep : Separate copies jobs)
    (orig : ι → P) (sched : List ℕ) : StoreInv jobs orig (runStore copies jobs orig sched) := by
  unfold runStore
  have h0 : StoreInv jobs orig
      { mem := orig, jobs := jobs.map fun j => JobState.reading j.reads [] } := by
    refine ⟨by simp, ?_, fun _ => Or.inl rfl⟩
    intro k j js hj hs
    simp only [List.getElem?_map, hj, Option.map_some, Option.some.injEq] at hs
    subst hs
    exact ⟨[], by simp, by simp⟩
  generalize (⟨orig, jobs.map fun j => JobState.reading j.reads []⟩ : StoreState ι P) = s at h0
  induction sched generalizing s with
  | nil => exact h0
  | cons k sched ih => exact ih _ (storeInv_step hsep h0 k)

/-- In every order of steps: a pattern is the one before, or what its chunk gives for the array
before. -/
theorem store_pattern {copies : Bool} {jobs : List (StoreJob ι P)} (hsep : Separate copies jobs)
    (orig : ι → P) (sched : List ℕ) (p : ι) :
    (runStore copies jobs orig sched).mem p = orig p ∨
      ∃ j ∈ jobs, (p, (runStore copies jobs orig sched).mem p) ∈ j.output orig := by
  rcases (storeInv_run hsep orig sched).mem p with h | ⟨k, j, _, hj, _, hm⟩
  · exact Or.inl h
  · exact Or.inr ⟨j, List.mem_of_getElem? hj, hm⟩

/-- In every order of steps, after all of them: what the chunk gives for the array before. -/
theorem store_finished {copies : Bool} {jobs : List (StoreJob ι P)} (hsep : Separate copies jobs)
    (orig : ι → P) (sched : List ℕ) (hf : Finished (runStore copies jobs orig sched))
    {j : StoreJob ι P} (hj : j ∈ jobs) {p : ι} {v : P} (h : (p, v) ∈ j.output orig) :
    (runStore copies jobs orig sched).mem p = v := by
  have hinv := storeInv_run hsep orig sched
  obtain ⟨k, hk, rfl⟩ := List.getElem_of_mem hj
  have hk' : k < (runStore copies jobs orig sched).jobs.length := by rw [hinv.length]; exact hk
  have hw := hf _ (List.getElem_mem hk')
  obtain ⟨fin, hf', hv⟩ : JobFits orig _ jobs[k] (.writing []) :=
    hinv.fits k _ _ (List.getElem?_eq_getElem hk) (by rw [List.getElem?_eq_getElem hk', hw])
  rw [List.append_nil] at hf'
  exact hv (p, v) (hf' ▸ h)

end

/-! ### Chunks of a map -/

theorem mem_blockPoints {rb cb p : ℕ × ℕ} :
    p ∈ blockPoints rb cb ↔ (rb.1 ≤ p.1 ∧ p.1 < rb.2) ∧ cb.1 ≤ p.2 ∧ p.2 < cb.2 := by
  unfold blockPoints
  simp only [List.mem_flatMap, List.mem_range, List.mem_map]
  constructor
  · rintro ⟨i, hi, j, hj, rfl⟩
    simp only
    omega
  · rintro ⟨⟨h1, h2⟩, h3, h4⟩
    exact ⟨p.1 - rb.1, by omega, p.2 - cb.1, by omega, by
      apply Prod.ext <;> simp only <;> omega⟩

theorem blockPoints_nodup (rb cb : ℕ × ℕ) : (blockPoints rb cb).Nodup := by
  unfold blockPoints
  rw [List.nodup_flatMap]
  refine ⟨fun i _ => ?_, ?_⟩
  · exact List.Nodup.map (fun a b h => by simpa using h) List.nodup_range
  · refine List.Pairwise.imp ?_ (List.nodup_range (n := rb.2 - rb.1))
    intro i i' hne
    rw [Function.onFun, List.disjoint_left]
    intro p hp hp'
    simp only [List.mem_map, List.mem_range] at hp hp'
    obtain ⟨j, _, rfl⟩ := hp
    obtain ⟨j', _, h⟩ := hp'
    simp only [Prod.mk.injEq] at h
    omega

theorem axisBlocks_start {chunks : List ℕ} {off : ℕ} {b : ℕ × ℕ} (h : b ∈ axisBlocks chunks off) :
    off ≤ b.1 ∧ b.1 ≤ b.2 ∧ b.2 ≤ off + chunks.sum := by
  induction chunks generalizing off with
  | nil => simp [axisBlocks] at h
  | cons c cs ih =>
    simp only [axisBlocks, List.mem_cons] at h
    rw [List.sum_cons]
    rcases h with rfl | h
    · simp only; omega
    · have := ih h; omega

theorem axisBlocks_pairwise (chunks : List ℕ) (off : ℕ) :
    (axisBlocks chunks off).Pairwise fun a b => a.2 ≤ b.1 := by
  induction chunks generalizing off with
  | nil => simp [axisBlocks]
  | cons c cs ih =>
    rw [axisBlocks, List.pairwise_cons]
    exact ⟨fun b hb => (axisBlocks_start hb).1, ih _⟩

theorem axisBlocks_cover {chunks : List ℕ} {off i : ℕ} (h1 : off ≤ i) (h2 : i < off + chunks.sum) :
    ∃ b ∈ axisBlocks chunks off, b.1 ≤ i ∧ i < b.2 ∧ b = chunkBounds chunks off i := by
  induction chunks generalizing off with
  | nil => simp at h2; omega
  | cons c cs ih =>
    rw [List.sum_cons] at h2
    by_cases h : i < off + c
    · exact ⟨(off, off + c), by simp [axisBlocks], h1, h, by rw [chunkBounds, if_pos h]⟩
    · obtain ⟨b, hb, h3, h4, h5⟩ := ih (off := off + c) (by omega) (by omega)
      exact ⟨b, by simp [axisBlocks, hb], h3, h4, by rw [chunkBounds, if_neg h, ← h5]⟩

/-- Chunks have no map points in common. -/
theorem mapBlocks_pairwise (rowChunks colChunks : List ℕ) :
    (mapBlocks rowChunks colChunks).Pairwise fun a b =>
      ∀ p, p ∈ blockPoints a.1 a.2 → p ∉ blockPoints b.1 b.2 := by
  unfold mapBlocks
  rw [List.pairwise_flatMap]
  refine ⟨fun rb _ => ?_, ?_⟩
  · rw [List.pairwise_map]
    refine (axisBlocks_pairwise colChunks 0).imp ?_
    intro a b hab p hp hp'
    rw [mem_blockPoints] at hp hp'
    simp only at hp hp'
    omega
  · refine (axisBlocks_pairwise rowChunks 0).imp ?_
    intro a b hab x hx y hy p hp hp'
    simp only [List.mem_map] at hx hy
    obtain ⟨_, _, rfl⟩ := hx
    obtain ⟨_, _, rfl⟩ := hy
    rw [mem_blockPoints] at hp hp'
    simp only at hp hp'
    omega

theorem mapBlocks_index {rowChunks colChunks : List ℕ} {k k' : ℕ} {a b : (ℕ × ℕ) × (ℕ × ℕ)}
    (ha : (mapBlocks rowChunks colChunks)[k]? = some a)
    (hb : (mapBlocks rowChunks colChunks)[k']? = some b) (hne : k ≠ k') (p : ℕ × ℕ)
    (hp : p ∈ blockPoints a.1 a.2) : p ∉ blockPoints b.1 b.2 := by
  have h := List.pairwise_iff_getElem.1 (mapBlocks_pairwise rowChunks colChunks)
  obtain ⟨hk, rfl⟩ := List.getElem?_eq_some_iff.1 ha
  obtain ⟨hk', rfl⟩ := List.getElem?_eq_some_iff.1 hb
  rcases Nat.lt_or_gt_of_ne hne with hlt | hlt
  · exact h k k' hk hk' hlt p hp
  · intro hc
    exact h k' k hk' hk hlt p hc hp

theorem mapBlocks_cover {rowChunks colChunks : List ℕ} {r c : ℕ} (hr : r < rowChunks.sum)
    (hc : c < colChunks.sum) :
    (chunkBounds rowChunks 0 r, chunkBounds colChunks 0 c) ∈ mapBlocks rowChunks colChunks ∧
      (r, c) ∈ blockPoints (chunkBounds rowChunks 0 r) (chunkBounds colChunks 0 c) := by
  obtain ⟨rb, h1, h2, h3, rfl⟩ := axisBlocks_cover (chunks := rowChunks) (off := 0) (Nat.zero_le r) (by omega)
  obtain ⟨cb, h4, h5, h6, rfl⟩ := axisBlocks_cover (chunks := colChunks) (off := 0) (Nat.zero_le c) (by omega)
  refine ⟨?_, mem_blockPoints.2 ⟨⟨h2, h3⟩, h5, h6⟩⟩
  unfold mapBlocks
  rw [List.mem_flatMap]
  exact ⟨_, h1, List.mem_map.2 ⟨_, h4, rfl⟩⟩

/-! ### Pattern by pattern -/

section
variable {P : Type*}

theorem patternJobs_separate (copies : Bool) (process : P → P) (rowChunks colChunks : List ℕ) :
    Separate copies (patternJobs process rowChunks colChunks) := by
  have key : ∀ (k k' : ℕ) j j', (patternJobs process rowChunks colChunks)[k]? = some j →
      (patternJobs process rowChunks colChunks)[k']? = some j' → k ≠ k' →
      ∀ p ∈ j.writes, p ∉ j'.writes := by
    intro k k' j j' hj hj' hne p hp
    unfold patternJobs at hj hj'
    rw [List.getElem?_map, Option.map_eq_some_iff] at hj hj'
    obtain ⟨a, ha, rfl⟩ := hj
    obtain ⟨b, hb, rfl⟩ := hj'
    exact mapBlocks_index ha hb hne p hp
  refine ⟨?_, key, ?_⟩
  · intro j hj
    unfold patternJobs at hj
    rw [List.mem_map] at hj
    obtain ⟨b, _, rfl⟩ := hj
    exact blockPoints_nodup _ _
  · intro _ k k' j j' hj hj' hne p hp
    refine key k k' j j' hj hj' hne p ?_
    unfold patternJobs at hj
    rw [List.getElem?_map, Option.map_eq_some_iff] at hj
    obtain ⟨a, _, rfl⟩ := hj
    exact hp

theorem patternJob_output (process : P → P) (b : (ℕ × ℕ) × (ℕ × ℕ)) (orig : ℕ × ℕ → P) :
    (patternJob process b).output orig =
      (blockPoints b.1 b.2).map fun p => (p, process (orig p)) := by
  unfold StoreJob.output patternJob
  simp only [List.map_map]
  generalize blockPoints b.1 b.2 = l
  induction l with
  | nil => rfl
  | cons a l ih => simpa using ih

/-- C128.  Processing in place pattern by pattern, in any chunks, in any order of reading and storing,
whether or not Dask copies the patterns: in the end every pattern of the map is processed, once. -/
theorem C128_in_place (copies : Bool) (process : P → P) (rowChunks colChunks : List ℕ)
    (orig : ℕ × ℕ → P) (sched : List ℕ)
    (hf : Finished (runStore copies (patternJobs process rowChunks colChunks) orig sched))
    (r c : ℕ) :
    (runStore copies (patternJobs process rowChunks colChunks) orig sched).mem (r, c) =
      if r < rowChunks.sum ∧ c < colChunks.sum then process (orig (r, c)) else orig (r, c) := by
  have hsep := patternJobs_separate copies process rowChunks colChunks
  split_ifs with h
  · obtain ⟨h1, h2⟩ := mapBlocks_cover h.1 h.2
    refine store_finished hsep orig sched hf (List.mem_map_of_mem h1) ?_
    rw [patternJob_output]
    exact List.mem_map.2 ⟨_, h2, rfl⟩
  · rcases store_pattern hsep orig sched (r, c) with e | ⟨j, hj, hm⟩
    · exact e
    · exfalso
      unfold patternJobs at hj
      rw [List.mem_map] at hj
      obtain ⟨b, hb, rfl⟩ := hj
      have := StoreJob.output_fst hm
      simp only [patternJob, mem_blockPoints] at this
      unfold mapBlocks at hb
      rw [List.mem_flatMap] at hb
      obtain ⟨rb, hrb, hb⟩ := hb
      rw [List.mem_map] at hb
      obtain ⟨cb, hcb, rfl⟩ := hb
      have h1 := axisBlocks_start hrb
      have h2 := axisBlocks_start hcb
      simp only at this
      apply h
      omega

/-- C128.  Wherever it stops, every pattern is as it was or processed, once. -/
theorem C128_in_place_stopped (copies : Bool) (process : P → P) (rowChunks colChunks : List ℕ)
    (orig : ℕ × ℕ → P) (sched : List ℕ) (p : ℕ × ℕ) :
    (runStore copies (patternJobs process rowChunks colChunks) orig sched).mem p = orig p ∨
    (runStore copies (patternJobs process rowChunks colChunks) orig sched).mem p =
      process (orig p) := by
  rcases store_pattern (patternJobs_separate copies process rowChunks colChunks) orig sched p with
    e | ⟨j, hj, hm⟩
  · exact Or.inl e
  · right
    unfold patternJobs at hj
    rw [List.mem_map] at hj
    obtain ⟨b, _, rfl⟩ := hj
    rw [patternJob_output, List.mem_map] at hm
    obtain ⟨q, _, hq⟩ := hm
    simp only [Prod.mk.injEq] at hq
    rw [← hq.2, hq.1]

end

/-! ### Averaging of neighbours -/

theorem blockPoints_get {rb cb : ℕ × ℕ} {r c : ℕ} (hr : r < rb.2 - rb.1) (hc : c < cb.2 - cb.1) :
    (blockPoints rb cb)[r * (cb.2 - cb.1) + c]? = some (rb.1 + r, cb.1 + c) := by
  have e : blockPoints rb cb =
      (flatPositions (rb.2 - rb.1) (cb.2 - cb.1)).map fun p => (rb.1 + p.1, cb.1 + p.2) := by
    unfold blockPoints flatPositions
    rw [List.map_flatMap]
    simp only [List.map_map]
    rfl
  have hlt : r * (cb.2 - cb.1) + c < (rb.2 - rb.1) * (cb.2 - cb.1) := by
    calc r * (cb.2 - cb.1) + c < r * (cb.2 - cb.1) + (cb.2 - cb.1) := by omega
      _ = (r + 1) * (cb.2 - cb.1) := by ring
      _ ≤ _ := Nat.mul_le_mul_right _ (by omega)
  have hpos : 0 < cb.2 - cb.1 := by omega
  rw [e, flatPositions_eq _ _ hpos, List.getElem?_map, List.getElem?_map,
    List.getElem?_range hlt]
  simp only [Option.map_some]
  have h1 : (r * (cb.2 - cb.1) + c) / (cb.2 - cb.1) = r := by
    rw [Nat.add_comm, Nat.add_mul_div_right _ _ hpos, Nat.div_eq_of_lt hc, Nat.zero_add]
  have h2 : (r * (cb.2 - cb.1) + c) % (cb.2 - cb.1) = c := by
    rw [Nat.add_comm, Nat.add_mul_mod_self_right, Nat.mod_eq_of_lt hc]
  rw [h1, h2]

section
variable {K : Type*} [Field K] [LinearOrder K] [FloorRing K]

omit [LinearOrder K] [FloorRing K] in
theorem correlateConst_inside {V : Type*} {a b : Img V} (hr : a.rows = b.rows)
    (hc : a.cols = b.cols) (h : ∀ r c, r < a.rows → c < a.cols → a.val r c = b.val r c) (f : V → K)
    (w : Img K) (r c : ℕ) : correlateConst a f w r c = correlateConst b f w r c := by
  unfold correlateConst
  refine Finset.sum_congr rfl fun i _ => Finset.sum_congr rfl fun j _ => ?_
  have e : ∀ y x : ℤ, atZ a y x = atZ b y x := by
    intro y x
    unfold atZ
    rw [hr, hc]
    split_ifs with h'
    · rw [h _ _ (by omega) (by omega)]
    · rfl
  rw [e]

theorem averageChunk_inside {w : Img K} {m : ℕ} {d : DType} {omin omax : K}
    {a b : Img ((ℕ → K) × ℤ)} (hr : a.rows = b.rows) (hc : a.cols = b.cols)
    (h : ∀ r c, r < a.rows → c < a.cols → a.val r c = b.val r c) {r c : ℕ} (h1 : r < a.rows)
    (h2 : c < a.cols) :
    (averageChunk w m d omin omax a).val r c = (averageChunk w m d omin omax b).val r c := by
  unfold averageChunk
  simp only [h r c h1 h2, correlateConst_inside hr hc h]

/-- What a chunk of averaged patterns gives. -/
theorem averageJob_output {rows cols : ℕ} {w : Img K} {m : ℕ} {d : DType} {omin omax : K}
    {dr dc : ℕ} {rowChunks colChunks : List ℕ} (hr : rowChunks.sum = rows)
    (hc : colChunks.sum = cols) {b : (ℕ × ℕ) × (ℕ × ℕ)} (hb : b ∈ mapBlocks rowChunks colChunks)
    (orig : ℕ × ℕ → ℕ → K) :
    (averageJob rows cols w m d omin omax dr dc b).output orig =
      (blockPoints b.1 b.2).map fun p => (p, storedPattern
        ((mapOverlap rowChunks colChunks dr dc (averageChunk w m d omin omax)
          { rows := rows
            cols := cols
            val := fun r c => (orig (r, c), windowSums rows cols w r c) }).val p.1 p.2)) := by
  unfold mapBlocks at hb
  rw [List.mem_flatMap] at hb
  obtain ⟨rb, hrb, hb⟩ := hb
  rw [List.mem_map] at hb
  obtain ⟨cb, hcb, rfl⟩ := hb
  have h1 := axisBlocks_start hrb
  have h2 := axisBlocks_start hcb
  rw [hr] at h1
  rw [hc] at h2
  have zip_self : ∀ (l : List (ℕ × ℕ)) (g : ℕ × ℕ → ℕ → K),
      l.zip (l.map g) = l.map fun p => (p, g p) := by
    intro l g
    induction l with
    | nil => rfl
    | cons a l ih => simpa using ih
  unfold StoreJob.output averageJob
  simp only
  rw [zip_self]
  apply List.map_congr_left
  intro p hp
  rw [mem_blockPoints] at hp
  congr 2
  have key : ∀ {cs : List ℕ} {off i : ℕ} {x : ℕ × ℕ}, x ∈ axisBlocks cs off → x.1 ≤ i → i < x.2 →
      chunkBounds cs off i = x := by
    intro cs
    induction cs with
    | nil => intro off i x hx; simp [axisBlocks] at hx
    | cons c cs ih =>
      intro off i x hx hi hi'
      simp only [axisBlocks, List.mem_cons] at hx
      rcases hx with rfl | hx
      · rw [chunkBounds, if_pos hi']
      · have := (axisBlocks_start hx).1
        rw [chunkBounds, if_neg (by omega)]
        exact ih hx hi hi'
  have e1 : overlapBounds rowChunks rows dr p.1 = (rb.1 - dr, min (rb.2 + dr) rows) := by
    unfold overlapBounds
    rw [key hrb hp.1.1 hp.1.2]
  have e2 : overlapBounds colChunks cols dc p.2 = (cb.1 - dc, min (cb.2 + dc) cols) := by
    unfold overlapBounds
    rw [key hcb hp.2.1 hp.2.2]
  simp only [mapOverlap, e1, e2]
  apply averageChunk_inside
  · rfl
  · rfl
  · intro r c hr' hc'
    simp only at hr' hc' ⊢
    rw [List.getD_eq_getElem?_getD, List.getElem?_map,
      blockPoints_get (rb := (rb.1 - dr, min (rb.2 + dr) rows))
        (cb := (cb.1 - dc, min (cb.2 + dc) cols)) hr' hc']
    simp only [Option.map_some, Option.getD_some, subImg]
  · simp only
    omega
  · simp only
    omega

theorem averageJobs_ok {rows cols m : ℕ} {d : DType} {ws : List ℕ} {coeff : ℕ → ℕ → K}
    {rowChunks colChunks : List ℕ} {orig : ℕ × ℕ → ℕ → K} (hws : ¬ (ws = [1] ∨ ws = [1, 1]))
    {out : Img (Option (List K))}
    (hout : averageNeighbourPatterns { rows := rows, cols := cols, val := fun r c => orig (r, c) } m
      d ws coeff rowChunks colChunks = .ok out) :
    ∃ w omin omax dr dc, averageJobs rows cols m d ws coeff rowChunks colChunks =
        .ok ((mapBlocks rowChunks colChunks).map (averageJob rows cols w m d omin omax dr dc)) ∧
      out = mapOverlap rowChunks colChunks dr dc (averageChunk w m d omin omax)
        { rows := rows
          cols := cols
          val := fun r c => (orig (r, c), windowSums rows cols w r c) } := by
  unfold averageNeighbourPatterns at hout
  rw [if_neg hws] at hout
  unfold averageJobs
  rw [if_neg hws]
  simp only at hout
  cases h1 : averageDepth ws rowChunks rows 0 with
  | error e => rw [h1] at hout; simp at hout
  | ok dr =>
    cases h2 : averageDepth ws colChunks cols 1 with
    | error e => rw [h1, h2] at hout; simp at hout
    | ok dc =>
      cases h3 : dtypeRange d with
      | none => rw [h1, h2, h3] at hout; simp at hout
      | some o =>
        obtain ⟨omin, omax⟩ := o
        rw [h1, h2, h3] at hout
        simp only [Except.ok.injEq] at hout
        exact ⟨_, _, _, _, _, rfl, hout.symm⟩

/-- C128.  Averaging with neighbours in place, in any order of reading and storing, gives what
averaging out of place gives, if Dask copies the patterns or there is only one chunk; wherever it
stops, every pattern is as it was or averaged.  Missing: several chunks of a signal whose patterns are
not copied, see `C128_average_violated`. -/
theorem C128_average_partial {rows cols m : ℕ} {d : DType} {ws : List ℕ} {coeff : ℕ → ℕ → K}
    {rowChunks colChunks : List ℕ} (orig : ℕ × ℕ → ℕ → K) (hws : ¬ (ws = [1] ∨ ws = [1, 1]))
    (hr : rowChunks.sum = rows) (hc : colChunks.sum = cols) (copies : Bool)
    (hcopy : copies = true ∨ (rowChunks = [rows] ∧ colChunks = [cols]))
    {out : Img (Option (List K))}
    (hout : averageNeighbourPatterns { rows := rows, cols := cols, val := fun r c => orig (r, c) } m
      d ws coeff rowChunks colChunks = .ok out) :
    ∃ jobs, averageJobs rows cols m d ws coeff rowChunks colChunks = .ok jobs ∧
      ∀ sched, let s := runStore copies jobs orig sched
        (∀ r c, s.mem (r, c) = orig (r, c) ∨ s.mem (r, c) = storedPattern (out.val r c)) ∧
        (Finished s → ∀ r c, r < rows → c < cols → s.mem (r, c) = storedPattern (out.val r c)) := by
  obtain ⟨w, omin, omax, dr, dc, hjobs, rfl⟩ := averageJobs_ok hws hout
  refine ⟨_, hjobs, ?_⟩
  have hsep : Separate copies
      ((mapBlocks rowChunks colChunks).map (averageJob rows cols w m d omin omax dr dc)) := by
    refine ⟨?_, ?_, ?_⟩
    · intro j hj
      rw [List.mem_map] at hj
      obtain ⟨b, _, rfl⟩ := hj
      exact blockPoints_nodup _ _
    · intro k k' j j' hj hj' hne p hp
      rw [List.getElem?_map, Option.map_eq_some_iff] at hj hj'
      obtain ⟨a, ha, rfl⟩ := hj
      obtain ⟨b, hb, rfl⟩ := hj'
      exact mapBlocks_index ha hb hne p hp
    · intro hf k k' j j' hj hj' hne
      rcases hcopy with h | ⟨h1, h2⟩
      · rw [h] at hf; cases hf
      · exfalso
        rw [h1, h2] at hj hj'
        have hlen : ((mapBlocks [rows] [cols]).map
            (averageJob rows cols w m d omin omax dr dc)).length = 1 := rfl
        have := (List.getElem?_eq_some_iff.1 hj).1
        have := (List.getElem?_eq_some_iff.1 hj').1
        omega
  intro sched s
  refine ⟨?_, ?_⟩
  · intro r c
    rcases store_pattern hsep orig sched (r, c) with e | ⟨j, hj, hm⟩
    · exact Or.inl e
    · right
      rw [List.mem_map] at hj
      obtain ⟨b, hb, rfl⟩ := hj
      rw [averageJob_output hr hc hb, List.mem_map] at hm
      obtain ⟨q, _, hq⟩ := hm
      simp only [Prod.mk.injEq] at hq
      obtain ⟨rfl, h2⟩ := hq
      exact h2.symm
  · intro hf r c hr' hc'
    obtain ⟨h1, h2⟩ := mapBlocks_cover (rowChunks := rowChunks) (colChunks := colChunks)
      (r := r) (c := c) (by omega) (by omega)
    refine store_finished hsep orig sched hf (List.mem_map_of_mem h1) ?_
    rw [averageJob_output hr hc h1]
    exact List.mem_map.2 ⟨_, h2, rfl⟩

end

/-- Four points in a row, patterns of two pixels, a window of three ones, one chunk or two. -/
def averageDemo (copies : Bool) (rowChunks : List ℕ) (sched : List ℕ) : Option (Bool × List (List ℚ)) :=
  (averageJobs (K := ℚ) 4 1 3 (.uint 8) [3, 1] (fun _ _ => 1) rowChunks [1]).toOption.map fun jobs =>
    let s := runStore copies jobs (fun p px => if px = 0 then 0 else if px = 1 then (p.1 : ℚ) + 1 else 40) sched
    (s.jobs.all (fun j => match j with | .writing [] => true | _ => false),
      (List.range 4).map fun r => (List.range 3).map (s.mem (r, 0)))

/-- False in general: averaging in place does not depend on the order in which chunks are processed.
If Dask's chunks refer to the signal's own array, a chunk which is read after its neighbour was stored
gets patterns of the neighbour which are already averaged. -/
theorem C128_average_violated :
    averageDemo false [2, 2] ((List.range 2).flatMap fun k => List.replicate 9 k) ≠
      averageDemo false [2, 2] ((List.range 9).flatMap fun _ => [0, 1]) ∧
    averageDemo false [2, 2] ((List.range 9).flatMap fun _ => [0, 1]) =
      averageDemo false [4] (List.replicate 9 0) ∧
    averageDemo true [2, 2] ((List.range 2).flatMap fun k => List.replicate 9 k) =
      averageDemo false [4] (List.replicate 9 0) ∧
    (averageDemo false [2, 2] ((List.range 2).flatMap fun k => List.replicate 9 k)).map Prod.fst =
      some true := by
  decide +kernel

/-! ### Lazy signals -/

section
variable {A : Type*}

/-- Invariant: arrays exist, different signals in memory have different arrays, and signals have the
expected patterns. -/
structure SessionInv (s : Session A) (l : List A) : Prop where
  length : s.signals.length = l.length
  memory : ∀ (i b : ℕ), s.signals[i]? = some (.memory b) → b < s.bufs.length
  lazy : ∀ (i b : ℕ) g, s.signals[i]? = some (.lazy b g) → b < s.bufs.length
  own : ∀ (i j b : ℕ), s.signals[i]? = some (.memory b) → s.signals[j]? = some (.memory b) → i = j
  patterns : ∀ i : ℕ, s.patterns i = l[i]?

/-- The patterns of a signal, for given arrays. -/
def LazySignal.value (bufs : List A) : LazySignal A → Option A
  | .memory b => bufs[b]?
  | .lazy b f => bufs[b]?.map f

theorem patterns_value (s : Session A) (i : ℕ) :
    s.patterns i = s.signals[i]?.bind (LazySignal.value s.bufs) := by
  unfold Session.patterns
  cases s.signals[i]? with
  | none => rfl
  | some g => cases g <;> rfl

theorem value_append {bufs more : List A} {g : LazySignal A}
    (hm : ∀ b, g = .memory b → b < bufs.length) (hl : ∀ b f, g = .lazy b f → b < bufs.length) :
    g.value (bufs ++ more) = g.value bufs := by
  cases g with
  | memory b => exact List.getElem?_append_left (hm b rfl)
  | lazy b f =>
    simp only [LazySignal.value]
    rw [List.getElem?_append_left (hl b f rfl)]

/-- A new signal. -/
theorem sessionInv_new {s : Session A} {l : List A} (h : SessionInv s l) (more : List A)
    (g : LazySignal A) (a : A) (hv : g.value (s.bufs ++ more) = some a)
    (hm : ∀ b, g = .memory b → b = s.bufs.length ∧ more ≠ [])
    (hl : ∀ b f, g = .lazy b f → b < s.bufs.length + more.length) :
    SessionInv { bufs := s.bufs ++ more, signals := s.signals ++ [g] } (l ++ [a]) := by
  have hget : ∀ (i : ℕ) x, (s.signals ++ [g])[i]? = some x →
      s.signals[i]? = some x ∨ i = s.signals.length ∧ x = g := by
    intro i x hx
    rw [List.getElem?_append] at hx
    split_ifs at hx with h'
    · exact Or.inl hx
    · right
      rw [List.getElem?_singleton] at hx
      split_ifs at hx with h''
      · simp only [Option.some.injEq] at hx
        exact ⟨by omega, hx.symm⟩
  refine ⟨by simp [h.length], ?_, ?_, ?_, ?_⟩
  · intro i b hb
    simp only [List.length_append]
    rcases hget i _ hb with hb | ⟨_, hb⟩
    · have := h.memory i b hb; omega
    · obtain ⟨rfl, h2⟩ := hm b hb.symm
      have := List.length_pos_iff.2 h2
      omega
  · intro i b f hb
    simp only [List.length_append]
    rcases hget i _ hb with hb | ⟨_, hb⟩
    · have := h.lazy i b f hb; omega
    · exact hl b f hb.symm
  · intro i j b hi hj
    rcases hget i _ hi with hi | ⟨hi, hi'⟩ <;> rcases hget j _ hj with hj | ⟨hj, hj'⟩
    · exact h.own i j b hi hj
    · have := (hm b hj'.symm).1
      have := h.memory i b hi
      omega
    · have := (hm b hi'.symm).1
      have := h.memory j b hj
      omega
    · omega
  · intro i
    rw [patterns_value]
    simp only
    rw [List.getElem?_append, List.getElem?_append, h.length]
    split_ifs with hi
    · rw [← h.patterns, patterns_value]
      cases hs : s.signals[i]? with
      | none => rfl
      | some x =>
        simp only [Option.bind_some]
        exact value_append (fun b e => h.memory i b (e ▸ hs)) (fun b f e => h.lazy i b f (e ▸ hs))
    · rw [List.getElem?_singleton, List.getElem?_singleton]
      split_ifs with h'
      · simpa using hv
      · rfl

theorem sessionInv_step {copies : Bool} {s : Session A} {l : List A} (h : SessionInv s l)
    (st : SessionStep A)
    (hsafe : ∀ (i b : ℕ) f, st = .inplace i f → s.signals[i]? = some (.memory b) →
      ∀ b' g, LazySignal.lazy b' g ∈ s.signals → b' ≠ b) :
    SessionInv (sessionStep copies s st) (valueStep l st) := by
  have hnone : ∀ i : ℕ, s.signals[i]? = none → l[i]? = none := by
    intro i hi
    rw [← h.patterns, patterns_value, hi]
    rfl
  have hsome : ∀ (i : ℕ) g, s.signals[i]? = some g → ∃ a, s.patterns i = some a ∧ l[i]? = some a ∧
      g.value s.bufs = some a := by
    intro i g hg
    have hp := h.patterns i
    have hi : i < l.length := by
      rw [← h.length]; exact (List.getElem?_eq_some_iff.1 hg).1
    rw [List.getElem?_eq_getElem hi] at hp
    refine ⟨_, hp, List.getElem?_eq_getElem hi, ?_⟩
    rw [patterns_value, hg] at hp
    exact hp
  cases st with
  | inplace i f =>
    simp only [sessionStep, valueStep]
    cases hg : s.signals[i]? with
    | none =>
      simp only
      have e : l.modify i f = l := by
        apply List.ext_getElem?
        intro j
        rw [List.getElem?_modify]
        by_cases e : i = j
        · subst e; rw [hnone i hg]; rfl
        · simp [e]
      rw [e]
      exact h
    | some g =>
      cases g with
      | memory b =>
        simp only
        refine ⟨by simp [h.length], ?_, ?_, h.own, ?_⟩
        · intro j b' hb; simpa using h.memory j b' hb
        · intro j b' g hb; simpa using h.lazy j b' g hb
        · intro j
          rw [patterns_value]
          simp only
          rw [List.getElem?_modify, ← h.patterns j, patterns_value]
          cases hj : s.signals[j]? with
          | none => rfl
          | some x =>
            simp only [Option.bind_some]
            cases x with
            | memory b' =>
              simp only [LazySignal.value]
              rw [List.getElem?_modify]
              by_cases e : i = j
              · subst e
                rw [hg] at hj
                cases hj
                simp
              · have hb : b ≠ b' := fun e' => e (h.own i j b hg (e' ▸ hj))
                simp [e, hb]
            | lazy b' g =>
              have hb : b' ≠ b := hsafe i b f rfl hg b' g (List.mem_of_getElem? hj)
              have e : i ≠ j := by
                rintro rfl
                rw [hg] at hj
                cases hj
              simp only [LazySignal.value]
              rw [List.getElem?_modify]
              simp [e, Ne.symm hb]
      | lazy b g =>
        simp only
        have hi : i < s.signals.length := (List.getElem?_eq_some_iff.1 hg).1
        have hget : ∀ j : ℕ, (s.signals.set i (.lazy b (f ∘ g)))[j]? =
            if i = j then some (.lazy b (f ∘ g)) else s.signals[j]? := by
          intro j
          rw [List.getElem?_set]
          by_cases e : i = j
          · subst e; simp [hi]
          · simp [e]
        refine ⟨by simp [h.length], ?_, ?_, ?_, ?_⟩
        · intro j b' hb
          rw [hget] at hb
          split_ifs at hb with e
          · simp at hb
          · exact h.memory j b' hb
        · intro j b' g' hb
          rw [hget] at hb
          split_ifs at hb with e
          · simp only [Option.some.injEq, LazySignal.lazy.injEq] at hb
            rw [← hb.1]
            exact h.lazy i b g hg
          · exact h.lazy j b' g' hb
        · intro j j' b' hj hj'
          rw [hget] at hj hj'
          split_ifs at hj with e
          · simp at hj
          · split_ifs at hj' with e'
            · simp at hj'
            · exact h.own j j' b' hj hj'
        · intro j
          rw [patterns_value]
          simp only
          rw [hget, List.getElem?_modify]
          by_cases e : i = j
          · subst e
            obtain ⟨a, _, ha, hv⟩ := hsome i _ hg
            rw [if_pos rfl, ha]
            simp only [LazySignal.value, Option.map_eq_some_iff] at hv
            obtain ⟨x, hx, rfl⟩ := hv
            simp [LazySignal.value, hx]
          · rw [if_neg e, ← h.patterns j, patterns_value]
            simp [e]
  | newSignal i f lz =>
    simp only [sessionStep, valueStep]
    cases hg : s.signals[i]? with
    | none =>
      simp only
      rw [hnone i hg]
      exact h
    | some g =>
      obtain ⟨a, hp, ha, hv⟩ := hsome i g hg
      rw [hp, ha]
      simp only
      cases lz with
      | false =>
        simp only [Bool.false_eq_true, if_false]
        exact sessionInv_new h [f a] (.memory s.bufs.length) (f a)
          (by simp [LazySignal.value]) (by simp) (by simp)
      | true =>
        simp only [if_true]
        cases g with
        | memory b =>
          simp only
          cases copies with
          | true =>
            simp only [if_true]
            exact sessionInv_new h [a] (.lazy s.bufs.length f) (f a)
              (by simp [LazySignal.value]) (by simp) (by simp)
          | false =>
            simp only [Bool.false_eq_true, if_false]
            have := sessionInv_new h [] (.lazy b f) (f a)
              (by
                simp only [LazySignal.value] at hv ⊢
                simp [hv]) (by simp)
              (by
                intro b' g' e
                cases e
                have := h.memory i b hg
                simpa using this)
            simpa using this
        | lazy b g =>
          simp only
          have := sessionInv_new h [] (.lazy b (f ∘ g)) (f a)
              (by
                simp only [LazySignal.value, Option.map_eq_some_iff] at hv
                obtain ⟨x, hx, rfl⟩ := hv
                simp [LazySignal.value, hx]) (by simp)
              (by
                intro b' g' e
                cases e
                have := h.lazy i b g hg
                simpa using this)
          simpa using this
  | compute i =>
    simp only [sessionStep, valueStep]
    cases hg : s.signals[i]? with
    | none => exact h
    | some g =>
      obtain ⟨a, hp, ha, hv⟩ := hsome i g hg
      rw [hp]
      cases g with
      | memory b => exact h
      | lazy b g =>
        simp only
        have hi : i < s.signals.length := (List.getElem?_eq_some_iff.1 hg).1
        have hget : ∀ j : ℕ, (s.signals.set i (.memory s.bufs.length))[j]? =
            if i = j then some (.memory s.bufs.length) else s.signals[j]? := by
          intro j
          rw [List.getElem?_set]
          by_cases e : i = j
          · subst e; simp [hi]
          · simp [e]
        refine ⟨by simp [h.length], ?_, ?_, ?_, ?_⟩
        · intro j b' hb
          simp only [List.length_append, List.length_singleton]
          rw [hget] at hb
          split_ifs at hb with e
          · simp only [Option.some.injEq, LazySignal.memory.injEq] at hb
            omega
          · have := h.memory j b' hb; omega
        · intro j b' g' hb
          simp only [List.length_append, List.length_singleton]
          rw [hget] at hb
          split_ifs at hb with e
          · simp at hb
          · have := h.lazy j b' g' hb; omega
        · intro j j' b' hj hj'
          rw [hget] at hj hj'
          split_ifs at hj with e <;> split_ifs at hj' with e'
          · omega
          · simp only [Option.some.injEq, LazySignal.memory.injEq] at hj
            have := h.memory j' b' hj'
            omega
          · simp only [Option.some.injEq, LazySignal.memory.injEq] at hj'
            have := h.memory j b' hj
            omega
          · exact h.own j j' b' hj hj'
        · intro j
          rw [patterns_value]
          simp only
          rw [hget]
          by_cases e : i = j
          · subst e
            rw [if_pos rfl, ha]
            simp [LazySignal.value]
          · rw [if_neg e, ← h.patterns j, patterns_value]
            cases hj : s.signals[j]? with
            | none => rfl
            | some x =>
              simp only [Option.bind_some]
              exact value_append (fun b e => h.memory j b (e ▸ hj))
                (fun b f e => h.lazy j b f (e ▸ hj))

theorem sessionInv_run {copies : Bool} (steps : List (SessionStep A)) {s : Session A} {l : List A}
    (h : SessionInv s l) (hs : NoLazyProcessed copies s steps) :
    SessionInv (steps.foldl (sessionStep copies) s) (steps.foldl valueStep l) := by
  induction steps generalizing s l with
  | nil => exact h
  | cons st rest ih =>
    rw [List.foldl_cons, List.foldl_cons]
    cases st with
    | inplace i f =>
      refine ih (sessionInv_step h _ ?_) hs.2
      intro j b g e hb
      cases e
      exact hs.1 b hb
    | newSignal i f lz => exact ih (sessionInv_step h _ (by intro _ _ _ e; cases e)) hs
    | compute i => exact ih (sessionInv_step h _ (by intro _ _ _ e; cases e)) hs

theorem sessionInv_start (a : A) : SessionInv { bufs := [a], signals := [.memory 0] } [a] := by
  have hget : ∀ (i : ℕ) x, ([.memory 0] : List (LazySignal A))[i]? = some x →
      i = 0 ∧ x = .memory 0 := by
    intro i x hx
    rw [List.getElem?_singleton] at hx
    split_ifs at hx with h
    simp only [Option.some.injEq] at hx
    exact ⟨h, hx.symm⟩
  refine ⟨rfl, ?_, ?_, ?_, ?_⟩
  · intro i b hb
    cases (hget i _ hb).2
    simp
  · intro i b g hb
    cases (hget i _ hb).2
  · intro i j b hi hj
    rw [(hget i _ hi).1, (hget j _ hj).1]
  · intro i
    rw [patterns_value]
    simp only [List.getElem?_singleton]
    split_ifs <;> rfl

/-- Arrays of lazy signals are not those of signals in memory, if Dask copies. -/
theorem copies_safe (steps : List (SessionStep A)) {s : Session A} {l : List A}
    (h : SessionInv s l)
    (hd : ∀ b b' g, LazySignal.memory b ∈ s.signals → LazySignal.lazy b' g ∈ s.signals → b' ≠ b) :
    NoLazyProcessed true s steps := by
  induction steps generalizing s l with
  | nil => trivial
  | cons st rest ih =>
    have hsafe : ∀ (i b : ℕ) f, st = .inplace i f → s.signals[i]? = some (.memory b) →
        ∀ b' g, LazySignal.lazy b' g ∈ s.signals → b' ≠ b :=
      fun i b f _ hb b' g hg => hd b b' g (List.mem_of_getElem? hb) hg
    have hstep := sessionInv_step (copies := true) h st hsafe
    have hold : ∀ b, LazySignal.memory b ∈ s.signals → b < s.bufs.length := by
      intro b hb
      obtain ⟨i, hi⟩ := List.getElem?_of_mem hb
      exact h.memory i b hi
    have holdl : ∀ b g, LazySignal.lazy b g ∈ s.signals → b < s.bufs.length := by
      intro b g hb
      obtain ⟨i, hi⟩ := List.getElem?_of_mem hb
      exact h.lazy i b g hi
    have hd' : ∀ b b' g, LazySignal.memory b ∈ (sessionStep true s st).signals →
        LazySignal.lazy b' g ∈ (sessionStep true s st).signals → b' ≠ b := by
      cases st with
      | inplace i f =>
        simp only [sessionStep]
        cases hg : s.signals[i]? with
        | none => exact hd
        | some x =>
          cases x with
          | memory b => exact hd
          | lazy b g =>
            intro b1 b2 g2 h1 h2
            simp only at h1 h2
            have h1' : LazySignal.memory b1 ∈ s.signals := by
              rcases List.mem_or_eq_of_mem_set h1 with h | h
              · exact h
              · cases h
            rcases List.mem_or_eq_of_mem_set h2 with h | h
            · exact hd _ _ _ h1' h
            · cases h
              exact hd _ _ g h1' (List.mem_of_getElem? hg)
      | newSignal i f lz =>
        simp only [sessionStep]
        cases hg : s.signals[i]? with
        | none => exact hd
        | some x =>
          cases hp : s.patterns i with
          | none => exact hd
          | some a =>
            simp only
            intro b1 b2 g2 h1 h2
            cases lz with
            | false =>
              simp only [Bool.false_eq_true, if_false, List.mem_append, List.mem_singleton] at h1 h2
              rcases h2 with h2 | h2
              · rcases h1 with h1 | h1
                · exact hd _ _ _ h1 h2
                · cases h1
                  have := holdl _ _ h2
                  omega
              · cases h2
            | true =>
              cases x with
              | memory b =>
                simp only [if_true, List.mem_append, List.mem_singleton] at h1 h2
                rcases h1 with h1 | h1
                · rcases h2 with h2 | h2
                  · exact hd _ _ _ h1 h2
                  · cases h2
                    have := hold _ h1
                    omega
                · cases h1
              | lazy b g =>
                simp only [if_true, List.mem_append, List.mem_singleton] at h1 h2
                rcases h1 with h1 | h1
                · rcases h2 with h2 | h2
                  · exact hd _ _ _ h1 h2
                  · cases h2
                    exact hd _ _ g h1 (List.mem_of_getElem? hg)
                · cases h1
      | compute i =>
        simp only [sessionStep]
        cases hg : s.signals[i]? with
        | none => exact hd
        | some x =>
          cases hp : s.patterns i with
          | none => cases x <;> exact hd
          | some a =>
            cases x with
            | memory b => exact hd
            | lazy b g =>
              intro b1 b2 g2 h1 h2
              simp only at h1 h2
              have h2' : LazySignal.lazy b2 g2 ∈ s.signals := by
                rcases List.mem_or_eq_of_mem_set h2 with h | h
                · exact h
                · cases h
              rcases List.mem_or_eq_of_mem_set h1 with h | h
              · exact hd _ _ _ h h2'
              · cases h
                have := holdl _ _ h2'
                omega
    cases st with
    | inplace i f => exact ⟨fun b hb => hsafe i b f rfl hb, ih hstep hd'⟩
    | newSignal i f lz => exact ih hstep hd'
    | compute i => exact ih hstep hd'

/-- C128.  If Dask copies arrays in memory, then after every history of processing (in place or not,
lazily or not) and computing, every signal has the patterns which it would have if every signal had
its own: what is done in place with one signal is not seen in another, and when a lazy signal is
computed does not matter. -/
theorem C128_lazy_copies (a : A) (steps : List (SessionStep A)) (i : ℕ) :
    (runSession true a steps).patterns i = (steps.foldl valueStep [a])[i]? :=
  (sessionInv_run steps (sessionInv_start a) (copies_safe steps (sessionInv_start a) (by
    intro b b' g _ h2
    simp at h2))).patterns i

/-- C128.  The same if Dask does not copy arrays, for histories in which no signal in memory is
processed in place while there are lazy signals computed from its array.  Missing: other histories,
see `C128_lazy_violated`. -/
theorem C128_lazy_partial (copies : Bool) (a : A) (steps : List (SessionStep A))
    (h : NoLazyProcessed copies { bufs := [a], signals := [.memory 0] } steps) (i : ℕ) :
    (runSession copies a steps).patterns i = (steps.foldl valueStep [a])[i]? :=
  (sessionInv_run steps (sessionInv_start a) h).patterns i

end

/-- False in general: a lazy signal of a signal in memory keeps its patterns when the latter is
processed in place.  If Dask's chunks refer to the signal's own array, what is computed later is the
processed array. -/
theorem C128_lazy_violated :
    let steps : List (SessionStep (List ℕ)) :=
      [.newSignal 0 (List.map (· + 1)) true, .inplace 0 (List.map (10 * ·)), .compute 1]
    (runSession false [1, 2] steps).patterns 1 = some [11, 21] ∧
    (steps.foldl valueStep [[1, 2]])[1]? = some [2, 3] ∧
    (runSession true [1, 2] steps).patterns 1 = some [2, 3] := by
  decide +kernel

/-- The hypothesis of `C128_lazy_partial`: the lazy signal is computed first. -/
example :
    NoLazyProcessed false ({ bufs := [[1, 2]], signals := [.memory 0] } : Session (List ℕ))
      [.newSignal 0 (List.map (· + 1)) true, .compute 1, .inplace 0 (List.map (10 * ·)),
        .newSignal 0 id true, .inplace 2 (List.map (· + 5))] := by
  simp [NoLazyProcessed, sessionStep, Session.patterns]

/-- A finished run of `C128_in_place`: two chunks, steps in turn. -/
example :
    let s := runStore false (patternJobs (fun x : ℕ => x + 1) [1, 1] [2]) (fun p => 10 * p.1 + p.2)
      ((List.range 5).flatMap fun _ => [1, 0])
    (s.jobs.all (fun j => match j with | .writing [] => true | _ => false)) = true ∧
    [s.mem (0, 0), s.mem (0, 1), s.mem (1, 0), s.mem (1, 1), s.mem (2, 0)] = [1, 2, 11, 12, 20] := by
  decide +kernel

/-- False in general: an interrupted call can be repeated.  Patterns which were processed are
processed again. -/
theorem C128_repeat_violated :
    let jobs := patternJobs (fun x : ℕ => x + 1) [1, 1] [1]
    let s := runStore false jobs (fun _ => 0) [0, 0, 0]
    let t := runStore false jobs s.mem [0, 0, 0, 1, 1, 1]
    [s.mem (0, 0), s.mem (1, 0)] = [1, 0] ∧ [t.mem (0, 0), t.mem (1, 0)] = [2, 1] := by
  decide +kernel

end Kp
