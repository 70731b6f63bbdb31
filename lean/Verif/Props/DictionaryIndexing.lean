import Verif.Lemmas.DictionaryIndexing
import Mathlib.Algebra.Order.Ring.Rat
import Mathlib.Tactic.NormNum

/-
C21, C22, C23: dictionary indexing.

`argtopk` and `argsort` are any sorting functions with ties in any order (`IsArgsort`,
met by `stableArgsort`).
-/

namespace Kp

section
variable {K : Type*} [Field K] [LinearOrder K] [IsStrictOrderedRing K]
variable {argtopk argsort : List K → List ℕ}

/-- C21, part.  With a larger-is-better metric (`sign = 1`), for any dictionary, `keep_n`
and `n_per_iteration`, the `min(keep_n, size)` best of the whole dictionary are returned.
Missing (and false, see below): dictionary scores of -1 or less when there is more than one
iteration. -/
theorem C21_global_best_partial (hf : IsArgsort argtopk) (hg : IsArgsort argsort)
    (keepN nPer : ℕ) (scores : List K) (hn : 0 < nPer)
    (hlow : scores.length = nPer ∨ ∀ s ∈ scores, -1 < s) :
    IsBest (· ≥ ·) (min keepN scores.length) scores
      (dictionaryIndexing argtopk argsort 1 keepN nPer scores) :=
  isBest_of_top (top_dictionaryIndexing hf hg keepN nPer scores hn hlow)

/-- C21, part.  Whatever the scores are, the first `m` matches returned are the `m` best of the whole
dictionary if at least `m` dictionary patterns score above -1 (or there is only one iteration).
Missing (and false, see below): the matches after those. -/
theorem C21_first_matches_partial (hf : IsArgsort argtopk) (hg : IsArgsort argsort)
    (keepN nPer m : ℕ) (scores : List K) (hn : 0 < nPer) (hm : m ≤ min keepN scores.length)
    (hlow : scores.length = nPer ∨ m ≤ scores.countP (fun s => -1 < s)) :
    (dictionaryIndexing argtopk argsort 1 keepN nPer scores).length = min keepN scores.length ∧
    IsBest (· ≥ ·) m scores
      ((dictionaryIndexing argtopk argsort 1 keepN nPer scores).take m) := by
  refine ⟨(indices_lt hf hg keepN nPer scores hn).1, ?_⟩
  have := isBest_of_top (top_first hf hg keepN nPer m scores hn hm hlow)
  rwa [min_eq_left (hm.trans (min_le_right _ _))] at this

/-- C21, part.  The returned scores are the first `keep_n` of the sorted scores of the whole
dictionary, so they do not depend on `n_per_iteration` or on how ties are broken.  Missing (and
false, see below): scores below -1. -/
theorem C21_scores_do_not_depend_on_iterations_partial (hf : IsArgsort argtopk)
    (hg : IsArgsort argsort) {argtopk' argsort' : List K → List ℕ} (hf' : IsArgsort argtopk')
    (hg' : IsArgsort argsort') (keepN nPer nPer' : ℕ) (scores : List K) (hn : 0 < nPer)
    (hn' : 0 < nPer') (hlow : ∀ s ∈ scores, -1 ≤ s) :
    (dictionaryIndexing argtopk argsort 1 keepN nPer scores).map Prod.fst =
        (scores.insertionSort (· ≥ ·)).take keepN ∧
      (dictionaryIndexing argtopk argsort 1 keepN nPer scores).map Prod.fst =
        (dictionaryIndexing argtopk' argsort' 1 keepN nPer' scores).map Prod.fst := by
  have h1 := scores_sorted hf hg keepN nPer scores hn hlow
  have h2 := scores_sorted hf' hg' keepN nPer' scores hn' hlow
  exact ⟨h1, h1.trans h2.symm⟩

/-- C21, part.  If no two dictionary patterns have the same score, the whole result (indices
too) does not depend on `n_per_iteration`. -/
theorem C21_result_does_not_depend_on_iterations_partial (hf : IsArgsort argtopk)
    (hg : IsArgsort argsort) (keepN nPer nPer' : ℕ) (scores : List K) (hn : 0 < nPer)
    (hn' : 0 < nPer') (hlow : ∀ s ∈ scores, -1 < s) (hd : scores.Nodup) :
    dictionaryIndexing argtopk argsort 1 keepN nPer scores =
      dictionaryIndexing argtopk argsort 1 keepN nPer' scores := by
  have t1 := top_dictionaryIndexing hf hg keepN nPer scores hn (.inr hlow)
  have t2 := top_dictionaryIndexing hf hg keepN nPer' scores hn' (.inr hlow)
  have h := (top_scores t1).trans (top_scores t2).symm
  have b1 := (isBest_of_top t1).own_score
  have b2 := (isBest_of_top t2).own_score
  generalize dictionaryIndexing argtopk argsort 1 keepN nPer scores = r1 at h b1
  generalize dictionaryIndexing argtopk argsort 1 keepN nPer' scores = r2 at h b2
  clear t1 t2
  induction r1 generalizing r2 with
  | nil => cases r2 with
    | nil => rfl
    | cons _ _ => simp at h
  | cons c cs ih => cases r2 with
    | nil => simp at h
    | cons d ds =>
      simp only [List.map_cons, List.cons.injEq] at h
      have e := ih (fun c hc => b1 c (by simp [hc])) ds h.2 (fun c hc => b2 c (by simp [hc]))
      subst e
      congr 1
      have h1 := b1 c (by simp)
      have h2 := b2 d (by simp)
      rw [← h.1] at h2
      obtain ⟨l1, g1⟩ := List.getElem?_eq_some_iff.1 h1
      obtain ⟨l2, g2⟩ := List.getElem?_eq_some_iff.1 h2
      have := (hd.getElem_inj_iff (hi := l1) (hj := l2)).1 (g1.trans g2.symm)
      exact Prod.ext h.1 this

/-- Negation of C21 for low scores: a larger-is-better metric with scores below -1 (for
example a negative distance) used with more than one iteration returns for every pattern
only dictionary index 0 with score -1, a score which no dictionary pattern has. -/
theorem C21_scores_below_minus_one_are_lost (hf : IsArgsort argtopk) (hg : IsArgsort argsort)
    (keepN nPer : ℕ) (scores : List K) (hn : 0 < nPer) (hne : scores.length ≠ nPer)
    (hlow : ∀ s ∈ scores, s < -1) :
    dictionaryIndexing argtopk argsort 1 keepN nPer scores =
      List.replicate (min keepN scores.length) ((-1 : K), 0) := by
  unfold dictionaryIndexing
  simp only
  rw [if_neg hne]
  have h := top_foldl hf hg (min keepN scores.length) nPer scores
    (List.replicate (min keepN scores.length) (((-1 : ℤ) : K), 0)) (by simp)
    (by simp [List.pairwise_replicate]) (nIterations scores.length nPer)
  rw [List.take_of_length_le (nIterations_cover _ _ hn)] at h
  have hge := h.ge_of_count (-1) (by
    rw [List.countP_append, countP_all (l := List.replicate _ _)]
    · simp
    · intro c hc
      rw [List.mem_replicate] at hc
      simp [hc.2])
  rw [List.eq_replicate_iff]
  refine ⟨by have := h.length; simp at this ⊢; omega, ?_⟩
  intro c hc
  obtain ⟨rest, p, -⟩ := h.split
  have hm := p.subset (List.mem_append_left rest hc)
  rw [List.mem_append, List.mem_replicate] at hm
  rcases hm with hm | hm
  · simpa using hm.2
  · rw [List.mem_zipIdx_iff_getElem?] at hm
    exact absurd (hge c hc) (not_le.2 (hlow _ (List.mem_of_getElem? hm)))

/-- C22, part: what holds of `sign = -1`.  With more than one iteration and chunks no larger
than `keep_n`, scores below 1 are ranked correctly.  Missing (and false, see below): one
iteration only, and chunks larger than `keep_n`. -/
theorem C22_smallest_kept_partial (hf : IsArgsort argtopk) (hg : IsArgsort argsort)
    (keepN nPer : ℕ) (scores : List K) (hn : 0 < nPer) (hne : scores.length ≠ nPer)
    (hk : nPer ≤ min keepN scores.length) (hlow : ∀ s ∈ scores, s < 1) :
    IsBest (· ≤ ·) (min keepN scores.length) scores
      (dictionaryIndexing argtopk argsort (-1) keepN nPer scores) :=
  isBest_of_top_neg (isBest_of_top
    (top_dictionaryIndexing_neg hf hg keepN nPer scores hn hne hk hlow))

/-- Negation of C22, one iteration (the default for dictionaries in memory): the *worst*
matches are returned, whatever the scores. -/
theorem C22_single_iteration_returns_worst (hf : IsArgsort argtopk) (keepN : ℕ)
    (scores : List K) :
    IsBest (· ≥ ·) (min keepN scores.length) scores
      (dictionaryIndexing argtopk argsort (-1) keepN scores.length scores) := by
  unfold dictionaryIndexing
  simp only [if_true]
  have h := isBest_of_top (top_matchChunk hf (min keepN scores.length) scores)
  simpa using h

/-- Negation of C22: so whenever some pattern left out has a smaller score than the largest
score, what is returned is not the best matches. -/
theorem C22_single_iteration_not_best (hf : IsArgsort argtopk) (scores : List K) (a b : K)
    (ha : a ∈ scores) (hb : b ∈ scores) (hab : a < b) :
    ¬ IsBest (· ≤ ·) 1 scores
      (dictionaryIndexing argtopk argsort (-1) 1 scores.length scores) := by
  intro h
  have hw := C22_single_iteration_returns_worst (argsort := argsort) hf 1 scores
  obtain ⟨c, hc⟩ := List.length_eq_one_iff.1 h.length
  rw [hc] at h hw
  obtain ⟨i, hi⟩ := List.mem_iff_getElem?.1 ha
  obtain ⟨j, hj⟩ := List.mem_iff_getElem?.1 hb
  have ho := h.own_score c (by simp)
  have hca : c.1 ≤ a := by
    by_cases e : i = c.2
    · subst e; rw [hi] at ho; simp at ho; rw [ho]
    · exact h.optimal i a hi (by simpa using e) c (by simp)
  have hcb : c.1 ≥ b := by
    by_cases e : j = c.2
    · subst e; rw [hj] at ho; simp at ho; rw [ho]
    · exact hw.optimal j b hj (by simpa using e) c (by simp)
  exact absurd (lt_of_lt_of_le hab hcb) (not_lt.2 hca)

/-- C23.  With a navigation mask (`True` = do not index): a map point is in the returned
data exactly if it is not masked, and an unmasked point has the result computed from its
own pattern. -/
theorem C23_results_at_own_points {α β : Type*} (index : α → β) (junk : List β)
    (mask : List Bool) (patterns : List α) (hp : patterns.length = mask.length)
    (hj : junk.length = mask.length) :
    (indexMap index junk (some mask) patterns).length = patterns.length ∧
    (∀ (i : ℕ) (m : Bool), mask[i]? = some m →
      (indexMap index junk (some mask) patterns)[i]?.map Prod.fst = some (!m)) ∧
    (∀ (i : ℕ) (p : α), mask[i]? = some false → patterns[i]? = some p →
      (indexMap index junk (some mask) patterns)[i]? = some (true, index p)) := by
  have hl : (scatterMask junk (mask.map not) ((selectMask (mask.map not) patterns).map
      index)).length = mask.length := by
    rw [scatterMask_length _ _ _ (by simpa using hj)]; simp
  refine ⟨by simp [indexMap, hl, hp], ?_, ?_⟩
  · intro i m hm
    have hi : i < mask.length := (List.getElem?_eq_some_iff.1 hm).1
    have hi' := hl.symm ▸ hi
    rw [List.getElem?_eq_getElem hi, Option.some.injEq] at hm
    simp [indexMap, List.zip, List.getElem?_zipWith, hm, List.getElem?_eq_getElem hi,
      List.getElem?_eq_getElem hi']
  · intro i p hm hpi
    have h1 : (mask.map not)[i]? = some true := by simp [hm]
    have h := scatterMask_select junk (mask.map not) patterns index (by simpa using hj)
      (by simpa using hp) i p h1 hpi
    simp only [indexMap, List.zip, List.getElem?_zipWith, h1, h]

/-- C23 for dictionary indexing: every unmasked point has the best matches of its own
pattern, both with and without a mask (`scores p` are the scores of pattern `p` with the
dictionary). -/
theorem C23_best_matches_at_own_points {α : Type*} (hf : IsArgsort argtopk)
    (hg : IsArgsort argsort) (keepN nPer : ℕ) (hn : 0 < nPer) (scores : α → List K)
    (junk : List (List (Cand K))) (navMask : Option (List Bool)) (patterns : List α)
    (hm : ∀ mask, navMask = some mask → patterns.length = mask.length ∧
      junk.length = mask.length)
    (hlow : ∀ p ∈ patterns, ∀ s ∈ scores p, -1 < s) (i : ℕ) (p : α)
    (hp : patterns[i]? = some p)
    (hi : ∀ mask, navMask = some mask → mask[i]? = some false) :
    ∃ best, (indexMap (fun p => dictionaryIndexing argtopk argsort 1 keepN nPer (scores p)) junk
        navMask patterns)[i]? = some (true, best) ∧
      IsBest (· ≥ ·) (min keepN (scores p).length) (scores p) best := by
  refine ⟨_, ?_, C21_global_best_partial hf hg keepN nPer (scores p) hn
    (.inr (hlow p (List.mem_of_getElem? hp)))⟩
  cases navMask with
  | none => simp [indexMap, hp]
  | some mask =>
    obtain ⟨h1, h2⟩ := hm mask rfl
    exact (C23_results_at_own_points _ junk mask patterns h1 h2).2.2 i p (hi mask rfl) hp

end

/-! Concrete cases. -/

/-- Negation of C21 at the lowest possible score of the built-in metrics: scores 1 and -1
(a pattern and its exact negative), one dictionary pattern per iteration, and the result
claims dictionary index 0 twice. -/
theorem C21_score_of_exactly_minus_one_is_lost :
    dictionaryIndexing (K := ℚ) stableArgsort stableArgsort 1 2 1 [1, -1] =
      [(1, 0), (-1, 0)] := by decide +kernel

/-- Negation of C22 with several iterations: the best (smallest) score 0 is lost when its
chunk has a larger one. -/
theorem C22_several_iterations_not_best :
    dictionaryIndexing (K := ℚ) stableArgsort stableArgsort (-1) 1 2 [0, 1/2, 1/4] =
      [(1/4, 2)] := by decide +kernel

-- C21, C23: hypotheses are met, with a chunk size not dividing the dictionary size
example : dictionaryIndexing (K := ℚ) stableArgsort stableArgsort 1 3 2 [1/4, 1/2, 3/4, 0, 1/3] =
    [(3/4, 2), (1/2, 1), (1/3, 4)] := by decide +kernel
example : IsBest (· ≥ ·) 3 [1/4, 1/2, 3/4, 0, (1/3 : ℚ)]
    (dictionaryIndexing stableArgsort stableArgsort 1 3 2 [1/4, 1/2, 3/4, 0, 1/3]) :=
  C21_global_best_partial isArgsort_stableArgsort isArgsort_stableArgsort 3 2
    [1/4, 1/2, 3/4, 0, (1/3 : ℚ)] (by norm_num)
    (.inr (by decide +kernel))
-- two scores are above -1: the first two matches are right, the third is not
example : IsBest (· ≥ ·) 2 [-1, 1/2, -3, (1 : ℚ)]
    ((dictionaryIndexing stableArgsort stableArgsort 1 3 2 [-1, 1/2, -3, 1]).take 2) :=
  (C21_first_matches_partial isArgsort_stableArgsort isArgsort_stableArgsort 3 2 2
    [-1, 1/2, -3, (1 : ℚ)] (by norm_num) (by decide) (.inr (by decide +kernel))).2
example : ([1/4, 1/2, 3/4, 0, (1/3 : ℚ)]).Nodup := by decide +kernel
example : ∀ s ∈ [-3, -2, (-3/2 : ℚ)], s < -1 := by decide +kernel
example : IsBest (· ≤ ·) 2 [1/4, 1/2, 0, (1/3 : ℚ)]
    (dictionaryIndexing stableArgsort stableArgsort (-1) 2 2 [1/4, 1/2, 0, 1/3]) :=
  C22_smallest_kept_partial isArgsort_stableArgsort isArgsort_stableArgsort 2 2
    [1/4, 1/2, 0, (1/3 : ℚ)] (by norm_num)
    (by simp) (by simp) (by decide +kernel)
example : indexMap (fun n : ℕ => n + 100) [0, 0, 0] (some [false, true, false]) [1, 2, 3] =
    [(true, 101), (false, 0), (true, 103)] := by decide

end Kp
