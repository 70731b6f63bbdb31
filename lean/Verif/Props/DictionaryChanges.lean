import Verif.Spec.DictionaryChanges
import Verif.Props.DictionaryIndexing
import Verif.Props.Normalize

/-
C140: what dictionary indexing returns when fewer matches are kept or the dictionary is reordered, extended
or split.
-/

set_option linter.unusedSectionVars false

namespace Kp
open Spec

section
variable {K D : Type*} [Field K] [LinearOrder K] [IsStrictOrderedRing K]

theorem notBelow_map {score : D → K} {dict : List D} (h : NotBelowMinusOne score dict) :
    ∀ s ∈ dict.map score, -1 ≤ s := by
  intro s hs
  obtain ⟨d, hd, rfl⟩ := List.mem_map.1 hs
  exact h d hd

variable {argtopk argsort argtopk' argsort' : List K → List ℕ}

/-- C140, part: asking for fewer matches gives the first of the scores of a call asking for more, whatever
`n_per_iteration` is in either call and however equal scores are ordered.  Missing (and false): scores below
-1, which only metrics written by users have (`C21_scores_below_minus_one_are_lost`). -/
theorem C140_keep_n_partial (hf : IsArgsort argtopk) (hg : IsArgsort argsort) (hf' : IsArgsort argtopk')
    (hg' : IsArgsort argsort') {n m nPer nPer' : ℕ} (hnm : n ≤ m) (hn : 0 < nPer) (hn' : 0 < nPer')
    (score : D → K) (dict : List D) (hlow : NotBelowMinusOne score dict) :
    bestScores (dictionaryIndexing argtopk argsort 1 n nPer (dict.map score)) =
      (bestScores (dictionaryIndexing argtopk' argsort' 1 m nPer' (dict.map score))).take n := by
  unfold bestScores
  rw [scores_sorted hf hg n nPer _ hn (notBelow_map hlow), scores_sorted hf' hg' m nPer' _ hn' (notBelow_map hlow),
    List.take_take, min_eq_left hnm]

/-- C140, part: the returned scores do not depend on the order of the dictionary. -/
theorem C140_order_partial (hf : IsArgsort argtopk) (hg : IsArgsort argsort) (hf' : IsArgsort argtopk')
    (hg' : IsArgsort argsort') {n nPer nPer' : ℕ} (hn : 0 < nPer) (hn' : 0 < nPer')
    (score : D → K) {dict dict' : List D} (hp : dict'.Perm dict) (hlow : NotBelowMinusOne score dict) :
    bestScores (dictionaryIndexing argtopk' argsort' 1 n nPer' (dict'.map score)) =
      bestScores (dictionaryIndexing argtopk argsort 1 n nPer (dict.map score)) := by
  unfold bestScores
  have hlow' : NotBelowMinusOne score dict' := fun d hd => hlow d (hp.subset hd)
  rw [scores_sorted hf hg n nPer _ hn (notBelow_map hlow), scores_sorted hf' hg' n nPer' _ hn' (notBelow_map hlow'),
    sort_perm (hp.map score)]

theorem count_sorted {l : List K} (h : l.Pairwise (· ≥ ·)) {j : ℕ} {x : K} (hj : l[j]? = some x) :
    j < l.countP (fun y => x ≤ y) := by
  obtain ⟨hlt, hx⟩ := List.getElem?_eq_some_iff.1 hj
  have h1 : (l.take (j + 1)).countP (fun y => x ≤ y) = (l.take (j + 1)).length := by
    rw [List.countP_eq_length]
    intro y hy
    obtain ⟨i, hi, rfl⟩ := List.mem_iff_getElem.1 hy
    rw [List.length_take] at hi
    rw [List.getElem_take]
    simp only [decide_eq_true_eq]
    rcases Nat.lt_or_ge i j with hij | hij
    · rw [← hx]
      exact List.pairwise_iff_getElem.1 h i j (by omega) hlt hij
    · have : i = j := by omega
      subst this
      exact hx.ge
  have h2 := List.Sublist.countP_le (p := fun y => decide (x ≤ y)) (List.take_sublist (j + 1) l)
  rw [h1, List.length_take] at h2
  omega

theorem sorted_ge_of_count {l : List K} (h : l.Pairwise (· ≥ ·)) {j : ℕ} {x : K}
    (hc : j < l.countP (fun y => x ≤ y)) : ∃ y, l[j]? = some y ∧ x ≤ y := by
  have hlt : j < l.length := hc.trans_le List.countP_le_length
  refine ⟨l[j], List.getElem?_eq_getElem hlt, ?_⟩
  by_contra hxy
  rw [not_le] at hxy
  have h0 : (l.drop j).countP (fun y => x ≤ y) = 0 := by
    rw [List.countP_eq_zero]
    intro y hy
    obtain ⟨i, hi, rfl⟩ := List.mem_iff_getElem.1 hy
    rw [List.getElem_drop]
    simp only [decide_eq_true_eq, not_le]
    rw [List.length_drop] at hi
    rcases Nat.eq_zero_or_pos i with rfl | h1
    · exact hxy
    · exact lt_of_le_of_lt (List.pairwise_iff_getElem.1 h j (j + i) hlt (by omega) (by omega)) hxy
  have h1 : l.countP (fun y => x ≤ y) = (l.take j).countP (fun y => x ≤ y) := by
    conv_lhs => rw [← List.take_append_drop j l]
    rw [List.countP_append, h0, Nat.add_zero]
  have h2 : (l.take j).countP (fun y => x ≤ y) ≤ (l.take j).length := List.countP_le_length
  rw [List.length_take] at h2
  omega

/-- C140, part: adding patterns to the dictionary (anywhere in it) lowers no score: the `j`-th best score
afterwards is at least the `j`-th best score before. -/
theorem C140_extended_partial (hf : IsArgsort argtopk) (hg : IsArgsort argsort) (hf' : IsArgsort argtopk')
    (hg' : IsArgsort argsort') {n nPer nPer' : ℕ} (hn : 0 < nPer) (hn' : 0 < nPer')
    (score : D → K) {dict dict' : List D} (hsub : dict.Subperm dict') (hlow : NotBelowMinusOne score dict') {j : ℕ}
    {x : K} (hx : (bestScores (dictionaryIndexing argtopk argsort 1 n nPer (dict.map score)))[j]? = some x) :
    ∃ y, (bestScores (dictionaryIndexing argtopk' argsort' 1 n nPer' (dict'.map score)))[j]? = some y ∧
      x ≤ y := by
  have hlow0 : NotBelowMinusOne score dict := fun d hd => hlow d (hsub.subset hd)
  unfold bestScores at hx ⊢
  rw [scores_sorted hf hg n nPer _ hn (notBelow_map hlow0), List.getElem?_take] at hx
  rw [scores_sorted hf' hg' n nPer' _ hn' (notBelow_map hlow), List.getElem?_take]
  split at hx
  · rename_i hjn
    rw [if_pos hjn]
    refine sorted_ge_of_count (List.pairwise_insertionSort _ _) ?_
    refine (count_sorted (List.pairwise_insertionSort _ _) hx).trans_le ?_
    rw [(List.perm_insertionSort _ _).countP_eq, (List.perm_insertionSort _ _).countP_eq]
    obtain ⟨l, hl, hs⟩ := hsub
    rw [← (hl.map score).countP_eq]
    exact (hs.map score).countP_le
  · cases hx

theorem take_sort_append (a b : List K) (n : ℕ) :
    (((a.insertionSort (· ≥ ·)).take n ++ (b.insertionSort (· ≥ ·)).take n).insertionSort (· ≥ ·)).take n =
      ((a ++ b).insertionSort (· ≥ ·)).take n := by
  have top : ∀ l : List K, Top n (l.map fun x => (x, 0))
      (((l.insertionSort (· ≥ ·)).take n).map fun x => (x, 0)) := by
    intro l
    have hs : (l.insertionSort (· ≥ ·)).Pairwise (· ≥ ·) := List.pairwise_insertionSort _ _
    refine ⟨by simp [List.length_insertionSort], ?_, ((l.insertionSort (· ≥ ·)).drop n).map fun x => (x, 0), ?_, ?_⟩
    · rw [List.map_map]
      simpa [Function.comp_def] using hs.sublist (List.take_sublist _ _)
    · rw [← List.map_append, List.take_append_drop]
      exact (List.perm_insertionSort _ _).map _
    · intro r hr o ho
      obtain ⟨x, hx, rfl⟩ := List.mem_map.1 hr
      obtain ⟨y, hy, rfl⟩ := List.mem_map.1 ho
      rw [← List.take_append_drop n (l.insertionSort (· ≥ ·)), List.pairwise_append] at hs
      exact hs.2.2 x hx y hy
  have t := top ((a.insertionSort (· ≥ ·)).take n ++ (b.insertionSort (· ≥ ·)).take n)
  rw [List.map_append] at t
  have h := top_scores_any ((top a).merge (top b).sel t)
  simpa [List.map_map, Function.comp_def] using h

/-- C140, part: a dictionary may be split: the scores with the whole dictionary are the best of the scores
found with the parts. -/
theorem C140_split_partial (hf : IsArgsort argtopk) (hg : IsArgsort argsort) {n nPer nPer1 nPer2 : ℕ}
    (hn : 0 < nPer) (hn1 : 0 < nPer1) (hn2 : 0 < nPer2)
    (score : D → K) (dict1 dict2 : List D) (hlow : NotBelowMinusOne score (dict1 ++ dict2)) :
    bestScores (dictionaryIndexing argtopk argsort 1 n nPer ((dict1 ++ dict2).map score)) =
      ((bestScores (dictionaryIndexing argtopk argsort 1 n nPer1 (dict1.map score)) ++
        bestScores (dictionaryIndexing argtopk argsort 1 n nPer2 (dict2.map score))).insertionSort
          (· ≥ ·)).take n := by
  have h1 : NotBelowMinusOne score dict1 := fun d hd => hlow d (by simp [hd])
  have h2 : NotBelowMinusOne score dict2 := fun d hd => hlow d (by simp [hd])
  unfold bestScores
  rw [scores_sorted hf hg n nPer _ hn (notBelow_map hlow), scores_sorted hf hg n nPer1 _ hn1 (notBelow_map h1),
    scores_sorted hf hg n nPer2 _ hn2 (notBelow_map h2), take_sort_append, List.map_append]

/-- A result is determined by its scores if no two patterns in the dictionary have the same score. -/
theorem matched_of_scores {score : D → K} {dict dict' : List D} (hp : dict'.Perm dict)
    (hd : (dict.map score).Nodup) : ∀ {r r' : List (Cand K)}, (∀ c ∈ r, (dict.map score)[c.2]? = some c.1) →
    (∀ c ∈ r', (dict'.map score)[c.2]? = some c.1) → r'.map Prod.fst = r.map Prod.fst →
    matchedPatterns dict' r' = matchedPatterns dict r := by
  have inj : ∀ a ∈ dict, ∀ b ∈ dict, score a = score b → a = b := fun a ha b hb h =>
    List.inj_on_of_nodup_map hd ha hb h
  intro r
  induction r with
  | nil =>
    intro r' _ _ h
    cases r' with
    | nil => rfl
    | cons _ _ => simp at h
  | cons c r ih =>
    intro r' h1 h2 h
    cases r' with
    | nil => simp at h
    | cons c' r' =>
      simp only [List.map_cons, List.cons.injEq] at h
      have e := ih (r' := r') (fun x hx => h1 x (by simp [hx])) (fun x hx => h2 x (by simp [hx])) h.2
      have a1 := h1 c (by simp)
      have a2 := h2 c' (by simp)
      rw [List.getElem?_map, Option.map_eq_some_iff] at a1 a2
      obtain ⟨d, hd1, hd2⟩ := a1
      obtain ⟨d', hd1', hd2'⟩ := a2
      have : d' = d := inj _ (hp.subset (List.mem_of_getElem? hd1')) _ (List.mem_of_getElem? hd1)
        (by rw [hd2, hd2', h.1])
      unfold matchedPatterns at e ⊢
      rw [List.map_cons, List.map_cons, e, hd1, hd1', this]

/-- C140, part: if no two patterns of the dictionary have the same score, the patterns (so the orientations)
found do not depend on the order of the dictionary, and fewer matches are the first of more matches.
Missing (and false, see `C140_order_violated`): a pattern with score -1. -/
theorem C140_matches_partial (hf : IsArgsort argtopk) (hg : IsArgsort argsort) (hf' : IsArgsort argtopk')
    (hg' : IsArgsort argsort') {n m nPer nPer' : ℕ} (hnm : n ≤ m) (hn : 0 < nPer) (hn' : 0 < nPer')
    (score : D → K) {dict dict' : List D} (hp : dict'.Perm dict) (hd : (dict.map score).Nodup)
    (hlow : ∀ d ∈ dict, -1 < score d) :
    matchedPatterns dict' (dictionaryIndexing argtopk' argsort' 1 n nPer' (dict'.map score)) =
      (matchedPatterns dict (dictionaryIndexing argtopk argsort 1 m nPer (dict.map score))).take n := by
  have l1 : ∀ s ∈ dict.map score, -1 < s := by
    intro s hs
    obtain ⟨d, hd, rfl⟩ := List.mem_map.1 hs
    exact hlow d hd
  have l2 : ∀ s ∈ dict'.map score, -1 < s := fun s hs => l1 s ((hp.map score).subset hs)
  have b1 := C21_global_best_partial hf hg m nPer (dict.map score) hn (.inr l1)
  have b2 := C21_global_best_partial hf' hg' n nPer' (dict'.map score) hn' (.inr l2)
  have hs : (dictionaryIndexing argtopk' argsort' 1 n nPer' (dict'.map score)).map Prod.fst =
      ((dictionaryIndexing argtopk argsort 1 m nPer (dict.map score)).take n).map Prod.fst := by
    rw [List.map_take, scores_sorted hf hg m nPer _ hn fun s h => (l1 s h).le,
      scores_sorted hf' hg' n nPer' _ hn' fun s h => (l2 s h).le, List.take_take, min_eq_left hnm,
      sort_perm (hp.map score)]
  have := matched_of_scores hp hd (fun c hc => b1.own_score c (List.mem_of_mem_take hc)) b2.own_score hs
  rw [this]
  unfold matchedPatterns
  rw [List.map_take]

end

/-- C140 is false for a pattern with score -1 (the negative of the experimental pattern): which patterns are
returned depends on the order of the dictionary, although no two have the same score. -/
theorem C140_order_violated :
    matchedPatterns ["good", "negative"] (dictionaryIndexing (K := ℚ) stableArgsort stableArgsort 1 2 1
      (["good", "negative"].map fun d => if d = "good" then 1 else -1)) = [some "good", some "good"] ∧
    matchedPatterns ["negative", "good"] (dictionaryIndexing (K := ℚ) stableArgsort stableArgsort 1 2 1
      (["negative", "good"].map fun d => if d = "good" then 1 else -1)) = [some "good", some "negative"] := by
  decide +kernel

/-! ### The hypotheses are met -/

/-- The scores of the normalized cross-correlation and the normalized dot product are not below -1. -/
example {ι : Type*} [Fintype ι] (mask : ι → Bool) (exp : ι → ℝ) (dict : List (ι → ℝ))
    (he : NonConst (maskPattern mask exp)) (hd : ∀ d ∈ dict, NonConst (maskPattern mask d)) :
    NotBelowMinusOne (ncc mask exp) dict := fun d h => (C24_ncc_bounds mask exp d he (hd d h)).1

example {ι : Type*} [Fintype ι] (mask : ι → Bool) (exp : ι → ℝ) (dict : List (ι → ℝ))
    (he : ∃ i, mask i = false ∧ exp i ≠ 0) (hd : ∀ d ∈ dict, ∃ i, mask i = false ∧ d i ≠ 0) :
    NotBelowMinusOne (ndp mask exp) dict := fun d h => (C24_ndp_bounds mask exp d he (hd d h)).1.1

/-- A dictionary with four patterns, reordered, and a part of it. -/
example : IsArgsort (K := ℚ) stableArgsort ∧ [3, 1, 2, 0].Perm [0, 1, 2, 3] ∧ [1, 3].Subperm [0, 1, 2, 3] ∧
    NotBelowMinusOne (fun k : ℕ => (k : ℚ) / 4 - 1) [0, 1, 2, 3] ∧
    ([0, 1, 2, 3].map fun k : ℕ => (k : ℚ) / 4).Nodup ∧
    matchedPatterns [3, 1, 2, 0] (dictionaryIndexing (K := ℚ) stableArgsort stableArgsort 1 2 3
      ([3, 1, 2, 0].map fun k : ℕ => (k : ℚ) / 4)) = [some 3, some 2] := by
  refine ⟨isArgsort_stableArgsort, by decide, ?_, ?_, by decide +kernel, by decide +kernel⟩
  · exact List.Sublist.subperm (by decide)
  · intro d hd
    fin_cases hd <;> norm_num

end Kp
