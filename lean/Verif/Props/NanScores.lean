import Verif.Lemmas.NanScores
import Verif.Lemmas.MergeMaps
import Verif.Lemmas.Chunking
import Mathlib.Data.Fin.VecNotation
import Mathlib.Data.Fintype.Basic
import Mathlib.Tactic.FinCases

/-
C112: patterns without contrast in dictionary indexing and merging of maps.

`argtopk` and `argsort` are any sorting functions with ties in any order (`IsArgtopkNan` and
`IsArgsortNan`, met by `argtopkNan` and `stableArgsortNan`).
-/

set_option linter.unusedSectionVars false

namespace Kp

open Spec

/-! ### Which scores are missing -/

section
variable {ι : Type*} [Fintype ι]

/-- All pixels that are not masked are equal. -/
def Spec.NoContrast (mask : ι → Bool) (p : ι → ℝ) : Prop :=
  ∀ i j, mask i = false → mask j = false → p i = p j

/-- All pixels that are not masked are zero. -/
def Spec.Blank (mask : ι → Bool) (p : ι → ℝ) : Prop := ∀ i, mask i = false → p i = 0

/-- Normalized cross-correlation gives no score exactly for a pair with a pattern without contrast. -/
theorem C112_ncc_missing (mask : ι → Bool) (a b : ι → ℝ) :
    (nccNan mask a b = none ↔ NoContrast mask a ∨ NoContrast mask b) ∧
      (¬ NoContrast mask a → ¬ NoContrast mask b → nccNan mask a b = some (ncc mask a b)) := by
  have h (p : ι → ℝ) : centeredNorm (maskPattern mask p) = 0 ↔ NoContrast mask p := by
    rw [sqrt_dev_eq_zero]
    constructor
    · intro h i j hi hj
      exact h ⟨i, hi⟩ ⟨j, hj⟩
    · intro h i j
      exact h i j i.2 j.2
  unfold nccNan scoreOrNan
  constructor
  · rw [← h a, ← h b]
    split_ifs with hc <;> simp [hc]
  · rw [← h a, ← h b]
    intro ha hb
    rw [if_neg (by simp [ha, hb])]

/-- The normalized dot product gives no score exactly for a pair with a blank pattern. -/
theorem C112_ndp_missing (mask : ι → Bool) (a b : ι → ℝ) :
    (ndpNan mask a b = none ↔ Blank mask a ∨ Blank mask b) ∧
      (¬ Blank mask a → ¬ Blank mask b → ndpNan mask a b = some (ndp mask a b)) := by
  have h (p : ι → ℝ) : plainNorm (maskPattern mask p) = 0 ↔ Blank mask p := by
    rw [sqrt_sq_eq_zero]
    constructor
    · intro h i hi
      exact h ⟨i, hi⟩
    · intro h i
      exact h i i.2
  unfold ndpNan scoreOrNan
  constructor
  · rw [← h a, ← h b]
    split_ifs with hc <;> simp [hc]
  · rw [← h a, ← h b]
    intro ha hb
    rw [if_neg (by simp [ha, hb])]

end

/-! ### Dictionary patterns without contrast -/

section
variable {K : Type} [Field K] [LinearOrder K] [IsStrictOrderedRing K]
variable {argtopk argsort : List (Option K) → List ℕ}

/-- With several iterations, if no chunk has more than `b` patterns without score, the first
`keep_n - b` matches are the best of the dictionary. Missing (and false, see below): one iteration,
and the other matches. -/
theorem C112_best_matches_partial (hf : IsArgtopkNan argtopk) (hg : IsArgsortNan argsort)
    (keepN nPer b : ℕ) (scores : List (Option K)) (hn : 0 < nPer) (hne : scores.length ≠ nPer)
    (hb : ∀ i, ((scores.drop (i * nPer)).take nPer).count none ≤ b)
    (hnum : min keepN scores.length - b ≤ scores.countP Option.isSome)
    (hlow : ∀ s, some s ∈ scores → -1 < s) :
    IsBest AtLeast (min keepN scores.length - b) scores
      ((dictionaryIndexingNan argtopk argsort 1 keepN nPer scores).take
        (min keepN scores.length - b)) := by
  unfold dictionaryIndexingNan
  simp only
  rw [if_neg hne]
  have h := covers_foldl hf hg (min keepN scores.length) nPer b scores
    (List.replicate (min keepN scores.length) (some ((-1 : ℤ) : K), 0)) (by simp)
    (by simp [List.pairwise_replicate, AtLeast]) (nIterations scores.length nPer) (by
      intro i _
      refine le_trans (le_of_eq ?_) (hb i)
      unfold dictChunkNan List.count
      exact List.countP_congr (by intro x _; cases x <;> simp))
  simp only at h
  rw [List.take_of_length_le (nIterations_cover _ _ hn)] at h
  exact best_of_covers h.1 h.2.1 hnum (by simpa using hlow)

/-- If the whole dictionary has contrast, the best matches are returned whatever the iterations. -/
theorem C112_all_with_contrast_partial (hf : IsArgtopkNan argtopk) (hg : IsArgsortNan argsort)
    (keepN nPer : ℕ) (scores : List (Option K)) (hn : 0 < nPer) (hall : none ∉ scores)
    (hlow : ∀ s, some s ∈ scores → -1 < s) :
    IsBest AtLeast (min keepN scores.length) scores
      (dictionaryIndexingNan argtopk argsort 1 keepN nPer scores) := by
  have hsome : scores.countP Option.isSome = scores.length := by
    rw [List.countP_eq_length]
    intro a ha
    cases a with
    | none => exact absurd ha hall
    | some a => rfl
  by_cases hne : scores.length = nPer
  · have hz : scores.countP Option.isNone = 0 := by
      rw [List.countP_eq_zero]
      intro a ha
      cases a with
      | none => exact absurd ha hall
      | some a => simp
    have h := coversTop_matchChunkNan hf (min keepN scores.length) 0 scores hz.le
    obtain ⟨hl, hs, -⟩ := matchChunkNan_split hf (min keepN scores.length) scores
    have hmem : ∀ c ∈ matchChunkNan argtopk (min keepN scores.length) scores, c.1 ≠ none := by
      intro c hc e
      obtain ⟨rest, hp, -⟩ := h
      have := hp.subset (List.mem_append_left rest hc)
      rw [List.mem_zipIdx_iff_getElem?, e] at this
      exact hall (List.mem_of_getElem? this)
    have hs' : (matchChunkNan argtopk (min keepN scores.length) scores).Pairwise
        (fun a b => AtLeast a.1 b.1) := by
      refine hs.imp_of_mem ?_
      intro a b ha hb hab
      have h1 := hmem a ha
      have h2 := hmem b hb
      revert hab h1 h2
      cases a.1 <;> cases b.1 <;> simp [NanLe, AtLeast]
    have hb := best_of_covers (n := 0) (z := -1) (by simpa using h) hs'
      (by rw [hsome]; omega) hlow
    unfold dictionaryIndexingNan
    simp only [hne, if_true]
    rw [hne] at hb hl
    rw [List.take_of_length_le (by simp [hl])] at hb
    simpa using hb
  · have h := C112_best_matches_partial hf hg keepN nPer 0 scores hn hne (by
      intro i
      rw [Nat.le_zero, List.count_eq_zero]
      intro hm
      exact hall (List.mem_of_mem_drop (List.mem_of_mem_take hm))) (by rw [hsome]; omega) hlow
    have hlen : (dictionaryIndexingNan argtopk argsort 1 keepN nPer scores).length =
        min keepN scores.length := by
      unfold dictionaryIndexingNan
      simp only
      rw [if_neg hne]
      exact (covers_foldl hf hg (min keepN scores.length) nPer scores.length scores
        (List.replicate (min keepN scores.length) (some ((-1 : ℤ) : K), 0)) (by simp)
        (by simp [List.pairwise_replicate, AtLeast]) (nIterations scores.length nPer) (by
          intro i _
          refine List.countP_le_length.trans ?_
          unfold dictChunkNan
          simp)).2.2
    rw [Nat.sub_zero, List.take_of_length_le hlen.le] at h
    exact h

/-- False with one iteration: whatever the other scores are, the patterns without score come first. -/
theorem C112_one_iteration_violated (hf : IsArgtopkNan argtopk) (keepN : ℕ)
    (scores : List (Option K)) (hk : 0 < keepN) (hnan : none ∈ scores) :
    ∃ i l, dictionaryIndexingNan argtopk argsort 1 keepN scores.length scores = (none, i) :: l ∧
      scores[i]? = some none := by
  unfold dictionaryIndexingNan
  simp only [if_true]
  obtain ⟨hl, hs, rest, hp, hr⟩ := matchChunkNan_split hf (min keepN scores.length) scores
  have hpos : 0 < scores.length := List.length_pos_of_mem hnan
  cases hm : matchChunkNan argtopk (min keepN scores.length) scores with
  | nil => rw [hm] at hl; simp at hl; omega
  | cons c l =>
    obtain ⟨s, i⟩ := c
    rw [hm] at hp hr hs
    have hmem : (s, i) ∈ scores.zipIdx := hp.subset (by simp)
    rw [List.mem_zipIdx_iff_getElem?] at hmem
    have hnone : s = none := by
      obtain ⟨k, hk⟩ := List.mem_iff_getElem?.1 hnan
      have h1 : ((none : Option K), k) ∈ scores.zipIdx := by
        rw [List.mem_zipIdx_iff_getElem?]; exact hk
      have h2 := hp.symm.subset h1
      rw [List.mem_append, List.mem_cons] at h2
      have h3 : NanLe none s := by
        rcases h2 with (h2 | h2) | h2
        · have : s = none := by simpa using (congrArg Prod.fst h2).symm
          rw [this]; trivial
        · exact (List.pairwise_cons.1 hs).1 _ h2
        · exact hr (s, i) (by simp) _ h2
      cases s with
      | none => rfl
      | some x => exact h3.elim
    subst hnone
    exact ⟨i, l, rfl, hmem⟩

/-- So the best match of every experimental pattern is the same kind of dictionary pattern: one
without contrast. -/
theorem C112_dictionary_violated {ι : Type*} [Fintype ι]
    {argtopk argsort : List (Option ℝ) → List ℕ} (hf : IsArgtopkNan argtopk) (mask : ι → Bool)
    (dictionary : List (ι → ℝ)) (flat : ι → ℝ) (hflat : flat ∈ dictionary)
    (hc : NoContrast mask flat) (p : ι → ℝ) (hp : ¬ NoContrast mask p) (keepN : ℕ)
    (hk : 0 < keepN) :
    ∃ i l d, dictionaryIndexingNan argtopk argsort 1 keepN dictionary.length
        (dictionary.map (nccNan mask p)) = (none, i) :: l ∧ dictionary[i]? = some d ∧
      NoContrast mask d := by
  obtain ⟨i, l, h1, h2⟩ := C112_one_iteration_violated (argsort := argsort) hf keepN
    (dictionary.map (nccNan mask p)) hk
    (List.mem_map.2 ⟨flat, hflat, (C112_ncc_missing mask p flat).1.2 (.inr hc)⟩)
  rw [List.length_map] at h1
  rw [List.getElem?_map, Option.map_eq_some_iff] at h2
  obtain ⟨d, hd, hn⟩ := h2
  exact ⟨i, l, d, h1, hd, ((C112_ncc_missing mask p d).1.1 hn).resolve_left hp⟩

/-- False with several iterations: with `keep_n = 1`, no pattern of a chunk with a pattern without
score is returned, here not the best one. With one iteration, the pattern without score is. -/
theorem C112_iterations_violated :
    dictionaryIndexingNan (K := ℚ) argtopkNan stableArgsortNan 1 1 2
        [some (9/10), none, some (1/10), some (1/5)] = [(some (1/5), 3)] ∧
      dictionaryIndexingNan (K := ℚ) argtopkNan stableArgsortNan 1 1 4
        [some (9/10), none, some (1/10), some (1/5)] = [(none, 1)] := by
  constructor <;> decide +kernel

/-! ### Experimental patterns without contrast -/

/-- An experimental pattern without contrast has no score with any dictionary pattern. With one
iteration, so the result says. With several, it gets the score -1 of the first dictionary pattern,
and so as many times as there are matches to keep. -/
theorem C112_experimental_violated (hf : IsArgtopkNan argtopk) (hg : IsArgsortNan argsort)
    (keepN nPer n : ℕ) :
    let scores := List.replicate n (none : Option K)
    (∀ c ∈ dictionaryIndexingNan argtopk argsort 1 keepN n scores, c.1 = none) ∧
      (n ≠ nPer → dictionaryIndexingNan argtopk argsort 1 keepN nPer scores =
        List.replicate (min keepN n) (some (-1), 0)) := by
  intro scores
  constructor
  · intro c hc
    unfold dictionaryIndexingNan at hc
    simp only [scores, List.length_replicate, if_true] at hc
    obtain ⟨-, -, rest, hp, -⟩ := matchChunkNan_split hf (min keepN n) scores
    have := hp.subset (List.mem_append_left rest hc)
    rw [List.mem_zipIdx_iff_getElem?] at this
    exact (List.mem_replicate.1 (List.mem_of_getElem? this)).2
  · intro hne
    unfold dictionaryIndexingNan
    simp only [scores, List.length_replicate]
    rw [if_neg hne]
    -- only placeholders are at least as good as placeholders
    have key : ∀ k, (List.range k).foldl
        (fun st i => mergeChunkNan argtopk argsort 1 (min keepN n) nPer st (i * nPer)
          (dictChunkNan nPer (List.replicate n none) i))
        (List.replicate (min keepN n) (some ((-1 : ℤ) : K), 0)) =
          List.replicate (min keepN n) (some (-1), 0) := by
      intro k
      induction k with
      | zero => simp
      | succ k ih =>
        rw [List.range_succ, List.foldl_append, ih]
        simp only [List.foldl_cons, List.foldl_nil]
        set m := (matchChunkNan argtopk (min (min keepN n) nPer)
          (dictChunkNan nPer (List.replicate n (none : Option K)) k)).map
            (fun c => (c.1, c.2 + k * nPer)) with hm
        have hmn : ∀ c ∈ m, c.1 = none := by
          intro c hc
          rw [hm, List.mem_map] at hc
          obtain ⟨c', hc', rfl⟩ := hc
          obtain ⟨-, -, rest, hp, -⟩ := matchChunkNan_split hf (min (min keepN n) nPer)
            (dictChunkNan nPer (List.replicate n (none : Option K)) k)
          have := hp.subset (List.mem_append_left rest hc')
          rw [List.mem_zipIdx_iff_getElem?] at this
          exact (List.mem_replicate.1
            (List.mem_of_mem_drop (List.mem_of_mem_take (List.mem_of_getElem? this)))).2
        have ht := topNan_of_argsort hg (min keepN n)
          (List.replicate (min keepN n) ((some (-1 : K)), 0) ++ m)
        have hl := ht.length
        rw [List.eq_replicate_iff]
        constructor
        · rw [List.length_append, List.length_replicate] at hl
          refine Eq.trans hl (by omega)
        · intro c hc
          have hge : AtLeast c.1 (some (-1 : K)) := by
            have h1 := ht.count_ge (le_refl (min keepN n)) (some (-1)) (by
              rw [List.countP_append, countP_length (l := List.replicate _ _)]
              · simp
              · intro c hc
                rw [(List.mem_replicate.1 hc).2]
                simp [AtLeast])
            have h2 := take_atLeast ht.sorted (some (-1)) h1
            refine h2 c ?_
            rw [List.take_of_length_le]
            · exact hc
            · rw [hl]; exact min_le_left _ _
          obtain ⟨rest, hp, -⟩ := ht.split
          have hmem := hp.subset (List.mem_append_left rest hc)
          rw [List.mem_append] at hmem
          rcases hmem with hmem | hmem
          · exact (List.mem_replicate.1 hmem).2
          · rw [hmn c hmem] at hge
            exact hge.elim
    exact key _

/-! ### Merging -/

theorem nanargmax_isSome {l : List (Option K)} {x : K} (h : some x ∈ l) :
    ∃ k, nanargmax l = some k := by
  have hs := nanargmaxAux_spec l [] none (by intro j hj; simp at hj)
  simp only [List.nil_append, List.length_nil] at hs
  unfold nanargmax
  cases hb : nanargmaxAux l 0 none with
  | some kx => exact ⟨kx.1, rfl⟩
  | none =>
    rw [hb] at hs
    obtain ⟨j, hj, e⟩ := List.mem_iff_getElem.1 h
    have := hs j hj
    rw [List.getD_eq_getElem?_getD, List.getElem?_eq_getElem hj, e] at this
    cases this

/-- Merging maps with one score per point: if every point has a score in some map, every point gets
the phase with the best of its scores. Missing (and false, see below): points without any score. -/
theorem C112_merge_partial (greater : Bool) (maps : List (List (Option K))) (nPoints : ℕ)
    (h : ∀ m < nPoints, ∃ l ∈ maps, l.getD m none ≠ none) :
    ∃ phases, mergePhases (if greater then 1 else -1) maps nPoints = .ok phases ∧
      phases.length = nPoints ∧
      ∀ m < nPoints, ∃ k l s, phases[m]? = some k ∧ maps[k]? = some l ∧ l.getD m none = some s ∧
        ∀ l' ∈ maps, ∀ s', l'.getD m none = some s' → AsGood greater s s' := by
  have hpoint : ∀ m < nPoints, ∃ k l s, phaseOfPoint (if greater then 1 else -1)
      (maps.map (fun l => l.getD m none)) = .ok k ∧ maps[k]? = some l ∧ l.getD m none = some s ∧
        ∀ l' ∈ maps, ∀ s', l'.getD m none = some s' → AsGood greater s s' := by
    intro m hm
    obtain ⟨l, hl, hne⟩ := h m hm
    obtain ⟨x, hx⟩ := Option.ne_none_iff_exists'.1 hne
    set sign : K := if greater then 1 else -1 with hsign
    set row := (maps.map (fun l => l.getD m none)).map (fun s => s.map (sign * ·)) with hrow
    obtain ⟨k, hk⟩ := nanargmax_isSome (l := row) (x := sign * x) (by
      simp only [hrow, List.mem_map]
      exact ⟨some x, ⟨l, hl, hx⟩, rfl⟩)
    obtain ⟨hlt, y, hy, hbest⟩ := nanargmax_some hk
    have hkm : k < maps.length := by simpa [hrow] using hlt
    have hget : ∀ j (hj : j < maps.length),
        row.getD j none = ((maps[j]).getD m none).map (sign * ·) := by
      intro j hj
      simp [hrow, List.getD_eq_getElem?_getD, hj]
    rw [hget k hkm] at hy
    obtain ⟨s, hs, hsy⟩ := Option.map_eq_some_iff.1 hy
    refine ⟨k, maps[k], s, by unfold phaseOfPoint; rw [← hrow, hk], by simp [hkm], hs, ?_⟩
    intro l' hl' s' hs'
    obtain ⟨j, hj, rfl⟩ := List.mem_iff_getElem.1 hl'
    have hle := (hbest j (by simpa [hrow] using hj) (sign * s') (by rw [hget j hj, hs']; rfl)).1
    rw [← hsy] at hle
    unfold AsGood
    cases greater with
    | true => simpa [hsign] using hle
    | false => simpa [hsign] using hle
  obtain ⟨phases, hph⟩ := mapM_exists_ok (f := fun m =>
      phaseOfPoint (if greater then (1 : K) else -1) (maps.map (fun l => l.getD m none)))
    (l := List.range nPoints) (by
      intro m hm
      obtain ⟨k, _, _, hk, -⟩ := hpoint m (List.mem_range.1 hm)
      exact ⟨k, hk⟩)
  obtain ⟨hlen, hget⟩ := mapM_ok_get hph
  refine ⟨phases, hph, by simpa using hlen, ?_⟩
  intro m hm
  obtain ⟨b, hb1, hb2⟩ := hget m m (by simp [hm])
  obtain ⟨k, l, s, hk, h1, h2, h3⟩ := hpoint m hm
  have hkb : k = b := Except.ok.inj (hk.symm.trans hb2)
  exact ⟨b, l, s, hb1, hkb ▸ h1, h2, h3⟩

/-- False otherwise: there is no merged map if one point has no score in any map. -/
theorem C112_merge_violated (sign : K) (maps : List (List (Option K))) (nPoints m : ℕ)
    (hm : m < nPoints) (h : ∀ l ∈ maps, l.getD m none = none) :
    ¬ ∃ phases, mergePhases sign maps nPoints = .ok phases := by
  rintro ⟨phases, hph⟩
  obtain ⟨b, -, hb⟩ := (mapM_ok_get hph).2 m m (by simp [hm])
  unfold phaseOfPoint at hb
  rw [nanargmax_none] at hb
  · cases hb
  · intro x hx
    simp only [List.mem_map] at hx
    obtain ⟨y, ⟨l, hl, rfl⟩, rfl⟩ := hx
    rw [h l hl]
    rfl

end

/-- So after indexing with dictionaries of any phases, each in one iteration, one experimental
pattern without contrast keeps all maps from being merged. -/
theorem C112_index_and_merge_violated {ι : Type} [Fintype ι]
    {argtopk argsort : List (Option ℝ) → List ℕ} (hf : IsArgtopkNan argtopk)
    (hg : IsArgsortNan argsort) (mask : ι → Bool) (dictionaries : List (List (ι → ℝ)))
    (patterns : List (ι → ℝ)) (flat : ι → ℝ) (hflat : flat ∈ patterns)
    (hc : NoContrast mask flat) (sign : ℝ) :
    ¬ ∃ phases, mergePhases sign (dictionaries.map fun d =>
      bestScoresNan argtopk argsort d.length (nccNan mask) d patterns) patterns.length =
        .ok phases := by
  obtain ⟨m, hm, e⟩ := List.mem_iff_getElem.1 hflat
  refine C112_merge_violated sign _ _ m hm ?_
  intro l hl
  obtain ⟨d, -, rfl⟩ := List.mem_map.1 hl
  unfold bestScoresNan
  have hs : d.map (nccNan mask flat) = List.replicate d.length none := by
    rw [List.eq_replicate_iff]
    refine ⟨by simp, ?_⟩
    intro x hx
    obtain ⟨q, -, rfl⟩ := List.mem_map.1 hx
    exact (C112_ncc_missing mask flat q).1.2 (.inl hc)
  have h1 := (C112_experimental_violated hf hg 1 1 d.length).1
  rw [List.getD_eq_getElem?_getD, List.getElem?_map, List.getElem?_eq_getElem hm, e]
  simp only [Option.map_some, Option.getD_some]
  rw [hs]
  cases hr : dictionaryIndexingNan argtopk argsort 1 1 d.length
      (List.replicate d.length (none : Option ℝ)) with
  | nil => rfl
  | cons c l =>
    have := h1 c (by rw [hr]; simp)
    simpa using this

/-! ### Concrete cases -/

section
open Classical in
example : NoContrast (fun _ : Fin 3 => false) ![2, 2, 2] ∧
    ¬ NoContrast (fun _ : Fin 3 => false) ![2, 2, 5] ∧
    NoContrast (fun i : Fin 3 => decide (i = 2)) ![2, 2, 5] := by
  refine ⟨?_, ?_, ?_⟩
  · intro i j _ _
    fin_cases i <;> fin_cases j <;> simp
  · intro h
    have := h 0 2 rfl rfl
    have e : (![2, 2, 5] : Fin 3 → ℝ) 2 = 5 := rfl
    rw [e] at this
    norm_num at this
  · intro i j hi hj
    fin_cases i <;> fin_cases j <;> simp at hi hj ⊢

example : ¬ Blank (fun _ : Fin 2 => false) ![2, 2] ∧ Blank (fun _ : Fin 2 => false) ![0, 0] := by
  constructor
  · intro h
    have := h 0 rfl
    norm_num at this
  · intro i _
    fin_cases i <;> simp

-- two patterns without score in a dictionary of six, at most one in each chunk of three: the first
-- of two matches is the best
example : IsBest AtLeast 1 [some (1/4), none, some (3/4), some (1/2), some (1/3), (none : Option ℚ)]
    ((dictionaryIndexingNan argtopkNan stableArgsortNan 1 2 3
      [some (1/4), none, some (3/4), some (1/2), some (1/3), none]).take 1) := by
  refine C112_best_matches_partial isArgtopkNan_argtopkNan isArgsortNan_stable 2 3 1
    [some (1/4), none, some (3/4), some (1/2), some (1/3), (none : Option ℚ)] (by norm_num)
    (by simp) ?_ (by decide) ?_
  · intro i
    match i with
    | 0 => decide
    | 1 => decide
    | i + 2 =>
      rw [List.drop_eq_nil_of_le (by simp; omega)]
      simp
  · intro s hs
    simp only [List.mem_cons, Option.some.injEq, List.not_mem_nil, or_false, reduceCtorEq,
      false_or] at hs
    rcases hs with rfl | rfl | rfl | rfl <;> norm_num

example : dictionaryIndexingNan (K := ℚ) argtopkNan stableArgsortNan 1 2 3
    [some (1/4), none, some (3/4), some (1/2), some (1/3), none] =
      [(some (3/4), 2), (some (1/2), 3)] := by decide +kernel

example : (mergePhases (K := ℚ) 1 [[some (1/4), none], [some (1/2), some (1/3)]] 2).toOption =
    some [1, 1] := by decide +kernel

example : (mergePhases (K := ℚ) 1 [[some (1/4), none], [some (1/2), none]] 2).toOption = none := by
  decide +kernel
end

end Kp
