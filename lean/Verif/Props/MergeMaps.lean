import Verif.Lemmas.MergeMaps
import Mathlib.Algebra.Order.Ring.Rat

/-
C25: merged crystal maps pick the best-scoring phase in each point.
C26: points outside all navigation masks are not indexed after merging.
-/

set_option linter.unusedSectionVars false

namespace Kp

open Spec

section
variable {K R D : Type*} [Field K] [LinearOrder K] [IsStrictOrderedRing K] [DecidableEq D]

/-- Number of map points. -/
def mergeSize (xmaps : List (XMap K R D)) (masks : Option (List (Option NavMask))) : ℕ :=
  ((mapShapes xmaps masks).headD []).prod

theorem mergeCrystalMaps_ok {xmaps : List (XMap K R D)} {mnb : ℤ} {gib : Option Bool}
    {masks : Option (List (Option NavMask))} {out : MergedMap K R D}
    (h : mergeCrystalMaps xmaps mnb gib masks = .ok out) :
    (∀ ms, masks = some ms → ms.length = xmaps.length) ∧
    (∀ p ∈ masks1d xmaps masks, p.1.size = rank (p.2.getD (fun _ => true)) (mergeSize xmaps masks)) ∧
    ∃ N, (∀ x ∈ xmaps, x.nRot = N) ∧
      mergeCore (masks1d xmaps masks) (mergeSize xmaps masks) N (mergeSign mnb gib)
        (mergeNBest mnb gib) = .ok out := by
  unfold mergeCrystalMaps at h
  simp only at h
  split at h
  · cases h
  · rename_i h1
    split at h
    · cases h
    · split at h
      · cases h
      · rename_i h3
        split at h
        · cases h
        · rename_i h4
          refine ⟨?_, ?_, _, ?_, h⟩
          · rintro ms rfl
            simpa using h1
          · intro p hp
            by_contra hne
            exact h3 (List.any_eq_true.2 ⟨p, hp, by simpa [mergeSize] using hne⟩)
          · intro x hx
            by_contra hne
            exact h4 (List.any_eq_true.2 ⟨x, hx, by simpa using hne⟩)

theorem masks1d_length {xmaps : List (XMap K R D)} {masks : Option (List (Option NavMask))}
    (h : ∀ ms, masks = some ms → ms.length = xmaps.length) :
    (masks1d xmaps masks).length = xmaps.length := by
  unfold masks1d
  cases masks with
  | none => simp
  | some ms => simp [h ms rfl]

theorem masks1d_get {xmaps : List (XMap K R D)} {masks : Option (List (Option NavMask))}
    (h : ∀ ms, masks = some ms → ms.length = xmaps.length) {k : ℕ} {x : XMap K R D}
    (hx : xmaps[k]? = some x) (m : ℕ) :
    ∃ p, (masks1d xmaps masks)[k]? = some p ∧ p.1 = x ∧
      (p.2 = none ↔ masks = none) ∧
      (∀ row, rowOf masks k m = some row ↔ Covers p m ∧ rowIn p m = row) := by
  unfold masks1d
  cases masks with
  | none =>
    refine ⟨(x, none), by simp [hx], rfl, by simp, fun row => ?_⟩
    simp [rowOf, Covers, rowIn]
  | some ms =>
    obtain ⟨hk, rfl⟩ := List.getElem?_eq_some_iff.1 hx
    have hl : k < ms.length := by rw [h ms rfl]; exact hk
    have hz : (xmaps.zip ms)[k]? = some (xmaps[k], ms[k]) := by
      rw [List.getElem?_eq_getElem (by simp; omega)]
      simp
    refine ⟨_, by rw [List.getElem?_map, hz]; rfl, rfl, ?_, fun row => ?_⟩
    · cases ms[k] <;> simp
    · unfold rowOf Covers rowIn
      have : ms.getD k none = ms[k] := by
        rw [List.getD_eq_getElem?_getD, List.getElem?_eq_getElem hl]; rfl
      simp only [this]
      cases ms[k] with
      | none => simp [rank_true]
      | some q =>
        simp only [rank, List.countP_eq_length_filter]
        by_cases hq : q.keep m = true
        · simp [hq]
        · simp [hq]

theorem mergeSign_mul {mnb : ℤ} {gib : Option Bool} (a b : K) :
    (mergeSign mnb gib * b ≤ mergeSign mnb gib * a ↔
      AsGood (gib.getD (decide (0 ≤ mnb))) a b) ∧
    (mergeSign mnb gib * b < mergeSign mnb gib * a ↔
      ¬ AsGood (gib.getD (decide (0 ≤ mnb))) b a) := by
  unfold mergeSign AsGood
  cases gib with
  | none =>
    by_cases h : 0 ≤ mnb <;> simp [h]
  | some b => cases b <;> simp

/-- What a successful merge computed, in one place. -/
theorem mergeCore_ok {maps : List (XMap K R D × Option (ℕ → Bool))} {M N : ℕ} {sign : K}
    {mnb : ℤ} {out : MergedMap K R D} (h : mergeCore maps M N sign mnb = .ok out) :
    ∃ best : ℕ → ℕ, (∀ m < M, nanargmax (maps.map (fun p =>
        (bestScore p.1 p.2 M N mnb m).map (sign * ·))) = some (best m)) ∧
      ∃ st0 : MergeState K R D,
        (∀ m < M, st0.phaseId m =
          if maps.all (fun p => notIndexed p.1 p.2 m) then -1 else (best m : ℤ)) ∧
        (st0.phases = if (List.range M).any (fun m => st0.phaseId m == -1) then
          [((-1 : ℤ), "not_indexed", none)] else []) ∧
        out.phaseId = (mergeLoop M N maps 0 st0).phaseId ∧
        out.phases = (mergeLoop M N maps 0 st0).phases ∧
        out.rots = (mergeLoop M N maps 0 st0).rots ∧
        out.scores = (mergeLoop M N maps 0 st0).scores ∧
        out.sims = (mergeLoop M N maps 0 st0).sims := by
  unfold mergeCore at h
  simp only at h
  split at h
  · cases h
  · split at h
    · cases h
    · rename_i h2
      cases h
      refine ⟨fun m => (nanargmax (maps.map (fun p =>
        (bestScore p.1 p.2 M N mnb m).map (sign * ·)))).getD 0, fun m hm => ?_, _, ?_, ?_, rfl,
        rfl, rfl, rfl, rfl⟩
      · cases hb : nanargmax (maps.map (fun p =>
          (bestScore p.1 p.2 M N mnb m).map (sign * ·))) with
        | none => exact absurd (List.any_eq_true.2 ⟨m, List.mem_range.2 hm, by simp [hb]⟩) h2
        | some k => dsimp only; rw [hb]; rfl
      · intro m _
        rfl
      · rfl

/-- C25: in every point, the merged map has the rotations, scores and simulation indices of
the map with the best score (mean of the `mean_n_best` best ones) there, the first of such
maps; where the maps to merge (without navigation masks) all say not indexed, the merged map
says so too. Partial: what `merge_crystal_maps` makes of the phases is in
`C25_phases_partial` and `C25_identical_phases`; it always raises for maps with one point and
more than one score, `C25_single_point`. -/
theorem C25_best_map_partial {xmaps : List (XMap K R D)} {mnb : ℤ} {gib : Option Bool}
    {masks : Option (List (Option NavMask))} {out : MergedMap K R D}
    (h : mergeCrystalMaps xmaps mnb gib masks = .ok out) {m : ℕ} (hm : m < mergeSize xmaps masks) :
    ∃ N, (∀ x ∈ xmaps, x.nRot = N) ∧ 0 < nAveraged N (mergeNBest mnb gib) ∧
    ∃ (k row : ℕ) (x : XMap K R D), xmaps[k]? = some x ∧ rowOf masks k m = some row ∧
      -- the best score
      (∀ (k' row' : ℕ) (x' : XMap K R D), xmaps[k']? = some x' → rowOf masks k' m = some row' →
        AsGood (gib.getD (decide (0 ≤ mnb)))
          (meanScore x row (nAveraged N (mergeNBest mnb gib)))
          (meanScore x' row' (nAveraged N (mergeNBest mnb gib))) ∧
        (k' < k → ¬ AsGood (gib.getD (decide (0 ≤ mnb)))
          (meanScore x' row' (nAveraged N (mergeNBest mnb gib)))
          (meanScore x row (nAveraged N (mergeNBest mnb gib))))) ∧
      -- the data
      ((masks = none ∧ ∀ x' ∈ xmaps, x'.phaseId m = -1) ∧ out.phaseId m = -1 ∨
        ¬ (masks = none ∧ ∀ x' ∈ xmaps, x'.phaseId m = -1) ∧
          out.rots m = x.rots row ∧ out.scores m = (List.range N).map (x.scores row) ∧
          out.sims m = (List.range N).map (x.sims row)) := by
  obtain ⟨hlen, hsize, N, hN, hcore⟩ := mergeCrystalMaps_ok h
  obtain ⟨best, hbest, st0, hpid, hph, o1, _, o3, o4, o5⟩ := mergeCore_ok hcore
  have hl := masks1d_length hlen
  obtain ⟨hk, s, hs, hall⟩ := nanargmax_some (hbest m hm)
  rw [List.length_map] at hk hall
  obtain ⟨p, hp⟩ : ∃ p, (masks1d xmaps masks)[best m]? = some p :=
    ⟨_, List.getElem?_eq_getElem hk⟩
  have hp0 : (masks1d xmaps masks)[best m] = p := by
    rw [List.getElem?_eq_getElem hk] at hp; exact Option.some.inj hp
  have hpm : p ∈ masks1d xmaps masks := List.mem_of_getElem? hp
  obtain ⟨x, hx⟩ : ∃ x, xmaps[best m]? = some x :=
    ⟨_, List.getElem?_eq_getElem (by rw [← hl]; exact hk)⟩
  obtain ⟨p', hp', hpx, hpn, hrow⟩ := masks1d_get hlen hx m
  rw [hp] at hp'
  cases hp'
  -- the score of the best map
  rw [List.getD_eq_getElem?_getD, List.getElem?_map, hp, Option.map_some, Option.getD_some] at hs
  obtain ⟨s0, hs0, rfl⟩ := Option.map_eq_some_iff.1 hs
  obtain ⟨hc, hn, rfl⟩ := (bestScore_some (hsize p hpm) hm).1 hs0
  refine ⟨N, hN, hn, best m, rowIn p m, x, hx, (hrow _).2 ⟨hc, rfl⟩, ?_, ?_⟩
  · intro k' row' x' hx' hrow'
    obtain ⟨q, hq, hqx, _, hqrow⟩ := masks1d_get hlen hx' m
    have hqm : q ∈ masks1d xmaps masks := List.mem_of_getElem? hq
    obtain ⟨hqc, rfl⟩ := (hqrow _).1 hrow'
    have hk' : k' < (masks1d xmaps masks).length := (List.getElem?_eq_some_iff.1 hq).1
    have := hall k' hk' (mergeSign mnb gib * meanScore q.1 (rowIn q m)
      (nAveraged N (mergeNBest mnb gib))) (by
      rw [List.getD_eq_getElem?_getD, List.getElem?_map, hq, Option.map_some, Option.getD_some,
        (bestScore_some (hsize q hqm) hm).2 ⟨hqc, hn, rfl⟩]
      rfl)
    rw [hqx, hpx] at this
    exact ⟨(mergeSign_mul _ _).1.1 this.1, fun hlt => (mergeSign_mul _ _).2.1 (this.2 hlt)⟩
  · have hall1 : (masks1d xmaps masks).all (fun p => notIndexed p.1 p.2 m) = true ↔
        masks = none ∧ ∀ x' ∈ xmaps, x'.phaseId m = -1 := by
      cases masks with
      | none => simp [masks1d, notIndexed]
      | some ms =>
        simp only [reduceCtorEq, false_and, iff_false]
        intro hh
        have := List.all_eq_true.1 hh p hpm
        cases hp2 : p.2 with
        | none => exact absurd (hpn.1 hp2) (by simp)
        | some keep => rw [hp2] at this; simp [notIndexed] at this
    have hids : ∀ e ∈ st0.phases, e.1 < ((0 : ℕ) : ℤ) := by
      intro e he
      rw [hph] at he
      split at he
      · rw [List.mem_singleton] at he; subst he; simp
      · simp at he
    have hcov : ∀ (k : ℕ) (hk : k < (masks1d xmaps masks).length),
        ∀ j < mergeSize xmaps masks, st0.phaseId j = ((0 + k : ℕ) : ℤ) →
          Covers (masks1d xmaps masks)[k] j := by
      intro k hk j hj hjk
      rw [hpid j hj] at hjk
      split at hjk
      · push_cast at hjk; omega
      · have hjk : best j = k := by push_cast at hjk; omega
        obtain ⟨_, s, hs, _⟩ := nanargmax_some (hbest j hj)
        rw [hjk, List.getD_eq_getElem?_getD, List.getElem?_map, List.getElem?_eq_getElem hk,
          Option.map_some, Option.getD_some] at hs
        obtain ⟨s0, hs0, _⟩ := Option.map_eq_some_iff.1 hs
        exact ((bestScore_some (hsize _ (List.getElem_mem hk)) hj).1 hs0).1
    have hloop := mergeLoop_arrays (mergeSize xmaps masks) N (masks1d xmaps masks) 0 st0 hsize
      hids hcov hm
    by_cases hni : masks = none ∧ ∀ x' ∈ xmaps, x'.phaseId m = -1
    · left
      refine ⟨hni, ?_⟩
      have h1 : st0.phaseId m = -1 := by rw [hpid m hm, if_pos (hall1.2 hni)]
      rw [o1, (hloop.2 (by rw [h1]; simp)).2.2.2, h1]
    · right
      refine ⟨hni, ?_⟩
      have h1 : st0.phaseId m = ((0 + best m : ℕ) : ℤ) := by
        rw [hpid m hm, if_neg (fun hh => hni (hall1.1 hh))]
        simp
      have := hloop.1 (best m) hk h1
      rw [hp0, hpx] at this
      rw [o3, o4, o5]
      exact this

/-- What the merged scores and simulation indices of a point are made of. -/
theorem mergeCore_merged {maps : List (XMap K R D × Option (ℕ → Bool))} {M N : ℕ} {sign : K}
    {mnb : ℤ} {out : MergedMap K R D} (h : mergeCore maps M N sign mnb = .ok out) :
    ∃ incs : List ℤ, incs = simIncrements (maps.map (fun p => (nanMinMax
        ((List.range M).flatMap (fun m =>
          (List.range N).map (combined p.1 p.2 M p.1.sims m)))).getD (0, 0))) none ∧
      ∀ m, ∃ cs : List (Option K), ∃ ci : List (Option ℤ),
        cs = combRow maps N (fun p n => combined p.1 p.2 M p.1.scores m n) ∧
        ci = combRow (maps.zip incs) N (fun p n =>
          (combined p.1.1 p.1.2 M p.1.1.sims m n).map (· + p.2)) ∧
        out.mergedScores m = (bestSortedIdx sign cs).map (fun j => cs.getD j none) ∧
        out.mergedSims m = (bestSortedIdx sign cs).map (fun j => ci.getD j none) := by
  unfold mergeCore at h
  simp only at h
  split at h
  · cases h
  · split at h
    · cases h
    · cases h
      exact ⟨_, rfl, fun m => ⟨_, _, rfl, rfl, rfl, rfl⟩⟩

/-- C25: the merged scores of a point are all scores in that point, of all maps (missing for
maps without data there), ordered from best to worst. The merged simulation indices are in
the same order. They are the indices of the maps with a constant added per map, which makes
the indices of different maps different. -/
theorem C25_merged_scores {xmaps : List (XMap K R D)} {mnb : ℤ} {gib : Option Bool}
    {masks : Option (List (Option NavMask))} {out : MergedMap K R D}
    (h : mergeCrystalMaps xmaps mnb gib masks = .ok out) :
    ∃ N, (∀ x ∈ xmaps, x.nRot = N) ∧
    ∃ inc : ℕ → ℤ,
      (∀ m < mergeSize xmaps masks,
        (out.mergedScores m).Pairwise (RankedBefore (gib.getD (decide (0 ≤ mnb)))) ∧
        (out.mergedSims m).length = (out.mergedScores m).length ∧
        ((out.mergedScores m).zip (out.mergedSims m)).Perm
          ((List.range N).flatMap (fun n => xmaps.zipIdx.map (fun xk =>
            ((rowOf masks xk.2 m).map (fun row => xk.1.scores row n),
              (rowOf masks xk.2 m).map (fun row => xk.1.sims row n + inc xk.2)))))) ∧
      ∀ (k k' m m' row row' n n' : ℕ) (x x' : XMap K R D), k < k' →
        xmaps[k]? = some x → xmaps[k']? = some x' →
        m < mergeSize xmaps masks → m' < mergeSize xmaps masks →
        rowOf masks k m = some row → rowOf masks k' m' = some row' → n < N → n' < N →
        x.sims row n + inc k < x'.sims row' n' + inc k' := by
  obtain ⟨hlen, hsize, N, hN, hcore⟩ := mergeCrystalMaps_ok h
  obtain ⟨incs, hincs, hmerged⟩ := mergeCore_merged hcore
  have hl := masks1d_length hlen
  have hil : incs.length = xmaps.length := by
    rw [hincs, simIncrements_length, List.length_map, hl]
  refine ⟨N, hN, fun k => incs.getD k 0, fun m hm => ?_, ?_⟩
  · obtain ⟨cs, ci, hcs, hci, o1, o2⟩ := hmerged m
    have hperm : (bestSortedIdx (mergeSign mnb gib) cs).Perm (List.range cs.length) :=
      List.perm_insertionSort _ _
    have hsorted : (bestSortedIdx (mergeSign mnb gib) cs).Pairwise
        (scoreLe (mergeSign mnb gib) cs) := List.pairwise_insertionSort _ _
    refine ⟨?_, by rw [o1, o2]; simp, ?_⟩
    · rw [o1, List.pairwise_map]
      refine hsorted.imp fun {i j} hij => ?_
      unfold scoreLe at hij
      unfold RankedBefore
      cases hi : cs.getD i none <;> cases hj : cs.getD j none <;> simp only [hi, hj] at hij ⊢
      rename_i a b
      refine (mergeSign_mul _ _).1.1 ?_
      simpa using hij
    · rw [o1, o2]
      have hcl : ci.length = cs.length := by
        rw [hcs, hci]
        simp [combRow, hl, hil]
      have h1 : ((bestSortedIdx (mergeSign mnb gib) cs).map (fun j => cs.getD j none)).zip
          ((bestSortedIdx (mergeSign mnb gib) cs).map (fun j => ci.getD j none)) =
          (bestSortedIdx (mergeSign mnb gib) cs).map
            (fun j => (cs.zip ci).getD j (none, none)) := by
        rw [List.zip_map']
        refine List.map_congr_left fun j hj => ?_
        have hj' : j < cs.length := List.mem_range.1 (hperm.mem_iff.1 hj)
        have hj2 : j < ci.length := by omega
        have hj3 : j < (cs.zip ci).length := by simp; omega
        simp [List.getD_eq_getElem?_getD, List.getElem?_eq_getElem hj',
          List.getElem?_eq_getElem hj2, List.getElem?_eq_getElem hj3]
      rw [h1]
      have h2 := hperm.map (fun j => (cs.zip ci).getD j (none, none))
      have h3 : (List.range cs.length).map (fun j => (cs.zip ci).getD j (none, none)) =
          cs.zip ci := by
        apply List.ext_getElem
        · simp [hcl]
        · intro j a1 a2
          simp [List.getD_eq_getElem?_getD, List.getElem?_eq_getElem a2]
      rw [h3] at h2
      refine h2.trans (List.Perm.of_eq ?_)
      rw [hcs, hci]
      unfold combRow
      have hz : ∀ (l : List ℕ) (f : ℕ → List (Option K)) (g : ℕ → List (Option ℤ)),
          (∀ n ∈ l, (f n).length = (g n).length) →
          (l.flatMap f).zip (l.flatMap g) = l.flatMap (fun n => (f n).zip (g n)) := by
        intro l f g hfg
        induction l with
        | nil => rfl
        | cons a l ih =>
          simp only [List.flatMap_cons]
          rw [List.zip_append (hfg a (by simp)), ih (fun n hn => hfg n (by simp [hn]))]
      rw [hz _ _ _ (fun n _ => by simp [hl, hil])]
      refine List.flatMap_congr fun n _ => ?_
      apply List.ext_getElem?
      intro k
      by_cases hk : k < xmaps.length
      · obtain ⟨x, hx⟩ : ∃ x, xmaps[k]? = some x := ⟨_, List.getElem?_eq_getElem hk⟩
        obtain ⟨p, hp, hpx, _, hrow⟩ := masks1d_get hlen hx m
        have hpm : p ∈ masks1d xmaps masks := List.mem_of_getElem? hp
        have hinc : incs[k]? = some (incs.getD k 0) := by
          rw [List.getD_eq_getElem?_getD, List.getElem?_eq_getElem (by omega)]; rfl
        have hzp : ((masks1d xmaps masks).zip incs)[k]? = some (p, incs.getD k 0) := by
          rw [List.getElem?_zip_eq_some]; exact ⟨hp, hinc⟩
        have hrhs : (xmaps.zipIdx)[k]? = some (x, k) := by
          rw [List.getElem?_zipIdx, hx]; simp
        rw [List.getElem?_map, hrhs]
        simp only [Option.map_some]
        rw [List.getElem?_zip_eq_some, List.getElem?_map, List.getElem?_map, hp, hzp]
        simp only [Option.map_some, Option.some.injEq]
        by_cases hc : Covers p m
        · rw [(hrow _).2 ⟨hc, rfl⟩, combined_some (hsize p hpm) hm hc,
            combined_some (hsize p hpm) hm hc, hpx]
          exact ⟨rfl, rfl⟩
        · have hnone : rowOf masks k m = none := by
            cases hr : rowOf masks k m with
            | none => rfl
            | some row => exact absurd ((hrow row).1 hr).1 hc
          rw [hnone, combined_none hc, combined_none hc]
          exact ⟨rfl, rfl⟩
      · rw [List.getElem?_eq_none (by simp [hl, hil]; omega),
          List.getElem?_eq_none (by simp; omega)]
  · intro k k' m m' row row' n n' x x' hkk hx hx' hm hm' hrow hrow' hn hn'
    obtain ⟨p, hp, hpx, _, hprow⟩ := masks1d_get hlen hx m
    obtain ⟨q, hq, hqx, _, hqrow⟩ := masks1d_get hlen hx' m'
    have hpm : p ∈ masks1d xmaps masks := List.mem_of_getElem? hp
    have hqm : q ∈ masks1d xmaps masks := List.mem_of_getElem? hq
    obtain ⟨hpc, hpr⟩ := (hprow row).1 hrow
    obtain ⟨hqc, hqr⟩ := (hqrow row').1 hrow'
    have hk' : k' < (masks1d xmaps masks).length := (List.getElem?_eq_some_iff.1 hq).1
    obtain ⟨F, hF⟩ : ∃ F : XMap K R D × Option (ℕ → Bool) → ℤ × ℤ, F = fun p => (nanMinMax
        ((List.range (mergeSize xmaps masks)).flatMap (fun m =>
          (List.range N).map (combined p.1 p.2 (mergeSize xmaps masks) p.1.sims m)))).getD
            (0, 0) := ⟨_, rfl⟩
    have hFb : ∀ p ∈ masks1d xmaps masks, ∀ m n, m < mergeSize xmaps masks → n < N →
        Covers p m → (F p).1 ≤ p.1.sims (rowIn p m) n ∧ p.1.sims (rowIn p m) n ≤ (F p).2 := by
      intro p hp m n hm hn hc
      rw [hF]
      refine (nanMinMax_spec _).2 _ ?_
      rw [List.mem_flatMap]
      refine ⟨m, List.mem_range.2 hm, List.mem_map.2 ⟨n, List.mem_range.2 hn, ?_⟩⟩
      exact combined_some (hsize p hp) hm hc
    have hlt := simIncrements_none ((masks1d xmaps masks).map F) (by
      intro e he
      obtain ⟨p, _, rfl⟩ := List.mem_map.1 he
      rw [hF]
      exact (nanMinMax_spec _).1) hkk (by simpa using hk')
    have hincs' : incs = simIncrements ((masks1d xmaps masks).map F) none := by rw [hincs, hF]
    rw [← hincs'] at hlt
    have g1 : ((masks1d xmaps masks).map F).getD k (0, 0) = F p := by
      rw [List.getD_eq_getElem?_getD, List.getElem?_map, hp]; rfl
    have g2 : ((masks1d xmaps masks).map F).getD k' (0, 0) = F q := by
      rw [List.getD_eq_getElem?_getD, List.getElem?_map, hq]; rfl
    rw [g1, g2] at hlt
    have b1 := (hFb p hpm m n hm hn hpc).2
    have b2 := (hFb q hqm m' n' hm' hn' hqc).1
    rw [hpr, hpx] at b1
    rw [hqr, hqx] at b2
    dsimp only
    omega

/-- C25 is false for maps with one point and more than one score per point: an error,
whatever the maps (`squeeze()` removes the axis of the map points). -/
theorem C25_single_point {xmaps : List (XMap K R D)} {mnb : ℤ} {gib : Option Bool}
    {masks : Option (List (Option NavMask))} (hM : mergeSize xmaps masks = 1) {x : XMap K R D}
    (hx : x ∈ xmaps) (hN : 1 < x.nRot) :
    ∃ e, mergeCrystalMaps xmaps mnb gib masks = .error e := by
  cases h : mergeCrystalMaps xmaps mnb gib masks with
  | error e => exact ⟨e, rfl⟩
  | ok out =>
    obtain ⟨_, _, N, hN', hcore⟩ := mergeCrystalMaps_ok h
    have := hN' x hx
    unfold mergeCore at hcore
    simp only at hcore
    rw [if_pos ⟨by omega, hM⟩] at hcore
    cases hcore

/-- C25: maps of different shapes (that of the mask for maps with a mask), or with a different number
of rotations per point, are refused. -/
theorem C25_different_maps_refused {xmaps : List (XMap K R D)} {mnb : ℤ} {gib : Option Bool}
    {x y : XMap K R D} (hx : x ∈ xmaps) (hy : y ∈ xmaps) (masks : Option (List (Option NavMask)))
    (h : masks = none ∧ x.shape ≠ y.shape ∨ x.nRot ≠ y.nRot ∨
      ∃ ms k k', masks = some ms ∧ some k ∈ ms ∧ some k' ∈ ms ∧ k.shape ≠ k'.shape) :
    mergeCrystalMaps xmaps mnb gib masks = .error .valueError := by
  unfold mergeCrystalMaps
  simp only
  split
  · rfl
  rename_i hlen
  split
  · rfl
  rename_i hsh
  split
  · rfl
  split
  · rfl
  rename_i hN
  exfalso
  simp only [Bool.not_eq_true, List.any_eq_false, bne_iff_ne, ne_eq, not_not] at hsh hN
  rcases h with ⟨rfl, h⟩ | h | ⟨ms, k, k', rfl, hk, hk', h⟩
  · simp only [mapShapes] at hsh
    exact h ((hsh _ (List.mem_map_of_mem hx)).trans (hsh _ (List.mem_map_of_mem hy)).symm)
  · exact h ((hN x hx).trans (hN y hy).symm)
  · simp only [Option.map_some, Option.getD_some, not_not] at hlen
    have key : ∀ k : NavMask, some k ∈ ms → k.shape ∈ mapShapes xmaps (some ms) := by
      intro k hk
      obtain ⟨i, hi, he⟩ := List.mem_iff_getElem.1 hk
      simp only [mapShapes, List.mem_map]
      refine ⟨(xmaps[i]'(by omega), some k), ?_, rfl⟩
      rw [List.mem_iff_getElem]
      exact ⟨i, by simp; omega, by simp [he]⟩
    exact h ((hsh _ (key k hk)).trans (hsh _ (key k' hk')).symm)

/-- A case of `C25_different_maps_refused`. -/
example : mergeCrystalMaps [(⟨[2], 2, 1, fun _ => [0], fun _ _ => (0 : ℚ), fun _ _ => 0, fun _ => 0, "a", 0⟩ :
      XMap ℚ ℕ ℕ), ⟨[1, 2], 2, 1, fun _ => [0], fun _ _ => 0, fun _ _ => 0, fun _ => 0, "b", 1⟩]
    1 none none = .error .valueError :=
  C25_different_maps_refused (List.mem_cons_self ..) (List.mem_cons_of_mem _ (List.mem_cons_self ..)) none
    (Or.inl ⟨rfl, by simp⟩)

/-- C26 is false: if any point of the map is covered by no map, merging raises (`ValueError`
from `np.nanargmax` if the arguments are otherwise valid), whatever the maps and masks. -/
theorem C26_uncovered_point_raises {xmaps : List (XMap K R D)} {mnb : ℤ} {gib : Option Bool}
    {masks : Option (List (Option NavMask))} {m : ℕ} (hm : m < mergeSize xmaps masks)
    (hun : ∀ k < xmaps.length, rowOf masks k m = none) :
    ∃ e, mergeCrystalMaps xmaps mnb gib masks = .error e := by
  cases h : mergeCrystalMaps xmaps mnb gib masks with
  | error e => exact ⟨e, rfl⟩
  | ok out =>
    obtain ⟨N, _, _, k, row, x, hx, hrow, _⟩ := C25_best_map_partial h hm
    rw [hun k (List.getElem?_eq_some_iff.1 hx).1] at hrow
    cases hrow

/-- C26: when navigation masks are given, no point of the merged map is not indexed, also if
all maps covering it say not indexed (the result is assigned to a copy). -/
theorem C26_never_not_indexed {xmaps : List (XMap K R D)} {mnb : ℤ} {gib : Option Bool}
    {ms : List (Option NavMask)} {out : MergedMap K R D}
    (h : mergeCrystalMaps xmaps mnb gib (some ms) = .ok out) {m : ℕ}
    (hm : m < mergeSize xmaps (some ms)) : 0 ≤ out.phaseId m := by
  obtain ⟨hlen, hsize, N, hN, hcore⟩ := mergeCrystalMaps_ok h
  obtain ⟨best, hbest, st0, hpid, hph, o1, _⟩ := mergeCore_ok hcore
  have hge : ∀ j < mergeSize xmaps (some ms), 0 ≤ st0.phaseId j := by
    intro j hj
    rw [hpid j hj, if_neg]
    · omega
    · intro hh
      obtain ⟨hk, _⟩ := nanargmax_some (hbest j hj)
      rw [List.length_map, masks1d_length hlen] at hk
      obtain ⟨p, hp, _, hpn, _⟩ := masks1d_get hlen (List.getElem?_eq_getElem hk) j
      have := List.all_eq_true.1 hh p (List.mem_of_getElem? hp)
      cases hp2 : p.2 with
      | none => exact absurd (hpn.1 hp2) (by simp)
      | some keep => rw [hp2] at this; simp [notIndexed] at this
  rw [o1]
  apply mergeLoop_nonneg _ _ _ _ _ _ (hge m hm)
  intro e he
  rw [hph, if_neg] at he
  · simp at he
  · intro hh
    obtain ⟨j, hj, hj1⟩ := List.any_eq_true.1 hh
    have := hge j (List.mem_range.1 hj)
    simp at hj1
    omega

/-- C25 (phases): if no two maps have the same phase (equal in name, possibly with the position of
the map appended, and in everything else) and each map is strictly best in some point, the phase of
every point is that of the map with the best score there: the phase ID is the position of that map,
and the phase list has its phase (and no other) with this ID, under its name or its name followed
by the map's position. Different phases with the same name stay different. Partial: for other maps the ID in the list differs from the one in the points (the
orix `CrystalMap` constructor then matches them by order), or see
`C25_identical_phases`. -/
theorem C25_phases_partial {xmaps : List (XMap K R D)} {mnb : ℤ} {gib : Option Bool}
    {masks : Option (List (Option NavMask))} {out : MergedMap K R D}
    (h : mergeCrystalMaps xmaps mnb gib masks = .ok out)
    (hdiff : ∀ (i j : ℕ) (xi xj : XMap K R D), i < j → xmaps[i]? = some xi → xmaps[j]? = some xj →
      xi.phase = xj.phase → xj.name ≠ xi.name ∧ xj.name ≠ xi.name ++ toString i)
    (hused : ∀ k x, xmaps[k]? = some x → ∃ m row, m < mergeSize xmaps masks ∧
      rowOf masks k m = some row ∧ ¬ (masks = none ∧ ∀ x' ∈ xmaps, x'.phaseId m = -1) ∧
      ∀ k' x' row', k' ≠ k → xmaps[k']? = some x' → rowOf masks k' m = some row' →
        ¬ AsGood (gib.getD (decide (0 ≤ mnb)))
          (meanScore x' row' (nAveraged x.nRot (mergeNBest mnb gib)))
          (meanScore x row (nAveraged x.nRot (mergeNBest mnb gib)))) :
    (out.phases.map (·.1)).Nodup ∧
    ∀ m < mergeSize xmaps masks,
      (masks = none ∧ ∀ x' ∈ xmaps, x'.phaseId m = -1) ∧ out.phaseId m = -1 ∨
      ∃ N, (∀ x ∈ xmaps, x.nRot = N) ∧
      ∃ (k row : ℕ) (x : XMap K R D), xmaps[k]? = some x ∧ rowOf masks k m = some row ∧
        out.phaseId m = k ∧ (((k : ℤ), x.name, some x.phase) ∈ out.phases ∨
          ((k : ℤ), x.name ++ toString k, some x.phase) ∈ out.phases) ∧
        (∀ (k' row' : ℕ) (x' : XMap K R D), xmaps[k']? = some x' → rowOf masks k' m = some row' →
          AsGood (gib.getD (decide (0 ≤ mnb)))
            (meanScore x row (nAveraged N (mergeNBest mnb gib)))
            (meanScore x' row' (nAveraged N (mergeNBest mnb gib)))) := by
  obtain ⟨hlen, hsize, N, hN, hcore⟩ := mergeCrystalMaps_ok h
  obtain ⟨best, hbest, st0, hpid, hph, o1, o2, _⟩ := mergeCore_ok hcore
  have hl := masks1d_length hlen
  have hbestfacts : ∀ m < mergeSize xmaps masks, ∃ x row, xmaps[best m]? = some x ∧
      rowOf masks (best m) m = some row ∧ 0 < nAveraged N (mergeNBest mnb gib) ∧
      (∀ (k' row' : ℕ) (x' : XMap K R D), xmaps[k']? = some x' → rowOf masks k' m = some row' →
          AsGood (gib.getD (decide (0 ≤ mnb)))
            (meanScore x row (nAveraged N (mergeNBest mnb gib)))
            (meanScore x' row' (nAveraged N (mergeNBest mnb gib)))) := by
    intro m hm
    obtain ⟨hk, s, hs, hall⟩ := nanargmax_some (hbest m hm)
    rw [List.length_map] at hk hall
    obtain ⟨x, hx⟩ : ∃ x, xmaps[best m]? = some x :=
      ⟨_, List.getElem?_eq_getElem (by rw [← hl]; exact hk)⟩
    obtain ⟨p, hp, hpx, hpn, hrow⟩ := masks1d_get hlen hx m
    have hpm : p ∈ masks1d xmaps masks := List.mem_of_getElem? hp
    rw [List.getD_eq_getElem?_getD, List.getElem?_map, hp, Option.map_some,
      Option.getD_some] at hs
    obtain ⟨s0, hs0, rfl⟩ := Option.map_eq_some_iff.1 hs
    obtain ⟨hc, hn, rfl⟩ := (bestScore_some (hsize p hpm) hm).1 hs0
    refine ⟨x, rowIn p m, hx, (hrow _).2 ⟨hc, rfl⟩, hn, ?_⟩
    intro k' row' x' hx' hrow'
    obtain ⟨q, hq, hqx, _, hqrow⟩ := masks1d_get hlen hx' m
    have hqm : q ∈ masks1d xmaps masks := List.mem_of_getElem? hq
    obtain ⟨hqc, rfl⟩ := (hqrow _).1 hrow'
    have hk' : k' < (masks1d xmaps masks).length := (List.getElem?_eq_some_iff.1 hq).1
    have := hall k' hk' (mergeSign mnb gib * meanScore q.1 (rowIn q m)
      (nAveraged N (mergeNBest mnb gib))) (by
      rw [List.getD_eq_getElem?_getD, List.getElem?_map, hq, Option.map_some, Option.getD_some,
        (bestScore_some (hsize q hqm) hm).2 ⟨hqc, hn, rfl⟩]
      rfl)
    rw [hqx, hpx] at this
    exact (mergeSign_mul _ _).1.1 this.1
  have hall1 : ∀ m < mergeSize xmaps masks,
      ((masks1d xmaps masks).all (fun p => notIndexed p.1 p.2 m) = true ↔
        masks = none ∧ ∀ x' ∈ xmaps, x'.phaseId m = -1) := by
    intro m hm
    cases masks with
    | none => simp [masks1d, notIndexed]
    | some ms =>
      simp only [reduceCtorEq, false_and, iff_false]
      intro hh
      obtain ⟨x, _, hx, _⟩ := hbestfacts m hm
      obtain ⟨p, hp, _, hpn, _⟩ := masks1d_get hlen hx m
      have := List.all_eq_true.1 hh p (List.mem_of_getElem? hp)
      cases hp2 : p.2 with
      | none => exact absurd (hpn.1 hp2) (by simp)
      | some keep => rw [hp2] at this; simp [notIndexed] at this
  have hget : ∀ (k : ℕ) (p : XMap K R D × Option (ℕ → Bool)), (masks1d xmaps masks)[k]? = some p → xmaps[k]? = some p.1 := by
    intro k p hp
    have hk : k < xmaps.length := hl ▸ (List.getElem?_eq_some_iff.1 hp).1
    obtain ⟨p', hp', hpx, _⟩ := masks1d_get hlen (List.getElem?_eq_getElem hk) 0
    rw [hp] at hp'
    injection hp' with hp'
    rw [hp', hpx, List.getElem?_eq_getElem hk]
  have hphases := mergeLoop_phases (mergeSize xmaps masks) N (masks1d xmaps masks) 0 st0
    (by rw [hph]; split <;> simp [nextId])
    (by
      intro a b p q hab hp hq hpq
      rw [zero_add]
      exact hdiff a b p.1 q.1 hab (hget a p hp) (hget b q hq) hpq)
    (by
      intro e he p _
      rw [hph] at he
      split at he
      · rw [List.mem_singleton] at he; subst he; simp
      · simp at he)
    (by
      intro k hk
      rw [hl] at hk
      obtain ⟨m, row, hm, hrow, hni, hstrict⟩ := hused k xmaps[k] (List.getElem?_eq_getElem hk)
      refine ⟨m, hm, ?_⟩
      rw [hpid m hm, if_neg (fun hh => hni ((hall1 m hm).1 hh))]
      obtain ⟨x, row', hx, hrow', hn, hall⟩ := hbestfacts m hm
      have : best m = k := by
        by_contra hne
        have := hstrict (best m) x row' hne hx hrow'
        rw [hN _ (List.getElem_mem hk)] at this
        exact this (hall k row _ (List.getElem?_eq_getElem hk) hrow)
      rw [this, zero_add])
  obtain ⟨hphases1, f, hf, hphases2⟩ := hphases
  rw [← o2] at hphases2
  constructor
  · rw [hphases2, List.map_append, List.map_map]
    have e : (((masks1d xmaps masks).zipIdx 0).map ((·.1) ∘
        fun p : (XMap K R D × Option (ℕ → Bool)) × ℕ =>
          ((p.2 : ℤ), f p.2, some p.1.1.phase))) =
        (List.range (masks1d xmaps masks).length).map (fun k : ℕ => (k : ℤ)) := by
      apply List.ext_getElem
      · simp
      · intro k h1 h2; simp
    rw [e]
    have hnd : ((List.range (masks1d xmaps masks).length).map (fun k : ℕ => (k : ℤ))).Nodup :=
      List.Nodup.map (fun a b hab => by simpa using hab) List.nodup_range
    rw [hph]
    split
    · simp only [List.map_cons, List.map_nil, List.singleton_append, List.nodup_cons]
      refine ⟨?_, hnd⟩
      simp
    · simpa using hnd
  · intro m hm
    by_cases hni' : masks = none ∧ ∀ x' ∈ xmaps, x'.phaseId m = -1
    · left
      refine ⟨hni', ?_⟩
      rw [o1, hphases1, hpid m hm, if_pos ((hall1 m hm).2 hni')]
    · right
      obtain ⟨x, row, hx, hrow, _, hall⟩ := hbestfacts m hm
      refine ⟨N, hN, best m, row, x, hx, hrow, ?_, ?_, hall⟩
      · rw [o1, hphases1, hpid m hm, if_neg (fun hh => hni' ((hall1 m hm).1 hh))]
      · obtain ⟨p, hp, hpx, _⟩ := masks1d_get hlen hx m
        have hmem : ((best m : ℤ), f (best m), some x.phase) ∈ out.phases := by
          rw [hphases2, List.mem_append]
          right
          rw [List.mem_map]
          refine ⟨(p, best m), ?_, by simp [hpx]⟩
          exact List.mem_of_getElem? (i := best m) (by rw [List.getElem?_zipIdx, hp]; simp)
        have := hf (best m) p hp
        rw [zero_add, hpx] at this
        rcases this with h | h
        · left; rwa [h] at hmem
        · right; rwa [h] at hmem

end

/-! ### Examples -/

/-- A map with two points and two scores per point. -/
def exMap (shift : ℚ) (name : String) (phase : ℕ) : XMap ℚ ℕ ℕ :=
  { shape := [2]
    size := 2
    nRot := 2
    rots := fun r => [10 * phase + r]
    scores := fun r n => if r = 0 then 1 + shift - n else 1 - shift - n
    sims := fun r n => (2 * r + n : ℕ)
    phaseId := fun _ => 0
    name := name
    phase := phase }

/-- Merging of two maps, the first best in the second point. -/
example :
    let r := (mergeCrystalMaps [exMap 0 "a" 0, exMap 1 "b" 1] 2 none none).toOption
    r.map (fun o => [0, 1].map o.phaseId) = some [1, 0] ∧
      r.map (·.phases) = some [(0, "a", some 0), (1, "b", some 1)] ∧
      r.map (fun o => [0, 1].map o.rots) = some [[10], [1]] ∧
      r.map (fun o => [0, 1].map o.mergedScores) =
        some [[some 2, some 1, some 1, some 0], [some 1, some 0, some 0, some (-1)]] := by
  decide +kernel

/-- Different phases with the same name: the second is renamed. -/
example :
    let r := (mergeCrystalMaps [exMap 0 "a" 0, exMap 1 "a" 1] 2 none none).toOption
    r.map (fun o => [0, 1].map o.phaseId) = some [1, 0] ∧
      r.map (·.phases) = some [(0, "a", some 0), (1, "a1", some 1)] := by
  decide +kernel

/-- Merging with masks: the first map has no data in the second point. -/
example :
    let r := (mergeCrystalMaps [{ exMap 0 "a" 0 with size := 1 }, exMap (-1) "b" 1] 2 none
        (some [some { shape := [2], keep := fun m => m == 0 }, none])).toOption
    r.map (fun o => [0, 1].map o.phaseId) = some [0, 1] ∧
      r.map (·.phases) = some [(0, "a", some 0), (1, "b", some 1)] ∧
      r.map (fun o => [0, 1].map o.rots) = some [[0], [11]] ∧
      r.map (fun o => [0, 1].map o.mergedScores) =
        some [[some 1, some 0, some 0, some (-1)], [some 2, some 1, none, none]] := by
  decide +kernel

/-- C25 is false for identical phases, "considered as one phase in the returned map": if the
first map is best nowhere, the phase list has its phases numbered from 0, and points of a later
map with the same phase as an earlier one get that number, while the points of the earlier map
have the map's position. Here the second and third map have identical phases, but their points
get different phase IDs, 1 and 0, with only one phase in the list. -/
theorem C25_identical_phases :
    let r := (mergeCrystalMaps
      [{ exMap 0 "a" 0 with scores := fun _ _ => (-5 : ℚ) }, exMap 1 "b" 1, exMap (-1) "b" 1]
      1 none none).toOption
    r.map (fun o => [0, 1].map o.phaseId) = some [1, 0] ∧
      r.map (·.phases) = some [(0, "b", some 1)] := by
  decide +kernel

/-- A case of `C26_uncovered_point_raises`: both maps have data in the first point only. -/
example :
    let masks := some [some { shape := [2], keep := fun m => m == 0 },
          some { shape := [2], keep := fun m => m == 0 }]
    let maps := [{ exMap 0 "a" 0 with size := 1 }, { exMap 1 "b" 1 with size := 1 }]
    1 < mergeSize maps masks ∧ (∀ k < maps.length, rowOf masks k 1 = none) ∧
      (mergeCrystalMaps maps 1 none masks).toOption.isNone := by
  decide +kernel

/-- A case of `C26_never_not_indexed`: both maps say that the only point in both is not
indexed. -/
example :
    (mergeCrystalMaps
        [{ exMap 0 "a" 0 with size := 2, phaseId := fun r => if r = 0 then -1 else 0 },
          { exMap 1 "b" 1 with size := 1, phaseId := fun _ => -1 }] 1 none
        (some [none, some { shape := [2], keep := fun m => m == 0 }])).toOption.map (fun o =>
        [0, 1].map o.phaseId) = some [1, 0] := by
  decide +kernel

/-- A case of `C25_single_point`. -/
example : mergeSize [{ exMap 0 "a" 0 with shape := [1, 1], size := 1 }] none = 1 := by rfl

end Kp
