import Verif.Lemmas.RefinementMaps
import Mathlib.Data.Finset.Prod
import Mathlib.Order.Interval.Finset.Nat

/-
C33: refinement writes each result to its own map point.
-/

namespace Kp

variable {P R C K : Type*}

/-- A point of a crystal map is refined if it is in the data, not masked out (`True` in the
navigation mask) and indexed. -/
def Spec.isRefined (x : RMap R) (mask : Option (List ℕ × List Bool)) (i : ℕ) : Bool :=
  x.isInData.getD i false && !((mask.map Prod.snd).getD []).getD i false &&
    x.allPhaseId.getD i (-1) != -1

/-- A crystal map has a phase ID and rotation for every point. -/
structure RMap.WF (x : RMap R) : Prop where
  phase : x.allPhaseId.length = x.isInData.length
  rot : x.allRotations.length = x.isInData.length

theorem pointsAndPhases_getElem {x : RMap R} {mask : Option (List ℕ × List Bool)}
    {inData : List Bool} {ids : List ℤ} (h : pointsAndPhases x mask = .ok (inData, ids)) :
    inData.length = x.isInData.length ∧
    ∀ i < x.isInData.length, inData[i]? = some (x.isInData.getD i false &&
      !((mask.map Prod.snd).getD []).getD i false) := by
  unfold pointsAndPhases at h
  split at h
  · simp only [Except.ok.injEq, Prod.mk.injEq] at h
    obtain ⟨rfl, _⟩ := h
    refine ⟨rfl, fun i hi => ?_⟩
    simp [hi]
  · rename_i m
    simp only at h
    split at h
    · cases h
    · split at h
      · cases h
      · rename_i _ hlen
        simp only [Except.ok.injEq, Prod.mk.injEq] at h
        obtain ⟨rfl, _⟩ := h
        simp only [List.length_map, not_not] at hlen
        refine ⟨by simp [hlen], fun i hi => ?_⟩
        rw [List.getElem?_zipWith, List.getElem?_eq_getElem hi, List.getElem?_map,
          List.getElem?_eq_getElem (by omega)]
        simp [hi, hlen]

/-- What `_get_indexed_points_in_data_in_xmap` returns. -/
theorem indexedPoints_spec {x : RMap R} (wf : x.WF) {mask : Option (List ℕ × List Bool)}
    {pts : IndexedPoints} (h : indexedPoints x mask = .ok pts) :
    pts.inData.length = x.isInData.length ∧ pts.inDataIndexed.length = x.isInData.length ∧
    (∀ i < x.isInData.length, pts.inData[i]? = some (x.isInData.getD i false &&
      !((mask.map Prod.snd).getD []).getD i false)) ∧
    (∀ i < x.isInData.length, pts.inDataIndexed[i]? = some (Spec.isRefined x mask i)) := by
  unfold indexedPoints at h
  split at h
  · cases h
  · rename_i inData ids hp
    obtain ⟨hl, hget⟩ := pointsAndPhases_getElem hp
    split at h
    · cases h
    · split at h
      · cases h
      · split at h
        · cases h
        · simp only [Except.ok.injEq] at h
          subst h
          have hlen : (scatterMask (List.replicate inData.length false) x.isInData
              x.isIndexed).length = x.isInData.length :=
            scatterMask_length _ _ _ (by simp [hl])
          refine ⟨hl, by rw [List.length_zipWith, hlen, hl, Nat.min_self], hget,
            fun i hi => ?_⟩
          simp only
          rw [List.getElem?_zipWith, hget i hi]
          unfold Spec.isRefined
          by_cases hin : x.isInData.getD i false = true
          · have hm : x.isInData[i]? = some true := by
              rw [List.getD_eq_getElem?_getD, List.getElem?_eq_getElem hi] at hin
              rw [List.getElem?_eq_getElem hi]
              simpa using hin
            have : (scatterMask (List.replicate inData.length false) x.isInData
                x.isIndexed)[i]? = some (x.allPhaseId.getD i (-1) != -1) := by
              unfold RMap.isIndexed RMap.phaseId
              rw [scatterMask_select _ _ x.allPhaseId (fun p => p != -1) (by simp [hl]) wf.phase i
                (x.allPhaseId.getD i (-1)) hm]
              rw [List.getD_eq_getElem?_getD, List.getElem?_eq_getElem (by rw [wf.phase]; exact hi)]
              rfl
            rw [this]
          · simp only [Bool.not_eq_true] at hin
            obtain ⟨b, hb⟩ : ∃ b, (scatterMask (List.replicate inData.length false) x.isInData
                x.isIndexed)[i]? = some b := ⟨_, List.getElem?_eq_getElem (by omega)⟩
            rw [hb, hin]
            simp

theorem getElem?_lt {α : Type*} {l : List α} {i : ℕ} (h : i < l.length) :
    ∃ a, l[i]? = some a := ⟨_, List.getElem?_eq_getElem h⟩

/-- C33: for every crystal map, navigation mask, division into chunks and solver, each point has
its own result: a refined point has the result of the solver for its own pattern, starting
rotation and PC (or the only PC), and other points have the identity rotation and zero score.
The points in the data are those of the given map that are not masked out. -/
theorem C33_each_point [Zero K] {identity : R} {solve : P → R → C → Refined R C K} {x : RMap R}
    (wf : x.WF) {mask : Option (List ℕ × List Bool)} {patterns : List P} {detPc : List C}
    (hpc : detPc.length = 1 ∨ detPc.length = patterns.length) {chunks : List ℕ}
    (hch : chunks.sum = ((List.range x.isInData.length).filter (Spec.isRefined x mask)).length)
    {out : RefinedMap R C K}
    (h : refineMap identity solve x mask patterns detPc chunks = .ok out) :
    ∀ i < x.isInData.length,
      out.isInData[i]? = some (x.isInData.getD i false &&
        !((mask.map Prod.snd).getD []).getD i false) ∧
      (Spec.isRefined x mask i = true → ∃ p r c, patterns[i]? = some p ∧
        x.allRotations[i]? = some r ∧ detPc[if detPc.length = 1 then 0 else i]? = some c ∧
        out.scores[i]? = some (solve p r c).score ∧
        out.numEvals[i]? = some (solve p r c).numEvals ∧
        out.rotations[i]? = some (solve p r c).rotation ∧
        out.pc[((List.range i).filter (Spec.isRefined x mask)).length]? = some (solve p r c).pc) ∧
      (Spec.isRefined x mask i = false → out.scores[i]? = some 0 ∧ out.numEvals[i]? = some 0 ∧
        out.rotations[i]? = some identity) ∧
      (x.isInData.getD i false = false ∨ x.allPhaseId.getD i (-1) = -1 →
        out.phaseId[i]? = some (-1)) := by
  unfold refineMap at h
  split at h
  · cases h
  · rename_i pts hpts
    obtain ⟨hl1, hl2, hin, href⟩ := indexedPoints_spec wf hpts
    split at h
    · cases h
    · rename_i hnp
      simp only [not_not] at hnp
      have hcount : ∀ n ≤ x.isInData.length, (pts.inDataIndexed.take n).count true =
          ((List.range n).filter (Spec.isRefined x mask)).length := by
        intro n hn
        induction n with
        | zero => simp
        | succ n ih =>
          rw [List.take_add_one, List.range_succ, List.filter_append, List.length_append,
            List.count_append, ih (by omega), href n (by omega), List.filter_singleton]
          cases Spec.isRefined x mask n <;> simp
      have hcountAll : pts.inDataIndexed.count true =
          ((List.range x.isInData.length).filter (Spec.isRefined x mask)).length := by
        rw [← hcount _ le_rfl, ← hl2, List.take_length]
      simp only at h
      split at h
      · cases h
      · rename_i pc0 rest
        simp only [Except.ok.injEq] at h
        -- the full array of PCs
        obtain ⟨fullPc, hfull, hfullLen, hfullGet⟩ : ∃ fullPc : List C,
            (if rest = [] then List.replicate (pts.inDataIndexed.count true) pc0
              else selectMask pts.inDataIndexed (pc0 :: rest)) =
              selectMask pts.inDataIndexed fullPc ∧
            pts.inDataIndexed.length = fullPc.length ∧
            ∀ i < x.isInData.length, fullPc[i]? =
              (pc0 :: rest)[if (pc0 :: rest).length = 1 then 0 else i]? := by
          by_cases hr : rest = []
          · refine ⟨List.replicate pts.inDataIndexed.length pc0, ?_, by simp, fun i hi => ?_⟩
            · rw [if_pos hr, selectMask_replicate rfl]
            · subst hr
              simp [hl2, hi]
          · have hne : (pc0 :: rest).length ≠ 1 := by
              simpa using hr
            refine ⟨pc0 :: rest, by rw [if_neg hr], ?_, fun i hi => by rw [if_neg hne]⟩
            rw [hpc.resolve_left hne, ← hnp]
        rw [hfull] at h
        have hrots : selectMask (selectMask x.isInData pts.inDataIndexed) x.rotations =
            selectMask pts.inDataIndexed x.allRotations := by
          unfold RMap.rotations
          refine selectMask_selectMask (by omega) (by rw [wf.rot, hl2]) fun i hi => ?_
          have hi' : i < x.isInData.length := by
            rw [← hl2]; exact (List.getElem?_eq_some_iff.1 hi).1
          rw [href i hi', Option.some.injEq] at hi
          unfold Spec.isRefined at hi
          simp only [Bool.and_eq_true] at hi
          have := hi.1.1
          rw [List.getD_eq_getElem?_getD, List.getElem?_eq_getElem hi'] at this
          rw [List.getElem?_eq_getElem hi']
          simpa using this
        have hpats : (if pts.inDataIndexed.all id = true then patterns
            else selectMask pts.inDataIndexed patterns) =
            selectMask pts.inDataIndexed patterns := by
          split
          · rename_i hall
            rw [selectMask_all (by omega) hall]
          · rfl
        have hres : refineBlocks solve chunks (if pts.inDataIndexed.all id = true then patterns
              else selectMask pts.inDataIndexed patterns)
            (selectMask (selectMask x.isInData pts.inDataIndexed) x.rotations)
            (selectMask pts.inDataIndexed fullPc) =
            selectMask pts.inDataIndexed (refineChunk solve patterns x.allRotations fullPc) := by
          rw [hrots, hpats, refineBlocks_eq]
          · unfold refineChunk
            rw [selectMask_zipWith _ (by simp [hnp, hl2, wf.rot]; omega) hfullLen,
              selectMask_zipWith _ hnp (by rw [hl2, wf.rot])]
          · rw [selectMask_length hnp, selectMask_length (by rw [hl2, wf.rot])]
          · rw [selectMask_length (by rw [hl2, wf.rot]), selectMask_length hfullLen]
          · rw [selectMask_length hnp, hcountAll, hch]
        rw [hres] at h
        have hrlen : (refineChunk solve patterns x.allRotations fullPc).length =
            pts.inDataIndexed.length := by
          unfold refineChunk
          simp [← hnp, hl2, wf.rot, ← hfullLen]
        subst h
        intro i hi
        refine ⟨hin i hi, fun hr => ?_, fun hr => ?_, fun hni => ?_⟩
        · obtain ⟨p, hp⟩ := getElem?_lt (l := patterns) (i := i) (by omega)
          obtain ⟨r, hrr⟩ := getElem?_lt (l := x.allRotations) (i := i) (by rw [wf.rot]; exact hi)
          obtain ⟨c, hc⟩ := getElem?_lt (l := fullPc) (i := i) (by omega)
          have hm : pts.inDataIndexed[i]? = some true := by rw [href i hi, hr]
          have hv : (refineChunk solve patterns x.allRotations fullPc)[i]? = some (solve p r c) := by
            unfold refineChunk
            rw [List.getElem?_zipWith, List.getElem?_zipWith, hp, hrr, hc]
          refine ⟨p, r, c, hp, hrr, by rw [← hfullGet i hi, hc], ?_, ?_, ?_, ?_⟩
          · exact scatterMask_select _ _ _ _ (by simp) hrlen i _ hm hv
          · exact scatterMask_select _ _ _ _ (by simp) hrlen i _ hm hv
          · exact scatterMask_select _ _ _ _ (by simp) hrlen i _ hm hv
          · simp only
            rw [← hcount i hi.le, List.getElem?_map, selectMask_getElem hrlen.symm i hm, hv]
            rfl
        · have hm : pts.inDataIndexed[i]? = some false := by rw [href i hi, hr]
          have hi2 : i < pts.inDataIndexed.length := by omega
          refine ⟨?_, ?_, ?_⟩
          all_goals
            simp only
            rw [scatterMask_of_false _ _ _ (by simp) i hm]
            simp [hi2]
        · simp only
          have hsl : (scatterMask (List.replicate pts.inData.length false) x.isInData
              x.isIndexed).length = x.isInData.length :=
            scatterMask_length _ _ _ (by simp [hl1])
          have hm : ((scatterMask (List.replicate pts.inData.length false) x.isInData
              x.isIndexed).map not)[i]? = some true := by
            rw [List.getElem?_map]
            by_cases hin : x.isInData[i]? = some true
            · have hd : x.isInData.getD i false = true := by
                rw [List.getD_eq_getElem?_getD, hin]; rfl
              have hph : x.allPhaseId.getD i (-1) = -1 := by
                rcases hni with h | h
                · rw [hd] at h; cases h
                · exact h
              unfold RMap.isIndexed RMap.phaseId
              rw [scatterMask_select _ _ x.allPhaseId (fun p => p != -1) (by simp [hl1]) wf.phase i
                (-1) hin]
              · rfl
              · rw [List.getD_eq_getElem?_getD,
                  List.getElem?_eq_getElem (by rw [wf.phase]; exact hi)] at hph
                rw [List.getElem?_eq_getElem (by rw [wf.phase]; exact hi)]
                simpa using hph
            · have hin' : x.isInData[i]? = some false := by
                rw [List.getElem?_eq_getElem hi] at hin ⊢
                simpa using hin
              rw [scatterMask_of_false _ _ _ (by simp [hl1]) i hin']
              simp [hl1, hi]
          refine scatterMask_replicate_getElem _ _ _ ?_ i hm
          rw [scatterMask_length _ _ _ (by simp), List.length_map, hsl, hl2]

/-! ### Phases -/

theorem uniqueIds_single {ids : List ℤ} (hnd : ids.Nodup)
    (h : ids.length = 1 ∨ (ids.length = 2 ∧ -1 ∈ ids)) {a b : ℤ} (ha : a ∈ ids) (hb : b ∈ ids)
    (ha' : a ≠ -1) (hb' : b ≠ -1) : a = b := by
  rcases h with h | ⟨h, hm⟩
  · obtain ⟨c, rfl⟩ := List.length_eq_one_iff.1 h
    simp at ha hb
    rw [ha, hb]
  · obtain ⟨c, d, rfl⟩ := List.length_eq_two.1 h
    simp at ha hb hm hnd
    omega

theorem mem_selectMask_of_getElem {α : Type*} {m : List Bool} {l : List α}
    (hl : m.length = l.length) {i : ℕ} {a : α} (hm : m[i]? = some true) (ha : l[i]? = some a) :
    a ∈ selectMask m l := by
  have := selectMask_getElem hl i hm
  rw [ha] at this
  exact List.mem_of_getElem? this

/-- C33: a refined point keeps its phase. -/
theorem C33_phase [Zero K] {identity : R} {solve : P → R → C → Refined R C K} {x : RMap R}
    (wf : x.WF) {mask : Option (List ℕ × List Bool)} {patterns : List P} {detPc : List C}
    {chunks : List ℕ} {out : RefinedMap R C K}
    (h : refineMap identity solve x mask patterns detPc chunks = .ok out) {i : ℕ}
    (hi : i < x.isInData.length) (href : Spec.isRefined x mask i = true) :
    out.phaseId[i]? = x.allPhaseId[i]? := by
  unfold refineMap at h
  split at h
  · cases h
  rename_i pts hpts
  obtain ⟨hl1, hl2, hin, hr⟩ := indexedPoints_spec wf hpts
  split at h
  · cases h
  simp only at h
  split at h
  · cases h
  simp only [Except.ok.injEq] at h
  subst h
  simp only
  have href' := href
  unfold Spec.isRefined at href'
  simp only [Bool.and_eq_true, bne_iff_ne, ne_eq] at href'
  obtain ⟨⟨hd, hnm⟩, hph⟩ := href'
  have hm : x.isInData[i]? = some true := by
    rw [List.getD_eq_getElem?_getD, List.getElem?_eq_getElem hi] at hd
    rw [List.getElem?_eq_getElem hi]
    simpa using hd
  have hi' : i < x.allPhaseId.length := by rw [wf.phase]; exact hi
  have hpi : x.allPhaseId[i]? = some (x.allPhaseId.getD i (-1)) := by
    rw [List.getD_eq_getElem?_getD, List.getElem?_eq_getElem hi']
    rfl
  -- the point is indexed, so its ID is not set to -1
  have hix : ((scatterMask (List.replicate pts.inData.length false) x.isInData
      x.isIndexed).map not)[i]? = some false := by
    unfold RMap.isIndexed RMap.phaseId
    rw [List.getElem?_map, scatterMask_select _ _ x.allPhaseId (fun p => p != -1) (by simp [hl1])
      wf.phase i _ hm hpi]
    simpa using hph
  have hsl : (scatterMask (List.replicate pts.inData.length false) x.isInData
      x.isIndexed).length = x.isInData.length :=
    scatterMask_length _ _ _ (by simp [hl1])
  rw [scatterMask_of_false _ _ _ (by rw [scatterMask_length _ _ _ (by simp), List.length_map, hsl, hl2])
    i hix, scatterMask_replicate_getElem _ _ _ (by simp) i (by rw [hr i hi, href]), hpi]
  congr 1
  -- all refined points have the same phase
  unfold indexedPoints at hpts
  split at hpts
  · cases hpts
  rename_i inData ids hp
  split at hpts
  · cases hpts
  rename_i hids
  split at hpts
  · cases hpts
  rename_i phase rest hfil
  split at hpts
  · cases hpts
  simp only [Except.ok.injEq] at hpts
  subst hpts
  simp only
  have hphase : phase ∈ ids ∧ phase ≠ -1 := by
    have : phase ∈ ids.filter (fun p => p != -1) := by rw [hfil]; exact List.mem_cons_self
    simpa using this
  have hmem : x.allPhaseId.getD i (-1) ∈ ids := by
    unfold pointsAndPhases at hp
    split at hp
    · simp only [Except.ok.injEq, Prod.mk.injEq] at hp
      obtain ⟨_, rfl⟩ := hp
      unfold uniqueIds
      rw [List.mem_dedup]
      unfold RMap.isIndexed
      have : x.allPhaseId.getD i (-1) ∈ x.phaseId := mem_selectMask_of_getElem wf.phase.symm hm hpi
      obtain ⟨k, hk⟩ := List.mem_iff_getElem?.1 this
      refine mem_selectMask_of_getElem (by simp) (i := k) ?_ hk
      rw [List.getElem?_map, hk]
      simpa using hph
    · rename_i m
      simp only at hp
      split at hp
      · cases hp
      split at hp
      · cases hp
      rename_i hlen
      simp only [List.length_map, not_not] at hlen
      simp only [Except.ok.injEq, Prod.mk.injEq] at hp
      obtain ⟨_, rfl⟩ := hp
      unfold uniqueIds
      rw [List.mem_dedup]
      unfold RMap.phaseId
      have hk1 := selectMask_getElem (mask := x.isInData) (l := m.2.map not) (by simp [hlen]) i hm
      have hk2 := selectMask_getElem (mask := x.isInData) (l := x.allPhaseId) wf.phase.symm i hm
      refine mem_selectMask_of_getElem ?_ (i := (x.isInData.take i).count true) ?_ ?_
      · rw [selectMask_length (by simp [hlen]), selectMask_length wf.phase.symm]
      · rw [hk1, List.getElem?_map, List.getElem?_eq_getElem (by omega)]
        simp only [Option.map_some, Option.getD_some] at hnm ⊢
        rw [List.getD_eq_getElem?_getD, List.getElem?_eq_getElem (by omega)] at hnm
        simpa using hnm
      · rw [hk2, hpi]
  have hnd : ids.Nodup := by
    unfold pointsAndPhases at hp
    split at hp
    · simp only [Except.ok.injEq, Prod.mk.injEq] at hp
      obtain ⟨_, rfl⟩ := hp
      exact List.nodup_dedup _
    · simp only at hp
      split at hp
      · cases hp
      split at hp
      · cases hp
      simp only [Except.ok.injEq, Prod.mk.injEq] at hp
      obtain ⟨_, rfl⟩ := hp
      exact List.nodup_dedup _
  exact uniqueIds_single hnd (not_not.1 hids) hphase.1 hmem hphase.2 hph

/-! ### The shape of refined PCs -/

theorem foldl_max_bound (l : List ℕ) (m : ℕ) :
    m ≤ l.foldl max m ∧ (∀ a ∈ l, a ≤ l.foldl max m) ∧ (l.foldl max m = m ∨ l.foldl max m ∈ l) := by
  induction l generalizing m with
  | nil => simp
  | cons b l ih =>
    obtain ⟨h1, h2, h3⟩ := ih (max m b)
    simp only [List.foldl_cons, List.mem_cons, forall_eq_or_imp]
    refine ⟨by omega, ⟨by omega, h2⟩, ?_⟩
    rcases h3 with h | h
    · rw [h]
      rcases max_choice m b with h' | h' <;> simp [h']
    · exact .inr (.inr h)

theorem foldl_min_bound (l : List ℕ) (m : ℕ) :
    l.foldl min m ≤ m ∧ (∀ a ∈ l, l.foldl min m ≤ a) := by
  induction l generalizing m with
  | nil => simp
  | cons b l ih =>
    obtain ⟨h1, h2⟩ := ih (min m b)
    simp only [List.foldl_cons, List.mem_cons, forall_eq_or_imp]
    exact ⟨by omega, by omega, h2⟩

theorem le_natMax {l : List ℕ} {a : ℕ} (h : a ∈ l) : a ≤ natMax l := (foldl_max_bound l 0).2.1 a h

theorem natMax_mem {l : List ℕ} (h : l ≠ []) : natMax l ∈ l := by
  rcases (foldl_max_bound l 0).2.2 with h0 | h0
  · obtain ⟨a, ha⟩ := List.exists_mem_of_ne_nil l h
    have h1 := le_natMax ha
    have h2 : natMax l = 0 := h0
    have h3 : a = natMax l := by omega
    rw [← h3]
    exact ha
  · exact h0

theorem natMin_le {l : List ℕ} {a : ℕ} (h : a ∈ l) : natMin l ≤ a := by
  cases l with
  | nil => simp at h
  | cons b l =>
    unfold natMin
    simp only
    rcases List.mem_cons.1 h with rfl | h
    · exact (foldl_min_bound l _).1
    · exact (foldl_min_bound l b).2 a h

theorem mem_whereTrue {a : List Bool} {i : ℕ} : i ∈ whereTrue a ↔ a[i]? = some true := by
  unfold whereTrue
  simp only [List.mem_filter, List.mem_range, List.getD_eq_getElem?_getD]
  constructor
  · rintro ⟨h, hv⟩
    rw [List.getElem?_eq_getElem h] at hv ⊢
    simpa using hv
  · intro h
    obtain ⟨hi, _⟩ := List.getElem?_eq_some_iff.1 h
    refine ⟨hi, ?_⟩
    rw [h]
    rfl

theorem whereTrue_nodup (a : List Bool) : (whereTrue a).Nodup :=
  List.Nodup.filter _ List.nodup_range

theorem whereTrue_length (a : List Bool) : (whereTrue a).length = a.count true := by
  unfold whereTrue
  have : ∀ n ≤ a.length, ((List.range n).filter (fun i => a.getD i false)).length =
      (a.take n).count true := by
    intro n hn
    induction n with
    | zero => simp
    | succ n ih =>
      rw [List.range_succ, List.filter_append, List.length_append, ih (by omega),
        List.take_add_one, List.count_append, List.getElem?_eq_getElem (by omega),
        List.filter_singleton, List.getD_eq_getElem?_getD, List.getElem?_eq_getElem (by omega)]
      simp only [Option.getD_some, Option.toList_some]
      cases a[n] <;> simp
  rw [this _ le_rfl, List.take_length]

/-- A full box: the points are exactly those of a rectangle. -/
theorem maskBox_full {r c : ℕ} {a : List Bool} {box : List ℕ}
    (h : maskBox [r, c] a = .ok (box, true)) :
    ∃ r0 c0 nr nc, box = [nr, nc] ∧ r0 + nr ≤ r ∧ c0 + nc ≤ c ∧ nr * nc = a.count true ∧
      ∀ i < r * c, a[i]? = some true ↔
        (r0 ≤ i / c ∧ i / c < r0 + nr) ∧ (c0 ≤ i % c ∧ i % c < c0 + nc) := by
  unfold maskBox at h
  simp only at h
  split at h
  · cases h
  rename_i hlen
  simp only [ne_eq, not_not] at hlen
  split at h
  · cases h
  rename_i hne
  simp only [Except.ok.injEq, Prod.mk.injEq, decide_eq_true_eq] at h
  obtain ⟨rfl, hfull⟩ := h
  have hc : 0 < c := by
    rcases Nat.eq_zero_or_pos c with h0 | h0
    · subst h0
      simp at hlen
      subst hlen
      exact absurd rfl hne
    · exact h0
  obtain ⟨rows, hrows⟩ : ∃ rows, rows = (whereTrue a).map (· / c) := ⟨_, rfl⟩
  obtain ⟨cols, hcols⟩ : ∃ cols, cols = (whereTrue a).map (· % c) := ⟨_, rfl⟩
  rw [← hrows, ← hcols] at hfull ⊢
  have hmemlt : ∀ i ∈ whereTrue a, i < r * c := by
    intro i hi
    rw [mem_whereTrue] at hi
    have := (List.getElem?_eq_some_iff.1 hi).1
    omega
  have hrmax : natMax rows < r := by
    have : natMax rows ∈ rows := natMax_mem (by rw [hrows]; simpa using hne)
    rw [hrows] at this
    obtain ⟨i, hi, he⟩ := List.mem_map.1 this
    rw [hrows, ← he]
    exact Nat.div_lt_of_lt_mul (by rw [Nat.mul_comm]; exact hmemlt i hi)
  have hcmax : natMax cols < c := by
    have : natMax cols ∈ cols := natMax_mem (by rw [hcols]; simpa using hne)
    rw [hcols] at this
    obtain ⟨i, hi, he⟩ := List.mem_map.1 this
    rw [hcols, ← he]
    exact Nat.mod_lt _ hc
  obtain ⟨i0, hi0⟩ := List.exists_mem_of_ne_nil _ hne
  have hr0 : natMin rows ≤ i0 / c ∧ i0 / c ≤ natMax rows :=
    ⟨natMin_le (by rw [hrows]; exact List.mem_map_of_mem hi0),
      le_natMax (by rw [hrows]; exact List.mem_map_of_mem hi0)⟩
  have hc0 : natMin cols ≤ i0 % c ∧ i0 % c ≤ natMax cols :=
    ⟨natMin_le (by rw [hcols]; exact List.mem_map_of_mem hi0),
      le_natMax (by rw [hcols]; exact List.mem_map_of_mem hi0)⟩
  refine ⟨natMin rows, natMin cols, _, _, rfl, by omega, by omega,
    by rw [hfull, whereTrue_length], fun i hi => ?_⟩
  rw [← mem_whereTrue]
  -- the points fill the box
  have himg : (whereTrue a).toFinset.image (fun i => (i / c, i % c)) =
      Finset.Icc (natMin rows) (natMax rows) ×ˢ Finset.Icc (natMin cols) (natMax cols) := by
    apply Finset.eq_of_subset_of_card_le
    · intro p hp
      rw [Finset.mem_image] at hp
      obtain ⟨j, hj, rfl⟩ := hp
      rw [List.mem_toFinset] at hj
      rw [Finset.mem_product, Finset.mem_Icc, Finset.mem_Icc]
      exact ⟨⟨natMin_le (by rw [hrows]; exact List.mem_map_of_mem hj),
          le_natMax (by rw [hrows]; exact List.mem_map_of_mem hj)⟩,
        ⟨natMin_le (by rw [hcols]; exact List.mem_map_of_mem hj),
          le_natMax (by rw [hcols]; exact List.mem_map_of_mem hj)⟩⟩
    · rw [Finset.card_image_of_injective, List.toFinset_card_of_nodup (whereTrue_nodup a), ← hfull,
        Finset.card_product, Nat.card_Icc, Nat.card_Icc]
      · apply le_of_eq
        congr 1 <;> omega
      · intro j k hjk
        simp only [Prod.mk.injEq] at hjk
        rw [← Nat.div_add_mod j c, ← Nat.div_add_mod k c, hjk.1, hjk.2]
  have hmem := Finset.ext_iff.1 himg (i / c, i % c)
  rw [Finset.mem_image, Finset.mem_product, Finset.mem_Icc, Finset.mem_Icc] at hmem
  simp only at hmem
  constructor
  · intro hi'
    have := hmem.1 ⟨i, List.mem_toFinset.2 hi', rfl⟩
    omega
  · intro hi'
    obtain ⟨j, hj, he⟩ := hmem.2 (by omega)
    simp only [Prod.mk.injEq] at he
    have : j = i := by rw [← Nat.div_add_mod j c, ← Nat.div_add_mod i c, he.1, he.2]
    rw [← this]
    exact List.mem_toFinset.1 hj

/-- C33: for a two-dimensional map, the refined PCs have two navigation dimensions only if the
refined points are a rectangle in the map, with the shape of that rectangle. -/
theorem C33_pc_shape [Zero K] {identity : R} {solve : P → R → C → Refined R C K} {x : RMap R}
    (wf : x.WF) {mask : Option (List ℕ × List Bool)} {patterns : List P} {detPc : List C}
    {chunks : List ℕ} {out : RefinedMap R C K}
    (h : refineMap identity solve x mask patterns detPc chunks = .ok out) {r c : ℕ}
    (hshape : x.shape = [r, c]) (hlen : x.isInData.length = r * c) :
    out.pcShape = [out.pc.length] ∨
    ∃ r0 c0 nr nc, out.pcShape = [nr, nc] ∧ r0 + nr ≤ r ∧ c0 + nc ≤ c ∧
      nr * nc = ((List.range x.isInData.length).filter (Spec.isRefined x mask)).length ∧
      ∀ i < x.isInData.length, Spec.isRefined x mask i = true ↔
        (r0 ≤ i / c ∧ i / c < r0 + nr) ∧ (c0 ≤ i % c ∧ i % c < c0 + nc) := by
  unfold refineMap at h
  split at h
  · cases h
  rename_i pts hpts
  obtain ⟨hl1, hl2, hin, hr⟩ := indexedPoints_spec wf hpts
  split at h
  · cases h
  simp only at h
  split at h
  · cases h
  simp only [Except.ok.injEq] at h
  subst h
  simp only [List.length_map]
  cases hms : pts.maskShape with
  | none => exact .inl rfl
  | some box =>
    refine .inr ?_
    have hcount : pts.inDataIndexed.count true =
        ((List.range x.isInData.length).filter (Spec.isRefined x mask)).length := by
      rw [← whereTrue_length]
      unfold whereTrue
      rw [hl2]
      congr 1
      refine List.filter_congr fun i hi => ?_
      rw [List.getD_eq_getElem?_getD, hr i (List.mem_range.1 hi)]
      rfl
    unfold indexedPoints at hpts
    split at hpts
    · cases hpts
    split at hpts
    · cases hpts
    split at hpts
    · cases hpts
    split at hpts
    · cases hpts
    rename_i box' full hbox
    simp only [Except.ok.injEq] at hpts
    rw [← hpts] at hms
    simp only at hms
    split at hms
    · cases hms
    rename_i hne
    simp only [Option.some.injEq] at hms
    subst hms
    simp only [not_or, ne_eq, not_not, Bool.not_eq_false] at hne
    obtain ⟨heq, rfl⟩ := hne
    rw [hshape] at hbox
    obtain ⟨r0, c0, nr, nc, hb, h1, h2, h3, h4⟩ := maskBox_full hbox
    refine ⟨r0, c0, nr, nc, by simpa using hb, h1, h2, ?_, fun i hi => ?_⟩
    · rw [h3, ← hcount, ← hpts]
      simp only
      rw [heq]
    · rw [← h4 i (by omega)]
      have := hr i hi
      rw [← hpts] at this
      simp only at this
      rw [heq] at this
      rw [this]
      simp

/-- A crystal map that was sliced (so that its `is_in_data` array is larger than its shape) can
not be refined: `ValueError` or `IndexError`. -/
theorem C33_sliced_map_raises [Zero K] {identity : R} {solve : P → R → C → Refined R C K}
    {x : RMap R} {mask : Option (List ℕ × List Bool)} {patterns : List P} {detPc : List C}
    {chunks : List ℕ} {r c : ℕ} (hshape : x.shape = [r, c]) (hlen : x.isInData.length ≠ r * c) :
    ∃ e, refineMap identity solve x mask patterns detPc chunks = .error e := by
  unfold refineMap
  cases hp : indexedPoints x mask with
  | error e => exact ⟨e, rfl⟩
  | ok pts =>
    exfalso
    unfold indexedPoints at hp
    split at hp
    · cases hp
    rename_i inData ids hpp
    have hl := (pointsAndPhases_getElem hpp).1
    split at hp
    · cases hp
    split at hp
    · cases hp
    rw [hshape] at hp
    unfold maskBox at hp
    simp only [hl, ne_eq, hlen, not_false_eq_true, if_true] at hp
    cases hp

/-! ### Non-vacuity -/

/-- A 2 x 3 map with one point not in the data and one not indexed. -/
def exampleRMap : RMap ℕ where
  shape := [2, 3]
  isInData := [true, true, true, true, true, false]
  allPhaseId := [1, 1, -1, 1, 1, 1]
  allRotations := [10, 11, 12, 13, 14, 15]

def exampleSolve (p r c : ℕ) : Refined ℕ ℕ ℕ := ⟨p, 1, r + 100, c⟩

def exampleNavMask : List ℕ × List Bool := ([2, 3], [true, false, false, false, false, false])

example : exampleRMap.WF := ⟨rfl, rfl⟩

/-- Point 0 is masked out, point 2 not indexed and point 5 not in the data. -/
example : (refineMap 0 exampleSolve exampleRMap (some exampleNavMask) [1, 2, 3, 4, 5, 6] [7]
    [2, 1]).toOption.map (fun o => (o.isInData, o.phaseId, o.scores, o.rotations)) =
    some ([false, true, true, true, true, false], [0, 1, -1, 1, 1, -1], [0, 2, 0, 4, 5, 0],
      [0, 111, 0, 113, 114, 0]) := by decide

example : ((List.range 6).filter (Spec.isRefined exampleRMap (some exampleNavMask))) = [1, 3, 4] := by
  decide

/-- A rectangle of refined points gives PCs with two navigation dimensions. -/
example : (refineMap 0 exampleSolve { exampleRMap with allPhaseId := [1, 1, 1, 1, 1, 1] }
    (some ([2, 3], [true, false, true, true, false, true])) [1, 2, 3, 4, 5, 6] [7, 8, 9, 10, 11, 12]
    [2]).toOption.map (fun o => (o.pc, o.pcShape)) = some ([8, 11], [2, 1]) := by decide

end Kp
