import Verif.Spec.PartIndexing
import Verif.Props.PartOfMap
import Verif.Props.IndexingCalls
import Verif.Props.RefinementMaps
import Verif.Props.HoughIndexing
import Verif.Props.SliceSignal

/-
C126: indexing or refining part of a map gives that part of the indexed or refined map.
-/

set_option linter.unusedSectionVars false

namespace Kp

open Spec

theorem pick_get {P : Type} {idx : List ℕ} {l : List P} (h : ∀ k ∈ idx, k < l.length) (j : ℕ) :
    (pick idx l)[j]? = idx[j]?.bind (fun k => l[k]?) := by
  induction idx generalizing j with
  | nil => simp [pick]
  | cons k idx ih =>
    have hk : k < l.length := h k (by simp)
    have e : pick (k :: idx) l = l[k] :: pick idx l := by simp [pick, hk]
    rw [e]
    cases j with
    | zero => simp [hk]
    | succ j => simpa using ih (fun a ha => h a (by simp [ha])) j

theorem pick_length {P : Type} {idx : List ℕ} {l : List P} (h : ∀ k ∈ idx, k < l.length) :
    (pick idx l).length = idx.length := by
  induction idx with
  | nil => rfl
  | cons k idx ih =>
    have hk : k < l.length := h k (by simp)
    have e : pick (k :: idx) l = l[k] :: pick idx l := by simp [pick, hk]
    rw [e, List.length_cons, ih (fun a ha => h a (by simp [ha])), List.length_cons]

theorem pick_get_at {P : Type} {idx : List ℕ} {l : List P} (h : ∀ k ∈ idx, k < l.length) {j k : ℕ}
    (hj : idx[j]? = some k) : (pick idx l)[j]? = l[k]? := by
  rw [pick_get h, hj]; rfl

/-- A list with the length of the part which agrees with the whole at every point is the part. -/
theorem eq_pick {P : Type} {idx : List ℕ} {l a : List P} (h : ∀ k ∈ idx, k < l.length)
    (hl : a.length = idx.length) (hg : ∀ j k : ℕ, idx[j]? = some k → a[j]? = l[k]?) :
    a = pick idx l := by
  apply List.ext_getElem?
  intro j
  rw [pick_get h]
  cases hj : idx[j]? with
  | none =>
    rw [List.getElem?_eq_none_iff] at hj
    simp only [Option.bind_none]
    rw [List.getElem?_eq_none_iff]
    omega
  | some k => exact hg j k hj

/-! ### Dictionary indexing -/

section
variable {K R : Type} [Field K] [LinearOrder K] [IsStrictOrderedRing K]
variable {argtopk argsort : List K → List ℕ}

/-- What a pattern is given when it is indexed alone. -/
def indexedAlone (argtopk argsort : List K → List ℕ) (sign : ℤ) (sim : List K → List K → K) (r0 : R)
    (rs : List R) (c : IndexingCall K R) (p : List K) : IndexedPoint K R :=
  let best := dictionaryIndexing argtopk argsort sign c.keepN (perIteration c)
    ((c.dictionary.map (unmaskedPixels c.sigMask)).map (sim (unmaskedPixels c.sigMask p)))
  ⟨true, best.map Prod.fst, best.map Prod.snd, best.map (fun b => rs.getD b.2 r0)⟩

theorem call_alone (sign : ℤ) (allowed : List MatchType) (sim : List K → List K → K) (r0 : R)
    (junk : ℕ → List K × List ℕ) (c : IndexingCall K R) (w : WellFormedCall c)
    (v : ValidArguments allowed c) (rs : List R)
    (hrs : c.dictMap = some ([c.dictionary.length], rs)) :
    ∃ r, (dictionaryIndexingCall argtopk argsort sign allowed sim r0 junk {} c).2 = .ok r ∧
      r.length = c.patterns.length ∧
      ∀ (i : ℕ) (p : List K), c.patterns[i]? = some p →
        ∃ q, r[i]? = some q ∧
          (q.inData = true ↔ ∀ m, c.navMask = some m → m.data[i]? = some false) ∧
          (q.inData = true → q = indexedAlone argtopk argsort sign sim r0 rs c p) := by
  obtain ⟨m1, m2⟩ := setMetric_new_masks c
  have hn : ∀ x, c.navMask = some x → x.data.length = c.patterns.length := by
    intro x hx; rw [w.navMask x hx, (v.navMask x hx).1, w.patterns]
  have E := indexWithMetric_eq (argtopk := argtopk) (argsort := argsort) sign sim r0 junk c w
    (setMetric {} c) (by rw [m1]; exact hn) (by rw [m2]; exact v.sigMask) v.signalShapes rs _ hrs
  rw [m1, m2] at E
  rw [call_valid sign allowed sim r0 junk c w v, E]
  refine ⟨_, rfl, ?_, ?_⟩
  · cases hc : c.navMask with
    | none => simp [indexMap]
    | some m =>
      rw [List.length_map]
      simp only [Option.map_some]
      rw [(C23_results_at_own_points _ _ m.data _ (by simp [hn m hc]) (by simp [hn m hc])).1]
      simp
  · intro i p hp
    have hi : i < c.patterns.length := (List.getElem?_eq_some_iff.1 hp).1
    cases hc : c.navMask with
    | none =>
      simp only [Option.map_none]
      refine ⟨_, by
        rw [List.getElem?_map, indexMap_none_get _ _ _ i (unmaskedPixels c.sigMask p) (by
          rw [List.getElem?_map, hp]; rfl)]
        rfl, ?_, ?_⟩
      · simp
      · intro _
        rfl
    | some m =>
      simp only [Option.map_some]
      have h := C23_results_at_own_points (fun p => (⟨true,
        (dictionaryIndexing argtopk argsort sign c.keepN (perIteration c)
          ((c.dictionary.map (unmaskedPixels c.sigMask)).map (sim p))).map Prod.fst,
        (dictionaryIndexing argtopk argsort sign c.keepN (perIteration c)
          ((c.dictionary.map (unmaskedPixels c.sigMask)).map (sim p))).map Prod.snd,
        (dictionaryIndexing argtopk argsort sign c.keepN (perIteration c)
          ((c.dictionary.map (unmaskedPixels c.sigMask)).map (sim p))).map
            (fun b => rs.getD b.2 r0)⟩ : IndexedPoint K R))
        ((List.range c.patterns.length).map (fun i => (⟨false, (junk i).1, (junk i).2,
          List.replicate (min c.keepN c.dictionary.length) r0⟩ : IndexedPoint K R)))
        m.data (c.patterns.map (unmaskedPixels c.sigMask)) (by simp [hn m hc])
        (by simp [hn m hc])
      obtain ⟨-, h2, h3⟩ := h
      have him : i < m.data.length := by rw [hn m hc]; exact hi
      have hmi : m.data[i]? = some (m.data[i]) := List.getElem?_eq_getElem him
      cases hb : m.data[i] with
      | true =>
        rw [hb] at hmi
        have h2' := h2 i true hmi
        rw [Option.map_eq_some_iff] at h2'
        obtain ⟨q, hq, hq2⟩ := h2'
        refine ⟨_, by rw [List.getElem?_map, hq]; rfl, ?_, ?_⟩
        · simp only [hq2]; simp [hmi]
        · simp only [hq2]; simp
      | false =>
        rw [hb] at hmi
        have h3' := h3 i (unmaskedPixels c.sigMask p) hmi (by rw [List.getElem?_map, hp]; rfl)
        refine ⟨_, by rw [List.getElem?_map, h3']; rfl, ?_, ?_⟩
        · simp [hmi]
        · intro _
          rfl

/-- The arrays given for a part have the lengths of their shapes. -/
theorem callPart_wellFormed (c : IndexingCall K R) (w : WellFormedCall c) {shape idx : List ℕ}
    {allowed : List MatchType} (v : ValidArguments allowed c)
    (hi : ∀ k ∈ idx, k < c.patterns.length) (hs : shape.prod = idx.length) (hne : idx ≠ []) :
    WellFormedCall (callPart shape idx c) where
  patterns := by
    show (pick idx c.patterns).length = shape.prod
    rw [pick_length hi, hs]
  pixels p hp := w.pixels p (mem_pick hp)
  dictPixels := w.dictPixels
  dictMap := w.dictMap
  navMask m hm := by
    obtain ⟨m0, h0, rfl⟩ := Option.map_eq_some_iff.1 hm
    have e : m0.data.length = c.patterns.length := by
      rw [w.navMask m0 h0, (v.navMask m0 h0).1, w.patterns]
    show (pick idx m0.data).length = shape.prod
    rw [pick_length (by rw [e]; exact hi), hs]
  sigMask := w.sigMask
  nonempty := by
    show pick idx c.patterns ≠ []
    intro h
    have := pick_length hi
    rw [h] at this
    exact hne (List.length_eq_zero_iff.1 this.symm)
  perIteration := w.perIteration

/-- C126.  Indexing part of a map, with the navigation mask of the part and the same dictionary,
metric and other arguments, gives that part of the map indexed as a whole: the same points are in
the data and they have the same scores, dictionary indices and rotations.  This holds for every
metric (whatever its sign), every sorting routine and whatever was in memory (`junk`, `junk'`). -/
theorem C126_dictionary (sign : ℤ) (allowed : List MatchType) (sim : List K → List K → K) (r0 : R)
    (junk junk' : ℕ → List K × List ℕ) (c : IndexingCall K R) (w : WellFormedCall c)
    (v : ValidArguments allowed c) {shape idx : List ℕ}
    (hi : ∀ k ∈ idx, k < c.patterns.length) (hs : shape.prod = idx.length)
    (hkeep : ∃ k ∈ idx, ∀ m, c.navMask = some m → m.data[k]? = some false) :
    ∃ r r', (dictionaryIndexingCall argtopk argsort sign allowed sim r0 junk {} c).2 = .ok r ∧
      (dictionaryIndexingCall argtopk argsort sign allowed sim r0 junk' {}
        (callPart shape idx c)).2 = .ok r' ∧
      SameIndexed (pick idx r) r' := by
  obtain ⟨k0, hk0, hk0m⟩ := hkeep
  have hne : idx ≠ [] := by rintro rfl; simp at hk0
  obtain ⟨rs, hrs⟩ := v.dictMap
  have w' := callPart_wellFormed c w v hi hs hne
  have hml : ∀ m, c.navMask = some m → m.data.length = c.patterns.length := by
    intro x hx; rw [w.navMask x hx, (v.navMask x hx).1, w.patterns]
  have v' : ValidArguments allowed (callPart shape idx c) :=
    { navMask := by
        intro m hm
        obtain ⟨m0, h0, rfl⟩ := Option.map_eq_some_iff.1 hm
        refine ⟨rfl, ?_⟩
        show false ∈ pick idx m0.data
        exact List.mem_filterMap.2 ⟨k0, hk0, hk0m m0 h0⟩
      sigMask := v.sigMask
      signalShapes := v.signalShapes
      dictMap := v.dictMap
      metric := v.metric
      dtype := v.dtype }
  obtain ⟨r, h1, h2, h3⟩ := call_alone (argtopk := argtopk) (argsort := argsort) sign allowed sim r0
    junk c w v rs hrs
  obtain ⟨r', h1', h2', h3'⟩ := call_alone (argtopk := argtopk) (argsort := argsort) sign allowed sim
    r0 junk' (callPart shape idx c) w' v' rs hrs
  refine ⟨r, r', h1, h1', ?_⟩
  have hir : ∀ k ∈ idx, k < r.length := by rw [h2]; exact hi
  have hlen' : r'.length = idx.length := by
    rw [h2']; exact pick_length hi
  unfold SameIndexed
  rw [List.forall₂_iff_get]
  refine ⟨by rw [pick_length hir, hlen'], fun j hj hj' => ?_⟩
  have hjl : j < idx.length := by omega
  have hk : idx[j]? = some idx[j] := List.getElem?_eq_getElem hjl
  have hkm : idx[j] < c.patterns.length := hi _ (List.getElem_mem hjl)
  generalize idx[j] = k at hk hkm
  have hp : c.patterns[k]? = some c.patterns[k] := List.getElem?_eq_getElem hkm
  obtain ⟨q, hq, hin, hqe⟩ := h3 k _ hp
  obtain ⟨q', hq', hin', hqe'⟩ := h3' j c.patterns[k] (by
    show (pick idx c.patterns)[j]? = _
    rw [pick_get_at hi hk, hp])
  have e1 : (pick idx r).get ⟨j, hj⟩ = q := by
    have := pick_get_at hir hk
    rw [hq, List.getElem?_eq_getElem hj] at this
    simpa using this
  have e2 : r'.get ⟨j, hj'⟩ = q' := by
    rw [List.getElem?_eq_getElem hj'] at hq'
    simpa using hq'
  rw [e1, e2]
  have hiff : q.inData = true ↔ q'.inData = true := by
    rw [hin, hin']
    constructor
    · intro h m hm
      obtain ⟨m0, h0, rfl⟩ := Option.map_eq_some_iff.1 hm
      show (pick idx m0.data)[j]? = _
      rw [pick_get_at (by rw [hml m0 h0]; exact hi) hk]
      exact h m0 h0
    · intro h m hm
      have := h ⟨shape, pick idx m.data⟩ (by show c.navMask.map _ = _; rw [hm]; rfl)
      rw [← this]
      exact (pick_get_at (by rw [hml m hm]; exact hi) hk).symm
  refine ⟨Bool.eq_iff_iff.2 hiff, fun h => ?_⟩
  rw [hqe h, hqe' (hiff.1 h)]
  rfl

/-- C126.  The exception: if the mask leaves nothing in the part, `ValueError` is raised. -/
theorem C126_dictionary_all_masked (sign : ℤ) (allowed : List MatchType)
    (sim : List K → List K → K) (r0 : R) (junk : ℕ → List K × List ℕ) (c : IndexingCall K R)
    {shape idx : List ℕ} {m : BoolArray} (hm : c.navMask = some m)
    (hall : ∀ k ∈ idx, m.data[k]? ≠ some false) :
    (dictionaryIndexingCall argtopk argsort sign allowed sim r0 junk {}
      (callPart shape idx c)).2 = .error .navMaskFull := by
  have hf : (pick idx m.data).all id = true := by
    rw [List.all_eq_true]
    intro b hb
    obtain ⟨k, hk, hb⟩ := List.mem_filterMap.1 hb
    cases b with
    | true => rfl
    | false => exact absurd hb (hall k hk)
  have hc : checkIndexingCall (callPart shape idx c) = .error .navMaskFull := by
    unfold checkIndexingCall callPart
    simp [hm, hf, throw, throwThe, MonadExceptOf.throw, bind, Except.bind]
  simp [dictionaryIndexingCall, hc]

end

/-! ### Refinement -/

section
variable {R : Type}

theorem mem_selectMask {α : Type} {m : List Bool} {l : List α} {a : α} :
    a ∈ selectMask m l ↔ ∃ i : ℕ, m[i]? = some true ∧ l[i]? = some a := by
  induction m generalizing l with
  | nil => simp
  | cons b m ih =>
    cases l with
    | nil => simp
    | cons x l =>
      cases b
      · rw [selectMask_cons_false, ih]
        constructor
        · rintro ⟨i, h1, h2⟩; exact ⟨i + 1, by simpa using h1, by simpa using h2⟩
        · rintro ⟨i, h1, h2⟩
          cases i with
          | zero => simp at h1
          | succ i => exact ⟨i, by simpa using h1, by simpa using h2⟩
      · rw [selectMask_cons_true, List.mem_cons, ih]
        constructor
        · rintro (rfl | ⟨i, h1, h2⟩)
          · exact ⟨0, by simp, by simp⟩
          · exact ⟨i + 1, by simpa using h1, by simpa using h2⟩
        · rintro ⟨i, h1, h2⟩
          cases i with
          | zero => left; simpa using h2.symm
          | succ i => right; exact ⟨i, by simpa using h1, by simpa using h2⟩

theorem selectMask_twice {α : Type} {d m : List Bool} {l : List α} (h1 : m.length = d.length)
    (h2 : l.length = d.length) :
    selectMask (selectMask d m) (selectMask d l) = selectMask (List.zipWith (· && ·) d m) l := by
  induction d generalizing m l with
  | nil => simp
  | cons b d ih =>
    obtain ⟨x, m, rfl⟩ := List.exists_cons_of_length_eq_add_one h1
    obtain ⟨y, l, rfl⟩ := List.exists_cons_of_length_eq_add_one h2
    have ih' := ih (m := m) (l := l) (by simpa using h1) (by simpa using h2)
    cases b <;> cases x <;> simp [ih']

theorem selectMask_ne (l : List ℤ) : selectMask (l.map (fun p => p != -1)) l =
    l.filter (fun p => p != -1) := by
  induction l with
  | nil => rfl
  | cons a l ih =>
    by_cases h : a = -1
    · subst h; simpa using ih
    · have : (a != -1) = true := by simpa using h
      rw [List.map_cons, this, selectMask_cons_true, ih]
      simp [h]

/-- A point is in the data and not masked out. -/
def Visible (x : RMap R) (mask : Option (List ℕ × List Bool)) (i : ℕ) : Prop :=
  x.isInData[i]? = some true ∧ ∀ m, mask = some m → m.2[i]? = some false

/-- The phases which are looked at. -/
theorem pointsAndPhases_ids {x : RMap R} (wf : x.WF) {mask : Option (List ℕ × List Bool)}
    {inData : List Bool} {ids : List ℤ} (h : pointsAndPhases x mask = .ok (inData, ids)) :
    ids.Nodup ∧ ∀ p, p ∈ ids ↔
      ∃ i, Visible x mask i ∧ x.allPhaseId[i]? = some p ∧ (mask = none → p ≠ -1) := by
  unfold pointsAndPhases at h
  split at h
  · simp only [Except.ok.injEq, Prod.mk.injEq] at h
    obtain ⟨-, rfl⟩ := h
    refine ⟨List.nodup_dedup _, fun p => ?_⟩
    unfold uniqueIds RMap.isIndexed
    rw [List.mem_dedup, selectMask_ne, List.mem_filter]
    unfold RMap.phaseId
    rw [mem_selectMask]
    constructor
    · rintro ⟨⟨i, h1, h2⟩, h3⟩
      exact ⟨i, ⟨h1, by simp⟩, h2, fun _ => by simpa using h3⟩
    · rintro ⟨i, ⟨h1, -⟩, h2, h3⟩
      exact ⟨⟨i, h1, h2⟩, by simpa using h3 rfl⟩
  · rename_i m
    simp only at h
    split at h
    · cases h
    split at h
    · cases h
    rename_i hlen
    simp only [not_not] at hlen
    simp only [Except.ok.injEq, Prod.mk.injEq] at h
    obtain ⟨-, rfl⟩ := h
    refine ⟨List.nodup_dedup _, fun p => ?_⟩
    unfold uniqueIds
    rw [List.mem_dedup]
    unfold RMap.phaseId
    rw [selectMask_twice hlen wf.phase, mem_selectMask]
    constructor
    · rintro ⟨i, h1, h2⟩
      rw [zipWith_and_getElem] at h1
      refine ⟨i, ⟨h1.1, ?_⟩, h2, by simp⟩
      rintro m' hm
      simp only [Option.some.injEq] at hm
      subst hm
      simpa using h1.2
    · rintro ⟨i, ⟨h1, hm⟩, h2, -⟩
      refine ⟨i, ?_, h2⟩
      rw [zipWith_and_getElem]
      exact ⟨h1, by rw [List.getElem?_map, hm m rfl]; rfl⟩

theorem isRefined_iff {x : RMap R} (wf : x.WF) {mask : Option (List ℕ × List Bool)}
    (hm : ∀ m, mask = some m → m.2.length = x.isInData.length) {i : ℕ} (hi : i < x.isInData.length) :
    isRefined x mask i = true ↔ Visible x mask i ∧ ∃ p, x.allPhaseId[i]? = some p ∧ p ≠ -1 := by
  have h1 : x.isInData[i]? = some x.isInData[i] := List.getElem?_eq_getElem hi
  have hi' : i < x.allPhaseId.length := by rw [wf.phase]; exact hi
  have h2 : x.allPhaseId[i]? = some x.allPhaseId[i] := List.getElem?_eq_getElem hi'
  unfold isRefined Visible
  simp only [List.getD_eq_getElem?_getD, h1, h2, Option.getD_some, Bool.and_eq_true, bne_iff_ne,
    Option.some.injEq]
  cases mask with
  | none => simp
  | some m =>
    have h3 : m.2[i]? = some (m.2[i]'(by rw [hm m rfl]; exact hi)) :=
      List.getElem?_eq_getElem (by rw [hm m rfl]; exact hi)
    simp [h3]

theorem filter_single {ids : List ℤ} (hnd : ids.Nodup) {ph : ℤ} (hph : ph ≠ -1) (hmem : ph ∈ ids)
    (hall : ∀ p ∈ ids, p ≠ -1 → p = ph) :
    (ids.length = 1 ∨ (ids.length = 2 ∧ -1 ∈ ids)) ∧ ids.filter (fun p => p != -1) = [ph] := by
  have hf : ids.filter (fun p => p != -1) = [ph] := by
    have hnd' := hnd.filter (fun p => p != -1)
    have hm : ∀ p, p ∈ ids.filter (fun p => p != -1) ↔ p = ph := by
      intro p
      rw [List.mem_filter]
      constructor
      · rintro ⟨h1, h2⟩; exact hall p h1 (by simpa using h2)
      · rintro rfl; exact ⟨hmem, by simpa using hph⟩
    exact List.perm_singleton.1 ((List.perm_ext_iff_of_nodup hnd' (by simp)).2 (by simpa using hm))
  refine ⟨?_, hf⟩
  have hlen := List.length_eq_length_filter_add (l := ids) (fun p => p != -1)
  rw [hf] at hlen
  have h2 : (ids.filter (fun p => !(p != -1))).length ≤ 1 := by
    have hnd' := hnd.filter (fun p => !(p != -1))
    have : ∀ p ∈ ids.filter (fun p => !(p != -1)), p = -1 := by
      intro p hp
      simpa using (List.mem_filter.1 hp).2
    rcases hl : ids.filter (fun p => !(p != -1)) with _ | ⟨a, _ | ⟨b, l⟩⟩
    · simp
    · simp
    · rw [hl] at this hnd'
      have e1 := this a (by simp)
      have e2 := this b (by simp)
      simp [e1, e2] at hnd'
  simp only [List.length_singleton] at hlen
  by_cases hmm : -1 ∈ ids
  · have : -1 ∈ ids.filter (fun p => !(p != -1)) := List.mem_filter.2 ⟨hmm, by simp⟩
    have := List.length_pos_of_mem this
    right
    exact ⟨by omega, hmm⟩
  · left
    have : ids.filter (fun p => !(p != -1)) = [] := by
      rw [List.filter_eq_nil_iff]
      intro p hp
      have : p ≠ -1 := fun h => hmm (h ▸ hp)
      simpa using this
    rw [this] at hlen
    simpa using hlen

/-- All refined points have the phase which is reported. -/
theorem visible_phase {x : RMap R} (wf : x.WF) {mask : Option (List ℕ × List Bool)}
    {pts : IndexedPoints} (h : indexedPoints x mask = .ok pts)
    {i : ℕ} {p : ℤ} (hv : Visible x mask i) (hp : x.allPhaseId[i]? = some p) (hp' : p ≠ -1) :
    p = pts.phaseId := by
  unfold indexedPoints at h
  split at h
  · cases h
  rename_i inData ids hpp
  obtain ⟨hnd, hmem⟩ := pointsAndPhases_ids wf hpp
  split at h
  · cases h
  rename_i hids
  split at h
  · cases h
  rename_i phase rest hfil
  split at h
  · cases h
  simp only [Except.ok.injEq] at h
  subst h
  have hphase : phase ∈ ids ∧ phase ≠ -1 := by
    have : phase ∈ ids.filter (fun p => p != -1) := by rw [hfil]; exact List.mem_cons_self
    simpa using this
  exact uniqueIds_single hnd (not_not.1 hids) ((hmem p).2 ⟨i, hv, hp, fun _ => hp'⟩) hphase.1 hp'
    hphase.2

theorem maskBox_ok {shape : List ℕ} {a : List Bool} (hs : ShapeOf a.length shape)
    (h : ∃ i : ℕ, a[i]? = some true) : ∃ b, maskBox shape a = .ok b := by
  obtain ⟨i, hi⟩ := h
  have hw : i ∈ whereTrue a := mem_whereTrue.2 hi
  have hne : whereTrue a ≠ [] := List.ne_nil_of_mem hw
  rcases hs with rfl | ⟨r, c, rfl, hrc⟩
  · unfold maskBox
    simp only
    rw [List.head?_eq_some_head hne, List.getLast?_eq_some_getLast hne]
    exact ⟨_, rfl⟩
  · unfold maskBox
    simp only [hrc, ne_eq, not_true_eq_false, if_false, hne]
    exact ⟨_, rfl⟩

/-- A map with a refined point and one phase in the refined points is accepted. -/
theorem indexedPoints_ok {x : RMap R} (wf : x.WF) {mask : Option (List ℕ × List Bool)}
    (hs : ShapeOf x.isInData.length x.shape)
    (hm : ∀ m, mask = some m → m.1 = x.shape ∧ m.2.length = x.isInData.length)
    {i : ℕ} {ph : ℤ} (hv : Visible x mask i) (hp : x.allPhaseId[i]? = some ph) (hp' : ph ≠ -1)
    (hall : ∀ j p, Visible x mask j → x.allPhaseId[j]? = some p → p ≠ -1 → p = ph) :
    ∃ pts, indexedPoints x mask = .ok pts ∧ pts.phaseId = ph := by
  obtain ⟨inData, ids, hpp⟩ : ∃ d ids, pointsAndPhases x mask = .ok (d, ids) := by
    unfold pointsAndPhases
    cases mask with
    | none => exact ⟨_, _, rfl⟩
    | some m =>
      obtain ⟨h1, h2⟩ := hm m rfl
      simp [h1, h2]
  obtain ⟨hl, hget⟩ := pointsAndPhases_getElem hpp
  obtain ⟨hnd, hmem⟩ := pointsAndPhases_ids wf hpp
  have hin : ph ∈ ids := (hmem ph).2 ⟨i, hv, hp, fun _ => hp'⟩
  obtain ⟨hf1, hf2⟩ := filter_single hnd hp' hin (by
    intro p hp1 hp2
    obtain ⟨j, hj, hj2, -⟩ := (hmem p).1 hp1
    exact hall j p hj hj2 hp2)
  have hi : i < x.isInData.length := (List.getElem?_eq_some_iff.1 hv.1).1
  obtain ⟨b, hb⟩ := maskBox_ok (shape := x.shape) (a := inData) (by rw [hl]; exact hs) ⟨i, by
    rw [hget i hi, List.getD_eq_getElem?_getD, hv.1]
    cases mask with
    | none => simp
    | some m => simp [List.getD_eq_getElem?_getD, hv.2 m rfl]⟩
  unfold indexedPoints
  simp only [hpp, if_neg (not_not.2 hf1), hf2, hb]
  exact ⟨_, rfl, rfl⟩

end

section
variable {P R C K : Type} [Zero K]

theorem refineMap_lengths {identity : R} {solve : P → R → C → Refined R C K} {x : RMap R}
    (wf : x.WF) {mask : Option (List ℕ × List Bool)} {patterns : List P} {detPc : List C}
    {chunks : List ℕ} {out : RefinedMap R C K}
    (h : refineMap identity solve x mask patterns detPc chunks = .ok out) :
    patterns.length = x.isInData.length ∧ detPc ≠ [] ∧
    (∃ pts, indexedPoints x mask = .ok pts) ∧
    out.isInData.length = x.isInData.length ∧ out.phaseId.length = x.isInData.length ∧
    out.scores.length = x.isInData.length ∧ out.numEvals.length = x.isInData.length ∧
    out.rotations.length = x.isInData.length ∧
    ∀ i < x.isInData.length, x.isInData.getD i false = true → x.allPhaseId.getD i (-1) ≠ -1 →
      isRefined x mask i = false → out.phaseId[i]? = some 0 := by
  unfold refineMap at h
  split at h
  · cases h
  rename_i pts hpts
  obtain ⟨hl1, hl2, hin, hr⟩ := indexedPoints_spec wf hpts
  split at h
  · cases h
  rename_i hlen
  simp only [not_not] at hlen
  simp only at h
  split at h
  · cases h
  simp only [Except.ok.injEq] at h
  subst h
  have hsl : (scatterMask (List.replicate pts.inData.length false) x.isInData
      x.isIndexed).length = x.isInData.length :=
    scatterMask_length _ _ _ (by simp [hl1])
  refine ⟨by omega, by simp, ⟨_, hpts⟩, hl1, ?_, ?_, ?_, ?_, ?_⟩
  · simp only
    rw [scatterMask_length _ _ _ (by
      rw [scatterMask_length _ _ _ (by simp), List.length_map, hsl, hl2]), List.length_map, hsl]
  · simp only
    rw [scatterMask_length _ _ _ (by simp), hl2]
  · simp only
    rw [scatterMask_length _ _ _ (by simp), hl2]
  · simp only
    rw [scatterMask_length _ _ _ (by simp), hl2]
  · intro i hi hd hph href
    simp only
    have hm : x.isInData[i]? = some true := by
      rw [List.getD_eq_getElem?_getD, List.getElem?_eq_getElem hi] at hd
      rw [List.getElem?_eq_getElem hi]
      simpa using hd
    have hi' : i < x.allPhaseId.length := by rw [wf.phase]; exact hi
    have hpi : x.allPhaseId[i]? = some (x.allPhaseId.getD i (-1)) := by
      rw [List.getD_eq_getElem?_getD, List.getElem?_eq_getElem hi']
      rfl
    have hix : ((scatterMask (List.replicate pts.inData.length false) x.isInData
        x.isIndexed).map not)[i]? = some false := by
      unfold RMap.isIndexed RMap.phaseId
      rw [List.getElem?_map, scatterMask_select _ _ x.allPhaseId (fun p => p != -1) (by simp [hl1])
        wf.phase i _ hm hpi]
      simpa using hph
    rw [scatterMask_of_false _ _ _ (by
      rw [scatterMask_length _ _ _ (by simp), List.length_map, hsl, hl2]) i hix,
      scatterMask_of_false _ _ _ (by simp) i (by rw [hr i hi, href])]
    rw [List.getElem?_replicate, if_pos (by omega)]

theorem range_filter_take {idx : List ℕ} {f g : ℕ → Bool} (hfg : ∀ j k, idx[j]? = some k → g j = f k)
    {n : ℕ} (hn : n ≤ idx.length) :
    ((List.range n).filter g).length = ((idx.take n).filter f).length := by
  induction n with
  | zero => simp
  | succ n ih =>
    have hlt : n < idx.length := by omega
    rw [List.range_succ, List.filter_append, List.length_append, ih (by omega),
      List.take_add_one, List.filter_append, List.length_append, List.getElem?_eq_getElem hlt]
    congr 1
    have := hfg n _ (List.getElem?_eq_getElem hlt)
    simp only [List.filter_singleton, Option.toList_some, this]
    cases f idx[n] <;> rfl

/-- C126.  Refining part of a map, with the patterns, navigation mask and projection centers of the
part, gives that part of the map refined as a whole: the same points in the data, with the same
phases, scores, numbers of evaluations and rotations, and the refined projection centers of the
refined points of the part in their order.  The part is given as a crystal map of these points
alone; it must have a refined point.  The chunks need not have anything to do with each other. -/
theorem C126_refine {identity : R} {solve : P → R → C → Refined R C K} {x : RMap R} (wf : x.WF)
    {mask : Option (List ℕ × List Bool)} {patterns : List P} {detPc : List C}
    (hpc : detPc.length = 1 ∨ detPc.length = patterns.length) {chunks : List ℕ}
    (hch : chunks.sum = ((List.range x.isInData.length).filter (isRefined x mask)).length)
    {out : RefinedMap R C K}
    (h : refineMap identity solve x mask patterns detPc chunks = .ok out)
    {shape idx : List ℕ} (hi : ∀ k ∈ idx, k < patterns.length) (hs : ShapeOf idx.length shape)
    (hsome : ∃ k ∈ idx, isRefined x mask k = true) {chunks' : List ℕ}
    (hch' : chunks'.sum = (idx.filter (isRefined x mask)).length) :
    ∃ out', refineMap identity solve (mapPart shape idx x) (maskPart shape idx mask)
        (pick idx patterns) (pcPart idx detPc) chunks' = .ok out' ∧
      out'.isInData = pick idx out.isInData ∧ out'.phaseId = pick idx out.phaseId ∧
      out'.scores = pick idx out.scores ∧ out'.numEvals = pick idx out.numEvals ∧
      out'.rotations = pick idx out.rotations ∧
      ∀ j k, idx[j]? = some k → isRefined x mask k = true →
        ∃ c, out.pc[((List.range k).filter (isRefined x mask)).length]? = some c ∧
          out'.pc[((idx.take j).filter (isRefined x mask)).length]? = some c := by
  obtain ⟨hpl, hdne, ⟨pts, hpts⟩, l1, l2, l3, l4, l5, hz⟩ := refineMap_lengths wf h
  have hW := C33_each_point wf hpc hch h
  have hiD : ∀ k ∈ idx, k < x.isInData.length := by rw [← hpl]; exact hi
  have hiP : ∀ k ∈ idx, k < x.allPhaseId.length := by rw [wf.phase]; exact hiD
  have hiR : ∀ k ∈ idx, k < x.allRotations.length := by rw [wf.rot]; exact hiD
  have wf' : (mapPart shape idx x).WF :=
    ⟨by simp only [mapPart]; rw [pick_length hiP, pick_length hiD],
      by simp only [mapPart]; rw [pick_length hiR, pick_length hiD]⟩
  have hn' : (mapPart shape idx x).isInData.length = idx.length := pick_length hiD
  -- the mask has the shape and number of points of the map
  have hmask : ∀ m, mask = some m → m.1 = x.shape ∧ m.2.length = x.isInData.length := by
    intro m hm
    subst hm
    unfold indexedPoints at hpts
    split at hpts
    · cases hpts
    rename_i hpp
    unfold pointsAndPhases at hpp
    simp only at hpp
    split at hpp
    · cases hpp
    rename_i hm1
    split at hpp
    · cases hpp
    rename_i hm2
    simp only [List.length_map, not_not] at hm1 hm2
    exact ⟨hm1, hm2⟩
  have hmask' : ∀ m, maskPart shape idx mask = some m →
      m.1 = (mapPart shape idx x).shape ∧ m.2.length = (mapPart shape idx x).isInData.length := by
    intro m hm
    obtain ⟨m0, h0, rfl⟩ := Option.map_eq_some_iff.1 hm
    refine ⟨rfl, ?_⟩
    rw [hn']
    exact pick_length (by rw [(hmask m0 h0).2]; exact hiD)
  have hgD : ∀ j k, idx[j]? = some k →
      (mapPart shape idx x).isInData.getD j false = x.isInData.getD k false := by
    intro j k hjk
    rw [List.getD_eq_getElem?_getD, List.getD_eq_getElem?_getD]
    congr 1
    exact pick_get_at hiD hjk
  have hgP : ∀ j k, idx[j]? = some k →
      (mapPart shape idx x).allPhaseId.getD j (-1) = x.allPhaseId.getD k (-1) := by
    intro j k hjk
    rw [List.getD_eq_getElem?_getD, List.getD_eq_getElem?_getD]
    congr 1
    exact pick_get_at hiP hjk
  have hgM : ∀ j k, idx[j]? = some k →
      (((maskPart shape idx mask).map Prod.snd).getD []).getD j false =
        ((mask.map Prod.snd).getD []).getD k false := by
    intro j k hjk
    cases hm : mask with
    | none => simp [maskPart]
    | some m =>
      simp only [maskPart, Option.map_some, Option.getD_some, List.getD_eq_getElem?_getD]
      rw [pick_get_at (by rw [(hmask m hm).2]; exact hiD) hjk]
  have hgI : ∀ j k, idx[j]? = some k →
      isRefined (mapPart shape idx x) (maskPart shape idx mask) j = isRefined x mask k := by
    intro j k hjk
    unfold isRefined
    rw [hgD j k hjk, hgP j k hjk, hgM j k hjk]
  have hjlt : ∀ {j k : ℕ}, idx[j]? = some k → j < idx.length ∧ k < x.isInData.length :=
    fun {j k} hjk => ⟨(List.getElem?_eq_some_iff.1 hjk).1, hiD k (List.mem_of_getElem? hjk)⟩
  -- the part is accepted
  obtain ⟨k0, hk0, hk0r⟩ := hsome
  obtain ⟨j0, hj0⟩ := List.mem_iff_getElem?.1 hk0
  have hvis : ∀ j k, idx[j]? = some k →
      (Visible (mapPart shape idx x) (maskPart shape idx mask) j ↔ Visible x mask k) := by
    intro j k hjk
    unfold Visible
    constructor
    · rintro ⟨h1, h2⟩
      refine ⟨by rw [← h1]; exact (pick_get_at hiD hjk).symm, fun m hm => ?_⟩
      rw [← h2 (shape, pick idx m.2) (by rw [maskPart, hm]; rfl)]
      exact (pick_get_at (by rw [(hmask m hm).2]; exact hiD) hjk).symm
    · rintro ⟨h1, h2⟩
      refine ⟨by rw [← h1]; exact pick_get_at hiD hjk, fun m hm => ?_⟩
      obtain ⟨m0, h0, rfl⟩ := Option.map_eq_some_iff.1 hm
      rw [← h2 m0 h0]
      exact pick_get_at (by rw [(hmask m0 h0).2]; exact hiD) hjk
  have hph' : ∀ j k, idx[j]? = some k → (mapPart shape idx x).allPhaseId[j]? = x.allPhaseId[k]? :=
    fun j k hjk => pick_get_at hiP hjk
  obtain ⟨hv0, ph, hp0, hp0'⟩ := (isRefined_iff wf (fun m hm => (hmask m hm).2)
    (hjlt hj0).2).1 hk0r
  have hphe : ph = pts.phaseId := visible_phase wf hpts hv0 hp0 hp0'
  obtain ⟨pts', hpts', -⟩ := indexedPoints_ok wf' (by rw [hn']; exact hs) hmask'
    ((hvis j0 k0 hj0).2 hv0) (by rw [hph' j0 k0 hj0]; exact hp0) hp0' (by
      intro j p hv hp hp1
      have hj : j < idx.length := by
        have := (List.getElem?_eq_some_iff.1 hv.1).1
        omega
      have hjk : idx[j]? = some idx[j] := List.getElem?_eq_getElem hj
      rw [hphe]
      exact visible_phase wf hpts ((hvis j _ hjk).1 hv) (by rw [← hph' j _ hjk]; exact hp)
        hp1)
  have hpc' : (pcPart idx detPc).length = 1 ∨
      (pcPart idx detPc).length = (pick idx patterns).length := by
    unfold pcPart
    split_ifs with h1
    · exact .inl h1
    · right
      rw [pick_length hi, pick_length (by rw [hpc.resolve_left h1]; exact hi)]
  have hpcne : pcPart idx detPc ≠ [] := by
    intro h0
    have hl : idx.length ≠ 0 := by
      intro h1; rw [List.length_eq_zero_iff] at h1; subst h1; simp at hk0
    rcases hpc' with h1 | h1
    · rw [h0] at h1; simp at h1
    · rw [h0, pick_length hi] at h1; simp at h1; exact hl (by omega)
  obtain ⟨out', hout'⟩ : ∃ out', refineMap identity solve (mapPart shape idx x)
      (maskPart shape idx mask) (pick idx patterns) (pcPart idx detPc) chunks' = .ok out' := by
    have hl2 := (indexedPoints_spec wf' hpts').2.1
    unfold refineMap
    rw [hpts']
    simp only
    rw [if_neg (by rw [hl2, hn', pick_length hi]; simp)]
    cases hc : pcPart idx detPc with
    | nil => exact absurd hc hpcne
    | cons a l => exact ⟨_, rfl⟩
  have hrf : ((List.range (mapPart shape idx x).isInData.length).filter
      (isRefined (mapPart shape idx x) (maskPart shape idx mask))).length =
      (idx.filter (isRefined x mask)).length := by
    rw [hn', range_filter_take hgI le_rfl, List.take_length]
  have hW' := C33_each_point wf' hpc' (by rw [hrf]; exact hch') hout'
  obtain ⟨-, -, -, l1', l2', l3', l4', l5', hz'⟩ := refineMap_lengths wf' hout'
  rw [hn'] at l1' l2' l3' l4' l5' hz' hW'
  -- every point
  have key : ∀ j k, idx[j]? = some k →
      out'.isInData[j]? = out.isInData[k]? ∧ out'.phaseId[j]? = out.phaseId[k]? ∧
      out'.scores[j]? = out.scores[k]? ∧ out'.numEvals[j]? = out.numEvals[k]? ∧
      out'.rotations[j]? = out.rotations[k]? ∧
      (isRefined x mask k = true →
        ∃ c, out.pc[((List.range k).filter (isRefined x mask)).length]? = some c ∧
          out'.pc[((idx.take j).filter (isRefined x mask)).length]? = some c) := by
    intro j k hjk
    obtain ⟨hj, hk⟩ := hjlt hjk
    obtain ⟨a1, a2, a3, a4⟩ := hW k hk
    obtain ⟨b1, b2, b3, b4⟩ := hW' j hj
    rw [hgD j k hjk, hgM j k hjk, ← a1] at b1
    rw [hgI j k hjk] at b2 b3
    rw [hgD j k hjk, hgP j k hjk] at b4
    refine ⟨b1, ?_, ?_⟩
    · by_cases hneg : x.isInData.getD k false = false ∨ x.allPhaseId.getD k (-1) = -1
      · rw [a4 hneg, b4 hneg]
      · push Not at hneg
        cases hr : isRefined x mask k with
        | true =>
          rw [C33_phase wf h hk hr, C33_phase wf' hout' (by rw [hn']; exact hj)
            (by rw [hgI j k hjk]; exact hr), hph' j k hjk]
        | false =>
          rw [hz k hk (by simpa using hneg.1) hneg.2 hr,
            hz' j hj (by rw [hgD j k hjk]; simpa using hneg.1) (by rw [hgP j k hjk]; exact hneg.2)
              (by rw [hgI j k hjk]; exact hr)]
    · cases hr : isRefined x mask k with
      | true =>
        obtain ⟨p, r, c, c1, c2, c3, c4, c5, c6, c7⟩ := a2 hr
        obtain ⟨p', r', c', d1, d2, d3, d4, d5, d6, d7⟩ := b2 hr
        rw [pick_get_at hi hjk, c1] at d1
        have e2 : (mapPart shape idx x).allRotations[j]? = x.allRotations[k]? :=
          pick_get_at hiR hjk
        rw [e2, c2] at d2
        have e3 : (pcPart idx detPc)[if (pcPart idx detPc).length = 1 then 0 else j]? =
            detPc[if detPc.length = 1 then 0 else k]? := by
          unfold pcPart
          by_cases h1 : detPc.length = 1
          · simp [h1]
          · rw [if_neg h1, if_neg h1]
            have hiC : ∀ k ∈ idx, k < detPc.length := by rw [hpc.resolve_left h1]; exact hi
            rw [pick_length hiC]
            by_cases h2 : idx.length = 1
            · have : j = 0 := by omega
              subst this
              rw [if_pos h2]
              exact pick_get_at hiC hjk
            · rw [if_neg h2]
              exact pick_get_at hiC hjk
        rw [e3, c3] at d3
        simp only [Option.some.injEq] at d1 d2 d3
        subst d1 d2 d3
        refine ⟨by rw [c4, d4], by rw [c5, d5], by rw [c6, d6], fun _ => ⟨_, c7, ?_⟩⟩
        rw [range_filter_take hgI (by omega)] at d7
        exact d7
      | false =>
        obtain ⟨c1, c2, c3⟩ := a3 hr
        obtain ⟨d1, d2, d3⟩ := b3 hr
        exact ⟨by rw [c1, d1], by rw [c2, d2], by rw [c3, d3], fun h => absurd h (by simp)⟩
  refine ⟨out', hout', ?_, ?_, ?_, ?_, ?_, fun j k hjk => (key j k hjk).2.2.2.2.2⟩
  · exact eq_pick (by rw [l1]; exact hiD) l1' (fun j k hjk => (key j k hjk).1)
  · exact eq_pick (by rw [l2]; exact hiD) l2' (fun j k hjk => (key j k hjk).2.1)
  · exact eq_pick (by rw [l3]; exact hiD) l3' (fun j k hjk => (key j k hjk).2.2.1)
  · exact eq_pick (by rw [l4]; exact hiD) l4' (fun j k hjk => (key j k hjk).2.2.2.1)
  · exact eq_pick (by rw [l5]; exact hiD) l5' (fun j k hjk => (key j k hjk).2.2.2.2.1)

end

/-! ### Hough indexing -/

section
variable {K P : Type} [Field K] [LinearOrder K]

theorem pick_zip {A B : Type} {idx : List ℕ} {a : List A} {b : List B}
    (ha : ∀ k ∈ idx, k < a.length) (hb : ∀ k ∈ idx, k < b.length) :
    (pick idx a).zip (pick idx b) = pick idx (a.zip b) := by
  induction idx with
  | nil => rfl
  | cons k idx ih =>
    have h1 : k < a.length := ha k (by simp)
    have h2 : k < b.length := hb k (by simp)
    have e1 : pick (k :: idx) a = a[k] :: pick idx a := by simp [pick, h1]
    have e2 : pick (k :: idx) b = b[k] :: pick idx b := by simp [pick, h2]
    have e3 : pick (k :: idx) (a.zip b) = (a[k], b[k]) :: pick idx (a.zip b) := by
      simp [pick, h1, h2]
    rw [e1, e2, e3, List.zip_cons_cons,
      ih (fun x hx => ha x (by simp [hx])) (fun x hx => hb x (by simp [hx]))]

theorem pick_replicate {A : Type} {idx : List ℕ} {n : ℕ} (h : ∀ k ∈ idx, k < n) (a : A) :
    pick idx (List.replicate n a) = List.replicate idx.length a := by
  refine (eq_pick (by simpa using h) (by simp) ?_).symm
  intro j k hjk
  have hj := (List.getElem?_eq_some_iff.1 hjk).1
  have hk := h k (List.mem_of_getElem? hjk)
  simp [hj, hk]

/-- The solutions for part of the patterns. -/
theorem indexPats_part (ix : HoughIndexer K P) (patterns : List P) {idx : List ℕ}
    (hi : ∀ k ∈ idx, k < patterns.length)
    (hpc : ix.pcShape ≠ [3] → ix.pcs.length = patterns.length) :
    indexPats (indexerPart idx ix) (pick idx patterns) =
      (indexPats ix patterns).map (pick idx) := by
  by_cases h3 : ix.pcShape = [3]
  · simp only [indexPats, indexerPart, if_pos h3, List.map_map, pick_length hi]
    apply List.map_congr_left
    intro j _
    simp only [Function.comp]
    rw [pick_map, ← pick_zip hi (by simpa using hi), pick_replicate hi]
  · have hl := hpc h3
    have hip : ∀ k ∈ idx, k < ix.pcs.length := by rw [hl]; exact hi
    have e : (if squeezedPcShape idx.length = [3] then
        List.replicate (pick idx patterns).length ((pick idx ix.pcs).headD ⟨0, 0, 0⟩)
        else pick idx ix.pcs) = pick idx ix.pcs := by
      by_cases h1 : idx.length = 1
      · have hl1 : (pick idx ix.pcs).length = 1 := by rw [pick_length hip, h1]
        obtain ⟨a, ha⟩ := List.length_eq_one_iff.1 hl1
        rw [pick_length hi, h1, ha]
        simp
      · rw [if_neg (by simp [squeezedPcShape, h1])]
    simp only [indexPats, indexerPart, if_neg h3, List.map_map, e]
    apply List.map_congr_left
    intro j _
    simp only [Function.comp]
    rw [pick_map, ← pick_zip hi hip]

theorem clearNotIndexed_pick (idx : List ℕ) (row : List (HoughEntry K)) :
    clearNotIndexed (pick idx row) = pick idx (clearNotIndexed row) := by
  unfold clearNotIndexed
  rw [pick_map]

/-- C126.  Hough indexing of part of the patterns, with the projection centers of the part, gives that
part of what indexing of the whole map gives: the same rotations, phases and other properties of the
points, and the same index data for every phase.  Positions are those of the new navigation shape. -/
theorem C126_hough (s : HoughSignal K P) (ids : List ℤ) (phases : List (OrixPhase K))
    (ix : HoughIndexer K P) (hpat : s.patterns.length = s.nav.prod)
    (hpcs : ∀ n, ix.pcShape = [n, 3] → ix.pcs.length = n)
    {m : HoughMap K} {data : List (List (HoughEntry K))}
    (h : houghIndexing s ids phases ix = .ok (m, data))
    {shape idx : List ℕ} {steps : List K} (hi : ∀ k ∈ idx, k < s.patterns.length)
    (hs : ShapeOf idx.length shape) (hst : steps.length = shape.length) :
    ∃ m' data', houghIndexing (signalPart shape steps idx s) ids phases (indexerPart idx ix) =
        .ok (m', data') ∧
      m'.rotations = pick idx m.rotations ∧ m'.phaseId = pick idx m.phaseId ∧
      m'.fit = pick idx m.fit ∧ m'.cm = pick idx m.cm ∧ m'.pq = pick idx m.pq ∧
      m'.nmatch = pick idx m.nmatch ∧ m'.phaseListIds = m.phaseListIds ∧
      m'.scanUnit = m.scanUnit ∧ data' = data.map (pick idx) := by
  have hprod : shape.prod = idx.length := by
    rcases hs with rfl | ⟨r, c, rfl, hrc⟩
    · simp
    · simpa using hrc
  unfold houghIndexing at h
  split at h
  · cases h
  rename_i he
  split at h
  · cases h
  rename_i hp
  split at h
  · cases h
  rename_i m0 data0 hx
  simp only [Except.ok.injEq, Prod.mk.injEq] at h
  obtain ⟨rfl, rfl⟩ := h
  obtain ⟨coords, j, hc, -, hj, ho⟩ := xmapFromHough_ok hx
  simp only [Prod.mk.injEq] at ho
  obtain ⟨rfl, rfl⟩ := ho
  have he3 : ix.pcShape ≠ [3] → ix.pcs.length = s.patterns.length := by
    intro h3
    unfold indexerError at he
    split_ifs at he with h1 h2 h4
    simp only [true_and, not_not, Option.mem_def, Option.some.injEq] at h4
    rcases h4 with h4 | ⟨n, hn, h4⟩
    · exact absurd h4 h3
    · rw [hpcs n h4, hpat, hn]
  have he' : indexerError (indexerPart idx ix) s.sig (some shape.prod) true = none := by
    unfold indexerError at he ⊢
    split_ifs at he with h1 h2 h4
    have e1 : (indexerPart idx ix).vendor = ix.vendor := by unfold indexerPart; split_ifs <;> rfl
    have e2 : (indexerPart idx ix).patDim = ix.patDim := by unfold indexerPart; split_ifs <;> rfl
    rw [e1, e2, if_neg h1, if_neg h2, if_neg]
    simp only [true_and, not_not, Option.mem_def, Option.some.injEq]
    by_cases h3 : ix.pcShape = [3]
    · left; simp [indexerPart, h3]
    · simp only [indexerPart, if_neg h3]
      by_cases h5 : idx.length = 1
      · left; simp [squeezedPcShape, h5]
      · right; exact ⟨_, rfl, by rw [hprod]; simp [squeezedPcShape, h5]⟩
  have ep : (indexerPart idx ix).phases = ix.phases := by unfold indexerPart; split_ifs <;> rfl
  obtain ⟨coords', hc'⟩ : ∃ coords', coordinateArrays shape (some steps) = .ok coords' := by
    rcases hs with rfl | ⟨r, c, rfl, hrc⟩
    · obtain ⟨a, rfl⟩ := List.length_eq_one_iff.1 hst
      exact ⟨_, rfl⟩
    · obtain ⟨a, b, rfl⟩ := List.length_eq_two.1 hst
      exact ⟨_, rfl⟩
  have hdim : ¬ 2 < shape.length := by
    rcases hs with rfl | ⟨r, c, rfl, hrc⟩ <;> simp
  have hj' : npRow ((indexPats ix s.patterns).map (pick idx)) (-1) = some j := by
    unfold npRow at hj ⊢
    simpa using hj
  have hjl : j < (indexPats ix s.patterns).length := npRow_lt hj
  have hrow : ((indexPats ix s.patterns).map (pick idx)).getD j [] =
      pick idx ((indexPats ix s.patterns).getD j []) := by
    simp [List.getD_eq_getElem?_getD, hjl]
  unfold houghIndexing
  simp only [signalPart, he', ep, hp]
  rw [indexPats_part ix s.patterns hi he3]
  unfold xmapFromHough
  simp only [Option.any_some, decide_eq_true_eq, hdim, if_false, Option.getD_some, hc', ne_eq,
    not_true_eq_false, false_and, hj', hrow, clearNotIndexed_pick]
  refine ⟨_, _, rfl, ?_, ?_, ?_, ?_, ?_, ?_, rfl, rfl, ?_⟩
  · simp only [houghMapOf, pick_map]
  · simp only [houghMapOf, pick_map]
  · simp only [houghMapOf, pick_map]
  · simp only [houghMapOf, pick_map]
  · simp only [houghMapOf, pick_map]
  · simp only [houghMapOf, pick_map]
  · rw [List.map_set]

end

/-! ### Parts made with `inav` -/

/-- The indexer made from a detector with the projection centers of the part is the indexer of the
part. -/
theorem C126_indexer {K P : Type} (uniq : OrixPhase K → List Hkl → List Hkl)
    (solve : P → PC K → ℕ → HoughEntry K) (det : Detector K) (phases : List (OrixPhase K))
    (r : RefArg) (shape idx : List ℕ) (h1 : det.pc.length ≠ 1)
    (hi : ∀ k ∈ idx, k < det.pc.length) {ix : HoughIndexer K P}
    (h : getIndexer uniq solve det phases r = .ok ix) :
    getIndexer uniq solve { det with nav := shape, pc := pick idx det.pc } phases r =
      .ok (indexerPart idx ix) := by
  unfold getIndexer at h ⊢
  cases hp : peiPhaseList uniq phases r with
  | error e => rw [hp] at h; cases h
  | ok ps =>
    rw [hp] at h
    simp only [Except.ok.injEq] at h
    subst h
    simp only [indexerPart]
    rw [if_neg (by simp [squeezedPcShape, h1])]
    rw [pick_length hi]

/-- What `s.inav[...]` takes of a row-major array is the part of the points in these rows and
columns. -/
theorem takeMap_eq_pick {A : Type} (nx : ℕ) (l : List A) (ys xs : List ℕ) :
    takeMap nx l ys xs = pick (rectangle nx ys xs) l := by
  unfold takeMap pick rectangle
  induction ys with
  | nil => rfl
  | cons y ys ih =>
    rw [List.flatMap_cons, List.flatMap_cons, List.filterMap_append, ih, List.filterMap_map]
    rfl

/-- C126.  The projection centers of `s.inav[...]`, with one projection center for every point of
the map, are those of the part. -/
theorem C126_inav_pc {K V X : Type} [Field K] [LinearOrder K] (a : SignalAttrs K V X) (ny nx : ℕ)
    (sy sx : PySlice) (hnav : a.detector.nav = [ny, nx]) (hpc : a.detector.pc.length = ny * nx)
    (hy : sy.positions ny ≠ []) (hx : sx.positions nx ≠ []) :
    (inavAttrs a (ny, nx) sy sx).detector.pc =
        pick (rectangle nx (sy.positions ny) (sx.positions nx)) a.detector.pc ∧
      (inavAttrs a (ny, nx) sy sx).detector.nav =
        [(sy.positions ny).length, (sx.positions nx).length] ∧
      ∀ k ∈ rectangle nx (sy.positions ny) (sx.positions nx), k < ny * nx := by
  have hlt : ∀ (s : PySlice) (n y : ℕ), y ∈ s.positions n → y < n := by
    intro s n y h
    exact List.mem_range.1 (List.mem_filter.1 h).1
  have hk : ∀ k ∈ rectangle nx (sy.positions ny) (sx.positions nx), k < ny * nx := by
    intro k hk
    unfold rectangle at hk
    rw [List.mem_flatMap] at hk
    obtain ⟨y, hy, hk⟩ := hk
    rw [List.mem_map] at hk
    obtain ⟨x, hx, rfl⟩ := hk
    exact flat_lt (hlt _ _ _ hy) (hlt _ _ _ hx)
  have hne : pick (rectangle nx (sy.positions ny) (sx.positions nx)) a.detector.pc ≠ [] := by
    intro h0
    have h1 := pick_length (idx := rectangle nx (sy.positions ny) (sx.positions nx))
      (l := a.detector.pc) (by rw [hpc]; exact hk)
    rw [h0] at h1
    obtain ⟨y, hy'⟩ := List.exists_mem_of_ne_nil _ hy
    obtain ⟨x, hx'⟩ := List.exists_mem_of_ne_nil _ hx
    have : y * nx + x ∈ rectangle nx (sy.positions ny) (sx.positions nx) :=
      List.mem_flatMap.2 ⟨y, hy', List.mem_map.2 ⟨x, hx', rfl⟩⟩
    rw [List.length_eq_zero_iff.1 h1.symm] at this
    simp at this
  refine ⟨?_, ?_, hk⟩
  · simp only [inavAttrs, sliceNavDetector, hnav, takeMap_eq_pick, if_neg hne]
  · simp only [inavAttrs, sliceNavDetector, hnav, takeMap_eq_pick, if_neg hne]

/-- C126 is false for the crystal map of a part made by slicing: `s.inav[...]` and `xmap[...]` give
a crystal map which keeps the arrays of all points, and refinement of the part with it raises an
error, for every map, smaller rectangle, solver, navigation mask and chunks. -/
theorem C126_sliced_map_raises {P R C K : Type} [Zero K] {identity : R}
    {solve : P → R → C → Refined R C K} {x : RMap R} {ny nx r0 r1 c0 c1 : ℕ}
    (hx : x.isInData.length = ny * nx)
    (hsmall : (r1 - r0) * (c1 - c0) < ny * nx) (mask : Option (List ℕ × List Bool))
    (patterns : List P) (detPc : List C) (chunks : List ℕ) :
    ∃ e, refineMap identity solve (sliceOfMap nx r0 r1 c0 c1 x) mask patterns detPc chunks =
      .error e := by
  refine C33_sliced_map_raises (r := r1 - r0) (c := c1 - c0) rfl ?_
  simp only [sliceOfMap, List.length_map, List.length_zipIdx, hx]
  omega

/-! ### Concrete cases -/

/-- A 2 x 3 map, all in the data, one point not indexed. -/
def examplePartMap : RMap ℕ where
  shape := [2, 3]
  isInData := [true, true, true, true, true, true]
  allPhaseId := [1, 1, -1, 1, 1, 1]
  allRotations := [10, 11, 12, 13, 14, 15]

/-- C126 violated: the whole map can be refined, and so can the first two columns as a map of their
own, with the results of the whole map; but not as a slice of the map. -/
theorem C126_sliced_map_violated :
    (refineMap 0 exampleSolve examplePartMap none [1, 2, 3, 4, 5, 6] [7] [3, 2]).toOption.map
        (fun o => (o.scores, o.rotations)) =
      some ([1, 2, 0, 4, 5, 6], [110, 111, 0, 113, 114, 115]) ∧
    (refineMap 0 exampleSolve (mapPart [2, 2] (rectangle 3 [0, 1] [0, 1]) examplePartMap) none
        (pick (rectangle 3 [0, 1] [0, 1]) [1, 2, 3, 4, 5, 6]) [7] [4]).toOption.map
        (fun o => (o.scores, o.rotations)) =
      some ([1, 2, 4, 5], [110, 111, 113, 114]) ∧
    (refineMap 0 exampleSolve (sliceOfMap 3 0 2 0 2 examplePartMap) none
        (pick (rectangle 3 [0, 1] [0, 1]) [1, 2, 3, 4, 5, 6]) [7] [4]).toOption.isNone := by
  decide +kernel

example : examplePartMap.WF := ⟨rfl, rfl⟩
example : ∀ k ∈ rectangle 3 [0, 1] [0, 1], k < 6 := by decide
example : ShapeOf (rectangle 3 [0, 1] [0, 1]).length [2, 2] := .inr ⟨2, 2, rfl, rfl⟩
example : ∃ k ∈ rectangle 3 [0, 1] [0, 1], isRefined examplePartMap none k = true := by decide
example : [4].sum = ((rectangle 3 [0, 1] [0, 1]).filter (isRefined examplePartMap none)).length := by
  decide
example : ((2 - 0) * (2 - 0) : ℕ) < 2 * 3 := by decide

/-- The last two of three points, one of which is masked out, in the other order. -/
example : (dictionaryIndexingCall stableArgsort stableArgsort 1 [] exampleSim 0
      (fun _ => ([0], [0])) {} (callPart [2] [2, 1] exampleMaskedCall)).2.toOption =
    some [⟨false, [0], [0], [0]⟩, ⟨true, [0], [0], [70]⟩] := by
  decide +kernel
example : ∃ k ∈ [2, 1], ∀ m, exampleMaskedCall.navMask = some m → m.data[k]? = some false :=
  ⟨1, by simp, by rintro m h; simp [exampleMaskedCall] at h; subst h; rfl⟩
example : ∀ k ∈ [2, 0], (⟨[3], [true, false, true]⟩ : BoolArray).data[k]? ≠ some false := by decide

/-- Hough indexing of the second row of a map of two rows: the projection centers of this row are
used. -/
example : ∃ m data, houghIndexing (exHoughSig 2 3) [0] [nickel] exHoughIx = .ok (m, data) ∧
    ∃ m' data', houghIndexing (signalPart [3] [3] (rectangle 3 [1] [0, 1, 2]) (exHoughSig 2 3)) [0]
        [nickel] (indexerPart (rectangle 3 [1] [0, 1, 2]) exHoughIx) = .ok (m', data') ∧
      m'.fit = pick [3, 4, 5] m.fit := by
  obtain ⟨⟨m, d⟩, h⟩ := (C78_accepted (fun _ l => l) exSolve exHoughDet [0] [nickel] .none
    exHoughIx exHoughIx_eq (exHoughSig 2 3) 2 3 2 3 rfl rfl).mpr (by decide +kernel)
  refine ⟨m, d, h, ?_⟩
  obtain ⟨m', d', h', -, -, hf, -⟩ := C126_hough (exHoughSig 2 3) [0] [nickel] exHoughIx (by decide)
    (by intro n hn; simp [exHoughIx] at hn; subst hn; decide) h (shape := [3]) (steps := [3])
    (idx := rectangle 3 [1] [0, 1, 2]) (by decide) (.inl rfl) rfl
  exact ⟨m', d', h', hf⟩

end Kp
