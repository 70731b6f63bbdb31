import Verif.Model.IndexingCalls
import Verif.Props.DictionaryIndexing

/-
C85: what `EBSD.dictionary_indexing` accepts and returns, and whether earlier calls matter.
-/

set_option linter.unusedSectionVars false

namespace Kp

/-! What is to be shown. -/

section
variable {K R : Type}

/-- The pixels of a pattern where the mask is `False`, in their order. -/
def unmaskedPixels (mask : Option BoolArray) (p : List K) : List K :=
  match mask with
  | none => p
  | some m => (p.zipIdx.filter (fun x => m.data[x.2]? = some false)).map Prod.fst

/-- The arrays in a call have the number of elements of their shapes and there is at least one
pattern to index and one pattern per iteration. -/
structure WellFormedCall (c : IndexingCall K R) : Prop where
  patterns : c.patterns.length = c.navShape.prod
  pixels : ∀ p ∈ c.patterns, p.length = c.sigShape.prod
  dictPixels : ∀ d ∈ c.dictionary, d.length = c.dictSigShape.prod
  dictMap : ∀ s rs, c.dictMap = some (s, rs) → rs.length = s.prod
  navMask : ∀ m, c.navMask = some m → m.data.length = m.shape.prod
  sigMask : ∀ m, c.sigMask = some m → m.data.length = m.shape.prod
  nonempty : c.patterns ≠ []
  perIteration : 0 < perIteration c

/-- What the documentation asks of the arguments, but for the shape of the signal mask, of which
only the number of elements is asked. -/
structure ValidArguments (allowed : List MatchType) (c : IndexingCall K R) : Prop where
  navMask : ∀ m, c.navMask = some m → m.shape = c.navShape ∧ false ∈ m.data
  sigMask : ∀ m, c.sigMask = some m → m.data.length = c.sigShape.prod
  signalShapes : c.sigShape = c.dictSigShape
  dictMap : ∃ rs, c.dictMap = some ([c.dictionary.length], rs)
  metric : c.metric ≠ .invalid
  dtype : allowed = [] ∨ c.dtype.getD .float32 ∈ allowed

end

section
variable {K R : Type}

theorem selectMask_not_eq (p : List K) (b : List Bool) (n : ℕ) (g : ℕ → Option Bool)
    (h : b.length = p.length) (hg : ∀ i, g (n + i) = b[i]?) :
    selectMask (b.map not) p = ((p.zipIdx n).filter (fun x => g x.2 = some false)).map Prod.fst := by
  induction p generalizing b n with
  | nil => simp [selectMask]
  | cons x p ih =>
    cases b with
    | nil => simp at h
    | cons y b =>
      have h0 := hg 0
      have ih' := ih b (n + 1) (by simpa using h) (fun i => by
        have := hg (i + 1); simp only [List.getElem?_cons_succ] at this
        rw [← this]; congr 1; omega)
      simp only [Nat.add_zero, List.getElem?_cons_zero] at h0
      simp only [selectMask, List.map_cons, List.zip_cons_cons, List.zipIdx_cons] at ih' ⊢
      cases y <;> simp [h0, ih']

theorem keepUnmasked_ok {mask : Option BoolArray} {p : List K}
    (h : ∀ m, mask = some m → m.data.length = p.length) :
    keepUnmasked mask p = .ok (unmaskedPixels mask p) := by
  cases mask with
  | none => rfl
  | some m =>
    simp only [keepUnmasked, h m rfl, if_true, unmaskedPixels]
    rw [selectMask_not_eq p m.data 0 (fun i => m.data[i]?) (h m rfl) (by simp)]

theorem mapM_except_ok {α β ε : Type} {f : α → Except ε β} {g : α → β} {l : List α}
    (h : ∀ x ∈ l, f x = .ok (g x)) : l.mapM f = .ok (l.map g) := by
  induction l with
  | nil => rfl
  | cons x l ih =>
    rw [List.mapM_cons, h x (by simp), ih (fun y hy => h y (by simp [hy]))]
    rfl

theorem mapM_except_mem {α β ε : Type} {f : α → Except ε β} {l : List α} {r : List β}
    (h : l.mapM f = .ok r) : ∀ x ∈ l, ∃ y, f x = .ok y := by
  induction l generalizing r with
  | nil => simp
  | cons x l ih =>
    rw [List.mapM_cons] at h
    intro z hz
    cases hx : f x with
    | error e => rw [hx] at h; cases h
    | ok y =>
      cases hl : l.mapM f with
      | error e => rw [hx, hl] at h; cases h
      | ok ys =>
        rcases List.mem_cons.1 hz with rfl | hz
        · exact ⟨y, hx⟩
        · exact ih hl z hz

theorem unmasked_of_valid {c : IndexingCall K R} (w : WellFormedCall c)
    {sigMask : Option BoolArray} (hs : ∀ m, sigMask = some m → m.data.length = c.sigShape.prod)
    (he : c.sigShape = c.dictSigShape) :
    c.patterns.mapM (keepUnmasked sigMask) = .ok (c.patterns.map (unmaskedPixels sigMask)) ∧
    c.dictionary.mapM (keepUnmasked sigMask) =
      .ok (c.dictionary.map (unmaskedPixels sigMask)) := by
  refine ⟨mapM_except_ok fun p hp => keepUnmasked_ok fun m hm => ?_,
    mapM_except_ok fun p hp => keepUnmasked_ok fun m hm => ?_⟩
  · rw [hs m hm, w.pixels p hp]
  · rw [hs m hm, w.dictPixels p hp, he]

end

section
variable {K R : Type} [Field K] [LinearOrder K]

theorem checkIndexingCall_ok_iff (c : IndexingCall K R) :
    checkIndexingCall c = .ok () ↔
      (∀ m, c.navMask = some m → m.shape = c.navShape ∧ false ∈ m.data) ∧
      c.sigShape = c.dictSigShape ∧ ∃ rs, c.dictMap = some ([c.dictionary.length], rs) := by
  obtain ⟨navShape, sigShape, patterns, dictSigShape, dictionary, dictMap, dictChunk, metric,
    keepN, nPer, navMask, sigMask, dtype⟩ := c
  have hall : ∀ l : List Bool, (l.all id = true) ↔ ¬ false ∈ l := by
    intro l; induction l with
    | nil => simp
    | cons x l ih => cases x <;> simp
  simp only [checkIndexingCall]
  cases navMask with
  | none =>
    cases dictMap with
    | none => by_cases h : sigShape = dictSigShape <;> simp [h, throw, throwThe,
        MonadExceptOf.throw, bind, Except.bind, pure, Except.pure]
    | some d =>
      obtain ⟨s, rs⟩ := d
      by_cases h : sigShape = dictSigShape <;> by_cases h2 : s = [dictionary.length] <;>
        simp [h, h2, throw, throwThe, MonadExceptOf.throw, bind, Except.bind, pure, Except.pure]
  | some m =>
    cases dictMap with
    | none => by_cases h : sigShape = dictSigShape <;> by_cases h3 : m.shape = navShape <;>
        by_cases h4 : false ∈ m.data <;> simp [h, h3, h4, hall, throw, throwThe,
        MonadExceptOf.throw, bind, Except.bind, pure, Except.pure]
    | some d =>
      obtain ⟨s, rs⟩ := d
      by_cases h : sigShape = dictSigShape <;> by_cases h2 : s = [dictionary.length] <;>
        by_cases h3 : m.shape = navShape <;> by_cases h4 : false ∈ m.data <;>
        simp [h, h2, h3, h4, hall, throw, throwThe, MonadExceptOf.throw, bind, Except.bind, pure,
          Except.pure]

end

section
variable {K R : Type} [Field K] [LinearOrder K] [IsStrictOrderedRing K]
variable {argtopk argsort : List K → List ℕ}

theorem call_named_eq (allowed : List MatchType) (sim : List K → List K → K) (r0 : R)
    (junk : ℕ → List K × List ℕ) (m : MetricObject) (c : IndexingCall K R) (sign : ℤ) :
    (dictionaryIndexingCall argtopk argsort sign allowed sim r0 junk m
      { c with metric := .named }).2 =
    (dictionaryIndexingCall argtopk argsort sign allowed sim r0 junk {}
      { c with metric := .object }).2 := by
  have hc : ∀ a, checkIndexingCall { c with metric := a } = checkIndexingCall c := fun _ => rfl
  simp only [dictionaryIndexingCall, hc]
  cases checkIndexingCall c with
  | error e => rfl
  | ok u =>
    simp only
    split_ifs <;> first | rfl | contradiction

/-- C85.  With a metric given by name, what is returned or raised does not depend on what was
indexed before with any metric object, and no metric object is changed. -/
theorem C85_named_metric (sign : ℤ) (allowed : List MatchType) (sim : List K → List K → K)
    (r0 : R) (junk : ℕ → List K × List ℕ) (m : MetricObject) (before : List (IndexingCall K R))
    (c : IndexingCall K R) (hc : c.metric = .named) :
    (dictionaryIndexingCall argtopk argsort sign allowed sim r0 junk
      (afterCalls argtopk argsort sign allowed sim r0 junk m before) c).2 =
      (dictionaryIndexingCall argtopk argsort sign allowed sim r0 junk m c).2 ∧
    (dictionaryIndexingCall argtopk argsort sign allowed sim r0 junk m c).1 = m := by
  generalize afterCalls argtopk argsort sign allowed sim r0 junk m before = m'
  simp only [dictionaryIndexingCall, hc]
  cases checkIndexingCall c with
  | error e => exact ⟨rfl, rfl⟩
  | ok u =>
    simp only
    split_ifs <;> exact ⟨rfl, rfl⟩

/-- C85, part.  With a metric object, what is returned or raised does not depend on earlier
calls if both masks and the data type are given.  Missing, and false: calls where one of them
is not given, see below. -/
theorem C85_metric_object_partial (sign : ℤ) (allowed : List MatchType)
    (sim : List K → List K → K) (r0 : R) (junk : ℕ → List K × List ℕ) (m : MetricObject)
    (before : List (IndexingCall K R)) (c : IndexingCall K R) (hn : c.navMask ≠ none)
    (hs : c.sigMask ≠ none) (hd : c.dtype ≠ none) :
    (dictionaryIndexingCall argtopk argsort sign allowed sim r0 junk
      (afterCalls argtopk argsort sign allowed sim r0 junk m before) c).2 =
    (dictionaryIndexingCall argtopk argsort sign allowed sim r0 junk m c).2 := by
  generalize afterCalls argtopk argsort sign allowed sim r0 junk m before = m'
  have e : setMetric m' c = setMetric m c := by
    unfold setMetric
    cases h1 : c.navMask <;> cases h2 : c.sigMask <;> cases h3 : c.dtype <;>
      first | (exact absurd h1 hn) | (exact absurd h2 hs) | (exact absurd h3 hd) | rfl
  simp only [dictionaryIndexingCall, e]
  cases checkIndexingCall c with
  | error e => rfl
  | ok u =>
    cases c.metric <;> simp only
    all_goals first | rfl | (split_ifs <;> rfl)

/-- C85, part.  It does not depend on earlier calls either if no earlier call was given a mask
or a data type. -/
theorem C85_metric_object_without_masks_partial (sign : ℤ) (allowed : List MatchType)
    (sim : List K → List K → K) (r0 : R) (junk : ℕ → List K × List ℕ) (m : MetricObject)
    (before : List (IndexingCall K R)) (c : IndexingCall K R)
    (hb : ∀ b ∈ before, b.navMask = none ∧ b.sigMask = none ∧ b.dtype = none) :
    (dictionaryIndexingCall argtopk argsort sign allowed sim r0 junk
      (afterCalls argtopk argsort sign allowed sim r0 junk m before) c).2 =
    (dictionaryIndexingCall argtopk argsort sign allowed sim r0 junk m c).2 := by
  have key : ∀ m : MetricObject,
      (afterCalls argtopk argsort sign allowed sim r0 junk m before).navMask = m.navMask ∧
      (afterCalls argtopk argsort sign allowed sim r0 junk m before).sigMask = m.sigMask ∧
      (afterCalls argtopk argsort sign allowed sim r0 junk m before).dtype = m.dtype := by
    induction before with
    | nil => intro m; exact ⟨rfl, rfl, rfl⟩
    | cons b before ih =>
      intro m
      obtain ⟨h1, h2, h3⟩ := hb b (by simp)
      have ih' := ih (fun x hx => hb x (by simp [hx]))
        ((dictionaryIndexingCall argtopk argsort sign allowed sim r0 junk m b).1)
      have e : ∀ x, ((setMetric m b).navMask = m.navMask ∧ (setMetric m b).sigMask = m.sigMask ∧
          (setMetric m b).dtype = m.dtype) ∧ (x = m ∨ x = setMetric m b →
          x.navMask = m.navMask ∧ x.sigMask = m.sigMask ∧ x.dtype = m.dtype) := by
        intro x
        have h : (setMetric m b).navMask = m.navMask ∧ (setMetric m b).sigMask = m.sigMask ∧
          (setMetric m b).dtype = m.dtype := by simp [setMetric, h1, h2, h3]
        refine ⟨h, ?_⟩
        rintro (rfl | rfl)
        · exact ⟨rfl, rfl, rfl⟩
        · exact h
      have hm : (dictionaryIndexingCall argtopk argsort sign allowed sim r0 junk m b).1 = m ∨
          (dictionaryIndexingCall argtopk argsort sign allowed sim r0 junk m b).1 =
            setMetric m b := by
        simp only [dictionaryIndexingCall]
        cases checkIndexingCall b with
        | error e => exact .inl rfl
        | ok u =>
          cases b.metric <;> simp only
          · split_ifs <;> exact .inl rfl
          · split_ifs <;> exact .inr rfl
          · exact .inl trivial
      obtain ⟨a1, a2, a3⟩ := (e _).2 hm
      obtain ⟨b1, b2, b3⟩ := ih'
      exact ⟨b1.trans a1, b2.trans a2, b3.trans a3⟩
  obtain ⟨k1, k2, k3⟩ := key m
  generalize afterCalls argtopk argsort sign allowed sim r0 junk m before = m' at *
  have e : setMetric m' c = setMetric m c := by simp only [setMetric, k1, k2, k3]
  simp only [dictionaryIndexingCall, e]
  cases checkIndexingCall c with
  | error e => rfl
  | ok u =>
    cases c.metric <;> simp only
    all_goals first | rfl | (split_ifs <;> rfl)

theorem indexMap_none_get {α β : Type} (f : α → β) (junk : List β) (l : List α) (i : ℕ) (p : α)
    (h : l[i]? = some p) : (indexMap f junk none l)[i]? = some (true, f p) := by
  simp [indexMap, h]

/-- The result of a call with a new metric and valid arguments. -/
theorem call_valid (sign : ℤ) (allowed : List MatchType) (sim : List K → List K → K) (r0 : R)
    (junk : ℕ → List K × List ℕ) (c : IndexingCall K R) (w : WellFormedCall c)
    (v : ValidArguments allowed c) :
    (dictionaryIndexingCall argtopk argsort sign allowed sim r0 junk {} c).2 =
      indexWithMetric argtopk argsort sign sim r0 junk (setMetric {} c) c := by
  have h := (checkIndexingCall_ok_iff c).2 ⟨v.navMask, v.signalShapes, v.dictMap⟩
  have hd : ¬ (allowed ≠ [] ∧ (setMetric {} c).dtype ∉ allowed) := by
    have e : (setMetric {} c).dtype = c.dtype.getD .float32 := by
      unfold setMetric; cases c.dtype <;> rfl
    rw [e]
    rcases v.dtype with h | h <;> tauto
  simp only [dictionaryIndexingCall, h]
  cases hm : c.metric with
  | invalid => exact absurd hm v.metric
  | named => simp only [if_neg hd]
  | object => simp only [if_neg hd]

theorem setMetric_new_masks (c : IndexingCall K R) :
    (setMetric {} c).navMask = c.navMask ∧ (setMetric {} c).sigMask = c.sigMask := by
  unfold setMetric
  constructor
  · cases c.navMask <;> rfl
  · cases c.sigMask <;> rfl

theorem indexWithMetric_eq (sign : ℤ) (sim : List K → List K → K) (r0 : R)
    (junk : ℕ → List K × List ℕ) (c : IndexingCall K R) (w : WellFormedCall c) (m : MetricObject)
    (hn : ∀ x, m.navMask = some x → x.data.length = c.patterns.length)
    (hs : ∀ x, m.sigMask = some x → x.data.length = c.sigShape.prod)
    (he : c.sigShape = c.dictSigShape) (rs : List R) (s : List ℕ)
    (hd : c.dictMap = some (s, rs)) :
    indexWithMetric argtopk argsort sign sim r0 junk m c =
      .ok ((indexMap (fun p => (⟨true,
        (dictionaryIndexing argtopk argsort sign c.keepN (perIteration c)
          ((c.dictionary.map (unmaskedPixels m.sigMask)).map (sim p))).map Prod.fst,
        (dictionaryIndexing argtopk argsort sign c.keepN (perIteration c)
          ((c.dictionary.map (unmaskedPixels m.sigMask)).map (sim p))).map Prod.snd,
        (dictionaryIndexing argtopk argsort sign c.keepN (perIteration c)
          ((c.dictionary.map (unmaskedPixels m.sigMask)).map (sim p))).map
            (fun b => rs.getD b.2 r0)⟩ : IndexedPoint K R))
        ((List.range c.patterns.length).map (fun i => (⟨false, (junk i).1, (junk i).2,
          List.replicate (min c.keepN c.dictionary.length) r0⟩ : IndexedPoint K R)))
        (m.navMask.map BoolArray.data) (c.patterns.map (unmaskedPixels m.sigMask))).map
          (fun p => { p.2 with inData := p.1 })) := by
  obtain ⟨e1, e2⟩ := unmasked_of_valid w hs he
  simp only [indexWithMetric, keepUnmasked_ok hn, e1, e2, hd, bind, Except.bind, pure, Except.pure]

/-- C85.  A call with a new metric returns a map exactly if the navigation mask has the shape of
the map and leaves something to index, the signal mask as many pixels as the patterns, the
dictionary patterns the shape of the patterns and one rotation each, and the metric and data
type are supported.  (The shape of the signal mask is not looked at, see below.) -/
theorem C85_accepted (sign : ℤ) (allowed : List MatchType) (sim : List K → List K → K) (r0 : R)
    (junk : ℕ → List K × List ℕ) (c : IndexingCall K R) (w : WellFormedCall c) :
    (∃ r, (dictionaryIndexingCall argtopk argsort sign allowed sim r0 junk {} c).2 = .ok r) ↔
      ValidArguments allowed c := by
  constructor
  · rintro ⟨r, hr⟩
    have h0 : ∃ u, checkIndexingCall c = .ok u := by
      cases h : checkIndexingCall c with
      | error e => simp [dictionaryIndexingCall, h] at hr
      | ok u => exact ⟨u, rfl⟩
    obtain ⟨u, hu⟩ := h0
    obtain ⟨v1, v2, v3⟩ := (checkIndexingCall_ok_iff c).1 hu
    have e : (setMetric {} c).dtype = c.dtype.getD .float32 := by
      unfold setMetric; cases c.dtype <;> rfl
    have h1 : c.metric ≠ .invalid ∧ (allowed = [] ∨ c.dtype.getD .float32 ∈ allowed) ∧
        indexWithMetric argtopk argsort sign sim r0 junk (setMetric {} c) c = .ok r := by
      simp only [dictionaryIndexingCall, hu, e] at hr
      cases hm : c.metric with
      | invalid => simp [hm] at hr
      | named =>
        simp only [hm] at hr
        by_cases hd : allowed ≠ [] ∧ c.dtype.getD .float32 ∉ allowed
        · simp [hd.1, hd.2] at hr
        · rw [if_neg hd] at hr
          exact ⟨by simp, by tauto, hr⟩
      | object =>
        simp only [hm] at hr
        by_cases hd : allowed ≠ [] ∧ c.dtype.getD .float32 ∉ allowed
        · simp [hd.1, hd.2] at hr
        · rw [if_neg hd] at hr
          exact ⟨by simp, by tauto, hr⟩
    obtain ⟨h1, h2, h3⟩ := h1
    refine ⟨v1, ?_, v2, v3, h1, h2⟩
    intro m hm
    obtain ⟨p, hp⟩ := List.exists_mem_of_ne_nil _ w.nonempty
    rw [← w.pixels p hp]
    unfold indexWithMetric at h3
    rw [(setMetric_new_masks c).1, (setMetric_new_masks c).2] at h3
    cases hk : keepUnmasked c.navMask c.patterns with
    | error e => simp [hk, bind, Except.bind] at h3
    | ok a =>
      cases hk2 : c.patterns.mapM (keepUnmasked c.sigMask) with
      | error e => simp [hk, hk2, bind, Except.bind] at h3
      | ok b =>
        obtain ⟨y, hy⟩ := mapM_except_mem hk2 p hp
        rw [hm] at hy
        unfold keepUnmasked at hy
        by_contra hne
        simp [hne] at hy
  · intro v
    obtain ⟨rs, hrs⟩ := v.dictMap
    rw [call_valid sign allowed sim r0 junk c w v]
    rw [indexWithMetric_eq sign sim r0 junk c w (setMetric {} c) ?_ ?_ v.signalShapes rs _ hrs]
    · exact ⟨_, rfl⟩
    · intro x hx
      rw [(setMetric_new_masks c).1] at hx
      rw [w.navMask x hx, (v.navMask x hx).1, w.patterns]
    · intro x hx
      rw [(setMetric_new_masks c).2] at hx
      exact v.sigMask x hx

/-- C85 (iterations): the dictionary is compared in consecutive parts with as many patterns as asked
for, the last part possibly with fewer; if no number was given, with as many as a chunk of the
dictionary has, or all if it is not lazy. -/
theorem C85_iterations (c : IndexingCall K R) (n : ℕ)
    (hn : c.nPer = some n ∨ c.nPer = none ∧ c.dictChunk = some n ∨
      c.nPer = none ∧ c.dictChunk = none ∧ n = c.dictionary.length)
    (h0 : 0 < n) (scores : List K) :
    let parts := (List.range (nIterations scores.length (perIteration c))).map
      (dictChunk (perIteration c) scores)
    parts.flatten = scores ∧ (∀ p ∈ parts, p.length ≤ n) ∧
      ∀ p ∈ parts.dropLast, p.length = n := by
  have e : perIteration c = n := by
    unfold perIteration
    rcases hn with h | ⟨h, h'⟩ | ⟨h, h', rfl⟩
    · rw [h]
    · rw [h, h']
    · rw [h, h']
  rw [e]
  intro parts
  have flat : ∀ k, ((List.range k).map (dictChunk n scores)).flatten = scores.take (k * n) := by
    intro k
    induction k with
    | zero => simp
    | succ k ih =>
      rw [List.range_succ, List.map_append, List.flatten_append, ih]
      simp only [List.map_cons, List.map_nil, List.flatten_cons, List.flatten_nil, List.append_nil]
      rw [dictChunk, Nat.succ_mul, ← List.take_add]
  have hk : scores.length ≤ nIterations scores.length n * n := by
    unfold nIterations
    have := Nat.div_add_mod (scores.length + n - 1) n
    have := Nat.mod_lt (scores.length + n - 1) h0
    have h3 : n * ((scores.length + n - 1) / n) = (scores.length + n - 1) / n * n := Nat.mul_comm _ _
    omega
  refine ⟨?_, ?_, ?_⟩
  · rw [flat, List.take_of_length_le hk]
  · intro p hp
    obtain ⟨i, -, rfl⟩ := List.mem_map.mp hp
    simp [dictChunk]
  · intro p hp
    simp only [parts, ← List.map_dropLast] at hp
    obtain ⟨i, hi, rfl⟩ := List.mem_map.mp hp
    obtain ⟨k, hk'⟩ : ∃ k, nIterations scores.length n = k + 1 ∨ nIterations scores.length n = 0 :=
      ⟨nIterations scores.length n - 1, by omega⟩
    rcases hk' with hk' | hk'
    · rw [hk', List.range_succ, List.dropLast_concat, List.mem_range] at hi
      have h4 : (i + 1) * n ≤ scores.length := by
        have h5 : (i + 1) * n ≤ k * n := Nat.mul_le_mul_right n hi
        have h6 : k * n < scores.length := by
          unfold nIterations at hk'
          have h7 := Nat.div_add_mod (scores.length + n - 1) n
          rw [hk'] at h7
          have h8 := Nat.mod_lt (scores.length + n - 1) h0
          have h9 : n * (k + 1) = k * n + n := by ring
          omega
        omega
      rw [Nat.succ_mul] at h4
      simp only [dictChunk, List.length_take, List.length_drop]
      omega
    · rw [hk'] at hi; simp at hi

/-- The points of the returned map. -/
theorem call_points (hf : IsArgsort argtopk) (hg : IsArgsort argsort)
    (allowed : List MatchType) (sim : List K → List K → K) (r0 : R)
    (junk : ℕ → List K × List ℕ) (c : IndexingCall K R) (w : WellFormedCall c)
    (v : ValidArguments allowed c) :
    ∃ r rs, (dictionaryIndexingCall argtopk argsort 1 allowed sim r0 junk {} c).2 = .ok r ∧
      c.dictMap = some ([c.dictionary.length], rs) ∧
      r.length = c.patterns.length ∧
      ∀ (i : ℕ) (p : List K), c.patterns[i]? = some p →
        ∃ q, r[i]? = some q ∧
          (q.inData = true ↔ ∀ m, c.navMask = some m → m.data[i]? = some false) ∧
          (q.inData = true →
            q.scores.zip q.indices = dictionaryIndexing argtopk argsort 1 c.keepN (perIteration c)
              (c.dictionary.map (fun d =>
                sim (unmaskedPixels c.sigMask p) (unmaskedPixels c.sigMask d))) ∧
            q.scores.length = q.indices.length ∧
            q.rotations.map some = q.indices.map (fun k => rs[k]?)) := by
  obtain ⟨rs, hrs⟩ := v.dictMap
  obtain ⟨m1, m2⟩ := setMetric_new_masks c
  have hn : ∀ x, c.navMask = some x → x.data.length = c.patterns.length := by
    intro x hx; rw [w.navMask x hx, (v.navMask x hx).1, w.patterns]
  have E := indexWithMetric_eq (argtopk := argtopk) (argsort := argsort) 1 sim r0 junk c w
    (setMetric {} c) (by rw [m1]; exact hn) (by rw [m2]; exact v.sigMask) v.signalShapes rs _ hrs
  rw [m1, m2] at E
  have hrl : rs.length = c.dictionary.length := by simpa using w.dictMap _ _ hrs
  rw [call_valid 1 allowed sim r0 junk c w v, E]
  refine ⟨_, rs, rfl, hrs, ?_, ?_⟩
  · cases hc : c.navMask with
    | none => simp [indexMap]
    | some m =>
      rw [List.length_map]
      simp only [Option.map_some]
      rw [(C23_results_at_own_points _ _ m.data _ (by simp [hn m hc]) (by simp [hn m hc])).1]
      simp
  · intro i p hp
    have hi : i < c.patterns.length := (List.getElem?_eq_some_iff.1 hp).1
    have hbest : dictionaryIndexing argtopk argsort 1 c.keepN (perIteration c)
          ((c.dictionary.map (unmaskedPixels c.sigMask)).map
            (sim (unmaskedPixels c.sigMask p))) =
        dictionaryIndexing argtopk argsort 1 c.keepN (perIteration c)
          (c.dictionary.map (fun d =>
            sim (unmaskedPixels c.sigMask p) (unmaskedPixels c.sigMask d))) := by
      rw [List.map_map]
      rfl
    have hidx := (indices_lt hf hg c.keepN (perIteration c) (c.dictionary.map (fun d =>
      sim (unmaskedPixels c.sigMask p) (unmaskedPixels c.sigMask d))) w.perIteration).2
    rw [List.length_map] at hidx
    have fin : ∀ best : List (Cand K), best = dictionaryIndexing argtopk argsort 1 c.keepN
          (perIteration c) (c.dictionary.map (fun d =>
            sim (unmaskedPixels c.sigMask p) (unmaskedPixels c.sigMask d))) →
        (best.map Prod.fst).zip (best.map Prod.snd) = dictionaryIndexing argtopk argsort 1 c.keepN
          (perIteration c) (c.dictionary.map (fun d =>
            sim (unmaskedPixels c.sigMask p) (unmaskedPixels c.sigMask d))) ∧
        (best.map Prod.fst).length = (best.map Prod.snd).length ∧
        (best.map (fun b => rs.getD b.2 r0)).map some =
          (best.map Prod.snd).map (fun k => rs[k]?) := by
      intro best hb
      have hz : (best.map Prod.fst).zip (best.map Prod.snd) = best := by
        rw [List.zip_map']; simp
      refine ⟨by rw [hz]; exact hb, by simp, ?_⟩
      rw [List.map_map, List.map_map]
      apply List.map_congr_left
      intro b hb'
      rw [hb] at hb'
      have hlt : b.2 < rs.length := by
        rw [hrl]; exact hidx b hb'
      simp [hlt]
    cases hc : c.navMask with
    | none =>
      simp only [Option.map_none]
      refine ⟨_, by
        rw [List.getElem?_map, indexMap_none_get _ _ _ i (unmaskedPixels c.sigMask p) (by
          rw [List.getElem?_map, hp]; rfl)]
        rfl, ?_, ?_⟩
      · simp
      · intro _
        exact fin _ hbest
    | some m =>
      simp only [Option.map_some]
      have h := C23_results_at_own_points (fun p => (⟨true,
        (dictionaryIndexing argtopk argsort 1 c.keepN (perIteration c)
          ((c.dictionary.map (unmaskedPixels c.sigMask)).map (sim p))).map Prod.fst,
        (dictionaryIndexing argtopk argsort 1 c.keepN (perIteration c)
          ((c.dictionary.map (unmaskedPixels c.sigMask)).map (sim p))).map Prod.snd,
        (dictionaryIndexing argtopk argsort 1 c.keepN (perIteration c)
          ((c.dictionary.map (unmaskedPixels c.sigMask)).map (sim p))).map
            (fun b => rs.getD b.2 r0)⟩ : IndexedPoint K R))
        ((List.range c.patterns.length).map (fun i => (⟨false, (junk i).1, (junk i).2,
          List.replicate (min c.keepN c.dictionary.length) r0⟩ : IndexedPoint K R)))
        m.data (c.patterns.map (unmaskedPixels c.sigMask)) (by simp [hn m hc])
        (by simp [hn m hc])
      obtain ⟨-, h2, h3⟩ := h
      have him : i < m.data.length := by rw [hn m hc]; exact hi
      have hmi : m.data[i]? = some (m.data[i]) := List.getElem?_eq_getElem him
      cases hb : m.data[i] with
      | true =>
        rw [hb] at hmi
        have h2' := h2 i true hmi
        rw [Option.map_eq_some_iff] at h2'
        obtain ⟨q, hq, hq2⟩ := h2'
        refine ⟨_, by rw [List.getElem?_map, hq]; rfl, ?_, ?_⟩
        · simp only [hq2]; simp [hmi]
        · simp only [hq2]; simp
      | false =>
        rw [hb] at hmi
        have h3' := h3 i (unmaskedPixels c.sigMask p) hmi (by rw [List.getElem?_map, hp]; rfl)
        refine ⟨_, by rw [List.getElem?_map, h3']; rfl, ?_, ?_⟩
        · simp [hmi]
        · intro _
          exact fin _ hbest

/-- C85, part.  The returned map has one point for every pattern; a point is in the data exactly
if the navigation mask is `False` there; and it has the best matches, with their positions and
rotations in the dictionary, among the scores between the pixels of its own pattern and of the
dictionary patterns where the signal mask is `False`.  Missing (and false, see C21, C22):
metrics where lower is better, and scores of -1 or lower with more than one iteration. -/
theorem C85_results_partial (hf : IsArgsort argtopk) (hg : IsArgsort argsort)
    (allowed : List MatchType) (sim : List K → List K → K) (r0 : R)
    (junk : ℕ → List K × List ℕ) (c : IndexingCall K R) (w : WellFormedCall c)
    (v : ValidArguments allowed c)
    (hlow : c.dictionary.length = perIteration c ∨
      ∀ p ∈ c.patterns, ∀ d ∈ c.dictionary,
        -1 < sim (unmaskedPixels c.sigMask p) (unmaskedPixels c.sigMask d)) :
    ∃ r rs, (dictionaryIndexingCall argtopk argsort 1 allowed sim r0 junk {} c).2 = .ok r ∧
      c.dictMap = some ([c.dictionary.length], rs) ∧
      r.length = c.patterns.length ∧
      ∀ (i : ℕ) (p : List K), c.patterns[i]? = some p →
        ∃ q, r[i]? = some q ∧
          (q.inData = true ↔ ∀ m, c.navMask = some m → m.data[i]? = some false) ∧
          (q.inData = true →
            IsBest (· ≥ ·) (min c.keepN c.dictionary.length)
              (c.dictionary.map (fun d =>
                sim (unmaskedPixels c.sigMask p) (unmaskedPixels c.sigMask d)))
              (q.scores.zip q.indices) ∧
            q.scores.length = q.indices.length ∧
            q.rotations.map some = q.indices.map (fun k => rs[k]?)) := by
  obtain ⟨r, rs, h1, h2, h3, h4⟩ := call_points hf hg allowed sim r0 junk c w v
  refine ⟨r, rs, h1, h2, h3, fun i p hp => ?_⟩
  obtain ⟨q, hq, hin, hres⟩ := h4 i p hp
  refine ⟨q, hq, hin, fun hd => ?_⟩
  obtain ⟨hz, hrest⟩ := hres hd
  refine ⟨?_, hrest⟩
  rw [hz]
  have := C21_global_best_partial hf hg c.keepN (perIteration c) (c.dictionary.map
    (fun d => sim (unmaskedPixels c.sigMask p) (unmaskedPixels c.sigMask d)))
    w.perIteration (by
      rcases hlow with h | h
      · left; simpa using h
      · right
        intro s hs
        obtain ⟨d, hd, rfl⟩ := List.mem_map.1 hs
        exact h p (List.mem_of_getElem? hp) d hd)
  rwa [List.length_map] at this

/-- C85, part.  Whatever the scores are, as many matches as asked for (but no more than the dictionary
has) are returned, and the first `m` of them are the `m` best if at least `m` dictionary patterns
score above -1 (or there is only one iteration).  Missing (and false, see C21): the others. -/
theorem C85_first_matches_partial (hf : IsArgsort argtopk) (hg : IsArgsort argsort)
    (allowed : List MatchType) (sim : List K → List K → K) (r0 : R)
    (junk : ℕ → List K × List ℕ) (c : IndexingCall K R) (w : WellFormedCall c)
    (v : ValidArguments allowed c) :
    ∃ r rs, (dictionaryIndexingCall argtopk argsort 1 allowed sim r0 junk {} c).2 = .ok r ∧
      c.dictMap = some ([c.dictionary.length], rs) ∧
      r.length = c.patterns.length ∧
      ∀ (i : ℕ) (p : List K), c.patterns[i]? = some p →
        ∃ q, r[i]? = some q ∧
          (q.inData = true ↔ ∀ m, c.navMask = some m → m.data[i]? = some false) ∧
          (q.inData = true →
            q.scores.length = min c.keepN c.dictionary.length ∧
            q.indices.length = min c.keepN c.dictionary.length ∧
            q.rotations.map some = q.indices.map (fun k => rs[k]?) ∧
            ∀ m ≤ min c.keepN c.dictionary.length,
              (c.dictionary.length = perIteration c ∨
                m ≤ (c.dictionary.map (fun d => sim (unmaskedPixels c.sigMask p)
                  (unmaskedPixels c.sigMask d))).countP (fun s => -1 < s)) →
              IsBest (· ≥ ·) m
                (c.dictionary.map (fun d =>
                  sim (unmaskedPixels c.sigMask p) (unmaskedPixels c.sigMask d)))
                ((q.scores.zip q.indices).take m)) := by
  obtain ⟨r, rs, h1, h2, h3, h4⟩ := call_points hf hg allowed sim r0 junk c w v
  refine ⟨r, rs, h1, h2, h3, fun i p hp => ?_⟩
  obtain ⟨q, hq, hin, hres⟩ := h4 i p hp
  refine ⟨q, hq, hin, fun hd => ?_⟩
  obtain ⟨hz, hl, hrot⟩ := hres hd
  have hlen := (indices_lt hf hg c.keepN (perIteration c) (c.dictionary.map (fun d =>
      sim (unmaskedPixels c.sigMask p) (unmaskedPixels c.sigMask d))) w.perIteration).1
  rw [← hz, List.length_zip, hl, min_self, List.length_map] at hlen
  refine ⟨hl.trans hlen, hlen, hrot, fun m hm hlow => ?_⟩
  rw [hz]
  exact (C21_first_matches_partial hf hg c.keepN (perIteration c) m _ w.perIteration
    (by simpa using hm) (by simpa using hlow)).2

end

/-! Concrete cases: three patterns of 2 x 3 pixels, a dictionary of two. -/

/-- A similarity for the examples: minus the summed absolute differences over 100. -/
def exampleSim (a b : List ℚ) : ℚ := -((List.zipWith (fun x y => |x - y|) a b).sum) / 100

/-- An example call. -/
def exampleCall : IndexingCall ℚ ℕ where
  navShape := [3]
  sigShape := [2, 3]
  patterns := [[1, 2, 3, 4, 5, 6], [6, 5, 4, 3, 2, 1], [1, 2, 3, 3, 2, 1]]
  dictSigShape := [2, 3]
  dictionary := [[6, 5, 4, 3, 2, 2], [1, 2, 3, 4, 5, 5]]
  dictMap := some ([2], [70, 71])
  dictChunk := none
  metric := .object
  keepN := 1
  nPer := some 1
  navMask := none
  sigMask := none
  dtype := none

/-- The example call with a navigation mask. -/
def exampleMaskedCall : IndexingCall ℚ ℕ :=
  { exampleCall with
    navMask := some ⟨[3], [true, false, true]⟩
    sigMask := some ⟨[2, 3], [false, false, false, false, false, true]⟩ }

/-- C85 is false for a metric object: a mask given in one call is used in the next call, to which
no mask is given, so two of three points are not indexed. -/
theorem C85_history_violated :
    (dictionaryIndexingCall stableArgsort stableArgsort 1 [] exampleSim 0
      (fun _ => ([0], [0])) {} exampleCall).2.toOption.map (·.map IndexedPoint.inData) =
      some [true, true, true] ∧
    (dictionaryIndexingCall stableArgsort stableArgsort 1 [] exampleSim 0
      (fun _ => ([0], [0]))
      (afterCalls stableArgsort stableArgsort 1 [] exampleSim 0 (fun _ => ([0], [0])) {}
        [exampleMaskedCall])
      exampleCall).2.toOption.map (·.map IndexedPoint.inData) = some [false, true, false] := by
  decide +kernel

/-- C85 is false for a metric object: if an earlier call was given a mask, a later call with a
map of another shape raises an error, although no mask is given to it. -/
theorem C85_history_error_violated :
    (dictionaryIndexingCall stableArgsort stableArgsort 1 [] exampleSim 0
      (fun _ => ([0], [0]))
      (afterCalls stableArgsort stableArgsort 1 [] exampleSim 0 (fun _ => ([0], [0])) {}
        [exampleMaskedCall])
      { exampleCall with navShape := [2], patterns := exampleCall.patterns.take 2 }).2 =
      .error .maskSize := by
  have h : ∀ e : Except IndexingError (List (IndexedPoint ℚ ℕ)),
      (match e with | .error .maskSize => true | _ => false) = true → e = .error .maskSize := by
    intro e he
    split at he
    · rfl
    · simp at he
  apply h
  decide +kernel

/-- C85 is false for a metric object: a data type which was refused in one call stays and makes
the next call, to which none is given, fail too. -/
theorem C85_failed_call_violated :
    (dictionaryIndexingCall stableArgsort stableArgsort 1 [.float32, .float64] exampleSim 0
      (fun _ => ([0], [0]))
      (afterCalls stableArgsort stableArgsort 1 [.float32, .float64] exampleSim 0
        (fun _ => ([0], [0])) {} [{ exampleCall with dtype := some .other }])
      exampleCall).2 = .error .dtype := by
  have h : ∀ e : Except IndexingError (List (IndexedPoint ℚ ℕ)),
      (match e with | .error .dtype => true | _ => false) = true → e = .error .dtype := by
    intro e he
    split at he
    · rfl
    · simp at he
  apply h
  decide +kernel

/-- C85 is false for signal masks: a mask of shape (3, 2) is accepted with patterns of shape
(2, 3), and a mask of the pixels in the second row and first column is used as one of the
pixels in the first row and third column. -/
theorem C85_signal_mask_shape_violated :
    (dictionaryIndexingCall stableArgsort stableArgsort 1 [] exampleSim 0
      (fun _ => ([0], [0])) {} { exampleCall with
        sigMask := some ⟨[3, 2], [false, false, true, false, false, false]⟩ }).2.toOption =
    (dictionaryIndexingCall stableArgsort stableArgsort 1 [] exampleSim 0
      (fun _ => ([0], [0])) {} { exampleCall with
        sigMask := some ⟨[2, 3], [false, false, true, false, false, false]⟩ }).2.toOption ∧
    ((dictionaryIndexingCall stableArgsort stableArgsort 1 [] exampleSim 0
      (fun _ => ([0], [0])) {} { exampleCall with
        sigMask := some ⟨[3, 2], [false, false, true, false, false, false]⟩ }).2.toOption).isSome := by
  decide +kernel

example : WellFormedCall exampleMaskedCall :=
  ⟨by decide, by decide +kernel, by decide +kernel, by
    rintro s rs h; simp [exampleMaskedCall, exampleCall] at h; obtain ⟨rfl, rfl⟩ := h; rfl, by
    rintro m h; simp [exampleMaskedCall] at h; subst h; rfl, by
    rintro m h; simp [exampleMaskedCall] at h; subst h; rfl, by simp [exampleMaskedCall, exampleCall],
    by decide⟩
example : ValidArguments [.float32] exampleMaskedCall :=
  ⟨by rintro m h; simp [exampleMaskedCall] at h; subst h; exact ⟨rfl, by simp⟩, by
    rintro m h; simp [exampleMaskedCall] at h; subst h; rfl, rfl, ⟨_, rfl⟩, by
    simp [exampleMaskedCall, exampleCall], by right; decide⟩
example : ∀ p ∈ exampleMaskedCall.patterns, ∀ d ∈ exampleMaskedCall.dictionary,
    -1 < exampleSim (unmaskedPixels exampleMaskedCall.sigMask p)
      (unmaskedPixels exampleMaskedCall.sigMask d) := by decide +kernel
example : (dictionaryIndexingCall stableArgsort stableArgsort 1 [] exampleSim 0
    (fun _ => ([0], [0])) {} exampleMaskedCall).2.toOption =
    some [⟨false, [0], [0], [0]⟩, ⟨true, [0], [0], [70]⟩, ⟨false, [0], [0], [0]⟩] := by
  decide +kernel

end Kp
