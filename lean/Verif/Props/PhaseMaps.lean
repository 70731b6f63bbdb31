import Verif.Spec.PhaseMaps
import Verif.Props.SelfIndexing
import Verif.Props.MergeMaps

/-
C121: indexing with one dictionary per phase, then merging, finds the phase.
-/

set_option linter.unusedSectionVars false

namespace Kp
open Spec

/-! When merging succeeds. -/

section
variable {K R D : Type} [Field K] [LinearOrder K] [IsStrictOrderedRing K] [DecidableEq D]

/-- Merging succeeds if the arguments fit together and every point is in one of the maps. -/
theorem merge_succeeds {xmaps : List (XMap K R D)} {mnb : ℤ} {gib : Option Bool}
    {masks : Option (List (Option NavMask))} {shape : List ℕ} {N : ℕ}
    (hlen : ∀ ms, masks = some ms → ms.length = xmaps.length)
    (hne : xmaps ≠ [])
    (hshape : ∀ s ∈ mapShapes xmaps masks, s = shape)
    (hsize : ∀ p ∈ masks1d xmaps masks, p.1.size = rank (p.2.getD (fun _ => true)) shape.prod)
    (hrot : ∀ x ∈ xmaps, x.nRot = N) (hone : ¬ (1 < N ∧ shape.prod = 1))
    (havg : 0 < nAveraged N (mergeNBest mnb gib))
    (hcov : ∀ m < shape.prod, ∃ k < xmaps.length, ∃ row, rowOf masks k m = some row) :
    mergeSize xmaps masks = shape.prod ∧ ∃ out, mergeCrystalMaps xmaps mnb gib masks = .ok out := by
  have hshapes : mapShapes xmaps masks ≠ [] := by
    unfold mapShapes
    cases masks with
    | none => simpa using hne
    | some ms =>
      have := hlen ms rfl
      have h0 : 0 < xmaps.length := List.length_pos_iff.2 hne
      intro e
      have e := congrArg List.length e
      rw [List.length_map, List.length_zip, List.length_nil] at e
      omega
  have hhead : (mapShapes xmaps masks).headD [] = shape := by
    cases hs : mapShapes xmaps masks with
    | nil => exact absurd hs hshapes
    | cons a l => exact hshape a (by simp [hs])
  refine ⟨by rw [mergeSize, hhead], ?_⟩
  have hN : (xmaps.map (·.nRot)).headD 0 = N := by
    cases hs : xmaps with
    | nil => exact absurd hs hne
    | cons a l => exact hrot a (by simp [hs])
  unfold mergeCrystalMaps
  simp only [hhead, hN]
  rw [if_neg, if_neg, if_neg, if_neg]
  · unfold mergeCore
    simp only
    rw [if_neg hone, if_neg]
    · exact ⟨_, rfl⟩
    · rw [Bool.not_eq_true, List.any_eq_false]
      intro m hm
      rw [List.mem_range] at hm
      obtain ⟨k, hk, row, hrow⟩ := hcov m hm
      obtain ⟨p, hp, -, -, hpr⟩ := masks1d_get hlen (List.getElem?_eq_getElem hk) m
      have hc := ((hpr row).1 hrow).1
      have hb := (bestScore_some (N := N) (mnb := mergeNBest mnb gib)
        (hsize p (List.mem_of_getElem? hp)) hm).2 ⟨hc, havg, rfl⟩
      obtain ⟨b, hb⟩ := nanargmax_isSome (l := (masks1d xmaps masks).map (fun p =>
        (bestScore p.1 p.2 shape.prod N (mergeNBest mnb gib) m).map ((mergeSign mnb gib : K) * ·)))
        (x := (mergeSign mnb gib : K) * meanScore p.1 (rowIn p m) (nAveraged N (mergeNBest mnb gib)))
        (List.mem_of_getElem? (i := k) (by rw [List.getElem?_map, hp, Option.map_some, hb]; rfl))
      simp [hb]
  · rw [Bool.not_eq_true, List.any_eq_false]
    intro x hx
    simp [hrot x hx]
  · rw [Bool.not_eq_true, List.any_eq_false]
    intro p hp
    simp [hsize p hp]
  · rw [Bool.not_eq_true, List.any_eq_false]
    intro s hs
    simp [hshape s hs]
  · cases masks with
    | none => simp
    | some ms => simp [hlen ms rfl]

end

/-! Rows of the points in the data. -/

theorem filter_row {α : Type*} (l : List α) (f : α → Bool) (keep : ℕ → Bool)
    (h : ∀ (i : ℕ) (q : α), l[i]? = some q → (f q = true ↔ keep i = true)) :
    (l.filter f).length = rank keep l.length ∧
    ∀ m, keep m = true → (l.filter f)[rank keep m]? = if m < l.length then l[m]? else
      (l.filter f)[rank keep m]? := by
  have hcount : ∀ m ≤ l.length, ((l.take m).filter f).length = rank keep m := by
    intro m
    induction m with
    | zero => intro _; simp [rank]
    | succ m ih =>
      intro hm
      have hm' : m < l.length := by omega
      rw [List.take_add_one, List.filter_append, List.length_append, ih (by omega),
        List.getElem?_eq_getElem hm']
      have hk := h m l[m] (List.getElem?_eq_getElem hm')
      unfold rank
      rw [List.range_succ, List.filter_append, List.length_append]
      congr 1
      by_cases hf : f l[m] = true
      · simp [hf, hk.1 hf]
      · have : ¬ keep m = true := fun e => hf (hk.2 e)
        simp [hf, this]
  refine ⟨by simpa using hcount l.length le_rfl, fun m hm => ?_⟩
  split
  · rename_i hml
    have e : l = l.take m ++ l[m] :: l.drop (m + 1) := by simp
    have hk := (h m l[m] (List.getElem?_eq_getElem hml)).2 hm
    have : l.filter f = (l.take m).filter f ++ l[m] :: (l.drop (m + 1)).filter f := by
      conv_lhs => rw [e]
      rw [List.filter_append, List.filter_cons, if_pos hk]
    rw [this, ← hcount m hml.le, List.getElem?_append_right le_rfl]
    simp
  · rfl

/-! The first match. -/

noncomputable section

/-- All scores are from the dictionary, or the initial ones. -/
theorem scores_origin {f g : List ℝ → List ℕ} (hf : IsArgsort f) (hg : IsArgsort g)
    (keepN nPer : ℕ) (scores : List ℝ) (hn : 0 < nPer) :
    ∀ c ∈ dictionaryIndexing f g 1 keepN nPer scores, c.1 = -1 ∨ c.1 ∈ scores := by
  intro c hc
  by_cases hne : scores.length = nPer
  · have h := top_matchChunk hf (min keepN scores.length) scores
    have e : dictionaryIndexing f g 1 keepN nPer scores =
        matchChunk f (min keepN scores.length) scores := by
      unfold dictionaryIndexing
      simp only [if_pos hne]
    rw [e] at hc
    obtain ⟨rest, p, -⟩ := h.split
    have := p.subset (List.mem_append_left rest hc)
    rw [List.mem_zipIdx_iff_getElem?] at this
    exact .inr (List.mem_of_getElem? this)
  · obtain ⟨rest, p, -⟩ := (top_with_init hf hg keepN nPer scores hn hne).split
    have := p.subset (List.mem_append_left rest hc)
    rw [List.mem_append, List.mem_replicate] at this
    rcases this with ⟨-, rfl⟩ | this
    · exact .inl rfl
    · rw [List.mem_zipIdx_iff_getElem?] at this
      exact .inr (List.mem_of_getElem? this)

/-- What is needed of one call: the number of matches of the points indexed, and their first score. -/
theorem phase_call {R D : Type} {argtopk argsort : List ℝ → List ℕ} (hf : IsArgsort argtopk)
    (hg : IsArgsort argsort) (allowed : List MatchType) (r0 : R)
    (junk : ℕ → List ℝ × List ℕ) (ph : PhaseCall ℝ R D) (w : WellFormedCall ph.call)
    (v : ValidArguments allowed ph.call)
    (hk : 0 < min ph.call.keepN ph.call.dictionary.length)
    (hcontrast : ∀ d ∈ ph.call.dictionary, ShowsContrast ph.call.sigMask d) :
    ∃ r rs, (dictionaryIndexingCall argtopk argsort 1 allowed nccOf r0 junk {} ph.call).2 = .ok r ∧
      ph.call.dictMap = some ([ph.call.dictionary.length], rs) ∧
      r.length = ph.call.patterns.length ∧
      ∀ (i : ℕ) (p : List ℝ), ph.call.patterns[i]? = some p → ∃ q, r[i]? = some q ∧
        (q.inData = true ↔ Used ph.call.navMask i) ∧
        (q.inData = true → ShowsContrast ph.call.sigMask p →
          (¬ LooksLike ph p → ∃ s, q.scores[0]? = some s ∧ s < 1) ∧
          (LooksLike ph p → ∃ k d R, ph.call.dictionary[k]? = some d ∧ rs[k]? = some R ∧
            SameUpTo ph.call.sigMask d p ∧
            q.scores[0]? = some 1 ∧ q.indices[0]? = some k ∧ q.rotations.head? = some R)) := by
  obtain ⟨r, rs, h1, h2, h3, h4⟩ := call_points hf hg allowed nccOf r0 junk ph.call w v
  obtain ⟨r', rs', h1', h2', h4'⟩ :=
    C118_ncc_partial hf hg allowed r0 junk ph.call w v (by omega) hcontrast
  obtain rfl : r = r' := by rw [h1] at h1'; cases h1'; rfl
  obtain rfl : rs = rs' := by rw [h2] at h2'; cases h2'; rfl
  refine ⟨r, rs, h1, h2, h3, fun i p hp => ?_⟩
  obtain ⟨q, hq, hin, hres⟩ := h4 i p hp
  refine ⟨q, hq, hin, fun hd hpc => ⟨fun hno => ?_, fun hlook => ?_⟩⟩
  · obtain ⟨hz, hl, -⟩ := hres hd
    have hlen := (indices_lt hf hg ph.call.keepN (perIteration ph.call)
      (ph.call.dictionary.map (fun d => nccOf (unmaskedPixels ph.call.sigMask p)
        (unmaskedPixels ph.call.sigMask d))) w.perIteration).1
    have horig := scores_origin hf hg ph.call.keepN (perIteration ph.call)
      (ph.call.dictionary.map (fun d => nccOf (unmaskedPixels ph.call.sigMask p)
        (unmaskedPixels ph.call.sigMask d))) w.perIteration
    rw [← hz] at hlen horig
    rw [List.length_zip, List.length_map] at hlen
    have hs0 : 0 < q.scores.length := by omega
    have hi0 : 0 < q.indices.length := by omega
    refine ⟨_, List.getElem?_eq_getElem hs0, ?_⟩
    have hmem : (q.scores[0], q.indices[0]) ∈ q.scores.zip q.indices := by
      rw [List.mem_iff_getElem]
      exact ⟨0, by rw [List.length_zip]; omega, by simp⟩
    rcases horig _ hmem with e | e
    · simp only at e
      rw [e]; norm_num
    · obtain ⟨d, hdm, hds⟩ := List.mem_map.1 e
      simp only at hds
      rw [← hds]
      have sp := nccOf_spec (call_lengths w v (List.mem_of_getElem? hp) hdm) hpc (hcontrast d hdm)
      exact lt_of_le_of_ne sp.1 fun e1 => hno ⟨d, hdm, sameUpTo_symm (sp.2.1 e1)⟩
  · obtain ⟨q', k, d, R', hq', -, hdk, hR, hsame, hs, hi, hr⟩ :=
      h4' i p hp (hin.1 hd) hpc hlook
    obtain rfl : q = q' := by rw [hq] at hq'; cases hq'; rfl
    exact ⟨k, d, R', hdk, hR, hsame, by rw [← List.head?_eq_getElem?]; exact hs,
      by rw [← List.head?_eq_getElem?]; exact hi, hr⟩

theorem indexPhases_ok {R D : Type} {argtopk argsort : List ℝ → List ℕ}
    {allowed : List MatchType} {sim : List ℝ → List ℝ → ℝ} {r0 : R}
    {junk : ℕ → List ℝ × List ℕ} (phases : List (PhaseCall ℝ R D))
    (h : ∀ ph ∈ phases, ∃ r,
      (dictionaryIndexingCall argtopk argsort 1 allowed sim r0 junk {} ph.call).2 = .ok r) :
    ∃ xmaps, indexPhases argtopk argsort allowed sim r0 junk phases = .ok xmaps ∧
      xmaps.length = phases.length ∧
      ∀ (k : ℕ) (ph : PhaseCall ℝ R D), phases[k]? = some ph → ∀ r,
        (dictionaryIndexingCall argtopk argsort 1 allowed sim r0 junk {} ph.call).2 = .ok r →
        xmaps[k]? = some (crystalMapOf ph r) := by
  induction phases with
  | nil => exact ⟨[], rfl, rfl, by simp⟩
  | cons ph l ih =>
    obtain ⟨xs, h1, h2, h3⟩ := ih fun x hx => h x (List.mem_cons_of_mem _ hx)
    obtain ⟨r, hr⟩ := h ph (by simp)
    refine ⟨crystalMapOf ph r :: xs, by rw [indexPhases, hr]; simp only [h1], by simp [h2], ?_⟩
    rintro (_ | k) ph' hph r' hr'
    · simp only [List.getElem?_cons_zero, Option.some.injEq] at hph ⊢
      subst hph
      rw [hr] at hr'
      cases hr'
      rfl
    · exact h3 k ph' (by simpa using hph) r' hr'

/-- Where a map has data is where its call used the pattern, and its rows are those of these points. -/
theorem phase_rows {R D : Type} {phases : List (PhaseCall ℝ R D)}
    {masks : Option (List (Option NavMask))} (hmasks : MasksOfCalls phases masks) {k : ℕ}
    {ph : PhaseCall ℝ R D} (hph : phases[k]? = some ph) {r : List (IndexedPoint ℝ R)}
    (hin : ∀ (i : ℕ) (q : IndexedPoint ℝ R), r[i]? = some q →
      (q.inData = true ↔ Used ph.call.navMask i)) {m : ℕ} (hm : m < r.length) :
    (∀ row, rowOf masks k m = some row →
      Used ph.call.navMask m ∧ (r.filter (·.inData))[row]? = r[m]?) ∧
    (Used ph.call.navMask m → ∃ row, rowOf masks k m = some row) := by
  have hnone : ph.call.navMask = none → (r.filter (·.inData)) = r := by
    intro e
    rw [List.filter_eq_self]
    intro q hq
    obtain ⟨i, hi⟩ := List.mem_iff_getElem?.1 hq
    exact (hin i q hi).2 (by rw [e]; intro m hm; cases hm)
  have key : ∀ row, (match navMaskOf ph.call with
      | none => some m
      | some q => if q.keep m then some ((List.range m).countP q.keep) else none) = some row →
      Used ph.call.navMask m ∧ (r.filter (·.inData))[row]? = r[m]? := by
    intro row hrow
    unfold navMaskOf at hrow
    cases hc : ph.call.navMask with
    | none =>
      rw [hc] at hrow
      simp only [Option.map_none, Option.some.injEq] at hrow
      subst hrow
      exact ⟨(by intro m hm; cases hm), by rw [hnone hc]⟩
    | some b =>
      rw [hc] at hrow
      simp only [Option.map_some] at hrow
      split_ifs at hrow with hb
      cases hrow
      have hkeep : ∀ i, (b.data[i]? == some false) = true ↔ Used ph.call.navMask i := by
        intro i
        rw [hc]
        simp [Used]
      refine ⟨hc ▸ (hkeep m).1 hb, ?_⟩
      have := (filter_row r (·.inData) (fun i => b.data[i]? == some false)
        (fun i q hq => (hin i q hq).trans (hkeep i).symm)).2 m hb
      rw [if_pos hm] at this
      rw [← this, rank, ← List.countP_eq_length_filter]
  rcases hmasks with rfl | ⟨rfl, hno⟩
  · have e : (phases.map (fun ph => navMaskOf ph.call)).getD k none = navMaskOf ph.call := by
      rw [List.getD_eq_getElem?_getD, List.getElem?_map, hph]; rfl
    unfold rowOf
    simp only [e]
    refine ⟨key, fun hu => ?_⟩
    unfold navMaskOf
    cases hc : ph.call.navMask with
    | none => exact ⟨m, rfl⟩
    | some b =>
      have := hu b hc
      simp [this]
  · have hc := hno ph (List.mem_of_getElem? hph)
    unfold rowOf
    refine ⟨fun row hrow => ?_, fun _ => ⟨m, rfl⟩⟩
    simp only [Option.some.injEq] at hrow
    subst hrow
    exact ⟨by rw [hc]; exact fun m hm => (by cases hm), by rw [hnone hc]⟩

theorem mergeOne (N : ℕ) (_ : 0 < N) : nAveraged N (mergeNBest 1 none) = 1 := by
  unfold nAveraged mergeNBest sliceTo
  split
  · simp
    omega
  · rfl

/-- The crystal maps of all phases can be merged, and what they hold. -/
theorem phase_setup {R D : Type} [DecidableEq D] {argtopk argsort : List ℝ → List ℕ}
    (hf : IsArgsort argtopk) (hg : IsArgsort argsort) (allowed : List MatchType) (r0 : R)
    (junk : ℕ → List ℝ × List ℕ) {phases : List (PhaseCall ℝ R D)} {nav : List ℕ}
    {patterns : List (List ℝ)} {N : ℕ} (hsame : SamePatterns phases nav patterns N)
    (w : ∀ ph ∈ phases, WellFormedCall ph.call)
    (v : ∀ ph ∈ phases, ValidArguments allowed ph.call)
    (hcontrast : ∀ ph ∈ phases, ∀ d ∈ ph.call.dictionary, ShowsContrast ph.call.sigMask d)
    {masks : Option (List (Option NavMask))} (hmasks : MasksOfCalls phases masks)
    (hone : ¬ (1 < N ∧ nav.prod = 1))
    (hcov : ∀ i < nav.prod, ∃ ph ∈ phases, Used ph.call.navMask i) :
    ∃ xmaps out, indexPhases argtopk argsort allowed nccOf r0 junk phases = .ok xmaps ∧
      mergeCrystalMaps xmaps 1 none masks = .ok out ∧ mergeSize xmaps masks = nav.prod ∧
      patterns.length = nav.prod ∧ xmaps.length = phases.length ∧
      ∀ (k : ℕ) (ph : PhaseCall ℝ R D), phases[k]? = some ph →
        ∃ x rs, xmaps[k]? = some x ∧ x.nRot = N ∧ (∀ m, x.phaseId m = 0) ∧ x.name = ph.name ∧
          x.phase = ph.phase ∧ ph.call.dictMap = some ([ph.call.dictionary.length], rs) ∧
          ∀ (i : ℕ) (p : List ℝ), patterns[i]? = some p →
            (Used ph.call.navMask i → ∃ row, rowOf masks k i = some row) ∧
            ∀ row, rowOf masks k i = some row → Used ph.call.navMask i ∧
              (ShowsContrast ph.call.sigMask p →
                (¬ LooksLike ph p → meanScore x row 1 < 1) ∧
                (LooksLike ph p → meanScore x row 1 = 1 ∧
                  ∃ (j : ℕ) (d : List ℝ) (rot : R), ph.call.dictionary[j]? = some d ∧ rs[j]? = some rot ∧
                    SameUpTo ph.call.sigMask d p ∧ x.scores row 0 = 1 ∧ x.sims row 0 = j ∧
                    (x.rots row).head? = some rot)) := by
  have hcalls : ∀ ph ∈ phases, _ := fun ph hph =>
    phase_call hf hg allowed r0 junk ph (w ph hph) (v ph hph)
      (by rw [hsame.kept ph hph]; exact hsame.pos) (hcontrast ph hph)
  obtain ⟨xmaps, hx, hxl, hxk⟩ := indexPhases_ok (argtopk := argtopk) (argsort := argsort)
    (allowed := allowed) (sim := nccOf) (r0 := r0) (junk := junk) phases
    (fun ph hph => by obtain ⟨r, rs, h, -⟩ := hcalls ph hph; exact ⟨r, h⟩)
  have hplen : patterns.length = nav.prod := by
    obtain ⟨ph, hph⟩ := List.exists_mem_of_ne_nil _ hsame.some_phase
    have := (w ph hph).patterns
    rwa [hsame.patterns ph hph, hsame.nav ph hph] at this
  -- the map of one phase
  have hmap : ∀ (k : ℕ) (ph : PhaseCall ℝ R D), phases[k]? = some ph →
      ∃ r rs, xmaps[k]? = some (crystalMapOf ph r) ∧
        ph.call.dictMap = some ([ph.call.dictionary.length], rs) ∧
        r.length = nav.prod ∧
        (∀ (i : ℕ) (q : IndexedPoint ℝ R), r[i]? = some q →
          (q.inData = true ↔ Used ph.call.navMask i)) ∧
        ∀ (i : ℕ) (p : List ℝ), patterns[i]? = some p → ∃ q, r[i]? = some q ∧
        (q.inData = true → ShowsContrast ph.call.sigMask p →
          (¬ LooksLike ph p → ∃ s, q.scores[0]? = some s ∧ s < 1) ∧
          (LooksLike ph p → ∃ k d R, ph.call.dictionary[k]? = some d ∧ rs[k]? = some R ∧
            SameUpTo ph.call.sigMask d p ∧
            q.scores[0]? = some 1 ∧ q.indices[0]? = some k ∧ q.rotations.head? = some R)) := by
    intro k ph hph
    have hmem := List.mem_of_getElem? hph
    obtain ⟨r, rs, h1, h2, h3, h4⟩ := hcalls ph hmem
    rw [hsame.patterns ph hmem] at h3 h4
    refine ⟨r, rs, hxk k ph hph r h1, h2, by rw [h3, hplen], fun i q hq => ?_, fun i p hp => ?_⟩
    · have hi : i < patterns.length := by
        rw [← h3]; exact (List.getElem?_eq_some_iff.1 hq).1
      obtain ⟨q', hq', hin, -⟩ := h4 i _ (List.getElem?_eq_getElem hi)
      rw [hq] at hq'
      cases hq'
      exact hin
    · obtain ⟨q, hq, -, hres⟩ := h4 i p hp
      exact ⟨q, hq, hres⟩
  have hback : ∀ (k : ℕ) (x : XMap ℝ R D), xmaps[k]? = some x → ∃ ph, phases[k]? = some ph := by
    intro k x hk
    have := (List.getElem?_eq_some_iff.1 hk).1
    exact ⟨_, List.getElem?_eq_getElem (by rw [← hxl]; exact this)⟩
  have hlen : ∀ ms, masks = some ms → ms.length = xmaps.length := by
    intro ms hms
    rcases hmasks with h | ⟨h, -⟩
    · rw [h] at hms
      cases hms
      rw [List.length_map, hxl]
    · rw [h] at hms; cases hms
  have hne : xmaps ≠ [] := by
    intro e
    have := hsame.some_phase
    rw [e] at hxl
    exact this (List.length_eq_zero_iff.1 hxl.symm)
  have hshape : ∀ s ∈ mapShapes xmaps masks, s = nav := by
    intro s hs
    unfold mapShapes at hs
    rcases hmasks with rfl | ⟨rfl, -⟩
    · obtain ⟨⟨x, mk⟩, hz, rfl⟩ := List.mem_map.1 hs
      obtain ⟨k, hk⟩ := List.mem_iff_getElem?.1 hz
      rw [List.getElem?_zip_eq_some] at hk
      obtain ⟨ph, hph⟩ := hback k x hk.1
      have hmem := List.mem_of_getElem? hph
      obtain ⟨r, rs, h1, -⟩ := hmap k ph hph
      have e1 := hk.1
      rw [h1] at e1
      have e2 := hk.2
      rw [List.getElem?_map, hph, Option.map_some, Option.some.injEq] at e2
      cases e1
      subst e2
      unfold navMaskOf
      cases hc : ph.call.navMask with
      | none => exact hsame.nav ph hmem
      | some b => exact ((v ph hmem).navMask b hc).1.trans (hsame.nav ph hmem)
    · obtain ⟨x, hxm, rfl⟩ := List.mem_map.1 hs
      obtain ⟨k, hk⟩ := List.mem_iff_getElem?.1 hxm
      obtain ⟨ph, hph⟩ := hback k x hk
      obtain ⟨r, rs, h1, -⟩ := hmap k ph hph
      rw [h1] at hk
      cases hk
      exact hsame.nav ph (List.mem_of_getElem? hph)
  have hsize : ∀ p ∈ masks1d xmaps masks,
      p.1.size = rank (p.2.getD (fun _ => true)) nav.prod := by
    have hall : ∀ (k : ℕ) (ph : PhaseCall ℝ R D) (r : List (IndexedPoint ℝ R)), phases[k]? = some ph → r.length = nav.prod →
        (∀ (i : ℕ) (q : IndexedPoint ℝ R), r[i]? = some q →
          (q.inData = true ↔ Used ph.call.navMask i)) → ph.call.navMask = none →
        (r.filter (·.inData)).length = rank (fun _ => true) nav.prod := by
      intro k ph r _ hl hin hc
      rw [← hl]
      refine (filter_row r (·.inData) (fun _ => true) (fun i q hq => (hin i q hq).trans ?_)).1
      rw [hc]
      simp [Used]
    intro p hp
    unfold masks1d at hp
    rcases hmasks with rfl | ⟨rfl, hno⟩
    · obtain ⟨⟨x, mk⟩, hz, rfl⟩ := List.mem_map.1 hp
      obtain ⟨k, hk⟩ := List.mem_iff_getElem?.1 hz
      rw [List.getElem?_zip_eq_some] at hk
      obtain ⟨ph, hph⟩ := hback k x hk.1
      obtain ⟨r, rs, h1, -, hl, hin, -⟩ := hmap k ph hph
      have e1 := hk.1
      rw [h1] at e1
      have e2 := hk.2
      rw [List.getElem?_map, hph, Option.map_some, Option.some.injEq] at e2
      cases e1
      subst e2
      unfold navMaskOf
      cases hc : ph.call.navMask with
      | none => exact hall k ph r hph hl hin hc
      | some b =>
        simp only [Option.map_some, Option.getD_some]
        rw [← hl]
        refine (filter_row r (·.inData) _ (fun i q hq => (hin i q hq).trans ?_)).1
        rw [hc]
        simp [Used]
    · obtain ⟨x, hxm, rfl⟩ := List.mem_map.1 hp
      obtain ⟨k, hk⟩ := List.mem_iff_getElem?.1 hxm
      obtain ⟨ph, hph⟩ := hback k x hk
      obtain ⟨r, rs, h1, -, hl, hin, -⟩ := hmap k ph hph
      rw [h1] at hk
      cases hk
      exact hall k ph r hph hl hin (hno ph (List.mem_of_getElem? hph))
  have hrot : ∀ x ∈ xmaps, x.nRot = N := by
    intro x hxm
    obtain ⟨k, hk⟩ := List.mem_iff_getElem?.1 hxm
    obtain ⟨ph, hph⟩ := hback k x hk
    obtain ⟨r, rs, h1, -⟩ := hmap k ph hph
    rw [h1] at hk
    cases hk
    exact hsame.kept ph (List.mem_of_getElem? hph)
  obtain ⟨hms, out, hout⟩ := merge_succeeds (mnb := 1) (gib := none) hlen hne hshape hsize hrot hone
    (by rw [mergeOne N hsame.pos]; exact Nat.one_pos) (fun m hm => by
      obtain ⟨ph, hph, hu⟩ := hcov m hm
      obtain ⟨k, hk⟩ := List.mem_iff_getElem?.1 hph
      obtain ⟨r, rs, -, -, hl, hin, -⟩ := hmap k ph hk
      exact ⟨k, by rw [hxl]; exact (List.getElem?_eq_some_iff.1 hk).1,
        (phase_rows hmasks hk hin (by rw [hl]; exact hm)).2 hu⟩)
  refine ⟨xmaps, out, hx, hout, hms, hplen, hxl, fun k ph hph => ?_⟩
  obtain ⟨r, rs, h1, h2, hl, hin, h4⟩ := hmap k ph hph
  refine ⟨_, rs, h1, hrot _ (List.mem_of_getElem? h1), fun _ => rfl, rfl, rfl, h2, fun i p hp => ?_⟩
  have hi : i < r.length := by rw [hl, ← hplen]; exact (List.getElem?_eq_some_iff.1 hp).1
  obtain ⟨hr1, hr2⟩ := phase_rows hmasks hph hin hi
  refine ⟨hr2, fun row hrow => ?_⟩
  obtain ⟨hu, hrr⟩ := hr1 row hrow
  refine ⟨hu, fun hpc => ?_⟩
  obtain ⟨q, hq, hres⟩ := h4 i p hp
  rw [hq] at hrr
  obtain ⟨g1, g2⟩ := hres ((hin i q hq).2 hu) hpc
  have hmean : ∀ s, q.scores[0]? = some s → (crystalMapOf ph r).scores row 0 = s ∧
      meanScore (crystalMapOf ph r) row 1 = s := by
    intro s hs
    have : (crystalMapOf ph r).scores row 0 = s := by
      simp only [crystalMapOf]
      rw [hrr]
      simp [hs]
    refine ⟨this, ?_⟩
    unfold meanScore
    simp [this]
  refine ⟨fun hno => ?_, fun hlook => ?_⟩
  · obtain ⟨s, hs, hlt⟩ := g1 hno
    rw [(hmean s hs).2]
    exact hlt
  · obtain ⟨j, d, R', hd, hR, hsu, hs, hj, hr⟩ := g2 hlook
    refine ⟨(hmean 1 hs).2, j, d, R', hd, hR, hsu, (hmean 1 hs).1, ?_, ?_⟩
    · simp only [crystalMapOf]
      rw [hrr]
      simp [hj]
    · simp only [crystalMapOf]
      rw [hrr]
      simpa using hr

theorem first_mem {K : Type*} {N : ℕ} (h : 0 < N) (f : ℕ → K) :
    ((List.range N).map f).head? = some (f 0) := by
  cases N with
  | zero => omega
  | succ n => rw [List.range_succ_eq_map]; rfl

/-- C121 (partial): the same patterns are indexed (NCC) with the dictionaries of several phases, with
a navigation mask per phase or none, and the crystal maps are merged by their best score, with the
same masks. This succeeds, and in every point where the pattern is, up to gain and offset, one of
exactly one dictionary, the merged map has score 1, and the rotation and simulation index of such a
pattern in that dictionary, whatever the order of the phases, the number of matches kept and the
number of patterns per iteration. Missing (and false): maps with one point and more than one match
(C25), points in no map (C26), dictionaries with patterns without contrast (C112). The phase itself is
in `C121_phase_partial`. -/
theorem C121_match_partial {R D : Type} [DecidableEq D] {argtopk argsort : List ℝ → List ℕ}
    (hf : IsArgsort argtopk) (hg : IsArgsort argsort) (allowed : List MatchType) (r0 : R)
    (junk : ℕ → List ℝ × List ℕ) {phases : List (PhaseCall ℝ R D)} {nav : List ℕ}
    {patterns : List (List ℝ)} {N : ℕ} (hsame : SamePatterns phases nav patterns N)
    (w : ∀ ph ∈ phases, WellFormedCall ph.call)
    (v : ∀ ph ∈ phases, ValidArguments allowed ph.call)
    (hcontrast : ∀ ph ∈ phases, ∀ d ∈ ph.call.dictionary, ShowsContrast ph.call.sigMask d)
    {masks : Option (List (Option NavMask))} (hmasks : MasksOfCalls phases masks)
    (hone : ¬ (1 < N ∧ nav.prod = 1))
    (hcov : ∀ i < nav.prod, ∃ ph ∈ phases, Used ph.call.navMask i) :
    ∃ xmaps out, indexPhases argtopk argsort allowed nccOf r0 junk phases = .ok xmaps ∧
      mergeCrystalMaps xmaps 1 none masks = .ok out ∧
      ∀ (i k : ℕ) (p : List ℝ) (ph : PhaseCall ℝ R D), patterns[i]? = some p →
        phases[k]? = some ph → OnlyPhase phases i k p →
        (∀ ph' ∈ phases, ShowsContrast ph'.call.sigMask p) →
        ∃ (j : ℕ) (d : List ℝ) (rs : List R) (rot : R), ph.call.dictionary[j]? = some d ∧
          SameUpTo ph.call.sigMask d p ∧
          ph.call.dictMap = some ([ph.call.dictionary.length], rs) ∧ rs[j]? = some rot ∧
          (out.scores i).head? = some 1 ∧ (out.rots i).head? = some rot ∧
          (out.sims i).head? = some (j : ℤ) := by
  obtain ⟨xmaps, out, hx, hout, hms, hpl, hxl, hph⟩ := phase_setup hf hg allowed r0 junk hsame w v
    hcontrast hmasks hone hcov
  refine ⟨xmaps, out, hx, hout, fun i k p ph hp hk hon hpc => ?_⟩
  have hi : i < mergeSize xmaps masks := by
    rw [hms, ← hpl]; exact (List.getElem?_eq_some_iff.1 hp).1
  obtain ⟨N', hN', -, k0, row, x, hx0, hrow, hbest, hdata⟩ := C25_best_map_partial hout hi
  obtain ⟨⟨ph1, hk1, hu, hlook⟩, hothers⟩ := hon
  rw [hk] at hk1
  cases hk1
  obtain ⟨x1, rs, hx1, hr1, hid1, -, -, hdm, hfacts⟩ := hph k ph hk
  obtain rfl : N' = N := (hN' x1 (List.mem_of_getElem? hx1)).symm.trans hr1
  rw [mergeOne _ hsame.pos] at hbest
  obtain ⟨hex, hrows⟩ := hfacts i p hp
  obtain ⟨row1, hrow1⟩ := hex hu
  obtain ⟨hm1, j, d, rot, hd, hrot, hsu, hs1, hj1, hro1⟩ :=
    ((hrows row1 hrow1).2 (hpc ph (List.mem_of_getElem? hk))).2 hlook
  have hk0 : k0 = k := by
    by_contra hne
    have hlt0 : k0 < phases.length := by
      rw [← hxl]; exact (List.getElem?_eq_some_iff.1 hx0).1
    have hph0 := List.getElem?_eq_getElem hlt0
    obtain ⟨x2, rs2, hx2, -, -, -, -, -, hf2⟩ := hph k0 _ hph0
    rw [hx0] at hx2
    cases hx2
    obtain ⟨hu2, hc2⟩ := (hf2 i p hp).2 row hrow
    have := (hc2 (hpc _ (List.mem_of_getElem? hph0))).1 (hothers k0 _ hne hph0 hu2)
    have hb := (hbest k row1 x1 hx1 hrow1).1
    simp only [AsGood, Option.getD_none, zero_le_one, decide_true, if_true] at hb
    linarith
  subst hk0
  rw [hx0] at hx1
  cases hx1
  rw [hrow] at hrow1
  cases hrow1
  rcases hdata with ⟨⟨-, hall⟩, -⟩ | ⟨-, hr, hs, hsim⟩
  · have := hall x (List.mem_of_getElem? hx0)
    rw [hid1] at this
    cases this
  · refine ⟨j, d, rs, rot, hd, hsu, hdm, hrot, ?_, by rw [hr]; exact hro1, ?_⟩
    · rw [hs, first_mem hsame.pos, hs1]
    · rw [hsim, first_mem hsame.pos, hj1]

/-- C121 (partial), the phase: if no two dictionaries are of the same phase, and each of them is the
only one for some pattern, then the phase of the merged map, in every point where the pattern is one of
exactly one dictionary, is the phase of that dictionary: the phase ID is the position of the dictionary,
and the phase list has its phase with this ID, and this ID once. Missing (and false, see
`C25_identical_phases`): two dictionaries of the same phase when another phase is nowhere best. -/
theorem C121_phase_partial {R D : Type} [DecidableEq D] {argtopk argsort : List ℝ → List ℕ}
    (hf : IsArgsort argtopk) (hg : IsArgsort argsort) (allowed : List MatchType) (r0 : R)
    (junk : ℕ → List ℝ × List ℕ) {phases : List (PhaseCall ℝ R D)} {nav : List ℕ}
    {patterns : List (List ℝ)} {N : ℕ} (hsame : SamePatterns phases nav patterns N)
    (w : ∀ ph ∈ phases, WellFormedCall ph.call)
    (v : ∀ ph ∈ phases, ValidArguments allowed ph.call)
    (hcontrast : ∀ ph ∈ phases, ∀ d ∈ ph.call.dictionary, ShowsContrast ph.call.sigMask d)
    {masks : Option (List (Option NavMask))} (hmasks : MasksOfCalls phases masks)
    (hone : ¬ (1 < N ∧ nav.prod = 1))
    (hcov : ∀ i < nav.prod, ∃ ph ∈ phases, Used ph.call.navMask i)
    (hdiff : ∀ (i j : ℕ) (a b : PhaseCall ℝ R D), i < j → phases[i]? = some a →
      phases[j]? = some b → a.phase = b.phase → b.name ≠ a.name ∧ b.name ≠ a.name ++ toString i)
    (hpatterns : ∀ p ∈ patterns, ∀ ph ∈ phases, ShowsContrast ph.call.sigMask p)
    (hfound : ∀ k < phases.length, ∃ (i : ℕ) (p : List ℝ), patterns[i]? = some p ∧
      OnlyPhase phases i k p) :
    ∃ xmaps out, indexPhases argtopk argsort allowed nccOf r0 junk phases = .ok xmaps ∧
      mergeCrystalMaps xmaps 1 none masks = .ok out ∧ (out.phases.map (·.1)).Nodup ∧
      ∀ (i k : ℕ) (p : List ℝ) (ph : PhaseCall ℝ R D), patterns[i]? = some p →
        phases[k]? = some ph → OnlyPhase phases i k p →
        out.phaseId i = k ∧ (((k : ℤ), ph.name, some ph.phase) ∈ out.phases ∨
          ((k : ℤ), ph.name ++ toString k, some ph.phase) ∈ out.phases) := by
  obtain ⟨xmaps, out, hx, hout, hms, hpl, hxl, hph⟩ := phase_setup hf hg allowed r0 junk hsame w v
    hcontrast hmasks hone hcov
  have hback : ∀ (k : ℕ) (x : XMap ℝ R D), xmaps[k]? = some x → ∃ ph, phases[k]? = some ph := by
    intro k x hk
    have := (List.getElem?_eq_some_iff.1 hk).1
    exact ⟨_, List.getElem?_eq_getElem (by rw [← hxl]; exact this)⟩
  -- the only phase is strictly best
  have hstrict : ∀ (i k : ℕ) (p : List ℝ) (x : XMap ℝ R D), patterns[i]? = some p →
      xmaps[k]? = some x → OnlyPhase phases i k p → ∃ row, rowOf masks k i = some row ∧
        ∀ k' x' row', k' ≠ k → xmaps[k']? = some x' → rowOf masks k' i = some row' →
          meanScore x' row' 1 < meanScore x row 1 := by
    intro i k p x hp hxk ⟨⟨ph, hk, hu, hlook⟩, hothers⟩
    obtain ⟨x1, rs1, hx1, -, -, -, -, -, hfacts⟩ := hph k ph hk
    rw [hxk] at hx1
    cases hx1
    obtain ⟨hex, hrows⟩ := hfacts i p hp
    obtain ⟨row, hrow⟩ := hex hu
    have hpm := hpatterns p (List.mem_of_getElem? hp)
    refine ⟨row, hrow, fun k' x' row' hne hxk' hrow' => ?_⟩
    rw [(((hrows row hrow).2 (hpm ph (List.mem_of_getElem? hk))).2 hlook).1]
    obtain ⟨ph', hk'⟩ := hback k' x' hxk'
    obtain ⟨x2, rs2, hx2, -, -, -, -, -, hf2⟩ := hph k' ph' hk'
    rw [hxk'] at hx2
    cases hx2
    obtain ⟨hu2, hc2⟩ := (hf2 i p hp).2 row' hrow'
    exact (hc2 (hpm ph' (List.mem_of_getElem? hk'))).1 (hothers k' ph' hne hk' hu2)
  have hnot : ∀ m, ¬ (masks = none ∧ ∀ x' ∈ xmaps, x'.phaseId m = -1) := by
    rintro m ⟨-, hall⟩
    have h0 : 0 < phases.length := List.length_pos_iff.2 hsame.some_phase
    obtain ⟨x, -, hx0, -, hid, -⟩ := hph 0 _ (List.getElem?_eq_getElem h0)
    have := hall x (List.mem_of_getElem? hx0)
    rw [hid] at this
    cases this
  obtain ⟨hnd, hpts⟩ := C25_phases_partial hout
    (fun i j xi xj hij hi hj he => by
      obtain ⟨a, ha⟩ := hback i xi hi
      obtain ⟨b, hb⟩ := hback j xj hj
      obtain ⟨x1, -, hx1, -, -, hn1, hp1, -⟩ := hph i a ha
      obtain ⟨x2, -, hx2, -, -, hn2, hp2, -⟩ := hph j b hb
      rw [hi] at hx1
      rw [hj] at hx2
      cases hx1
      cases hx2
      rw [hn1, hn2]
      exact hdiff i j a b hij ha hb (by rw [← hp1, ← hp2]; exact he))
    (fun k x hxk => by
      have hk : k < phases.length := by
        rw [← hxl]; exact (List.getElem?_eq_some_iff.1 hxk).1
      obtain ⟨i, p, hp, hon⟩ := hfound k hk
      obtain ⟨row, hrow, hbest⟩ := hstrict i k p x hp hxk hon
      obtain ⟨x1, -, hx1, hr1, -⟩ := hph k _ (List.getElem?_eq_getElem hk)
      rw [hxk] at hx1
      cases hx1
      refine ⟨i, row, by rw [hms, ← hpl]; exact (List.getElem?_eq_some_iff.1 hp).1, hrow, hnot i,
        fun k' x' row' hne hxk' hrow' => ?_⟩
      rw [hr1, mergeOne _ hsame.pos]
      have := hbest k' x' row' hne hxk' hrow'
      simp only [AsGood, Option.getD_none, zero_le_one, decide_true, if_true, not_le]
      exact this)
  refine ⟨xmaps, out, hx, hout, hnd, fun i k p ph hp hk hon => ?_⟩
  rcases hpts i (by rw [hms, ← hpl]; exact (List.getElem?_eq_some_iff.1 hp).1) with
    ⟨h, -⟩ | ⟨N', hN', k0, row, x, hx0, hrow, hid, hmem, hbest⟩
  · exact absurd h (hnot i)
  · obtain ⟨x1, -, hx1, hr1, -, hn1, hp1, -⟩ := hph k ph hk
    obtain rfl : N' = N := (hN' x1 (List.mem_of_getElem? hx1)).symm.trans hr1
    obtain ⟨row1, hrow1, hst⟩ := hstrict i k p x1 hp hx1 hon
    have hk0 : k0 = k := by
      by_contra hne
      have h1 := hst k0 x row hne hx0 hrow
      have h2 := hbest k row1 x1 hx1 hrow1
      rw [mergeOne _ hsame.pos] at h2
      simp only [AsGood, Option.getD_none, zero_le_one, decide_true, if_true] at h2
      linarith
    subst hk0
    rw [hx0] at hx1
    cases hx1
    rw [← hn1, ← hp1]
    exact ⟨hid, hmem⟩

/-- Two phases, each with a dictionary of two patterns of 1 x 3 pixels, and two patterns. The first
pattern is indexed with the first dictionary only. -/
def phaseCalls : List (PhaseCall ℝ ℕ ℕ) :=
  let c : IndexingCall ℝ ℕ :=
    { navShape := [2]
      sigShape := [1, 3]
      patterns := [[11, 13, 17], [9, 5, 5]]
      dictSigShape := [1, 3]
      dictionary := [[3, 1, 3], [1, 2, 4]]
      dictMap := some ([2], [70, 71])
      dictChunk := none
      metric := .named
      keepN := 2
      nPer := some 1
      navMask := none
      sigMask := none
      dtype := none }
  [⟨c, "a", 0⟩, ⟨{ c with dictionary := [[3, 1, 1], [0, 0, 1]], dictMap := some ([2], [80, 81]),
                          navMask := some ⟨[2], [true, false]⟩ }, "b", 1⟩]

example : SamePatterns phaseCalls [2] [[11, 13, 17], [9, 5, 5]] 2 where
  some_phase := by simp [phaseCalls]
  nav := by simp [phaseCalls]
  patterns := by simp [phaseCalls]
  kept := by simp [phaseCalls]
  pos := by norm_num

example : (∀ ph ∈ phaseCalls, WellFormedCall ph.call) ∧
    (∀ ph ∈ phaseCalls, ValidArguments [] ph.call) := by
  constructor
  · intro ph hph
    simp only [phaseCalls, List.mem_cons, List.not_mem_nil, or_false] at hph
    rcases hph with rfl | rfl <;>
      exact ⟨by simp, by simp, by simp, by simp, by simp, by simp, by simp, by simp [perIteration]⟩
  · intro ph hph
    simp only [phaseCalls, List.mem_cons, List.not_mem_nil, or_false] at hph
    rcases hph with rfl | rfl <;>
      exact ⟨by simp, by simp, by simp, by simp, by simp, by simp⟩

example : (∀ ph ∈ phaseCalls, ∀ d ∈ ph.call.dictionary, ShowsContrast ph.call.sigMask d) ∧
    (∀ p ∈ [[11, 13, 17], [9, 5, 5]], ∀ ph ∈ phaseCalls, ShowsContrast ph.call.sigMask p) := by
  have key : ∀ (mask : Option BoolArray) (a b c : ℝ), mask = none → (a ≠ b ∨ b ≠ c) →
      ShowsContrast mask [a, b, c] := by
    rintro _ a b c rfl (h | h)
    · exact ⟨0, 1, a, b, by simp [Used], by simp [Used], rfl, rfl, h⟩
    · exact ⟨1, 2, b, c, by simp [Used], by simp [Used], rfl, rfl, h⟩
  constructor
  · intro ph hph d hd
    simp only [phaseCalls, List.mem_cons, List.not_mem_nil, or_false] at hph
    rcases hph with rfl | rfl <;>
      simp only [List.mem_cons, List.not_mem_nil, or_false] at hd <;>
      rcases hd with rfl | rfl <;> exact key _ _ _ _ rfl (by norm_num)
  · intro p hp ph hph
    simp only [phaseCalls, List.mem_cons, List.not_mem_nil, or_false] at hph hp
    rcases hph with rfl | rfl <;> rcases hp with rfl | rfl <;> exact key _ _ _ _ rfl (by norm_num)

example : MasksOfCalls phaseCalls (some [none, some ⟨[2], fun i => [true, false][i]? == some false⟩]) :=
  .inl rfl

example : ∀ i < [2].prod, ∃ ph ∈ phaseCalls, Used ph.call.navMask i :=
  fun i _ => ⟨phaseCalls[0], by simp [phaseCalls], by simp [phaseCalls, Used]⟩

/-- The first pattern is in the first dictionary, the second in the second dictionary only. -/
example : OnlyPhase phaseCalls 0 0 [11, 13, 17] ∧ OnlyPhase phaseCalls 1 1 [9, 5, 5] := by
  refine ⟨⟨⟨phaseCalls[0], rfl, by simp [phaseCalls, Used], [1, 2, 4], by simp [phaseCalls], 2, 9,
    by norm_num, fun k x y _ hx hy => ?_⟩, ?_⟩, ⟨⟨phaseCalls[1], rfl, by simp [phaseCalls, Used],
    [3, 1, 1], by simp [phaseCalls], 2, 3, by norm_num, fun k x y _ hx hy => ?_⟩, ?_⟩⟩
  · match k with
    | 0 | 1 | 2 => simp at hx hy; subst hx hy; norm_num
    | k + 3 => simp at hx
  · rintro (_ | _ | k) ph hne hph hu
    · exact absurd rfl hne
    · simp only [phaseCalls, List.getElem?_cons_succ, List.getElem?_cons_zero,
        Option.some.injEq] at hph
      subst hph
      simpa using hu _ rfl
    · simp [phaseCalls] at hph
  · match k with
    | 0 | 1 | 2 => simp at hx hy; subst hx hy; norm_num
    | k + 3 => simp at hx
  · rintro (_ | _ | k) ph hne hph hu ⟨d, hd, g, o, hg, h⟩
    · simp only [phaseCalls, List.getElem?_cons_zero, Option.some.injEq] at hph
      subst hph
      simp only [List.mem_cons, List.not_mem_nil, or_false] at hd
      rcases hd with rfl | rfl
      all_goals
        have h0 := h 0 _ _ (by simp [Used]) rfl rfl
        have h1 := h 1 _ _ (by simp [Used]) rfl rfl
        have h2 := h 2 _ _ (by simp [Used]) rfl rfl
        linarith
    · exact absurd rfl hne
    · simp [phaseCalls] at hph

end

end Kp
