import Verif.Model.NanScores
import Verif.Spec.NanScores
import Verif.Lemmas.DictionaryIndexing
import Mathlib.Algebra.Order.BigOperators.Ring.Finset

set_option linter.unusedSectionVars false

namespace Kp

open Spec

section
variable {K : Type} [Field K] [LinearOrder K] [IsStrictOrderedRing K]

instance : DecidableRel (AtLeast (K := K)) := by
  intro a b
  cases a <;> cases b <;> (unfold AtLeast; infer_instance)

theorem atLeast_trans {a b c : Option K} (h1 : AtLeast a b) (h2 : AtLeast b c) : AtLeast a c := by
  cases a <;> cases b <;> cases c <;> simp only [AtLeast] at *
  exact le_trans h2 h1

theorem atLeast_refl (a : Option K) : AtLeast a a := by
  cases a <;> simp [AtLeast]

theorem nanLe_neg (a b : Option K) :
    NanLe (a.map fun s => -s) (b.map fun s => -s) ↔ AtLeast a b := by
  cases a <;> cases b <;> simp [AtLeast, NanLe]

/-- `best` is a sorted selection of the `n` best candidates of `l`. -/
structure TopNan (n : ℕ) (l best : List (CandNan K)) : Prop where
  length : best.length = min n l.length
  sorted : best.Pairwise (fun a b => AtLeast a.1 b.1)
  split : ∃ rest, (best ++ rest).Perm l ∧ ∀ r ∈ best, ∀ o ∈ rest, AtLeast r.1 o.1

/-- `best` are some of the candidates `l`, among them `j` at least as good as each one left out. -/
def CoversTop (j : ℕ) (l best : List (CandNan K)) : Prop :=
  ∃ rest, (best ++ rest).Perm l ∧
    ∀ o ∈ rest, j ≤ best.countP (fun r => decide (AtLeast r.1 o.1))

theorem countP_length {α : Type*} {p : α → Bool} {l : List α} (h : ∀ c ∈ l, p c) :
    l.countP p = l.length := by
  rw [List.countP_eq_length]; exact h

theorem takeAlongNan_perm {f : List (Option K) → List ℕ} (l : List (CandNan K))
    (keys : List (Option K)) (hp : (f keys).Perm (List.range keys.length))
    (hk : keys.length = l.length) : (takeAlongNan l (f keys)).Perm l := by
  have h := hp.map (fun i => l.getD i (none, 0))
  rw [hk, map_range_getD] at h
  exact h

theorem takeAlongNan_append (l : List (CandNan K)) (idx : List ℕ) (n : ℕ) :
    takeAlongNan l (idx.take n) ++ takeAlongNan l (idx.drop n) = takeAlongNan l idx := by
  unfold takeAlongNan
  rw [← List.map_append, List.take_append_drop]

theorem topNan_of_argsort {f : List (Option K) → List ℕ} (hf : IsArgsortNan f) (n : ℕ)
    (l : List (CandNan K)) :
    TopNan n l (takeAlongNan l ((f (l.map (fun c => c.1.map fun s => ((-1 : ℤ) : K) * s))).take n)) := by
  set keys := l.map (fun c => c.1.map fun s => ((-1 : ℤ) : K) * s) with hkeys
  have hp := takeAlongNan_perm l keys (hf.perm keys) (by simp [hkeys])
  have hlen : (f keys).length = l.length := by
    simpa [hkeys] using (hf.perm keys).length_eq
  have hmem : ∀ i ∈ f keys, i < l.length := by
    intro i hi
    simpa [hkeys] using (hf.perm keys).subset hi
  have hs := hf.sorted keys
  have hkey : (f keys).map (fun i => keys.getD i none) =
      (takeAlongNan l (f keys)).map (fun c => c.1.map fun s => -s) := by
    unfold takeAlongNan
    rw [List.map_map]
    apply List.map_congr_left
    intro i hi
    have := hmem i hi
    simp [hkeys, List.getD_eq_getElem?_getD, this]
  rw [hkey, List.pairwise_map] at hs
  have hs' : (takeAlongNan l (f keys)).Pairwise (fun a b => AtLeast a.1 b.1) :=
    hs.imp (by intro a b h; exact (nanLe_neg _ _).1 h)
  have htd := takeAlongNan_append l (f keys) n
  rw [← htd, List.pairwise_append] at hs'
  exact ⟨by simp [takeAlongNan, hlen], hs'.1, takeAlongNan l ((f keys).drop n),
    by rw [htd]; exact hp, hs'.2.2⟩

/-- What `topk` selects: NaN first, then the largest numbers. -/
theorem matchChunkNan_split {f : List (Option K) → List ℕ} (hf : IsArgtopkNan f) (n : ℕ)
    (chunk : List (Option K)) :
    (matchChunkNan f n chunk).length = min n chunk.length ∧
      (matchChunkNan f n chunk).Pairwise (fun a b => NanLe b.1 a.1) ∧
      ∃ rest, (matchChunkNan f n chunk ++ rest).Perm chunk.zipIdx ∧
        ∀ r ∈ matchChunkNan f n chunk, ∀ o ∈ rest, NanLe o.1 r.1 := by
  unfold matchChunkNan
  have hp := takeAlongNan_perm chunk.zipIdx chunk (hf.perm chunk) (by simp)
  have hlen : (f chunk).length = chunk.length := by simpa using (hf.perm chunk).length_eq
  have hmem : ∀ i ∈ f chunk, i < chunk.length := by
    intro i hi
    simpa using (hf.perm chunk).subset hi
  have hs := hf.sorted chunk
  have hkey : (f chunk).map (fun i => chunk.getD i none) =
      (takeAlongNan chunk.zipIdx (f chunk)).map Prod.fst := by
    unfold takeAlongNan
    rw [List.map_map]
    apply List.map_congr_left
    intro i hi
    have := hmem i hi
    simp [List.getD_eq_getElem?_getD, this]
  rw [hkey, List.pairwise_map] at hs
  have htd := takeAlongNan_append chunk.zipIdx (f chunk) n
  rw [← htd, List.pairwise_append] at hs
  exact ⟨by simp [takeAlongNan, hlen], hs.1, takeAlongNan chunk.zipIdx ((f chunk).drop n),
    by rw [htd]; exact hp, hs.2.2⟩

/-- With at most `b` NaN in the chunk, `topk` selects the `n - b` best. -/
theorem coversTop_matchChunkNan {f : List (Option K) → List ℕ} (hf : IsArgtopkNan f) (n b : ℕ)
    (chunk : List (Option K)) (hb : chunk.countP Option.isNone ≤ b) :
    CoversTop (n - b) chunk.zipIdx (matchChunkNan f n chunk) := by
  obtain ⟨hl, -, rest, hp, hs⟩ := matchChunkNan_split hf n chunk
  refine ⟨rest, hp, ?_⟩
  intro o ho
  set best := matchChunkNan f n chunk
  have hlen : best.length = n := by
    have h1 := hp.length_eq
    have h2 : 0 < rest.length := List.length_pos_of_mem ho
    simp only [List.length_append, List.length_zipIdx] at h1
    omega
  have hnan : best.countP (fun r => r.1.isNone) ≤ b := by
    have h1 := hp.countP_eq (fun r : CandNan K => r.1.isNone)
    rw [List.countP_append] at h1
    have h2 : chunk.zipIdx.countP (fun r : CandNan K => r.1.isNone) =
        chunk.countP Option.isNone := by
      conv_rhs => rw [← List.zipIdx_map_fst 0 chunk, List.countP_map]
      rfl
    omega
  have hsplit : best.length = best.countP (fun r => r.1.isNone) +
      best.countP (fun r => ¬ r.1.isNone) := List.length_eq_countP_add_countP _
  have hle : best.countP (fun r => ¬ r.1.isNone) ≤
      best.countP (fun r => decide (AtLeast r.1 o.1)) := by
    apply List.countP_mono_left
    intro r hr hn
    have h := hs r hr o ho
    simp only [Bool.not_eq_true, decide_eq_true_eq, Option.isNone_eq_false_iff] at hn ⊢
    obtain ⟨x, hx⟩ := Option.isSome_iff_exists.1 hn
    rw [hx] at h ⊢
    cases ho1 : o.1 with
    | none => simp [AtLeast]
    | some y => rw [ho1] at h; simpa [AtLeast, NanLe] using h
  omega

theorem TopNan.count_ge {k j : ℕ} {l t : List (CandNan K)} (h : TopNan k l t) (hj : j ≤ k)
    (o : Option K) (hc : j ≤ l.countP (fun r => decide (AtLeast r.1 o))) :
    j ≤ t.countP (fun r => decide (AtLeast r.1 o)) := by
  obtain ⟨rest, hp, hs⟩ := h.split
  by_cases hex : ∃ q ∈ rest, AtLeast q.1 o
  · obtain ⟨q, hq, hqo⟩ := hex
    have h1 := hp.length_eq
    have h2 : 0 < rest.length := List.length_pos_of_mem hq
    have h3 := h.length
    rw [List.length_append] at h1
    rw [countP_length]
    · omega
    · intro c hc
      simpa using atLeast_trans (hs c hc q hq) hqo
  · push Not at hex
    have h1 := hp.countP_eq (fun r : CandNan K => decide (AtLeast r.1 o))
    rw [List.countP_append] at h1
    have h2 : rest.countP (fun r => decide (AtLeast r.1 o)) = 0 := by
      rw [List.countP_eq_zero]
      intro c hc
      simpa using hex c hc
    omega

theorem CoversTop.merge {j k : ℕ} {a b ta tb t : List (CandNan K)} (ha : CoversTop j a ta)
    (hb : CoversTop j b tb) (ht : TopNan k (ta ++ tb) t) (hj : j ≤ k) : CoversTop j (a ++ b) t := by
  obtain ⟨ra, pa, sa⟩ := ha
  obtain ⟨rb, pb, sb⟩ := hb
  obtain ⟨r, p, s⟩ := ht.split
  refine ⟨r ++ (ra ++ rb), ?_, ?_⟩
  · rw [← List.append_assoc]
    have h1 := p.append_right (ra ++ rb)
    refine h1.trans ?_
    have h2 : (ta ++ tb ++ (ra ++ rb)).Perm ((ta ++ ra) ++ (tb ++ rb)) := by
      simp only [List.append_assoc]
      refine List.Perm.append_left ta ?_
      rw [← List.append_assoc, ← List.append_assoc]
      exact List.Perm.append_right rb List.perm_append_comm
    exact h2.trans (pa.append pb)
  · intro o ho
    simp only [List.mem_append] at ho
    rcases ho with ho | ho | ho
    · have h1 := p.length_eq
      have h2 : 0 < r.length := List.length_pos_of_mem ho
      have h3 := ht.length
      rw [List.length_append] at h1
      rw [countP_length]
      · omega
      · intro c hc
        simpa using s c hc o ho
    · refine ht.count_ge hj o.1 ?_
      rw [List.countP_append]
      have := sa o ho
      omega
    · refine ht.count_ge hj o.1 ?_
      rw [List.countP_append]
      have := sb o ho
      omega

/-- In a sorted list with `j` elements at least as good as `o`, the first `j` are. -/
theorem take_atLeast {j : ℕ} {t : List (CandNan K)} (hs : t.Pairwise (fun a b => AtLeast a.1 b.1))
    (o : Option K) (hc : j ≤ t.countP (fun r => decide (AtLeast r.1 o))) :
    ∀ r ∈ t.take j, AtLeast r.1 o := by
  induction t generalizing j with
  | nil => simp
  | cons x l ih =>
    cases j with
    | zero => simp
    | succ j =>
      rw [List.pairwise_cons] at hs
      rw [List.countP_cons] at hc
      intro r hr
      rw [List.take_succ_cons, List.mem_cons] at hr
      have hx : AtLeast x.1 o := by
        by_contra hx
        have h0 : l.countP (fun r => decide (AtLeast r.1 o)) = 0 := by
          rw [List.countP_eq_zero]
          intro c hc hco
          exact hx (atLeast_trans (hs.1 c hc) (by simpa using hco))
        simp [hx, h0] at hc
      rcases hr with rfl | hr
      · exact hx
      · refine ih hs.2 ?_ r hr
        simp [hx] at hc
        exact hc

theorem CoversTop.map_snd {j : ℕ} {l t : List (CandNan K)} (h : CoversTop j l t) (g : ℕ → ℕ) :
    CoversTop j (l.map (fun c => (c.1, g c.2))) (t.map (fun c => (c.1, g c.2))) := by
  obtain ⟨r, p, s⟩ := h
  refine ⟨r.map (fun c => (c.1, g c.2)), ?_, ?_⟩
  · rw [← List.map_append]; exact p.map _
  · intro o ho
    simp only [List.mem_map] at ho
    obtain ⟨o', ho', rfl⟩ := ho
    rw [List.countP_map]
    exact s o' ho'

theorem CoversTop.mono {i j : ℕ} {l t : List (CandNan K)} (h : CoversTop j l t) (hij : i ≤ j) :
    CoversTop i l t := by
  obtain ⟨r, p, s⟩ := h
  exact ⟨r, p, fun o ho => hij.trans (s o ho)⟩

theorem zipIdx_shift' {α : Type*} (l : List α) (start : ℕ) :
    l.zipIdx.map (fun c => (c.1, c.2 + start)) = l.zipIdx start := by
  apply List.ext_getElem
  · simp
  · intro i h1 h2
    simp [Nat.add_comm]

theorem take_zipIdx' {α : Type*} (l : List α) (m n : ℕ) :
    (l.take m).zipIdx ++ ((l.drop m).take n).zipIdx m = (l.take (m + n)).zipIdx := by
  rw [List.take_add, List.zipIdx_append]
  rcases Nat.le_total l.length m with h | h
  · simp [List.drop_eq_nil_of_le h]
  · simp [Nat.min_eq_left h]

/-- As many as `keepN` matches of a chunk are asked for, or all of the chunk. -/
theorem coversTop_matchChunkNan_min {f : List (Option K) → List ℕ} (hf : IsArgtopkNan f)
    (keepN nPer b : ℕ) (chunk : List (Option K)) (hb : chunk.countP Option.isNone ≤ b)
    (hch : chunk.length ≤ nPer) :
    CoversTop (keepN - b) chunk.zipIdx (matchChunkNan f (min keepN nPer) chunk) := by
  rcases Nat.le_total keepN nPer with h | h
  · rw [Nat.min_eq_left h]
    exact coversTop_matchChunkNan hf keepN b chunk hb
  · rw [Nat.min_eq_right h]
    obtain ⟨hl, -, rest, hp, -⟩ := matchChunkNan_split hf nPer chunk
    have h1 := hp.length_eq
    simp only [List.length_append, List.length_zipIdx] at h1
    have hr : rest = [] := List.eq_nil_of_length_eq_zero (by omega)
    subst hr
    exact ⟨[], hp, by simp⟩

/-- The state after some iterations. -/
theorem covers_foldl {f g : List (Option K) → List ℕ} (hf : IsArgtopkNan f) (hg : IsArgsortNan g)
    (keepN nPer b : ℕ) (scores : List (Option K)) (init : List (CandNan K))
    (hi : init.length = keepN) (hs : init.Pairwise (fun a b => AtLeast a.1 b.1)) (k : ℕ)
    (hb : ∀ i < k, (dictChunkNan nPer scores i).countP Option.isNone ≤ b) :
    let st := (List.range k).foldl
        (fun st i => mergeChunkNan f g 1 keepN nPer st (i * nPer) (dictChunkNan nPer scores i)) init
    CoversTop (keepN - b) (init ++ (scores.take (k * nPer)).zipIdx) st ∧
      st.Pairwise (fun a b => AtLeast a.1 b.1) ∧ st.length = keepN := by
  induction k with
  | zero =>
    simp only [Nat.zero_mul, List.take_zero, List.zipIdx_nil, List.append_nil, List.range_zero,
      List.foldl_nil]
    exact ⟨⟨[], by simp, by simp⟩, hs, hi⟩
  | succ k ih =>
    obtain ⟨ih, -, hlen⟩ := ih (fun i hi => hb i (by omega))
    rw [List.range_succ, List.foldl_append]
    simp only [List.foldl_cons, List.foldl_nil]
    set st := (List.range k).foldl
        (fun st i => mergeChunkNan f g 1 keepN nPer st (i * nPer) (dictChunkNan nPer scores i)) init
    have hm := (coversTop_matchChunkNan_min hf keepN nPer b (dictChunkNan nPer scores k)
      (hb k (by omega)) (by simp [dictChunkNan])).map_snd (· + k * nPer)
    rw [zipIdx_shift'] at hm
    have ht := topNan_of_argsort hg keepN (st ++
      (matchChunkNan f (min keepN nPer) (dictChunkNan nPer scores k)).map
        (fun c => (c.1, c.2 + k * nPer)))
    have hc := ih.merge hm ht (by omega)
    have e : (k + 1) * nPer = k * nPer + nPer := by ring
    refine ⟨?_, ht.sorted, ?_⟩
    · rw [List.append_assoc] at hc
      unfold dictChunkNan at hc
      rw [take_zipIdx'] at hc
      rw [e]
      exact hc
    · have hl := ht.length
      rw [List.length_append] at hl
      unfold mergeChunkNan
      refine hl.trans ?_
      omega

theorem pairwise_take_drop {t : List (CandNan K)} (hs : t.Pairwise (fun a b => AtLeast a.1 b.1))
    (j : ℕ) : ∀ r ∈ t.take j, ∀ o ∈ t.drop j, AtLeast r.1 o.1 := by
  rw [← List.take_append_drop j t, List.pairwise_append] at hs
  exact hs.2.2

/-- The first `j` of a sorted list that has the `j` best of `init` and the dictionary are the best of
the dictionary, if the dictionary has at least `j` numbers, all above the scores in `init`. -/
theorem best_of_covers {j n : ℕ} {z : K} {scores : List (Option K)} {t : List (CandNan K)}
    (hc : CoversTop j (List.replicate n (some z, 0) ++ scores.zipIdx) t)
    (hs : t.Pairwise (fun a b => AtLeast a.1 b.1)) (hj : j ≤ scores.countP Option.isSome)
    (hlow : ∀ s, some s ∈ scores → z < s) :
    IsBest AtLeast j scores (t.take j) := by
  obtain ⟨rest, hp, hr⟩ := hc
  have hnum : (List.replicate n ((some z : Option K), 0) ++ scores.zipIdx).countP
      (fun r : CandNan K => decide (¬ AtLeast (some z) r.1)) = scores.countP Option.isSome := by
    rw [List.countP_append]
    have h1 : (List.replicate n ((some z : Option K), 0)).countP
        (fun r => decide (¬ AtLeast (some z) r.1)) = 0 := by
      rw [List.countP_eq_zero]
      intro c hc
      rw [(List.mem_replicate.1 hc).2]
      simp [AtLeast]
    rw [h1, Nat.zero_add]
    have h2 : scores.countP Option.isSome = scores.zipIdx.countP (fun r => r.1.isSome) := by
      conv_lhs => rw [← List.zipIdx_map_fst 0 scores, List.countP_map]
      rfl
    rw [h2]
    apply List.countP_congr
    intro c hc
    rw [List.mem_zipIdx_iff_getElem?] at hc
    have hm := List.mem_of_getElem? hc
    cases h : c.1 with
    | none => simp [AtLeast]
    | some x =>
      rw [h] at hm
      simpa [AtLeast] using hlow x hm
  -- the first `j` are all numbers above `z`
  have habove : ∀ r ∈ t.take j, ¬ AtLeast (some z) r.1 := by
    intro r hrt hz
    have hcount : (t ++ rest).countP (fun r : CandNan K => decide (¬ AtLeast (some z) r.1)) =
        scores.countP Option.isSome := (hp.countP_eq _).trans hnum
    rw [List.countP_append] at hcount
    -- nothing left out is above `z`
    have h0 : rest.countP (fun r => decide (¬ AtLeast (some z) r.1)) = 0 := by
      rw [List.countP_eq_zero]
      intro o ho hoz
      have hg := take_atLeast hs o.1 (hr o ho) r hrt
      exact (of_decide_eq_true hoz) (atLeast_trans hz hg)
    have h1 : t.countP (fun r => decide (¬ AtLeast (some z) r.1)) ≤
        (t.take j).countP (fun r => decide (¬ AtLeast (some z) r.1)) := by
      conv_lhs => rw [← List.take_append_drop j t, List.countP_append]
      have : (t.drop j).countP (fun r => decide (¬ AtLeast (some z) r.1)) = 0 := by
        rw [List.countP_eq_zero]
        intro o ho hoz
        exact (of_decide_eq_true hoz) (atLeast_trans hz (pairwise_take_drop hs j r hrt o ho))
      omega
    have h2 : (t.take j).countP (fun r => decide (¬ AtLeast (some z) r.1)) < (t.take j).length := by
      rw [List.countP_lt_length_iff]
      exact ⟨r, hrt, by simpa using hz⟩
    have h3 : (t.take j).length ≤ j := by simp
    omega
  have hlen : (t.take j).length = j := by
    rcases rest.eq_nil_or_concat with rfl | ⟨r', o, rfl⟩
    · have h1 := hp.length_eq
      have h2 : scores.countP Option.isSome ≤ scores.length := List.countP_le_length
      simp at h1 ⊢
      omega
    · have h1 := hr o (by simp)
      have h2 : t.countP (fun r => decide (AtLeast r.1 o.1)) ≤ t.length := List.countP_le_length
      simp
      omega
  -- leave out the placeholders
  set p : CandNan K → Bool := fun c => decide (c.1 ≠ some z) with hpdef
  have hfp : (t.filter p ++ rest.filter p).Perm scores.zipIdx := by
    have h := hp.filter p
    rw [List.filter_append, List.filter_append] at h
    have h1 : (List.replicate n ((some z : Option K), 0)).filter p = [] := by
      rw [List.filter_eq_nil_iff]
      intro c hc
      rw [(List.mem_replicate.1 hc).2]
      simp [hpdef]
    have h2 : scores.zipIdx.filter p = scores.zipIdx := by
      rw [List.filter_eq_self]
      intro c hc
      rw [List.mem_zipIdx_iff_getElem?] at hc
      have hm := List.mem_of_getElem? hc
      simp only [hpdef, decide_eq_true_eq]
      intro e
      rw [e] at hm
      exact lt_irrefl _ (hlow z hm)
    rwa [h1, h2, List.nil_append] at h
  have hsub : (t.take j).Sublist (t.filter p) := by
    have h1 : (t.take j).filter p = t.take j := by
      rw [List.filter_eq_self]
      intro c hc
      simp only [hpdef, decide_eq_true_eq]
      intro e
      have := habove c hc
      rw [e] at this
      exact this (atLeast_refl _)
    rw [← h1]
    exact (List.take_sublist j t).filter p
  have hnd : ((t.filter p ++ rest.filter p).map Prod.snd).Nodup := by
    rw [(hfp.map Prod.snd).nodup_iff]
    have e : scores.zipIdx.map Prod.snd = List.range scores.length := by
      rw [List.zipIdx_map_snd, List.range_eq_range']
    rw [e]
    exact List.nodup_range
  rw [List.map_append, List.nodup_append] at hnd
  refine ⟨hlen, ?_, ?_, hnd.1.sublist (hsub.map _), ?_⟩
  · rw [List.pairwise_map]
    exact hs.sublist (List.take_sublist _ _)
  · intro c hc
    have : c ∈ scores.zipIdx := hfp.subset (by simp [hsub.subset hc])
    rw [List.mem_zipIdx_iff_getElem?] at this
    exact this
  · intro i v hv hi c hc
    have : (v, i) ∈ scores.zipIdx := by rw [List.mem_zipIdx_iff_getElem?]; exact hv
    have := hfp.symm.subset this
    rw [List.mem_append, List.mem_filter, List.mem_filter] at this
    rcases this with h1 | h1
    · have hm := h1.1
      rw [← List.take_append_drop j t, List.mem_append] at hm
      rcases hm with hm | hm
      · exact absurd (List.mem_map_of_mem (f := Prod.snd) hm) hi
      · exact pairwise_take_drop hs j c hc _ hm
    · exact take_atLeast hs v (hr _ h1.1) c hc

end

/-! A concrete sort -/

/-- A stable sort, with NaN last. -/
def stableArgsortNan {K : Type} [Field K] [LinearOrder K] (l : List (Option K)) : List ℕ :=
  (l.zipIdx.insertionSort (fun a b => NanLe a.1 b.1)).map Prod.snd

/-- The largest elements, NaN first. -/
def argtopkNan {K : Type} [Field K] [LinearOrder K] (l : List (Option K)) : List ℕ :=
  (stableArgsortNan l).reverse

theorem nanLe_total {K : Type} [Field K] [LinearOrder K] (a b : Option K) :
    NanLe a b ∨ NanLe b a := by
  cases a <;> cases b <;> simp [NanLe]
  exact le_total _ _

theorem nanLe_trans {K : Type} [Field K] [LinearOrder K] {a b c : Option K} (h1 : NanLe a b)
    (h2 : NanLe b c) : NanLe a c := by
  cases a <;> cases b <;> cases c <;>
    first | exact le_trans h1 h2 | exact h1.elim | exact h2.elim | trivial

theorem stableArgsortNan_sorted {K : Type} [Field K] [LinearOrder K] (l : List (Option K)) :
    ((stableArgsortNan l).map (fun i => l.getD i none)).Pairwise NanLe := by
  unfold stableArgsortNan
  rw [List.map_map]
  have h : ((l.zipIdx.insertionSort (fun a b : Option K × ℕ => NanLe a.1 b.1))).Pairwise
      (fun a b => NanLe a.1 b.1) := by
    have : Std.Total (fun a b : Option K × ℕ => NanLe a.1 b.1) := ⟨fun a b => nanLe_total a.1 b.1⟩
    have : IsTrans (Option K × ℕ) (fun a b : Option K × ℕ => NanLe a.1 b.1) :=
      ⟨fun a b c => nanLe_trans⟩
    exact List.pairwise_insertionSort _ _
  rw [List.pairwise_map]
  refine List.Pairwise.imp_of_mem ?_ h
  intro a b ha hb hab
  rw [List.mem_insertionSort, List.mem_zipIdx_iff_getElem?] at ha hb
  simpa [List.getD_eq_getElem?_getD, ha, hb] using hab

theorem stableArgsortNan_perm {K : Type} [Field K] [LinearOrder K] (l : List (Option K)) :
    (stableArgsortNan l).Perm (List.range l.length) := by
  have h := (List.perm_insertionSort (fun a b : Option K × ℕ => NanLe a.1 b.1) l.zipIdx).map Prod.snd
  rw [List.zipIdx_map_snd, ← List.range_eq_range'] at h
  exact h

theorem isArgsortNan_stable {K : Type} [Field K] [LinearOrder K] :
    IsArgsortNan (stableArgsortNan (K := K)) :=
  ⟨stableArgsortNan_perm, stableArgsortNan_sorted⟩

theorem isArgtopkNan_argtopkNan {K : Type} [Field K] [LinearOrder K] :
    IsArgtopkNan (argtopkNan (K := K)) := by
  constructor
  · intro l
    exact (List.reverse_perm _).trans (stableArgsortNan_perm l)
  · intro l
    unfold argtopkNan
    rw [List.map_reverse, List.pairwise_reverse]
    exact stableArgsortNan_sorted l

/-! Scores of patterns -/

section
variable {ι : Type*} [Fintype ι]

/-- The sum of squared deviations from the mean is zero only for equal pixels. -/
theorem sqrt_dev_eq_zero (p : ι → ℝ) :
    centeredNorm p = 0 ↔ ∀ i j, p i = p j := by
  rw [centeredNorm, Real.sqrt_eq_zero (Finset.sum_nonneg fun i _ => sq_nonneg _),
    Finset.sum_eq_zero_iff_of_nonneg (fun i _ => sq_nonneg _)]
  constructor
  · intro h i j
    have hi := h i (Finset.mem_univ i)
    have hj := h j (Finset.mem_univ j)
    rw [sq_eq_zero_iff, sub_eq_zero] at hi hj
    rw [hi, hj]
  · intro h i _
    have hm : mean p = p i := by
      unfold mean
      rw [Finset.sum_congr rfl (fun j _ => h j i)]
      have : (Fintype.card ι : ℝ) ≠ 0 := by
        exact_mod_cast (Fintype.card_pos_iff.2 ⟨i⟩).ne'
      simp [this]
    simp [hm]

theorem sqrt_sq_eq_zero (p : ι → ℝ) :
    plainNorm p = 0 ↔ ∀ i, p i = 0 := by
  rw [plainNorm, Real.sqrt_eq_zero (Finset.sum_nonneg fun i _ => sq_nonneg _),
    Finset.sum_eq_zero_iff_of_nonneg (fun i _ => sq_nonneg _)]
  constructor
  · intro h i
    simpa using h i (Finset.mem_univ i)
  · intro h i _
    simp [h i]

end

end Kp
