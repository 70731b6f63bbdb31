import Verif.Spec.FlippedPatterns
import Verif.Props.SignalFftFilter
import Verif.Props.DynamicBackground
import Verif.Props.Downsample
import Verif.Props.FftFilter
import Verif.Model.NormalizeSignal
import Verif.Model.DictionaryIndexing

/-
C146: processing and indexing do not depend on how patterns are held.
-/

set_option linter.unusedSectionVars false

namespace Kp
open Spec Finset

/-! ### Pixels in another order -/

section
variable {K : Type*} [Field K] [LinearOrder K] [IsStrictOrderedRing K]

/-- Patterns with the same intensities, in any places, have the same smallest and largest one. -/
theorem listMin_same_set {l l' : List K} (h : ∀ x, x ∈ l ↔ x ∈ l') : listMin l = listMin l' := by
  by_cases h0 : l = []
  · have : l' = [] := List.eq_nil_iff_forall_not_mem.mpr fun x hx => by
      have := (h x).mpr hx; rw [h0] at this; cases this
    rw [h0, this]
  · have h0' : l' ≠ [] := by
      rintro e; exact h0 (List.eq_nil_iff_forall_not_mem.mpr fun x hx => by
        have := (h x).mp hx; rw [e] at this; cases this)
    exact le_antisymm (listMin_le _ ((h _).mpr (listMin_mem h0'))) (listMin_le _ ((h _).mp (listMin_mem h0)))

theorem listMax_same_set {l l' : List K} (h : ∀ x, x ∈ l ↔ x ∈ l') : listMax l = listMax l' := by
  by_cases h0 : l = []
  · have : l' = [] := List.eq_nil_iff_forall_not_mem.mpr fun x hx => by
      have := (h x).mpr hx; rw [h0] at this; cases this
    rw [h0, this]
  · have h0' : l' ≠ [] := by
      rintro e; exact h0 (List.eq_nil_iff_forall_not_mem.mpr fun x hx => by
        have := (h x).mp hx; rw [e] at this; cases this)
    exact le_antisymm (le_listMax _ ((h _).mp (listMax_mem h0))) (le_listMax _ ((h _).mpr (listMax_mem h0')))

theorem rearranged_perm {idx : List ℕ} {p : List K} (h : idx.Perm (List.range p.length)) :
    (rearranged idx p).Perm p := by
  have := h.map fun i => p.getD i 0
  refine this.trans (List.Perm.of_eq ?_)
  apply List.ext_getElem?
  intro i
  by_cases hi : i < p.length
  · simp [hi]
  · simp [hi]

theorem rearranged_length {idx : List ℕ} {p : List K} (h : idx.Perm (List.range p.length)) :
    (rearranged idx p).length = p.length := (rearranged_perm h).length_eq

theorem rearranged_map {idx : List ℕ} {p : List K} (h : idx.Perm (List.range p.length)) (f : K → K) :
    rearranged idx (p.map f) = (rearranged idx p).map f := by
  unfold rearranged
  rw [List.map_map]
  apply List.map_congr_left
  intro i hi
  have : i < p.length := by simpa using h.mem_iff.mp hi
  simp [this]

theorem rearranged_zipWith {idx : List ℕ} {p q : List K} (h : idx.Perm (List.range p.length))
    (hq : q.length = p.length) (f : K → K → K) :
    rearranged idx (List.zipWith f p q) = List.zipWith f (rearranged idx p) (rearranged idx q) := by
  unfold rearranged
  rw [List.zipWith_map, List.zipWith_self]
  apply List.map_congr_left
  intro i hi
  have : i < p.length := by simpa using h.mem_iff.mp hi
  simp [this, hq]

theorem rearranged_min {idx : List ℕ} {p : List K} (h : idx.Perm (List.range p.length)) :
    listMin (rearranged idx p) = listMin p ∧ listMax (rearranged idx p) = listMax p :=
  ⟨listMin_same_set fun _ => (rearranged_perm h).mem_iff,
    listMax_same_set fun _ => (rearranged_perm h).mem_iff⟩

variable [FloorRing K]

theorem percentile_perm {p p' : List K} (h : p'.Perm p) (q : K) : percentile p' q = percentile p q := by
  have hs : p'.insertionSort (· ≤ ·) = p.insertionSort (· ≤ ·) := by
    apply List.Perm.eq_of_pairwise (le := (· ≤ ·))
    · intro a b _ _ h1 h2; exact le_antisymm h1 h2
    · exact List.pairwise_insertionSort _ _
    · exact List.pairwise_insertionSort _ _
    · exact ((List.perm_insertionSort _ _).trans h).trans (List.perm_insertionSort _ _).symm
  unfold percentile
  rw [hs, h.length_eq]

/-- C146: rescaling, with any limits, percentiles and data types, of a pattern with its pixels in any
other order. -/
theorem C146_rescale {idx : List ℕ} {p : List K} (h : idx.Perm (List.range p.length)) (d : DType)
    (inRange outRange : Option (K × K)) (dtypeOut : Option DType) (percentiles : Option (K × K)) :
    rescaleIntensity (rearranged idx p) d inRange outRange dtypeOut percentiles =
      (rescaleIntensity p d inRange outRange dtypeOut percentiles).map (rearranged idx) := by
  obtain ⟨m1, m2⟩ := rearranged_min h
  have key : ∀ (l : List K) (f g : K → K), l = p → 
      ((rearranged idx l).map f).map g = rearranged idx ((l.map f).map g) := by
    rintro l f g rfl
    rw [rearranged_map (by simpa using h), rearranged_map h]
  unfold rescaleIntensity rescaleWithMinMax
  simp only [percentile_perm (rearranged_perm h), m1, m2]
  have key2 : ∀ f g k : K → K, (((rearranged idx p).map f).map g).map k =
      rearranged idx (((p.map f).map g).map k) := by
    intro f g k
    rw [rearranged_map (by simpa using h), rearranged_map (by simpa using h), rearranged_map h]
  rcases percentiles with _ | q <;> rcases inRange with _ | ir <;> rcases outRange with _ | ⟨a, b⟩ <;>
    rcases hr : dtypeRange (dtypeOut.getD d) with _ | ⟨lo, hi⟩ <;>
    first
      | rfl
      | (simp only [Except.map, key2]; done)
      | simp only [Except.map, key p _ _ rfl]

theorem mapM_rearranged {K : Type} {F G : List K → Except Err (List K)} {T : List K → List K}
    {l : List (List K)} (h : ∀ p ∈ l, F (T p) = (G p).map T) :
    (l.map T).mapM F = (l.mapM G).map (List.map T) := by
  induction l with
  | nil => rfl
  | cons p ps ih =>
    rw [List.map_cons, List.mapM_cons, List.mapM_cons, h p List.mem_cons_self,
      ih fun q hq => h q (List.mem_cons_of_mem _ hq)]
    rcases G p with e | q
    · rfl
    · rcases ps.mapM G with e | qs <;> rfl

/-- C146: rescaling all patterns of a signal, each for itself or relative to each other, with their
pixels in another order. -/
theorem C146_rescale_signal {K : Type} [Field K] [LinearOrder K] [IsStrictOrderedRing K]
    [FloorRing K] {idx : List ℕ} {patterns : List (List K)}
    (h : ∀ p ∈ patterns, idx.Perm (List.range p.length)) (d : DType) (relative : Bool)
    (inRange outRange : Option (K × K)) (dtypeOut : Option DType) (percentiles : Option (K × K)) :
    signalRescaleIntensity (patterns.map (rearranged idx)) d relative inRange outRange dtypeOut
        percentiles =
      (signalRescaleIntensity patterns d relative inRange outRange dtypeOut percentiles).map
        (List.map (rearranged idx)) := by
  have hs : ∀ x, x ∈ (patterns.map (rearranged idx)).flatten ↔ x ∈ patterns.flatten := by
    intro x
    simp only [List.mem_flatten, List.mem_map, exists_exists_and_eq_and]
    constructor
    · rintro ⟨p, hp, hx⟩
      exact ⟨p, hp, (rearranged_perm (h p hp)).mem_iff.mp hx⟩
    · rintro ⟨p, hp, hx⟩
      exact ⟨p, hp, (rearranged_perm (h p hp)).mem_iff.mpr hx⟩
  unfold signalRescaleIntensity
  simp only [listMin_same_set hs, listMax_same_set hs]
  split_ifs
  · rfl
  · rfl
  all_goals
    rcases outRange with _ | r
    · rcases dtypeRange (dtypeOut.getD d) with _ | ⟨lo, hi⟩
      · rfl
      · exact mapM_rearranged fun p hp => C146_rescale (h p hp) _ _ _ _ _
    · exact mapM_rearranged fun p hp => C146_rescale (h p hp) _ _ _ _ _

/-- C146: static background removal, with the pixels of patterns and background in the same other
order. -/
theorem C146_static {idx : List ℕ} {shape : ℕ × ℕ} {patterns : List (List K)} {bg : Background K}
    (h : idx.Perm (List.range bg.data.length)) (hp : ∀ p ∈ patterns, p.length = bg.data.length)
    (d : DType) (operation : String) (attr : Option (Background K)) (scaleBg : Bool) :
    signalRemoveStatic d shape (patterns.map (rearranged idx)) operation
        (some { bg with data := rearranged idx bg.data }) attr scaleBg =
      (signalRemoveStatic d shape patterns operation (some bg) attr scaleBg).map
        (List.map (rearranged idx)) := by
  unfold signalRemoveStatic
  cases hd : dtypeRange d with
  | none => rfl
  | some r =>
    obtain ⟨omin, omax⟩ := r
    simp only
    split_ifs
    · rfl
    · rfl
    · simp only [Except.map, List.map_map]
      congr 1
      apply List.map_congr_left
      intro p hpp
      have hl := hp p hpp
      have h' : idx.Perm (List.range p.length) := by rw [hl]; exact h
      simp only [Function.comp, removeStatic, removeBackground, rescaleWithMinMax]
      obtain ⟨m1, m2⟩ := rearranged_min h'
      obtain ⟨b1, b2⟩ := rearranged_min h
      have key : ∀ b : List K, b.length = p.length → ∀ f : K → K → K, ∀ g : K → K → K → K,
          ((List.zipWith f (rearranged idx p) (rearranged idx b)).map
            (g (listMin (List.zipWith f (rearranged idx p) (rearranged idx b)))
              (listMax (List.zipWith f (rearranged idx p) (rearranged idx b))))).map (castTo d) =
          rearranged idx (((List.zipWith f p b).map (g (listMin (List.zipWith f p b))
            (listMax (List.zipWith f p b)))).map (castTo d)) := by
        intro b hb f g
        have hz : idx.Perm (List.range (List.zipWith f p b).length) := by
          simpa [hb] using h'
        obtain ⟨z1, z2⟩ := rearranged_min hz
        rw [← rearranged_zipWith h' hb, z1, z2, rearranged_map (by simpa [hb] using h'),
          rearranged_map hz]
      cases scaleBg
      · exact key bg.data hl.symm _ fun a b => rescalePixel a b (omin : K) omax
      · simp only [if_true, m1, m2, b1, b2]
        rw [← rearranged_map h]
        exact key _ (by simp [hl]) _ fun a b => rescalePixel a b (omin : K) omax

end

/-! ### Normalization and scores -/

section
variable {ι κ : Type*} [Fintype ι] [Fintype κ]

theorem mean_comp (e : ι ≃ κ) (p : κ → ℝ) : mean (p ∘ e) = mean p := by
  unfold mean
  rw [Fintype.card_congr e]
  congr 1
  exact e.sum_comp p

theorem std_comp (e : ι ≃ κ) (p : κ → ℝ) : std (p ∘ e) = std p := by
  unfold std
  rw [mean_comp, Fintype.card_congr e]
  congr 2
  exact e.sum_comp fun i => (p i - mean p) ^ 2

/-- C146: normalization of a pattern with its pixels in other places. -/
theorem C146_normalize (e : ι ≃ κ) (numStd : ℝ) (divideBySquareRoot : Bool) (p : κ → ℝ) :
    normalizeIntensity numStd divideBySquareRoot (p ∘ e) =
      normalizeIntensity numStd divideBySquareRoot p ∘ e := by
  funext i
  unfold normalizeIntensity
  simp only [Function.comp]
  rw [mean_comp, std_comp, Fintype.card_congr e]

/-- C146: normalization of all patterns of a signal, with their pixels in another order. -/
theorem C146_normalize_signal {idx : List ℕ} {patterns : List (List ℝ)}
    (h : ∀ p ∈ patterns, idx.Perm (List.range p.length)) (d : DType) (numStd : ℝ)
    (divideBySquareRoot : Bool) (dtypeOut : Option DType) :
    signalNormalizeIntensity (patterns.map (rearranged idx)) d numStd divideBySquareRoot dtypeOut =
      (signalNormalizeIntensity patterns d numStd divideBySquareRoot dtypeOut).map
        (rearranged idx) := by
  unfold signalNormalizeIntensity
  rw [List.map_map, List.map_map]
  apply List.map_congr_left
  intro p hp
  have hi := h p hp
  have hlen : idx.length = p.length := by simpa using hi.length_eq
  have hrl := rearranged_length hi
  have hin : ∀ j, (hj : j < idx.length) → idx[j] < p.length := fun j hj => by
    simpa using hi.mem_iff.mp (List.getElem_mem hj)
  have hnd : idx.Nodup := hi.nodup_iff.mpr List.nodup_range
  let σ : Fin (rearranged idx p).length → Fin p.length := fun j =>
    ⟨idx[j.1]'(by rw [hlen, ← hrl]; exact j.2), hin _ _⟩
  have hσ : Function.Bijective σ := by
    rw [Fintype.bijective_iff_injective_and_card]
    refine ⟨fun a b hab => ?_, by simp [hrl]⟩
    have := congrArg Fin.val hab
    exact Fin.ext ((hnd.getElem_inj_iff).mp this)
  let e := Equiv.ofBijective σ hσ
  have hval : (fun i : Fin (rearranged idx p).length => (rearranged idx p).getD i 0) =
      (fun i : Fin p.length => p.getD i 0) ∘ e := by
    funext j
    have hj : j.1 < idx.length := by rw [hlen, ← hrl]; exact j.2
    change (rearranged idx p).getD j.1 0 = p.getD (idx[j.1]'hj) 0
    unfold rearranged
    simp [hj]
  simp only [Function.comp, normalizeList]
  rw [hval, C146_normalize]
  have hout : ∀ v : Fin p.length → ℝ, List.ofFn (v ∘ e) = rearranged idx (List.ofFn v) := by
    intro v
    apply List.ext_getElem
    · simp [rearranged, hlen]
    · intro j h1 h2
      have hj : j < idx.length := by simpa [rearranged] using h2
      simp only [rearranged, List.getElem_ofFn, List.getElem_map, Function.comp]
      simp only [List.getD_eq_getElem?_getD, List.getElem?_ofFn, dif_pos (hin j hj), Option.getD_some]
      rfl
  rw [hout, rearranged_map (by simpa using hi)]

theorem zeroMean_comp (e : ι ≃ κ) (p : κ → ℝ) :
    zeroMeanNormalize (p ∘ e) = zeroMeanNormalize p ∘ e := by
  funext i
  unfold zeroMeanNormalize
  rw [mean_comp]
  simp only [Function.comp]
  rw [e.sum_comp fun j => (p j - mean p) ^ 2]

theorem normalizePattern_comp (e : ι ≃ κ) (p : κ → ℝ) :
    normalizePattern (p ∘ e) = normalizePattern p ∘ e := by
  funext i
  unfold normalizePattern
  simp only [Function.comp]
  rw [e.sum_comp fun j => p j ^ 2]

theorem dot_comp (e : ι ≃ κ) (a b : κ → ℝ) : dotPatterns (a ∘ e) (b ∘ e) = dotPatterns a b :=
  e.sum_comp fun i => a i * b i

/-- C146: the scores of two patterns, in dictionary indexing with any signal mask and in refinement,
are the same when the pixels of both, and of the mask, are in other places. -/
theorem C146_scores (e : ι ≃ κ) (mask : κ → Bool) (a b : κ → ℝ) (norm : ℝ) :
    ncc (mask ∘ e) (a ∘ e) (b ∘ e) = ncc mask a b ∧
    ndp (mask ∘ e) (a ∘ e) (b ∘ e) = ndp mask a b ∧
    nccSingle (a ∘ e) (b ∘ e) norm = nccSingle a b norm := by
  let e' : Kept (mask ∘ e) ≃ Kept mask := e.subtypeEquiv fun i => Iff.rfl
  have hm : ∀ p : κ → ℝ, maskPattern (mask ∘ e) (p ∘ e) = maskPattern mask p ∘ e' := fun p => rfl
  refine ⟨?_, ?_, ?_⟩
  · unfold ncc
    rw [hm, hm, zeroMean_comp, zeroMean_comp, dot_comp]
  · unfold ndp
    rw [hm, hm, normalizePattern_comp, normalizePattern_comp, dot_comp]
  · unfold nccSingle
    rw [mean_comp]
    simp only [Function.comp]
    rw [e.sum_comp fun i => a i * (b i - mean b), e.sum_comp fun i => (b i - mean b) ^ 2]

/-- C146: dictionary indexing of a map gives the same scores and simulation indices when the pixels of
all experimental and simulated patterns, and of the signal mask, are in other places: whatever the
navigation mask, the chunks, the number of matches and the sorting. -/
theorem C146_indexing (e : ι ≃ κ) (mask : κ → Bool) (dictionary patterns : List (κ → ℝ))
    (argtopk argsort : List ℝ → List ℕ) (sign : ℤ) (keepN nPer : ℕ)
    (junk : List (List (Cand ℝ))) (navMask : Option (List Bool)) :
    indexMap (fun p => dictionaryIndexing argtopk argsort sign keepN nPer
        ((dictionary.map (· ∘ e)).map (ncc (mask ∘ e) p))) junk navMask (patterns.map (· ∘ e)) =
      indexMap (fun p => dictionaryIndexing argtopk argsort sign keepN nPer
        (dictionary.map (ncc mask p))) junk navMask patterns ∧
    indexMap (fun p => dictionaryIndexing argtopk argsort sign keepN nPer
        ((dictionary.map (· ∘ e)).map (ndp (mask ∘ e) p))) junk navMask (patterns.map (· ∘ e)) =
      indexMap (fun p => dictionaryIndexing argtopk argsort sign keepN nPer
        (dictionary.map (ndp mask p))) junk navMask patterns := by
  have sel : ∀ (keep : List Bool), selectMask keep (patterns.map (· ∘ e)) =
      (selectMask keep patterns).map (· ∘ e) := by
    intro keep
    unfold selectMask
    rw [List.zip_map_left, List.filterMap_map, List.map_filterMap]
    apply List.filterMap_congr
    rintro ⟨p, b⟩ _
    cases b <;> rfl
  have h1 : ∀ p : κ → ℝ, (dictionary.map (· ∘ e)).map (ncc (mask ∘ e) (p ∘ e)) =
      dictionary.map (ncc mask p) := by
    intro p
    rw [List.map_map]
    exact List.map_congr_left fun q _ => (C146_scores e mask p q 0).1
  have h2 : ∀ p : κ → ℝ, (dictionary.map (· ∘ e)).map (ndp (mask ∘ e) (p ∘ e)) =
      dictionary.map (ndp mask p) := by
    intro p
    rw [List.map_map]
    exact List.map_congr_left fun q _ => (C146_scores e mask p q 0).2.1
  have gen : ∀ (A : (ι → ℝ) → List (Cand ℝ)) (B : (κ → ℝ) → List (Cand ℝ)),
      (∀ p, A (p ∘ e) = B p) →
      indexMap A junk navMask (patterns.map (· ∘ e)) = indexMap B junk navMask patterns := by
    intro A B hAB
    unfold indexMap
    cases navMask with
    | none =>
      simp only [List.map_map]
      exact List.map_congr_left fun p _ => by simp [hAB]
    | some m =>
      simp only [sel, List.map_map]
      congr 2
      exact List.map_congr_left fun p _ => by simp [hAB]
  exact ⟨gen _ _ fun p => by simp only [h1], gen _ _ fun p => by simp only [h2]⟩

end

/-! ### Flipped images -/

section
variable {V : Type*}

/-- Where a pixel of the flipped pattern was. -/
def flipSource (f : Flip) (rows cols : ℕ) (r c : ℕ) : ℕ × ℕ :=
  match f with
  | .upsideDown => (rows - 1 - r, c)
  | .leftRight => (r, cols - 1 - c)
  | .rowsAsColumns => (c, r)

theorem flip_val (f : Flip) (p : Img V) (r c : ℕ) :
    (f.apply p).val r c
      = p.val (flipSource f p.rows p.cols r c).1 (flipSource f p.rows p.cols r c).2 := by
  cases f <;> rfl

theorem flip_shape (f : Flip) (p : Img V) :
    (f.apply p).rows = (if f = .rowsAsColumns then p.cols else p.rows) ∧
    (f.apply p).cols = (if f = .rowsAsColumns then p.rows else p.cols) := by
  cases f <;> exact ⟨rfl, rfl⟩

theorem flipSource_lt {f : Flip} {p : Img V} {r c : ℕ} (hr : r < (f.apply p).rows)
    (hc : c < (f.apply p).cols) :
    (flipSource f p.rows p.cols r c).1 < p.rows ∧ (flipSource f p.rows p.cols r c).2 < p.cols := by
  cases f <;>
    simp only [Flip.apply, upsideDown, leftRight, rowsAsColumns, flipSource] at hr hc ⊢ <;> omega

theorem flip_surj (f : Flip) (p : Img V) {r c : ℕ} (hr : r < p.rows) (hc : c < p.cols) :
    ∃ r' c', r' < (f.apply p).rows ∧ c' < (f.apply p).cols ∧ (f.apply p).val r' c' = p.val r c := by
  cases f
  · refine ⟨p.rows - 1 - r, c, ?_, hc, ?_⟩
    · simp only [Flip.apply, upsideDown]; omega
    · simp only [Flip.apply, upsideDown]; congr 1; omega
  · refine ⟨r, p.cols - 1 - c, hr, ?_, ?_⟩
    · simp only [Flip.apply, leftRight]; omega
    · simp only [Flip.apply, leftRight]; congr 1; omega
  · exact ⟨c, r, hc, hr, rfl⟩

/-- A flipped pattern has the same intensities. -/
theorem flip_values (f : Flip) (p : Img V) (x : V) :
    (∃ r c, r < (f.apply p).rows ∧ c < (f.apply p).cols ∧ (f.apply p).val r c = x) ↔
      ∃ r c, r < p.rows ∧ c < p.cols ∧ p.val r c = x := by
  constructor
  · rintro ⟨r, c, hr, hc, rfl⟩
    obtain ⟨h1, h2⟩ := flipSource_lt hr hc
    exact ⟨_, _, h1, h2, (flip_val f p r c).symm⟩
  · rintro ⟨r, c, hr, hc, rfl⟩
    exact flip_surj f p hr hc

end

theorem flip_pos {V : Type*} (f : Flip) {p : Img V} (hr : 0 < p.rows) (hc : 0 < p.cols) :
    0 < (f.apply p).rows ∧ 0 < (f.apply p).cols := by
  cases f
  · exact ⟨hr, hc⟩
  · exact ⟨hr, hc⟩
  · exact ⟨hc, hr⟩

theorem samePattern_symm {p q : Img ℝ} (h : SamePattern p q) : SamePattern q p :=
  ⟨h.1.symm, h.2.1.symm, fun r c hr hc => (h.2.2 r c (h.1 ▸ hr) (h.2.1 ▸ hc)).symm⟩

theorem samePattern_trans {p q r : Img ℝ} (h : SamePattern p q) (h' : SamePattern q r) :
    SamePattern p r :=
  ⟨h.1.trans h'.1, h.2.1.trans h'.2.1, fun y x hy hx =>
    (h.2.2 y x hy hx).trans (h'.2.2 y x (h.1 ▸ hy) (h.2.1 ▸ hx))⟩

/-- Patterns which are the same have the same set of intensities. -/
theorem samePattern_pixels {p q : Img ℝ} (h : SamePattern p q) (x : ℝ) :
    x ∈ p.pixels ↔ x ∈ q.pixels := by
  rw [mem_pixels, mem_pixels]
  constructor
  · rintro ⟨r, hr, c, hc, rfl⟩
    exact ⟨r, h.1 ▸ hr, c, h.2.1 ▸ hc, (h.2.2 r c hr hc).symm⟩
  · rintro ⟨r, hr, c, hc, rfl⟩
    exact ⟨r, h.1 ▸ hr, c, h.2.1 ▸ hc, h.2.2 r c (h.1 ▸ hr) (h.2.1 ▸ hc)⟩

theorem flip_pixels (f : Flip) (p : Img ℝ) (x : ℝ) : x ∈ (f.apply p).pixels ↔ x ∈ p.pixels := by
  rw [mem_pixels, mem_pixels]
  have := flip_values f p x
  constructor
  · rintro ⟨r, hr, c, hc, e⟩
    obtain ⟨r', c', a, b, e'⟩ := this.mp ⟨r, c, hr, hc, e⟩
    exact ⟨r', a, c', b, e'⟩
  · rintro ⟨r, hr, c, hc, e⟩
    obtain ⟨r', c', a, b, e'⟩ := this.mpr ⟨r, c, hr, hc, e⟩
    exact ⟨r', a, c', b, e'⟩

/-- Stretching by the smallest and largest intensity. -/
theorem flip_stretched {f : Flip} {q q' : Img ℝ} (h : SamePattern q' (f.apply q))
    (g : ℝ → ℝ → ℝ → ℝ) :
    SamePattern (q'.mapVal (g (listMin q'.pixels) (listMax q'.pixels)))
      (f.apply (q.mapVal (g (listMin q.pixels) (listMax q.pixels)))) := by
  have hs : ∀ x, x ∈ q'.pixels ↔ x ∈ q.pixels := fun x =>
    (samePattern_pixels h x).trans (flip_pixels f q x)
  rw [listMin_same_set hs, listMax_same_set hs]
  obtain ⟨h1, h2, h3⟩ := h
  cases f
  · exact ⟨h1, h2, fun r c hr hc => congrArg _ (h3 r c hr hc)⟩
  · exact ⟨h1, h2, fun r c hr hc => congrArg _ (h3 r c hr hc)⟩
  · exact ⟨h1, h2, fun r c hr hc => congrArg _ (h3 r c hr hc)⟩

/-- C146: downsampling by a factor of the shape. -/
theorem C146_downsample (f : Flip) (p : Img ℝ) {factor : ℕ} (hr : factor ∣ p.rows)
    (hc : factor ∣ p.cols) (omin omax : ℝ) (d : DType) :
    SamePattern (downsample2d (f.apply p) factor omin omax d)
      (f.apply (downsample2d p factor omin omax d)) := by
  have key : SamePattern (bin2d (f.apply p) factor) (f.apply (bin2d p factor)) := by
    obtain ⟨e1, e2, ev⟩ := C14_block_sums p factor
    obtain ⟨e1', e2', ev'⟩ := C14_block_sums (f.apply p) factor
    obtain ⟨n, hn⟩ := hr
    obtain ⟨m, hm⟩ := hc
    rcases Nat.eq_zero_or_pos factor with h0 | h0
    · subst h0
      rw [zero_mul] at hn hm
      refine ⟨?_, ?_, ?_⟩
      · rw [e1']; cases f <;> simp [Flip.apply, upsideDown, leftRight, rowsAsColumns, e1, e2]
      · rw [e2']; cases f <;> simp [Flip.apply, upsideDown, leftRight, rowsAsColumns, e1, e2]
      · intro r c h; rw [e1', Nat.div_zero] at h; omega
    · have dn : p.rows / factor = n := by rw [hn]; exact Nat.mul_div_cancel_left _ h0
      have dm : p.cols / factor = m := by rw [hm]; exact Nat.mul_div_cancel_left _ h0
      have back : ∀ {N k i : ℕ}, k < N → i < factor →
          factor * N - 1 - (k * factor + i) = (N - 1 - k) * factor + (factor - 1 - i) := by
        intro N k i hk hi
        obtain ⟨s, rfl⟩ : ∃ s, N = k + 1 + s := ⟨N - k - 1, by omega⟩
        have : factor * (k + 1 + s) = k * factor + factor + s * factor := by ring
        rw [this, show k + 1 + s - 1 - k = s by omega]
        omega
      cases f
      · refine ⟨by rw [e1']; simp [Flip.apply, upsideDown, e1], by rw [e2']; simp [Flip.apply, upsideDown, e2], ?_⟩
        intro r c hr' hc'
        rw [e1'] at hr'; rw [e2'] at hc'
        rw [ev' r c hr' hc']
        simp only [Flip.apply, upsideDown] at hr' hc' ⊢
        rw [dn] at hr'
        rw [e1, ev _ _ (by omega) hc', dn, ← sum_range_reflect]
        apply sum_congr rfl
        intro i hi
        rw [mem_range] at hi
        apply sum_congr rfl
        intro j _
        have := back (i := factor - 1 - i) hr' (by omega)
        rw [hn, this]
        congr 1
        omega
      · refine ⟨by rw [e1']; simp [Flip.apply, leftRight, e1], by rw [e2']; simp [Flip.apply, leftRight, e2], ?_⟩
        intro r c hr' hc'
        rw [e1'] at hr'; rw [e2'] at hc'
        rw [ev' r c hr' hc']
        simp only [Flip.apply, leftRight] at hr' hc' ⊢
        rw [dm] at hc'
        rw [e2, ev _ _ hr' (by omega), dm]
        apply sum_congr rfl
        intro i _
        rw [← sum_range_reflect]
        apply sum_congr rfl
        intro j hj
        rw [mem_range] at hj
        have := back (i := factor - 1 - j) hc' (by omega)
        rw [hm, this]
        congr 1
        omega
      · refine ⟨by rw [e1']; simp [Flip.apply, rowsAsColumns, e2], by rw [e2']; simp [Flip.apply, rowsAsColumns, e1], ?_⟩
        intro r c hr' hc'
        rw [e1'] at hr'; rw [e2'] at hc'
        rw [ev' r c hr' hc']
        simp only [Flip.apply, rowsAsColumns] at hr' hc' ⊢
        rw [ev _ _ hc' hr', sum_comm]
  exact flip_stretched key fun a b x => castTo d (rescalePixel a b omin omax x)

/-! ### Filters in the spatial domain -/

theorem clampIdx_reflect {n : ℕ} (hn : 0 < n) (z : ℤ) :
    n - 1 - clampIdx n z = clampIdx n ((n : ℤ) - 1 - z) := by
  unfold clampIdx
  omega

/-- Weighted sums of a flipped pattern with the flipped window. -/
theorem correlate_flip (f : Flip) (p w : Img ℝ) (hr : 0 < p.rows) (hc : 0 < p.cols)
    (hw : f.Centred w) :
    SamePattern ⟨(f.apply p).rows, (f.apply p).cols, correlate (f.apply p) (f.apply w)⟩
      (f.apply ⟨p.rows, p.cols, correlate p w⟩) := by
  cases f
  · refine ⟨rfl, rfl, fun y x hy hx => ?_⟩
    simp only [Flip.apply, upsideDown, correlate] at hy hx ⊢
    change w.rows % 2 = 1 at hw
    rw [← sum_range_reflect]
    apply sum_congr rfl
    intro i hi
    rw [mem_range] at hi
    apply sum_congr rfl
    intro j _
    rw [clampIdx_reflect hr, show w.rows - 1 - (w.rows - 1 - i) = i by omega]
    congr 3
    omega
  · refine ⟨rfl, rfl, fun y x hy hx => ?_⟩
    simp only [Flip.apply, leftRight, correlate] at hy hx ⊢
    change w.cols % 2 = 1 at hw
    apply sum_congr rfl
    intro i _
    rw [← sum_range_reflect]
    apply sum_congr rfl
    intro j hj
    rw [mem_range] at hj
    rw [clampIdx_reflect hc, show w.cols - 1 - (w.cols - 1 - j) = j by omega]
    congr 3
    omega
  · refine ⟨rfl, rfl, fun y x hy hx => ?_⟩
    simp only [Flip.apply, rowsAsColumns, correlate] at hy hx ⊢
    rw [sum_comm]

theorem correlate_same_window {p w w' : Img ℝ} (h : SamePattern w w') (y x : ℕ) :
    correlate p w y x = correlate p w' y x := by
  unfold correlate
  rw [h.1, h.2.1]
  apply sum_congr rfl
  intro i hi
  apply sum_congr rfl
  intro j hj
  rw [h.2.2 i j (by rw [h.1]; simpa using hi) (by rw [h.2.1]; simpa using hj)]

theorem stretched_flip {f : Flip} {d : DType} {g q g' q' : Img ℝ} (h : StretchedTo d g q)
    (h' : StretchedTo d g' q') (hg : SamePattern g' (f.apply g)) : SamePattern q' (f.apply q) := by
  obtain ⟨a1, a2, lo, hi, rg, hrg, hlo, hhi, hval⟩ := h
  obtain ⟨b1, b2, lo', hi', rg', hrg', hlo', hhi', hval'⟩ := h'
  have hset : {x | ∃ r c, r < g'.rows ∧ c < g'.cols ∧ g'.val r c = x} =
      {x | ∃ r c, r < g.rows ∧ c < g.cols ∧ g.val r c = x} := by
    ext x
    rw [Set.mem_ofPred_eq, Set.mem_ofPred_eq, ← flip_values f g x]
    constructor
    · rintro ⟨r, c, hr, hc, e⟩
      exact ⟨r, c, hg.1 ▸ hr, hg.2.1 ▸ hc, (hg.2.2 r c hr hc) ▸ e⟩
    · rintro ⟨r, c, hr, hc, e⟩
      exact ⟨r, c, hg.1 ▸ hr, hg.2.1 ▸ hc, (hg.2.2 r c (hg.1 ▸ hr) (hg.2.1 ▸ hc)).trans e⟩
  rw [hset] at hlo' hhi'
  have el := hlo.unique hlo'
  have eh := hhi.unique hhi'
  rw [hrg] at hrg'
  injection hrg' with er
  subst el; subst eh; subst er
  have s1 : (f.apply q).rows = (f.apply g).rows := by rw [(flip_shape f q).1, (flip_shape f g).1, a1, a2]
  have s2 : (f.apply q).cols = (f.apply g).cols := by rw [(flip_shape f q).2, (flip_shape f g).2, a1, a2]
  refine ⟨by rw [b1, hg.1, s1], by rw [b2, hg.2.1, s2], fun r c hr hc => ?_⟩
  rw [b1] at hr
  rw [b2] at hc
  have hl := flipSource_lt (f := f) (p := g) (hg.1 ▸ hr) (hg.2.1 ▸ hc)
  rw [hval' r c hr hc, hg.2.2 r c hr hc, flip_val, flip_val, a1, a2, hval _ _ hl.1 hl.2]

theorem nonEmpty_flip {f : Flip} {rows cols : ℕ} {chunks : List (List (Img ℝ))}
    (hp : NonEmptyPatterns rows cols chunks) :
    NonEmptyPatterns (if f = .rowsAsColumns then cols else rows)
      (if f = .rowsAsColumns then rows else cols) (chunks.map (List.map f.apply)) := by
  obtain ⟨h1, h2, h3⟩ := hp
  refine ⟨by split_ifs <;> assumption, by split_ifs <;> assumption, ?_⟩
  intro ps hps p hpp
  obtain ⟨qs, hqs, rfl⟩ := List.mem_map.mp hps
  obtain ⟨q, hq, rfl⟩ := List.mem_map.mp hpp
  obtain ⟨e1, e2⟩ := h3 qs hqs q hq
  rw [(flip_shape f q).1, (flip_shape f q).2, e1, e2]
  exact ⟨rfl, rfl⟩

theorem chunkWise_map (g : Img ℝ → Img ℝ) (a : List (List (Img ℝ))) :
    ChunkWise (fun p p' => p' = g p) a (a.map (List.map g)) := by
  unfold ChunkWise
  rw [List.forall₂_map_right_iff, List.forall₂_same]
  intro ps _
  rw [List.forall₂_map_right_iff, List.forall₂_same]
  intro p _
  rfl

variable {nfl : ℕ → ℕ} {d : DType}

/-- C146: filtering patterns in the spatial domain (`fft_filter`) with the window flipped the same
way.  The window may have any values; along a reversed direction it must have an odd size. -/
theorem C146_filter_spatial (hnfl : ∀ n, n ≤ nfl n) (hd : dtypeRange d ≠ none) {rows cols : ℕ}
    {chunks : List (List (Img ℝ))} (hp : NonEmptyPatterns rows cols chunks) {w : Img ℝ}
    (hw : 0 < w.rows ∧ 0 < w.cols) (f : Flip) (hc : f.Centred w) (shift inplace lazyOutput : Bool)
    (hl : ¬ (lazyOutput ∧ inplace)) :
    ∃ out out', signalFftFilter nfl d chunks "spatial" shift w inplace lazyOutput = .ok out ∧
      signalFftFilter nfl d (chunks.map (List.map f.apply)) "spatial" shift (f.apply w) inplace
        lazyOutput = .ok out' ∧
      ChunkWise (fun q q' => SamePattern q' (f.apply q)) out out' := by
  obtain ⟨out, ho, hR⟩ := C125_spatial nfl d hnfl hd hp hw shift inplace lazyOutput hl
  obtain ⟨out', ho', hR'⟩ := C125_spatial nfl d hnfl hd (nonEmpty_flip (f := f) hp)
    (flip_pos f hw.1 hw.2) shift inplace lazyOutput hl
  refine ⟨out, out', ho, ho', ?_⟩
  refine chunkWise_out (chunkWise_map f.apply chunks) hR hR' ?_
  rintro p p' q q' ⟨ps, hps, hpp⟩ rfl h1 h2
  obtain ⟨e1, e2⟩ := hp.2.2 ps hps p hpp
  have hk := correlate_flip f p w (e1 ▸ hp.1) (e2 ▸ hp.2.1) hc
  rw [e1, e2] at hk
  rw [(flip_shape f p).1, (flip_shape f p).2, e1, e2] at hk
  exact stretched_flip h1 h2 hk

/-! ### Filters in the frequency domain -/

theorem component_flip (f : Flip) (p : Img ℝ) (hr : 0 < p.rows) (hc : 0 < p.cols) (u v : ℤ) :
    component (f.apply p) u v = (match f with
      | .upsideDown => Complex.exp (-(2 * Real.pi * Complex.I) * ((u : ℂ) * ((p.rows : ℂ) - 1) / p.rows))
      | .leftRight => Complex.exp (-(2 * Real.pi * Complex.I) * ((v : ℂ) * ((p.cols : ℂ) - 1) / p.cols))
      | .rowsAsColumns => 1) * component p (f.frequency u v).1 (f.frequency u v).2 := by
  have kr : (p.rows : ℂ) ≠ 0 := Nat.cast_ne_zero.mpr (by omega)
  have kc : (p.cols : ℂ) ≠ 0 := Nat.cast_ne_zero.mpr (by omega)
  cases f
  · simp only [Flip.apply, upsideDown, component, Flip.frequency]
    rw [← sum_range_reflect, mul_sum]
    apply sum_congr rfl
    intro r hr'
    rw [mem_range] at hr'
    rw [mul_sum]
    apply sum_congr rfl
    intro c _
    rw [show p.rows - 1 - (p.rows - 1 - r) = r by omega, mul_left_comm, ← Complex.exp_add]
    congr 2
    have : ((p.rows - 1 - r : ℕ) : ℂ) = (p.rows : ℂ) - 1 - r := by
      rw [Nat.cast_sub (by omega), Nat.cast_sub (by omega)]; simp
    rw [this]
    push_cast
    field_simp
    ring
  · simp only [Flip.apply, leftRight, component, Flip.frequency]
    rw [mul_sum]
    apply sum_congr rfl
    intro r _
    rw [← sum_range_reflect, mul_sum]
    apply sum_congr rfl
    intro c hc'
    rw [mem_range] at hc'
    rw [show p.cols - 1 - (p.cols - 1 - c) = c by omega, mul_left_comm, ← Complex.exp_add]
    congr 2
    have : ((p.cols - 1 - c : ℕ) : ℂ) = (p.cols : ℂ) - 1 - c := by
      rw [Nat.cast_sub (by omega), Nat.cast_sub (by omega)]; simp
    rw [this]
    push_cast
    field_simp
    ring
  · simp only [Flip.apply, rowsAsColumns, component, Flip.frequency, one_mul]
    rw [sum_comm]
    apply sum_congr rfl
    intro r _
    apply sum_congr rfl
    intro c _
    congr 3
    ring

/-- Images with the same components are the same. -/
theorem same_of_components {p q : Img ℝ} (hr : 0 < p.rows) (hc : 0 < p.cols) (h1 : p.rows = q.rows)
    (h2 : p.cols = q.cols) (h : ∀ u v : ℤ, component p u v = component q u v) : SamePattern p q := by
  obtain ⟨pr, pc, pv⟩ := p
  obtain ⟨qr, qc, qv⟩ := q
  simp only at h1 h2 hr hc
  subst h1; subst h2
  have : NeZero pr := ⟨by omega⟩
  have : NeZero pc := ⟨by omega⟩
  exact ⟨rfl, rfl, fun r c hr' hc' => component_inj h hr' hc'⟩

theorem filtered_flip {f : Flip} {t t' p g g' : Img ℝ} {shift : Bool} (hr : 0 < p.rows)
    (hc : 0 < p.cols) (hg : FrequencyFiltered t shift p g)
    (hg' : FrequencyFiltered t' shift (f.apply p) g') (ht : f.SameTransfer shift t t') :
    SamePattern g' (f.apply g) := by
  obtain ⟨a1, a2, a3⟩ := hg
  obtain ⟨b1, b2, b3⟩ := hg'
  have hpos := flip_pos f hr hc
  have s1 : (f.apply g).rows = (f.apply p).rows := by rw [(flip_shape f g).1, (flip_shape f p).1, a1, a2]
  have s2 : (f.apply g).cols = (f.apply p).cols := by rw [(flip_shape f g).2, (flip_shape f p).2, a1, a2]
  refine same_of_components (b1 ▸ hpos.1) (b2 ▸ hpos.2) (b1.trans s1.symm) (b2.trans s2.symm) ?_
  intro u v
  rw [b3, component_flip f p hr hc, component_flip f g (a1 ▸ hr) (a2 ▸ hc), a3, ht u v,
    ht (-u) (-v), a1, a2]
  have hneg : f.frequency (-u) (-v) = (-(f.frequency u v).1, -(f.frequency u v).2) := by
    cases f <;> simp [Flip.frequency]
  rw [hneg]
  ring

/-- C146: filtering in the frequency domain with a transfer function which does the same to the waves
of the flipped patterns. -/
theorem C146_filter_frequency (hd : dtypeRange d ≠ none) {rows cols : ℕ}
    {chunks : List (List (Img ℝ))} (hp : NonEmptyPatterns rows cols chunks) {t t' : Img ℝ}
    (ht : t.rows = rows ∧ t.cols = cols) (f : Flip) (shift : Bool)
    (ht' : t'.rows = (f.apply t).rows ∧ t'.cols = (f.apply t).cols) (hs : f.SameTransfer shift t t')
    (inplace lazyOutput : Bool) (hl : ¬ (lazyOutput ∧ inplace)) :
    ∃ out out', signalFftFilter nfl d chunks "frequency" shift t inplace lazyOutput = .ok out ∧
      signalFftFilter nfl d (chunks.map (List.map f.apply)) "frequency" shift t' inplace lazyOutput
        = .ok out' ∧
      ChunkWise (fun q q' => SamePattern q' (f.apply q)) out out' := by
  obtain ⟨out, ho, hR⟩ := C125_frequency nfl d hd hp ht shift inplace lazyOutput hl
  obtain ⟨out', ho', hR'⟩ := C125_frequency nfl d hd (nonEmpty_flip (f := f) hp) (t := t')
    ⟨by rw [ht'.1, (flip_shape f t).1, ht.1, ht.2], by rw [ht'.2, (flip_shape f t).2, ht.1, ht.2]⟩
    shift inplace lazyOutput hl
  refine ⟨out, out', ho, ho', ?_⟩
  refine chunkWise_out (chunkWise_map f.apply chunks) hR hR' ?_
  rintro p p' q q' ⟨ps, hps, hpp⟩ rfl ⟨g, h1, h1'⟩ ⟨g', h2, h2'⟩
  obtain ⟨e1, e2⟩ := hp.2.2 ps hps p hpp
  exact stretched_flip h1' h2' (filtered_flip (e1 ▸ hp.1) (e2 ▸ hp.2.1) h1 h2 hs)

theorem frequencyIndex_reverse {n : ℕ} (hn : n % 2 = 1) (u : ℤ) :
    n - 1 - frequencyIndex n true u = frequencyIndex n true (-u) := by
  have hpos : (0 : ℤ) < n := by omega
  have h1 := Int.emod_nonneg (u + (n / 2 : ℕ)) hpos.ne'
  have h2 := Int.emod_lt_of_pos (u + (n / 2 : ℕ)) hpos
  have e : (-u + (n / 2 : ℕ)) % (n : ℤ) = n - 1 - (u + (n / 2 : ℕ)) % n := by
    have hd := Int.mul_ediv_add_emod (u + (n / 2 : ℕ)) n
    have h3 : (-u + (n / 2 : ℕ) : ℤ) =
        (n - 1 - (u + (n / 2 : ℕ)) % n) + n * -((u + (n / 2 : ℕ)) / n) := by
      have : (n : ℤ) = 2 * (n / 2 : ℕ) + 1 := by omega
      rw [mul_neg]
      linarith
    rw [h3, Int.add_mul_emod_self_left]
    exact Int.emod_eq_of_lt (by omega) (by omega)
  unfold frequencyIndex
  rw [if_pos rfl, if_pos rfl, e]
  omega

/-- C146: so does the flipped transfer function, given with the zero frequency in the centre and, along
a reversed direction, an odd size; with rows and columns exchanged this always holds.  Of another size
or order, it must have the same coefficients for opposite frequencies. -/
theorem C146_transfer (f : Flip) (t : Img ℝ) (hc : f.Centred t) : f.SameTransfer true t (f.apply t) := by
  intro u v
  cases f
  · simp only [transferAt, Flip.apply, upsideDown, Flip.frequency]
    rw [frequencyIndex_reverse hc]
  · simp only [transferAt, Flip.apply, leftRight, Flip.frequency]
    rw [frequencyIndex_reverse hc]
  · rfl

/-! ### Dynamic background -/

theorem mapM_cons_ok {α β : Type} {F : α → Except Err β} {a : α} {b : β} {l : List α} {bs : List β}
    (h : F a = .ok b) (hs : l.mapM F = .ok bs) : (a :: l).mapM F = .ok (b :: bs) := by
  rw [List.mapM_cons, h, hs]
  rfl

/-- C146: dynamic background removal from a signal in the frequency domain, for a window with an odd
number of pixels (exchanging rows and columns: any window, for a given standard deviation). -/
theorem C146_dynamic_partial (hnfl : ∀ n, n ≤ nfl n) (g : GaussianFilter) {omin omax : ℤ}
    (hd : dtypeRange d = some (omin, omax)) {rows cols : ℕ} (hr : 0 < rows) (hc : 0 < cols)
    {patterns : List (Img ℝ)} (hp : ∀ p ∈ patterns, p.rows = rows ∧ p.cols = cols)
    (operation : String) {std : Option ℝ} {trunc : ℝ} (hs : 0 < std.getD ((cols : ℝ) / 8)) {m : ℕ}
    (hm : 0 < m) (h : ⌊trunc * std.getD ((cols : ℝ) / 8)⌋ = (m : ℤ)) (f : Flip)
    (hodd : f ≠ .rowsAsColumns → m % 2 = 1) (hstd : f = .rowsAsColumns → std.isSome) :
    ∃ outs outs',
      signalRemoveDynamicBackground nfl g d rows cols patterns operation "frequency" std trunc
        = .ok outs ∧
      signalRemoveDynamicBackground nfl g d (if f = .rowsAsColumns then cols else rows)
        (if f = .rowsAsColumns then rows else cols) (patterns.map f.apply) operation "frequency" std
        trunc = .ok outs' ∧
      List.Forall₂ (fun q q' => SamePattern q' (f.apply q)) outs outs' := by
  obtain ⟨w, hw, hwr, hwc, hwv⟩ := dynWindow_of _ trunc m hm hs h
  have hstd' : std.getD (((if f = .rowsAsColumns then rows else cols : ℕ) : ℝ) / 8)
      = std.getD ((cols : ℝ) / 8) := by
    by_cases hf : f = .rowsAsColumns
    · obtain ⟨v, rfl⟩ := Option.isSome_iff_exists.mp (hstd hf); rfl
    · rw [if_neg hf]
  have hsame : SamePattern (f.apply w) w := by
    cases f
    · refine ⟨rfl, rfl, fun i j hi hj => ?_⟩
      simp only [Flip.apply, upsideDown] at hi hj ⊢
      rw [hwv, hwv, hwr, gaussTap_symm _ _ _ (hwr ▸ hi)]
    · refine ⟨rfl, rfl, fun i j hi hj => ?_⟩
      simp only [Flip.apply, leftRight] at hi hj ⊢
      rw [hwv, hwv, hwc, gaussTap_symm _ _ _ (hwc ▸ hj)]
    · refine ⟨hwc.trans hwr.symm, hwr.trans hwc.symm, fun i j hi hj => ?_⟩
      simp only [Flip.apply, rowsAsColumns] at hi hj ⊢
      rw [hwv, hwv, mul_comm]
  have hcen : f.Centred w := by
    cases f
    · change w.rows % 2 = 1; rw [hwr]; exact hodd (by simp)
    · change w.cols % 2 = 1; rw [hwc]; exact hodd (by simp)
    · trivial
  unfold signalRemoveDynamicBackground
  simp only [ne_eq, not_true_eq_false, false_and, if_false, hd, hstd']
  have one : ∀ p : Img ℝ, 0 < p.rows → 0 < p.cols → ∃ q : Img ℝ,
      (match dynBackground nfl g "frequency" (std.getD ((cols : ℝ) / 8)) trunc (.float 32) p with
        | .error e => .error e
        | .ok bg =>
          match operated (.float 32) (operation != "subtract") ("frequency" == "frequency") p bg with
          | .error e => .error e
          | .ok q => .ok (q.mapVal fun x => castTo d
              (rescalePixel (listMin q.pixels) (listMax q.pixels) omin omax x)))
        = (.ok (q.mapVal fun x => castTo d
              (rescalePixel (listMin q.pixels) (listMax q.pixels) omin omax x)) :
            Except Err (Img ℝ)) ∧
      SamePattern q ⟨p.rows, p.cols, fun y x => if (operation != "subtract") = true then
        p.val y x / correlate p w y x else p.val y x - correlate p w y x⟩ := by
    intro p hpr hpc
    obtain ⟨bg, hbg, h1, h2, h3⟩ := C15_fft_filter_eq_correlate nfl hnfl p w hpr hpc (by omega)
      (by omega)
    have hdb : dynBackground nfl g "frequency" (std.getD ((cols : ℝ) / 8)) trunc (.float 32) p =
        .ok bg := by
      unfold dynBackground
      rw [if_pos rfl]
      simp only [hw, hbg]
    rw [hdb]
    simp only [operated_float]
    refine ⟨_, rfl, rfl, rfl, fun r c hr' hc' => ?_⟩
    simp only
    rw [h3 r c hr' hc']
  induction patterns with
  | nil => exact ⟨[], [], rfl, rfl, .nil⟩
  | cons p ps ih =>
    obtain ⟨e1, e2⟩ := hp p List.mem_cons_self
    obtain ⟨outs, outs', i1, i2, i3⟩ := ih fun q hq => hp q (List.mem_cons_of_mem _ hq)
    obtain ⟨q, hq, hqs⟩ := one p (e1 ▸ hr) (e2 ▸ hc)
    have hfp := flip_pos f (p := p) (e1 ▸ hr) (e2 ▸ hc)
    obtain ⟨q', hq', hqs'⟩ := one (f.apply p) hfp.1 hfp.2
    refine ⟨q.mapVal (fun x => castTo d
        (rescalePixel (listMin q.pixels) (listMax q.pixels) omin omax x)) :: outs,
      q'.mapVal (fun x => castTo d
        (rescalePixel (listMin q'.pixels) (listMax q'.pixels) omin omax x)) :: outs', ?_, ?_, ?_⟩
    · exact mapM_cons_ok hq i1
    · exact mapM_cons_ok hq' i2
    · refine .cons ?_ i3
      have hflip : SamePattern q' (f.apply q) := by
        have hcf := correlate_flip f p w (e1 ▸ hr) (e2 ▸ hc) hcen
        refine samePattern_trans hqs' ⟨?_, ?_, ?_⟩
        · rw [(flip_shape f q).1, hqs.1, hqs.2.1]; exact (flip_shape f p).1
        · rw [(flip_shape f q).2, hqs.1, hqs.2.1]; exact (flip_shape f p).2
        · intro y x hy hx
          simp only at hy hx ⊢
          have hl := flipSource_lt (f := f) (p := p) hy hx
          have hv := hcf.2.2 y x hy hx
          simp only at hv
          rw [correlate_same_window hsame] at hv
          rw [flip_val] at hv
          simp only at hv
          rw [hv, flip_val f p, flip_val f q, hqs.1, hqs.2.1]
          simp only
          rw [hqs.2.2 _ _ (by rw [hqs.1]; exact hl.1) (by rw [hqs.2.1]; exact hl.2)]
      exact flip_stretched hflip fun a b x => castTo d (rescalePixel a b (omin : ℝ) omax x)

/-! ### Examples -/

example : ([2, 0, 1] : List ℕ).Perm (List.range ([5, 7, 6] : List ℚ).length) ∧
    (rescaleIntensity (rearranged [2, 0, 1] ([5, 7, 6] : List ℚ)) (.uint 8) none none none none).toOption
      = some [127, 0, 255] ∧
    (rescaleIntensity ([5, 7, 6] : List ℚ) (.uint 8) none none none none).toOption
      = some [0, 255, 127] := by decide +kernel

/-- Transfer functions given with the zero frequency first: reversing all but the first row. -/
example : Flip.SameTransfer .rowsAsColumns true ⟨2, 3, fun r c => r + 10 * c⟩
    ⟨3, 2, fun r c => c + 10 * r⟩ := by
  intro u v
  simp [Flip.frequency, transferAt]

example : NonEmptyPatterns 2 3 [[⟨2, 3, fun r c => r + 10 * c⟩]] ∧
    Flip.Centred .upsideDown (⟨3, 2, fun r c => r * c⟩ : Img ℝ) ∧
    ¬ Flip.Centred .leftRight (⟨3, 2, fun r c => r * c⟩ : Img ℝ) := by
  refine ⟨⟨by decide, by decide, ?_⟩, ?_, ?_⟩
  · simp
  · simp [Flip.Centred]
  · simp [Flip.Centred]

/-- A standard deviation of 1 and 3 of them: a window of 3 by 3 pixels. -/
example : ⌊(3 : ℝ) * (some (1 : ℝ)).getD ((4 : ℕ) / 8)⌋ = ((3 : ℕ) : ℤ) ∧ 3 % 2 = 1 := by
  norm_num

end Kp
