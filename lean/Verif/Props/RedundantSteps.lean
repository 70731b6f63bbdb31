import Verif.Spec.RedundantSteps
import Verif.Props.SignalFftFilter
import Verif.Props.Downsample

/-
C142: intensity steps which may be left out, and filters used one after the other.
-/

set_option linter.unusedSectionVars false

namespace Kp
open Spec

/-! ### One step -/

theorem varied_recorded {p p' : List ℝ} {g o : ℝ} (h : Recorded g o p p') (hv : Varied p) :
    Varied p' := by
  obtain ⟨x, hx, y, hy, hxy⟩ := hv
  obtain ⟨hg, rfl⟩ := h
  refine ⟨_, List.mem_map_of_mem hx, _, List.mem_map_of_mem hy, fun e => hxy ?_⟩
  have : g * (x - y) = 0 := by linarith
  rcases mul_eq_zero.1 this with h | h
  · exact absurd h hg.ne'
  · linarith

theorem recorded_trans {p p' p'' : List ℝ} {g o g' o' : ℝ} (h : Recorded g o p p')
    (h' : Recorded g' o' p' p'') : Recorded (g' * g) (g' * o + o') p p'' := by
  obtain ⟨hg, rfl⟩ := h
  obtain ⟨hg', rfl⟩ := h'
  refine ⟨mul_pos hg' hg, ?_⟩
  rw [List.map_map]
  refine List.map_congr_left fun x _ => ?_
  simp only [Function.comp_apply]
  ring

theorem recorded_refl (p : List ℝ) : Recorded 1 0 p p := ⟨one_pos, by simp⟩

theorem rescale_recorded {p : List ℝ} {lo hi omin omax : ℝ} (h : lo < hi) (ho : omin < omax) :
    ∃ g o, Recorded g o p (rescaleWithMinMax p lo hi omin omax) := by
  refine ⟨(omax - omin) / (hi - lo), omin - lo * ((omax - omin) / (hi - lo)),
    div_pos (sub_pos.2 ho) (sub_pos.2 h), ?_⟩
  unfold rescaleWithMinMax rescalePixel
  refine List.map_congr_left fun x _ => ?_
  ring

theorem normalize_recorded {p : List ℝ} (hv : Varied p) {numStd : ℝ} (hn : 0 < numStd)
    (divideBySquareRoot : Bool) (bits : ℕ) :
    ∃ g o, Recorded g o p (normalizeList numStd divideBySquareRoot (some (.float bits)) p) := by
  have hne : NonConst (fun i : Fin p.length => p.getD i 0) := by
    obtain ⟨x, hx, y, hy, hxy⟩ := hv
    obtain ⟨i, hi, rfl⟩ := List.getElem_of_mem hx
    obtain ⟨j, hj, rfl⟩ := List.getElem_of_mem hy
    exact ⟨⟨i, hi⟩, ⟨j, hj⟩, by simpa [hi, hj] using hxy⟩
  have hs : 0 < std (fun i : Fin p.length => p.getD i 0) := by
    have h1 := (C12_mean_and_std_default_partial _ hne).2
    by_contra hc
    have h0 : std (fun i : Fin p.length => p.getD i 0) = 0 :=
      le_antisymm (not_lt.1 hc) (Real.sqrt_nonneg _)
    have hz : normalizeIntensity 1 false (fun i : Fin p.length => p.getD i 0) = fun _ => 0 := by
      funext i
      unfold normalizeIntensity
      rw [h0]
      simp
    rw [hz] at h1
    simp [std, mean] at h1
  have hcard : 0 < (Fintype.card (Fin p.length) : ℝ) := by
    obtain ⟨i, -, -⟩ := hne
    have : 0 < p.length := i.pos
    simpa using this
  obtain ⟨k, hk, he⟩ : ∃ k : ℝ, 0 < k ∧ ∀ i : Fin p.length,
      normalizeIntensity numStd divideBySquareRoot (fun i : Fin p.length => p.getD i 0) i =
        (p.getD i 0 - mean (fun i : Fin p.length => p.getD i 0)) / k := by
    cases divideBySquareRoot with
    | true => exact ⟨_, mul_pos (mul_pos hn hs) (Real.sqrt_pos.2 hcard), fun i => rfl⟩
    | false => exact ⟨_, mul_pos hn hs, fun i => rfl⟩
  refine ⟨1 / k, -(mean (fun i : Fin p.length => p.getD i 0)) / k, by positivity, ?_⟩
  unfold normalizeList
  have : wrapTo (.float bits) = id := rfl
  simp only [this, List.map_id]
  apply List.ext_getElem
  · simp
  · intro i h1 h2
    simp only [List.length_map] at h2
    rw [List.getElem_ofFn, he, List.getElem_map]
    simp only [List.getD_eq_getElem?_getD, List.getElem?_eq_getElem h2, Option.getD_some]
    field_simp
    ring

theorem mapM_forall₂_ok {α β : Type} {e : Type} {f : α → Except e β} {R : α → β → Prop} {l : List α}
    (h : ∀ a ∈ l, ∃ b, f a = .ok b ∧ R a b) : ∃ bs, l.mapM f = .ok bs ∧ List.Forall₂ R l bs := by
  induction l with
  | nil => exact ⟨[], rfl, .nil⟩
  | cons a l ih =>
    obtain ⟨b, hb, hR⟩ := h a (by simp)
    obtain ⟨bs, hbs, hall⟩ := ih fun a' ha' => h a' (by simp [ha'])
    exact ⟨b :: bs, by rw [List.mapM_cons, hb, hbs]; rfl, .cons hR hall⟩

theorem step_recorded (s : IntensityStep) (hs : s.Sensible) (dtype : DType) {ps : List (List ℝ)}
    (hv : ∀ p ∈ ps, Varied p) :
    ∃ ps', s.run dtype ps = .ok ps' ∧
      List.Forall₂ (fun p p' => ∃ g o, Recorded g o p p') ps ps' := by
  have hcast : ∀ bits, castTo (K := ℝ) (.float bits) = id := fun _ => rfl
  cases s with
  | normalize numStd sq bits =>
    refine ⟨_, rfl, ?_⟩
    unfold signalNormalizeIntensity
    exact forall₂_self_map _ fun p hp => normalize_recorded (hv p hp) hs sq bits
  | rescale relative outRange bits =>
    obtain ⟨omin, omax, ho, hr⟩ : ∃ omin omax : ℝ, omin < omax ∧
        (IntensityStep.rescale relative outRange bits).run dtype ps =
          ps.mapM (fun p => rescaleIntensity p dtype
            (if relative then some (listMin ps.flatten, listMax ps.flatten) else none)
            (some (omin, omax)) (some (.float bits)) none) := by
      cases outRange with
      | none =>
        refine ⟨-1, 1, by norm_num, ?_⟩
        simp [IntensityStep.run, signalRescaleIntensity, dtypeRange]
      | some r =>
        refine ⟨r.1, r.2, hs r rfl, ?_⟩
        simp [IntensityStep.run, signalRescaleIntensity]
    rw [hr]
    cases relative with
    | false =>
      simp only [Bool.false_eq_true, if_false]
      refine mapM_forall₂_ok fun p hp => ?_
      obtain ⟨x, hx, y, hy, hxy⟩ := hv p hp
      refine ⟨rescaleWithMinMax p (listMin p) (listMax p) omin omax, ?_,
        rescale_recorded (listMin_lt_listMax hx hy hxy) ho⟩
      unfold rescaleIntensity
      simp [hcast]
    | true =>
      simp only [if_true]
      refine mapM_forall₂_ok fun p hp => ?_
      obtain ⟨x, hx, y, hy, hxy⟩ := hv p hp
      refine ⟨rescaleWithMinMax p (listMin ps.flatten) (listMax ps.flatten) omin omax, ?_,
        rescale_recorded (listMin_lt_listMax (List.mem_flatten_of_mem hp hx)
          (List.mem_flatten_of_mem hp hy) hxy) ho⟩
      have hclip : p.map (clip (listMin ps.flatten) (listMax ps.flatten)) = p := by
        conv_rhs => rw [← List.map_id p]
        refine List.map_congr_left fun z hz => ?_
        have hz' := List.mem_flatten_of_mem hp hz
        have h1 := listMin_le _ hz'
        have h2 := le_listMax _ hz'
        unfold clip
        simp [h1, h2]
      unfold rescaleIntensity
      simp [hcast, hclip]

/-- C142: any number of sensible calls of `rescale_intensity` (relative or not) and
`normalize_intensity`, one after the other, succeed for a signal without constant patterns, and leave
each pattern with another gain and offset, and nothing else. -/
theorem C142_steps (steps : List IntensityStep) (hs : ∀ s ∈ steps, s.Sensible) (dtype : DType)
    {ps : List (List ℝ)} (hv : ∀ p ∈ ps, Varied p) :
    ∃ ps', runIntensitySteps dtype steps ps = .ok ps' ∧
      List.Forall₂ (fun p p' => ∃ g o, Recorded g o p p') ps ps' ∧ ∀ p ∈ ps', Varied p := by
  induction steps generalizing dtype ps with
  | nil => exact ⟨ps, rfl, List.forall₂_same.2 fun p _ => ⟨1, 0, recorded_refl p⟩, hv⟩
  | cons s steps ih =>
    obtain ⟨ps1, h1, r1⟩ := step_recorded s (hs s (by simp)) dtype hv
    have hv1 : ∀ p ∈ ps1, Varied p := by
      intro q hq
      obtain ⟨i, hi, rfl⟩ := List.getElem_of_mem hq
      have hi' : i < ps.length := by rw [r1.length_eq]; exact hi
      obtain ⟨g, o, h⟩ := (List.forall₂_iff_get.1 r1).2 i hi' hi
      exact varied_recorded h (hv _ (List.getElem_mem hi'))
    obtain ⟨ps2, h2, r2, hv2⟩ := ih (fun s hs' => hs s (by simp [hs'])) s.dtype hv1
    refine ⟨ps2, ?_, ?_, hv2⟩
    · rw [runIntensitySteps, h1]
      exact h2
    · refine List.forall₂_iff_get.2 ⟨r1.length_eq.trans r2.length_eq, fun i hi hi2 => ?_⟩
      have hi1 : i < ps1.length := by rw [← r1.length_eq]; exact hi
      obtain ⟨g, o, a⟩ := (List.forall₂_iff_get.1 r1).2 i hi hi1
      obtain ⟨g', o', b⟩ := (List.forall₂_iff_get.1 r2).2 i hi1 hi2
      exact ⟨_, _, recorded_trans a b⟩

/-! ### What may be left out -/

section
variable {steps : List IntensityStep} (hs : ∀ s ∈ steps, s.Sensible) (dtype : DType)
  {ps ps' : List (List ℝ)} (hv : ∀ p ∈ ps, Varied p) (h : runIntensitySteps dtype steps ps = .ok ps')
include hs hv h

theorem steps_recorded : List.Forall₂ (fun p p' => ∃ g o, Recorded g o p p') ps ps' := by
  obtain ⟨qs, e, r, -⟩ := C142_steps steps hs dtype hv
  rw [h] at e
  exact Except.ok.inj e ▸ r

/-- C142: if a signal is rescaled in the end, to the range of each pattern or percentiles of it, and
to any data type, all these steps before can be left out. -/
theorem C142_before_rescaling (dtypeIn : DType) (outRange : Option (ℝ × ℝ))
    (dtypeOut : Option DType) (percentiles : Option (ℝ × ℝ))
    (hq : ∀ q, percentiles = some q → ((0 ≤ q.1 ∧ q.1 ≤ 100) ∧ 0 ≤ q.2 ∧ q.2 ≤ 100) ∧
      ∀ p ∈ ps, percentile p q.1 ≠ percentile p q.2) :
    signalRescaleIntensity ps' dtypeIn false none outRange dtypeOut percentiles =
      signalRescaleIntensity ps dtypeIn false none outRange dtypeOut percentiles :=
  C119_rescale (steps_recorded hs dtype hv h) hv dtypeIn outRange dtypeOut percentiles hq

/-- C142: the same if it is normalized in the end. -/
theorem C142_before_normalizing (dtypeIn : DType) (numStd : ℝ) (divideBySquareRoot : Bool)
    (dtypeOut : Option DType) :
    signalNormalizeIntensity ps' dtypeIn numStd divideBySquareRoot dtypeOut =
      signalNormalizeIntensity ps dtypeIn numStd divideBySquareRoot dtypeOut :=
  C119_normalize (steps_recorded hs dtype hv h) hv dtypeIn numStd divideBySquareRoot dtypeOut

/-- C142: the same if a static background, scaled to each pattern, is subtracted. -/
theorem C142_before_static_background (dtypeIn : DType) (shape : ℕ × ℕ)
    (staticBg attr : Option (Background ℝ)) :
    signalRemoveStatic dtypeIn shape ps' "subtract" staticBg attr true =
      signalRemoveStatic dtypeIn shape ps "subtract" staticBg attr true :=
  C119_static_scaled "subtract"
    ((steps_recorded hs dtype hv h).imp fun _ _ ⟨g, o, r⟩ => ⟨g, o, r, .inl rfl⟩) hv dtypeIn shape
    staticBg attr

end

/-- C142: the same if the patterns are indexed: scores, indices, rotations and points indexed are the
same as for the patterns without these steps. -/
theorem C142_before_indexing {R : Type} (argtopk argsort : List ℝ → List ℕ)
    (allowed : List MatchType) (r0 : R) (junk : ℕ → List ℝ × List ℕ) (c : IndexingCall ℝ R)
    (w : WellFormedCall c) (v : ValidArguments allowed c)
    (hpc : ∀ i p, Used c.navMask i → c.patterns[i]? = some p → ShowsContrast c.sigMask p)
    (hdc : ∀ d ∈ c.dictionary, ShowsContrast c.sigMask d) {steps : List IntensityStep}
    (hs : ∀ s ∈ steps, s.Sensible) (dtype : DType) {ps' : List (List ℝ)}
    (hv : ∀ p ∈ c.patterns, Varied p) (h : runIntensitySteps dtype steps c.patterns = .ok ps') :
    (dictionaryIndexingCall argtopk argsort 1 allowed nccOf r0 junk {}
      { c with patterns := ps' }).2 =
      (dictionaryIndexingCall argtopk argsort 1 allowed nccOf r0 junk {} c).2 := by
  refine C119_indexing argtopk argsort allowed r0 junk c w v (ps := ps') (ds := c.dictionary)
    ((steps_recorded hs dtype hv h).imp ?_) (List.forall₂_same.2 fun d _ => ?_) hpc hdc
  · rintro p p' ⟨g, o, hg, rfl⟩
    exact ⟨by simp, sameUpTo_map hg p⟩
  · refine ⟨rfl, 1, 0, one_pos, fun k x y _ hx hy => ?_⟩
    rw [hx] at hy
    rw [Option.some.inj hy]
    ring

/-! ### Images -/

theorem flatMap_eq_parts {α β : Type} {f g : α → List β} {l : List α}
    (hl : ∀ a, (f a).length = (g a).length) (h : l.flatMap f = l.flatMap g) :
    ∀ a ∈ l, f a = g a := by
  induction l with
  | nil => simp
  | cons a l ih =>
    rw [List.flatMap_cons, List.flatMap_cons] at h
    obtain ⟨h1, h2⟩ := List.append_inj h (hl a)
    intro b hb
    rcases List.mem_cons.1 hb with rfl | hb
    · exact h1
    · exact ih h2 b hb

theorem imageRecorded_of {p p' : Img ℝ} {q : List ℝ} {g o : ℝ} (h : Recorded g o p.pixels q)
    (hi : ImageOf p q p') : ImageRecorded g o p p' := by
  obtain ⟨h1, h2, h3⟩ := hi
  obtain ⟨hg, rfl⟩ := h
  refine ⟨hg, h1, h2, fun y x hy hx => ?_⟩
  unfold Img.pixels at h3
  rw [h1, h2, List.map_flatMap] at h3
  have e := flatMap_eq_parts (by simp) h3 y (List.mem_range.2 hy)
  rw [List.map_map] at e
  exact (List.map_inj_left.1 e) x (List.mem_range.2 hx)

theorem forall₂_images {chunk chunk' : List (Img ℝ)} {qs : List (List ℝ)}
    (h : List.Forall₂ (fun p p' => ∃ g o, Recorded g o p p') (chunk.map Img.pixels) qs)
    (hi : List.Forall₂ (fun (pq : Img ℝ × List ℝ) p' => ImageOf pq.1 pq.2 p')
      (chunk.zip qs) chunk') :
    List.Forall₂ (fun p p' => ∃ g o, ImageRecorded g o p p') chunk chunk' := by
  induction chunk generalizing qs chunk' with
  | nil => cases hi; exact .nil
  | cons p chunk ih =>
    cases h with
    | cons h1 h2 =>
      rw [List.zip_cons_cons] at hi
      cases hi with
      | cons i1 i2 =>
        obtain ⟨g, o, r⟩ := h1
        exact .cons ⟨g, o, imageRecorded_of r i1⟩ (ih h2 i2)

/-- The patterns of `images'` are those of `images` after the steps. -/
def Spec.AfterSteps (dtype : DType) (steps : List IntensityStep) (images images' : List (Img ℝ)) :
    Prop :=
  ∃ qs, runIntensitySteps dtype steps (images.map Img.pixels) = .ok qs ∧
    List.Forall₂ (fun (pq : Img ℝ × List ℝ) p' => ImageOf pq.1 pq.2 p') (images.zip qs) images'

theorem afterSteps_recorded {steps : List IntensityStep} (hs : ∀ s ∈ steps, s.Sensible)
    {dtype : DType} {images images' : List (Img ℝ)} (hv : ∀ p ∈ images, Varied p.pixels)
    (h : AfterSteps dtype steps images images') :
    List.Forall₂ (fun p p' => ∃ g o, ImageRecorded g o p p') images images' := by
  obtain ⟨qs, e, hi⟩ := h
  exact forall₂_images (steps_recorded hs dtype (by simpa using hv) e) hi

/-- C142: the steps can be left out if the dynamic background is subtracted. -/
theorem C142_before_dynamic_background (nfl : ℕ → ℕ) (hnfl : ∀ n, n ≤ nfl n) (g : GaussianFilter)
    (d : DType) (omin omax : ℤ) (hd : dtypeRange d = some (omin, omax))
    (rows cols : ℕ) (hr : 0 < rows) (hc : 0 < cols) {steps : List IntensityStep}
    (hs : ∀ s ∈ steps, s.Sensible) {dtype : DType} {images images' : List (Img ℝ)}
    (hv : ∀ p ∈ images, Varied p.pixels) (h : AfterSteps dtype steps images images')
    (hp : ∀ p ∈ images, p.rows = rows ∧ p.cols = cols)
    (std : Option ℝ) (trunc : ℝ) (hsd : 0 < std.getD ((cols : ℝ) / 8))
    (hm : 1 ≤ trunc * std.getD ((cols : ℝ) / 8)) :
    ∃ outs outs',
      signalRemoveDynamicBackground nfl g d rows cols images "subtract" "frequency" std trunc =
        .ok outs ∧
      signalRemoveDynamicBackground nfl g d rows cols images' "subtract" "frequency" std trunc =
        .ok outs' ∧
      List.Forall₂ SamePattern outs outs' := by
  obtain ⟨outs, outs', h1, h2, h3⟩ := C119_dynamic nfl hnfl g d omin omax hd rows cols hr hc images
    images' hp "subtract" ((afterSteps_recorded hs hv h).imp fun _ _ ⟨g, o, r⟩ =>
      ⟨g, o, r, .inl rfl⟩) std trunc hsd hm
  refine ⟨outs, outs', h1, h2, h3.imp ?_⟩
  rintro q q' ⟨a, b, c, e, f⟩
  exact ⟨a.trans c.symm, b.trans e.symm, fun y x hy hx => (f y x (by omega) (by omega)).symm⟩

/-- C142: the steps can be left out if the patterns are filtered in the frequency or the spatial
domain. -/
theorem C142_before_filtering (nfl : ℕ → ℕ) (hnfl : ∀ n, n ≤ nfl n) (d : DType)
    (hd : dtypeRange d ≠ none) {rows cols : ℕ} {steps : List IntensityStep}
    (hs : ∀ s ∈ steps, s.Sensible) {dtype : DType} {images images' : List (Img ℝ)}
    (hv : ∀ p ∈ images, Varied p.pixels) (h : AfterSteps dtype steps images images')
    (hp : NonEmptyPatterns rows cols [images]) {t : Img ℝ} (functionDomain : String)
    (ht : functionDomain = "frequency" ∧ t.rows = rows ∧ t.cols = cols ∨
      functionDomain = "spatial" ∧ 0 < t.rows ∧ 0 < t.cols)
    (shift inplace lazyOutput : Bool) (hl : ¬ (lazyOutput ∧ inplace)) :
    ∃ out out', signalFftFilter nfl d [images] functionDomain shift t inplace lazyOutput = .ok out ∧
      signalFftFilter nfl d [images'] functionDomain shift t inplace lazyOutput = .ok out' ∧
      ChunkWise SamePattern out out' := by
  have r := afterSteps_recorded hs hv h
  have hp' : NonEmptyPatterns rows cols [images'] := by
    refine ⟨hp.1, hp.2.1, fun ps hps p' hp' => ?_⟩
    rw [List.mem_singleton] at hps
    subst hps
    obtain ⟨i, hi, rfl⟩ := List.getElem_of_mem hp'
    have hi' : i < images.length := by rw [r.length_eq]; exact hi
    obtain ⟨g, o, a⟩ := (List.forall₂_iff_get.1 r).2 i hi' hi
    have := hp.2.2 images (by simp) _ (List.getElem_mem hi')
    exact ⟨a.2.1.trans this.1, a.2.2.1.trans this.2⟩
  rcases ht with ⟨rfl, ht⟩ | ⟨rfl, ht⟩
  · exact C125_gain_offset_frequency nfl d hd hp (.cons r .nil) hp' ht shift inplace lazyOutput hl
  · exact C125_gain_offset_spatial nfl d hnfl hd hp (.cons r .nil) hp' ht shift inplace lazyOutput hl

theorem bin2d_recorded {k o : ℝ} {p p' : Img ℝ} (h : ImageRecorded k o p p') (f : ℕ) :
    ImageRecorded k (f * f * o) (bin2d p f) (bin2d p' f) := by
  obtain ⟨hk, h1, h2, h3⟩ := h
  obtain ⟨a1, a2, a3⟩ := C14_block_sums p f
  obtain ⟨b1, b2, b3⟩ := C14_block_sums p' f
  refine ⟨hk, by rw [b1, a1, h1], by rw [b2, a2, h2], fun y x hy hx => ?_⟩
  rw [a1] at hy
  rw [a2] at hx
  rw [a3 y x hy hx, b3 y x (by rw [h1]; exact hy) (by rw [h2]; exact hx), Finset.mul_sum]
  have inside : ∀ n i r : ℕ, i < f → r < n / f → r * f + i < n := by
    intro n i r hi hr
    have h1 : (r + 1) * f ≤ n / f * f := Nat.mul_le_mul_right f hr
    have h2 := Nat.div_mul_le_self n f
    rw [Nat.add_mul] at h1
    omega
  calc _ = ∑ i ∈ Finset.range f, (∑ j ∈ Finset.range f, k * p.val (y * f + i) (x * f + j) + f * o) := by
        refine Finset.sum_congr rfl fun i hi => ?_
        rw [Finset.sum_congr rfl fun j hj => h3 _ _ (inside _ _ _ (Finset.mem_range.1 hi) hy)
          (inside _ _ _ (Finset.mem_range.1 hj) hx), Finset.sum_add_distrib]
        simp
    _ = _ := by
        rw [Finset.sum_add_distrib]
        simp only [Finset.sum_const, Finset.card_range, nsmul_eq_mul, Finset.mul_sum]
        ring

theorem downsample2d_recorded {k o : ℝ} {p p' : Img ℝ} (h : ImageRecorded k o p p') (f : ℕ)
    (omin omax : ℝ) (d : DType) :
    SamePattern (downsample2d p f omin omax d) (downsample2d p' f omin omax d) := by
  have hb := bin2d_recorded h f
  refine ⟨hb.2.1.symm, hb.2.2.1.symm, fun r c hr hc => ?_⟩
  have hne : (bin2d p f).pixels ≠ [] := List.ne_nil_of_mem (mem_pixels.2 ⟨r, hr, c, hc, rfl⟩)
  have e := pixels_affine hb.2.1 hb.2.2.1 hb.2.2.2
  have hm : Monotone (fun x : ℝ => k * x + f * f * o) := (affine_strictMono _ hb.1).monotone
  change castTo d _ = castTo d _
  rw [e, listMin_monotone hm hne, listMax_monotone hm hne, hb.2.2.2 r c hr hc,
    rescalePixel_gain hb.1]

/-- C142: the steps can be left out if the patterns are downsampled to a given data type. -/
theorem C142_before_downsampling (s s' t : DsSignal ℝ) {steps : List IntensityStep}
    (hs : ∀ x ∈ steps, x.Sensible) (hv : ∀ p ∈ s.patterns, Varied p.pixels)
    (h : AfterSteps s.dtype steps s.patterns s'.patterns)
    (hsame : s' = { s with patterns := s'.patterns, dtype := s'.dtype }) (factor : ℤ) (d : DType)
    (ht : downsample s factor (some d) = .ok t) :
    ∃ t', downsample s' factor (some d) = .ok t' ∧ List.Forall₂ SamePattern t.patterns t'.patterns ∧
      t' = { t with patterns := t'.patterns } := by
  have r := afterSteps_recorded hs hv h
  have f1 : s'.rows = s.rows := by rw [hsame]
  have f2 : s'.cols = s.cols := by rw [hsame]
  have f3 : s'.staticBg = s.staticBg := by rw [hsame]
  have f4 : s'.detector = s.detector := by rw [hsame]
  unfold downsample at ht ⊢
  simp only [f1, f2, f3, f4, Option.getD_some] at ht ⊢
  split_ifs at ht with h1 h2
  rw [if_neg h1, if_neg (not_not.2 h2)]
  cases hd : dtypeRange d with
  | none => rw [hd] at ht; simp at ht
  | some rg =>
    rw [hd] at ht
    simp only [Except.ok.injEq] at ht
    subst ht
    refine ⟨_, rfl, ?_, rfl⟩
    simp only [List.forall₂_map_left_iff, List.forall₂_map_right_iff]
    exact r.imp fun p p' ⟨k, o, hr⟩ => downsample2d_recorded hr _ _ _ _

/-- C142: downsampling a floating point signal by one factor and then by another is downsampling it
by their product, patterns, shape and detector, if the blocks of no pattern all have the same sum; and
the product is accepted if and only if the factors are. -/
theorem C142_downsampling_twice (s : DsSignal ℝ) (bits : ℕ) (hd : s.dtype = .float bits)
    (a b : ℤ) (ha : 1 < a) (hb : 1 < b)
    (hv : ∀ p ∈ s.patterns, Varied (bin2d p (a * b).toNat).pixels) :
    ((∃ t u, downsample s a none = .ok t ∧ downsample t b none = .ok u) ↔
      ∃ w, downsample s (a * b) none = .ok w) ∧
    ∀ t u w, downsample s a none = .ok t → downsample t b none = .ok u →
      downsample s (a * b) none = .ok w →
      List.Forall₂ SamePattern u.patterns w.patterns ∧ u.rows = w.rows ∧ u.cols = w.cols ∧
        u.detector = w.detector ∧ u.dtype = w.dtype := by
  have hab : 1 < a * b := by nlinarith
  obtain ⟨m, rfl⟩ : ∃ m : ℕ, a = m := ⟨a.toNat, by omega⟩
  obtain ⟨n, rfl⟩ : ∃ n : ℕ, b = n := ⟨b.toNat, by omega⟩
  have hm : 1 < m := by exact_mod_cast ha
  have hn : 1 < n := by exact_mod_cast hb
  have emn : ((m : ℤ) * n).toNat = m * n := by rw [← Nat.cast_mul, Int.toNat_natCast]
  rw [emn] at hv
  have run : ∀ (s : DsSignal ℝ) (k : ℤ), 1 < k → s.dtype = .float bits →
      downsample s k none = if s.cols % k.toNat = 0 ∧ s.rows % k.toNat = 0 then
        .ok { dtype := .float bits, rows := s.rows / k.toNat, cols := s.cols / k.toNat,
              patterns := s.patterns.map (fun p => downsample2d p k.toNat (-1) 1 (.float bits)),
              staticBg := s.staticBg.map (fun p => downsample2d p k.toNat (-1) 1 (.float bits)),
              detector := { s.detector with nrows := s.rows / k.toNat, ncols := s.cols / k.toNat,
                                            binning := s.detector.binning * (k.toNat : ℝ) } }
        else .error .valueError := by
    intro s k hk hd
    unfold downsample
    rw [if_neg (not_le.2 hk)]
    simp only [hd, Option.getD_none, dtypeRange]
    by_cases h : s.cols % k.toNat = 0 ∧ s.rows % k.toNat = 0
    · rw [if_neg (not_not.2 h), if_pos h]
      simp
    · rw [if_pos h, if_neg h]
  have dv : ∀ x : ℕ, x % (m * n) = 0 ↔ x % m = 0 ∧ x / m % n = 0 := by
    intro x
    rw [← Nat.dvd_iff_mod_eq_zero, ← Nat.dvd_iff_mod_eq_zero, ← Nat.dvd_iff_mod_eq_zero]
    constructor
    · rintro ⟨q, rfl⟩
      refine ⟨⟨n * q, by ring⟩, ?_⟩
      rw [Nat.mul_assoc, Nat.mul_div_cancel_left _ (by omega)]
      exact ⟨q, rfl⟩
    · rintro ⟨⟨q, rfl⟩, h⟩
      rw [Nat.mul_div_cancel_left _ (by omega)] at h
      exact Nat.mul_dvd_mul_left m h
  have r1 := run s m ha hd
  have r2 := run s ((m : ℤ) * n) hab hd
  rw [emn] at r2
  simp only [Int.toNat_natCast] at r1
  constructor
  · constructor
    · rintro ⟨t, u, h1, h2⟩
      rw [r1] at h1
      split_ifs at h1 with c1
      rw [← Except.ok.inj h1, run _ _ hb rfl] at h2
      simp only [Int.toNat_natCast] at h2
      split_ifs at h2 with c2
      rw [r2, if_pos ⟨(dv _).2 ⟨c1.1, c2.1⟩, (dv _).2 ⟨c1.2, c2.2⟩⟩]
      exact ⟨_, rfl⟩
    · rintro ⟨w, h⟩
      rw [r2] at h
      split_ifs at h with c
      rw [dv, dv] at c
      rw [if_pos ⟨c.1.1, c.2.1⟩] at r1
      have r3 := run { s with
        dtype := .float bits, rows := s.rows / m, cols := s.cols / m,
        patterns := s.patterns.map (fun p => downsample2d p m (-1) 1 (.float bits)),
        staticBg := s.staticBg.map (fun p => downsample2d p m (-1) 1 (.float bits)),
        detector := { s.detector with nrows := s.rows / m, ncols := s.cols / m,
                                      binning := s.detector.binning * (m : ℝ) } } n hb rfl
      simp only [Int.toNat_natCast] at r3
      rw [if_pos ⟨c.1.2, c.2.2⟩] at r3
      exact ⟨_, _, r1, r3⟩
  · intro t u w h1 h2 h3
    rw [r1] at h1
    split_ifs at h1 with c1
    rw [← Except.ok.inj h1, run _ _ hb rfl] at h2
    simp only [Int.toNat_natCast] at h2
    split_ifs at h2 with c2
    rw [r2] at h3
    split_ifs at h3 with c3
    rw [← Except.ok.inj h2, ← Except.ok.inj h3]
    refine ⟨?_, Nat.div_div_eq_div_mul _ _ _, Nat.div_div_eq_div_mul _ _ _, ?_, rfl⟩
    · simp only [List.map_map, List.forall₂_map_left_iff, List.forall₂_map_right_iff]
      refine List.forall₂_same.2 fun p hp => ?_
      obtain ⟨x, hx, y, hy, hxy⟩ := hv p hp
      obtain ⟨i, hi, j, hj, rfl⟩ := mem_pixels.1 hx
      obtain ⟨i', hi', j', hj', rfl⟩ := mem_pixels.1 hy
      refine ⟨Nat.div_div_eq_div_mul _ _ _, Nat.div_div_eq_div_mul _ _ _, fun r c hr hc => ?_⟩
      have hr' : r < p.rows / (m * n) := by
        rw [← Nat.div_div_eq_div_mul]
        exact hr
      have hc' : c < p.cols / (m * n) := by
        rw [← Nat.div_div_eq_div_mul]
        exact hc
      exact C14_downsampling_composes p m n bits bits bits (-1) 1 (by norm_num) i j i' j' hi hj hi' hj'
        hxy r c hr' hc'
    · simp only [Nat.div_div_eq_div_mul]
      congr 1
      push_cast
      ring

/-! ### Filters one after the other -/

theorem stretched_recorded {bits : ℕ} {g q : Img ℝ} (h : StretchedTo (.float bits) g q)
    (hv : ∃ r c r' c', r < g.rows ∧ c < g.cols ∧ r' < g.rows ∧ c' < g.cols ∧
      g.val r c ≠ g.val r' c') : ∃ k o, ImageRecorded k o g q := by
  obtain ⟨h1, h2, lo, hi, rg, hrg, hlo, hhi, hval⟩ := h
  obtain rfl : rg = (-1, 1) := by simpa [dtypeRange] using hrg.symm
  have hlt : lo < hi := by
    obtain ⟨r, c, r', c', a, b, a', b', hne⟩ := hv
    have e1 := hlo.2 ⟨r, c, a, b, rfl⟩
    have e2 := hhi.2 ⟨r, c, a, b, rfl⟩
    have e3 := hlo.2 ⟨r', c', a', b', rfl⟩
    have e4 := hhi.2 ⟨r', c', a', b', rfl⟩
    rcases lt_or_gt_of_ne hne with h | h <;> linarith
  refine ⟨2 / (hi - lo), -1 - lo * (2 / (hi - lo)), div_pos two_pos (sub_pos.2 hlt), h1, h2,
    fun y x hy hx => ?_⟩
  rw [hval y x hy hx]
  unfold castTo
  push_cast
  ring

theorem filtered_varied {t p g : Img ℝ} {shift : Bool} (hr : 0 < p.rows) (hc : 0 < p.cols)
    (h : FrequencyFiltered t shift p g) (hk : KeepsSomething t shift p) :
    ∃ r c r' c', r < g.rows ∧ c < g.cols ∧ r' < g.rows ∧ c' < g.cols ∧ g.val r c ≠ g.val r' c' := by
  have n1 : NeZero p.rows := ⟨hr.ne'⟩
  have n2 : NeZero p.cols := ⟨hc.ne'⟩
  obtain ⟨h1, h2, h3⟩ := h
  obtain ⟨u, v, hz, hcomp, ht⟩ := hk
  by_contra hcon
  push Not at hcon
  have e : component g u v =
      component { rows := p.rows, cols := p.cols, val := fun _ _ => 0 * (0 : ℝ) + g.val 0 0 } u v := by
    unfold component
    rw [h1, h2]
    refine Finset.sum_congr rfl fun r hr' => Finset.sum_congr rfl fun c hc' => ?_
    rw [hcon r c 0 0 (by rw [h1]; exact Finset.mem_range.1 hr') (by rw [h2]; exact Finset.mem_range.1 hc')
      (by omega) (by omega)]
    simp
  rw [component_affine (sy := p.rows) (sx := p.cols) 0 (g.val 0 0) (fun _ _ => 0), component_one,
    if_neg, h3] at e
  · simp only [Complex.ofReal_zero, zero_mul, mul_zero, add_zero] at e
    rcases mul_eq_zero.1 e with e | e
    · exact ht (by have := Complex.ofReal_eq_zero.1 e; linarith)
    · exact hcomp e
  · rintro ⟨a, b⟩
    exact hz ⟨(ZMod.intCast_zmod_eq_zero_iff_dvd _ _).1 a, (ZMod.intCast_zmod_eq_zero_iff_dvd _ _).1 b⟩

theorem component_recorded {k o : ℝ} {p p' : Img ℝ} (h : ImageRecorded k o p p') (hr : 0 < p.rows)
    (hc : 0 < p.cols) (u v : ℤ) : component p' u v = k * component p u v +
      o * component { rows := p.rows, cols := p.cols, val := fun _ _ => 1 } u v := by
  have n1 : NeZero p.rows := ⟨hr.ne'⟩
  have n2 : NeZero p.cols := ⟨hc.ne'⟩
  have e : component p' u v = component
      { rows := p.rows, cols := p.cols, val := fun r c => k * p.val r c + o } u v := by
    unfold component
    rw [h.2.1, h.2.2.1]
    refine Finset.sum_congr rfl fun r hr => Finset.sum_congr rfl fun c hc => ?_
    rw [h.2.2.2 r c (Finset.mem_range.1 hr) (Finset.mem_range.1 hc)]
  rw [e, component_affine]

/-- C142: filtering a floating point signal in the frequency domain with one transfer function and
then with another is the same as filtering once with their product, if at least one of them has the
same coefficients for opposite frequencies and the first leaves some contrast in each pattern. -/
theorem C142_filters_compose (nfl : ℕ → ℕ) (bits : ℕ) {rows cols : ℕ}
    {chunks : List (List (Img ℝ))} (hp : NonEmptyPatterns rows cols chunks) {t t' : Img ℝ}
    (ht : t.rows = rows ∧ t.cols = cols) (ht' : t'.rows = rows ∧ t'.cols = cols) (shift : Bool)
    (hsym : CentrallySymmetric t shift ∨ CentrallySymmetric t' shift)
    (hk : ∀ ps ∈ chunks, ∀ p ∈ ps, KeepsSomething t shift p)
    (inplace lazyOutput : Bool) (hl : ¬ (lazyOutput ∧ inplace)) :
    ∃ mid twice once,
      signalFftFilter nfl (.float bits) chunks "frequency" shift t inplace lazyOutput = .ok mid ∧
      signalFftFilter nfl (.float bits) mid "frequency" shift t' inplace lazyOutput = .ok twice ∧
      signalFftFilter nfl (.float bits) chunks "frequency" shift
        ⟨rows, cols, fun r c => t.val r c * t'.val r c⟩ inplace lazyOutput = .ok once ∧
      ChunkWise SamePattern twice once := by
  have hd : dtypeRange (.float bits) ≠ none := by simp [dtypeRange]
  obtain ⟨mid, e1, h1⟩ := C125_frequency nfl (.float bits) hd hp ht shift inplace lazyOutput hl
  have hpm : NonEmptyPatterns rows cols mid := by
    refine ⟨hp.1, hp.2.1, fun qs hqs q hq => ?_⟩
    obtain ⟨i, hi, rfl⟩ := List.getElem_of_mem hqs
    have hi' : i < chunks.length := by rw [h1.length_eq]; exact hi
    have r := (List.forall₂_iff_get.1 h1).2 i hi' hi
    obtain ⟨j, hj, rfl⟩ := List.getElem_of_mem hq
    have hj' : j < chunks[i].length := by
      have := r.length_eq
      simp only [List.get_eq_getElem] at this
      omega
    obtain ⟨g, hg, hs⟩ := (List.forall₂_iff_get.1 r).2 j hj' hj
    have := hp.2.2 _ (List.getElem_mem hi') _ (List.getElem_mem hj')
    exact ⟨hs.1.trans (hg.1.trans this.1), hs.2.1.trans (hg.2.1.trans this.2)⟩
  obtain ⟨twice, e2, h2⟩ := C125_frequency nfl (.float bits) hd hpm ht' shift inplace lazyOutput hl
  obtain ⟨once, e3, h3⟩ := C125_frequency nfl (.float bits) hd hp
    (t := ⟨rows, cols, fun r c => t.val r c * t'.val r c⟩) ⟨rfl, rfl⟩ shift inplace lazyOutput hl
  refine ⟨mid, twice, once, e1, e2, e3, ?_⟩
  have h3' : ChunkWise (fun q p => SamePattern p q) once twice := by
    refine chunkWise_out h1 h3 h2 ?_
    rintro p m q2 q1 ⟨ps, hps, hmem⟩ ⟨g, hg, hs⟩ ⟨g1, hg1, hs1⟩ ⟨g2, hg2, hs2⟩
    obtain ⟨hpr, hpc⟩ := hp.2.2 ps hps p hmem
    have pr : 0 < p.rows := by rw [hpr]; exact hp.1
    have pc : 0 < p.cols := by rw [hpc]; exact hp.2.1
    have n1 : NeZero p.rows := ⟨pr.ne'⟩
    have n2 : NeZero p.cols := ⟨pc.ne'⟩
    obtain ⟨k, o, hrec⟩ := stretched_recorded hs (filtered_varied pr pc hg (hk ps hps p hmem))
    have key : ImageRecorded k (o * transferAt t' shift 0 0) g1 g2 := by
      refine filtered_affine pr pc (hrec.2.1.trans hg.1) (hrec.2.2.1.trans hg.2.1) hrec.1 hg1 hg2
        fun u v => ?_
      have eT : ∀ u v : ℤ, transferAt ⟨rows, cols, fun r c => t.val r c * t'.val r c⟩ shift u v =
          transferAt t shift u v * transferAt t' shift u v := by
        intro u v
        unfold transferAt
        rw [ht.1, ht.2, ht'.1, ht'.2]
      rw [component_recorded hrec (by rw [hg.1]; exact pr) (by rw [hg.2.1]; exact pc), hg.2.2, eT, eT,
        hg.1, hg.2.1, component_one]
      have hprod : transferAt t shift u v * transferAt t' shift u v +
            transferAt t shift (-u) (-v) * transferAt t' shift (-u) (-v) =
          (transferAt t shift u v + transferAt t shift (-u) (-v)) *
            (transferAt t' shift u v + transferAt t' shift (-u) (-v)) / 2 := by
        rcases hsym with h | h
        · rw [← h u v]; ring
        · rw [← h u v]; ring
      rw [hprod]
      split_ifs with h0
      · have t1 := transferAt_of_zero (t := t') (rows := p.rows) (cols := p.cols)
          ⟨by rw [ht'.1, hpr], by rw [ht'.2, hpc]⟩ shift h0.1 h0.2
        have t2 := transferAt_of_zero (t := t') (rows := p.rows) (cols := p.cols)
          ⟨by rw [ht'.1, hpr], by rw [ht'.2, hpc]⟩ shift
          (u := -u) (v := -v) (by push_cast; rw [h0.1, neg_zero]) (by push_cast; rw [h0.2, neg_zero])
        rw [t1, t2]
        push_cast
        ring
      · push_cast
        ring
    have := StretchedTo_same key hs1 hs2
    exact ⟨this.1.symm, this.2.1.symm, fun r c hr hc =>
      (this.2.2 r c (by rw [this.1]; exact hr) (by rw [this.2.1]; exact hc)).symm⟩
  exact List.Forall₂.flip (h3'.imp fun _ _ h => List.Forall₂.flip h)

/-- C142: so the order of two such filters does not matter. -/
theorem C142_filters_commute (nfl : ℕ → ℕ) (bits : ℕ) {rows cols : ℕ}
    {chunks : List (List (Img ℝ))} (hp : NonEmptyPatterns rows cols chunks) {t t' : Img ℝ}
    (ht : t.rows = rows ∧ t.cols = cols) (ht' : t'.rows = rows ∧ t'.cols = cols) (shift : Bool)
    (hsym : CentrallySymmetric t shift ∨ CentrallySymmetric t' shift)
    (hk : ∀ ps ∈ chunks, ∀ p ∈ ps, KeepsSomething t shift p ∧ KeepsSomething t' shift p)
    (inplace lazyOutput : Bool) (hl : ¬ (lazyOutput ∧ inplace)) :
    ∃ a ab b ba,
      signalFftFilter nfl (.float bits) chunks "frequency" shift t inplace lazyOutput = .ok a ∧
      signalFftFilter nfl (.float bits) a "frequency" shift t' inplace lazyOutput = .ok ab ∧
      signalFftFilter nfl (.float bits) chunks "frequency" shift t' inplace lazyOutput = .ok b ∧
      signalFftFilter nfl (.float bits) b "frequency" shift t inplace lazyOutput = .ok ba ∧
      ChunkWise SamePattern ab ba := by
  obtain ⟨a, ab, x, e1, e2, e3, h1⟩ := C142_filters_compose nfl bits hp ht ht' shift hsym
    (fun ps hps p hp => (hk ps hps p hp).1) inplace lazyOutput hl
  obtain ⟨b, ba, y, e4, e5, e6, h2⟩ := C142_filters_compose nfl bits hp ht' ht shift hsym.symm
    (fun ps hps p hp => (hk ps hps p hp).2) inplace lazyOutput hl
  have hc : (⟨rows, cols, fun r c => t'.val r c * t.val r c⟩ : Img ℝ) =
      ⟨rows, cols, fun r c => t.val r c * t'.val r c⟩ := by
    congr 1
    funext r c
    ring
  rw [hc, e3] at e6
  cases e6
  refine ⟨a, ab, b, ba, e1, e2, e4, e5, ?_⟩
  refine chunkWise_out (chunkWise_self (R := Eq) (fun _ => rfl) x) (a' := ab) (b' := ba)
    (R1 := fun q p => SamePattern p q) (R2 := fun q p => SamePattern p q)
    (List.Forall₂.flip (h1.imp fun _ _ h => List.Forall₂.flip h))
    (List.Forall₂.flip (h2.imp fun _ _ h => List.Forall₂.flip h)) ?_
  rintro p _ q q' - rfl ⟨a1, a2, a3⟩ ⟨b1, b2, b3⟩
  exact ⟨a1.trans b1.symm, a2.trans b2.symm, fun r c hr hc =>
    (a3 r c hr hc).trans (b3 r c (by omega) (by omega)).symm⟩

/-! ### Limits -/

/-- Steps to integers can not be left out, since they round. -/
theorem C142_integers_matter :
    ((signalRescaleIntensity (K := ℚ) [[0, 1, 2]] (.float 32) false none none (some (.uint 8))
        none).toOption.bind fun qs =>
      (signalRescaleIntensity qs (.uint 8) false none none (some (.float 32)) none).toOption) =
      some [[-1, -1 / 255, 1]] ∧
    (signalRescaleIntensity (K := ℚ) [[0, 1, 2]] (.float 32) false none none (some (.float 32))
        none).toOption = some [[-1, 0, 1]] := by
  decide +kernel

/-- Rescaling each pattern can not be left out before rescaling relative to the whole signal. -/
theorem C142_relative_matters :
    ((signalRescaleIntensity (K := ℚ) [[0, 1], [0, 2]] (.float 32) false none none none
        none).toOption.bind fun qs =>
      (signalRescaleIntensity qs (.float 32) true none none none none).toOption) =
      some [[-1, 1], [-1, 1]] ∧
    (signalRescaleIntensity (K := ℚ) [[0, 1], [0, 2]] (.float 32) true none none none
        none).toOption = some [[-1, 0], [-1, 1]] := by
  decide +kernel

/-! ### Examples -/

/-- Three steps. -/
noncomputable def threeSteps : List IntensityStep :=
  [.rescale true (some (0, 255)) 64, .normalize 3 true 32, .rescale false none 32]

theorem threeSteps_sensible : ∀ s ∈ threeSteps, s.Sensible := by
  intro s hs
  simp only [threeSteps, List.mem_cons, List.not_mem_nil, or_false] at hs
  rcases hs with rfl | rfl | rfl
  · intro r hr
    cases hr
    norm_num
  · change (0 : ℝ) < 3
    norm_num
  · intro r hr
    cases hr

/-- Two patterns with different contrast, recorded as integers. -/
theorem twoPatterns_varied : ∀ p ∈ [[1, 2, 4], [0, 9, (3 : ℝ)]], Varied p := by
  intro p hp
  simp only [List.mem_cons, List.not_mem_nil, or_false] at hp
  rcases hp with rfl | rfl
  · exact ⟨1, by simp, 2, by simp, by norm_num⟩
  · exact ⟨0, by simp, 9, by simp, by norm_num⟩

example : ∃ ps', runIntensitySteps (.uint 8) threeSteps [[1, 2, 4], [0, 9, 3]] = .ok ps' ∧
    signalNormalizeIntensity ps' (.float 32) 1 false none =
      signalNormalizeIntensity [[1, 2, 4], [0, 9, 3]] (.float 32) 1 false none := by
  obtain ⟨ps', h, -, -⟩ := C142_steps threeSteps threeSteps_sensible (.uint 8) twoPatterns_varied
  exact ⟨ps', h, C142_before_normalizing threeSteps_sensible (.uint 8) twoPatterns_varied h _ _ _ _⟩

/-- Images of two rows and two columns after steps. -/
example : ∃ images', AfterSteps (.uint 8) threeSteps [⟨2, 2, fun r c => r + 2 * c⟩] images' ∧
    ∃ out out', signalFftFilter id (.uint 8) [[⟨2, 2, fun r c => (r + 2 * c : ℝ)⟩]] "frequency" true
        ⟨2, 2, fun r c => r + c⟩ false false = .ok out ∧
      signalFftFilter id (.uint 8) [images'] "frequency" true
        ⟨2, 2, fun r c => r + c⟩ false false = .ok out' ∧
      ChunkWise SamePattern out out' := by
  set p : Img ℝ := ⟨2, 2, fun r c => r + 2 * c⟩ with hpdef
  have hpix : p.pixels = [0, 2, 1, 3] := by
    simp [Img.pixels, hpdef, List.range_succ]
    norm_num
  have hv : ∀ q ∈ [p], Varied q.pixels := by
    intro q hq
    rw [List.mem_singleton.1 hq, hpix]
    exact ⟨0, by simp, 2, by simp, by norm_num⟩
  obtain ⟨qs, h, r, -⟩ := C142_steps threeSteps threeSteps_sensible (.uint 8)
    (ps := [p].map Img.pixels) (by simpa using hv)
  rw [List.map_cons, List.map_nil] at r
  obtain ⟨q, rfl, g, o, hr⟩ : ∃ q, qs = [q] ∧ ∃ g o, Recorded g o p.pixels q := by
    cases r with
    | cons a b =>
      cases b
      exact ⟨_, rfl, a⟩
  have ha : AfterSteps (.uint 8) threeSteps [p] [⟨2, 2, fun r c => g * p.val r c + o⟩] := by
    refine ⟨[q], h, .cons ⟨rfl, rfl, ?_⟩ .nil⟩
    dsimp only
    rw [hr.2]
    exact pixels_affine rfl rfl fun _ _ _ _ => rfl
  refine ⟨_, ha, ?_⟩
  refine C142_before_filtering id (fun _ => le_rfl) (.uint 8) (by simp [dtypeRange])
    (rows := 2) (cols := 2) threeSteps_sensible hv ha ⟨by norm_num, by norm_num, ?_⟩ "frequency"
    (.inl ⟨rfl, rfl, rfl⟩) true false false (by simp)
  intro ps hps q hq
  rw [List.mem_singleton.1 hps] at hq
  rw [List.mem_singleton.1 hq]
  exact ⟨rfl, rfl⟩

/-- Every transfer function of two rows and columns is symmetric. -/
theorem symmetric_two (f : ℕ → ℕ → ℝ) (shift : Bool) : CentrallySymmetric ⟨2, 2, f⟩ shift := by
  intro u v
  have h : ∀ u : ℤ, frequencyIndex 2 shift (-u) = frequencyIndex 2 shift u := by
    intro u
    unfold frequencyIndex
    cases shift
    · simp
    · simp only [if_true]
      omega
  unfold transferAt
  simp only [h]

theorem keeps_two {f : ℕ → ℕ → ℝ} {shift : Bool} {p : Img ℝ} (hr : p.rows = 2) (hc : p.cols = 2)
    (hf : transferAt ⟨2, 2, f⟩ shift 0 1 ≠ 0)
    (hp : p.val 0 0 + p.val 1 0 ≠ p.val 0 1 + p.val 1 1) : KeepsSomething ⟨2, 2, f⟩ shift p := by
  refine ⟨0, 1, ?_, ?_, ?_⟩
  · rw [hr, hc]
    norm_num
  · unfold component
    rw [hr, hc]
    have e : Complex.exp (-(2 * Real.pi * Complex.I) * (1 / 2)) = -1 := by
      rw [show -(2 * (Real.pi : ℂ) * Complex.I) * (1 / 2) = -(Real.pi * Complex.I) by ring,
        Complex.exp_neg, Complex.exp_pi_mul_I]
      norm_num
    simp only [Finset.sum_range_succ, Finset.sum_range_zero, Int.cast_zero, Int.cast_one,
      Nat.cast_zero, Nat.cast_one, Nat.cast_ofNat, zero_mul, zero_div, mul_zero, zero_add, one_mul,
      Complex.exp_zero, mul_one, e]
    intro h
    apply hp
    have : ((p.val 0 0 + p.val 1 0 : ℝ) : ℂ) = ((p.val 0 1 + p.val 1 1 : ℝ) : ℂ) := by
      push_cast
      linear_combination h
    exact_mod_cast this
  · have := symmetric_two f shift 0 1
    rw [← this]
    intro h
    exact hf (by linarith)

example : NonEmptyPatterns 2 2 twoChunks ∧
    ∃ a ab b ba,
      signalFftFilter id (.float 32) twoChunks "frequency" false ⟨2, 2, fun r c => r + 2 * c⟩ true
        false = .ok a ∧
      signalFftFilter id (.float 32) a "frequency" false ⟨2, 2, fun r c => 1 + r * c⟩ true
        false = .ok ab ∧
      signalFftFilter id (.float 32) twoChunks "frequency" false ⟨2, 2, fun r c => 1 + r * c⟩ true
        false = .ok b ∧
      signalFftFilter id (.float 32) b "frequency" false ⟨2, 2, fun r c => r + 2 * c⟩ true
        false = .ok ba ∧
      ChunkWise SamePattern ab ba := by
  have hp : NonEmptyPatterns 2 2 twoChunks := by
    refine ⟨by norm_num, by norm_num, fun ps hps p hp => ?_⟩
    simp only [twoChunks, List.mem_cons, List.not_mem_nil, or_false] at hps
    rcases hps with rfl | rfl <;>
      simp only [List.mem_cons, List.not_mem_nil, or_false] at hp
    · rcases hp with rfl | rfl <;> exact ⟨rfl, rfl⟩
    · rw [hp]; exact ⟨rfl, rfl⟩
  refine ⟨hp, C142_filters_commute id 32 hp ⟨rfl, rfl⟩ ⟨rfl, rfl⟩ false
    (.inl (symmetric_two _ _)) (fun ps hps p hmem => ?_) true false (by simp)⟩
  have hsh := hp.2.2 ps hps p hmem
  have hval : p.val 0 0 + p.val 1 0 ≠ p.val 0 1 + p.val 1 1 := by
    simp only [twoChunks, List.mem_cons, List.not_mem_nil, or_false] at hps
    rcases hps with rfl | rfl <;>
      simp only [List.mem_cons, List.not_mem_nil, or_false] at hmem
    · rcases hmem with rfl | rfl <;> norm_num
    · rw [hmem]; norm_num
  exact ⟨keeps_two hsh.1 hsh.2 (by simp [transferAt, frequencyIndex]) hval,
    keeps_two hsh.1 hsh.2 (by simp [transferAt, frequencyIndex]) hval⟩

/-- A signal with a pattern getting brighter to the right, downsampled twice. -/
example : ∃ t u w : DsSignal ℝ,
    downsample ⟨.float 32, 4, 8, [⟨4, 8, fun _ c => (c : ℝ)⟩], none,
      ⟨4, 8, 1, 1, 0, 0, 0, 70, [1], [⟨1 / 2, 1 / 2, 1⟩]⟩⟩ 2 none = .ok t ∧
    downsample t 2 none = .ok u ∧
    downsample ⟨.float 32, 4, 8, [⟨4, 8, fun _ c => (c : ℝ)⟩], none,
      ⟨4, 8, 1, 1, 0, 0, 0, 70, [1], [⟨1 / 2, 1 / 2, 1⟩]⟩⟩ 4 none = .ok w ∧
    List.Forall₂ SamePattern u.patterns w.patterns ∧ u.detector = w.detector := by
  have hv : ∀ p ∈ [(⟨4, 8, fun _ c => (c : ℝ)⟩ : Img ℝ)], Varied (bin2d p ((2 : ℤ) * 2).toNat).pixels := by
    intro p hp
    rw [List.mem_singleton.1 hp]
    refine ⟨_, mem_pixels.2 ⟨0, by decide, 0, by decide, rfl⟩, _,
      mem_pixels.2 ⟨0, by decide, 1, by decide, rfl⟩, ?_⟩
    rw [(C14_block_sums _ _).2.2 _ _ (by decide) (by decide),
      (C14_block_sums _ _).2.2 _ _ (by decide) (by decide)]
    simp [Finset.sum_range_succ]
    norm_num
  obtain ⟨h1, h2⟩ := C142_downsampling_twice ⟨.float 32, 4, 8, [⟨4, 8, fun _ c => (c : ℝ)⟩], none,
    ⟨4, 8, 1, 1, 0, 0, 0, 70, [1], [⟨1 / 2, 1 / 2, 1⟩]⟩⟩ 32 rfl 2 2 (by norm_num) (by norm_num) hv
  obtain ⟨w, hw⟩ : ∃ w, downsample (⟨.float 32, 4, 8, [⟨4, 8, fun _ c => (c : ℝ)⟩], none,
      ⟨4, 8, 1, 1, 0, 0, 0, 70, [1], [⟨1 / 2, 1 / 2, 1⟩]⟩⟩ : DsSignal ℝ) (2 * 2) none = .ok w :=
    ⟨_, rfl⟩
  obtain ⟨t, u, ht, hu⟩ := h1.2 ⟨w, hw⟩
  obtain ⟨a, -, -, b, -⟩ := h2 t u w ht hu hw
  exact ⟨t, u, w, ht, hu, hw, a, b⟩

end Kp
