import Verif.Model.SelfIndexing
import Verif.Spec.SelfIndexing
import Verif.Props.IndexingCalls
import Verif.Props.Normalize
import Verif.Props.CropSimulation
import Verif.Props.NanScores

/-
C118: indexing patterns with a dictionary which has them.
-/

namespace Kp
open Spec
noncomputable section

/-- The positions of the pixels used. -/
def usedPixels (mask : Option BoolArray) (n : ℕ) : List ℕ :=
  match mask with
  | none => List.range n
  | some m => (List.range n).filter (fun k => m.data[k]? = some false)

theorem mem_usedPixels {mask : Option BoolArray} {n k : ℕ} :
    k ∈ usedPixels mask n ↔ k < n ∧ Used mask k := by
  unfold usedPixels Used
  cases mask with
  | none => simp
  | some m => simp

theorem unmaskedPixels_eq (mask : Option BoolArray) (a : List ℝ) :
    unmaskedPixels mask a = (usedPixels mask a.length).map (fun k => a.getD k 0) := by
  unfold unmaskedPixels usedPixels
  cases mask with
  | none => exact (map_range_getD a 0).symm
  | some m =>
    simp only
    have h : a.zipIdx = (List.range a.length).map (fun k => (a.getD k 0, k)) := by
      apply List.ext_getElem
      · simp
      · intro i h1 h2
        simp at h1
        simp [h1]
    rw [h, List.filter_map, List.map_map]
    rfl

theorem unmasked_length {mask : Option BoolArray} {a b : List ℝ} (h : a.length = b.length) :
    (unmaskedPixels mask a).length = (unmaskedPixels mask b).length := by
  rw [unmaskedPixels_eq, unmaskedPixels_eq, h]
  simp

/-- A statement about the kept pixels is one about the pixels used. -/
theorem kept_iff {mask : Option BoolArray} {a b : List ℝ} (h : a.length = b.length)
    (P : ℝ → ℝ → Prop) :
    (∀ i : Fin (unmaskedPixels mask a).length,
        P ((unmaskedPixels mask a).getD i 0) ((unmaskedPixels mask b).getD i 0)) ↔
      ∀ k x y, Used mask k → a[k]? = some x → b[k]? = some y → P x y := by
  have hx : ∀ (p : List ℝ) (i : ℕ) (hi : i < (usedPixels mask a.length).length),
      p.length = a.length → (unmaskedPixels mask p).getD i 0 =
        p.getD ((usedPixels mask a.length)[i]) 0 := by
    intro p i hi hp
    rw [unmaskedPixels_eq, hp, List.getD_eq_getElem?_getD, List.getElem?_map,
      List.getElem?_eq_getElem hi]
    rfl
  have hlen : (unmaskedPixels mask a).length = (usedPixels mask a.length).length := by
    rw [unmaskedPixels_eq, List.length_map]
  constructor
  · intro hall k x y hk hxk hyk
    have hka : k < a.length := (List.getElem?_eq_some_iff.1 hxk).1
    obtain ⟨i, hi, hik⟩ := List.getElem_of_mem (mem_usedPixels.2 ⟨hka, hk⟩)
    have := hall ⟨i, by rw [hlen]; exact hi⟩
    rw [hx a i hi rfl, hx b i hi h.symm, hik, List.getD_eq_getElem?_getD, hxk,
      List.getD_eq_getElem?_getD, hyk] at this
    exact this
  · intro hall i
    have hi : (i : ℕ) < (usedPixels mask a.length).length := by rw [← hlen]; exact i.2
    obtain ⟨hlt, hu⟩ := mem_usedPixels.1 (List.getElem_mem hi)
    rw [hx a i hi rfl, hx b i hi h.symm]
    refine hall _ _ _ hu ?_ ?_
    · rw [List.getD_eq_getElem?_getD, List.getElem?_eq_getElem hlt]; rfl
    · rw [List.getD_eq_getElem?_getD, List.getElem?_eq_getElem (h ▸ hlt)]; rfl

theorem nonConst_of_contrast {mask : Option BoolArray} {a : List ℝ} (h : ShowsContrast mask a)
    {n : ℕ} (hn : n = (unmaskedPixels mask a).length) :
    NonConst (maskPattern (ι := Fin n) (fun _ => false)
      (fun i => (unmaskedPixels mask a).getD i 0)) := by
  subst hn
  obtain ⟨k, l, x, y, hk, hl, hx, hy, hxy⟩ := h
  by_contra hc
  unfold NonConst at hc
  push Not at hc
  by_cases h0 : 0 < (unmaskedPixels mask a).length
  · have hall := (kept_iff (mask := mask) (a := a) (b := a) rfl
      (fun u _ => u = (unmaskedPixels mask a).getD 0 0)).1
      (fun i => hc ⟨i, rfl⟩ ⟨⟨0, h0⟩, rfl⟩)
    exact hxy ((hall k x x hk hx hx).trans (hall l y y hl hy hy).symm)
  · have hall := (kept_iff (mask := mask) (a := a) (b := a) rfl (fun _ _ => False)).1
      (fun i => absurd (Nat.lt_of_le_of_lt (Nat.zero_le _) i.2) h0)
    exact hall k x x hk hx hx

/-- The NCC of the kept pixels of two patterns with contrast is at most 1, and 1 exactly if the
patterns are the same up to gain and offset. -/
theorem nccOf_spec {mask : Option BoolArray} {a b : List ℝ} (h : a.length = b.length)
    (ha : ShowsContrast mask a) (hb : ShowsContrast mask b) :
    nccOf (unmaskedPixels mask a) (unmaskedPixels mask b) ≤ 1 ∧
    (nccOf (unmaskedPixels mask a) (unmaskedPixels mask b) = 1 ↔ SameUpTo mask a b) := by
  have h1 := nonConst_of_contrast ha rfl
  have h2 := nonConst_of_contrast hb (n := (unmaskedPixels mask a).length) (unmasked_length h)
  refine ⟨(C24_ncc_bounds _ _ _ h1 h2).2, ?_⟩
  unfold nccOf
  rw [C24_ncc_eq_one_iff _ _ _ h1 h2]
  unfold SameUpTo
  simp only [true_imp_iff]
  exact exists_congr fun g => exists_congr fun o => and_congr_right fun _ =>
    kept_iff h (fun x y => y = g * x + o)

theorem intensity_kept {mask : Option BoolArray} {a : List ℝ} (h : ShowsIntensity mask a) {n : ℕ}
    (hn : n = (unmaskedPixels mask a).length) :
    ∃ i : Fin n, (fun _ => false) i = false ∧ (unmaskedPixels mask a).getD i 0 ≠ 0 := by
  subst hn
  obtain ⟨k, x, hk, hx, hx0⟩ := h
  by_contra hc
  push Not at hc
  have hall := (kept_iff (mask := mask) (a := a) (b := a) rfl (fun u _ => u = 0)).1
    (fun i => hc i rfl)
  exact hx0 (hall k x x hk hx hx)

/-- The NDP of the kept pixels of two patterns with intensity is at most 1, and 1 exactly if the
patterns are the same up to gain. -/
theorem ndpOf_spec {mask : Option BoolArray} {a b : List ℝ} (h : a.length = b.length)
    (ha : ShowsIntensity mask a) (hb : ShowsIntensity mask b) :
    ndpOf (unmaskedPixels mask a) (unmaskedPixels mask b) ≤ 1 ∧
    (ndpOf (unmaskedPixels mask a) (unmaskedPixels mask b) = 1 ↔ ScaledTo mask a b) := by
  have h1 := intensity_kept ha rfl
  have h2 := intensity_kept hb (n := (unmaskedPixels mask a).length) (unmasked_length h)
  refine ⟨(C24_ndp_bounds _ _ _ h1 h2).1.2, ?_⟩
  unfold ndpOf
  rw [(C24_ndp_scaling _ _ _ h1 h2).1]
  unfold ScaledTo
  simp only [true_imp_iff]
  exact exists_congr fun g => and_congr_right fun _ => kept_iff h (fun x y => y = g * x)

theorem sameUpTo_symm {mask : Option BoolArray} {a b : List ℝ} (h : SameUpTo mask a b) :
    SameUpTo mask b a := by
  obtain ⟨g, o, hg, h⟩ := h
  refine ⟨1 / g, -o / g, by positivity, fun k x y hk hx hy => ?_⟩
  rw [h k y x hk hy hx]
  field_simp
  ring

theorem scaledTo_symm {mask : Option BoolArray} {a b : List ℝ} (h : ScaledTo mask a b) :
    ScaledTo mask b a := by
  obtain ⟨g, hg, h⟩ := h
  refine ⟨1 / g, by positivity, fun k x y hk hx hy => ?_⟩
  rw [h k y x hk hy hx]
  field_simp

/-- If the similarity is at most 1, the first match has similarity 1 if any dictionary pattern has. -/
theorem first_match_one {R : Type} {argtopk argsort : List ℝ → List ℕ} (hf : IsArgsort argtopk)
    (hg : IsArgsort argsort) (allowed : List MatchType) (sim : List ℝ → List ℝ → ℝ) (r0 : R)
    (junk : ℕ → List ℝ × List ℕ) (c : IndexingCall ℝ R) (w : WellFormedCall c)
    (v : ValidArguments allowed c) (hk : 0 < c.keepN) :
    ∃ r rs, (dictionaryIndexingCall argtopk argsort 1 allowed sim r0 junk {} c).2 = .ok r ∧
      c.dictMap = some ([c.dictionary.length], rs) ∧ r.length = c.patterns.length ∧
      ∀ (i : ℕ) (p : List ℝ), c.patterns[i]? = some p → ∃ q, r[i]? = some q ∧
        (q.inData = true ↔ Used c.navMask i) ∧
        (q.inData = true →
          (∀ d ∈ c.dictionary, sim (unmaskedPixels c.sigMask p) (unmaskedPixels c.sigMask d) ≤ 1) →
          (∃ d ∈ c.dictionary, sim (unmaskedPixels c.sigMask p) (unmaskedPixels c.sigMask d) = 1) →
          ∃ k d R, c.dictionary[k]? = some d ∧ rs[k]? = some R ∧
            sim (unmaskedPixels c.sigMask p) (unmaskedPixels c.sigMask d) = 1 ∧
            q.scores.head? = some 1 ∧ q.indices.head? = some k ∧ q.rotations.head? = some R) := by
  obtain ⟨r, rs, h1, h2, h3, h4⟩ := C85_first_matches_partial hf hg allowed sim r0 junk c w v
  refine ⟨r, rs, h1, h2, h3, fun i p hp => ?_⟩
  obtain ⟨q, hq, hin, hres⟩ := h4 i p hp
  refine ⟨q, hq, hin, fun hd hle ⟨d0, hd0, hone⟩ => ?_⟩
  obtain ⟨hsl, hil, hrot, hbest⟩ := hres hd
  set S := c.dictionary.map (fun d =>
    sim (unmaskedPixels c.sigMask p) (unmaskedPixels c.sigMask d)) with hS
  have h1S : (1 : ℝ) ∈ S := List.mem_map.2 ⟨d0, hd0, hone⟩
  have hdl : 0 < c.dictionary.length := List.length_pos_of_mem hd0
  have hb := hbest 1 (by omega) (.inr (List.countP_pos_iff.2 ⟨1, h1S, by norm_num⟩))
  obtain ⟨s0, ss, hs0⟩ : ∃ s0 ss, q.scores = s0 :: ss := by
    cases hqs : q.scores with
    | nil => rw [hqs] at hsl; simp at hsl; omega
    | cons a l => exact ⟨a, l, rfl⟩
  obtain ⟨k, ks, hks⟩ : ∃ k ks, q.indices = k :: ks := by
    cases hqs : q.indices with
    | nil => rw [hqs] at hil; simp at hil; omega
    | cons a l => exact ⟨a, l, rfl⟩
  rw [hs0, hks] at hb
  simp only [List.zip_cons_cons, List.take_succ_cons, List.take_zero] at hb
  have hown := hb.own_score (s0, k) (by simp)
  simp only at hown
  have hs1 : s0 = 1 := by
    obtain ⟨j, hj⟩ := List.mem_iff_getElem?.1 h1S
    have hge : (1 : ℝ) ≤ s0 := by
      by_cases e : j = k
      · rw [e, hown] at hj
        exact (Option.some.inj hj).ge
      · exact hb.optimal j 1 hj (by simpa using e) (s0, k) (by simp)
    obtain ⟨d, hd, hds⟩ := List.mem_map.1 (List.mem_of_getElem? hown)
    exact le_antisymm (hds ▸ hle d hd) hge
  rw [hS, List.getElem?_map, Option.map_eq_some_iff] at hown
  obtain ⟨d, hdk, hds⟩ := hown
  rw [hks] at hrot
  obtain ⟨R, Rs, hR⟩ : ∃ R Rs, q.rotations = R :: Rs := by
    cases hqs : q.rotations with
    | nil => rw [hqs] at hrot; simp at hrot
    | cons a l => exact ⟨a, l, rfl⟩
  rw [hR] at hrot
  simp only [List.map_cons, List.cons.injEq] at hrot
  exact ⟨k, d, R, hdk, hrot.1.symm, hds.trans hs1, by rw [hs0, hs1]; rfl, by rw [hks]; rfl,
    by rw [hR]; rfl⟩

theorem call_lengths {R : Type} {allowed : List MatchType} {c : IndexingCall ℝ R}
    (w : WellFormedCall c) (v : ValidArguments allowed c) {p d : List ℝ} (hp : p ∈ c.patterns)
    (hd : d ∈ c.dictionary) : p.length = d.length := by
  rw [w.pixels p hp, w.dictPixels d hd, v.signalShapes]

/-- C118 (partial): if a pattern to be indexed is, in the pixels used, a dictionary pattern with
another gain and offset, its first match with the NCC has score 1, and the dictionary pattern of that
match is the pattern, up to gain and offset; the rotation is the one of that dictionary pattern.
This holds for every number of matches kept and of patterns per iteration. Missing (and false, see
C112): dictionaries with patterns without contrast. -/
theorem C118_ncc_partial {R : Type} {argtopk argsort : List ℝ → List ℕ} (hf : IsArgsort argtopk)
    (hg : IsArgsort argsort) (allowed : List MatchType) (r0 : R)
    (junk : ℕ → List ℝ × List ℕ) (c : IndexingCall ℝ R) (w : WellFormedCall c)
    (v : ValidArguments allowed c) (hk : 0 < c.keepN)
    (hcontrast : ∀ d ∈ c.dictionary, ShowsContrast c.sigMask d) :
    ∃ r rs, (dictionaryIndexingCall argtopk argsort 1 allowed nccOf r0 junk {} c).2 = .ok r ∧
      c.dictMap = some ([c.dictionary.length], rs) ∧
      ∀ (i : ℕ) (p : List ℝ), c.patterns[i]? = some p → Used c.navMask i →
        ShowsContrast c.sigMask p → (∃ d ∈ c.dictionary, SameUpTo c.sigMask d p) →
        ∃ q k d R, r[i]? = some q ∧ q.inData = true ∧ c.dictionary[k]? = some d ∧
          rs[k]? = some R ∧ SameUpTo c.sigMask d p ∧
          q.scores.head? = some 1 ∧ q.indices.head? = some k ∧ q.rotations.head? = some R := by
  obtain ⟨r, rs, h1, h2, -, h4⟩ := first_match_one hf hg allowed nccOf r0 junk c w v hk
  refine ⟨r, rs, h1, h2, fun i p hp hu hpc ⟨d0, hd0, hsame⟩ => ?_⟩
  obtain ⟨q, hq, hin, hres⟩ := h4 i p hp
  have hpm := List.mem_of_getElem? hp
  obtain ⟨k, d, R, hdk, hR, hone, hs, hi, hr⟩ := hres (hin.2 hu)
    (fun d hd => (nccOf_spec (call_lengths w v hpm hd) hpc (hcontrast d hd)).1)
    ⟨d0, hd0, (nccOf_spec (call_lengths w v hpm hd0) hpc (hcontrast d0 hd0)).2.2
      (sameUpTo_symm hsame)⟩
  have hd := List.mem_of_getElem? hdk
  exact ⟨q, k, d, R, hq, hin.2 hu, hdk, hR,
    sameUpTo_symm ((nccOf_spec (call_lengths w v hpm hd) hpc (hcontrast d hd)).2.1 hone), hs, hi, hr⟩

/-- C118 (partial), for the normalized dot product: up to gain only. Missing (and false, see C112):
dictionaries with patterns that are zero everywhere. -/
theorem C118_ndp_partial {R : Type} {argtopk argsort : List ℝ → List ℕ} (hf : IsArgsort argtopk)
    (hg : IsArgsort argsort) (allowed : List MatchType) (r0 : R)
    (junk : ℕ → List ℝ × List ℕ) (c : IndexingCall ℝ R) (w : WellFormedCall c)
    (v : ValidArguments allowed c) (hk : 0 < c.keepN)
    (hint : ∀ d ∈ c.dictionary, ShowsIntensity c.sigMask d) :
    ∃ r rs, (dictionaryIndexingCall argtopk argsort 1 allowed ndpOf r0 junk {} c).2 = .ok r ∧
      c.dictMap = some ([c.dictionary.length], rs) ∧
      ∀ (i : ℕ) (p : List ℝ), c.patterns[i]? = some p → Used c.navMask i →
        ShowsIntensity c.sigMask p → (∃ d ∈ c.dictionary, ScaledTo c.sigMask d p) →
        ∃ q k d R, r[i]? = some q ∧ q.inData = true ∧ c.dictionary[k]? = some d ∧
          rs[k]? = some R ∧ ScaledTo c.sigMask d p ∧
          q.scores.head? = some 1 ∧ q.indices.head? = some k ∧ q.rotations.head? = some R := by
  obtain ⟨r, rs, h1, h2, -, h4⟩ := first_match_one hf hg allowed ndpOf r0 junk c w v hk
  refine ⟨r, rs, h1, h2, fun i p hp hu hpc ⟨d0, hd0, hsame⟩ => ?_⟩
  obtain ⟨q, hq, hin, hres⟩ := h4 i p hp
  have hpm := List.mem_of_getElem? hp
  obtain ⟨k, d, R, hdk, hR, hone, hs, hi, hr⟩ := hres (hin.2 hu)
    (fun d hd => (ndpOf_spec (call_lengths w v hpm hd) hpc (hint d hd)).1)
    ⟨d0, hd0, (ndpOf_spec (call_lengths w v hpm hd0) hpc (hint d0 hd0)).2.2
      (scaledTo_symm hsame)⟩
  have hd := List.mem_of_getElem? hdk
  exact ⟨q, k, d, R, hq, hin.2 hu, hdk, hR,
    scaledTo_symm ((ndpOf_spec (call_lengths w v hpm hd) hpc (hint d hd)).2.1 hone), hs, hi, hr⟩

/-- So if no other dictionary pattern is the same up to gain and offset, the rotation of the
dictionary pattern is found. -/
theorem C118_rotation_partial {R : Type} {argtopk argsort : List ℝ → List ℕ}
    (hf : IsArgsort argtopk) (hg : IsArgsort argsort) (allowed : List MatchType) (r0 : R)
    (junk : ℕ → List ℝ × List ℕ) (c : IndexingCall ℝ R) (w : WellFormedCall c)
    (v : ValidArguments allowed c) (hk : 0 < c.keepN)
    (hcontrast : ∀ d ∈ c.dictionary, ShowsContrast c.sigMask d)
    (hdiff : ∀ (j k : ℕ) (d e : List ℝ), c.dictionary[j]? = some d → c.dictionary[k]? = some e →
      SameUpTo c.sigMask d e → j = k) :
    ∃ r rs, (dictionaryIndexingCall argtopk argsort 1 allowed nccOf r0 junk {} c).2 = .ok r ∧
      c.dictMap = some ([c.dictionary.length], rs) ∧
      ∀ (i j : ℕ) (p d : List ℝ), c.patterns[i]? = some p → Used c.navMask i →
        ShowsContrast c.sigMask p → c.dictionary[j]? = some d → SameUpTo c.sigMask d p →
        ∃ q, r[i]? = some q ∧ q.scores.head? = some 1 ∧ q.indices.head? = some j ∧
          q.rotations.head? = rs[j]? := by
  obtain ⟨r, rs, h1, h2, h3⟩ := C118_ncc_partial hf hg allowed r0 junk c w v hk hcontrast
  refine ⟨r, rs, h1, h2, fun i j p d hp hu hpc hd hs => ?_⟩
  obtain ⟨q, k, e, R, hq, -, he, hR, hse, hq1, hq2, hq3⟩ := h3 i p hp hu hpc
    ⟨d, List.mem_of_getElem? hd, hs⟩
  have hlen := (call_lengths w v (List.mem_of_getElem? hp) (List.mem_of_getElem? hd))
  have hjk : j = k := hdiff j k d e hd he (by
    obtain ⟨g, o, hg, h⟩ := hs
    obtain ⟨g', o', hg', h'⟩ := sameUpTo_symm hse
    refine ⟨g' * g, g' * o + o', mul_pos hg' hg, fun m x y hm hx hy => ?_⟩
    have hmp : m < p.length := by rw [hlen]; exact (List.getElem?_eq_some_iff.1 hx).1
    have hz := List.getElem?_eq_getElem hmp
    rw [h' m _ y hm hz hy, h m x _ hm hx hz]
    ring)
  subst hjk
  exact ⟨q, hq, hq1, hq2, by rw [hq3, hR]⟩

/-- C118 (partial), for simulated patterns: patterns simulated from a master pattern with a detector
with one PC, some of them with rotations of the dictionary, which was simulated with the same
detector: each of those gets score 1, and a rotation with which the pattern looks the same. -/
theorem C118_simulated_partial {argtopk argsort : List ℝ → List ℕ} (hf : IsArgsort argtopk)
    (hg : IsArgsort argsort) (allowed : List MatchType) (r0 : Quat)
    (junk : ℕ → List ℝ × List ℕ) (c : IndexingCall ℝ Quat) (w : WellFormedCall c)
    (v : ValidArguments allowed c) (hk : 0 < c.keepN)
    (hcontrast : ∀ d ∈ c.dictionary, ShowsContrast c.sigMask d)
    -- how the patterns and the dictionary were made
    (mp : MasterPattern) (hs : mp.checkSuitable = .ok ()) {d : Detector ℝ} (hnav : d.nav = [1])
    (hpc : d.pc.length = 1) {energy : Option ℝ} {upper lower : Img ℝ}
    (ha : mp.arraysFromEnergy energy = some (upper, lower)) {dtypeOut : DType} {lo hi : ℤ}
    (hrange : (if dtypeOut ≠ mp.dtype then dtypeRange dtypeOut else some (1, 2)) = some (lo, hi))
    {mapShape : List ℕ} (hm2 : mapShape.length ≤ 2) {mapRots dictRots : List Quat}
    (hmap : mapRots.length = mapShape.prod) {chunks chunks' : List ℕ}
    (hc : chunks.sum = mapRots.length) (hc' : chunks'.sum = dictRots.length)
    (hexp : mp.simulate mapShape mapRots d energy dtypeOut chunks =
      .ok (mapShape, c.patterns.map some))
    (hdict : mp.simulate [dictRots.length] dictRots d energy dtypeOut chunks' =
      .ok ([dictRots.length], c.dictionary.map some))
    (hrots : c.dictMap = some ([c.dictionary.length], dictRots)) :
    ∃ r, (dictionaryIndexingCall argtopk argsort 1 allowed nccOf r0 junk {} c).2 = .ok r ∧
      ∀ (i : ℕ) (rot : Quat), mapRots[i]? = some rot → rot ∈ dictRots → Used c.navMask i →
        ∃ (q : IndexedPoint ℝ Quat) (k : ℕ) (found : Quat) (p e : List ℝ),
          r[i]? = some q ∧ c.patterns[i]? = some p ∧ dictRots[k]? = some found ∧
          c.dictionary[k]? = some e ∧ SameUpTo c.sigMask e p ∧
          q.scores.head? = some 1 ∧ q.rotations.head? = some found := by
  obtain ⟨r, rs, h1, h2, h3⟩ := C118_ncc_partial hf hg allowed r0 junk c w v hk hcontrast
  have hrs : rs = dictRots := by
    rw [hrots] at h2
    simpa using h2.symm
  subst hrs
  refine ⟨r, h1, fun i rot hi hmem hu => ?_⟩
  obtain ⟨o1, ho1, hl1, hk1⟩ := C63_own_rotation_and_pc_partial mp hs hmap hm2 (d := d)
    (by rw [hpc, hnav]; rfl) (.inr hnav) d.sampleToDetector ha hrange hc
  obtain ⟨o2, ho2, hl2, hk2⟩ := C63_own_rotation_and_pc_partial mp hs
    (rotShape := [rs.length]) (rots := rs) (by simp) (by simp) (d := d)
    (by rw [hpc, hnav]; rfl) (.inr hnav) d.sampleToDetector ha hrange hc'
  unfold MasterPattern.simulate at hexp hdict
  rw [ho1] at hexp
  rw [ho2] at hdict
  have e1 : o1 = c.patterns.map some := by
    have := Except.ok.inj hexp
    simpa using this
  have e2 : o2 = c.dictionary.map some := by
    have := Except.ok.inj hdict
    simpa using this
  obtain ⟨j, hj⟩ := List.mem_iff_getElem?.1 hmem
  obtain ⟨pc1, hpc1, hv1⟩ := hk1 i rot hi
  obtain ⟨pc2, hpc2, hv2⟩ := hk2 j rot hj
  rw [if_pos hnav] at hpc1 hpc2
  rw [hpc1, Option.some.injEq] at hpc2
  subst hpc2
  rw [e1, List.getElem?_map, Option.map_eq_some_iff] at hv1
  rw [e2, List.getElem?_map, Option.map_eq_some_iff] at hv2
  obtain ⟨p, hp, hp'⟩ := hv1
  obtain ⟨e, he, he'⟩ := hv2
  have hpe : p = e := Option.some.inj (hp'.trans he'.symm)
  subst hpe
  have hem := List.mem_of_getElem? he
  obtain ⟨q, k, f, R, hq, -, hfk, hR, hsame, hq1, -, hq3⟩ := h3 i p hp hu (hcontrast p hem)
    ⟨p, hem, 1, 0, one_pos, fun m x y _ hx hy => by
      rw [hx, Option.some.injEq] at hy
      rw [← hy]; ring⟩
  exact ⟨q, k, R, p, f, hq, hp, hR, hfk, hsame, hq1, hq3⟩

/-- C118 is false for a dictionary with a pattern without contrast: that, or another such pattern, is
the first match, without a score, also of a pattern which is in the dictionary. -/
theorem C118_flat_pattern_violated {ι : Type*} [Fintype ι]
    {argtopk argsort : List (Option ℝ) → List ℕ} (hf : IsArgtopkNan argtopk) (mask : ι → Bool)
    (dictionary : List (ι → ℝ)) (flat : ι → ℝ) (hflat : flat ∈ dictionary)
    (hc : NoContrast mask flat) (p : ι → ℝ) (hp : ¬ NoContrast mask p) (_ : p ∈ dictionary)
    (keepN : ℕ) (hk : 0 < keepN) :
    nccNan mask p p = some 1 ∧
    ∃ i l d, dictionaryIndexingNan argtopk argsort 1 keepN dictionary.length
        (dictionary.map (nccNan mask p)) = (none, i) :: l ∧ dictionary[i]? = some d ∧
      NoContrast mask d := by
  refine ⟨?_, C112_dictionary_violated hf mask dictionary flat hflat hc p hp keepN hk⟩
  rw [(C112_ncc_missing mask p p).2 hp hp]
  have hn : NonConst (maskPattern mask p) := by
    by_contra h
    unfold NonConst at h
    push Not at h
    exact hp fun i j hi hj => h ⟨i, hi⟩ ⟨j, hj⟩
  rw [(C24_ncc_eq_one_iff mask p p hn hn).2 ⟨1, 0, one_pos, fun i _ => by ring⟩]

/-! ### The hypotheses are met -/

/-- Two patterns of 1 x 4 pixels, the last one masked out, and a dictionary of two. -/
def selfCall : IndexingCall ℝ ℕ where
  navShape := [2]
  sigShape := [1, 4]
  patterns := [[11, 13, 17, 0], [5, 5, 9, 1]]
  dictSigShape := [1, 4]
  dictionary := [[3, 1, 1, 1], [1, 2, 4, 8]]
  dictMap := some ([2], [70, 71])
  dictChunk := none
  metric := .named
  keepN := 1
  nPer := some 1
  navMask := none
  sigMask := some ⟨[1, 4], [false, false, false, true]⟩
  dtype := none

example : WellFormedCall selfCall where
  patterns := rfl
  pixels := by simp [selfCall]
  dictPixels := by simp [selfCall]
  dictMap := by rintro s rs h; cases h; rfl
  navMask := by rintro m h; cases h
  sigMask := by rintro m h; cases h; rfl
  nonempty := by simp [selfCall]
  perIteration := by simp [selfCall, perIteration]

example : ValidArguments [] selfCall where
  navMask := by rintro m h; cases h
  sigMask := by rintro m h; cases h; rfl
  signalShapes := rfl
  dictMap := ⟨_, rfl⟩
  metric := by simp [selfCall]
  dtype := .inl rfl

theorem used_of_lt (k : ℕ) (h : k < 3) : Used selfCall.sigMask k := by
  rintro m hm
  cases hm
  match k, h with
  | 0, _ => rfl
  | 1, _ => rfl
  | 2, _ => rfl

example : ∀ d ∈ selfCall.dictionary, ShowsContrast selfCall.sigMask d := by
  intro d hd
  simp only [selfCall, List.mem_cons, List.not_mem_nil, or_false] at hd
  rcases hd with rfl | rfl
  · exact ⟨0, 1, 3, 1, used_of_lt 0 (by decide), used_of_lt 1 (by decide), rfl, rfl, by norm_num⟩
  · exact ⟨0, 1, 1, 2, used_of_lt 0 (by decide), used_of_lt 1 (by decide), rfl, rfl, by norm_num⟩

example : SameUpTo selfCall.sigMask [1, 2, 4, 8] [11, 13, 17, 0] := by
  refine ⟨2, 9, by norm_num, fun k x y hk hx hy => ?_⟩
  have := hk _ rfl
  match k with
  | 0 => cases hx; cases hy; norm_num
  | 1 => cases hx; cases hy; norm_num
  | 2 => cases hx; cases hy; norm_num
  | 3 => simp at this
  | k + 4 => simp at hx

/-- Only one of the two dictionary patterns is. -/
example : ¬ SameUpTo selfCall.sigMask [3, 1, 1, 1] [11, 13, 17, 0] := by
  rintro ⟨g, o, hg, h⟩
  have h0 := h 0 3 11 (used_of_lt 0 (by decide)) rfl rfl
  have h1 := h 1 1 13 (used_of_lt 1 (by decide)) rfl rfl
  linarith

/-- A detector of two pixels, one above the other. -/
def twoPixels : Detector ℝ := ⟨2, 1, 1, 1, 0, 0, 0, 0, [1], [⟨1 / 2, 1 / 2, 1⟩]⟩

/-- The upper pixel sees the upper hemisphere, the lower pixel the lower one. -/
theorem simulate_twoPixels : hemisphereMaster.simulate [1] [⟨1, 0, 0, 0⟩] twoPixels none (.float 64)
    [1] = .ok ([1], [some [1, 2]]) := by
  have hm : ProperRotation twoPixels.sampleToDetector :=
    C08_sample_to_detector_is_proper_rotation _ _ _ _
  obtain ⟨out, ho, hl, hk⟩ := patterns_raw hemisphereMaster rfl (rotShape := [1])
    (rots := [⟨1, 0, 0, 0⟩]) (by simp) (d := twoPixels) rfl (.inl rfl) (.inl rfl) hm
    (by simp [twoPixels]) (energy := none) rfl
    (dtypeOut := .float 64) (lo := 1) (hi := 2) (by simp [hemisphereMaster]) (chunks := [1]) rfl
  obtain ⟨p', hp', w, hw, hwl, hwp⟩ := hk 0 _ rfl
  have hp : p' = ⟨1 / 2, 1 / 2, 1⟩ := by simpa [twoPixels] using hp'.symm
  subst hp
  have hmat : twoPixels.sampleToDetector = sampleToDetectorMatrix 0 0 0 0 := by
    unfold Detector.sampleToDetector degToRad twoPixels
    simp only [zero_mul]
  rw [hmat] at hwp
  obtain ⟨u0, ⟨s0, -, hus0, t0, ht0, hmt0⟩, hw0⟩ := hwp 0 0 (by decide) (by decide)
  obtain ⟨u1, ⟨s1, -, hus1, t1, ht1, hmt1⟩, hw1⟩ := hwp 1 0 (by decide) (by decide)
  rw [C08_zero_angles] at hmt0 hmt1
  rw [rotateVector_one] at hus0 hus1
  have z0 : 0 ≤ u0.z := by
    have h2 := congrArg V3.y hmt0
    simp only [V3.smul, gnomonic, twoPixels] at h2
    norm_num at h2
    rw [hus0, h2]
    linarith
  have z1 : ¬ 0 ≤ u1.z := by
    have h2 := congrArg V3.y hmt1
    simp only [V3.smul, gnomonic, twoPixels] at h2
    norm_num at h2
    rw [hus1, h2]
    linarith
  simp only [projectPixel, rotateVector_one, if_pos z0, masterPixel_const] at hw0
  simp only [projectPixel, rotateVector_one, if_neg z1, masterPixel_const] at hw1
  have hw2 : w = [1, 2] := by
    match w, hwl with
    | [a, b], _ =>
      simp only [twoPixels] at hw0 hw1
      simp at hw0 hw1
      rw [hw0, hw1]
  obtain ⟨o, hoo⟩ := List.length_eq_one_iff.1 hl
  rw [hoo] at hw
  simp only [List.getElem?_cons_zero, Option.some.injEq] at hw
  unfold MasterPattern.simulate
  rw [ho, hoo, hw, hw2]
  simp [finished, hemisphereMaster, castTo]

/-- A map of one pattern, and a dictionary with it. -/
example : ∃ c : IndexingCall ℝ Quat, WellFormedCall c ∧ ValidArguments [] c ∧ 0 < c.keepN ∧
    (∀ d ∈ c.dictionary, ShowsContrast c.sigMask d) ∧
    hemisphereMaster.checkSuitable = .ok () ∧ twoPixels.nav = [1] ∧ twoPixels.pc.length = 1 ∧
    hemisphereMaster.simulate [1] [⟨1, 0, 0, 0⟩] twoPixels none (.float 64) [1] =
      .ok ([1], c.patterns.map some) ∧
    hemisphereMaster.simulate [1] [⟨1, 0, 0, 0⟩] twoPixels none (.float 64) [1] =
      .ok ([1], c.dictionary.map some) ∧
    c.dictMap = some ([1], [⟨1, 0, 0, 0⟩]) := by
  refine ⟨⟨[1], [2, 1], [[1, 2]], [2, 1], [[1, 2]], some ([1], [⟨1, 0, 0, 0⟩]), none, .named, 1, none,
    none, none, none⟩, ⟨rfl, by simp, by simp, ?_, by simp, by simp, by simp, by simp [perIteration]⟩,
    ⟨by simp, by simp, rfl, ⟨_, rfl⟩, by simp, .inl rfl⟩, by simp, ?_, rfl, rfl, rfl,
    simulate_twoPixels, simulate_twoPixels, rfl⟩
  · rintro s rs h; cases h; rfl
  · intro d hd
    simp only [List.mem_cons, List.not_mem_nil, or_false] at hd
    subst hd
    exact ⟨0, 1, 1, 2, by simp [Used], by simp [Used], rfl, rfl, by norm_num⟩

end
end Kp
