import Verif.Spec.CropIndexing
import Verif.Props.GainOffset
import Verif.Props.CropSimulation

/-
C120: cropping the patterns and the dictionary is the same as masking out the pixels outside of the
crop.
-/

namespace Kp
open Spec

/-- The position in the whole pattern of pixel `k` of the crop. -/
def Spec.Window.position (r : Window) (k : ℕ) : ℕ := (k / r.w + r.t) * r.cols + (k % r.w + r.l)

theorem div_lt_of_lt_mul' {k h w : ℕ} (hk : k < h * w) : k / w < h :=
  Nat.div_lt_of_lt_mul (by rwa [Nat.mul_comm])

theorem mod_lt_of_lt_mul {k h w : ℕ} (hk : k < h * w) : k % w < w :=
  Nat.mod_lt _ (Nat.pos_of_ne_zero (by rintro rfl; simp at hk))

theorem position_lt {r : Window} (hr : r.Inside) {k k' : ℕ} (hk' : k' < r.h * r.w) (h : k < k') :
    r.position k < r.position k' := by
  have hw := mod_lt_of_lt_mul hk'
  have hm : k % r.w < r.w := Nat.mod_lt _ (by omega)
  have e := Nat.div_add_mod k r.w
  have e' := Nat.div_add_mod k' r.w
  unfold Window.position
  have hle : k / r.w ≤ k' / r.w := Nat.div_le_div_right h.le
  rcases Nat.eq_or_lt_of_le hle with he | hl
  · rw [he] at e ⊢
    omega
  · have h2 := hr.2
    have : (k / r.w + r.t) * r.cols + r.cols ≤ (k' / r.w + r.t) * r.cols := by
      rw [← Nat.succ_mul]
      exact Nat.mul_le_mul_right _ (by omega)
    omega

/-- The pixels used are those of the crop, in the same order. -/
theorem usedPixels_crop {r : Window} (hr : r.Inside) {m : BoolArray} {mask : Option BoolArray}
    (h : MasksOutside r m mask) :
    usedPixels (some m) (r.rows * r.cols) = (usedPixels mask (r.h * r.w)).map r.position := by
  have s1 : ∀ (mk : Option BoolArray) (n : ℕ), (usedPixels mk n).Pairwise (· < ·) := by
    intro mk n
    unfold usedPixels
    cases mk with
    | none => exact List.pairwise_lt_range
    | some m => exact List.pairwise_lt_range.filter _
  have s2 : ((usedPixels mask (r.h * r.w)).map r.position).Pairwise (· < ·) := by
    rw [List.pairwise_map]
    refine (List.Pairwise.and_mem.1 (s1 mask (r.h * r.w))).imp ?_
    rintro a b ⟨-, hb, hab⟩
    exact position_lt hr (mem_usedPixels.1 hb).1 hab
  have nd : ∀ l : List ℕ, l.Pairwise (· < ·) → l.Nodup := fun l hl => hl.imp fun h => Nat.ne_of_lt h
  refine List.Perm.eq_of_pairwise (le := (· < ·)) (fun a b _ _ h1 h2 => absurd h1 (Nat.lt_asymm h2))
    (s1 _ _) s2 ?_
  rw [List.perm_ext_iff_of_nodup (nd _ (s1 _ _)) (nd _ s2)]
  intro k
  rw [mem_usedPixels, List.mem_map]
  constructor
  · rintro ⟨hk, hu⟩
    have hy := div_lt_of_lt_mul' hk
    have hx := mod_lt_of_lt_mul hk
    have e := Nat.div_add_mod k r.cols
    rw [Nat.mul_comm] at e
    rw [← e] at hu
    obtain ⟨⟨a, b⟩, ⟨c, d⟩, hu'⟩ := (h _ _ hy hx).1 hu
    refine ⟨(k / r.cols - r.t) * r.w + (k % r.cols - r.l), mem_usedPixels.2 ⟨?_, hu'⟩, ?_⟩
    · calc _ < (k / r.cols - r.t) * r.w + r.w := by omega
        _ = (k / r.cols - r.t + 1) * r.w := by ring
        _ ≤ r.h * r.w := Nat.mul_le_mul_right _ (by omega)
    · unfold Window.position
      have hw : 0 < r.w := by omega
      have hin : k % r.cols - r.l < r.w := by omega
      have e1 : ((k / r.cols - r.t) * r.w + (k % r.cols - r.l)) / r.w = k / r.cols - r.t := by
        rw [Nat.mul_comm, Nat.mul_add_div hw, Nat.div_eq_of_lt hin, Nat.add_zero]
      have e2 : ((k / r.cols - r.t) * r.w + (k % r.cols - r.l)) % r.w = k % r.cols - r.l := by
        rw [Nat.mul_comm, Nat.mul_add_mod, Nat.mod_eq_of_lt hin]
      rw [e1, e2, Nat.sub_add_cancel a, Nat.sub_add_cancel c]
      exact e
  · rintro ⟨q, hq, rfl⟩
    obtain ⟨hq, hu⟩ := mem_usedPixels.1 hq
    have hy := div_lt_of_lt_mul' hq
    have hx := mod_lt_of_lt_mul hq
    have e := Nat.div_add_mod q r.w
    rw [Nat.mul_comm] at e
    obtain ⟨h1, h2⟩ := hr
    refine ⟨?_, (h (q / r.w + r.t) (q % r.w + r.l) (by omega) (by omega)).2
      ⟨⟨Nat.le_add_left _ _, by rw [Nat.add_comm]; exact Nat.add_lt_add_left hy _⟩,
        ⟨Nat.le_add_left _ _, by rw [Nat.add_comm]; exact Nat.add_lt_add_left hx _⟩, ?_⟩⟩
    · unfold Window.position
      calc _ < (q / r.w + r.t) * r.cols + r.cols := by omega
        _ = (q / r.w + r.t + 1) * r.cols := by ring
        _ ≤ r.rows * r.cols := Nat.mul_le_mul_right _ (by omega)
    · rw [Nat.add_sub_cancel, Nat.add_sub_cancel, e]
      exact hu

theorem unmasked_crop {r : Window} (hr : r.Inside) {m : BoolArray} {mask : Option BoolArray}
    (h : MasksOutside r m mask) {p p' : List ℝ} (hp : IsCrop r p p') :
    unmaskedPixels mask p' = unmaskedPixels (some m) p := by
  obtain ⟨hl, hl', hv⟩ := hp
  rw [unmaskedPixels_eq, unmaskedPixels_eq, hl, hl', usedPixels_crop hr h, List.map_map]
  refine List.map_congr_left fun k hk => ?_
  obtain ⟨hk, -⟩ := mem_usedPixels.1 hk
  have := hv (k / r.w) (k % r.w) (div_lt_of_lt_mul' hk) (mod_lt_of_lt_mul hk)
  have e := Nat.div_add_mod k r.w
  rw [Nat.mul_comm] at e
  rw [e] at this
  simp only [Function.comp_apply, List.getD_eq_getElem?_getD]
  rw [this]
  rfl

theorem crop_wellFormed {R : Type} {allowed : List MatchType} {c : IndexingCall ℝ R}
    (w : WellFormedCall c) (v : ValidArguments allowed c) {r : Window} {mask : Option BoolArray}
    (hml : ∀ m', mask = some m' → m'.shape = [r.h, r.w] ∧ m'.data.length = r.h * r.w)
    {ps ds : List (List ℝ)} (hps : List.Forall₂ (IsCrop r) c.patterns ps)
    (hds : List.Forall₂ (IsCrop r) c.dictionary ds) :
    WellFormedCall { c with sigShape := [r.h, r.w], patterns := ps, dictSigShape := [r.h, r.w],
                            dictionary := ds, sigMask := mask } ∧
    ValidArguments allowed { c with sigShape := [r.h, r.w], patterns := ps,
                                    dictSigShape := [r.h, r.w], dictionary := ds,
                                    sigMask := mask } := by
  have hpl := hps.length_eq
  have hdl := hds.length_eq
  set c' : IndexingCall ℝ R := { c with
    sigShape := [r.h, r.w], patterns := ps, dictSigShape := [r.h, r.w],
    dictionary := ds, sigMask := mask } with hc'
  have hper : perIteration c' = perIteration c := by
    unfold perIteration
    rw [show c'.dictionary.length = c.dictionary.length from hdl.symm]
  have hlen : ∀ (l l' : List (List ℝ)), List.Forall₂ (IsCrop r) l l' →
      ∀ p' ∈ l', p'.length = [r.h, r.w].prod := by
    intro l l' hh p' hp'
    obtain ⟨i, hi, rfl⟩ := List.getElem_of_mem hp'
    have := ((List.forall₂_iff_get.1 hh).2 i (by have := hh.length_eq; omega) hi).2.1
    simpa using this
  refine ⟨⟨hpl.symm.trans w.patterns, hlen _ _ hps, hlen _ _ hds, w.dictMap, w.navMask, ?_, ?_,
      hper ▸ w.perIteration⟩, ⟨v.navMask, ?_, rfl, ?_, v.metric, v.dtype⟩⟩
  · intro m' h
    obtain ⟨h1, h2⟩ := hml m' h
    rw [h1, h2]
    simp
  · intro h
    refine w.nonempty (List.eq_nil_of_length_eq_zero ?_)
    rw [hpl, show ps = [] from h]
    rfl
  · intro m' h
    rw [(hml m' h).2]
    simp [hc']
  · obtain ⟨rs, h⟩ := v.dictMap
    exact ⟨rs, by simp only [hc']; rw [← hdl]; exact h⟩

/-- C120: cropping the patterns and the dictionary patterns, and masking out the pixels outside of
the crop, give the same result with any metric: scores, indices, rotations and points indexed. -/
theorem C120_crop_is_mask {R : Type} (argtopk argsort : List ℝ → List ℕ) (sign : ℤ)
    (allowed : List MatchType) (sim : List ℝ → List ℝ → ℝ) (r0 : R) (junk : ℕ → List ℝ × List ℕ)
    (c : IndexingCall ℝ R) (w : WellFormedCall c) (v : ValidArguments allowed c)
    {r : Window} (hr : r.Inside) {m : BoolArray} (hm : c.sigMask = some m)
    {mask : Option BoolArray} (hmask : MasksOutside r m mask)
    (hml : ∀ m', mask = some m' → m'.shape = [r.h, r.w] ∧ m'.data.length = r.h * r.w)
    {ps ds : List (List ℝ)} (hps : List.Forall₂ (IsCrop r) c.patterns ps)
    (hds : List.Forall₂ (IsCrop r) c.dictionary ds) :
    (dictionaryIndexingCall argtopk argsort sign allowed sim r0 junk {}
      { c with sigShape := [r.h, r.w], patterns := ps, dictSigShape := [r.h, r.w],
               dictionary := ds, sigMask := mask }).2 =
      (dictionaryIndexingCall argtopk argsort sign allowed sim r0 junk {} c).2 := by
  have hpl := hps.length_eq
  have hdl := hds.length_eq
  set c' : IndexingCall ℝ R := { c with
    sigShape := [r.h, r.w], patterns := ps, dictSigShape := [r.h, r.w],
    dictionary := ds, sigMask := mask } with hc'
  have hper : perIteration c' = perIteration c := by
    unfold perIteration
    rw [show c'.dictionary.length = c.dictionary.length from hdl.symm]
  obtain ⟨w', v'⟩ := crop_wellFormed w v hml hps hds
  refine call_congr argtopk argsort sign allowed sim r0 junk c c' w v w' v' hpl.symm hdl.symm rfl
    rfl rfl hper ?_
  · intro i j p p' d d' _ hp hp' hd hd'
    obtain ⟨hi, rfl⟩ := List.getElem?_eq_some_iff.1 hp
    obtain ⟨hi', rfl⟩ := List.getElem?_eq_some_iff.1 hp'
    obtain ⟨hj, rfl⟩ := List.getElem?_eq_some_iff.1 hd
    obtain ⟨hj', rfl⟩ := List.getElem?_eq_some_iff.1 hd'
    rw [hm]
    have e1 := unmasked_crop hr hmask ((List.forall₂_iff_get.1 hps).2 i hi hi')
    have e2 := unmasked_crop hr hmask ((List.forall₂_iff_get.1 hds).2 j hj hj')
    simp only [List.get_eq_getElem] at e1 e2
    change sim (unmaskedPixels mask ps[i]) (unmaskedPixels mask ds[j]) = _
    rw [e1, e2]

/-- C120 (partial): so a dictionary simulated on the cropped detector, with the cropped patterns,
gives the same result as one simulated on the whole detector, with a mask.  Missing: detectors with
a twist, a single PC for all of the dictionary (false: see `C117_twist_violated`,
`C117_single_pc_violated`) and simulations rescaled to another data type (not stated here). -/
theorem C120_simulated_partial {R : Type} (argtopk argsort : List ℝ → List ℕ) (sign : ℤ)
    (allowed : List MatchType) (sim : List ℝ → List ℝ → ℝ) (r0 : R) (junk : ℕ → List ℝ × List ℕ)
    (c : IndexingCall ℝ R) (w : WellFormedCall c) (v : ValidArguments allowed c)
    (mp : MasterPattern) (hs : mp.checkSuitable = .ok ()) {rots : List Quat}
    {d d' : Detector ℝ} {t b l r : ℤ} (hcrop : d.crop (t, b, l, r) = .ok d')
    (hd : d.pc.length = rots.length) (hnav : d.nav = [rots.length]) (htwist : d.twist = 0)
    (hz : ∀ p ∈ d.pc, 0 < p.z) {energy : Option ℝ} {upper lower : Img ℝ}
    (ha : mp.arraysFromEnergy energy = some (upper, lower))
    {chunks chunks' : List ℕ} (hc : chunks.sum = rots.length) (hc' : chunks'.sum = rots.length)
    (hdict : mp.simulate [rots.length] rots d energy mp.dtype chunks =
      .ok ([rots.length], c.dictionary.map some))
    {m : BoolArray} (hm : c.sigMask = some m) {mask : Option BoolArray}
    (hmask : MasksOutside ⟨d.nrows, d.ncols, (max t 0).toNat, (max l 0).toNat, d'.nrows, d'.ncols⟩
      m mask)
    (hml : ∀ m', mask = some m' →
      m'.shape = [d'.nrows, d'.ncols] ∧ m'.data.length = d'.nrows * d'.ncols)
    {ps : List (List ℝ)}
    (hps : List.Forall₂
      (IsCrop ⟨d.nrows, d.ncols, (max t 0).toNat, (max l 0).toNat, d'.nrows, d'.ncols⟩)
      c.patterns ps) :
    ∃ ds : List (List ℝ), mp.simulate [rots.length] rots d' energy mp.dtype chunks' =
        .ok ([rots.length], ds.map some) ∧
      (dictionaryIndexingCall argtopk argsort sign allowed sim r0 junk {}
        { c with sigShape := [d'.nrows, d'.ncols], patterns := ps,
                 dictSigShape := [d'.nrows, d'.ncols], dictionary := ds, sigMask := mask }).2 =
        (dictionaryIndexingCall argtopk argsort sign allowed sim r0 junk {} c).2 := by
  obtain ⟨out, out', ho, ho', hol, hol', hk⟩ := C117_crop_not_rescaled_partial mp hs
    (rotShape := [rots.length]) (rots := rots) (by simp) hcrop (by rw [hd, hnav]; simp) htwist
    ⟨hnav, .inl rfl⟩ hz ha hc hc'
  obtain ⟨-, -, -, -, -, -, hny, hnx, -, hr0, hc0⟩ := crop_ok hcrop
  rw [hdict] at ho
  have hout : c.dictionary.map some = out := (Prod.ext_iff.1 (Except.ok.inj ho)).2
  have hdl : c.dictionary.length = rots.length := by rw [← hol, ← hout, List.length_map]
  have hsome : ∀ o ∈ out', ∃ x : List ℝ, o = some x := by
    intro o hoo
    obtain ⟨i, hi, rfl⟩ := List.getElem_of_mem hoo
    obtain ⟨_, w', -, h, -⟩ := hk i (by omega)
    rw [List.getElem?_eq_getElem hi] at h
    exact ⟨w', Option.some.inj h⟩
  have hds : out' = (out'.map fun o => o.getD []).map some := by
    rw [List.map_map]
    conv_lhs => rw [← List.map_id out']
    refine List.map_congr_left fun o hoo => ?_
    obtain ⟨x, rfl⟩ := hsome o hoo
    rfl
  refine ⟨out'.map fun o => o.getD [], by rw [← hds]; exact ho', ?_⟩
  refine C120_crop_is_mask argtopk argsort sign allowed sim r0 junk c w v
    (r := ⟨d.nrows, d.ncols, (max t 0).toNat, (max l 0).toNat, d'.nrows, d'.ncols⟩)
    ⟨by dsimp only; omega, by dsimp only; omega⟩ hm hmask hml hps ?_
  rw [List.forall₂_iff_get]
  refine ⟨by rw [List.length_map, hdl, hol'], fun i hi hi' => ?_⟩
  obtain ⟨x, x', hx, hx', hxl, hxl', hv⟩ := hk i (by omega)
  rw [← hout, List.getElem?_map, List.getElem?_eq_getElem hi] at hx
  have hx1 : c.dictionary[i] = x := by simpa using hx
  rw [List.length_map] at hi'
  rw [List.getElem?_eq_getElem hi'] at hx'
  simp only [List.get_eq_getElem, List.getElem_map, hx1, Option.some.inj hx', Option.getD_some]
  exact ⟨hxl, hxl', hv⟩

theorem crop_used {r : Window} (hr : r.Inside) {m : BoolArray} {mask : Option BoolArray}
    (h : MasksOutside r m mask) {k : ℕ} (hk : k < r.rows * r.cols) (hu : Used (some m) k) :
    ∃ k', k' < r.h * r.w ∧ Used mask k' ∧ k = r.position k' := by
  have hm : k ∈ usedPixels (some m) (r.rows * r.cols) := mem_usedPixels.2 ⟨hk, hu⟩
  rw [usedPixels_crop hr h] at hm
  obtain ⟨k', hk', rfl⟩ := List.mem_map.1 hm
  obtain ⟨a, b⟩ := mem_usedPixels.1 hk'
  exact ⟨k', a, b, rfl⟩

theorem crop_getElem? {r : Window} {p p' : List ℝ} (h : IsCrop r p p') {k : ℕ}
    (hk : k < r.h * r.w) : p'[k]? = p[r.position k]? := by
  have := h.2.2 (k / r.w) (k % r.w) (div_lt_of_lt_mul' hk) (mod_lt_of_lt_mul hk)
  have e := Nat.div_add_mod k r.w
  rw [Nat.mul_comm] at e
  rwa [e] at this

theorem crop_contrast {r : Window} (hr : r.Inside) {m : BoolArray} {mask : Option BoolArray}
    (h : MasksOutside r m mask) {p p' : List ℝ} (hp : IsCrop r p p')
    (hc : ShowsContrast (some m) p) : ShowsContrast mask p' := by
  obtain ⟨k, l, x, y, hk, hl, hx, hy, hxy⟩ := hc
  have lt : ∀ {k x}, p[k]? = some x → k < r.rows * r.cols := fun hx => by
    rw [← hp.1]; exact (List.getElem?_eq_some_iff.1 hx).1
  obtain ⟨k', hk', hu, rfl⟩ := crop_used hr h (lt hx) hk
  obtain ⟨l', hl', hu', rfl⟩ := crop_used hr h (lt hy) hl
  exact ⟨k', l', x, y, hu, hu', by rw [crop_getElem? hp hk', hx], by rw [crop_getElem? hp hl', hy],
    hxy⟩

/-- C120, with the NCC: neither do the gains and offsets of the cropped patterns matter, so the
intensities of the patterns may be rescaled before or after they are cropped. -/
theorem C120_ncc {R : Type} (argtopk argsort : List ℝ → List ℕ)
    (allowed : List MatchType) (r0 : R) (junk : ℕ → List ℝ × List ℕ)
    (c : IndexingCall ℝ R) (w : WellFormedCall c) (v : ValidArguments allowed c)
    (hpc : ∀ i p, Used c.navMask i → c.patterns[i]? = some p → ShowsContrast c.sigMask p)
    (hdc : ∀ d ∈ c.dictionary, ShowsContrast c.sigMask d)
    {r : Window} (hr : r.Inside) {m : BoolArray} (hm : c.sigMask = some m)
    {mask : Option BoolArray} (hmask : MasksOutside r m mask)
    (hml : ∀ m', mask = some m' → m'.shape = [r.h, r.w] ∧ m'.data.length = r.h * r.w)
    {ps ps' ds ds' : List (List ℝ)} (hps : List.Forall₂ (IsCrop r) c.patterns ps)
    (hds : List.Forall₂ (IsCrop r) c.dictionary ds)
    (hps' : List.Forall₂ (fun p p' => p'.length = p.length ∧ SameUpTo mask p p') ps ps')
    (hds' : List.Forall₂ (fun d d' => d'.length = d.length ∧ SameUpTo mask d d') ds ds') :
    (dictionaryIndexingCall argtopk argsort 1 allowed nccOf r0 junk {}
      { c with sigShape := [r.h, r.w], patterns := ps', dictSigShape := [r.h, r.w],
               dictionary := ds', sigMask := mask }).2 =
      (dictionaryIndexingCall argtopk argsort 1 allowed nccOf r0 junk {} c).2 := by
  rw [← C120_crop_is_mask argtopk argsort 1 allowed nccOf r0 junk c w v hr hm hmask hml hps hds]
  obtain ⟨w', v'⟩ := crop_wellFormed w v hml hps hds
  refine C119_indexing argtopk argsort allowed r0 junk
    { c with sigShape := [r.h, r.w], patterns := ps, dictSigShape := [r.h, r.w],
             dictionary := ds, sigMask := mask } w' v' hps' hds' ?_ ?_
  · intro i p' hu hp'
    obtain ⟨hi', rfl⟩ := List.getElem?_eq_some_iff.1 hp'
    have hi : i < c.patterns.length := by rw [hps.length_eq]; exact hi'
    exact crop_contrast hr hmask ((List.forall₂_iff_get.1 hps).2 i hi hi')
      (hm ▸ hpc i _ hu (List.getElem?_eq_getElem hi))
  · intro d' hd'
    obtain ⟨i, hi', rfl⟩ := List.getElem_of_mem hd'
    have hi : i < c.dictionary.length := by rw [hds.length_eq]; exact hi'
    exact crop_contrast hr hmask ((List.forall₂_iff_get.1 hds).2 i hi hi')
      (hm ▸ hdc _ (List.getElem_mem hi))

/-- The crop of a pattern. -/
def Spec.Window.crop (r : Window) (p : List ℝ) : List ℝ :=
  (List.range (r.h * r.w)).map fun k => p.getD (r.position k) 0

theorem crop_isCrop {r : Window} (hr : r.Inside) {p : List ℝ} (hp : p.length = r.rows * r.cols) :
    IsCrop r p (r.crop p) := by
  refine ⟨hp, by simp [Window.crop], fun i j hi hj => ?_⟩
  have hk : i * r.w + j < r.h * r.w := by
    calc _ < i * r.w + r.w := by omega
      _ = (i + 1) * r.w := by ring
      _ ≤ r.h * r.w := Nat.mul_le_mul_right _ hi
  have e1 : (i * r.w + j) / r.w = i := by
    rw [Nat.mul_comm, Nat.mul_add_div (by omega), Nat.div_eq_of_lt hj, Nat.add_zero]
  have e2 : (i * r.w + j) % r.w = j := by
    rw [Nat.mul_comm, Nat.mul_add_mod, Nat.mod_eq_of_lt hj]
  have hlt : (i + r.t) * r.cols + (j + r.l) < p.length := by
    obtain ⟨h1, h2⟩ := hr
    rw [hp]
    calc _ < (i + r.t) * r.cols + r.cols := by omega
      _ = (i + r.t + 1) * r.cols := by ring
      _ ≤ r.rows * r.cols := Nat.mul_le_mul_right _ (by omega)
  rw [Window.crop, List.getElem?_map, List.getElem?_range hk, Option.map_some, Window.position, e1,
    e2, List.getD_eq_getElem?_getD, List.getElem?_eq_getElem hlt]
  rfl

theorem finished_affine {mp : MasterPattern} {bits : ℕ} {lo hi : ℤ} {w : List ℝ}
    (hrange : (if DType.float bits ≠ mp.dtype then dtypeRange (.float bits) else some (1, 2)) =
      some (lo, hi)) (hw : Varied w) :
    ∃ g o : ℝ, 0 < g ∧ finished mp (.float bits) lo hi w = w.map fun x => g * x + o := by
  have hid : castTo (K := ℝ) (.float bits) = id := rfl
  unfold finished
  rw [hid, List.map_id]
  by_cases h : DType.float bits ≠ mp.dtype
  · rw [if_pos h] at hrange ⊢
    cases hrange
    obtain ⟨x, hx, y, hy, hxy⟩ := hw
    have hm := listMin_lt_listMax hx hy hxy
    refine ⟨2 / (listMax w - listMin w), -1 - listMin w * (2 / (listMax w - listMin w)),
      div_pos two_pos (sub_pos.2 hm), ?_⟩
    unfold rescaleWithMinMax rescalePixel
    refine List.map_congr_left fun x _ => ?_
    push_cast
    ring
  · rw [if_neg h]
    exact ⟨1, 0, one_pos, by simp⟩

theorem varied_of_finished {mp : MasterPattern} {dtype : DType} {lo hi : ℤ} {w : List ℝ}
    (h : Varied (finished mp dtype lo hi w)) : Varied w := by
  obtain ⟨f, hf⟩ : ∃ f : ℝ → ℝ, finished mp dtype lo hi w = w.map f := by
    unfold finished
    split
    · exact ⟨_, by rw [rescaleWithMinMax, List.map_map]⟩
    · exact ⟨_, rfl⟩
  obtain ⟨x, hx, y, hy, hxy⟩ := h
  rw [hf] at hx hy
  obtain ⟨a, ha, rfl⟩ := List.mem_map.1 hx
  obtain ⟨b, hb, rfl⟩ := List.mem_map.1 hy
  exact ⟨a, ha, b, hb, fun e => hxy (by rw [e])⟩

theorem varied_of_contrast {mask : Option BoolArray} {p : List ℝ} (h : ShowsContrast mask p) :
    Varied p := by
  obtain ⟨_, _, x, y, -, -, hx, hy, hxy⟩ := h
  exact ⟨x, List.mem_of_getElem? hx, y, List.mem_of_getElem? hy, hxy⟩

/-- C120 (partial), with the NCC and any floating-point data type of the simulated patterns, which
are rescaled from the intensities on the whole and on the cropped detector: the result is the same
although the rescaled patterns are not.  Missing: detectors with a twist, a single PC for all of the
dictionary (false: see `C117_twist_violated`, `C117_single_pc_violated`). -/
theorem C120_simulated_ncc_partial {R : Type} (argtopk argsort : List ℝ → List ℕ)
    (allowed : List MatchType) (r0 : R) (junk : ℕ → List ℝ × List ℕ)
    (c : IndexingCall ℝ R) (w : WellFormedCall c) (v : ValidArguments allowed c)
    (hpc : ∀ i p, Used c.navMask i → c.patterns[i]? = some p → ShowsContrast c.sigMask p)
    (hdc : ∀ d ∈ c.dictionary, ShowsContrast c.sigMask d)
    (mp : MasterPattern) (hs : mp.checkSuitable = .ok ()) {rots : List Quat}
    {d d' : Detector ℝ} {t b l r : ℤ} (hcrop : d.crop (t, b, l, r) = .ok d')
    (hd : d.pc.length = rots.length) (hnav : d.nav = [rots.length]) (htwist : d.twist = 0)
    (hz : ∀ p ∈ d.pc, 0 < p.z) {energy : Option ℝ} {upper lower : Img ℝ}
    (ha : mp.arraysFromEnergy energy = some (upper, lower)) (bits : ℕ)
    {chunks chunks' : List ℕ} (hc : chunks.sum = rots.length) (hc' : chunks'.sum = rots.length)
    (hdict : mp.simulate [rots.length] rots d energy (.float bits) chunks =
      .ok ([rots.length], c.dictionary.map some))
    {m : BoolArray} (hm : c.sigMask = some m) {mask : Option BoolArray}
    (hmask : MasksOutside ⟨d.nrows, d.ncols, (max t 0).toNat, (max l 0).toNat, d'.nrows, d'.ncols⟩
      m mask)
    (hml : ∀ m', mask = some m' →
      m'.shape = [d'.nrows, d'.ncols] ∧ m'.data.length = d'.nrows * d'.ncols)
    {ps : List (List ℝ)}
    (hps : List.Forall₂
      (IsCrop ⟨d.nrows, d.ncols, (max t 0).toNat, (max l 0).toNat, d'.nrows, d'.ncols⟩)
      c.patterns ps) :
    ∃ ds : List (List ℝ), mp.simulate [rots.length] rots d' energy (.float bits) chunks' =
        .ok ([rots.length], ds.map some) ∧
      (dictionaryIndexingCall argtopk argsort 1 allowed nccOf r0 junk {}
        { c with sigShape := [d'.nrows, d'.ncols], patterns := ps,
                 dictSigShape := [d'.nrows, d'.ncols], dictionary := ds, sigMask := mask }).2 =
        (dictionaryIndexingCall argtopk argsort 1 allowed nccOf r0 junk {} c).2 := by
  obtain ⟨lo, up, hrange⟩ : ∃ lo up : ℤ, (if DType.float bits ≠ mp.dtype then
      dtypeRange (.float bits) else some (1, 2)) = some (lo, up) := by
    split
    · exact ⟨-1, 1, rfl⟩
    · exact ⟨1, 2, rfl⟩
  obtain ⟨out, out', ho, ho', hol, hol', hk⟩ := C117_crop_partial mp hs
    (rotShape := [rots.length]) (rots := rots) (by simp) hcrop (by rw [hd, hnav]; simp) htwist
    ⟨hnav, .inl rfl⟩ hz ha hrange hc hc'
  obtain ⟨-, -, -, -, -, -, hny, hnx, -, hr0, hc0⟩ := crop_ok hcrop
  rw [hdict] at ho
  have hout : c.dictionary.map some = out := (Prod.ext_iff.1 (Except.ok.inj ho)).2
  have hdl : c.dictionary.length = rots.length := by rw [← hol, ← hout, List.length_map]
  have hsome : ∀ o ∈ out', ∃ x : List ℝ, o = some x := by
    intro o hoo
    obtain ⟨i, hi, rfl⟩ := List.getElem_of_mem hoo
    obtain ⟨_, w', -, h, -⟩ := hk i (by omega)
    rw [List.getElem?_eq_getElem hi] at h
    exact ⟨_, Option.some.inj h⟩
  have hds : out' = (out'.map fun o => o.getD []).map some := by
    rw [List.map_map]
    conv_lhs => rw [← List.map_id out']
    refine List.map_congr_left fun o hoo => ?_
    obtain ⟨x, rfl⟩ := hsome o hoo
    rfl
  refine ⟨out'.map fun o => o.getD [], by rw [← hds]; exact ho', ?_⟩
  set win : Window := ⟨d.nrows, d.ncols, (max t 0).toNat, (max l 0).toNat, d'.nrows, d'.ncols⟩
    with hwin
  have hr : win.Inside := ⟨by simp only [hwin]; omega, by simp only [hwin]; omega⟩
  have hlen : ∀ e ∈ c.dictionary, e.length = win.rows * win.cols := by
    intro e he
    obtain ⟨i, hi, rfl⟩ := List.getElem_of_mem he
    obtain ⟨x, -, hx, -, hxl, -⟩ := hk i (by omega)
    rw [← hout, List.getElem?_map, List.getElem?_eq_getElem hi] at hx
    have hx1 : c.dictionary[i] = finished mp (.float bits) lo up x := by simpa using hx
    rw [hx1]
    unfold finished rescaleWithMinMax
    split <;> simp [hxl, hwin]
  refine C120_ncc argtopk argsort allowed r0 junk c w v hpc hdc hr hm hmask hml hps
    (ps' := ps) (ds := c.dictionary.map win.crop)
    (forall₂_self_map _ fun e he => crop_isCrop hr (hlen e he))
    (List.forall₂_same.2 fun d _ => ⟨rfl, 1, 0, one_pos, fun k x y _ hx hy => by
      rw [hx] at hy; rw [Option.some.inj hy]; ring⟩) ?_
  rw [List.forall₂_iff_get]
  refine ⟨by rw [List.length_map, List.length_map, hdl, hol'], fun i hi hi' => ?_⟩
  rw [List.length_map] at hi hi'
  obtain ⟨x, x', hx, hx', hxl, hxl', hv⟩ := hk i (by omega)
  rw [← hout, List.getElem?_map, List.getElem?_eq_getElem hi] at hx
  have hx1 : c.dictionary[i] = finished mp (.float bits) lo up x := by simpa using hx
  rw [List.getElem?_eq_getElem hi'] at hx'
  have hcon : ShowsContrast (some m) c.dictionary[i] := hm ▸ hdc _ (List.getElem_mem hi)
  have hic := crop_isCrop hr (hlen _ (List.getElem_mem hi))
  have hcon' := crop_contrast hr hmask hic hcon
  simp only [List.get_eq_getElem, List.getElem_map, Option.some.inj hx', Option.getD_some]
  have hvx : Varied x := varied_of_finished (hx1 ▸ varied_of_contrast hcon)
  obtain ⟨g, o, hg, hgo⟩ := finished_affine hrange hvx
  have hxc : IsCrop win x x' := ⟨hxl, hxl', hv⟩
  have hcx : win.crop c.dictionary[i] = x'.map fun y => g * y + o := by
    refine List.ext_getElem? fun k => ?_
    by_cases hkk : k < win.h * win.w
    · rw [crop_getElem? hic hkk, hx1, hgo, List.getElem?_map, List.getElem?_map,
        crop_getElem? hxc hkk]
    · rw [List.getElem?_eq_none (by rw [hic.2.1]; omega),
        List.getElem?_eq_none (by rw [List.length_map, hxl']; simp only [hwin] at hkk; omega)]
  have hvx' : Varied x' := by
    have := varied_of_contrast hcon'
    rw [hcx] at this
    obtain ⟨a, ha, b, hb, hab⟩ := this
    obtain ⟨a', ha', rfl⟩ := List.mem_map.1 ha
    obtain ⟨b', hb', rfl⟩ := List.mem_map.1 hb
    exact ⟨a', ha', b', hb', fun e => hab (by rw [e])⟩
  obtain ⟨g', o', hg', hgo'⟩ := finished_affine hrange hvx'
  rw [hcx, hgo']
  refine ⟨by simp, g' / g, o' - g' / g * o, div_pos hg' hg, fun k y z _ hy hz => ?_⟩
  rw [List.getElem?_map] at hy hz
  obtain ⟨u, hu, rfl⟩ := Option.map_eq_some_iff.1 hy
  rw [hu] at hz
  rw [← Option.some.inj hz]
  field_simp
  ring

/-! ### The hypotheses are met -/

/-- A detector of 2 x 2 pixels, which looks at the upper hemisphere with its first row, and at the
lower one with its second. -/
noncomputable def halvesDetector : Detector ℝ := ⟨2, 2, 1, 1, 0, 0, 0, 0, [1], [⟨1 / 2, 1 / 2, 1⟩]⟩

theorem halves_simulated {dtypeOut : DType} {lo hi : ℤ}
    (hrange : (if dtypeOut ≠ hemisphereMaster.dtype then dtypeRange dtypeOut else some (1, 2)) =
      some (lo, hi)) :
    hemisphereMaster.simulate [1] [⟨1, 0, 0, 0⟩] halvesDetector none dtypeOut [1] =
      .ok ([1], [some (finished hemisphereMaster dtypeOut lo hi [1, 1, 2, 2])]) := by
  have hm : ProperRotation halvesDetector.sampleToDetector :=
    C08_sample_to_detector_is_proper_rotation _ _ _ _
  obtain ⟨out, ho, hl, hk⟩ := patterns_raw hemisphereMaster rfl (rotShape := [1])
    (rots := [⟨1, 0, 0, 0⟩]) (by simp) (d := halvesDetector) rfl (.inl rfl) (.inr rfl) hm
    (by simp [halvesDetector]) (energy := none) rfl hrange (chunks := [1]) rfl
  obtain ⟨p', hp', w, hw, hwl, hwp⟩ := hk 0 _ rfl
  have hpp : p' = ⟨1 / 2, 1 / 2, 1⟩ := by
    simp only [halvesDetector] at hp'
    split at hp' <;> simpa using hp'.symm
  subst hpp
  have hmat : halvesDetector.sampleToDetector = sampleToDetectorMatrix 0 0 0 0 := by
    unfold Detector.sampleToDetector degToRad halvesDetector
    simp only [zero_mul]
  have key : ∀ i j : ℕ, i < 2 → j < 2 → w[i * 2 + j]? = some (if i = 0 then 1 else 2) := by
    intro i j hi hj
    obtain ⟨u, ⟨s, -, hus, t, ht, hmt⟩, h⟩ := hwp i j hi hj
    have h' : w[i * 2 + j]? = some (if 0 ≤ u.z then 1 else 2) := by
      have := h
      simp only [projectPixel, rotateVector_one, masterPixel_const] at this
      simpa [halvesDetector] using this
    rw [h']
    rw [hmat, C08_zero_angles] at hmt
    rw [rotateVector_one] at hus
    have h2 := congrArg V3.y hmt
    simp only [V3.smul, gnomonic, halvesDetector] at h2
    have hz : u.z = s.z := by rw [hus]
    have hi2 : i = 0 ∨ i = 1 := by omega
    rcases hi2 with rfl | rfl
    · have : 0 ≤ u.z := by
        rw [hz, h2]
        norm_num
        exact ht.le
      rw [if_pos rfl, if_pos this]
    · have : ¬ 0 ≤ u.z := by
        rw [hz, h2]
        norm_num
        linarith
      rw [if_neg one_ne_zero, if_neg this]
  have hw4 : w = [1, 1, 2, 2] := by
    have hwl4 : w.length = 4 := hwl
    match w, hwl4, key with
    | [a, b, e, f], _, key =>
      have h0 := key 0 0 (by norm_num) (by norm_num)
      have h1 := key 0 1 (by norm_num) (by norm_num)
      have h2 := key 1 0 (by norm_num) (by norm_num)
      have h3 := key 1 1 (by norm_num) (by norm_num)
      simp at h0 h1 h2 h3
      rw [h0, h1, h2, h3]
  rw [hw4] at hw
  obtain ⟨o, hoo⟩ := List.length_eq_one_iff.1 hl
  rw [hoo] at hw ho
  simp only [List.getElem?_cons_zero, Option.some.injEq] at hw
  unfold MasterPattern.simulate
  rw [ho, hw]

/-- The left column of the detector. -/
theorem halves_crop : halvesDetector.crop (0, 2, 0, 1) =
    .ok ⟨2, 1, 1, 1, 0, 0, 0, 0, [1, 1], [⟨1, 1 / 2, 1⟩]⟩ := by
  unfold halvesDetector
  rw [crop_eq]
  norm_num [dstackNav, Detector.cropPc]
  rfl

/-- A call with one pattern and the one simulated on the detector, the right column masked out. -/
def halvesCall (d : List ℝ) : IndexingCall ℝ ℕ :=
  ⟨[1], [2, 2], [[0, 5, 1, 9]], [2, 2], [d], some ([1], [7]), none, .named, 1, none, none,
    some ⟨[2, 2], [false, true, false, true]⟩, none⟩

theorem halves_window : MasksOutside ⟨2, 2, 0, 0, 2, 1⟩ ⟨[2, 2], [false, true, false, true]⟩ none ∧
    List.Forall₂ (IsCrop ⟨2, 2, 0, 0, 2, 1⟩) [[0, 5, 1, 9]] [[0, 1]] := by
  refine ⟨fun y x hy hx => ?_, .cons ⟨rfl, rfl, fun i j hi hj => ?_⟩ .nil⟩
  · simp only at hy hx
    interval_cases y <;> interval_cases x <;> simp [Used]
  · simp only at hi hj
    interval_cases i <;> interval_cases j <;> simp

theorem halvesCall_wellFormed {d : List ℝ} (hd : d.length = 4) :
    WellFormedCall (halvesCall d) ∧ ValidArguments [] (halvesCall d) := by
  refine ⟨⟨rfl, by simp [halvesCall], by simpa [halvesCall] using hd, ?_, by simp [halvesCall],
    by simp [halvesCall], by simp [halvesCall], by simp [halvesCall, perIteration]⟩,
    ⟨by simp [halvesCall], by simp [halvesCall], rfl, ⟨_, rfl⟩, by simp [halvesCall], .inl rfl⟩⟩
  rintro s rs h
  cases h
  rfl

/-- The hypotheses of `C120_simulated_partial`. -/
example : ∃ (c : IndexingCall ℝ ℕ) (d d' : Detector ℝ) (rots : List Quat) (upper lower : Img ℝ)
    (m : BoolArray) (ps : List (List ℝ)), WellFormedCall c ∧ ValidArguments [] c ∧
    hemisphereMaster.checkSuitable = .ok () ∧ d.crop (0, 2, 0, 1) = .ok d' ∧
    d.pc.length = rots.length ∧ d.nav = [rots.length] ∧ d.twist = 0 ∧ (∀ p ∈ d.pc, 0 < p.z) ∧
    hemisphereMaster.arraysFromEnergy none = some (upper, lower) ∧
    hemisphereMaster.simulate [rots.length] rots d none hemisphereMaster.dtype [1] =
      .ok ([rots.length], c.dictionary.map some) ∧ c.sigMask = some m ∧
    MasksOutside ⟨d.nrows, d.ncols, 0, 0, d'.nrows, d'.ncols⟩ m none ∧
    List.Forall₂ (IsCrop ⟨d.nrows, d.ncols, 0, 0, d'.nrows, d'.ncols⟩) c.patterns ps ∧
    ps = [[0, 1]] ∧ c.dictionary = [[1, 1, 2, 2]] := by
  obtain ⟨w, v⟩ := halvesCall_wellFormed (d := [1, 1, 2, 2]) rfl
  refine ⟨halvesCall [1, 1, 2, 2], halvesDetector, _, [⟨1, 0, 0, 0⟩], _, _, _, _, w, v, rfl,
    halves_crop, rfl, rfl, rfl, by simp [halvesDetector], rfl, ?_, rfl, halves_window.1,
    halves_window.2, rfl, rfl⟩
  have := halves_simulated (dtypeOut := hemisphereMaster.dtype) (lo := 1) (hi := 2) (by simp)
  simp only [List.length_cons, List.length_nil, Nat.zero_add]
  rw [this]
  simp [finished, hemisphereMaster, castTo, halvesCall]

/-- The hypotheses of `C120_simulated_ncc_partial`: the simulated pattern is rescaled. -/
example : ∃ (c : IndexingCall ℝ ℕ) (d d' : Detector ℝ) (rots : List Quat) (m : BoolArray),
    WellFormedCall c ∧ ValidArguments [] c ∧ d.crop (0, 2, 0, 1) = .ok d' ∧
    (∀ i p, Used c.navMask i → c.patterns[i]? = some p → ShowsContrast c.sigMask p) ∧
    (∀ d ∈ c.dictionary, ShowsContrast c.sigMask d) ∧
    hemisphereMaster.simulate [rots.length] rots d none (.float 32) [1] =
      .ok ([rots.length], c.dictionary.map some) ∧ c.sigMask = some m ∧
    MasksOutside ⟨d.nrows, d.ncols, 0, 0, d'.nrows, d'.ncols⟩ m none ∧
    List.Forall₂ (IsCrop ⟨d.nrows, d.ncols, 0, 0, d'.nrows, d'.ncols⟩) c.patterns [[0, 1]] ∧
    c.dictionary = [[-1, -1, 1, 1]] := by
  obtain ⟨w, v⟩ := halvesCall_wellFormed (d := [-1, -1, 1, 1]) rfl
  refine ⟨halvesCall [-1, -1, 1, 1], halvesDetector, _, [⟨1, 0, 0, 0⟩], _, w, v, halves_crop, ?_, ?_,
    ?_, rfl, halves_window.1, halves_window.2, rfl⟩
  · intro i p _ hp
    have hpm := List.mem_of_getElem? hp
    simp only [halvesCall, List.mem_cons, List.not_mem_nil, or_false] at hpm
    subst hpm
    exact ⟨0, 2, 0, 1, by simp [Used, halvesCall], by simp [Used, halvesCall], rfl, rfl, by norm_num⟩
  · intro d hd
    simp only [halvesCall, List.mem_cons, List.not_mem_nil, or_false] at hd
    subst hd
    exact ⟨0, 2, -1, 1, by simp [Used, halvesCall], by simp [Used, halvesCall], rfl, rfl,
      by norm_num⟩
  · have := halves_simulated (dtypeOut := .float 32) (lo := -1) (hi := 1)
      (by simp [hemisphereMaster, dtypeRange])
    simp only [List.length_cons, List.length_nil, Nat.zero_add]
    rw [this]
    norm_num [finished, hemisphereMaster, castTo, halvesCall, rescaleWithMinMax, rescalePixel,
      listMin, listMax]

end Kp
