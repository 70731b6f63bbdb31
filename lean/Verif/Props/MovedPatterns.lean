import Verif.Spec.MovedPatterns
import Verif.Model.Downsample
import Verif.Props.CropSimulation
import Verif.Props.MasterSymmetry

/-
C139: simulated patterns move with the projection center, and downsampled detectors look at the middle of
blocks of pixels.
-/

namespace Kp
open Spec
noncomputable section

/-- The patterns simulated on a detector, in terms of the directions of pixels. -/
theorem simulate_raw (mp : MasterPattern) (hs : mp.checkSuitable = .ok ()) {rotShape : List ℕ}
    {rots : List Quat} {d : Detector ℝ} (hd : FitsRotations d rotShape rots) {energy : Option ℝ}
    {upper lower : Img ℝ} (ha : mp.arraysFromEnergy energy = some (upper, lower)) {dtypeOut : DType}
    {lo hi : ℤ}
    (hrange : (if dtypeOut ≠ mp.dtype then dtypeRange dtypeOut else some (1, 2)) = some (lo, hi))
    {chunks : List ℕ} (hc : chunks.sum = rots.length) :
    ∃ out, mp.simulate rotShape rots d energy dtypeOut chunks = .ok (rotShape, out) ∧
      out.length = rots.length ∧
      ∀ k q, rots[k]? = some q → ∃ p, d.pc[if d.nav = [1] then 0 else k]? = some p ∧
        ∃ w : List ℝ, out[k]? = some (some (finished mp dtypeOut lo hi w)) ∧
          w.length = d.nrows * d.ncols ∧
          ∀ r c, r < d.nrows → c < d.ncols → ∃ u,
            PixelDirection d.nrows d.ncols d.sampleToDetector q p r c u ∧
            w[r * d.ncols + c]? = some (intensityIn upper lower u) := by
  obtain ⟨h1, h2, h3, h4, h5⟩ := hd
  have hm : ProperRotation d.sampleToDetector := C08_sample_to_detector_is_proper_rotation _ _ _ _
  obtain ⟨out, ho, hl, hk⟩ := patterns_raw mp hs (rots := rots) h3 h1
    (by rcases h4 with h | h
        · exact .inl h.symm
        · right; simp [h])
    (by rcases h4 with h | h
        · right; rw [h1, h, h2]
        · exact .inl h) hm h5 ha hrange hc
  refine ⟨out, ho, hl, fun k q hq => ?_⟩
  obtain ⟨p, hp, w, hw, hwl, hwp⟩ := hk k q hq
  refine ⟨p, hp, w, hw, hwl, fun r c hr hcc => ?_⟩
  obtain ⟨u, hu, hwu⟩ := hwp r c hr hcc
  refine ⟨u, hu, ?_⟩
  rw [hwu]
  simp only [projectPixel, rotateVector_one]
  rfl

/-- Two detectors with the same tilts whose pixels look in the same directions: simulated patterns have the
same intensities in these pixels. -/
theorem simulate_same (mp : MasterPattern) (hs : mp.checkSuitable = .ok ()) {rotShape : List ℕ}
    {rots : List Quat} {d d' : Detector ℝ} (hd : FitsRotations d rotShape rots)
    (hd' : FitsRotations d' rotShape rots) (hnav : d'.nav = d.nav)
    (hm : d'.sampleToDetector = d.sampleToDetector) {energy : Option ℝ}
    {upper lower : Img ℝ} (ha : mp.arraysFromEnergy energy = some (upper, lower)) {dtypeOut : DType}
    {lo hi : ℤ}
    (hrange : (if dtypeOut ≠ mp.dtype then dtypeRange dtypeOut else some (1, 2)) = some (lo, hi))
    {chunks chunks' : List ℕ} (hc : chunks.sum = rots.length) (hc' : chunks'.sum = rots.length) :
    ∃ out out', mp.simulate rotShape rots d energy dtypeOut chunks = .ok (rotShape, out) ∧
      mp.simulate rotShape rots d' energy dtypeOut chunks' = .ok (rotShape, out') ∧
      out.length = rots.length ∧ out'.length = rots.length ∧ ∀ k < rots.length, ∃ w w' : List ℝ,
        out[k]? = some (some (finished mp dtypeOut lo hi w)) ∧
        out'[k]? = some (some (finished mp dtypeOut lo hi w')) ∧
        w.length = d.nrows * d.ncols ∧ w'.length = d'.nrows * d'.ncols ∧
        ∀ r c r' c' : ℕ, r < d.nrows → c < d.ncols → r' < d'.nrows → c' < d'.ncols →
          (∀ (n : ℕ) p p', d.pc[n]? = some p → d'.pc[n]? = some p' →
            gnomonic d'.nrows d'.ncols p' ((r' : ℝ) + 1 / 2, (c' : ℝ) + 1 / 2) =
              gnomonic d.nrows d.ncols p ((r : ℝ) + 1 / 2, (c : ℝ) + 1 / 2)) →
          w'[r' * d'.ncols + c']? = w[r * d.ncols + c]? := by
  obtain ⟨out, ho, hl, hk⟩ := simulate_raw mp hs hd ha hrange hc
  obtain ⟨out', ho', hl', hk'⟩ := simulate_raw mp hs hd' ha hrange hc'
  refine ⟨out, out', ho, ho', hl, hl', fun k hkl => ?_⟩
  obtain ⟨q, hq⟩ : ∃ q, rots[k]? = some q := ⟨_, List.getElem?_eq_getElem hkl⟩
  obtain ⟨p, hp, w, hw, hwl, hwp⟩ := hk k q hq
  obtain ⟨p', hp', w', hw', hwl', hwp'⟩ := hk' k q hq
  refine ⟨w, w', hw, hw', hwl, hwl', fun r c r' c' hr hcc hr' hcc' hg => ?_⟩
  obtain ⟨u, hu, hwu⟩ := hwp r c hr hcc
  obtain ⟨u', hu', hwu'⟩ := hwp' r' c' hr' hcc'
  rw [hnav] at hp'
  have e := hg _ p p' hp hp'
  have hdir : PixelDirection d.nrows d.ncols d.sampleToDetector q p r c u' := by
    obtain ⟨s, h1, h2, t, h3, h4⟩ := hu'
    rw [e, hm] at h4
    exact ⟨s, h1, h2, t, h3, h4⟩
  rw [hwu, hwu', C116_direction_unique (C08_sample_to_detector_is_proper_rotation _ _ _ _) hdir hu]

/-- C139: if projection centers are moved by whole numbers of pixels, `a` to the right and `b` down, the
intensities of simulated patterns move with them: what was in pixel `(r, c)` is in pixel `(r + b, c + a)`, if
both are on the detector, for every master pattern, set of rotations, PCs, tilts, chunks and data type (before
whole patterns are rescaled to the range of another data type than that of the master pattern). -/
theorem C139_moved (mp : MasterPattern) (hs : mp.checkSuitable = .ok ()) {rotShape : List ℕ}
    {rots : List Quat} {d : Detector ℝ} (hd : FitsRotations d rotShape rots) (a b : ℤ)
    {energy : Option ℝ} {upper lower : Img ℝ} (ha : mp.arraysFromEnergy energy = some (upper, lower))
    {dtypeOut : DType} {lo hi : ℤ}
    (hrange : (if dtypeOut ≠ mp.dtype then dtypeRange dtypeOut else some (1, 2)) = some (lo, hi))
    {chunks chunks' : List ℕ} (hc : chunks.sum = rots.length) (hc' : chunks'.sum = rots.length) :
    ∃ out out', mp.simulate rotShape rots d energy dtypeOut chunks = .ok (rotShape, out) ∧
      mp.simulate rotShape rots (withMovedPc d a b) energy dtypeOut chunks' = .ok (rotShape, out') ∧
      out.length = rots.length ∧ out'.length = rots.length ∧ ∀ k < rots.length, ∃ w w' : List ℝ,
        out[k]? = some (some (finished mp dtypeOut lo hi w)) ∧
        out'[k]? = some (some (finished mp dtypeOut lo hi w')) ∧
        w.length = d.nrows * d.ncols ∧ w'.length = d.nrows * d.ncols ∧
        ∀ r c r' c' : ℕ, r < d.nrows → c < d.ncols → r' < d.nrows → c' < d.ncols →
          (r' : ℤ) = r + b → (c' : ℤ) = c + a → w'[r' * d.ncols + c']? = w[r * d.ncols + c]? := by
  have hd' : FitsRotations (withMovedPc d a b) rotShape rots := by
    refine ⟨by simpa [withMovedPc] using hd.number, hd.rotations, hd.axes, hd.shape, fun p hp => ?_⟩
    obtain ⟨p0, hp0, rfl⟩ := List.mem_map.1 hp
    exact hd.before p0 hp0
  obtain ⟨out, out', ho, ho', hl, hl', hk⟩ := simulate_same mp hs hd hd' rfl rfl ha hrange hc hc'
  refine ⟨out, out', ho, ho', hl, hl', fun k hkl => ?_⟩
  obtain ⟨w, w', hw, hw', hwl, hwl', hp⟩ := hk k hkl
  refine ⟨w, w', hw, hw', hwl, hwl', fun r c r' c' h1 h2 h3 h4 e1 e2 => ?_⟩
  refine hp r c r' c' h1 h2 h3 h4 fun n p p' hn hn' => ?_
  simp only [withMovedPc, List.getElem?_map, hn, Option.map_some, Option.some.injEq] at hn'
  subst hn'
  have e1' : (r' : ℝ) = r + b := by exact_mod_cast e1
  have e2' : (c' : ℝ) = c + a := by exact_mod_cast e2
  have hr0 : (d.nrows : ℝ) ≠ 0 := by exact_mod_cast (by omega : d.nrows ≠ 0)
  have hc0 : (d.ncols : ℝ) ≠ 0 := by exact_mod_cast (by omega : d.ncols ≠ 0)
  simp only [gnomonic, withMovedPc, e1', e2', Prod.mk.injEq]
  constructor
  · congr 1
    field_simp
    ring
  · congr 1
    field_simp
    ring

/-- What downsampling does to the detector. -/
theorem downsample_detector {s t : DsSignal ℝ} {factor : ℤ} {dt : Option DType}
    (h : downsample s factor dt = .ok t) : 1 < factor ∧
    t.detector = { s.detector with
      nrows := s.rows / factor.toNat, ncols := s.cols / factor.toNat,
      binning := s.detector.binning * ((factor.toNat : ℕ) : ℝ) } ∧
    s.rows / factor.toNat * factor.toNat = s.rows ∧ s.cols / factor.toNat * factor.toNat = s.cols := by
  unfold downsample at h
  split at h
  · cases h
  · simp only at h
    split at h
    · cases h
    · rename_i h1 h2
      rw [not_not] at h2
      split at h
      · cases h
      · cases h
        exact ⟨by omega, rfl, Nat.div_mul_cancel (Nat.dvd_of_mod_eq_zero h2.2),
          Nat.div_mul_cancel (Nat.dvd_of_mod_eq_zero h2.1)⟩

/-- The mean of positions in a block is the position of its middle. -/
theorem blockMean_gnomonic {nr nc f : ℕ} (hf : 0 < f) (p : PC ℝ) (i j : ℕ) :
    blockMean f i j (fun r c => (gnomonic nr nc p ((r : ℝ) + 1 / 2, (c : ℝ) + 1 / 2)).1) =
      (gnomonic nr nc p (((i : ℝ) + 1 / 2) * f, ((j : ℝ) + 1 / 2) * f)).1 ∧
    blockMean f i j (fun r c => (gnomonic nr nc p ((r : ℝ) + 1 / 2, (c : ℝ) + 1 / 2)).2) =
      (gnomonic nr nc p (((i : ℝ) + 1 / 2) * f, ((j : ℝ) + 1 / 2) * f)).2 := by
  have hf0 : (f : ℝ) ≠ 0 := by exact_mod_cast hf.ne'
  have hsum : ∀ n : ℕ, ∑ k ∈ Finset.range n, ((k : ℝ) + 1 / 2) = n * n / 2 := by
    intro n
    induction n with
    | zero => simp
    | succ n ih => rw [Finset.sum_range_succ, ih]; push_cast; ring
  have hlin : ∀ x y : ℝ, ∑ k ∈ Finset.range f, (x + y * ((k : ℝ) + 1 / 2)) = f * x + y * (f * f / 2) := by
    intro x y
    rw [Finset.sum_add_distrib, ← Finset.mul_sum, hsum, Finset.sum_const, Finset.card_range, nsmul_eq_mul]
  unfold blockMean gnomonic
  simp only
  constructor
  · have e : ∀ k : ℕ, (p.y * nr - (((i * f + k : ℕ) : ℝ) + 1 / 2)) / (p.z * nr) =
        (p.y * nr - i * f) / (p.z * nr) + -1 / (p.z * nr) * ((k : ℝ) + 1 / 2) := by
      intro k; push_cast; ring
    simp only [e, Finset.sum_const, Finset.card_range, nsmul_eq_mul]
    rw [← Finset.mul_sum, hlin]
    field_simp
    ring
  · have e : ∀ k : ℕ, ((((j * f + k : ℕ) : ℝ) + 1 / 2) - p.x * nc) / (p.z * nr) =
        (j * f - p.x * nc) / (p.z * nr) + 1 / (p.z * nr) * ((k : ℝ) + 1 / 2) := by
      intro k; push_cast; ring
    simp only [e, hlin, Finset.sum_const, Finset.card_range, nsmul_eq_mul]
    field_simp
    ring

theorem gnomonic_scaled {nr nc f : ℕ} (hf : 0 < f) (p : PC ℝ) (y x : ℝ) :
    gnomonic (nr * f) (nc * f) p (y * f, x * f) = gnomonic nr nc p (y, x) := by
  have hf0 : (f : ℝ) ≠ 0 := by exact_mod_cast hf.ne'
  unfold gnomonic
  push_cast
  refine Prod.ext ?_ ?_ <;> simp only
  · rw [← mul_assoc, ← mul_assoc, ← sub_mul, mul_div_mul_right _ _ hf0]
  · rw [← mul_assoc, ← mul_assoc, ← sub_mul, mul_div_mul_right _ _ hf0]

/-- C139: after downsampling a signal by any accepted factor, patterns simulated on its new detector have
in pixel `(i, j)` the intensity of the master pattern in the direction of the middle of the block
`(i, j)` of pixels of the patterns before, the block whose sum is pixel `(i, j)` of the downsampled
patterns. -/
theorem C139_downsampled (mp : MasterPattern) (hs : mp.checkSuitable = .ok ()) {rotShape : List ℕ}
    {rots : List Quat} {s t : DsSignal ℝ} {factor : ℤ} {dt : Option DType}
    (ht : downsample s factor dt = .ok t) (hd : FitsRotations s.detector rotShape rots)
    {energy : Option ℝ} {upper lower : Img ℝ} (ha : mp.arraysFromEnergy energy = some (upper, lower))
    {dtypeOut : DType} {lo hi : ℤ}
    (hrange : (if dtypeOut ≠ mp.dtype then dtypeRange dtypeOut else some (1, 2)) = some (lo, hi))
    {chunks : List ℕ} (hc : chunks.sum = rots.length) :
    ∃ out, mp.simulate rotShape rots t.detector energy dtypeOut chunks = .ok (rotShape, out) ∧
      out.length = rots.length ∧
      ∀ k q, rots[k]? = some q → ∃ p, s.detector.pc[if s.detector.nav = [1] then 0 else k]? = some p ∧
        ∃ w : List ℝ, out[k]? = some (some (finished mp dtypeOut lo hi w)) ∧
          w.length = t.rows * t.cols ∧
          ∀ i j, i < t.rows → j < t.cols → ∃ u,
            BlockDirection s.rows s.cols factor.toNat s.detector.sampleToDetector q p i j u ∧
            w[i * t.cols + j]? = some (intensityIn upper lower u) := by
  obtain ⟨hf, hdet, hr, hcc⟩ := downsample_detector ht
  have hrc : t.rows = s.rows / factor.toNat ∧ t.cols = s.cols / factor.toNat := by
    unfold downsample at ht
    split at ht
    · cases ht
    · simp only at ht
      split at ht
      · cases ht
      · split at ht
        · cases ht
        · cases ht
          exact ⟨rfl, rfl⟩
  have hd' : FitsRotations t.detector rotShape rots := by
    rw [hdet]
    exact ⟨hd.number, hd.rotations, hd.axes, hd.shape, hd.before⟩
  obtain ⟨out, ho, hl, hk⟩ := simulate_raw mp hs hd' ha hrange hc
  refine ⟨out, ho, hl, fun k q hq => ?_⟩
  obtain ⟨p, hp, w, hw, hwl, hwp⟩ := hk k q hq
  rw [hdet] at hp hwl hwp
  simp only [← hrc.1, ← hrc.2] at hp hwl hwp
  refine ⟨p, hp, w, hw, hwl, fun i j hi hj => ?_⟩
  obtain ⟨u, ⟨v, h1, h2, x, h3, h4⟩, hwu⟩ := hwp i j hi hj
  refine ⟨u, ⟨v, h1, h2, x, h3, ?_⟩, hwu⟩
  have hf0 : 0 < factor.toNat := by omega
  obtain ⟨e1, e2⟩ := blockMean_gnomonic (nr := s.rows) (nc := s.cols) hf0 p i j
  have e3 := gnomonic_scaled (nr := t.rows) (nc := t.cols) hf0 p ((i : ℝ) + 1 / 2) ((j : ℝ) + 1 / 2)
  rw [hrc.1, hrc.2, hr, hcc, ← hrc.1, ← hrc.2] at e3
  rw [e1, e2, e3]
  exact h4

/-- C139: if the factor is odd, patterns simulated on the new detector have in pixel `(i, j)` what patterns
simulated on the detector before have in the middle pixel of the block `(i, j)`. -/
theorem C139_downsampled_odd (mp : MasterPattern) (hs : mp.checkSuitable = .ok ()) {rotShape : List ℕ}
    {rots : List Quat} {s t : DsSignal ℝ} {n : ℕ} {dt : Option DType}
    (ht : downsample s (2 * n + 1) dt = .ok t)
    (hshape : s.detector.nrows = s.rows ∧ s.detector.ncols = s.cols)
    (hd : FitsRotations s.detector rotShape rots)
    {energy : Option ℝ} {upper lower : Img ℝ} (ha : mp.arraysFromEnergy energy = some (upper, lower))
    {dtypeOut : DType} {lo hi : ℤ}
    (hrange : (if dtypeOut ≠ mp.dtype then dtypeRange dtypeOut else some (1, 2)) = some (lo, hi))
    {chunks chunks' : List ℕ} (hc : chunks.sum = rots.length) (hc' : chunks'.sum = rots.length) :
    ∃ out out', mp.simulate rotShape rots s.detector energy dtypeOut chunks = .ok (rotShape, out) ∧
      mp.simulate rotShape rots t.detector energy dtypeOut chunks' = .ok (rotShape, out') ∧
      out.length = rots.length ∧ out'.length = rots.length ∧ ∀ k < rots.length, ∃ w w' : List ℝ,
        out[k]? = some (some (finished mp dtypeOut lo hi w)) ∧
        out'[k]? = some (some (finished mp dtypeOut lo hi w')) ∧
        w.length = s.rows * s.cols ∧ w'.length = t.detector.nrows * t.detector.ncols ∧
        ∀ i j : ℕ, i < t.detector.nrows → j < t.detector.ncols →
          w'[i * t.detector.ncols + j]? =
            w[(i * (2 * n + 1) + n) * s.cols + (j * (2 * n + 1) + n)]? := by
  obtain ⟨hf, hdet, hr, hcc⟩ := downsample_detector ht
  have e0 : ((2 : ℤ) * n + 1).toNat = 2 * n + 1 := by omega
  rw [e0] at hdet hr hcc
  have hd' : FitsRotations t.detector rotShape rots := by
    rw [hdet]
    exact ⟨hd.number, hd.rotations, hd.axes, hd.shape, hd.before⟩
  obtain ⟨out, out', ho, ho', hl, hl', hk⟩ := simulate_same mp hs hd hd' (by rw [hdet]) (by rw [hdet]; rfl) ha
    hrange hc hc'
  refine ⟨out, out', ho, ho', hl, hl', fun k hkl => ?_⟩
  obtain ⟨w, w', hw, hw', hwl, hwl', hp⟩ := hk k hkl
  refine ⟨w, w', hw, hw', by rw [hwl, hshape.1, hshape.2], hwl', fun i j hi hj => ?_⟩
  have hi' : i < s.rows / (2 * n + 1) := by rw [hdet] at hi; exact hi
  have hj' : j < s.cols / (2 * n + 1) := by rw [hdet] at hj; exact hj
  have b : ∀ {x y : ℕ}, x < y → x * (2 * n + 1) + n < y * (2 * n + 1) := by
    intro x y h
    calc x * (2 * n + 1) + n < (x + 1) * (2 * n + 1) := by nlinarith
      _ ≤ y * (2 * n + 1) := Nat.mul_le_mul_right _ h
  rw [hp (i * (2 * n + 1) + n) (j * (2 * n + 1) + n) i j (by rw [hshape.1, ← hr]; exact b hi')
    (by rw [hshape.2, ← hcc]; exact b hj') hi hj ?_, hshape.2]
  intro m p p' hm hm'
  rw [hdet] at hm' ⊢
  simp only [hm, Option.some.injEq] at hm'
  subst hm'
  simp only [hshape.1, hshape.2]
  rw [← gnomonic_scaled (by omega : 0 < 2 * n + 1), hr, hcc]
  congr 2 <;> push_cast <;> ring

/-- C139: neither the pixel size nor the binning factor of the detector matters for simulated patterns. -/
theorem C139_units (mp : MasterPattern) (rotShape : List ℕ) (rots : List Quat) (d : Detector ℝ)
    (pxSize binning : ℝ) (energy : Option ℝ) (dtypeOut : DType) (chunks : List ℕ) :
    mp.simulate rotShape rots { d with pxSize := pxSize, binning := binning } energy dtypeOut chunks =
      mp.simulate rotShape rots d energy dtypeOut chunks := rfl

/-! ### The hypotheses are met -/

/-- One PC for 2 rotations, or 2 PCs. -/
example (p : PC ℝ) (q : Quat) (hz : 0 < p.z) :
    FitsRotations ⟨60, 60, 1, 1, 5, 0, 3, 70, [1], [p]⟩ [2] [q, q] ∧
    FitsRotations ⟨60, 60, 1, 1, 5, 0, 3, 70, [2], [p, p]⟩ [2] [q, q] :=
  ⟨⟨rfl, rfl, by simp, .inr rfl, by simpa using hz⟩, ⟨rfl, rfl, by simp, .inl rfl, by simpa using hz⟩⟩

/-- Patterns of 6 x 9 pixels can be downsampled by 3, and a master pattern can be simulated from without
rescaling. -/
example (p : PC ℝ) : ∃ t : DsSignal ℝ,
    downsample ⟨.uint 8, 6, 9, [], none, ⟨6, 9, 1, 1, 5, 0, 0, 70, [1], [p]⟩⟩ (2 * (1 : ℕ) + 1) none = .ok t ∧
    t.rows = 2 ∧ t.cols = 3 := by
  refine ⟨_, by simp [downsample, dtypeRange]; rfl, ?_, ?_⟩ <;> rfl

example : exampleMaster.checkSuitable = .ok () ∧ (∃ u l, exampleMaster.arraysFromEnergy none = some (u, l)) ∧
    (if DType.uint 8 ≠ exampleMaster.dtype then dtypeRange (.uint 8) else some (1, 2)) = some (1, 2) :=
  ⟨rfl, ⟨_, _, rfl⟩, rfl⟩

end
end Kp
