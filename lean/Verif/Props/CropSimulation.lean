/-
C117: simulating patterns on a cropped detector gives the cropped patterns.
-/
import Verif.Model.CropSimulation
import Verif.Props.PatternOverlay

namespace Kp
open Spec
noncomputable section

/-- The pattern in the result for the intensities `w` on the detector: rescaled as a whole if the
data type is another than that of the master pattern. -/
def Spec.finished (mp : MasterPattern) (dtypeOut : DType) (lo hi : ℤ) (w : List ℝ) : List ℝ :=
  (if dtypeOut ≠ mp.dtype then rescaleWithMinMax w (listMin w) (listMax w) lo hi else w).map
    (castTo dtypeOut)

/-- The patterns of rotations with one PC for all or one for each, whatever the shapes, if they are
accepted. -/
theorem patterns_raw (mp : MasterPattern) (hs : mp.checkSuitable = .ok ())
    {rotShape : List ℕ} {rots : List Quat} (h2 : rotShape.length ≤ 2) {d : Detector ℝ}
    (hd : d.pc.length = d.nav.prod) (hcheck : rotShape = d.nav ∨ d.nav.headD 0 ≤ 1)
    (hlen : d.nav = [1] ∨ d.pc.length = rots.length) {m : M3} (hm : ProperRotation m)
    (hz : ∀ p ∈ d.pc, 0 < p.z) {energy : Option ℝ} {upper lower : Img ℝ}
    (ha : mp.arraysFromEnergy energy = some (upper, lower)) {dtypeOut : DType} {lo hi : ℤ}
    (hrange : (if dtypeOut ≠ mp.dtype then dtypeRange dtypeOut else some (1, 2)) = some (lo, hi))
    {chunks : List ℕ} (hc : chunks.sum = rots.length) :
    ∃ out, mp.getPatterns rotShape rots d m energy dtypeOut chunks = .ok (rotShape, out) ∧
      out.length = rots.length ∧
      ∀ k q, rots[k]? = some q → ∃ p, d.pc[if d.nav = [1] then 0 else k]? = some p ∧
        ∃ w : List ℝ, out[k]? = some (some (finished mp dtypeOut lo hi w)) ∧
          w.length = d.nrows * d.ncols ∧
          ∀ r c, r < d.nrows → c < d.ncols → ∃ u, PixelDirection d.nrows d.ncols m q p r c u ∧
            w[r * d.ncols + c]? = some (projectPixel ⟨1, 0, 0, 0⟩ upper lower upper.cols upper.rows
              (((upper.cols : ℝ) - 1) / 2) u) := by
  have hcheck' : ¬(rotShape ≠ d.nav ∧ d.nav.headD 0 > 1) := by
    rintro ⟨h1, h3⟩
    rcases hcheck with h | h
    · exact h1 h
    · omega
  have hrange' : (if decide (dtypeOut ≠ mp.dtype) = true then dtypeRange dtypeOut
      else some (1, 2)) = some (lo, hi) := by
    simpa using hrange
  have hraw : ∀ (q : Quat) (p : PC ℝ), p ∈ d.pc → ∃ w : List ℝ,
      projectPattern q upper lower upper.cols upper.rows (((upper.cols : ℝ) - 1) / 2)
          (pcDirections d m (List.replicate (d.nrows * d.ncols) true) p)
          (decide (dtypeOut ≠ mp.dtype)) lo hi dtypeOut = finished mp dtypeOut lo hi w ∧
        w.length = d.nrows * d.ncols ∧
        ∀ r c, r < d.nrows → c < d.ncols → ∃ u, PixelDirection d.nrows d.ncols m q p r c u ∧
          w[r * d.ncols + c]? = some (projectPixel ⟨1, 0, 0, 0⟩ upper lower upper.cols upper.rows
            (((upper.cols : ℝ) - 1) / 2) u) := by
    intro q p hp
    obtain ⟨hl, hpix⟩ := C30_pixel_centers (d := d) hm (hz p hp)
      (List.replicate (d.nrows * d.ncols) true)
    refine ⟨(pcDirections d m (List.replicate (d.nrows * d.ncols) true) p).map (projectPixel q
      upper lower upper.cols upper.rows (((upper.cols : ℝ) - 1) / 2)), ?_, by simpa using hl, ?_⟩
    · unfold projectPattern finished
      simp only [decide_eq_true_eq]
    · intro r c hrr hcc
      have hlt : r * d.ncols + c < d.nrows * d.ncols := by
        calc r * d.ncols + c < r * d.ncols + d.ncols := by omega
          _ = (r + 1) * d.ncols := by ring
          _ ≤ d.nrows * d.ncols := Nat.mul_le_mul_right _ hrr
      obtain ⟨v, hv, hunit, t, ht, hmv⟩ := hpix r c hrr hcc (by simp [hlt])
      have hidx : ((List.replicate (d.nrows * d.ncols) true).take (r * d.ncols + c)).count true =
          r * d.ncols + c := by
        rw [List.take_replicate, List.count_replicate_self]; omega
      rw [hidx] at hv
      refine ⟨rotateVector q v, ⟨v, ?_, rfl, t, ht, hmv⟩, ?_⟩
      · unfold V3.dot; linarith
      · rw [List.getElem?_map, hv]
        simp only [Option.map_some, projectPixel, rotateVector_one]
  unfold MasterPattern.getPatterns
  simp only [hs]
  rw [if_neg hcheck', if_neg (by omega), ha, hrange']
  simp only
  unfold getPatternsCore
  rw [if_neg hcheck', if_neg (by omega), C30_each_pc hd]
  by_cases h1 : d.nav = [1]
  · rw [if_pos h1]
    rw [h1] at hd
    obtain ⟨p, hp⟩ := List.length_eq_one_iff.1 (by simpa using hd)
    simp only [hp, List.map_cons, List.map_nil]
    refine ⟨_, rfl, ?_, fun k rot hk => ⟨p, by simp [h1], ?_⟩⟩
    · rw [projectFixed_chunks _ _ _ _ hc, List.length_map]
    · obtain ⟨w, hw, hw1, hw2⟩ := hraw rot p (by rw [hp]; simp)
      refine ⟨w, ?_, hw1, hw2⟩
      rw [projectFixed_chunks _ _ _ _ hc, List.getElem?_map, hk, ← hw]
      simp
  · rw [if_neg h1]
    have hpl := hlen.resolve_left h1
    have hlen' : rots.length = (d.pc.map (pcDirections d m
        (Option.getD none (List.replicate (d.nrows * d.ncols) true)))).length := by
      rw [List.length_map, hpl]
    refine ⟨_, rfl, ?_, fun k rot hk => ?_⟩
    · rw [projectVarying_chunks _ _ _ _ hlen' hc, List.length_map, List.length_zip, ← hlen',
        Nat.min_self]
    · obtain ⟨hk', hkv⟩ := List.getElem?_eq_some_iff.1 hk
      have hk2 : k < d.pc.length := by rw [hpl]; exact hk'
      obtain ⟨w, hw, hw1, hw2⟩ := hraw rot d.pc[k] (List.getElem_mem hk2)
      refine ⟨d.pc[k], by rw [if_neg h1]; exact List.getElem?_eq_getElem hk2, w, ?_, hw1, hw2⟩
      rw [projectVarying_chunks _ _ _ _ hlen' hc, List.getElem?_map]
      rw [List.getElem?_eq_getElem (by simp [hk', hk2]), List.getElem_zip, ← hw]
      simp [hkv]

/-- C08, for a detector with angles in degrees: sample vectors turn by the detector tilt minus the
sample tilt (upwards), then by the azimuthal angle (to the right), then by the twist
(counter-clockwise). -/
theorem C08_detector_in_degrees (d : Detector ℝ) (v : V3 ℝ) :
    let δ := (d.tilt - d.sampleTilt) * Real.pi / 180
    let ω := d.azimuthal * Real.pi / 180
    let γ := d.twist * Real.pi / 180
    let y := v.z * Real.cos δ + v.x * Real.sin δ
    let z := v.x * Real.cos δ - v.z * Real.sin δ
    let x' := v.y * Real.cos ω + z * Real.sin ω
    let z' := z * Real.cos ω - v.y * Real.sin ω
    d.sampleToDetector.apply v =
      ⟨x' * Real.cos γ - y * Real.sin γ, x' * Real.sin γ + y * Real.cos γ, z'⟩ := by
  intro δ ω γ y z x' z'
  unfold Detector.sampleToDetector
  have e1 : degToRad d.azimuthal = ω := by simp only [degToRad, ω]; ring
  have e2 : degToRad d.twist = γ := by simp only [degToRad, γ]; ring
  have e3 : degToRad d.tilt - degToRad d.sampleTilt = δ := by simp only [degToRad, δ]; ring
  rw [C08_twist_is_counter_clockwise, C08_azimuthal_is_to_the_right, C08_only_tilts, e1, e2, e3]
  simp only [M3.apply, V3.dot, x', y, z', z]
  ext <;> simp only <;> ring

/-- Everything about a cropped detector. -/
theorem crop_ok {d d' : Detector ℝ} {t b l r : ℤ} (h : d.crop (t, b, l, r) = .ok d') :
    d'.nav = dstackNav d.nav ∧ d'.pc.length = d.pc.length ∧ d'.tilt = d.tilt ∧
    d'.azimuthal = d.azimuthal ∧ d'.sampleTilt = d.sampleTilt ∧ d'.twist = 0 ∧
    (d'.nrows : ℤ) = min b d.nrows - max t 0 ∧ (d'.ncols : ℤ) = min r d.ncols - max l 0 ∧
    d'.pc = d.pc.map (d.cropPc (max t 0) (max l 0) (d'.nrows : ℤ) (d'.ncols : ℤ)) ∧
    0 < d'.nrows ∧ 0 < d'.ncols := by
  unfold Detector.crop at h
  simp only at h
  split at h
  · cases h
  · rename_i hpos
    simp only [not_or, not_le, cropExtent] at hpos
    obtain ⟨hy, hx⟩ := hpos
    simp only [Except.ok.injEq] at h
    subst h
    simp only [cropExtent]
    have e1 : (((min b (d.nrows : ℤ) - max t 0).toNat : ℕ) : ℤ) = min b (d.nrows : ℤ) - max t 0 :=
      Int.toNat_of_nonneg hy.le
    have e2 : (((min r (d.ncols : ℤ) - max l 0).toNat : ℕ) : ℤ) = min r (d.ncols : ℤ) - max l 0 :=
      Int.toNat_of_nonneg hx.le
    refine ⟨trivial, by simp, trivial, trivial, trivial, trivial, e1, e2, by rw [e1, e2], ?_, ?_⟩ <;>
      omega

/-- The direction of a pixel of the cropped detector is that of the same pixel before. -/
theorem crop_direction {d d' : Detector ℝ} {t b l r : ℤ} (h : d.crop (t, b, l, r) = .ok d') {k : ℕ}
    {p p' : PC ℝ} (hp : d.pc[k]? = some p) (hp' : d'.pc[k]? = some p') (hz : 0 < p.z) {m : M3}
    {q : Quat} {i j : ℕ} {u : V3 ℝ} (hu : PixelDirection d'.nrows d'.ncols m q p' i j u) :
    PixelDirection d.nrows d.ncols m q p (i + (max t 0).toNat) (j + (max l 0).toNat) u := by
  obtain ⟨-, -, -, -, -, -, hny, hnx, hpc, hr0, hc0⟩ := crop_ok h
  have hgn := C05_crop_keeps_gnomonic d d' t b l r h k p p' hp hp' hz.ne' ((i : ℝ) + 1 / 2)
    ((j : ℝ) + 1 / 2)
  have hp'z : p'.z ≠ 0 := by
    rw [hpc, List.getElem?_map, hp, Option.map_some, Option.some.injEq] at hp'
    subst hp'
    have h1 : (0 : ℝ) < d.nrows := by exact_mod_cast (by omega : 0 < d.nrows)
    have h2 : (0 : ℝ) < ((d'.nrows : ℤ) : ℝ) := by exact_mod_cast hr0
    exact (div_pos (mul_pos hz h1) h2).ne'
  rw [toGnomonic_eq_spec d' p' (by omega) (by omega) hp'z,
    toGnomonic_eq_spec d p (by omega) (by omega) hz.ne'] at hgn
  obtain ⟨s, hs, hus, t', ht', hmt⟩ := hu
  refine ⟨s, hs, hus, t', ht', ?_⟩
  rw [hmt, hgn]
  have et : (((max t 0).toNat : ℕ) : ℝ) = ((max t 0 : ℤ) : ℝ) := by
    exact_mod_cast congrArg (Int.cast (R := ℝ)) (Int.toNat_of_nonneg (le_max_right t 0))
  have el : (((max l 0).toNat : ℕ) : ℝ) = ((max l 0 : ℤ) : ℝ) := by
    exact_mod_cast congrArg (Int.cast (R := ℝ)) (Int.toNat_of_nonneg (le_max_right l 0))
  push_cast [et, el]
  ring_nf

/-- C117 (partial): patterns simulated on a cropped detector show the same intensities as the cropped
part of the patterns simulated on the whole detector, pixel by pixel, for every crop, master pattern,
set of rotations, PCs and tilts (before they are rescaled, if another data type is asked for).
Missing: detectors with a twist, and a single PC for several rotations (false: see
`C117_twist_violated` and `C117_single_pc_violated`). -/
theorem C117_crop_partial (mp : MasterPattern) (hs : mp.checkSuitable = .ok ())
    {rotShape : List ℕ} {rots : List Quat} (hr : rots.length = rotShape.prod)
    {d d' : Detector ℝ} {t b l r : ℤ} (hcrop : d.crop (t, b, l, r) = .ok d')
    (hd : d.pc.length = d.nav.prod) (htwist : d.twist = 0)
    (hshape : d.nav = rotShape ∧ (rotShape.length = 1 ∨ rotShape.length = 2))
    (hz : ∀ p ∈ d.pc, 0 < p.z) {energy : Option ℝ} {upper lower : Img ℝ}
    (ha : mp.arraysFromEnergy energy = some (upper, lower)) {dtypeOut : DType} {lo hi : ℤ}
    (hrange : (if dtypeOut ≠ mp.dtype then dtypeRange dtypeOut else some (1, 2)) = some (lo, hi))
    {chunks chunks' : List ℕ} (hc : chunks.sum = rots.length) (hc' : chunks'.sum = rots.length) :
    ∃ out out', mp.simulate rotShape rots d energy dtypeOut chunks = .ok (rotShape, out) ∧
      mp.simulate rotShape rots d' energy dtypeOut chunks' = .ok (rotShape, out') ∧
      out.length = rots.length ∧ out'.length = rots.length ∧ ∀ k < rots.length, ∃ w w' : List ℝ, out[k]? = some (some (finished mp dtypeOut lo hi w)) ∧
        out'[k]? = some (some (finished mp dtypeOut lo hi w')) ∧
        w.length = d.nrows * d.ncols ∧ w'.length = d'.nrows * d'.ncols ∧
        ∀ i j, i < d'.nrows → j < d'.ncols →
          w'[i * d'.ncols + j]? =
            w[(i + (max t 0).toNat) * d.ncols + (j + (max l 0).toNat)]? := by
  obtain ⟨hnav', hplen, htilt, haz, hst, htw, hny, hnx, hpc, hr0, hc0⟩ := crop_ok hcrop
  obtain ⟨hnav, hdim⟩ := hshape
  have hmm : d'.sampleToDetector = d.sampleToDetector := by
    unfold Detector.sampleToDetector
    rw [htilt, haz, hst, htw, htwist]
  have hm : ProperRotation d.sampleToDetector := C08_sample_to_detector_is_proper_rotation _ _ _ _
  have hz' : ∀ p' ∈ d'.pc, 0 < p'.z := by
    intro p' hp'
    rw [hpc] at hp'
    obtain ⟨p, hp, rfl⟩ := List.mem_map.1 hp'
    have h1 : (0 : ℝ) < d.nrows := by exact_mod_cast (by omega : 0 < d.nrows)
    have h2 : (0 : ℝ) < ((d'.nrows : ℤ) : ℝ) := by exact_mod_cast hr0
    exact div_pos (mul_pos (hz p hp) h1) h2
  obtain ⟨out, ho, hol, hk⟩ := patterns_raw mp hs (rots := rots) (by omega) hd (.inl hnav.symm)
    (.inr (by rw [hd, hnav, hr])) hm hz ha hrange hc
  have hnav1 : d'.nav.prod = d.nav.prod ∧ (rotShape = d'.nav ∨ d'.nav.headD 0 ≤ 1) ∧
      d'.nav ≠ [1] := by
    rw [hnav', hnav]
    rcases hdim with h | h
    · obtain ⟨n, rfl⟩ := List.length_eq_one_iff.1 h
      simp [dstackNav]
    · obtain ⟨n1, n2, rfl⟩ := List.length_eq_two.1 h
      simp [dstackNav]
  obtain ⟨out', ho', hol', hk'⟩ := patterns_raw mp hs (rots := rots) (rotShape := rotShape)
    (d := d') (by omega) (by rw [hplen, hd, hnav1.1]) hnav1.2.1
    (.inr (by rw [hplen, hd, hnav, hr])) hm hz' ha hrange hc'
  refine ⟨out, out', ho, by unfold MasterPattern.simulate; rw [hmm]; exact ho', hol, hol',
    fun k hkl => ?_⟩
  obtain ⟨q, hq⟩ : ∃ q, rots[k]? = some q := ⟨_, List.getElem?_eq_getElem hkl⟩
  obtain ⟨p, hp, w, hw, hwl, hwp⟩ := hk k q hq
  obtain ⟨p', hp', w', hw', hwl', hwp'⟩ := hk' k q hq
  rw [if_neg hnav1.2.2] at hp'
  have hpk : d.pc[k]? = some p := by
    split at hp
    · rename_i h1
      have hk0 : k = 0 := by
        rw [hr, ← hnav, h1] at hkl
        simpa using hkl
      rw [hk0]
      exact hp
    · exact hp
  refine ⟨w, w', hw, hw', hwl, hwl', fun i j hi hj => ?_⟩
  obtain ⟨u', hu', hwu'⟩ := hwp' i j hi hj
  obtain ⟨u, hu, hwu⟩ := hwp (i + (max t 0).toNat) (j + (max l 0).toNat) (by omega) (by omega)
  have := crop_direction hcrop hpk hp' (hz p (List.mem_of_getElem? hpk)) hu'
  rw [C116_direction_unique hm this hu] at hwu'
  rw [hwu', hwu]

/-- C117 is false for a single PC: after ANY crop, simulating two patterns reads outside the array
of direction cosines for the second one, although both are simulated before the crop. -/
theorem C117_single_pc_violated (d d' : Detector ℝ) (p : PC ℝ) (hnav : d.nav = [1])
    (hpc : d.pc = [p]) (e : ℤ × ℤ × ℤ × ℤ) (h : d.crop e = .ok d') (q q' : Quat) :
    (∃ a b, exampleMaster.simulate [2] [q, q'] d none (.uint 8) [2] =
      .ok ([2], [some a, some b])) ∧
    ∃ a, exampleMaster.simulate [2] [q, q'] d' none (.uint 8) [2] = .ok ([2], [some a, none]) := by
  obtain ⟨t, b, l, r⟩ := e
  obtain ⟨hnav', -, -, -, -, -, -, -, hpc', -⟩ := crop_ok h
  constructor
  · obtain ⟨out, ho, hlen, hk⟩ := C63_own_rotation_and_pc_partial exampleMaster rfl
      (rotShape := [2]) (rots := [q, q']) rfl (by simp) (d := d) (by rw [hpc, hnav]; rfl) (.inr hnav)
      d.sampleToDetector (energy := none) rfl (dtypeOut := .uint 8) (lo := 1) (hi := 2) rfl
      (chunks := [2]) rfl
    obtain ⟨_, -, h0⟩ := hk 0 q rfl
    obtain ⟨_, -, h1⟩ := hk 1 q' rfl
    unfold MasterPattern.simulate
    match out, hlen, h0, h1, ho with
    | [a, b], _, h0, h1, ho =>
      simp only [List.getElem?_cons_zero, List.getElem?_cons_succ, Option.some.injEq] at h0 h1
      rw [ho, h0, h1]
      exact ⟨_, _, rfl⟩
  · refine C63_not_for_two_axes d' (d.cropPc (max t 0) (max l 0) (d'.nrows : ℤ) (d'.ncols : ℤ) p) ?_
      ?_ _ q q'
    · rw [hnav', hnav]; rfl
    · rw [hpc', hpc]; rfl

/-- C117: if the patterns are not rescaled (same data type as the master pattern), the patterns in
the results are themselves equal pixel by pixel. -/
theorem C117_crop_not_rescaled_partial (mp : MasterPattern) (hs : mp.checkSuitable = .ok ())
    {rotShape : List ℕ} {rots : List Quat} (hr : rots.length = rotShape.prod)
    {d d' : Detector ℝ} {t b l r : ℤ} (hcrop : d.crop (t, b, l, r) = .ok d')
    (hd : d.pc.length = d.nav.prod) (htwist : d.twist = 0)
    (hshape : d.nav = rotShape ∧ (rotShape.length = 1 ∨ rotShape.length = 2))
    (hz : ∀ p ∈ d.pc, 0 < p.z) {energy : Option ℝ} {upper lower : Img ℝ}
    (ha : mp.arraysFromEnergy energy = some (upper, lower))
    {chunks chunks' : List ℕ} (hc : chunks.sum = rots.length) (hc' : chunks'.sum = rots.length) :
    ∃ out out', mp.simulate rotShape rots d energy mp.dtype chunks = .ok (rotShape, out) ∧
      mp.simulate rotShape rots d' energy mp.dtype chunks' = .ok (rotShape, out') ∧
      out.length = rots.length ∧ out'.length = rots.length ∧ ∀ k < rots.length, ∃ w w' : List ℝ, out[k]? = some (some w) ∧ out'[k]? = some (some w') ∧
        w.length = d.nrows * d.ncols ∧ w'.length = d'.nrows * d'.ncols ∧
        ∀ i j, i < d'.nrows → j < d'.ncols →
          w'[i * d'.ncols + j]? =
            w[(i + (max t 0).toNat) * d.ncols + (j + (max l 0).toNat)]? := by
  obtain ⟨out, out', h, h', hol, hol', hk⟩ := C117_crop_partial mp hs hr hcrop hd htwist hshape hz ha
    (dtypeOut := mp.dtype) (lo := 1) (hi := 2) (by simp) hc hc'
  refine ⟨out, out', h, h', hol, hol', fun k hkl => ?_⟩
  obtain ⟨w, w', hw, hw', hl, hl', hp⟩ := hk k hkl
  refine ⟨_, _, hw, hw', by simp [finished, hl], by simp [finished, hl'], fun i j hi hj => ?_⟩
  simp only [finished, ne_eq, not_true_eq_false, if_false, List.getElem?_map, hp i j hi hj]

/-- A suitable master pattern: intensity 1 in the upper hemisphere, 2 in the lower. -/
def hemisphereMaster : MasterPattern where
  lambert := true
  inversion := some true
  both := true
  arrays := [(20, ⟨3, 3, fun _ _ => 1⟩, ⟨3, 3, fun _ _ => 2⟩)]
  dtype := .float 64

theorem masterPixel_const (n m : ℕ) (x : ℝ) (v : V3 ℝ) (npx npy : ℤ) (scale : ℝ) :
    masterPixel (Img.mk n m fun _ _ => x) (lambertInterp v npx npy scale) = x := by
  unfold masterPixel lambertInterp interpAt
  simp only
  ring

theorem twisted_matrix (v : V3 ℝ) :
    (sampleToDetectorMatrix 0 0 0 Real.pi).apply v = ⟨-v.y, -v.z, v.x⟩ := by
  unfold sampleToDetectorMatrix
  simp [rotateAboutRow, basis0, M3.row, normalizeV, rodriguesRow, M3.apply, V3.dot]

/-- C117 is false for a detector with a twist: cropping it to its whole extent, nothing being cut
off, changes the simulated pattern. -/
theorem C117_twist_violated :
    ∃ (d d' : Detector ℝ) (q : Quat), d.crop (0, d.nrows, 0, d.ncols) = .ok d' ∧
      d'.nrows = d.nrows ∧ d'.ncols = d.ncols ∧ d.nav = [1] ∧
      hemisphereMaster.simulate [1] [q] d none (.float 64) [1] = .ok ([1], [some [2]]) ∧
      hemisphereMaster.simulate [1] [q] d' none (.float 64) [1] = .ok ([1], [some [1]]) := by
  have main : ∀ (d : Detector ℝ) (p : PC ℝ), d.nrows = 1 → d.ncols = 1 → d.pc = [p] →
      (d.nav = [1] ∨ d.nav = [1, 1]) → p = ⟨1 / 2, 1, 1⟩ → ∃ u,
      PixelDirection 1 1 d.sampleToDetector ⟨1, 0, 0, 0⟩ p 0 0 u ∧
      hemisphereMaster.simulate [1] [⟨1, 0, 0, 0⟩] d none (.float 64) [1] =
        .ok ([1], [some [if 0 ≤ u.z then 1 else 2]]) := by
    rintro d p hr hc hpc hnav hp
    have hm : ProperRotation d.sampleToDetector := C08_sample_to_detector_is_proper_rotation _ _ _ _
    obtain ⟨out, ho, hl, hk⟩ := patterns_raw hemisphereMaster rfl (rotShape := [1])
      (rots := [⟨1, 0, 0, 0⟩]) (by simp) (d := d)
      (by rcases hnav with h | h <;> simp [h, hpc]) (by rcases hnav with h | h <;> simp [h])
      (.inr (by rw [hpc]; rfl)) hm (by rw [hpc, hp]; simp) (energy := none) rfl
      (dtypeOut := .float 64) (lo := 1) (hi := 2) (by simp [hemisphereMaster]) (chunks := [1]) rfl
    obtain ⟨p', hp', w, hw, hwl, hwp⟩ := hk 0 _ rfl
    obtain ⟨u, hu, hwu⟩ := hwp 0 0 (by omega) (by omega)
    have hpp : p' = p := by
      rw [hpc] at hp'
      split at hp' <;> simpa using hp'.symm
    rw [hpp, hr, hc] at hu
    refine ⟨u, hu, ?_⟩
    unfold MasterPattern.simulate
    rw [ho]
    rw [hr, hc] at hwl
    obtain ⟨y, hy⟩ := List.length_eq_one_iff.1 hwl
    rw [hy] at hwu hw
    obtain ⟨o, hoo⟩ := List.length_eq_one_iff.1 hl
    rw [hoo] at hw ⊢
    simp only [Nat.zero_mul, Nat.zero_add, List.getElem?_cons_zero, Option.some.injEq] at hwu hw
    rw [hw, hwu]
    simp only [finished, hemisphereMaster, ne_eq, not_true_eq_false, if_false, List.map_cons,
      List.map_nil, castTo, projectPixel, rotateVector_one]
    simp [masterPixel_const]
  have hy : (gnomonic (K := ℝ) 1 1 ⟨1 / 2, 1, 1⟩ (((0 : ℕ) : ℝ) + 1 / 2, ((0 : ℕ) : ℝ) + 1 / 2)).1 =
      1 / 2 := by
    simp only [gnomonic]; norm_num
  set p : PC ℝ := ⟨1 / 2, 1, 1⟩ with hp
  have hcrop : (⟨1, 1, 1, 1, 0, 0, 180, 0, [1], [p]⟩ : Detector ℝ).crop (0, 1, 0, 1) =
      .ok ⟨1, 1, 1, 1, 0, 0, 0, 0, [1, 1], [p]⟩ := by
    rw [crop_eq]
    norm_num [dstackNav, Detector.cropPc, hp]
  refine ⟨⟨1, 1, 1, 1, 0, 0, 180, 0, [1], [p]⟩, ⟨1, 1, 1, 1, 0, 0, 0, 0, [1, 1], [p]⟩, ⟨1, 0, 0, 0⟩,
    by simpa using hcrop, rfl, rfl, rfl, ?_, ?_⟩
  · obtain ⟨u, ⟨s, -, hus, t, ht, hmt⟩, h⟩ := main ⟨1, 1, 1, 1, 0, 0, 180, 0, [1], [p]⟩ p rfl rfl rfl
      (.inl rfl) rfl
    rw [h]
    have hmat : (⟨1, 1, 1, 1, 0, 0, 180, 0, [1], [p]⟩ : Detector ℝ).sampleToDetector =
        sampleToDetectorMatrix 0 0 0 Real.pi := by
      unfold Detector.sampleToDetector degToRad
      simp only [zero_mul]
      congr 1
      ring
    rw [hmat, twisted_matrix] at hmt
    have h2 := congrArg V3.y hmt
    rw [rotateVector_one] at hus
    simp only [V3.smul, hy] at h2
    rw [if_neg (by rw [hus]; linarith)]
  · obtain ⟨u, ⟨s, -, hus, t, ht, hmt⟩, h⟩ := main ⟨1, 1, 1, 1, 0, 0, 0, 0, [1, 1], [p]⟩ p rfl rfl rfl
      (.inr rfl) rfl
    rw [h]
    have hmat : (⟨1, 1, 1, 1, 0, 0, 0, 0, [1, 1], [p]⟩ : Detector ℝ).sampleToDetector =
        sampleToDetectorMatrix 0 0 0 0 := by
      unfold Detector.sampleToDetector degToRad
      simp only [zero_mul]
    rw [hmat, C08_zero_angles] at hmt
    have h2 := congrArg V3.y hmt
    rw [rotateVector_one] at hus
    simp only [V3.smul, hy] at h2
    rw [if_pos (by rw [hus]; linarith)]

/-! ### The hypotheses are met -/

/-- A crop of a detector with 2 x 2 PCs, for 2 x 2 rotations. -/
example (p : PC ℝ) (q : Quat) (hz : 0 < p.z) : ∃ (d d' : Detector ℝ) (upper lower : Img ℝ),
    exampleMaster.checkSuitable = .ok () ∧ [q, q, q, q].length = [2, 2].prod ∧
    d.crop (-3, 40, 10, 30) = .ok d' ∧ d'.nrows = 40 ∧ d'.ncols = 20 ∧
    d.pc.length = d.nav.prod ∧ d.twist = 0 ∧ d.nav = [2, 2] ∧
    (∀ p ∈ d.pc, 0 < p.z) ∧ exampleMaster.arraysFromEnergy none = some (upper, lower) ∧
    (if DType.float 32 ≠ exampleMaster.dtype then dtypeRange (.float 32) else some (1, 2)) =
      some (-1, 1) ∧ [3, 1].sum = [q, q, q, q].length :=
  ⟨⟨60, 60, 1, 1, 5, 0, 0, 70, [2, 2], [p, p, p, p]⟩, _, _, _, rfl, rfl, by rw [crop_eq, if_neg (by
    norm_num)], by norm_num; rfl, by norm_num; rfl, rfl, rfl, rfl, by simpa using hz, rfl, rfl, rfl⟩

/-- A detector with a single PC, for `C117_single_pc_violated`. -/
example (p : PC ℝ) : ∃ d d' : Detector ℝ, d.nav = [1] ∧ d.pc = [p] ∧ d.crop (5, 40, 10, 30) = .ok d' :=
  ⟨⟨60, 60, 1, 1, 5, 0, 0, 70, [1], [p]⟩, _, rfl, rfl, by rw [crop_eq, if_neg (by norm_num)]⟩

end
end Kp
