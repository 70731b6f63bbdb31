import Verif.Model.GetPatterns
import Verif.Props.DirectionCosines

/-
C32: shapes of detectors and rotations. C63: each simulated pattern is made from its own rotation
and PC.
-/

namespace Kp

variable {R D P : Type*}

theorem splitChunks_flatten {α : Type*} (cs : List ℕ) (xs : List α) (h : cs.sum = xs.length) :
    (splitChunks cs xs).flatten = xs := by
  induction cs generalizing xs with
  | nil =>
    simp only [List.sum_nil] at h
    rw [List.length_eq_zero_iff.1 h.symm]
    rfl
  | cons c cs ih =>
    simp only [List.sum_cons] at h
    rw [splitChunks, List.flatten_cons, ih _ (by simp; omega), List.take_append_drop]

theorem projectFixed_chunks (proj : R → D → P) (dc : D) (cs : List ℕ) (rots : List R)
    (h : cs.sum = rots.length) :
    ((splitChunks cs rots).map (projectFixed proj dc)).flatten =
      rots.map (fun r => some (proj r dc)) := by
  have : (splitChunks cs rots).map (projectFixed proj dc) =
      (splitChunks cs rots).map (List.map (fun r => some (proj r dc))) := rfl
  rw [this, ← List.map_flatten, splitChunks_flatten cs rots h]

theorem projectVarying_eq (proj : R → D → P) (rots : List R) (dcs : List D)
    (h : rots.length = dcs.length) :
    projectVarying proj rots dcs = (rots.zip dcs).map (fun p => some (proj p.1 p.2)) := by
  refine List.ext_getElem (by simp [projectVarying, h]) fun i h1 h2 => ?_
  have hi : i < rots.length := by simpa [projectVarying] using h1
  simp [projectVarying, List.getElem?_eq_getElem hi, List.getElem?_eq_getElem (h ▸ hi)]

theorem projectVarying_chunks (proj : R → D → P) (cs : List ℕ) (rots : List R) (dcs : List D)
    (hlen : rots.length = dcs.length) (h : cs.sum = rots.length) :
    (List.zipWith (projectVarying proj) (splitChunks cs rots) (splitChunks cs dcs)).flatten =
      (rots.zip dcs).map (fun p => some (proj p.1 p.2)) := by
  induction cs generalizing rots dcs with
  | nil =>
    simp only [List.sum_nil] at h
    rw [List.length_eq_zero_iff.1 h.symm]
    rfl
  | cons c cs ih =>
    simp only [List.sum_cons] at h
    rw [splitChunks, splitChunks, List.zipWith_cons_cons, List.flatten_cons,
      ih _ _ (by simp [hlen]) (by simp; omega), projectVarying_eq _ _ _ (by simp [hlen])]
    rw [← List.map_append]
    congr 1
    conv_rhs => rw [← List.take_append_drop c rots, ← List.take_append_drop c dcs]
    rw [List.zip_append (by simp [hlen])]

/-- C63: with one PC per rotation (equal shapes), pattern number `k` is projected with rotation
`k` and PC `k`; with a single PC, with rotation `k` and that PC. This holds for every division
into chunks, and the result has the shape of the rotations. -/
theorem C63_own_rotation_and_pc_partial (mp : MasterPattern) (hs : mp.checkSuitable = .ok ())
    {rotShape : List ℕ} {rots : List Quat} (hr : rots.length = rotShape.prod)
    (h2 : rotShape.length ≤ 2) {d : Detector ℝ} (hd : d.pc.length = d.nav.prod)
    (hsh : d.nav = rotShape ∨ d.nav = [1]) (m : M3) {energy : Option ℝ} {upper lower : Img ℝ}
    (ha : mp.arraysFromEnergy energy = some (upper, lower)) {dtypeOut : DType} {lo hi : ℤ}
    (hrange : (if dtypeOut ≠ mp.dtype then dtypeRange dtypeOut else some (1, 2)) = some (lo, hi))
    {chunks : List ℕ} (hc : chunks.sum = rots.length) :
    ∃ out, mp.getPatterns rotShape rots d m energy dtypeOut chunks = .ok (rotShape, out) ∧
      out.length = rots.length ∧
      ∀ k rot, rots[k]? = some rot → ∃ pc, d.pc[if d.nav = [1] then 0 else k]? = some pc ∧
        out[k]? = some (some (projectPattern rot upper lower upper.cols upper.rows
          (((upper.cols : ℝ) - 1) / 2)
          (pcDirections d m (List.replicate (d.nrows * d.ncols) true) pc)
          (decide (dtypeOut ≠ mp.dtype)) lo hi dtypeOut)) := by
  have hcheck : ¬(rotShape ≠ d.nav ∧ d.nav.headD 0 > 1) := by
    rcases hsh with h | h
    · simp [h]
    · simp [h]
  have hrange' : (if decide (dtypeOut ≠ mp.dtype) = true then dtypeRange dtypeOut
      else some (1, 2)) = some (lo, hi) := by
    simpa using hrange
  unfold MasterPattern.getPatterns
  simp only [hs]
  rw [if_neg hcheck, if_neg (by omega), ha, hrange']
  simp only
  unfold getPatternsCore
  rw [if_neg hcheck, if_neg (by omega), C30_each_pc hd]
  by_cases h1 : d.nav = [1]
  · rw [if_pos h1]
    rw [h1] at hd
    obtain ⟨p, hp⟩ := List.length_eq_one_iff.1 (by simpa using hd)
    simp only [hp, List.map_cons, List.map_nil]
    refine ⟨_, rfl, ?_, fun k rot hk => ⟨p, by simp [h1], ?_⟩⟩
    · rw [projectFixed_chunks _ _ _ _ hc, List.length_map]
    · rw [projectFixed_chunks _ _ _ _ hc, List.getElem?_map, hk]
      simp
  · rw [if_neg h1]
    have hnav : d.nav = rotShape := hsh.resolve_right h1
    have hlen : rots.length = (d.pc.map (pcDirections d m
        (Option.getD none (List.replicate (d.nrows * d.ncols) true)))).length := by
      rw [List.length_map, hd, hnav, hr]
    refine ⟨_, rfl, ?_, fun k rot hk => ?_⟩
    · rw [projectVarying_chunks _ _ _ _ hlen hc, List.length_map, List.length_zip, ← hlen,
        Nat.min_self]
    · obtain ⟨hk', hkv⟩ := List.getElem?_eq_some_iff.1 hk
      have hk2 : k < d.pc.length := by rw [hd, hnav, ← hr]; exact hk'
      refine ⟨d.pc[k], by rw [if_neg h1]; exact List.getElem?_eq_getElem hk2, ?_⟩
      rw [projectVarying_chunks _ _ _ _ hlen hc, List.getElem?_map]
      rw [List.getElem?_eq_getElem (by simp [hk', hk2]), List.getElem_zip]
      simp [hkv]

/-- A suitable master pattern with two energies. -/
noncomputable def exampleMaster : MasterPattern where
  lambert := true
  inversion := some true
  both := false
  arrays := [(10, ⟨3, 3, fun _ _ => 1⟩, ⟨3, 3, fun _ _ => 1⟩),
    (20, ⟨3, 3, fun r c => r + c⟩, ⟨3, 3, fun _ _ => 1⟩)]
  dtype := .uint 8

/-- C63 is false in general: a detector with a single PC but two navigation axes is accepted
with any number of rotations, and then direction cosines are read outside their array for all
but the first rotation. -/
theorem C63_not_for_two_axes (d : Detector ℝ) (p : PC ℝ) (hnav : d.nav = [1, 1])
    (hpc : d.pc = [p]) (m : M3) (q q' : Quat) :
    ∃ a, exampleMaster.getPatterns [2] [q, q'] d m none (.uint 8) [2] =
      .ok ([2], [some a, none]) := by
  have hs : exampleMaster.checkSuitable = .ok () := rfl
  have ha : exampleMaster.arraysFromEnergy none =
    some (⟨3, 3, fun r c => r + c⟩, ⟨3, 3, fun r c => r + c⟩) := rfl
  unfold MasterPattern.getPatterns
  simp only [hs, ha, hnav]
  rw [C30_each_pc (by rw [hpc, hnav]; rfl), hpc]
  exact ⟨_, rfl⟩

/-- C32: a detector with more than one PC along its first navigation axis raises `ValueError`
unless its navigation shape is that of the rotations. The part for detectors with one PC along
the first axis and more along the second is missing because it is false, see
`C32_not_for_unit_axis`. -/
theorem C32_mismatch_raises_partial (mp : MasterPattern) (hs : mp.checkSuitable = .ok ())
    {rotShape : List ℕ} {d : Detector ℝ} (hn : 1 < d.nav.headD 0) (hne : rotShape ≠ d.nav)
    (rots : List Quat) (m : M3) (energy : Option ℝ) (dtypeOut : DType) (chunks : List ℕ) :
    mp.getPatterns rotShape rots d m energy dtypeOut chunks = .error .valueError := by
  unfold MasterPattern.getPatterns
  simp only [hs]
  exact if_pos ⟨hne, hn⟩

/-- C32: rotations with more than two dimensions raise `ValueError` as well. -/
theorem C32_too_many_dimensions (mp : MasterPattern) (hs : mp.checkSuitable = .ok ())
    {rotShape : List ℕ} (h : 2 < rotShape.length) (d : Detector ℝ) (rots : List Quat) (m : M3)
    (energy : Option ℝ) (dtypeOut : DType) (chunks : List ℕ) :
    mp.getPatterns rotShape rots d m energy dtypeOut chunks = .error .valueError := by
  unfold MasterPattern.getPatterns
  simp only [hs]
  split
  · rfl
  · rfl

/-- C32 is false: a detector with three PCs in a navigation shape of (1, 3) and two rotations
give two patterns instead of an error (from the first two PCs). -/
theorem C32_not_for_unit_axis (d : Detector ℝ) (p p' p'' : PC ℝ) (hnav : d.nav = [1, 3])
    (hpc : d.pc = [p, p', p'']) (m : M3) (q q' : Quat) :
    ∃ a b, exampleMaster.getPatterns [2] [q, q'] d m none (.uint 8) [2] =
      .ok ([2], [some a, some b]) := by
  have hs : exampleMaster.checkSuitable = .ok () := rfl
  have ha : exampleMaster.arraysFromEnergy none =
    some (⟨3, 3, fun r c => r + c⟩, ⟨3, 3, fun r c => r + c⟩) := rfl
  unfold MasterPattern.getPatterns
  simp only [hs, ha, hnav]
  rw [C30_each_pc (by rw [hpc, hnav]; rfl), hpc]
  exact ⟨_, _, rfl⟩

/-- A master pattern is accepted exactly when it is in the Lambert projection and has a point
group that, if there is only one hemisphere, contains inversion. -/
theorem C32_suitable_iff (mp : MasterPattern) :
    mp.checkSuitable = .ok () ↔
      mp.lambert = true ∧ ∃ inv, mp.inversion = some inv ∧ (mp.both = true ∨ inv = true) := by
  unfold MasterPattern.checkSuitable
  rcases mp with ⟨l, i, b, a, dt⟩
  rcases i with _ | i
  · simp
  · cases l <;> cases i <;> cases b <;> simp

/-- C63: with several energies, the patterns are projected from the images at an energy which no
other energy is closer to the one asked for, and at the last energy if none is asked for; with
one energy, from its images whatever is asked for.  With one hemisphere, its image is used for
both. -/
theorem C63_energy (mp : MasterPattern) (hne : mp.arrays ≠ []) (energy : Option ℝ) :
    ∃ a ∈ mp.arrays, mp.arraysFromEnergy energy =
        some (a.2.1, if mp.both then a.2.2 else a.2.1) ∧
      (∀ e, energy = some e → 1 < mp.arrays.length →
        ∀ b ∈ mp.arrays, |a.1 - e| ≤ |b.1 - e|) ∧
      (energy = none → mp.arrays.getLast? = some a) := by
  have fin : ∀ a : ℝ × Img ℝ × Img ℝ, (if mp.both = true then a.2 else (a.2.1, a.2.1)) =
      (a.2.1, if mp.both then a.2.2 else a.2.1) := by
    intro a; cases mp.both <;> rfl
  unfold MasterPattern.arraysFromEnergy
  by_cases hl : mp.arrays.length > 1
  · simp only [hl, if_true]
    cases energy with
    | none =>
      refine ⟨mp.arrays.getLast hne, List.getLast_mem hne, ?_, by simp, fun _ =>
        List.getLast?_eq_some_getLast hne⟩
      simp only [List.getLast?_eq_some_getLast hne, Option.map_some, fin]
    | some e =>
      have key : ∀ (es : List ℝ) (n : ℕ), n ≤ es.length → 0 < es.length →
          (List.range n).foldl
            (fun b i => if |es.getD i 0 - e| < |es.getD b 0 - e| then i else b) 0 < es.length ∧
          ∀ i < n, |es.getD ((List.range n).foldl
            (fun b i => if |es.getD i 0 - e| < |es.getD b 0 - e| then i else b) 0) 0 - e| ≤
              |es.getD i 0 - e| := by
        intro es n
        induction n with
        | zero => intro _ h; exact ⟨h, by simp⟩
        | succ n ih =>
          intro hn h0
          obtain ⟨h1, h2⟩ := ih (by omega) h0
          rw [List.range_succ, List.foldl_append]
          simp only [List.foldl_cons, List.foldl_nil]
          split_ifs with hlt
          · refine ⟨by omega, fun i hi => ?_⟩
            rcases Nat.lt_succ_iff_lt_or_eq.1 hi with hi | rfl
            · exact hlt.le.trans (h2 i hi)
            · exact le_refl _
          · refine ⟨h1, fun i hi => ?_⟩
            rcases Nat.lt_succ_iff_lt_or_eq.1 hi with hi | rfl
            · exact h2 i hi
            · exact not_lt.1 hlt
      obtain ⟨h1, h2⟩ := key (mp.arrays.map Prod.fst) _ (le_refl _) (by simpa using by omega)
      have hk : nearestEnergy (mp.arrays.map Prod.fst) e < mp.arrays.length := by
        simpa [nearestEnergy] using h1
      refine ⟨mp.arrays[nearestEnergy (mp.arrays.map Prod.fst) e], List.getElem_mem hk, ?_, ?_,
        by simp⟩
      · simp only [List.getElem?_eq_getElem hk, Option.map_some, fin]
      · rintro e' he _ b hb
        obtain rfl := Option.some.inj he
        obtain ⟨i, hi, rfl⟩ := List.getElem_of_mem hb
        have := h2 i (by simpa using hi)
        have hc : ∀ j (hj : j < mp.arrays.length),
            (mp.arrays.map Prod.fst).getD j 0 = (mp.arrays[j]).1 := by
          intro j hj
          rw [List.getD_eq_getElem?_getD, List.getElem?_map, List.getElem?_eq_getElem hj]
          rfl
        rw [hc i hi] at this
        have h3 := hc _ hk
        unfold nearestEnergy at h3
        rw [h3] at this
        exact this
  · simp only [hl, if_false]
    cases ha : mp.arrays with
    | nil => exact absurd ha hne
    | cons a l =>
      have hl' : l = [] := by
        rw [ha] at hl
        cases l with
        | nil => rfl
        | cons b l => simp at hl
      subst hl'
      refine ⟨a, by simp, by simp [fin], by simp, by simp⟩

example : exampleMaster.arrays ≠ [] := by simp [exampleMaster]

example : exampleMaster.checkSuitable = .ok () := rfl

/-- The highest energy by default, and one hemisphere used for both. -/
example : exampleMaster.arraysFromEnergy none =
    some (⟨3, 3, fun r c => r + c⟩, ⟨3, 3, fun r c => r + c⟩) := rfl

example : (if DType.float 32 ≠ exampleMaster.dtype then dtypeRange (.float 32) else some (1, 2)) =
    some (-1, 1) := by decide

example : getPatternsCore (fun r d => 10 * r + d) [3] [1, 2, 3] [3] [4, 5, 6] [2, 1] =
    .ok ([3], [some 14, some 25, some 36]) := rfl

end Kp
