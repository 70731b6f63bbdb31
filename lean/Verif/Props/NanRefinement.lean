import Verif.Lemmas.NanRefinement
import Verif.Lemmas.RefineExample

/-!
# C153: refinement and patterns without contrast

The correlation with a pattern whose pixels all have the same value is not a number (NaN). These
theorems say which scores are NaN, what is reported then, and that other map points do not notice.
-/

namespace Kp

/-- C153, orientations. For every division into chunks and every optimizer reporting the value at the
point it returns: the score of each refined point is that of its own pattern at the refined
orientation, and is NaN exactly if that pattern or the simulated one has no contrast in the pixels
used. With pseudo-symmetry operators the best of the results is reported if all have a score, and the
first without a score otherwise. Part: the hemispheres must be used as they are (32-bit floats) or
have the same range of intensities, see `C77_hemispheres_violated`; and a result without a score is
preferred, see `C153_start_without_score_violated`. -/
theorem C153_orientation_partial {a : RefineArgs} {u l : Img ℝ} (hv : a.Valid u l)
    (hmp : SameScale a.mp u l) {opt : OptimizerNan} (hopt : Spec.ReportsValue opt)
    {starts lower upper : List (List (List ℝ))}
    (h1 : starts.length = a.points.count true) (h2 : lower.length = a.points.count true)
    (h3 : upper.length = a.points.count true)
    (hs : ∀ x, (x ∈ starts ∨ x ∈ lower ∨ x ∈ upper) → x.length = a.nPs + 1) :
    ∃ rows, refineOrientationNan a opt starts lower upper = .ok rows ∧
      rows.length = a.points.count true ∧
      ∀ j pattern pc s lo up, a.points[j]? = some true → a.patterns[j]? = some pattern →
        a.pcAt j = some pc → starts[a.place j]? = some s → lower[a.place j]? = some lo →
        upper[a.place j]? = some up →
        ∃ row, rows[a.place j]? = some (some row) ∧
          Spec.IsNanScore a pattern (rotationFromEuler (row.x.getD 0 0) (row.x.getD 1 0)
            (row.x.getD 2 0)) pc row.score ∧
          ∃ f : List ℝ → Option ℝ, (∀ x, Spec.IsNanScore a pattern
              (rotationFromEuler (x.getD 0 0) (x.getD 1 0) (x.getD 2 0)) pc ((f x).map (1 - ·))) ∧
            ∃ b ≤ a.nPs, row.psIdx = (if a.nPs = 0 then none else some b) ∧
              Spec.Chosen (Spec.optimizations a opt f s lo up) row b := by
  obtain ⟨data, rows, hd, hr, hlen, hrow⟩ := refineOrientationNan_rows hv opt h1 h2 h3
  refine ⟨rows, hr, hlen, fun j pattern pc s lo up hj hp hpc e1 e2 e3 => ?_⟩
  have hrw := hrow j pattern pc s lo up hj hp hpc e1 e2 e3
  obtain ⟨row, hsolve, hscore, b, hb, hps, hch⟩ := solveManyNan_chosen a hopt
    (objectiveOriNan (preparePattern (Spec.keep a.signalMask pattern) a.rescale)
      (a.detectorData.directionCosines pc.x pc.y pc.z) data)
    (hs _ (.inl (List.mem_of_getElem? e1))) (hs _ (.inr (.inl (List.mem_of_getElem? e2))))
    (hs _ (.inr (.inr (List.mem_of_getElem? e3))))
  have hobj : ∀ x : List ℝ, Spec.IsNanScore a pattern
      (rotationFromEuler (x.getD 0 0) (x.getD 1 0) (x.getD 2 0)) pc
      ((objectiveOriNan (preparePattern (Spec.keep a.signalMask pattern) a.rescale)
        (a.detectorData.directionCosines pc.x pc.y pc.z) data x).map (1 - ·)) := by
    intro x
    unfold objectiveOriNan
    simp only [Option.map_map, Function.comp_def, sub_sub_cancel, Option.map_id']
    exact isNanScore_of a hv.suitable hv.arrays hmp hv.mask hd pattern _ pc a.rescale
  refine ⟨row, hrw.trans (congrArg some hsolve), ?_, _, hobj, b, hb, hps, hch⟩
  rw [hscore]
  exact hobj row.x

/-- C153, projection centers. -/
theorem C153_pc_partial {a : RefineArgs} {u l : Img ℝ} (hv : a.Valid u l)
    (hmp : SameScale a.mp u l) {opt : OptimizerNan} (hopt : Spec.ReportsValue opt)
    {rots : List Quat} {lower upper : List (List ℝ)} (h1 : rots.length = a.points.count true)
    (h2 : lower.length = a.points.count true) (h3 : upper.length = a.points.count true) :
    ∃ rows, refinePcNan a opt rots lower upper = .ok rows ∧ rows.length = a.points.count true ∧
      ∀ j pattern pc q, a.points[j]? = some true → a.patterns[j]? = some pattern →
        a.pcAt j = some pc → rots[a.place j]? = some q →
        ∃ row, rows[a.place j]? = some (some row) ∧ row.psIdx = none ∧
          Spec.IsNanScore a pattern q ⟨row.x.getD 0 0, row.x.getD 1 0, row.x.getD 2 0⟩ row.score := by
  obtain ⟨data, rows, hd, hr, hlen, hrow⟩ := refinePcNan_rows hv opt h1 h2 h3
  refine ⟨rows, hr, hlen, fun j pattern pc q hj hp hpc hq => ?_⟩
  have hlt := place_lt hj
  have e2 := List.getElem?_eq_getElem (l := lower) (h2 ▸ hlt)
  have e3 := List.getElem?_eq_getElem (l := upper) (h3 ▸ hlt)
  have hrw := hrow j pattern pc q _ _ hj hp hpc hq e2 e3
  refine ⟨_, hrw, rfl, ?_⟩
  generalize hrow' : pcSolverNan a.solver opt a.rescale data a.detectorData
    (Spec.keep a.signalMask pattern) q [pc.x, pc.y, pc.z] _ _ = row
  have hscore : row.score = (objectivePcNan (preparePattern (Spec.keep a.signalMask pattern)
      a.rescale) q data a.detectorData row.x).map (1 - ·) := by
    rw [← hrow']
    exact congrArg (Option.map (1 - ·)) (hopt _ _ _)
  rw [hscore]
  unfold objectivePcNan
  simp only [Option.map_map, Function.comp_def, sub_sub_cancel, Option.map_id']
  exact isNanScore_of a hv.suitable hv.arrays hmp hv.mask hd pattern q
    ⟨row.x.getD 0 0, row.x.getD 1 0, row.x.getD 2 0⟩ a.rescale

/-- C153, orientations and projection centers; the starting point of the projection center is that of
the map point for all pseudo-symmetry operators. -/
theorem C153_orientation_pc_partial {a : RefineArgs} {u l : Img ℝ} (hv : a.Valid u l)
    (hmp : SameScale a.mp u l) {opt : OptimizerNan} (hopt : Spec.ReportsValue opt)
    {starts lower upper : List (List (List ℝ))}
    (h1 : starts.length = a.points.count true) (h2 : lower.length = a.points.count true)
    (h3 : upper.length = a.points.count true)
    (hs : ∀ x, (x ∈ starts ∨ x ∈ lower ∨ x ∈ upper) → x.length = a.nPs + 1) :
    ∃ rows, refineOrientationPcNan a opt starts lower upper = .ok rows ∧
      rows.length = a.points.count true ∧
      ∀ j pattern pc s lo up, a.points[j]? = some true → a.patterns[j]? = some pattern →
        a.pcAt j = some pc → starts[a.place j]? = some s → lower[a.place j]? = some lo →
        upper[a.place j]? = some up →
        ∃ row, rows[a.place j]? = some (some row) ∧
          Spec.IsNanScore a pattern (rotationFromEuler (row.x.getD 0 0) (row.x.getD 1 0)
            (row.x.getD 2 0)) ⟨row.x.getD 3 0, row.x.getD 4 0, row.x.getD 5 0⟩ row.score ∧
          ∃ f : List ℝ → Option ℝ, (∀ x, Spec.IsNanScore a pattern
              (rotationFromEuler (x.getD 0 0) (x.getD 1 0) (x.getD 2 0))
              ⟨x.getD 3 0, x.getD 4 0, x.getD 5 0⟩ ((f x).map (1 - ·))) ∧
            ∃ b ≤ a.nPs, row.psIdx = (if a.nPs = 0 then none else some b) ∧
              Spec.Chosen (Spec.optimizations a opt f (s.map (· ++ [pc.x, pc.y, pc.z])) lo up) row
                b := by
  obtain ⟨data, rows, hd, hr, hlen, hrow⟩ := refineOrientationPcNan_rows hv opt h1 h2 h3
  refine ⟨rows, hr, hlen, fun j pattern pc s lo up hj hp hpc e1 e2 e3 => ?_⟩
  have hrw := hrow j pattern pc s lo up hj hp hpc e1 e2 e3
  obtain ⟨row, hsolve, hscore, b, hb, hps, hch⟩ := solveManyNan_chosen a hopt
    (objectiveOriPcNan (preparePattern (Spec.keep a.signalMask pattern) a.rescale) data
      a.detectorData)
    (starts := s.map (· ++ [pc.x, pc.y, pc.z]))
    (by rw [List.length_map]; exact hs _ (.inl (List.mem_of_getElem? e1)))
    (hs _ (.inr (.inl (List.mem_of_getElem? e2)))) (hs _ (.inr (.inr (List.mem_of_getElem? e3))))
  have hobj : ∀ x : List ℝ, Spec.IsNanScore a pattern
      (rotationFromEuler (x.getD 0 0) (x.getD 1 0) (x.getD 2 0))
      ⟨x.getD 3 0, x.getD 4 0, x.getD 5 0⟩
      ((objectiveOriPcNan (preparePattern (Spec.keep a.signalMask pattern) a.rescale) data
        a.detectorData x).map (1 - ·)) := by
    intro x
    unfold objectiveOriPcNan
    simp only [Option.map_map, Function.comp_def, sub_sub_cancel, Option.map_id']
    exact isNanScore_of a hv.suitable hv.arrays hmp hv.mask hd pattern _
      ⟨x.getD 3 0, x.getD 4 0, x.getD 5 0⟩ a.rescale
  refine ⟨row, hrw.trans (congrArg some hsolve), ?_, _, hobj, b, hb, hps, hch⟩
  rw [hscore]
  exact hobj row.x

/-- C153: a pattern without contrast in the pixels used gets the score NaN whatever the master pattern
and optimizer, with the result from the first starting point. -/
theorem C153_pattern_without_contrast {a : RefineArgs} {u l : Img ℝ} (hv : a.Valid u l)
    {opt : OptimizerNan} (hopt : Spec.ReportsValue opt)
    {starts lower upper : List (List (List ℝ))}
    (h1 : starts.length = a.points.count true) (h2 : lower.length = a.points.count true)
    (h3 : upper.length = a.points.count true)
    (hs : ∀ x, (x ∈ starts ∨ x ∈ lower ∨ x ∈ upper) → x.length = a.nPs + 1)
    {j : ℕ} {pattern : List ℝ} {pc : PC ℝ} (hj : a.points[j]? = some true)
    (hp : a.patterns[j]? = some pattern) (hpc : a.pcAt j = some pc)
    (hc : ¬ Spec.PixelsDiffer (Spec.keep a.signalMask pattern)) :
    (∃ rows row, refineOrientationNan a opt starts lower upper = .ok rows ∧
      rows[a.place j]? = some (some row) ∧ row.score = none ∧
      row.psIdx = if a.nPs = 0 then none else some 0) ∧
    (∃ rows row, refineOrientationPcNan a opt starts lower upper = .ok rows ∧
      rows[a.place j]? = some (some row) ∧ row.score = none ∧
      row.psIdx = if a.nPs = 0 then none else some 0) ∧
    ∀ (rots : List Quat) (lower' upper' : List (List ℝ)), rots.length = a.points.count true →
      lower'.length = a.points.count true → upper'.length = a.points.count true →
      ∃ rows row, refinePcNan a opt rots lower' upper' = .ok rows ∧
        rows[a.place j]? = some (some row) ∧ row.score = none := by
  have hlt := place_lt hj
  have e1 := List.getElem?_eq_getElem (l := starts) (h1 ▸ hlt)
  have e2 := List.getElem?_eq_getElem (l := lower) (h2 ▸ hlt)
  have e3 := List.getElem?_eq_getElem (l := upper) (h3 ▸ hlt)
  have l1 := hs _ (.inl (List.mem_of_getElem? e1))
  have l2 := hs _ (.inr (.inl (List.mem_of_getElem? e2)))
  have l3 := hs _ (.inr (.inr (List.mem_of_getElem? e3)))
  have hncc : ∀ sim, nccCenteredNan (preparePattern (Spec.keep a.signalMask pattern) a.rescale).1 sim
      (preparePattern (Spec.keep a.signalMask pattern) a.rescale).2 = none := by
    intro sim
    rw [nccCenteredNan_eq]
    exact if_neg fun h => hc h.1
  -- if the objective function is nowhere a number, the first starting point is chosen
  have key : ∀ (f : List ℝ → Option ℝ) (s lo up : List (List ℝ)), (∀ x, f x = none) →
      s.length = a.nPs + 1 → lo.length = a.nPs + 1 → up.length = a.nPs + 1 →
      ∃ row, solveManyNan a.solver opt a.nPs f s lo up = some row ∧ row.score = none ∧
        row.psIdx = if a.nPs = 0 then none else some 0 := by
    intro f s lo up hf g1 g2 g3
    obtain ⟨row, hr, hsc, b, hb, hps, hrun, -, hnan⟩ := solveManyNan_chosen a hopt f g1 g2 g3
    refine ⟨row, hr, by rw [hsc, hf]; rfl, ?_⟩
    have hall : ∀ r ∈ Spec.optimizations a opt f s lo up, r.funVal = none := by
      intro r hr
      unfold Spec.optimizations at hr
      rw [zipWith_eq_map] at hr
      obtain ⟨p, -, rfl⟩ := List.mem_map.1 hr
      rw [hopt, hf]
    obtain ⟨r, hrb, -⟩ := hrun
    have hfirst := (hnan ⟨r, List.mem_of_getElem? hrb, hall r (List.mem_of_getElem? hrb)⟩).2
    rcases Nat.eq_zero_or_pos b with rfl | hpos
    · exact hps
    · have hlt0 : 0 < (Spec.optimizations a opt f s lo up).length :=
        lt_of_le_of_lt (Nat.zero_le b) (List.getElem?_eq_some_iff.1 hrb).1
      have h0 := List.getElem?_eq_getElem hlt0
      exact absurd (hall _ (List.mem_of_getElem? h0)) (hfirst 0 hpos _ h0)
  refine ⟨?_, ?_, fun rots lower' upper' g1 g2 g3 => ?_⟩
  · obtain ⟨data, rows, hd, hr, hlen, hrow⟩ := refineOrientationNan_rows hv opt h1 h2 h3
    have hrw := hrow j pattern pc _ _ _ hj hp hpc e1 e2 e3
    obtain ⟨row, hsolve, hsc, hps⟩ := key
      (objectiveOriNan (preparePattern (Spec.keep a.signalMask pattern) a.rescale)
        (a.detectorData.directionCosines pc.x pc.y pc.z) data) _ _ _ (by
          intro x
          unfold objectiveOriNan
          simp only [hncc, Option.map_none]) l1 l2 l3
    exact ⟨rows, row, hr, hrw.trans (congrArg some hsolve), hsc, hps⟩
  · obtain ⟨data, rows, hd, hr, hlen, hrow⟩ := refineOrientationPcNan_rows hv opt h1 h2 h3
    have hrw := hrow j pattern pc _ _ _ hj hp hpc e1 e2 e3
    obtain ⟨row, hsolve, hsc, hps⟩ := key
      (objectiveOriPcNan (preparePattern (Spec.keep a.signalMask pattern) a.rescale) data
        a.detectorData) ((starts[a.place j]'(h1 ▸ hlt)).map (· ++ [pc.x, pc.y, pc.z])) _ _ (by
          intro x
          unfold objectiveOriPcNan
          simp only [hncc, Option.map_none]) (by rw [List.length_map]; exact l1) l2 l3
    exact ⟨rows, row, hr, hrw.trans (congrArg some hsolve), hsc, hps⟩
  · obtain ⟨data, rows, hd, hr, hlen, hrow⟩ := refinePcNan_rows hv opt g1 g2 g3
    have hrw := hrow j pattern pc _ _ _ hj hp hpc (List.getElem?_eq_getElem (g1 ▸ hlt))
      (List.getElem?_eq_getElem (g2 ▸ hlt)) (List.getElem?_eq_getElem (g3 ▸ hlt))
    refine ⟨rows, _, hr, hrw, ?_⟩
    unfold pcSolverNan solveSingleNan runNan
    simp only
    rw [hopt]
    unfold objectivePcNan
    simp only [hncc, Option.map_none]

/-- C153: a row of the results depends on the pattern of its own point only, so patterns without
contrast elsewhere change nothing. -/
theorem C153_other_points {a : RefineArgs} {u l : Img ℝ} (hv : a.Valid u l)
    {patterns : List (List ℝ)} (hv' : { a with patterns := patterns }.Valid u l) (opt : OptimizerNan)
    {starts lower upper : List (List (List ℝ))} {rots : List Quat} {lower' upper' : List (List ℝ)}
    (h1 : starts.length = a.points.count true) (h2 : lower.length = a.points.count true)
    (h3 : upper.length = a.points.count true) (h4 : rots.length = a.points.count true)
    (h5 : lower'.length = a.points.count true) (h6 : upper'.length = a.points.count true)
    {j : ℕ} {pattern : List ℝ} {pc : PC ℝ} (hj : a.points[j]? = some true)
    (hp : a.patterns[j]? = some pattern) (hp' : patterns[j]? = some pattern)
    (hpc : a.pcAt j = some pc) :
    (∃ rows rows' row, refineOrientationNan a opt starts lower upper = .ok rows ∧
      refineOrientationNan { a with patterns := patterns } opt starts lower upper = .ok rows' ∧
      rows[a.place j]? = some row ∧ rows'[a.place j]? = some row) ∧
    (∃ rows rows' row, refinePcNan a opt rots lower' upper' = .ok rows ∧
      refinePcNan { a with patterns := patterns } opt rots lower' upper' = .ok rows' ∧
      rows[a.place j]? = some row ∧ rows'[a.place j]? = some row) ∧
    ∃ rows rows' row, refineOrientationPcNan a opt starts lower upper = .ok rows ∧
      refineOrientationPcNan { a with patterns := patterns } opt starts lower upper = .ok rows' ∧
      rows[a.place j]? = some row ∧ rows'[a.place j]? = some row := by
  have hlt := place_lt hj
  have e1 := List.getElem?_eq_getElem (l := starts) (h1 ▸ hlt)
  have e2 := List.getElem?_eq_getElem (l := lower) (h2 ▸ hlt)
  have e3 := List.getElem?_eq_getElem (l := upper) (h3 ▸ hlt)
  have e4 := List.getElem?_eq_getElem (l := rots) (h4 ▸ hlt)
  have e5 := List.getElem?_eq_getElem (l := lower') (h5 ▸ hlt)
  have e6 := List.getElem?_eq_getElem (l := upper') (h6 ▸ hlt)
  have hmask : ∀ ps, (patternsForRefinement ps a.points a.signalMask
      (a.det.nrows * a.det.ncols)).2 = (patternsForRefinement a.patterns a.points a.signalMask
      (a.det.nrows * a.det.ncols)).2 := by
    intro ps
    unfold patternsForRefinement
    cases a.signalMask <;> rfl
  have hdd : { a with patterns := patterns }.detectorData = a.detectorData := by
    unfold RefineArgs.detectorData
    simp only [hmask patterns]
  refine ⟨?_, ?_, ?_⟩
  · obtain ⟨data, rows, hd, hr, -, hrow⟩ := refineOrientationNan_rows hv opt h1 h2 h3
    obtain ⟨data', rows', hd', hr', -, hrow'⟩ := refineOrientationNan_rows hv' opt h1 h2 h3
    obtain rfl : data = data' := Option.some.inj (hd.symm.trans hd')
    refine ⟨rows, rows', _, hr, hr', hrow j pattern pc _ _ _ hj hp hpc e1 e2 e3, ?_⟩
    have := hrow' j pattern pc _ _ _ hj hp' hpc e1 e2 e3
    rw [hdd] at this
    exact this
  · obtain ⟨data, rows, hd, hr, -, hrow⟩ := refinePcNan_rows hv opt h4 h5 h6
    obtain ⟨data', rows', hd', hr', -, hrow'⟩ := refinePcNan_rows hv' opt h4 h5 h6
    obtain rfl : data = data' := Option.some.inj (hd.symm.trans hd')
    refine ⟨rows, rows', _, hr, hr', hrow j pattern pc _ _ _ hj hp hpc e4 e5 e6, ?_⟩
    have := hrow' j pattern pc _ _ _ hj hp' hpc e4 e5 e6
    rw [hdd] at this
    exact this
  · obtain ⟨data, rows, hd, hr, -, hrow⟩ := refineOrientationPcNan_rows hv opt h1 h2 h3
    obtain ⟨data', rows', hd', hr', -, hrow'⟩ := refineOrientationPcNan_rows hv' opt h1 h2 h3
    obtain rfl : data = data' := Option.some.inj (hd.symm.trans hd')
    refine ⟨rows, rows', _, hr, hr', hrow j pattern pc _ _ _ hj hp hpc e1 e2 e3, ?_⟩
    have := hrow' j pattern pc _ _ _ hj hp' hpc e1 e2 e3
    rw [hdd] at this
    exact this

/-! ### A starting point without a score -/

/-- A master pattern in 32-bit floats without contrast in the upper hemisphere. -/
noncomputable def flatUpper : MasterPattern where
  lambert := true
  inversion := some false
  both := true
  arrays := [(20, (⟨3, 3, fun r c => id (if r = 1 ∧ c = 1 then 0 else 20)⟩ : Img ℝ).mapVal
      fun x => 0 * x + 10,
    ⟨3, 3, fun r c => id (if r = 1 ∧ c = 1 then 0 else 20)⟩)]
  dtype := .float 32

/-- Refinement of one pattern of two pixels with one pseudo-symmetry operator. -/
noncomputable def flatUpperArgs : RefineArgs := { brightLowerArgs with mp := flatUpper, nPs := 1 }

/-- An optimizer which stays where it is. -/
noncomputable def stayNan : OptimizerNan := fun f x _ => ⟨f (x.getD []), 1, x.getD []⟩

theorem flatUpperArgs_valid : flatUpperArgs.Valid
    ((⟨3, 3, fun r c => id (if r = 1 ∧ c = 1 then 0 else 20)⟩ : Img ℝ).mapVal fun x => 0 * x + 10)
    ⟨3, 3, fun r c => id (if r = 1 ∧ c = 1 then 0 else 20)⟩ where
  suitable := rfl
  arrays := rfl
  points := rfl
  mask := by intro m h; simp [flatUpperArgs, brightLowerArgs] at h
  pcs := rfl
  nav := .inl rfl
  chunks := rfl
  faithful := fun _ _ _ => rfl

/-- The pattern simulated by `flatUpper`. -/
theorem flatUpper_simulated (q : Quat) : flatUpperArgs.mp.getPatterns [1] [q]
    { flatUpperArgs.det with nav := [1], pc := [⟨1 / 4, 1 / 2, 4 / 3⟩] } flatUpperArgs.m
      flatUpperArgs.energy (.float 32) [1] =
    .ok ([1], [some ([(⟨1, 0, 0⟩ : V3 ℝ), ⟨4 / 5, 0, -(3 / 5)⟩].map (projectPixel q
      ((⟨3, 3, fun r c => id (if r = 1 ∧ c = 1 then 0 else 20)⟩ : Img ℝ).mapVal fun x => 0 * x + 10)
      ⟨3, 3, fun r c => id (if r = 1 ∧ c = 1 then 0 else 20)⟩ 3 3 1))]) := by
  have h := getPatterns_single flatUpperArgs flatUpperArgs_valid.suitable flatUpperArgs_valid.arrays q
    ⟨1 / 4, 1 / 2, 4 / 3⟩
  rw [h]
  have hd : flatUpperArgs.det.nrows * flatUpperArgs.det.ncols = 2 := rfl
  have hdc : pcDirections flatUpperArgs.det flatUpperArgs.m (List.replicate 2 true)
    ⟨1 / 4, 1 / 2, 4 / 3⟩ = [⟨1, 0, 0⟩, ⟨4 / 5, 0, -(3 / 5)⟩] := brightLower_dcs
  have hdt : decide (DType.float 32 ≠ flatUpperArgs.mp.dtype) = false := rfl
  have e : (((3 : ℕ) : ℝ) - 1) / 2 = 1 := by norm_num
  rw [hd, hdc, hdt, projectPattern_plain]
  simp only [Img.mapVal, e]
  rfl

theorem rotate_half_turn (v : V3 ℝ) :
    rotateVector (rotationFromEuler 0 Real.pi 0) v = ⟨v.x, -v.y, -v.z⟩ := by
  have : rotationFromEuler 0 Real.pi 0 = ⟨0, -1, 0, 0⟩ := by
    simp [rotationFromEuler, positiveScalar]
  rw [this]
  simp [rotateVector]

/-- C153 is false in general: with pseudo-symmetry operators, a starting point where the simulated
pattern has no contrast is preferred over one with a perfect match. Here the second starting point
has score 1, but the first one is reported, with score NaN. -/
theorem C153_start_without_score_violated : ∃ (a : RefineArgs) (u l : Img ℝ) (opt : OptimizerNan)
    (row : NanRow), a.Valid u l ∧ SameScale a.mp u l ∧ Spec.ReportsValue opt ∧
      a.patterns = [[0, 1]] ∧
      refineOrientationNan a opt [[[0, Real.pi, 0], [0, 0, 0]]] [[[0, 0, 0], [0, 0, 0]]]
        [[[0, 0, 0], [0, 0, 0]]] = .ok [some row] ∧
      row.score = none ∧ row.psIdx = some 0 ∧ row.x = [0, Real.pi, 0] ∧
      ∀ pc, a.det.pc = [pc] → Spec.IsNanScore a [0, 1] (rotationFromEuler 0 0 0) pc (some 1) := by
  have hs2 := sqrt_two_fifths
  have hv := flatUpperArgs_valid
  have hmp : SameScale flatUpperArgs.mp
    ((⟨3, 3, fun r c => id (if r = 1 ∧ c = 1 then 0 else 20)⟩ : Img ℝ).mapVal fun x => 0 * x + 10)
    ⟨3, 3, fun r c => id (if r = 1 ∧ c = 1 then 0 else 20)⟩ := .inl rfl
  have hopt : Spec.ReportsValue stayNan := fun _ _ _ => rfl
  obtain ⟨rows, hr, hlen, hrow⟩ := C153_orientation_partial hv hmp hopt
    (starts := [[[0, Real.pi, 0], [0, 0, 0]]]) (lower := [[[0, 0, 0], [0, 0, 0]]])
    (upper := [[[0, 0, 0], [0, 0, 0]]]) rfl rfl rfl (by
      intro x hx
      simp only [List.mem_singleton] at hx
      rcases hx with rfl | rfl | rfl <;> rfl)
  obtain ⟨row, hrow, -, f, hf, b, hb, hps, ⟨r, hrb, hx, -, -⟩, -, hnan⟩ :=
    hrow 0 [0, 1] ⟨1 / 4, 1 / 2, 4 / 3⟩ _ _ _ rfl rfl rfl rfl rfl rfl
  obtain ⟨o, rfl⟩ := List.length_eq_one_iff.1 (show rows.length = 1 from hlen)
  obtain rfl : o = some row := Option.some.inj hrow
  have hnone : f [0, Real.pi, 0] = none := by
    obtain ⟨sim, h1, -, -, h4⟩ := hf [0, Real.pi, 0]
    rw [flatUpper_simulated] at h1
    have hsim : sim = [10, 10] := by
      have h5 : [(⟨1, 0, 0⟩ : V3 ℝ), ⟨4 / 5, 0, -(3 / 5)⟩].map (projectPixel
          (rotationFromEuler 0 Real.pi 0)
          ((⟨3, 3, fun r c => id (if r = 1 ∧ c = 1 then 0 else 20)⟩ : Img ℝ).mapVal
            fun x => 0 * x + 10)
          ⟨3, 3, fun r c => id (if r = 1 ∧ c = 1 then 0 else 20)⟩ 3 3 1) = sim := by
        simpa using h1
      rw [← h5]
      simp only [List.map_cons, List.map_nil, projectPixel, rotate_half_turn]
      rw [if_pos (by norm_num), if_pos (by norm_num), masterPixel_affine, masterPixel_affine]
      norm_num
    have := h4 (by
      rw [hsim]
      rintro ⟨x, hx, y, hy, hne⟩
      have hk : Spec.keep flatUpperArgs.signalMask [10, 10] = [10, 10] := rfl
      rw [hk] at hx hy
      simp only [List.mem_cons, List.not_mem_nil, or_false, or_self] at hx hy
      exact hne (hx.trans hy.symm))
    exact Option.map_eq_none_iff.1 this
  have h0 : (Spec.optimizations flatUpperArgs stayNan f [[0, Real.pi, 0], [0, 0, 0]]
      [[0, 0, 0], [0, 0, 0]] [[0, 0, 0], [0, 0, 0]])[0]? =
      some ⟨f [0, Real.pi, 0], 1, [0, Real.pi, 0]⟩ := rfl
  obtain ⟨g1, g2⟩ := hnan ⟨_, List.mem_of_getElem? h0, hnone⟩
  obtain rfl : b = 0 := by
    rcases Nat.eq_zero_or_pos b with h | h
    · exact h
    · exact absurd hnone (g2 0 h _ h0)
  rw [h0] at hrb
  refine ⟨flatUpperArgs, _, _, stayNan, row, hv, hmp, hopt, rfl, hr, g1, hps, ?_, ?_⟩
  · rw [hx, ← Option.some.inj hrb]
  · intro pc hpc
    obtain rfl : pc = ⟨1 / 4, 1 / 2, 4 / 3⟩ := by
      have : [(⟨1 / 4, 1 / 2, 4 / 3⟩ : PC ℝ)] = [pc] := hpc
      simpa using this.symm
    have hsim : [(⟨1, 0, 0⟩ : V3 ℝ), ⟨4 / 5, 0, -(3 / 5)⟩].map (projectPixel (rotationFromEuler 0 0 0)
        ((⟨3, 3, fun r c => id (if r = 1 ∧ c = 1 then 0 else 20)⟩ : Img ℝ).mapVal fun x => 0 * x + 10)
        ⟨3, 3, fun r c => id (if r = 1 ∧ c = 1 then 0 else 20)⟩ 3 3 1) =
        [10, 20 * Real.sqrt (2 / 5)] := by
      have := project_example 20 20 (fun x => 0 * x + 10) id
      simp only [id, zero_mul, zero_add] at this
      simpa [Img.mapVal] using this
    have hk : ∀ t : List ℝ, Spec.keep flatUpperArgs.signalMask t = t := fun t => rfl
    have hlt : (10 : ℝ) < 20 * Real.sqrt (2 / 5) := by linarith [hs2.1]
    refine ⟨_, flatUpper_simulated _, ?_, ?_, ?_⟩
    · intro _ _
      rw [hsim, hk, hk, pearson_two_lt zero_lt_one hlt]
    · intro h
      exact absurd ⟨0, by simp [hk], 1, by simp [hk], zero_ne_one⟩ h
    · intro h
      rw [hsim, hk] at h
      exact absurd ⟨10, by simp, _, by simp, hlt.ne⟩ h

/-- A case meeting the hypotheses of the theorems above, with a pattern without contrast. -/
example : ∃ (a : RefineArgs) (u l : Img ℝ), a.Valid u l ∧ SameScale a.mp u l ∧
    Spec.ReportsValue stayNan ∧ a.nPs = 1 ∧ a.points[0]? = some true ∧ a.patterns[0]? = some [3, 3] ∧
    a.pcAt 0 = some ⟨1 / 4, 1 / 2, 4 / 3⟩ ∧ ¬ Spec.PixelsDiffer (Spec.keep a.signalMask [3, 3]) := by
  refine ⟨{ flatUpperArgs with patterns := [[3, 3]] }, _, _, ⟨rfl, rfl, rfl, ?_, rfl, .inl rfl, rfl,
    fun _ _ _ => rfl⟩, .inl rfl, fun _ _ _ => rfl, rfl, rfl, rfl, rfl, ?_⟩
  · intro m h
    simp [flatUpperArgs, brightLowerArgs] at h
  · rintro ⟨x, hx, y, hy, hne⟩
    have hk : Spec.keep flatUpperArgs.signalMask [3, 3] = [3, 3] := rfl
    change x ∈ Spec.keep flatUpperArgs.signalMask [3, 3] at hx
    change y ∈ Spec.keep flatUpperArgs.signalMask [3, 3] at hy
    rw [hk] at hx hy
    simp only [List.mem_cons, List.not_mem_nil, or_false, or_self] at hx hy
    exact hne (hx.trans hy.symm)

/-- A case meeting the hypotheses of `C153_other_points`: the second of two patterns has contrast in one
signal and none in the other. -/
example : ∃ (a : RefineArgs) (u l : Img ℝ), a.Valid u l ∧
    { a with patterns := [[0, 1], [3, 3]] }.Valid u l ∧ a.patterns = [[0, 1], [3, 5]] ∧
    a.points[0]? = some true ∧ a.points[1]? = some true ∧
    a.pcAt 0 = some ⟨1 / 4, 1 / 2, 4 / 3⟩ := by
  refine ⟨{ flatUpperArgs with
      patterns := [[0, 1], [3, 5]], points := [true, true], chunks := [1, 1] }, _, _,
    ⟨rfl, rfl, rfl, ?_, rfl, .inl rfl, rfl, fun _ _ _ => rfl⟩,
    ⟨rfl, rfl, rfl, ?_, rfl, .inl rfl, rfl, fun _ _ _ => rfl⟩, rfl, rfl, rfl, rfl⟩ <;>
  · intro m h
    simp [flatUpperArgs, brightLowerArgs] at h

end Kp
