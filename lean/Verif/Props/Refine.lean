import Verif.Lemmas.RefineExample
import Verif.Props.Normalize

/-!
# C77: refinement reports the score of its own pattern at the refined parameters

Scores of constant patterns are NaN in the code and 0 in the model: read the theorems for patterns
which are not constant in the pixels used.
-/

namespace Kp

/-- C77, orientations. For every division into chunks and every optimizer reporting the value at the
point it returns, the score of each refined point is the correlation of its own pattern with the
pattern `get_patterns` simulates for the refined orientation and the projection center of the point,
in the pixels not masked out. It is between -1 and 1. Part: the hemispheres must be used as they are
(32-bit floats) or have the same range of intensities, see `C77_hemispheres_violated`. -/
theorem C77_orientation_partial {a : RefineArgs} {u l : Img ℝ} (hv : a.Valid u l)
    (hmp : SameScale a.mp u l) {starts lower upper : List (List (List ℝ))}
    (h1 : starts.length = a.points.count true) (h2 : lower.length = a.points.count true)
    (h3 : upper.length = a.points.count true)
    (hs : ∀ x, (x ∈ starts ∨ x ∈ lower ∨ x ∈ upper) → x.length = a.nPs + 1) :
    ∃ rows, refineOrientation a starts lower upper = .ok rows ∧
      rows.length = a.points.count true ∧
      ∀ j pattern pc, a.points[j]? = some true → a.patterns[j]? = some pattern →
        a.pcAt j = some pc →
        ∃ row, rows[a.place j]? = some (some row) ∧ -1 ≤ row.score ∧ row.score ≤ 1 ∧
          Spec.IsScore a pattern (rotationFromEuler (row.x.getD 0 0) (row.x.getD 1 0)
            (row.x.getD 2 0)) pc row.score := by
  obtain ⟨data, rows, hd, hr, hlen, hrow⟩ := refineOrientation_rows hv h1 h2 h3
  refine ⟨rows, hr, hlen, fun j pattern pc hj hp hpc => ?_⟩
  have hlt := place_lt hj
  have e1 := List.getElem?_eq_getElem (l := starts) (h1 ▸ hlt)
  have e2 := List.getElem?_eq_getElem (l := lower) (h2 ▸ hlt)
  have e3 := List.getElem?_eq_getElem (l := upper) (h3 ▸ hlt)
  have hrw := hrow j pattern pc _ _ _ hj hp hpc e1 e2 e3
  obtain ⟨row, hsolve, hscore, -⟩ := solveMany_spec a.solver hv.faithful a.nPs
    (objectiveOri (preparePattern (Spec.keep a.signalMask pattern) a.rescale)
      (a.detectorData.directionCosines pc.x pc.y pc.z) data)
    (hs _ (.inl (List.mem_of_getElem? e1))) (hs _ (.inr (.inl (List.mem_of_getElem? e2))))
    (hs _ (.inr (.inr (List.mem_of_getElem? e3))))
  refine ⟨row, ?_, ?_⟩
  · rw [hrw]
    exact congrArg some hsolve
  · unfold objectiveOri at hscore
    simp only [sub_sub_cancel, nccExpCentered_eq] at hscore
    refine ⟨?_, ?_, ?_⟩
    · rw [hscore]; exact (pearson_bounds _ _).1
    · rw [hscore]; exact (pearson_bounds _ _).2
    · rw [hscore]
      exact isScore_of a hv.suitable hv.arrays hmp hv.mask hd _ _ _

/-- C77, orientations: with an optimizer that never returns a worse point than where it started (and
a method that takes a starting point), the score is at least that of every starting point, so in
particular at least that of the orientation in the crystal map. -/
theorem C77_orientation_not_worse_partial {a : RefineArgs} {u l : Img ℝ} (hv : a.Valid u l)
    (hmp : SameScale a.mp u l) (hdesc : DescendingOptimizer a.solver.opt)
    (hm : ∀ x0, startGiven a.solver.method x0 = some x0)
    {starts lower upper : List (List (List ℝ))}
    (h1 : starts.length = a.points.count true) (h2 : lower.length = a.points.count true)
    (h3 : upper.length = a.points.count true)
    (hs : ∀ x, (x ∈ starts ∨ x ∈ lower ∨ x ∈ upper) → x.length = a.nPs + 1)
    {rows : List (Option RefineRow)} (hr : refineOrientation a starts lower upper = .ok rows)
    {j : ℕ} {pattern : List ℝ} {pc : PC ℝ} {row : RefineRow} (hj : a.points[j]? = some true)
    (hp : a.patterns[j]? = some pattern) (hpc : a.pcAt j = some pc)
    (hrow : rows[a.place j]? = some (some row)) :
    ∀ s ∈ starts.getD (a.place j) [], ∃ score,
      Spec.IsScore a pattern (rotationFromEuler (s.getD 0 0) (s.getD 1 0) (s.getD 2 0)) pc score ∧
        score ≤ row.score := by
  obtain ⟨data, rows', hd, hr', hlen, hrow'⟩ := refineOrientation_rows hv h1 h2 h3
  obtain rfl : rows = rows' := by
    rw [hr] at hr'
    exact Except.ok.inj hr'
  have hlt := place_lt hj
  have e1 := List.getElem?_eq_getElem (l := starts) (h1 ▸ hlt)
  have e2 := List.getElem?_eq_getElem (l := lower) (h2 ▸ hlt)
  have e3 := List.getElem?_eq_getElem (l := upper) (h3 ▸ hlt)
  have hrw := hrow' j pattern pc _ _ _ hj hp hpc e1 e2 e3
  have l1 := hs _ (.inl (List.mem_of_getElem? e1))
  have l2 := hs _ (.inr (.inl (List.mem_of_getElem? e2)))
  have l3 := hs _ (.inr (.inr (List.mem_of_getElem? e3)))
  obtain ⟨row', hsolve, -, b, hb, -, -, -, hbest⟩ := solveMany_spec a.solver hv.faithful a.nPs
    (objectiveOri (preparePattern (Spec.keep a.signalMask pattern) a.rescale)
      (a.detectorData.directionCosines pc.x pc.y pc.z) data) l1 l2 l3
  obtain rfl : row = row' := by
    rw [hrow] at hrw
    have := (Option.some.inj hrw).trans hsolve
    exact Option.some.inj this
  intro s hmem
  rw [List.getD_eq_getElem?_getD, e1, Option.getD_some] at hmem
  obtain ⟨i, hi, rfl⟩ := List.mem_iff_getElem.1 hmem
  refine ⟨_, isScore_of a hv.suitable hv.arrays hmp hv.mask hd pattern _ pc, ?_⟩
  refine le_trans ?_ (hbest i (by omega))
  unfold SolverKwargs.run
  rw [hm]
  have := hdesc (objectiveOri (preparePattern (Spec.keep a.signalMask pattern) a.rescale)
    (a.detectorData.directionCosines pc.x pc.y pc.z) data)
    ((starts[a.place j]'(h1 ▸ hlt))[i]) (boundsGiven a.solver.method a.solver.trust
      ((lower[a.place j]'(h2 ▸ hlt))[i]'(by omega), (upper[a.place j]'(h3 ▸ hlt))[i]'(by omega)))
  refine le_trans ?_ (sub_le_sub_left this 1)
  unfold objectiveOri
  simp only [sub_sub_cancel, nccExpCentered_eq]
  exact le_rfl

/-- C77, projection centers: the score of each refined point is the correlation of its own pattern
with the pattern simulated for the given orientation of the point and the refined projection
center. -/
theorem C77_pc_partial {a : RefineArgs} {u l : Img ℝ} (hv : a.Valid u l) (hmp : SameScale a.mp u l)
    {rots : List Quat} {lower upper : List (List ℝ)} (h1 : rots.length = a.points.count true)
    (h2 : lower.length = a.points.count true) (h3 : upper.length = a.points.count true) :
    ∃ rows, refinePc a rots lower upper = .ok rows ∧ rows.length = a.points.count true ∧
      ∀ j pattern pc q, a.points[j]? = some true → a.patterns[j]? = some pattern →
        a.pcAt j = some pc → rots[a.place j]? = some q →
        ∃ row, rows[a.place j]? = some (some row) ∧ -1 ≤ row.score ∧ row.score ≤ 1 ∧
          Spec.IsScore a pattern q ⟨row.x.getD 0 0, row.x.getD 1 0, row.x.getD 2 0⟩ row.score ∧
          (DescendingOptimizer a.solver.opt → (∀ x0, startGiven a.solver.method x0 = some x0) →
            ∃ score, Spec.IsScore a pattern q pc score ∧ score ≤ row.score) := by
  obtain ⟨data, rows, hd, hr, hlen, hrow⟩ := refinePc_rows hv h1 h2 h3
  refine ⟨rows, hr, hlen, fun j pattern pc q hj hp hpc hq => ?_⟩
  have hlt := place_lt hj
  have e2 := List.getElem?_eq_getElem (l := lower) (h2 ▸ hlt)
  have e3 := List.getElem?_eq_getElem (l := upper) (h3 ▸ hlt)
  have hrw := hrow j pattern pc q _ _ hj hp hpc hq e2 e3
  refine ⟨_, hrw, ?_⟩
  generalize hrow' : pcSolver a.solver a.rescale data a.detectorData (Spec.keep a.signalMask pattern)
    q [pc.x, pc.y, pc.z] _ _ = row
  have hscore : row.score = 1 - objectivePc (preparePattern (Spec.keep a.signalMask pattern)
      a.rescale) q data a.detectorData row.x := by
    rw [← hrow']
    exact congrArg (1 - ·) (hv.faithful _ _ _)
  unfold objectivePc at hscore
  simp only [sub_sub_cancel, nccExpCentered_eq] at hscore
  refine ⟨?_, ?_, ?_, fun hdesc hm => ?_⟩
  · rw [hscore]; exact (pearson_bounds _ _).1
  · rw [hscore]; exact (pearson_bounds _ _).2
  · rw [hscore]
    exact isScore_of a hv.suitable hv.arrays hmp hv.mask hd pattern q
      ⟨row.x.getD 0 0, row.x.getD 1 0, row.x.getD 2 0⟩
  · refine ⟨_, isScore_of a hv.suitable hv.arrays hmp hv.mask hd pattern q pc, ?_⟩
    rw [← hrow']
    unfold pcSolver solveSingle SolverKwargs.run
    simp only
    rw [hm]
    refine le_trans ?_ (sub_le_sub_left (hdesc _ _ _) 1)
    unfold objectivePc
    simp only [sub_sub_cancel, nccExpCentered_eq]
    exact le_rfl

/-- C77, orientations and projection centers. -/
theorem C77_orientation_pc_partial {a : RefineArgs} {u l : Img ℝ} (hv : a.Valid u l)
    (hmp : SameScale a.mp u l) {starts lower upper : List (List (List ℝ))}
    (h1 : starts.length = a.points.count true) (h2 : lower.length = a.points.count true)
    (h3 : upper.length = a.points.count true)
    (hs : ∀ x, (x ∈ starts ∨ x ∈ lower ∨ x ∈ upper) → x.length = a.nPs + 1) :
    ∃ rows, refineOrientationPc a starts lower upper = .ok rows ∧
      rows.length = a.points.count true ∧
      ∀ j pattern pc, a.points[j]? = some true → a.patterns[j]? = some pattern →
        a.pcAt j = some pc →
        ∃ row, rows[a.place j]? = some (some row) ∧ -1 ≤ row.score ∧ row.score ≤ 1 ∧
          Spec.IsScore a pattern (rotationFromEuler (row.x.getD 0 0) (row.x.getD 1 0)
            (row.x.getD 2 0)) ⟨row.x.getD 3 0, row.x.getD 4 0, row.x.getD 5 0⟩ row.score ∧
          (DescendingOptimizer a.solver.opt → (∀ x0, startGiven a.solver.method x0 = some x0) →
            ∀ s ∈ starts.getD (a.place j) [], s.length = 3 → ∃ score,
              Spec.IsScore a pattern (rotationFromEuler (s.getD 0 0) (s.getD 1 0) (s.getD 2 0)) pc
                score ∧ score ≤ row.score) := by
  obtain ⟨data, rows, hd, hr, hlen, hrow⟩ := refineOrientationPc_rows hv h1 h2 h3
  refine ⟨rows, hr, hlen, fun j pattern pc hj hp hpc => ?_⟩
  have hlt := place_lt hj
  have e1 := List.getElem?_eq_getElem (l := starts) (h1 ▸ hlt)
  have e2 := List.getElem?_eq_getElem (l := lower) (h2 ▸ hlt)
  have e3 := List.getElem?_eq_getElem (l := upper) (h3 ▸ hlt)
  have hrw := hrow j pattern pc _ _ _ hj hp hpc e1 e2 e3
  have l1 := hs _ (.inl (List.mem_of_getElem? e1))
  have l2 := hs _ (.inr (.inl (List.mem_of_getElem? e2)))
  have l3 := hs _ (.inr (.inr (List.mem_of_getElem? e3)))
  obtain ⟨row, hsolve, hscore, b, hb, -, -, -, hbest⟩ := solveMany_spec a.solver hv.faithful a.nPs
    (objectiveOriPc (preparePattern (Spec.keep a.signalMask pattern) a.rescale) data
      a.detectorData)
    (starts := (starts[a.place j]'(h1 ▸ hlt)).map (· ++ [pc.x, pc.y, pc.z])) (by simpa using l1) l2 l3
  refine ⟨row, ?_, ?_⟩
  · rw [hrw]
    exact congrArg some hsolve
  unfold objectiveOriPc at hscore
  simp only [sub_sub_cancel, nccExpCentered_eq] at hscore
  refine ⟨?_, ?_, ?_, fun hdesc hm s hmem hs3 => ?_⟩
  · rw [hscore]; exact (pearson_bounds _ _).1
  · rw [hscore]; exact (pearson_bounds _ _).2
  · rw [hscore]
    exact isScore_of a hv.suitable hv.arrays hmp hv.mask hd pattern _
      ⟨row.x.getD 3 0, row.x.getD 4 0, row.x.getD 5 0⟩
  · rw [List.getD_eq_getElem?_getD, e1, Option.getD_some] at hmem
    obtain ⟨i, hi, rfl⟩ := List.mem_iff_getElem.1 hmem
    refine ⟨_, isScore_of a hv.suitable hv.arrays hmp hv.mask hd pattern _ pc, ?_⟩
    refine le_trans ?_ (hbest i (by omega))
    unfold SolverKwargs.run
    rw [hm, List.getElem_map]
    refine le_trans ?_ (sub_le_sub_left (hdesc _ _ _) 1)
    unfold objectiveOriPc
    simp only [sub_sub_cancel, nccExpCentered_eq]
    generalize (starts[a.place j]'(h1 ▸ hlt))[i] = s at hs3 ⊢
    obtain ⟨x, y, z, rfl⟩ := List.length_eq_three.1 hs3
    exact le_rfl

/-- C77: the results do not depend on the division into chunks. -/
theorem C77_chunks {a b : RefineArgs} {u l : Img ℝ} (hv : a.Valid u l)
    (hb : b = { a with chunks := b.chunks }) (hc : b.chunks.sum = a.points.count true)
    {starts lower upper : List (List (List ℝ))} {rots : List Quat} {lower' upper' : List (List ℝ)}
    (h1 : starts.length = a.points.count true) (h2 : lower.length = a.points.count true)
    (h3 : upper.length = a.points.count true) (h4 : rots.length = a.points.count true)
    (h5 : lower'.length = a.points.count true) (h6 : upper'.length = a.points.count true) :
    refineOrientation a starts lower upper = refineOrientation b starts lower upper ∧
    refinePc a rots lower' upper' = refinePc b rots lower' upper' ∧
    refineOrientationPc a starts lower upper = refineOrientationPc b starts lower upper := by
  have hl := prepared_length hv
  have hp := pcs_length hv
  have hu : b.uniquePc = a.uniquePc := by rw [hb]; rfl
  have hpr : b.prepared = a.prepared := by rw [hb]; rfl
  have hps : b.pcs = a.pcs := by rw [hb]; rfl
  have hdd : b.detectorData = a.detectorData := by rw [hb]; rfl
  have hmp : b.mp = a.mp := by rw [hb]
  have hen : b.energy = a.energy := by rw [hb]
  have hre : b.rescale = a.rescale := by rw [hb]; rfl
  have hso : b.solver = a.solver := by rw [hb]
  have hn : b.nPs = a.nPs := by rw [hb]
  have hdt : b.det = a.det := by rw [hb]
  have hm : b.m = a.m := by rw [hb]
  have ca : a.chunks.sum = a.prepared.length := by rw [hl, hv.chunks]
  have cb : b.chunks.sum = a.prepared.length := by rw [hl, hc]
  refine ⟨?_, ?_, ?_⟩
  · unfold refineOrientation
    simp only [hu, hpr, hps, hdd, hmp, hen, hre, hso, hn, hdt, hm]
    cases a.mp.refinementData a.energy with
    | none => rfl
    | some data =>
      simp only
      rw [mapBlocks5_eq _ _ ca (by rw [hl, h1]) (by rw [hl, h2]) (by rw [hl, h3]) (by rw [hl, hp]),
        mapBlocks5_eq _ _ cb (by rw [hl, h1]) (by rw [hl, h2]) (by rw [hl, h3]) (by rw [hl, hp]),
        mapBlocks4_eq _ _ ca (by rw [hl, h1]) (by rw [hl, h2]) (by rw [hl, h3]),
        mapBlocks4_eq _ _ cb (by rw [hl, h1]) (by rw [hl, h2]) (by rw [hl, h3])]
  · unfold refinePc
    simp only [hpr, hps, hdd, hmp, hen, hre, hso]
    cases a.mp.refinementData a.energy with
    | none => rfl
    | some data =>
      simp only
      rw [mapBlocks5_eq _ _ ca (by rw [hl, h4]) (by rw [hl, hp]) (by rw [hl, h5]) (by rw [hl, h6]),
        mapBlocks5_eq _ _ cb (by rw [hl, h4]) (by rw [hl, hp]) (by rw [hl, h5]) (by rw [hl, h6])]
  · unfold refineOrientationPc
    simp only [hpr, hps, hdd, hmp, hen, hre, hso, hn]
    cases a.mp.refinementData a.energy with
    | none => rfl
    | some data =>
      simp only
      rw [mapBlocks4_eq _ _ ca (by simp [hl, h1, hp]) (by rw [hl, h2]) (by rw [hl, h3]),
        mapBlocks4_eq _ _ cb (by simp [hl, h1, hp]) (by rw [hl, h2]) (by rw [hl, h3])]

/-- The refinement of `brightLowerArgs`. -/
theorem brightLower_row : ∃ (u l : Img ℝ) (row : RefineRow),
    brightLowerArgs.Valid u l ∧
      refineOrientation brightLowerArgs [[[0, 0, 0]]] [[[0, 0, 0]]] [[[0, 0, 0]]] = .ok [some row] ∧
      brightLowerArgs.patterns = [[0, 1]] ∧ row.x = [0, 0, 0] ∧ row.score = -1 ∧
      ∀ pc, brightLowerArgs.det.pc = [pc] →
        Spec.IsScore brightLowerArgs [0, 1] (rotationFromEuler 0 0 0) pc 1 := by
  have hs := sqrt_two_fifths
  have hv := brightLowerArgs_valid
  have hd : brightLowerArgs.det.nrows * brightLowerArgs.det.ncols = 2 := rfl
  have pu : (⟨3, 3, fun r c => if r = 1 ∧ c = 1 then 0 else 10⟩ : Img ℝ).pixels =
      [10, 10, 10, 10, 0, 10, 10, 10, 10] := by
    simp [Img.pixels, List.range_succ]
  have pl : (⟨3, 3, fun r c => if r = 1 ∧ c = 1 then 0 else 20⟩ : Img ℝ).pixels =
      [20, 20, 20, 20, 0, 20, 20, 20, 20] := by
    simp [Img.pixels, List.range_succ]
  obtain ⟨data, rows, h1, h2, h3, h4⟩ := refineOrientation_rows hv (starts := [[[0, 0, 0]]])
    (lower := [[[0, 0, 0]]]) (upper := [[[0, 0, 0]]]) rfl rfl rfl
  have h5 := h4 0 [0, 1] ⟨1 / 4, 1 / 2, 4 / 3⟩ [[0, 0, 0]] [[0, 0, 0]] [[0, 0, 0]] rfl rfl rfl rfl rfl
    rfl
  obtain ⟨r, rfl⟩ := List.length_eq_one_iff.1 (show rows.length = 1 from h3)
  have h6 : r = _ := Option.some.inj h5
  have h7 : oriSolver brightLowerArgs.solver brightLowerArgs.nPs brightLowerArgs.rescale data
      (.inr (brightLowerArgs.detectorData, ⟨1 / 4, 1 / 2, 4 / 3⟩))
      (Spec.keep brightLowerArgs.signalMask [0, 1]) [[0, 0, 0]] [[0, 0, 0]] [[0, 0, 0]] =
      some ⟨1 - objectiveOri (preparePattern [0, 1] false)
        (brightLowerArgs.detectorData.directionCosines (1 / 4) (1 / 2) (4 / 3)) data [0, 0, 0], 1,
        [0, 0, 0], none⟩ := rfl
  rw [h7] at h6
  subst h6
  refine ⟨_, _, _, hv, h2, rfl, rfl, ?_, ?_⟩
  · unfold objectiveOri
    simp only [sub_sub_cancel, nccExpCentered_eq]
    rw [projectPattern_plain]
    have := detectorData_directionCosines brightLowerArgs hv.mask ⟨1 / 4, 1 / 2, 4 / 3⟩
      (projectPixel (rotationFromEuler (([0, 0, 0] : List ℝ).getD 0 0) (([0, 0, 0] : List ℝ).getD 1 0)
        (([0, 0, 0] : List ℝ).getD 2 0)) data.upper data.lower data.npx data.npy data.scale)
    rw [this, hd, brightLower_dcs]
    have e1 : brightLowerArgs.mp.refinementData brightLowerArgs.energy =
        some ⟨⟨3, 3, fun r c => rescalePixel 0 10 (-1) 1 (if r = 1 ∧ c = 1 then 0 else 10)⟩,
          ⟨3, 3, fun r c => rescalePixel 0 20 (-1) 1 (if r = 1 ∧ c = 1 then 0 else 20)⟩, 3, 3, 1⟩ := by
      have m1 : listMin ([10, 10, 10, 10, 0, 10, 10, 10, 10] : List ℝ) = 0 := by norm_num [listMin]
      have m2 : listMax ([10, 10, 10, 10, 0, 10, 10, 10, 10] : List ℝ) = 10 := by norm_num [listMax]
      have m3 : listMin ([20, 20, 20, 20, 0, 20, 20, 20, 20] : List ℝ) = 0 := by norm_num [listMin]
      have m4 : listMax ([20, 20, 20, 20, 0, 20, 20, 20, 20] : List ℝ) = 20 := by norm_num [listMax]
      unfold MasterPattern.refinementData
      rw [hv.arrays]
      have hdt : brightLowerArgs.mp.dtype = .uint 8 := rfl
      simp only [hdt, ne_eq, reduceCtorEq, not_false_eq_true, if_true, Img.rescaleSigned, pu, pl, m1,
        m2, m3, m4, Img.mapVal]
      norm_num
    rw [h1] at e1
    obtain rfl := Option.some.inj e1
    have := project_example 10 20 (rescalePixel 0 10 (-1) 1) (rescalePixel 0 20 (-1) 1)
    have g : ∀ i, ([0, 0, 0] : List ℝ).getD i 0 = 0 := by
      intro i
      rcases i with _ | _ | _ | i <;> rfl
    simp only [g, Spec.keep, brightLowerArgs]
    rw [this]
    refine pearson_two_gt zero_lt_one ?_
    generalize Real.sqrt (2 / 5) = s at hs ⊢
    norm_num [rescalePixel]
    linarith [hs.1, hs.2]
  · intro pc hpc
    have : pc = ⟨1 / 4, 1 / 2, 4 / 3⟩ := by
      have : [(⟨1 / 4, 1 / 2, 4 / 3⟩ : PC ℝ)] = [pc] := hpc
      simpa using this.symm
    subst this
    refine ⟨_, getPatterns_single brightLowerArgs hv.suitable hv.arrays _ _, ?_⟩
    have hdt : decide (DType.float 32 ≠ brightLowerArgs.mp.dtype) = true := rfl
    rw [hd, hdt, brightLower_dcs, projectPattern_rescale, keep_map]
    have := project_example 10 20 id id
    have e : (((3 : ℕ) : ℝ) - 1) / 2 = 1 := by norm_num
    simp only [id, zero_mul, zero_add] at this
    simp only [e, Spec.keep, brightLowerArgs]
    have c3 : (((3 : ℕ) : ℤ)) = 3 := rfl
    rw [c3, this, pearson_rescale_right _ _ (listMin_lt_or_const _)]
    refine (pearson_two_lt zero_lt_one ?_).symm
    linarith [hs.1]

/-- C77 is false in general: unless they are 32-bit floats, the two hemispheres of the master pattern
are rescaled to [-1, 1] one by one before refinement. If their ranges differ, the reported score is
not the correlation with the simulated pattern: here it is -1 where the correlation with the pattern
from `get_patterns` is 1. -/
theorem C77_hemispheres_violated : ∃ (a : RefineArgs) (u l : Img ℝ) (row : RefineRow),
    a.Valid u l ∧ refineOrientation a [[[0, 0, 0]]] [[[0, 0, 0]]] [[[0, 0, 0]]] = .ok [some row] ∧
      a.patterns = [[0, 1]] ∧ row.x = [0, 0, 0] ∧ row.score = -1 ∧
      ∀ pc, a.det.pc = [pc] →
        Spec.IsScore a [0, 1] (rotationFromEuler 0 0 0) pc 1 :=
  ⟨brightLowerArgs, brightLower_row⟩

/-- A case meeting the hypotheses: the same master pattern with 32-bit floats. -/
noncomputable def floatArgs : RefineArgs :=
  { brightLowerArgs with mp := { brightLower with dtype := .float 32 } }

example : floatArgs.Valid ⟨3, 3, fun r c => if r = 1 ∧ c = 1 then 0 else 10⟩
    ⟨3, 3, fun r c => if r = 1 ∧ c = 1 then 0 else 20⟩ ∧
    SameScale floatArgs.mp ⟨3, 3, fun r c => if r = 1 ∧ c = 1 then 0 else 10⟩
      ⟨3, 3, fun r c => if r = 1 ∧ c = 1 then 0 else 20⟩ ∧
    DescendingOptimizer floatArgs.solver.opt ∧
    (∀ x0, startGiven floatArgs.solver.method x0 = some x0) ∧
    floatArgs.points[0]? = some true ∧ floatArgs.patterns[0]? = some [0, 1] ∧
    floatArgs.pcAt 0 = some ⟨1 / 4, 1 / 2, 4 / 3⟩ := by
  refine ⟨⟨rfl, rfl, rfl, ?_, rfl, .inl rfl, rfl, fun f s b => rfl⟩, .inl rfl, fun f x b => le_rfl,
    fun x => rfl, rfl, rfl, rfl⟩
  intro m h
  simp [floatArgs, brightLowerArgs] at h

/-- C77: with pseudo-symmetry operators, the row holds the result of the best optimization, together
with the index of its starting point, which no other optimization beats. -/
theorem C77_pseudo_symmetry {a : RefineArgs} {u l : Img ℝ} (hv : a.Valid u l)
    {starts lower upper : List (List (List ℝ))}
    (h1 : starts.length = a.points.count true) (h2 : lower.length = a.points.count true)
    (h3 : upper.length = a.points.count true)
    (hs : ∀ x, (x ∈ starts ∨ x ∈ lower ∨ x ∈ upper) → x.length = a.nPs + 1)
    {rows : List (Option RefineRow)} (hr : refineOrientation a starts lower upper = .ok rows)
    {j : ℕ} {pattern : List ℝ} {pc : PC ℝ} {row : RefineRow} (hj : a.points[j]? = some true)
    (hp : a.patterns[j]? = some pattern) (hpc : a.pcAt j = some pc)
    (hrow : rows[a.place j]? = some (some row)) :
    ∃ f : List ℝ → ℝ, ∃ b ≤ a.nPs, row.psIdx = (if a.nPs = 0 then none else some b) ∧
      ∀ i ≤ a.nPs, ∃ s lo up, (starts.getD (a.place j) [])[i]? = some s ∧
        (lower.getD (a.place j) [])[i]? = some lo ∧ (upper.getD (a.place j) [])[i]? = some up ∧
        1 - (a.solver.run f s lo up).funVal ≤ row.score ∧
        (i = b → row.x = (a.solver.run f s lo up).x ∧ row.nfev = (a.solver.run f s lo up).nfev ∧
          row.score = 1 - f row.x) := by
  obtain ⟨data, rows', hd, hr', hlen, hrow'⟩ := refineOrientation_rows hv h1 h2 h3
  obtain rfl : rows = rows' := by
    rw [hr] at hr'
    exact Except.ok.inj hr'
  have hlt := place_lt hj
  have e1 := List.getElem?_eq_getElem (l := starts) (h1 ▸ hlt)
  have e2 := List.getElem?_eq_getElem (l := lower) (h2 ▸ hlt)
  have e3 := List.getElem?_eq_getElem (l := upper) (h3 ▸ hlt)
  have hrw := hrow' j pattern pc _ _ _ hj hp hpc e1 e2 e3
  have l1 := hs _ (.inl (List.mem_of_getElem? e1))
  have l2 := hs _ (.inr (.inl (List.mem_of_getElem? e2)))
  have l3 := hs _ (.inr (.inr (List.mem_of_getElem? e3)))
  obtain ⟨row', hsolve, hsc, b, hb, hps, hx, hn, hbest⟩ := solveMany_spec a.solver hv.faithful a.nPs
    (objectiveOri (preparePattern (Spec.keep a.signalMask pattern) a.rescale)
      (a.detectorData.directionCosines pc.x pc.y pc.z) data) l1 l2 l3
  obtain rfl : row = row' := by
    rw [hrow] at hrw
    have := (Option.some.inj hrw).trans hsolve
    exact Option.some.inj this
  refine ⟨_, b, by omega, hps, fun i hi => ⟨_, _, _, ?_, ?_, ?_, hbest i (by omega), ?_⟩⟩
  · rw [List.getD_eq_getElem?_getD, e1, Option.getD_some, List.getElem?_eq_getElem (by omega)]
  · rw [List.getD_eq_getElem?_getD, e2, Option.getD_some, List.getElem?_eq_getElem (by omega)]
  · rw [List.getD_eq_getElem?_getD, e3, Option.getD_some, List.getElem?_eq_getElem (by omega)]
  · rintro rfl
    exact ⟨hx, hn, hsc⟩

/-- C77: the score used in refinement is the one used in dictionary indexing with the normalized
cross-correlation metric, so scores from the two can be compared. -/
theorem C77_same_as_dictionary_indexing {n : ℕ} (x y : Fin n → ℝ) (rescale : Bool) :
    nccExpCentered (preparePattern (List.ofFn x) rescale).1 (List.ofFn y)
      (preparePattern (List.ofFn x) rescale).2 =
      dotPatterns (zeroMeanNormalize x) (zeroMeanNormalize y) := by
  have hm : ∀ z : Fin n → ℝ, Spec.avg (List.ofFn z) = mean z := by
    intro z
    simp [Spec.avg, mean, List.sum_ofFn]
  have hz : (List.ofFn x).zip (List.ofFn y) = List.ofFn fun i => (x i, y i) := by
    refine List.ext_getElem (by simp) fun i h1 h2 => ?_
    simp
  rw [nccExpCentered_eq]
  unfold Spec.pearson dotPatterns zeroMeanNormalize
  rw [hz, hm, hm]
  simp only [List.map_ofFn, List.sum_ofFn, Function.comp]
  rw [Real.sqrt_mul (Finset.sum_nonneg fun i _ => sq_nonneg _), Finset.sum_div]
  refine Finset.sum_congr rfl fun i _ => ?_
  rw [div_mul_div_comm]

end Kp
