import Verif.Model.ExtrapolatePc
import Verif.Lemmas.NpRound
import Verif.Props.PcConventions
import Mathlib.Data.Rat.Floor
import Mathlib.Algebra.Order.Floor.Ring

/-
C09: `extrapolate_pc`.
-/

namespace Kp

variable {K : Type*} [Field K] [LinearOrder K] [IsStrictOrderedRing K] [FloorRing K]

/-- Spec, from the docstring (`_ebsd_detector.py` L1350-1378): given the average PC
`mean` in the average map position `(ybar, xbar)`, the PC in position `(y, x)`. -/
def documentedPc (nrows ncols : ℕ) (δ b ca sa dy dx : K) (mean : PC K) (ybar xbar : K)
    (y x : ℕ) : PC K :=
  ⟨mean.x + (xbar - x) * dx / (δ * ncols * b),
   mean.y + (ybar - y) * dy * ca / (δ * nrows * b),
   mean.z - (ybar - y) * dy * sa / (δ * nrows * b)⟩

/-- Spec: average of the map positions of the PCs. -/
def averagePos (pos : List (K × K)) : K × K :=
  ((pos.map Prod.fst).sum / (pos.length : K), (pos.map Prod.snd).sum / (pos.length : K))

/-- Spec: the average of some PCs. -/
def averagePc (pcs : List (PC K)) : PC K :=
  ⟨(pcs.map fun p => p.x).sum / (pcs.length : K), (pcs.map fun p => p.y).sum / (pcs.length : K),
    (pcs.map fun p => p.z).sum / (pcs.length : K)⟩

/-- Spec: what is left of a list without the outliers. -/
def withoutOutliers {α : Type*} (l : List α) (isOutlier : List Bool) : List α :=
  ((l.zip isOutlier).filter fun p => !p.2).map Prod.fst

/-- The documented input: a 2D array of shape `(2, n)`, row indices and column indices. -/
def documentedIndices (pos : List (K × K)) : List (List K) :=
  [pos.map Prod.fst, pos.map Prod.snd]

omit [LinearOrder K] [IsStrictOrderedRing K] [FloorRing K] in
theorem pcMean_eq (pcs : List (PC K)) : pcMean pcs = averagePc pcs := by
  unfold pcMean averagePc listMean
  simp

/-- C09, the part that holds: with the position of a single PC given as `(row, column)`
(one-dimensional input of shape `(2,)`), every extrapolated PC follows the documented
equations.  Missing from the full property: two or more PCs given as the documented
`(2, n)` array (false, see below) and non-integer average positions. -/
theorem C09_extrapolate_single_index_partial (d : Detector K) (p : PC K) (hpc : d.pc = [p])
    (r c : ℤ) (dy dx ca sa : K) :
    ∃ f, d.extrapolatePc 2 [[(r : K), (c : K)]] none dy dx ca sa = .ok f ∧
      ∀ y x, f y x = documentedPc d.nrows d.ncols d.pxSize d.binning ca sa dy dx p r c y x := by
  unfold Detector.extrapolatePc pcIndicesMean
  simp only [transposeRows, hpc]
  simp [List.range_succ, listMean, npRound_int, pcMean]
  intro y x
  simp only [extrapolatedPc, documentedPc]
  ext
  · simp only; rw [mul_right_comm d.pxSize]; ring
  · simp only; rw [mul_right_comm d.pxSize]; ring
  · simp only; rw [mul_right_comm d.pxSize]

example : ∃ d : Detector ℚ, d.pc = [⟨1/2, 1/2, 1/2⟩] ∧ d.NonDegenerate :=
  ⟨{ exDet with pc := [⟨1/2, 1/2, 1/2⟩] }, rfl, by simp [Detector.NonDegenerate, exDet]⟩

/-- C09, the part that holds: with positions given as an `(n, 2)` array (the transpose of
the documented shape) and no outliers, the equations hold with the average positions
rounded to integers, so each PC coordinate is within half a step of the documented one. -/
theorem C09_extrapolate_transposed_indices_partial (d : Detector K) (pos : List (K × K))
    (dy dx ca sa : K) :
    ∃ f : ℕ → ℕ → PC K, ∃ ybar xbar : ℤ,
      d.extrapolatePc 2 (pos.map (fun p => [p.1, p.2])) none dy dx ca sa = .ok f ∧
      |(ybar : K) - (averagePos pos).1| ≤ 1 / 2 ∧ |(xbar : K) - (averagePos pos).2| ≤ 1 / 2 ∧
      ∀ y x, f y x = documentedPc d.nrows d.ncols d.pxSize d.binning ca sa dy dx
        (averagePc d.pc) ybar xbar y x := by
  refine ⟨extrapolatedPc d.nrows d.ncols d.pxSize d.binning ca sa dy dx (pcMean d.pc)
      (npRound (averagePos pos).1, npRound (averagePos pos).2),
    npRound (averagePos pos).1, npRound (averagePos pos).2, ?_,
    npRound_close _, npRound_close _, ?_⟩
  · unfold Detector.extrapolatePc pcIndicesMean
    have h0 : (pos.map (fun p => [p.1, p.2])).filterMap (fun r => r[0]?) = pos.map Prod.fst := by
      rw [List.filterMap_map]
      exact List.filterMap_eq_map.symm ▸ rfl
    have h1 : (pos.map (fun p => [p.1, p.2])).filterMap (fun r => r[1]?) = pos.map Prod.snd := by
      rw [List.filterMap_map]
      exact List.filterMap_eq_map.symm ▸ rfl
    have ht : transposeRows 2 (pos.map (fun p => [p.1, p.2])) = [pos.map Prod.fst, pos.map Prod.snd] := by
      simp only [transposeRows, List.range_succ, List.range_zero, List.nil_append, List.map_append,
        List.map_cons, List.map_nil, h0, h1, List.cons_append]
    simp only [ht, List.map_cons, listMean, averagePos, List.length_map]
  · intro y x
    rw [← pcMean_eq]
    simp only [extrapolatedPc, documentedPc]
    ext
    · simp only; rw [mul_right_comm d.pxSize]; ring
    · simp only; rw [mul_right_comm d.pxSize]; ring
    · simp only; rw [mul_right_comm d.pxSize]

theorem maskRows_ok {α : Type*} {l : List α} {o : List Bool} {r : List α} (h : maskRows l (o.map not) = .ok r) :
    o.length = l.length ∧ r = withoutOutliers l o := by
  unfold maskRows at h
  by_cases hl : l.length = (o.map not).length
  · rw [if_pos hl] at h
    refine ⟨by simpa using hl.symm, ?_⟩
    have h := Except.ok.inj h
    rw [← h, withoutOutliers, List.zip_map_right, List.filterMap_map]
    clear h hl
    generalize l.zip o = z
    induction z with
    | nil => rfl
    | cons a z ih =>
      obtain ⟨x, b⟩ := a
      cases b <;> simpa using ih
  · rw [if_neg hl] at h
    cases h

omit [IsStrictOrderedRing K] in
/-- C09, the part that holds with outliers: whatever the positions given, the PCs lie in the documented plane
through the average of the PCs which are not outliers (but see `C09_outliers_violated` for its position). -/
theorem C09_outliers_partial (d : Detector K) {m : ℕ} {rows : List (List K)} {o : List Bool} {dy dx ca sa : K}
    {f : ℕ → ℕ → PC K} (h : d.extrapolatePc m rows (some o) dy dx ca sa = .ok f) :
    o.length = d.pc.length ∧ ∃ ybar xbar : ℤ, ∀ y x, f y x =
      documentedPc d.nrows d.ncols d.pxSize d.binning ca sa dy dx (averagePc (withoutOutliers d.pc o)) ybar xbar
        y x := by
  unfold Detector.extrapolatePc at h
  simp only at h
  cases hp : maskRows d.pc (o.map not) with
  | error e => rw [hp] at h; cases h
  | ok pcs =>
    obtain ⟨h1, rfl⟩ := maskRows_ok hp
    rw [hp] at h
    simp only at h
    cases hi : pcIndicesMean m rows (some o) with
    | error e => rw [hi] at h; cases h
    | ok pos =>
      rw [hi] at h
      have h := Except.ok.inj h
      refine ⟨h1, pos.1, pos.2, fun y x => ?_⟩
      rw [← h, ← pcMean_eq]
      simp only [extrapolatedPc, documentedPc]
      ext
      · simp only; rw [mul_right_comm d.pxSize]; ring
      · simp only; rw [mul_right_comm d.pxSize]; ring
      · simp only; rw [mul_right_comm d.pxSize]

/-- Three PCs, the last an outlier: the average of the other two is used. -/
example : ∃ f, ({ exDet with pc := [⟨1/4, 1/2, 1/2⟩, ⟨3/4, 1/2, 1/4⟩, ⟨5, 5, 5⟩] } : Detector ℚ).extrapolatePc 3
      (documentedIndices [(2, 2), (2, 2), (9, 9)]) (some [false, false, true]) 1 1 1 0 = .ok f ∧
    f 2 2 = ⟨1/2, 1/2, 3/8⟩ :=
  ⟨_, rfl, by decide +kernel⟩

/-- C09 is false of the code with outliers: with three PCs in positions (0, 0), (10, 0) and (50, 50), the last an
outlier, the average position of the others is (5, 0), but `extrapolate_pc` uses (0, 5). -/
theorem C09_outliers_violated : ∃ (d : Detector ℚ) (f : ℕ → ℕ → PC ℚ),
    d.extrapolatePc 3 (documentedIndices [(0, 0), (10, 0), (50, 50)]) (some [false, false, true]) 1 1 1 0 = .ok f ∧
      averagePos (withoutOutliers [((0 : ℚ), (0 : ℚ)), (10, 0), (50, 50)] [false, false, true]) = (5, 0) ∧
      f 5 0 ≠ averagePc (withoutOutliers d.pc [false, false, true]) ∧
      f 0 5 = averagePc (withoutOutliers d.pc [false, false, true]) := by
  refine ⟨{ exDet with pc := [⟨1/4, 1/2, 1/2⟩, ⟨3/4, 1/2, 1/4⟩, ⟨5, 5, 5⟩] }, _, rfl, ?_, ?_, ?_⟩ <;> decide +kernel

omit [IsStrictOrderedRing K] in
/-- With positions given as an `(n, 2)` array, for which the average is right without outliers, giving outliers
raises `IndexError` unless there are exactly two PCs. -/
theorem C09_outliers_transposed_raises (d : Detector K) (pos : List (K × K)) {o : List Bool} (ho : o.length ≠ 2)
    (dy dx ca sa : K) :
    d.extrapolatePc 2 (pos.map fun p => [p.1, p.2]) (some o) dy dx ca sa = .error .indexError := by
  unfold Detector.extrapolatePc
  simp only
  cases hp : maskRows d.pc (o.map not) with
  | error e =>
    unfold maskRows at hp
    split at hp
    · cases hp
    · simp only
      cases hp
      rfl
  | ok pcs =>
    simp only
    have : pcIndicesMean 2 (pos.map fun p => [p.1, p.2]) (some o) = .error .indexError := by
      unfold pcIndicesMean maskRows
      simp only
      rw [if_neg]
      simp [transposeRows]
      omega
    rw [this]

/-- C09 is false of the code for the documented shape `(2, n)`: with two PCs in map
positions (row 0, column 0) and (row 10, column 0), the average position is (5, 0), but
`extrapolate_pc` uses (0, 5): it averages the row and column of each point. -/
theorem C09_documented_shape_uses_wrong_average :
    averagePos [((0 : ℚ), (0 : ℚ)), (10, 0)] = (5, 0) ∧
    pcIndicesMean 2 (documentedIndices [((0 : ℚ), (0 : ℚ)), (10, 0)]) none = .ok (0, 5) := by
  constructor <;> decide +kernel

/-- C09 is false of the code: an observable consequence, the PC in the average position is
not the average PC. -/
theorem C09_documented_shape_wrong_pc :
    ∃ (d : Detector ℚ) (f : ℕ → ℕ → PC ℚ),
      d.extrapolatePc 2 (documentedIndices [((0 : ℚ), (0 : ℚ)), (10, 0)]) none 1 1 1 0 = .ok f ∧
      f 5 0 ≠ averagePc d.pc := by
  refine ⟨exDet, _, rfl, ?_⟩
  decide +kernel

omit [IsStrictOrderedRing K] in
/-- C09 is false of the code: a single PC given in the documented shape `(2, 1)` raises
`IndexError`. -/
theorem C09_documented_shape_single_raises (d : Detector K) (r c dy dx ca sa : K) :
    d.extrapolatePc 1 (documentedIndices [(r, c)]) none dy dx ca sa = .error .indexError := by
  unfold Detector.extrapolatePc pcIndicesMean
  simp [documentedIndices, transposeRows, List.range_succ]

end Kp
