import Verif.Spec.NanRefinement
import Verif.Lemmas.Refine

/-! Lemmas for `Verif.Props.NanRefinement` (C153). -/

namespace Kp

/-! ### Contrast -/

theorem not_pixelsDiffer {l : List ℝ} (h : ¬ Spec.PixelsDiffer l) : ∃ v, ∀ x ∈ l, x = v := by
  cases l with
  | nil => exact ⟨0, by simp⟩
  | cons y l =>
    refine ⟨y, fun x hx => ?_⟩
    by_contra hne
    exact h ⟨x, hx, y, by simp, hne⟩

theorem norm_ne_zero_iff (l : List ℝ) :
    ((cen l).map fun x => x ^ 2).sum ≠ 0 ↔ Spec.PixelsDiffer l := by
  constructor
  · intro h
    by_contra hc
    obtain ⟨v, hv⟩ := not_pixelsDiffer hc
    refine h (List.sum_eq_zero fun x hx => ?_)
    obtain ⟨y, hy, rfl⟩ := List.mem_map.1 hx
    rw [cen_const hv y hy]
    norm_num
  · rintro ⟨x, hx, y, hy, hne⟩ h0
    have key : ∀ z ∈ l, z = listMean l := by
      intro z hz
      have hm : (z - listMean l) ^ 2 ∈ (cen l).map fun x => x ^ 2 := by
        unfold cen
        rw [List.map_map]
        exact List.mem_map.2 ⟨z, hz, rfl⟩
      have := List.single_le_sum (l := (cen l).map fun x => x ^ 2) (by
        intro w hw
        obtain ⟨t, -, rfl⟩ := List.mem_map.1 hw
        positivity) _ hm
      rw [h0] at this
      have h1 : z - listMean l = 0 := by nlinarith [sq_nonneg (z - listMean l)]
      linarith
    exact hne ((key x hx).trans (key y hy).symm)

theorem norm_nonneg_list (l : List ℝ) : 0 ≤ (l.map fun x => x ^ 2).sum := by
  refine List.sum_nonneg fun w hw => ?_
  obtain ⟨t, -, rfl⟩ := List.mem_map.1 hw
  positivity

open scoped Classical in
theorem nccCenteredNan_key (q sim : List ℝ) :
    nccCenteredNan (q.map fun x => x - listMean q) sim
      (((q.map fun x => x - listMean q).map fun x => x ^ 2).sum) =
      if Spec.PixelsDiffer q ∧ Spec.PixelsDiffer sim then some (Spec.pearson q sim) else none := by
  change (if Real.sqrt (((cen q).map fun x => x ^ 2).sum * ((cen sim).map fun x => x ^ 2).sum) = 0
    then none else some ((List.zipWith (· * ·) (cen q) (cen sim)).sum /
      Real.sqrt (((cen q).map fun x => x ^ 2).sum * ((cen sim).map fun x => x ^ 2).sum))) = _
  rw [← pearson_eq]
  have hz : Real.sqrt (((cen q).map fun x => x ^ 2).sum * ((cen sim).map fun x => x ^ 2).sum) = 0 ↔
      ¬ (Spec.PixelsDiffer q ∧ Spec.PixelsDiffer sim) := by
    rw [Real.sqrt_eq_zero (mul_nonneg (norm_nonneg_list _) (norm_nonneg_list _)), mul_eq_zero,
      ← norm_ne_zero_iff, ← norm_ne_zero_iff, not_and_or, not_not, not_not]
  by_cases h : Spec.PixelsDiffer q ∧ Spec.PixelsDiffer sim
  · rw [if_pos h, if_neg (by rw [hz]; exact not_not.2 h)]
  · rw [if_neg h, if_pos (hz.2 h)]

theorem pixelsDiffer_rescale (p : List ℝ) :
    Spec.PixelsDiffer (rescaleWithMinMax p (listMin p) (listMax p) (-1) 1) ↔ Spec.PixelsDiffer p := by
  have e : rescaleWithMinMax p (listMin p) (listMax p) (-1) 1 =
      p.map (rescalePixel (listMin p) (listMax p) (-1) 1) := rfl
  rw [e]
  constructor
  · rintro ⟨x, hx, y, hy, hne⟩
    obtain ⟨x', hx', rfl⟩ := List.mem_map.1 hx
    obtain ⟨y', hy', rfl⟩ := List.mem_map.1 hy
    exact ⟨x', hx', y', hy', fun h => hne (by rw [h])⟩
  · rintro ⟨x, hx, y, hy, hne⟩
    refine ⟨_, List.mem_map_of_mem hx, _, List.mem_map_of_mem hy, fun h => hne ?_⟩
    rcases listMin_lt_or_const p with hl | hl
    · rw [rescalePixel_affine, rescalePixel_affine] at h
      have hc : (1 - -1 : ℝ) / (listMax p - listMin p) ≠ 0 :=
        (div_pos (by norm_num) (sub_pos.2 hl)).ne'
      exact mul_left_cancel₀ hc (add_right_cancel h)
    · rw [hl x hx, hl y hy]

open scoped Classical in
theorem nccCenteredNan_eq (p sim : List ℝ) (rescale : Bool) :
    nccCenteredNan (preparePattern p rescale).1 sim (preparePattern p rescale).2 =
      if Spec.PixelsDiffer p ∧ Spec.PixelsDiffer sim then some (Spec.pearson p sim) else none := by
  cases rescale with
  | false => exact nccCenteredNan_key p sim
  | true =>
    refine (nccCenteredNan_key (rescaleWithMinMax p (listMin p) (listMax p) (-1) 1) sim).trans ?_
    rw [pixelsDiffer_rescale]
    have := pearson_rescale_left p sim (listMin_lt_or_const p)
    change Spec.pearson (rescaleWithMinMax p (listMin p) (listMax p) (-1) 1) sim = _ at this
    rw [this]

theorem pearson_self {l : List ℝ} (h : Spec.PixelsDiffer l) : Spec.pearson l l = 1 := by
  have hn := (norm_ne_zero_iff l).2 h
  rw [pearson_eq, Real.sqrt_mul_self (norm_nonneg_list _)]
  have : (List.zipWith (· * ·) (cen l) (cen l)).sum = ((cen l).map fun x => x ^ 2).sum := by
    rw [List.zipWith_self]
    simp only [pow_two]
  rw [this, div_self hn]

theorem pixelsDiffer_of_pearson {a b : List ℝ} (h : Spec.pearson a b ≠ 0) : Spec.PixelsDiffer b := by
  by_contra hc
  obtain ⟨v, hv⟩ := not_pixelsDiffer hc
  exact h (pearson_const_right a hv)

open scoped Classical in
theorem isNanScore_of (a : RefineArgs) (hs : a.mp.checkSuitable = .ok ()) {u l : Img ℝ}
    (ha : a.mp.arraysFromEnergy a.energy = some (u, l)) (hmp : SameScale a.mp u l)
    (hm : ∀ m, a.signalMask = some m → m.length = a.det.nrows * a.det.ncols) {data : MasterData}
    (hd : a.mp.refinementData a.energy = some data) (pattern : List ℝ) (q : Quat) (p : PC ℝ)
    (rescale : Bool) :
    Spec.IsNanScore a pattern q p (nccCenteredNan (preparePattern (Spec.keep a.signalMask pattern) rescale).1
      (projectPattern q data.upper data.lower data.npx data.npy data.scale
        (a.detectorData.directionCosines p.x p.y p.z) false 0 1 (.float 32))
      (preparePattern (Spec.keep a.signalMask pattern) rescale).2) := by
  rw [nccCenteredNan_eq]
  have hall := isScore_of a hs ha hmp hm hd
  have hproj : ∃ full, projectPattern q data.upper data.lower data.npx data.npy data.scale
        (a.detectorData.directionCosines p.x p.y p.z) false 0 1 (.float 32) =
      Spec.keep a.signalMask full := by
    rw [projectPattern_plain, detectorData_directionCosines a hm]
    exact ⟨_, rfl⟩
  obtain ⟨full, hfull⟩ := hproj
  obtain ⟨sim, hsim, heq⟩ := hall pattern q p
  have huniq : ∀ pat, Spec.pearson (Spec.keep a.signalMask pat) (Spec.keep a.signalMask full) =
      Spec.pearson (Spec.keep a.signalMask pat) (Spec.keep a.signalMask sim) := by
    intro pat
    obtain ⟨sim', hsim', heq'⟩ := hall pat q p
    rw [hsim] at hsim'
    have : sim = sim' := by simpa using hsim'
    rw [← this, hfull] at heq'
    exact heq'
  have hcon : Spec.PixelsDiffer (Spec.keep a.signalMask full) ↔
      Spec.PixelsDiffer (Spec.keep a.signalMask sim) := by
    constructor
    · intro h
      refine pixelsDiffer_of_pearson (a := Spec.keep a.signalMask full) ?_
      rw [← huniq, pearson_self h]
      exact one_ne_zero
    · intro h
      refine pixelsDiffer_of_pearson (a := Spec.keep a.signalMask sim) ?_
      rw [huniq, pearson_self h]
      exact one_ne_zero
  rw [hfull, hcon, huniq]
  exact ⟨sim, hsim, fun h1 h2 => if_pos ⟨h1, h2⟩, fun h => if_neg fun h' => h h'.1,
    fun h => if_neg fun h' => h h'.2⟩

/-! ### Solvers -/

theorem bestScipy_idx {res : List (OptResult ℝ (List ℝ))} {t : ℝ × ℕ × List ℝ × ℕ}
    (h : bestScipy res = some t) : argmaxFirst (res.map fun r => 1 - r.funVal) = t.2.2.2 := by
  unfold bestScipy at h
  simp only at h
  split at h
  · rw [← Option.some.inj h]
  · cases h

theorem bestNlopt_idx {res : List (OptResult ℝ (List ℝ))} {t : ℝ × ℕ × List ℝ × ℕ}
    (h : bestNlopt res = some t) : argminFirst (res.map fun r => r.funVal) = t.2.2.2 := by
  unfold bestNlopt at h
  simp only at h
  split at h
  · rw [← Option.some.inj h]
  · cases h

theorem bestNan_spec {res : List (OptResult (Option ℝ) (List ℝ))} (h : res ≠ []) :
    ∃ b r, res[b]? = some r ∧
      bestScipyNan res = some ⟨r.funVal.map (1 - ·), r.nfev, r.x, some b⟩ ∧
      bestNloptNan res = some ⟨r.funVal.map (1 - ·), r.nfev, r.x, some b⟩ ∧
      ((∃ r' ∈ res, r'.funVal = none) → r.funVal = none ∧
        ∀ i < b, ∀ r', res[i]? = some r' → r'.funVal ≠ none) ∧
      ((∀ r' ∈ res, r'.funVal ≠ none) → ∃ v, r.funVal = some v ∧
        ∀ r' ∈ res, ∀ v', r'.funVal = some v' → v ≤ v') := by
  have hsame : ∀ l : List (Option ℝ), (l.map fun o => o.map ((1 : ℝ) - ·)).findIdx? Option.isNone =
      l.findIdx? Option.isNone := by
    intro l
    rw [List.findIdx?_map]
    congr 1
    funext o
    cases o <;> rfl
  have hmm : res.map (fun r => r.funVal.map ((1 : ℝ) - ·)) =
      (res.map fun r => r.funVal).map fun o => o.map ((1 : ℝ) - ·) := by
    rw [List.map_map]
    rfl
  -- it is enough to know that both choices are `b`
  have fin : ∀ b r, res[b]? = some r → argmaxNan (res.map fun r => r.funVal.map ((1 : ℝ) - ·)) = b →
      argminNan (res.map fun r => r.funVal) = b →
      bestScipyNan res = some ⟨r.funVal.map (1 - ·), r.nfev, r.x, some b⟩ ∧
      bestNloptNan res = some ⟨r.funVal.map (1 - ·), r.nfev, r.x, some b⟩ := by
    intro b r hb h1 h2
    constructor
    · unfold bestScipyNan
      simp only [h1, hb, List.getElem?_map, Option.map_some]
    · unfold bestNloptNan
      simp only [h2, hb, List.getElem?_map, Option.map_some]
  rcases hf : (res.map fun r => r.funVal).findIdx? Option.isNone with _ | b
  · -- no NaN
    have hno : ∀ r' ∈ res, r'.funVal ≠ none := by
      intro r' hr' hn
      have := List.findIdx?_eq_none_iff.1 hf r'.funVal (List.mem_map_of_mem hr')
      rw [hn] at this
      cases this
    obtain ⟨b, r, hb, hsc, hnl, hbest, -⟩ := C36_best_solution (K := ℝ)
      (res := res.map fun r => (⟨r.funVal.getD 0, r.nfev, r.x⟩ : OptResult ℝ (List ℝ))) (by simpa using h)
    rw [List.getElem?_map, Option.map_eq_some_iff] at hb
    obtain ⟨r0, hb0, rfl⟩ := hb
    have e1 : argmaxNan (res.map fun r => r.funVal.map ((1 : ℝ) - ·)) = b := by
      have := bestScipy_idx hsc
      rw [List.map_map] at this
      unfold argmaxNan
      rw [hmm, hsame, hf]
      simp only
      refine Eq.trans (congrArg argmaxFirst ?_) this
      rw [List.map_map, List.map_map]
      refine List.map_congr_left fun r' hr' => ?_
      rcases hv : r'.funVal with _ | v
      · exact absurd hv (hno r' hr')
      · simp [hv]
    have e2 : argminNan (res.map fun r => r.funVal) = b := by
      have := bestNlopt_idx hnl
      rw [List.map_map] at this
      unfold argminNan
      rw [hf]
      simp only
      refine Eq.trans (congrArg argminFirst ?_) this
      rw [List.map_map]
      rfl
    refine ⟨b, r0, hb0, (fin b r0 hb0 e1 e2).1, (fin b r0 hb0 e1 e2).2, ?_, ?_⟩
    · rintro ⟨r', hr', hn⟩
      exact absurd hn (hno r' hr')
    · intro _
      rcases hv : r0.funVal with _ | v
      · exact absurd hv (hno r0 (List.mem_of_getElem? hb0))
      · refine ⟨v, rfl, fun r' hr' v' hv' => ?_⟩
        have := hbest _ (List.mem_map_of_mem hr')
        simp only [hv, hv', Option.getD_some] at this
        linarith
  · have hlt := (List.findIdx?_eq_some_iff_getElem.1 hf)
    obtain ⟨hlt, hnone, hbefore⟩ := hlt
    have hlt' : b < res.length := by simpa using hlt
    have hn : (res[b]).funVal = none := by simpa using hnone
    have e1 : argmaxNan (res.map fun r => r.funVal.map ((1 : ℝ) - ·)) = b := by
      unfold argmaxNan
      rw [hmm, hsame, hf]
    have e2 : argminNan (res.map fun r => r.funVal) = b := by
      unfold argminNan
      rw [hf]
    have hb0 : res[b]? = some res[b] := List.getElem?_eq_getElem hlt'
    refine ⟨b, res[b], hb0, (fin b _ hb0 e1 e2).1, (fin b _ hb0 e1 e2).2, ?_, ?_⟩
    · intro _
      refine ⟨hn, fun i hi r' hr' => ?_⟩
      obtain ⟨hi', rfl⟩ := List.getElem?_eq_some_iff.1 hr'
      have := hbefore i hi
      intro hc
      simp [hc] at this
    · intro hno
      exact absurd hn (hno _ (List.mem_of_getElem? hb0))

theorem solveManyNan_spec (k : SolverKwargs) {opt : OptimizerNan} (hf : Spec.ReportsValue opt) (nPs : ℕ)
    (f : List ℝ → Option ℝ) {starts lower upper : List (List ℝ)} (h1 : starts.length = nPs + 1)
    (h2 : lower.length = nPs + 1) (h3 : upper.length = nPs + 1) :
    ∃ row, solveManyNan k opt nPs f starts lower upper = some row ∧
      row.score = (f row.x).map (1 - ·) ∧
      ∃ (b : ℕ) (hb : b < nPs + 1),
        row.psIdx = (if nPs = 0 then none else some b) ∧
        row.x = (runNan k opt f (starts[b]'(by omega)) (lower[b]'(by omega)) (upper[b]'(by omega))).x ∧
        row.nfev =
          (runNan k opt f (starts[b]'(by omega)) (lower[b]'(by omega)) (upper[b]'(by omega))).nfev ∧
        ((∃ (i : ℕ) (hi : i < nPs + 1), (runNan k opt f (starts[i]'(by omega)) (lower[i]'(by omega))
            (upper[i]'(by omega))).funVal = none) → row.score = none ∧
          ∀ (i : ℕ) (hi : i < b), (runNan k opt f (starts[i]'(by omega)) (lower[i]'(by omega))
            (upper[i]'(by omega))).funVal ≠ none) ∧
        ((∀ (i : ℕ) (hi : i < nPs + 1), (runNan k opt f (starts[i]'(by omega)) (lower[i]'(by omega))
            (upper[i]'(by omega))).funVal ≠ none) → ∃ s, row.score = some s ∧
          ∀ (i : ℕ) (hi : i < nPs + 1) v, (runNan k opt f (starts[i]'(by omega)) (lower[i]'(by omega))
            (upper[i]'(by omega))).funVal = some v → 1 - v ≤ s) := by
  unfold solveManyNan
  by_cases h0 : nPs = 0
  · subst h0
    rw [if_pos rfl, List.getElem?_eq_getElem (by omega), List.getElem?_eq_getElem (by omega),
      List.getElem?_eq_getElem (by omega)]
    refine ⟨_, rfl, ?_, 0, by omega, rfl, rfl, rfl, ?_, ?_⟩
    · exact congrArg (Option.map (1 - ·)) (hf _ _ _)
    · rintro ⟨i, hi, hn⟩
      obtain rfl : i = 0 := by omega
      refine ⟨?_, fun i hi => absurd hi (by omega)⟩
      unfold solveSingleNan
      simp only [hn, Option.map_none]
    · intro hno
      unfold solveSingleNan
      rcases hv : (runNan k opt f (starts[0]'(by omega)) (lower[0]'(by omega))
        (upper[0]'(by omega))).funVal with _ | v
      · exact absurd hv (hno 0 (by omega))
      · refine ⟨1 - v, by simp only [hv, Option.map_some], fun i hi v' hv' => ?_⟩
        obtain rfl : i = 0 := by omega
        rw [hv] at hv'
        rw [Option.some.inj hv']
  · rw [if_neg h0]
    have hrun : ∀ i (hi : i < nPs + 1), runAtNan k opt f starts lower upper i =
        some (runNan k opt f (starts[i]'(by omega)) (lower[i]'(by omega)) (upper[i]'(by omega))) := by
      intro i hi
      unfold runAtNan
      rw [List.getElem?_eq_getElem (by omega), List.getElem?_eq_getElem (by omega),
        List.getElem?_eq_getElem (by omega)]
    obtain ⟨res, hall, hres⟩ := allSome_of (l := (List.range (nPs + 1)).map
      (runAtNan k opt f starts lower upper)) (by
        intro i hi
        have hi : i < nPs + 1 := by simpa using hi
        exact ⟨runNan k opt f (starts[i]'(by omega)) (lower[i]'(by omega)) (upper[i]'(by omega)), by
          simp [hi, hrun i hi]⟩)
    have hget : ∀ i (hi : i < nPs + 1), res[i]? = some (runNan k opt f (starts[i]'(by omega))
        (lower[i]'(by omega)) (upper[i]'(by omega))) := by
      intro i hi
      have := congrArg (fun l => l[i]?) hres
      simp only [List.getElem?_map, List.getElem?_range hi, Option.map_some, hrun i hi] at this
      rcases hr : res[i]? with _ | r
      · rw [hr] at this
        simp at this
      · rw [hr] at this
        simpa using this.symm
    have hlen : res.length = nPs + 1 := by
      have := congrArg List.length hres
      simpa using this.symm
    simp only [hall]
    have hne : res ≠ [] := by
      intro h
      rw [h] at hlen
      simp at hlen
    obtain ⟨b, r, hb, hsc, hnl, hnan, hbest⟩ := bestNan_spec hne
    have hbl : b < nPs + 1 := by
      rw [← hlen]
      exact (List.getElem?_eq_some_iff.1 hb).1
    have hr : r = runNan k opt f (starts[b]'(by omega)) (lower[b]'(by omega)) (upper[b]'(by omega)) := by
      rw [hget b hbl] at hb
      exact (Option.some.inj hb).symm
    have e : (if k.method.isNlopt = true then bestNloptNan res else bestScipyNan res) =
        some ⟨r.funVal.map (1 - ·), r.nfev, r.x, some b⟩ := by
      split
      · exact hnl
      · exact hsc
    rw [e]
    refine ⟨_, rfl, ?_, b, hbl, ?_, ?_, ?_, ?_, ?_⟩
    · simp only [hr]
      exact congrArg (Option.map (1 - ·)) (hf _ _ _)
    · simp [h0]
    · simp only [hr]
    · simp only [hr]
    · rintro ⟨i, hi, hn⟩
      obtain ⟨g1, g2⟩ := hnan ⟨_, List.mem_of_getElem? (hget i hi), hn⟩
      refine ⟨by simp only [g1, Option.map_none], fun i' hi' => ?_⟩
      exact g2 i' hi' _ (hget i' (by omega))
    · intro hno
      have hno' : ∀ r' ∈ res, r'.funVal ≠ none := by
        intro r' hr'
        obtain ⟨i, hi, rfl⟩ := List.mem_iff_getElem.1 hr'
        have g := hget i (by omega)
        rw [List.getElem?_eq_getElem hi] at g
        rw [Option.some.inj g]
        exact hno i (by omega)
      obtain ⟨v, hv, hmin⟩ := hbest hno'
      refine ⟨1 - v, by simp only [hv, Option.map_some], fun i hi v' hv' => ?_⟩
      have := hmin _ (List.mem_of_getElem? (hget i hi)) v' hv'
      linarith

theorem solveManyNan_chosen (a : RefineArgs) {opt : OptimizerNan} (hf : Spec.ReportsValue opt)
    (f : List ℝ → Option ℝ) {starts lower upper : List (List ℝ)} (h1 : starts.length = a.nPs + 1)
    (h2 : lower.length = a.nPs + 1) (h3 : upper.length = a.nPs + 1) :
    ∃ row, solveManyNan a.solver opt a.nPs f starts lower upper = some row ∧
      row.score = (f row.x).map (1 - ·) ∧
      ∃ b ≤ a.nPs, row.psIdx = (if a.nPs = 0 then none else some b) ∧
        Spec.Chosen (Spec.optimizations a opt f starts lower upper) row b := by
  obtain ⟨row, hr, hsc, b, hb, hps, hx, hn, hnan, hbest⟩ :=
    solveManyNan_spec a.solver hf a.nPs f h1 h2 h3
  have hget : ∀ (i : ℕ) (hi : i < a.nPs + 1), (Spec.optimizations a opt f starts lower upper)[i]? =
      some (runNan a.solver opt f (starts[i]'(by omega)) (lower[i]'(by omega))
        (upper[i]'(by omega))) := by
    intro i hi
    unfold Spec.optimizations
    rw [List.getElem?_zipWith, List.getElem?_eq_getElem (by omega), List.zip,
      List.getElem?_zipWith, List.getElem?_eq_getElem (by omega), List.getElem?_eq_getElem (by omega)]
    rfl
  have hlen : (Spec.optimizations a opt f starts lower upper).length = a.nPs + 1 := by
    simp [Spec.optimizations, h1, h2, h3]
  have hmem : ∀ r ∈ Spec.optimizations a opt f starts lower upper, ∃ (i : ℕ) (hi : i < a.nPs + 1),
      r = runNan a.solver opt f (starts[i]'(by omega)) (lower[i]'(by omega)) (upper[i]'(by omega)) := by
    intro r hr
    obtain ⟨i, hi, rfl⟩ := List.mem_iff_getElem.1 hr
    refine ⟨i, by omega, ?_⟩
    have := hget i (by omega)
    rw [List.getElem?_eq_getElem hi] at this
    exact Option.some.inj this
  refine ⟨row, hr, hsc, b, by omega, hps, ⟨_, hget b hb, hx, hn, ?_⟩, fun hno => ?_, ?_⟩
  · rw [hsc, hx]
    exact congrArg (Option.map (1 - ·)) (hf _ _ _).symm
  · obtain ⟨s, hs, hle⟩ := hbest fun i hi => hno _ (List.mem_of_getElem? (hget i hi))
    refine ⟨s, hs, fun r hr v hv => ?_⟩
    obtain ⟨i, hi, rfl⟩ := hmem r hr
    exact hle i hi v hv
  · rintro ⟨r, hr, hv⟩
    obtain ⟨i, hi, rfl⟩ := hmem r hr
    obtain ⟨g1, g2⟩ := hnan ⟨i, hi, hv⟩
    refine ⟨g1, fun i hi r hr => ?_⟩
    rw [hget i (by omega)] at hr
    rw [← Option.some.inj hr]
    exact g2 i hi

/-! ### Rows of results -/

theorem refineOrientationNan_rows {a : RefineArgs} {u l : Img ℝ} (hv : a.Valid u l) (opt : OptimizerNan)
    {starts lower upper : List (List (List ℝ))} (h1 : starts.length = a.points.count true)
    (h2 : lower.length = a.points.count true) (h3 : upper.length = a.points.count true) :
    ∃ data rows, a.mp.refinementData a.energy = some data ∧
      refineOrientationNan a opt starts lower upper = .ok rows ∧ rows.length = a.points.count true ∧
      ∀ j pattern pc s lo up, a.points[j]? = some true → a.patterns[j]? = some pattern →
        a.pcAt j = some pc → starts[a.place j]? = some s → lower[a.place j]? = some lo →
        upper[a.place j]? = some up →
        rows[a.place j]? = some (oriSolverNan a.solver opt a.nPs a.rescale data
          (.inr (a.detectorData, pc)) (Spec.keep a.signalMask pattern) s lo up) := by
  obtain ⟨data, hd⟩ := refinementData_some hv
  have hl := prepared_length hv
  unfold refineOrientationNan
  simp only [hd]
  by_cases hu : a.uniquePc = true
  · rw [if_pos hu, mapBlocks5_eq _ _ (by rw [hl, hv.chunks]) (by rw [hl, h1]) (by rw [hl, h2])
      (by rw [hl, h3]) (by rw [hl, pcs_length hv])]
    refine ⟨data, _, rfl, rfl, by simp [hl, h1, h2, h3, pcs_length hv], ?_⟩
    intro j pattern pc s lo up hj hp hpc hs hlo hup
    have hz : (a.prepared.zip (starts.zip (lower.zip (upper.zip a.pcs))))[a.place j]? =
        some (Spec.keep a.signalMask pattern, s, lo, up, pc) := by
      simp only [List.getElem?_zip_eq_some]
      exact ⟨prepared_get hv hj hp, hs, hlo, hup, pcs_get hv hj hpc⟩
    rw [List.getElem?_map, hz]
    rfl
  · rw [if_neg hu, mapBlocks4_eq _ _ (by rw [hl, hv.chunks]) (by rw [hl, h1]) (by rw [hl, h2])
      (by rw [hl, h3])]
    refine ⟨data, _, rfl, rfl, by simp [hl, h1, h2, h3], ?_⟩
    intro j pattern pc s lo up hj hp hpc hs hlo hup
    have hz : (a.prepared.zip (starts.zip (lower.zip upper)))[a.place j]? =
        some (Spec.keep a.signalMask pattern, s, lo, up) := by
      simp only [List.getElem?_zip_eq_some]
      exact ⟨prepared_get hv hj hp, hs, hlo, hup⟩
    rw [uniquePc_iff hv, ne_eq, not_not] at hu
    have hpc' : a.det.pc = [pc] := by
      unfold RefineArgs.pcAt at hpc
      rw [if_pos hu] at hpc
      have := hv.pcs
      rw [hu] at this
      obtain ⟨p, hp⟩ := List.length_eq_one_iff.1 (by simpa using this)
      rw [hp] at hpc ⊢
      simpa using hpc
    rw [List.getElem?_map, hz]
    simp only [Option.map_some, oriSolverNan]
    rw [C30_each_pc hv.pcs, hpc']
    rfl

theorem refinePcNan_rows {a : RefineArgs} {u l : Img ℝ} (hv : a.Valid u l) (opt : OptimizerNan)
    {rots : List Quat} {lower upper : List (List ℝ)} (h1 : rots.length = a.points.count true)
    (h2 : lower.length = a.points.count true) (h3 : upper.length = a.points.count true) :
    ∃ data rows, a.mp.refinementData a.energy = some data ∧
      refinePcNan a opt rots lower upper = .ok rows ∧ rows.length = a.points.count true ∧
      ∀ j pattern (pc : PC ℝ) q lo up, a.points[j]? = some true → a.patterns[j]? = some pattern →
        a.pcAt j = some pc → rots[a.place j]? = some q → lower[a.place j]? = some lo →
        upper[a.place j]? = some up →
        rows[a.place j]? = some (some (pcSolverNan a.solver opt a.rescale data a.detectorData
          (Spec.keep a.signalMask pattern) q [pc.x, pc.y, pc.z] lo up)) := by
  obtain ⟨data, hd⟩ := refinementData_some hv
  have hl := prepared_length hv
  unfold refinePcNan
  simp only [hd]
  rw [mapBlocks5_eq _ _ (by rw [hl, hv.chunks]) (by rw [hl, h1]) (by rw [hl, pcs_length hv])
    (by rw [hl, h2]) (by rw [hl, h3])]
  refine ⟨data, _, rfl, rfl, by simp [hl, h1, h2, h3, pcs_length hv], ?_⟩
  intro j pattern pc q lo up hj hp hpc hs hlo hup
  have hz : (a.prepared.zip (rots.zip (a.pcs.zip (lower.zip upper))))[a.place j]? =
      some (Spec.keep a.signalMask pattern, q, pc, lo, up) := by
    simp only [List.getElem?_zip_eq_some]
    exact ⟨prepared_get hv hj hp, hs, pcs_get hv hj hpc, hlo, hup⟩
  rw [List.getElem?_map, hz]
  rfl

theorem refineOrientationPcNan_rows {a : RefineArgs} {u l : Img ℝ} (hv : a.Valid u l)
    (opt : OptimizerNan) {starts lower upper : List (List (List ℝ))}
    (h1 : starts.length = a.points.count true)
    (h2 : lower.length = a.points.count true) (h3 : upper.length = a.points.count true) :
    ∃ data rows, a.mp.refinementData a.energy = some data ∧
      refineOrientationPcNan a opt starts lower upper = .ok rows ∧
      rows.length = a.points.count true ∧
      ∀ j pattern (pc : PC ℝ) s lo up, a.points[j]? = some true → a.patterns[j]? = some pattern →
        a.pcAt j = some pc → starts[a.place j]? = some s → lower[a.place j]? = some lo →
        upper[a.place j]? = some up →
        rows[a.place j]? = some (oriPcSolverNan a.solver opt a.nPs a.rescale data a.detectorData
          (Spec.keep a.signalMask pattern) (s.map (· ++ [pc.x, pc.y, pc.z])) lo up) := by
  obtain ⟨data, hd⟩ := refinementData_some hv
  have hl := prepared_length hv
  unfold refineOrientationPcNan
  simp only [hd]
  rw [mapBlocks4_eq _ _ (by rw [hl, hv.chunks]) (by simp [hl, h1, pcs_length hv]) (by rw [hl, h2])
    (by rw [hl, h3])]
  refine ⟨data, _, rfl, rfl, by simp [hl, h1, h2, h3, pcs_length hv], ?_⟩
  intro j pattern pc s lo up hj hp hpc hs hlo hup
  have hz : (a.prepared.zip ((List.zipWith (fun (s : List (List ℝ)) (p : PC ℝ) =>
      s.map (· ++ [p.x, p.y, p.z])) starts a.pcs).zip (lower.zip upper)))[a.place j]? =
      some (Spec.keep a.signalMask pattern, s.map (· ++ [pc.x, pc.y, pc.z]), lo, up) := by
    simp only [List.getElem?_zip_eq_some]
    refine ⟨prepared_get hv hj hp, ?_, hlo, hup⟩
    rw [List.getElem?_zipWith, hs, pcs_get hv hj hpc]
  rw [List.getElem?_map, hz]
  rfl

end Kp
