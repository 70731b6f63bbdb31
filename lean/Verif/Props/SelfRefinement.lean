import Verif.Props.Refine
import Verif.Props.SelfIndexing
import Verif.Spec.SelfRefinement

/-
C123: refining patterns which the master pattern explains, and refining what dictionary indexing
found.
-/

namespace Kp
open Spec
noncomputable section

theorem keep_unmasked (m : Option BoolArray) (p : List ℝ) :
    Spec.keep (m.map BoolArray.data) p = unmaskedPixels m p := by
  unfold Spec.keep unmaskedPixels
  cases m with
  | none => rfl
  | some m =>
    simp only [Option.map_some]
    have key : ∀ (l : List ℝ) (b : List Bool) (n : ℕ) (g : ℕ → Option Bool),
        (∀ i, g (n + i) = b[i]?) →
        ((l.zip b).filter fun x => !x.2).map Prod.fst =
          ((l.zipIdx n).filter (fun x => g x.2 = some false)).map Prod.fst := by
      intro l
      induction l with
      | nil => simp
      | cons x l ih =>
        intro b n g hg
        cases b with
        | nil =>
          have : ∀ y ∈ (x :: l).zipIdx n, g y.2 ≠ some false := by
            intro y hy
            obtain ⟨h1, h2, h3⟩ := List.mem_zipIdx hy
            obtain ⟨d, hd⟩ := Nat.exists_eq_add_of_le h1
            rw [hd, hg]
            simp
          have hnil : ((x :: l).zipIdx n).filter (fun y => decide (g y.2 = some false)) = [] :=
            List.filter_eq_nil_iff.2 fun y hy => by simpa using this y hy
          rw [hnil, List.zip_nil_right]
          rfl
        | cons y b =>
          have h0 := hg 0
          simp only [Nat.add_zero, List.getElem?_cons_zero] at h0
          have ih' := ih b (n + 1) g (fun i => by
            rw [show n + 1 + i = n + (i + 1) by omega, hg]
            rfl)
          rw [List.zip_cons_cons, List.zipIdx_cons]
          cases y
          · rw [List.filter_cons_of_pos (by rfl), List.filter_cons_of_pos (by simp [h0])]
            simp only [List.map_cons, ih']
          · rw [List.filter_cons_of_neg (by simp), List.filter_cons_of_neg (by simp [h0])]
            exact ih'
    exact key p m.data 0 (fun k => m.data[k]?) (fun i => by rw [Nat.zero_add])

theorem maskOf_data (a : RefineArgs) : (maskOf a).map BoolArray.data = a.signalMask := by
  unfold maskOf
  cases a.signalMask <;> rfl

theorem pearson_eq_nccOf {a b : List ℝ} (h : a.length = b.length) :
    Spec.pearson a b = nccOf a b := by
  have ha : a = List.ofFn (fun i : Fin a.length => a.getD i 0) := by
    refine List.ext_getElem (by simp) fun i h1 h2 => ?_
    simp
  have hb : b = List.ofFn (fun i : Fin a.length => b.getD i 0) := by
    refine List.ext_getElem (by simp [h]) fun i h1 h2 => ?_
    simp [h1]
  have h1 := C77_same_as_dictionary_indexing (fun i : Fin a.length => a.getD i 0)
    (fun i : Fin a.length => b.getD i 0) false
  rw [nccExpCentered_eq, ← ha, ← hb] at h1
  rw [h1]
  unfold nccOf ncc
  -- the pixels kept are all pixels
  let e : Fin a.length ≃ Kept (fun _ : Fin a.length => false) :=
    { toFun := fun i => ⟨i, rfl⟩, invFun := fun i => i.1, left_inv := fun _ => rfl,
      right_inv := fun _ => rfl }
  have hmean : ∀ p : Fin a.length → ℝ, mean (maskPattern (fun _ => false) p) = mean p := by
    intro p
    unfold mean
    rw [← Equiv.sum_comp e, Fintype.card_congr e]
    rfl
  have hz : ∀ (p : Fin a.length → ℝ) (i : Fin a.length),
      zeroMeanNormalize (maskPattern (fun _ => false) p) (e i) = zeroMeanNormalize p i := by
    intro p i
    unfold zeroMeanNormalize
    rw [hmean, ← Equiv.sum_comp e]
    rfl
  unfold dotPatterns
  rw [← Equiv.sum_comp e]
  simp only [hz]

/-- A simulated pattern has all pixels of the detector, and there is one for every orientation and
projection center. -/
theorem simulated_exists {a : RefineArgs} {u l : Img ℝ} (hv : a.Valid u l) (q : Quat) (p : PC ℝ) :
    ∃ sim, IsSimulated a q p sim ∧ sim.length = a.det.nrows * a.det.ncols := by
  refine ⟨_, getPatterns_single a hv.suitable hv.arrays q p, ?_⟩
  unfold projectPattern
  have h : (pcDirections a.det a.m (List.replicate (a.det.nrows * a.det.ncols) true) p).length =
      a.det.nrows * a.det.ncols := by
    unfold pcDirections directionCosinesFixed
    simp only [List.length_map, maskedIndices_length, List.count_replicate_self]
  simp only [List.length_map]
  split
  · rw [rescaleWithMinMax, List.length_map, List.length_map, h]
  · rw [List.length_map, h]

theorem IsSimulated.unique {a : RefineArgs} {q : Quat} {p : PC ℝ} {s t : List ℝ}
    (hs : IsSimulated a q p s) (ht : IsSimulated a q p t) : s = t := by
  unfold IsSimulated at hs ht
  rw [hs] at ht
  simpa using ht

theorem contrast_of_same {mask : Option BoolArray} {a b : List ℝ} (hl : a.length = b.length)
    (h : SameUpTo mask a b) (hb : ShowsContrast mask b) : ShowsContrast mask a := by
  obtain ⟨g, o, hg, hs⟩ := h
  obtain ⟨k, l, x, y, hk, hly, hx, hy, hxy⟩ := hb
  have h1 : k < a.length := hl ▸ (List.getElem?_eq_some_iff.1 hx).1
  have h2 : l < a.length := hl ▸ (List.getElem?_eq_some_iff.1 hy).1
  have e1 := List.getElem?_eq_getElem h1
  have e2 := List.getElem?_eq_getElem h2
  refine ⟨k, l, _, _, hk, hly, e1, e2, fun e => hxy ?_⟩
  rw [hs k _ x hk e1 hx, hs l _ y hly e2 hy, e]

/-- Whether a pattern shows contrast is seen in its kept pixels. -/
theorem kept_const {mask : Option BoolArray} {a : List ℝ} (h : ¬ ShowsContrast mask a) :
    ∃ v, ∀ x ∈ unmaskedPixels mask a, x = v := by
  unfold ShowsContrast at h
  push Not at h
  refine ⟨(unmaskedPixels mask a).getD 0 0, fun x hx => ?_⟩
  rw [unmaskedPixels_eq] at hx ⊢
  obtain ⟨k, hk, rfl⟩ := List.mem_map.1 hx
  obtain ⟨k0, ks, hks⟩ : ∃ k0 ks, usedPixels mask a.length = k0 :: ks := by
    cases hu : usedPixels mask a.length with
    | nil => rw [hu] at hk; simp at hk
    | cons k0 ks => exact ⟨k0, ks, rfl⟩
  obtain ⟨h1, h2⟩ := mem_usedPixels.1 hk
  obtain ⟨h3, h4⟩ := mem_usedPixels.1 (show k0 ∈ usedPixels mask a.length by rw [hks]; simp)
  rw [hks]
  simp only [List.map_cons, List.getD_cons_zero]
  have := h k k0 _ _ h2 h4 (List.getElem?_eq_getElem h1) (List.getElem?_eq_getElem h3)
  simpa [List.getD_eq_getElem?_getD, h1, h3] using this

/-- C123: whatever the orientation and projection center, the score is at most one, and it is one
exactly if they explain the pattern. So no other parameters have a higher score than those with which
a pattern was simulated, and no parameters with another simulated pattern have the same score. -/
theorem C123_best_score {a : RefineArgs} {u l : Img ℝ} (hv : a.Valid u l) {pattern : List ℝ}
    (hl : pattern.length = a.det.nrows * a.det.ncols) (hc : ShowsContrast (maskOf a) pattern)
    (q : Quat) (p : PC ℝ) :
    ∃ s, IsScore a pattern q p s ∧ s ≤ 1 ∧ (s = 1 ↔ Explains a q p pattern) := by
  obtain ⟨sim, hsim, hlen⟩ := simulated_exists hv q p
  refine ⟨_, ⟨sim, hsim, rfl⟩, (pearson_bounds _ _).2, ?_⟩
  have hab : pattern.length = sim.length := hl.trans hlen.symm
  rw [← maskOf_data a, keep_unmasked, keep_unmasked]
  constructor
  · intro h1
    have hs : ShowsContrast (maskOf a) sim := by
      by_contra hn
      obtain ⟨v, hv'⟩ := kept_const hn
      rw [pearson_const_right _ hv'] at h1
      norm_num at h1
    rw [pearson_eq_nccOf (unmasked_length hab), (nccOf_spec hab hc hs).2] at h1
    exact ⟨sim, hsim, sameUpTo_symm h1⟩
  · rintro ⟨sim', hsim', hsame⟩
    rw [IsSimulated.unique hsim' hsim] at hsame
    have hs := contrast_of_same hab.symm hsame hc
    rw [pearson_eq_nccOf (unmasked_length hab), (nccOf_spec hab hc hs).2]
    exact sameUpTo_symm hsame

theorem IsScore.unique {a : RefineArgs} {q : Quat} {p : PC ℝ} {pattern : List ℝ} {s t : ℝ}
    (hs : IsScore a pattern q p s) (ht : IsScore a pattern q p t) : s = t := by
  obtain ⟨x, hx, rfl⟩ := hs
  obtain ⟨y, hy, rfl⟩ := ht
  rw [IsSimulated.unique (a := a) (q := q) (p := p) hx hy]

theorem score_one_iff {a : RefineArgs} {u l : Img ℝ} (hv : a.Valid u l) {pattern : List ℝ}
    (hl : pattern.length = a.det.nrows * a.det.ncols) (hc : ShowsContrast (maskOf a) pattern)
    {q : Quat} {p : PC ℝ} {s : ℝ} (hs : IsScore a pattern q p s) :
    s = 1 ↔ Explains a q p pattern := by
  obtain ⟨t, ht, -, h⟩ := C123_best_score hv hl hc q p
  rw [IsScore.unique hs ht]
  exact h

/-- C123 (partial), orientations: a refined score is one exactly if the refined orientation explains
the pattern, and with an optimizer which never returns a worse point than its starting point, it is
one if one of the starting points (the orientation in the crystal map, or a pseudo-symmetric one)
explains the pattern. Missing (and false, see `C123_hemispheres_violated`): master patterns which are
not 32-bit floats and whose hemispheres have different ranges of intensities. -/
theorem C123_orientation_partial {a : RefineArgs} {u l : Img ℝ} (hv : a.Valid u l)
    (hmp : SameScale a.mp u l) {starts lower upper : List (List (List ℝ))}
    (h1 : starts.length = a.points.count true) (h2 : lower.length = a.points.count true)
    (h3 : upper.length = a.points.count true)
    (hs : ∀ x, (x ∈ starts ∨ x ∈ lower ∨ x ∈ upper) → x.length = a.nPs + 1) :
    ∃ rows, refineOrientation a starts lower upper = .ok rows ∧
      ∀ (j : ℕ) (pattern : List ℝ) (pc : PC ℝ), a.points[j]? = some true →
        a.patterns[j]? = some pattern → a.pcAt j = some pc →
        pattern.length = a.det.nrows * a.det.ncols → ShowsContrast (maskOf a) pattern →
        ∃ row, rows[a.place j]? = some (some row) ∧
          (row.score = 1 ↔ Explains a (rotationFromEuler (row.x.getD 0 0) (row.x.getD 1 0)
            (row.x.getD 2 0)) pc pattern) ∧
          (DescendingOptimizer a.solver.opt → (∀ x0, startGiven a.solver.method x0 = some x0) →
            (∃ s ∈ starts.getD (a.place j) [],
              Explains a (rotationFromEuler (s.getD 0 0) (s.getD 1 0) (s.getD 2 0)) pc pattern) →
            row.score = 1) := by
  obtain ⟨rows, hr, hlen, hrows⟩ := C77_orientation_partial hv hmp h1 h2 h3 hs
  refine ⟨rows, hr, fun j pattern pc hj hp hpc hl hc => ?_⟩
  obtain ⟨row, hrow, -, hle, hscore⟩ := hrows j pattern pc hj hp hpc
  refine ⟨row, hrow, score_one_iff hv hl hc hscore, fun hdesc hm ⟨s, hs', hex⟩ => ?_⟩
  obtain ⟨t, ht, hte⟩ := C77_orientation_not_worse_partial hv hmp hdesc hm h1 h2 h3 hs hr hj hp hpc
    hrow s hs'
  rw [(score_one_iff hv hl hc ht).2 hex] at hte
  exact le_antisymm hle hte

/-- C123 (partial), projection centers. -/
theorem C123_pc_partial {a : RefineArgs} {u l : Img ℝ} (hv : a.Valid u l)
    (hmp : SameScale a.mp u l) {rots : List Quat} {lower upper : List (List ℝ)}
    (h1 : rots.length = a.points.count true) (h2 : lower.length = a.points.count true)
    (h3 : upper.length = a.points.count true) :
    ∃ rows, refinePc a rots lower upper = .ok rows ∧
      ∀ (j : ℕ) (pattern : List ℝ) (pc : PC ℝ) (q : Quat), a.points[j]? = some true →
        a.patterns[j]? = some pattern → a.pcAt j = some pc → rots[a.place j]? = some q →
        pattern.length = a.det.nrows * a.det.ncols → ShowsContrast (maskOf a) pattern →
        ∃ row, rows[a.place j]? = some (some row) ∧
          (row.score = 1 ↔
            Explains a q ⟨row.x.getD 0 0, row.x.getD 1 0, row.x.getD 2 0⟩ pattern) ∧
          (DescendingOptimizer a.solver.opt → (∀ x0, startGiven a.solver.method x0 = some x0) →
            Explains a q pc pattern → row.score = 1) := by
  obtain ⟨rows, hr, hlen, hrows⟩ := C77_pc_partial hv hmp h1 h2 h3
  refine ⟨rows, hr, fun j pattern pc q hj hp hpc hq hl hc => ?_⟩
  obtain ⟨row, hrow, -, hle, hscore, hnot⟩ := hrows j pattern pc q hj hp hpc hq
  refine ⟨row, hrow, score_one_iff hv hl hc hscore, fun hdesc hm hex => ?_⟩
  obtain ⟨t, ht, hte⟩ := hnot hdesc hm
  rw [(score_one_iff hv hl hc ht).2 hex] at hte
  exact le_antisymm hle hte

/-- C123 (partial), orientations and projection centers. -/
theorem C123_orientation_pc_partial {a : RefineArgs} {u l : Img ℝ} (hv : a.Valid u l)
    (hmp : SameScale a.mp u l) {starts lower upper : List (List (List ℝ))}
    (h1 : starts.length = a.points.count true) (h2 : lower.length = a.points.count true)
    (h3 : upper.length = a.points.count true)
    (hs : ∀ x, (x ∈ starts ∨ x ∈ lower ∨ x ∈ upper) → x.length = a.nPs + 1) :
    ∃ rows, refineOrientationPc a starts lower upper = .ok rows ∧
      ∀ (j : ℕ) (pattern : List ℝ) (pc : PC ℝ), a.points[j]? = some true →
        a.patterns[j]? = some pattern → a.pcAt j = some pc →
        pattern.length = a.det.nrows * a.det.ncols → ShowsContrast (maskOf a) pattern →
        ∃ row, rows[a.place j]? = some (some row) ∧
          (row.score = 1 ↔ Explains a (rotationFromEuler (row.x.getD 0 0) (row.x.getD 1 0)
            (row.x.getD 2 0)) ⟨row.x.getD 3 0, row.x.getD 4 0, row.x.getD 5 0⟩ pattern) ∧
          (DescendingOptimizer a.solver.opt → (∀ x0, startGiven a.solver.method x0 = some x0) →
            (∃ s ∈ starts.getD (a.place j) [], s.length = 3 ∧
              Explains a (rotationFromEuler (s.getD 0 0) (s.getD 1 0) (s.getD 2 0)) pc pattern) →
            row.score = 1) := by
  obtain ⟨rows, hr, hlen, hrows⟩ := C77_orientation_pc_partial hv hmp h1 h2 h3 hs
  refine ⟨rows, hr, fun j pattern pc hj hp hpc hl hc => ?_⟩
  obtain ⟨row, hrow, -, hle, hscore, hnot⟩ := hrows j pattern pc hj hp hpc
  refine ⟨row, hrow, score_one_iff hv hl hc hscore, fun hdesc hm ⟨s, hs', hs3, hex⟩ => ?_⟩
  obtain ⟨t, ht, hte⟩ := hnot hdesc hm s hs' hs3
  rw [(score_one_iff hv hl hc ht).2 hex] at hte
  exact le_antisymm hle hte

theorem twoPixels_contrast : ShowsContrast none [0, 1] :=
  ⟨0, 1, 0, 1, fun m h => (by cases h), fun m h => (by cases h), rfl, rfl, zero_ne_one⟩

/-- C123 is false for other master patterns: a pattern which the starting orientation explains gets
the lowest score, -1. -/
theorem C123_hemispheres_violated : ∃ (a : RefineArgs) (u l : Img ℝ) (row : RefineRow) (pc : PC ℝ)
    (pattern : List ℝ),
    a.Valid u l ∧ refineOrientation a [[[0, 0, 0]]] [[[0, 0, 0]]] [[[0, 0, 0]]] = .ok [some row] ∧
      a.patterns = [pattern] ∧ a.det.pc = [pc] ∧ ShowsContrast (maskOf a) pattern ∧
      Explains a (rotationFromEuler 0 0 0) pc pattern ∧ row.x = [0, 0, 0] ∧ row.score = -1 := by
  obtain ⟨u, l, row, hv, hr, hp, hx, hs, h1⟩ := brightLower_row
  refine ⟨brightLowerArgs, u, l, row, ⟨1 / 4, 1 / 2, 4 / 3⟩, [0, 1], hv, hr, hp, rfl, twoPixels_contrast,
    ?_, hx, hs⟩
  exact (score_one_iff hv rfl twoPixels_contrast (h1 _ rfl)).1 rfl

/-- A refinement which meets the hypotheses, of a pattern which the starting point explains. -/
theorem floatArgs_case : ∃ u l, floatArgs.Valid u l ∧ SameScale floatArgs.mp u l ∧
    DescendingOptimizer floatArgs.solver.opt ∧
    (∀ x0, startGiven floatArgs.solver.method x0 = some x0) ∧
    floatArgs.points[0]? = some true ∧ floatArgs.patterns[0]? = some [0, 1] ∧
    floatArgs.pcAt 0 = some ⟨1 / 4, 1 / 2, 4 / 3⟩ ∧ ShowsContrast (maskOf floatArgs) [0, 1] ∧
    Explains floatArgs (rotationFromEuler 0 0 0) ⟨1 / 4, 1 / 2, 4 / 3⟩ [0, 1] := by
  have hv : floatArgs.Valid ⟨3, 3, fun r c => if r = 1 ∧ c = 1 then 0 else 10⟩
      ⟨3, 3, fun r c => if r = 1 ∧ c = 1 then 0 else 20⟩ := by
    refine ⟨rfl, rfl, rfl, ?_, rfl, .inl rfl, rfl, fun f s b => rfl⟩
    intro m h
    simp [floatArgs, brightLowerArgs] at h
  have hc : ShowsContrast (maskOf floatArgs) [0, 1] := twoPixels_contrast
  refine ⟨_, _, hv, .inl rfl, fun f x b => le_rfl, fun x => rfl, rfl, rfl, rfl, hc, ?_⟩
  refine (score_one_iff hv rfl hc (s := 1) ?_).1 rfl
  refine ⟨_, getPatterns_single floatArgs hv.suitable hv.arrays _ _, ?_⟩
  have hd : floatArgs.det.nrows * floatArgs.det.ncols = 2 := rfl
  have hdt : decide (DType.float 32 ≠ floatArgs.mp.dtype) = false := rfl
  have hdet : floatArgs.det = brightLowerArgs.det := rfl
  have hm : floatArgs.m = brightLowerArgs.m := rfl
  rw [hd, hdt, hdet, hm, brightLower_dcs, projectPattern_plain]
  have := project_example 10 20 id id
  have e : (((3 : ℕ) : ℝ) - 1) / 2 = 1 := by norm_num
  simp only [id, zero_mul, zero_add] at this
  have hk : ∀ x, Spec.keep floatArgs.signalMask x = x := fun x => rfl
  simp only [e, hk]
  have c3 : (((3 : ℕ) : ℤ)) = 3 := rfl
  rw [c3, this]
  have hs := sqrt_two_fifths
  refine (pearson_two_lt zero_lt_one ?_).symm
  linarith [hs.1]

/-- C123 (partial): refining orientations which dictionary indexing found, with the same patterns,
mask, master pattern, energy and detector with which the dictionary was simulated: the score of the
best match is the one refinement starts with, and the refined score is not lower. -/
theorem C123_after_indexing_partial {argtopk argsort : List ℝ → List ℕ} (hf : IsArgsort argtopk)
    (hg : IsArgsort argsort) (allowed : List MatchType) (r0 : Quat)
    (junk : ℕ → List ℝ × List ℕ) (c : IndexingCall ℝ Quat) (w : WellFormedCall c)
    (v : ValidArguments allowed c) (hk : 0 < c.keepN)
    {a : RefineArgs} {u l : Img ℝ} (hv : a.Valid u l) (hmp : SameScale a.mp u l)
    (hdesc : DescendingOptimizer a.solver.opt)
    (hm : ∀ x0, startGiven a.solver.method x0 = some x0)
    (hpat : a.patterns = c.patterns) (hmask : a.signalMask = c.sigMask.map BoolArray.data)
    (hnav : a.det.nav = [1]) {dictRots : List Quat} {chunks : List ℕ}
    (hc : chunks.sum = dictRots.length)
    (hdict : a.mp.getPatterns [dictRots.length] dictRots a.det a.m a.energy (.float 32) chunks =
      .ok ([dictRots.length], c.dictionary.map some))
    (hrots : c.dictMap = some ([c.dictionary.length], dictRots))
    {starts lower upper : List (List (List ℝ))}
    (h1 : starts.length = a.points.count true) (h2 : lower.length = a.points.count true)
    (h3 : upper.length = a.points.count true)
    (hs : ∀ x, (x ∈ starts ∨ x ∈ lower ∨ x ∈ upper) → x.length = a.nPs + 1) :
    ∃ r rows, (dictionaryIndexingCall argtopk argsort 1 allowed nccOf r0 junk {} c).2 = .ok r ∧
      refineOrientation a starts lower upper = .ok rows ∧
      ∀ (j : ℕ) (pattern : List ℝ) (pc : PC ℝ) (q : IndexedPoint ℝ Quat) (R : Quat) (found : ℝ),
        a.points[j]? = some true → Used c.navMask j → c.patterns[j]? = some pattern →
        a.pcAt j = some pc → r[j]? = some q → q.rotations.head? = some R →
        q.scores.head? = some found →
        (∃ d ∈ c.dictionary,
          -1 < nccOf (unmaskedPixels c.sigMask pattern) (unmaskedPixels c.sigMask d)) →
        IsScore a pattern R pc found ∧
        ((∃ s ∈ starts.getD (a.place j) [],
          SameRotation (rotationFromEuler (s.getD 0 0) (s.getD 1 0) (s.getD 2 0)) R) →
        ∃ row, rows[a.place j]? = some (some row) ∧ found ≤ row.score) := by
  obtain ⟨r, rs, hr1, hr2, hr3, hr4⟩ := C85_first_matches_partial hf hg allowed nccOf r0 junk c w v
  obtain ⟨rows, hrow1, -, hrow3⟩ := C77_orientation_partial hv hmp h1 h2 h3 hs
  have hrs : rs = dictRots := by
    rw [hrots] at hr2
    simpa using hr2.symm
  subst hrs
  refine ⟨r, rows, hr1, hrow1, fun j pattern pc q R found hj hu hp hpc hq hR hfound hlow => ?_⟩
  obtain ⟨q', hq', hin, hres⟩ := hr4 j pattern hp
  obtain rfl : q = q' := Option.some.inj (hq.symm.trans hq')
  obtain ⟨hsl, hil, hrot, hbest⟩ := hres (hin.2 hu)
  have hdl : 0 < c.dictionary.length := by
    obtain ⟨d, hd, -⟩ := hlow
    exact List.length_pos_of_mem hd
  have hb := hbest 1 (by omega) (.inr (List.countP_pos_iff.2 (by
    obtain ⟨d, hd, hlt⟩ := hlow
    exact ⟨_, List.mem_map.2 ⟨d, hd, rfl⟩, by simpa using hlt⟩)))
  obtain ⟨ss, hs0⟩ : ∃ ss, q.scores = found :: ss := by
    cases hqs : q.scores with
    | nil => rw [hqs] at hfound; cases hfound
    | cons x l => rw [hqs] at hfound; exact ⟨l, by rw [Option.some.inj hfound]⟩
  obtain ⟨Rs, hR0⟩ : ∃ Rs, q.rotations = R :: Rs := by
    cases hqs : q.rotations with
    | nil => rw [hqs] at hR; cases hR
    | cons x l => rw [hqs] at hR; exact ⟨l, by rw [Option.some.inj hR]⟩
  obtain ⟨k, ks, hks⟩ : ∃ k ks, q.indices = k :: ks := by
    cases hqs : q.indices with
    | nil => rw [hqs] at hil; simp at hil; omega
    | cons x l => exact ⟨x, l, rfl⟩
  rw [hs0, hks] at hb
  simp only [List.zip_cons_cons, List.take_succ_cons, List.take_zero] at hb
  have hown := hb.own_score (found, k) (by simp)
  simp only at hown
  rw [List.getElem?_map, Option.map_eq_some_iff] at hown
  obtain ⟨d, hdk, hds⟩ := hown
  rw [hR0, hks] at hrot
  simp only [List.map_cons, List.cons.injEq] at hrot
  have hRk : rs[k]? = some R := hrot.1.symm
  -- the dictionary pattern is the one simulated for its rotation
  have hpcl : a.det.pc.length = a.det.nav.prod := hv.pcs
  obtain ⟨lo, hi, hrange, hlh⟩ : ∃ lo hi : ℤ, (if DType.float 32 ≠ a.mp.dtype then
      dtypeRange (.float 32) else some (1, 2)) = some (lo, hi) ∧
        (DType.float 32 ≠ a.mp.dtype → lo = -1 ∧ hi = 1) := by
    by_cases h : DType.float 32 ≠ a.mp.dtype
    · exact ⟨-1, 1, by rw [if_pos h]; rfl, fun _ => ⟨rfl, rfl⟩⟩
    · exact ⟨1, 2, by rw [if_neg h], fun h' => absurd h' h⟩
  obtain ⟨o, ho, hol, hok⟩ := C63_own_rotation_and_pc_partial a.mp hv.suitable
    (rotShape := [rs.length]) (rots := rs) (by simp) (by simp) (d := a.det) hpcl (.inr hnav) a.m
    hv.arrays hrange hc
  rw [ho] at hdict
  have he : o = c.dictionary.map some := by
    have := Except.ok.inj hdict
    simpa using this
  obtain ⟨pc', hpc', hov⟩ := hok k R hRk
  have hpp : pc' = pc := by
    unfold RefineArgs.pcAt at hpc
    rw [if_pos hnav] at hpc hpc'
    exact Option.some.inj (hpc'.symm.trans hpc)
  subst hpp
  rw [he, List.getElem?_map, hdk, Option.map_some, Option.some.injEq, Option.some.injEq] at hov
  have hsim : ∀ q : Quat, SameRotation q R → IsSimulated a q pc' d := by
    intro q hq
    unfold IsSimulated
    rw [getPatterns_single a hv.suitable hv.arrays q pc', hov]
    have hpx : ∀ npx npy scale, projectPixel q u l npx npy scale = projectPixel R u l npx npy scale := by
      intro npx npy scale
      funext dc
      unfold projectPixel
      rw [hq dc]
    unfold projectPattern
    by_cases h : DType.float 32 ≠ a.mp.dtype
    · obtain ⟨rfl, rfl⟩ := hlh h
      simp only [hpx]
      norm_num
    · simp only [hpx, h, decide_false, Bool.false_eq_true, if_false]
  have hscore : ∀ q : Quat, SameRotation q R → IsScore a pattern q pc' found := by
    intro q hq
    refine ⟨d, hsim q hq, ?_⟩
    have hlen : pattern.length = d.length := by
      rw [w.pixels _ (List.mem_of_getElem? hp), w.dictPixels _ (List.mem_of_getElem? hdk),
        v.signalShapes]
    rw [hmask, keep_unmasked, keep_unmasked, pearson_eq_nccOf (unmasked_length hlen), hds]
  refine ⟨hscore R fun _ => rfl, fun ⟨s, hmem, hsame⟩ => ?_⟩
  obtain ⟨row, hrow, -⟩ := hrow3 j pattern pc' hj (by rw [hpat]; exact hp) hpc
  obtain ⟨t, ht, hle⟩ := C77_orientation_not_worse_partial hv hmp hdesc hm h1 h2 h3 hs hrow1 hj
    (by rw [hpat]; exact hp) hpc hrow s hmem
  refine ⟨row, hrow, ?_⟩
  rw [IsScore.unique (hscore _ hsame) ht]
  exact hle

/-- Dictionary indexing of the pattern of `floatArgs` with a dictionary of one pattern. -/
def oneMatchCall (d : List ℝ) : IndexingCall ℝ Quat where
  navShape := [1]
  sigShape := [1, 2]
  patterns := [[0, 1]]
  dictSigShape := [1, 2]
  dictionary := [d]
  dictMap := some ([1], [rotationFromEuler 0 0 0])
  dictChunk := none
  metric := .named
  keepN := 1
  nPer := some 1
  navMask := none
  sigMask := none
  dtype := none

/-- It meets the hypotheses about the dictionary. -/
example : ∃ d, WellFormedCall (oneMatchCall d) ∧ ValidArguments [] (oneMatchCall d) ∧
    floatArgs.patterns = (oneMatchCall d).patterns ∧
    floatArgs.signalMask = (oneMatchCall d).sigMask.map BoolArray.data ∧
    floatArgs.det.nav = [1] ∧
    floatArgs.mp.getPatterns [1] [rotationFromEuler 0 0 0] floatArgs.det floatArgs.m
      floatArgs.energy (.float 32) [1] = .ok ([1], (oneMatchCall d).dictionary.map some) := by
  have hv : floatArgs.Valid ⟨3, 3, fun r c => if r = 1 ∧ c = 1 then 0 else 10⟩
      ⟨3, 3, fun r c => if r = 1 ∧ c = 1 then 0 else 20⟩ := by
    refine ⟨rfl, rfl, rfl, ?_, rfl, .inl rfl, rfl, fun f s b => rfl⟩
    intro m h
    simp [floatArgs, brightLowerArgs] at h
  obtain ⟨d, hd, hlen⟩ := simulated_exists hv (rotationFromEuler 0 0 0) ⟨1 / 4, 1 / 2, 4 / 3⟩
  refine ⟨d, ?_, ?_, rfl, rfl, rfl, hd⟩
  · constructor
    · rfl
    · intro p hp
      simp only [oneMatchCall, List.mem_singleton] at hp
      subst hp
      rfl
    · intro e he
      simp only [oneMatchCall, List.mem_singleton] at he
      subst he
      exact hlen
    · rintro s rs h
      simp only [oneMatchCall, Option.some.injEq, Prod.mk.injEq] at h
      obtain ⟨rfl, rfl⟩ := h
      rfl
    · intro m h
      cases h
    · intro m h
      cases h
    · simp [oneMatchCall]
    · exact Nat.one_pos
  · constructor
    · intro m h
      cases h
    · intro m h
      cases h
    · rfl
    · exact ⟨_, rfl⟩
    · simp [oneMatchCall]
    · exact .inl rfl

end
end Kp
