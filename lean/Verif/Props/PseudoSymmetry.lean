import Verif.Spec.PseudoSymmetry
import Verif.Lemmas.RefinementMaps
import Verif.Props.SelfRefinement
import Mathlib.Analysis.SpecialFunctions.Complex.Arg

/-
C134: starting points of refinement with pseudo-symmetry operators.
-/

namespace Kp
open Spec
noncomputable section

/-! ### Rotations -/

theorem rotateVector_mul (p q : Quat) (v : V3 ℝ) :
    rotateVector (p.mul q) v = rotateVector p (rotateVector q v) := by
  simp only [rotateVector, Quat.mul, V3.mk.injEq]
  refine ⟨?_, ?_, ?_⟩ <;> ring

theorem unit_mul {p q : Quat} (hp : IsUnitQuat p) (hq : IsUnitQuat q) : IsUnitQuat (p.mul q) := by
  unfold IsUnitQuat at *
  have : (p.mul q).a ^ 2 + (p.mul q).b ^ 2 + (p.mul q).c ^ 2 + (p.mul q).d ^ 2 =
      (p.a ^ 2 + p.b ^ 2 + p.c ^ 2 + p.d ^ 2) * (q.a ^ 2 + q.b ^ 2 + q.c ^ 2 + q.d ^ 2) := by
    simp only [Quat.mul]
    ring
  rw [this, hp, hq, one_mul]

theorem sameRotation_positive (q : Quat) : SameRotation (positiveScalar q) q := by
  intro v
  unfold positiveScalar
  split
  · simp only [rotateVector, V3.mk.injEq]
    refine ⟨?_, ?_, ?_⟩ <;> ring
  · rfl

/-! ### Starting points -/

theorem swapAxes_outer (ops rots : List Quat) :
    swapAxes rots.length (opsOuter ops rots) = rots.map fun r => ops.map fun o => o.mul r := by
  refine List.ext_getElem (by simp [swapAxes]) fun i h1 h2 => ?_
  have hi : i < rots.length := by simpa using h2
  simp only [swapAxes, opsOuter, List.getElem_map, List.getElem_range, List.filterMap_map]
  have : ((fun x : List Quat => x[i]?) ∘ fun o : Quat => rots.map o.mul) =
      fun o => some (o.mul rots[i]) := by
    funext o
    simp [hi]
  rw [this, ← List.filterMap_eq_map]
  rfl

theorem startingRotations_eq (ops : Option (List Quat)) (rots : List Quat) :
    startingRotations ops rots = rots.map fun r => r :: (ops.getD []).map fun o => o.mul r := by
  cases ops with
  | none => simp [startingRotations]
  | some ops =>
    simp only [startingRotations, swapAxes_outer, Option.getD_some]
    induction rots with
    | nil => rfl
    | cons r rots ih => simp [ih]

/-- C134: every point gets its rotation in the crystal map as first starting point, and one more for
every operator, in their order: the operator applied after this rotation. -/
theorem C134_starts (ops : Option (List Quat)) (rots : List Quat) :
    (startingRotations ops rots).length = rots.length ∧
    ∀ (j : ℕ) (r : Quat), rots[j]? = some r → ∃ starts, (startingRotations ops rots)[j]? = some starts ∧
      starts.length = (ops.getD []).length + 1 ∧
      (∀ (i : ℕ) (q : Quat), starts[i]? = some q → IsStartNumber (ops.getD []) r i q) ∧
      (IsUnitQuat r → (∀ o ∈ ops.getD [], IsUnitQuat o) → ∀ q ∈ starts, IsUnitQuat q) := by
  rw [startingRotations_eq]
  refine ⟨by simp, fun j r hj => ⟨_, by rw [List.getElem?_map, hj]; rfl, by simp, ?_, ?_⟩⟩
  · intro i q hq
    cases i with
    | zero =>
      left
      simp only [List.getElem?_cons_zero, Option.some.injEq] at hq
      exact ⟨rfl, fun v => by rw [hq]⟩
    | succ k =>
      right
      rw [List.getElem?_cons_succ, List.getElem?_map, Option.map_eq_some_iff] at hq
      obtain ⟨o, ho, rfl⟩ := hq
      exact ⟨k, o, rfl, ho, rotateVector_mul o r⟩
  · intro hr ho q hq
    rcases List.mem_cons.1 hq with rfl | hq
    · exact hr
    · obtain ⟨o, h, rfl⟩ := List.mem_map.1 hq
      exact unit_mul (ho o h) hr

/-- Two operators, two points. -/
example : startingRotations (some [⟨0, 0, 0, 1⟩, ⟨0, 1, 0, 0⟩]) [⟨1, 0, 0, 0⟩, ⟨0, 0, 1, 0⟩] =
    [[⟨1, 0, 0, 0⟩, ⟨0, 0, 0, 1⟩, ⟨0, 1, 0, 0⟩], [⟨0, 0, 1, 0⟩, ⟨0, -1, 0, 0⟩, ⟨0, 0, 0, 1⟩]] := by
  rw [startingRotations_eq]
  simp [Quat.mul]

/-! ### Symmetries of the master pattern -/

theorem projectPixel_intensity (u l : Img ℝ) (q : Quat) (dc : V3 ℝ) :
    projectPixel q u l u.cols u.rows (((u.cols : ℝ) - 1) / 2) dc = intensityIn u l (rotateVector q dc) := rfl

theorem isSimulated_congr {a : RefineArgs} {u l : Img ℝ} (hs : a.mp.checkSuitable = .ok ())
    (ha : a.mp.arraysFromEnergy a.energy = some (u, l)) {q r : Quat} (p : PC ℝ)
    (h : ∀ v, intensityIn u l (rotateVector q v) = intensityIn u l (rotateVector r v)) (sim : List ℝ) :
    IsSimulated a q p sim ↔ IsSimulated a r p sim := by
  unfold IsSimulated
  rw [getPatterns_single a hs ha q p, getPatterns_single a hs ha r p]
  unfold projectPattern
  have : projectPixel q u l u.cols u.rows (((u.cols : ℝ) - 1) / 2) =
      projectPixel r u l u.cols u.rows (((u.cols : ℝ) - 1) / 2) := by
    funext dc
    rw [projectPixel_intensity, projectPixel_intensity, h dc]
  rw [this]

theorem explains_congr {a : RefineArgs} {u l : Img ℝ} (hs : a.mp.checkSuitable = .ok ())
    (ha : a.mp.arraysFromEnergy a.energy = some (u, l)) {q r : Quat} (p : PC ℝ)
    (h : ∀ v, intensityIn u l (rotateVector q v) = intensityIn u l (rotateVector r v))
    (pattern : List ℝ) : Explains a q p pattern ↔ Explains a r p pattern := by
  unfold Explains
  simp only [isSimulated_congr hs ha p h]

/-- C134: if rotation by an operator maps the master pattern onto itself, then orientations which differ
by this operator have the same simulated patterns, the same scores and explain the same patterns: with
such an operator no other orientation can be found. -/
theorem C134_symmetric {a : RefineArgs} {u l : Img ℝ} (hs : a.mp.checkSuitable = .ok ())
    (ha : a.mp.arraysFromEnergy a.energy = some (u, l)) {op : Quat} (hop : IsSymmetryOf u l op)
    {r q : Quat} (hq : AppliedAfter op r q) (p : PC ℝ) :
    (∀ sim, IsSimulated a q p sim ↔ IsSimulated a r p sim) ∧
      (∀ pattern s, IsScore a pattern q p s ↔ IsScore a pattern r p s) ∧
      ∀ pattern, Explains a q p pattern ↔ Explains a r p pattern := by
  have h : ∀ v, intensityIn u l (rotateVector q v) = intensityIn u l (rotateVector r v) := by
    intro v
    rw [hq v, hop]
  have hsim := isSimulated_congr hs ha p h
  refine ⟨hsim, fun pattern s => ?_, explains_congr hs ha p h⟩
  exact ⟨fun ⟨sim, h1, h2⟩ => ⟨sim, (hsim sim).1 h1, h2⟩, fun ⟨sim, h1, h2⟩ => ⟨sim, (hsim sim).2 h1, h2⟩⟩

/-- A master pattern with the same values in all of each hemisphere has every rotation about the z axis
as symmetry, and no rotation by 180 degrees about the x axis if the two values differ. -/
example (x y t : ℝ) (hxy : x ≠ y) :
    IsSymmetryOf ⟨3, 3, fun _ _ => x⟩ ⟨3, 3, fun _ _ => y⟩ ⟨Real.cos t, 0, 0, Real.sin t⟩ ∧
      ¬ IsSymmetryOf ⟨3, 3, fun _ _ => x⟩ ⟨3, 3, fun _ _ => y⟩ ⟨0, 1, 0, 0⟩ := by
  have hc : ∀ v, intensityIn ⟨3, 3, fun _ _ => x⟩ ⟨3, 3, fun _ _ => y⟩ v = if 0 ≤ v.z then x else y := by
    intro v
    simp only [intensityIn, masterPixel, lambertInterp, interpAt]
    split <;> ring
  constructor
  · intro v
    have : (rotateVector ⟨Real.cos t, 0, 0, Real.sin t⟩ v).z = v.z := by
      simp only [rotateVector]
      linear_combination v.z * Real.sin_sq_add_cos_sq t
    rw [hc, hc, this]
  · intro h
    have := h ⟨0, 0, 1⟩
    rw [hc, hc, if_neg (by norm_num [rotateVector]), if_pos (by norm_num)] at this
    exact hxy this.symm

/-! ### Refinement -/

theorem place_row {inData points : List Bool} (hl : points.length = inData.length)
    (hsub : ∀ j : ℕ, points[j]? = some true → inData[j]? = some true) (j : ℕ) :
    ((selectMask inData points).take ((inData.take j).count true)).count true =
      (points.take j).count true := by
  induction inData generalizing points j with
  | nil =>
    obtain rfl := List.length_eq_zero_iff.1 hl
    simp
  | cons b m ih =>
    cases points with
    | nil => simp at hl
    | cons p ps =>
      have hl' : ps.length = m.length := by simpa using hl
      have hs' : ∀ j : ℕ, ps[j]? = some true → m[j]? = some true := fun j h => by
        simpa using hsub (j + 1) (by simpa using h)
      have h0 := hsub 0
      cases j with
      | zero => simp
      | succ j =>
        have := ih hl' hs' j
        cases b with
        | true => simp [List.count_cons, this]
        | false =>
          have hp : p = false := by
            cases p with
            | false => rfl
            | true => simp at h0
          subst hp
          simpa using this

theorem rotationsToRefine_at {points inData : List Bool} {rots : List (List Quat)}
    (g : GoodMap points inData rots) {j : ℕ} (hj : points[j]? = some true) {r : Quat}
    (hr : IsRotationOf inData rots j r) :
    (rotationsToRefine points inData rots)[(points.take j).count true]? = some r ∧ IsUnitQuat r := by
  obtain ⟨hd, more, hm⟩ := hr
  have hmask : (selectMask inData points)[rowInData inData j]? = some true := by
    unfold rowInData
    rw [selectMask_getElem g.same.symm j hd, hj]
  have hlen : (selectMask inData points).length = rots.length := by
    rw [selectMask_length g.same.symm, g.rows]
  have := selectMask_getElem hlen _ hmask
  rw [rowInData, place_row g.same g.inside] at this
  refine ⟨?_, g.unit _ (List.mem_of_getElem? hm) r (by simp)⟩
  rw [rotationsToRefine, List.getElem?_map, this]
  unfold rowInData at hm
  rw [hm]
  rfl

theorem count_select {points inData : List Bool} (hl : points.length = inData.length)
    (hsub : ∀ j : ℕ, points[j]? = some true → inData[j]? = some true) :
    (selectMask inData points).count true = points.count true := by
  have := place_row hl hsub points.length
  rwa [hl, List.take_length, ← selectMask_length hl.symm, List.take_length, ← hl,
    List.take_length] at this

theorem rotationsToRefine_length {points inData : List Bool} {rots : List (List Quat)}
    (g : GoodMap points inData rots) : (rotationsToRefine points inData rots).length = points.count true := by
  rw [rotationsToRefine, List.length_map, selectMask_length, count_select g.same g.inside]
  rw [selectMask_length g.same.symm, g.rows]

theorem mapM_total {α β : Type} {f : α → Except Err β} {g : α → β} :
    ∀ xs : List α, (∀ x ∈ xs, f x = .ok (g x)) → xs.mapM f = .ok (xs.map g)
  | [], _ => rfl
  | x :: xs, h => by
    rw [List.mapM_cons, h x (by simp), mapM_total xs fun y hy => h y (by simp [hy])]
    rfl

theorem boundConstraints_total {t : Option TrustRegion} (ht : GoodTrust t) :
    ∃ b : List ℝ → List ℝ × List ℝ, ∀ x, boundConstraints .ori x t = .ok (b x, t) := by
  cases t with
  | none => exact ⟨_, fun x => rfl⟩
  | some t =>
    have h := ht t rfl
    obtain ⟨v, hv⟩ : ∃ v, broadcastTo RMode.ori.nControl (t.values.map deg2rad) = .ok v := by
      unfold broadcastTo
      rcases h with h | h
      · exact ⟨_, if_pos (by rw [List.length_map, h]; rfl)⟩
      · obtain ⟨x, hx⟩ := List.length_eq_one_iff.1 h
        rw [hx]
        exact ⟨_, by rw [if_neg (by simp [RMode.nControl])]; rfl⟩
    refine ⟨fun x => (List.zipWith max (List.zipWith (fun x v => x - v) x v) RMode.ori.lowerAbs,
      List.zipWith min (List.zipWith (fun x v => x + v) x v) RMode.ori.upperAbs), fun x => ?_⟩
    simp only [boundConstraints, RMode.trustRegion, hv]

theorem startingBounds_total {t : Option TrustRegion} (ht : GoodTrust t) :
    ∃ b : List ℝ → List ℝ × List ℝ, (∀ x, boundConstraints .ori x t = .ok (b x, t)) ∧
      ∀ starts, startingBounds t starts =
        .ok (starts.map (·.map fun x => (b x).1), starts.map (·.map fun x => (b x).2)) := by
  obtain ⟨b, hb⟩ := boundConstraints_total ht
  refine ⟨b, hb, fun starts => ?_⟩
  have h : starts.mapM (fun xs => xs.mapM fun x => boundConstraints .ori x t) =
      .ok (starts.map fun xs => xs.map fun x => (b x, t)) :=
    mapM_total starts fun xs _ => mapM_total xs fun x _ => hb x
  simp [startingBounds, h, Function.comp_def]

theorem valid_withOps {a : RefineArgs} {u l : Img ℝ} (hv : a.Valid u l) (ops : Option (List Quat))
    (t : Option TrustRegion) : (a.withOps ops t).Valid u l :=
  ⟨hv.suitable, hv.arrays, hv.points, hv.mask, hv.pcs, hv.nav, hv.chunks, hv.faithful⟩

/-- What `refineWithOps` passes on. -/
theorem refineWithOps_eq (toEuler : Quat → List ℝ) {a : RefineArgs} {ops : Option (List Quat)}
    {t : Option TrustRegion} (ht : GoodTrust t) {inData : List Bool} {rots : List (List Quat)}
    (g : GoodMap a.points inData rots) :
    ∃ starts lower upper, refineWithOps toEuler a ops t inData rots =
        refineOrientation (a.withOps ops t) starts lower upper ∧
      starts.length = a.points.count true ∧ lower.length = a.points.count true ∧
      upper.length = a.points.count true ∧
      (∀ x, (x ∈ starts ∨ x ∈ lower ∨ x ∈ upper) → x.length = (a.withOps ops t).nPs + 1) ∧
      ∀ (j : ℕ) (r : Quat), a.points[j]? = some true → IsRotationOf inData rots j r →
        starts.getD (a.place j) [] = (r :: (ops.getD []).map fun o => o.mul r).map toEuler ∧
        ∀ (i : ℕ) s lo up, (starts.getD (a.place j) [])[i]? = some s →
          (lower.getD (a.place j) [])[i]? = some lo → (upper.getD (a.place j) [])[i]? = some up →
          boundConstraints .ori s t = .ok ((lo, up), t) := by
  obtain ⟨b, hb, hbs⟩ := startingBounds_total ht
  have hlen : ((startingRotations ops (rotationsToRefine a.points inData rots)).map
      (·.map toEuler)).length = a.points.count true := by
    rw [List.length_map, startingRotations_eq, List.length_map, rotationsToRefine_length g]
  have hx : ∀ x ∈ (startingRotations ops (rotationsToRefine a.points inData rots)).map
      (·.map toEuler), x.length = (a.withOps ops t).nPs + 1 := by
    intro x hx
    rw [startingRotations_eq, List.map_map] at hx
    obtain ⟨r, -, rfl⟩ := List.mem_map.1 hx
    simp [RefineArgs.withOps]
  refine ⟨_, _, _, by simp only [refineWithOps, hbs]; rfl, hlen, by rw [List.length_map]; exact hlen,
    by rw [List.length_map]; exact hlen, ?_, fun j r hj hr => ?_⟩
  · rintro x (h | h | h)
    · exact hx x h
    · obtain ⟨y, hy, rfl⟩ := List.mem_map.1 h
      rw [List.length_map, hx y hy]
    · obtain ⟨y, hy, rfl⟩ := List.mem_map.1 h
      rw [List.length_map, hx y hy]
  · have hat := (rotationsToRefine_at g hj hr).1
    have e : ((startingRotations ops (rotationsToRefine a.points inData rots)).map
        (·.map toEuler))[a.place j]? =
        some ((r :: (ops.getD []).map fun o => o.mul r).map toEuler) := by
      rw [startingRotations_eq, List.map_map, List.getElem?_map]
      unfold RefineArgs.place
      rw [hat]
      rfl
    constructor
    · rw [List.getD_eq_getElem?_getD, e]
      rfl
    · intro i s lo up h1 h2 h3
      rw [List.getD_eq_getElem?_getD, List.getElem?_map, e] at h2 h3
      rw [List.getD_eq_getElem?_getD, e] at h1
      simp only [Option.map_some, Option.getD_some] at h1 h2 h3
      rw [List.getElem?_map, h1] at h2 h3
      simp only [Option.map_some, Option.some.injEq] at h2 h3
      rw [hb s, ← h2, ← h3]

/-- The angles of starting point `i` describe operator `i` applied after the rotation. -/
theorem start_number {toEuler : Quat → List ℝ} (he : FaithfulEuler toEuler) {ops : List Quat} {r : Quat}
    (hr : IsUnitQuat r) (hops : ∀ o ∈ ops, IsUnitQuat o) {i : ℕ} {s : List ℝ}
    (hs : ((r :: ops.map fun o => o.mul r).map toEuler)[i]? = some s) :
    ∃ alpha beta gamma, s = [alpha, beta, gamma] ∧
      IsStartNumber ops r i (rotationFromEuler alpha beta gamma) := by
  rw [List.getElem?_map, Option.map_eq_some_iff] at hs
  obtain ⟨q, hq, rfl⟩ := hs
  cases i with
  | zero =>
    simp only [List.getElem?_cons_zero, Option.some.injEq] at hq
    subst hq
    obtain ⟨x, y, z, h, hsame⟩ := he _ hr
    exact ⟨x, y, z, h, .inl ⟨rfl, hsame⟩⟩
  | succ k =>
    rw [List.getElem?_cons_succ, List.getElem?_map, Option.map_eq_some_iff] at hq
    obtain ⟨o, ho, rfl⟩ := hq
    obtain ⟨x, y, z, h, hsame⟩ := he _ (unit_mul (hops o (List.mem_of_getElem? ho)) hr)
    exact ⟨x, y, z, h, .inr ⟨k, o, rfl, ho, fun v => by rw [hsame v, rotateVector_mul]⟩⟩

theorem start_unique {ops : List Quat} {r : Quat} {i : ℕ} {p q : Quat} (hp : IsStartNumber ops r i p)
    (hq : IsStartNumber ops r i q) : SameRotation p q := by
  intro v
  rcases hp with ⟨h0, hp⟩ | ⟨k, o, rfl, ho, hp⟩ <;> rcases hq with ⟨h0', hq⟩ | ⟨k', o', h', ho', hq⟩
  · rw [hp v, hq v]
  · omega
  · omega
  · obtain rfl : k = k' := by omega
    rw [ho] at ho'
    cases ho'
    rw [hp v, hq v]

theorem start_lt {ops : List Quat} {r : Quat} {i : ℕ} {p : Quat} (hp : IsStartNumber ops r i p) :
    i ≤ ops.length := by
  rcases hp with ⟨h0, hp⟩ | ⟨k, o, rfl, ho, hp⟩
  · omega
  · have := (List.getElem?_eq_some_iff.1 ho).1
    omega

/-- C134 (partial): refinement of a crystal map with pseudo-symmetry operators, with an optimizer which
never returns a worse point than its starting point. If the rotation of a point in the map, or one of
the operators applied after it, explains the pattern, then the refined score is 1 and the refined
orientation explains the pattern. Missing (and false, see `C123_hemispheres_violated`): master patterns
which are not 32-bit floats and whose hemispheres have different ranges of intensities. -/
theorem C134_found_partial {toEuler : Quat → List ℝ} (he : FaithfulEuler toEuler) {a : RefineArgs}
    {u l : Img ℝ} (hv : a.Valid u l) (hmp : SameScale a.mp u l)
    (hdesc : DescendingOptimizer a.solver.opt) (hm : ∀ x0, startGiven a.solver.method x0 = some x0)
    {inData : List Bool} {rots : List (List Quat)} (g : GoodMap a.points inData rots)
    {ops : Option (List Quat)} (hops : ∀ o ∈ ops.getD [], IsUnitQuat o) {t : Option TrustRegion}
    (ht : GoodTrust t) :
    ∃ rows, refineWithOps toEuler a ops t inData rots = .ok rows ∧
      ∀ (j : ℕ) (pattern : List ℝ) (pc : PC ℝ) (r : Quat), a.points[j]? = some true →
        a.patterns[j]? = some pattern → a.pcAt j = some pc → IsRotationOf inData rots j r →
        pattern.length = a.det.nrows * a.det.ncols → ShowsContrast (maskOf a) pattern →
        ∃ row, rows[a.place j]? = some (some row) ∧
          (row.score = 1 ↔ Explains a (rotationFromEuler (row.x.getD 0 0) (row.x.getD 1 0)
            (row.x.getD 2 0)) pc pattern) ∧
          ((∃ i q, IsStartNumber (ops.getD []) r i q ∧ Explains a q pc pattern) → row.score = 1) := by
  obtain ⟨starts, lower, upper, heq, h1, h2, h3, hs, hstart⟩ := refineWithOps_eq toEuler (ops := ops) ht g
  obtain ⟨rows, hrows, hall⟩ := C123_orientation_partial (valid_withOps hv ops t) hmp h1 h2 h3 hs
  refine ⟨rows, heq.trans hrows, fun j pattern pc r hj hp hpc hr hl hc => ?_⟩
  obtain ⟨row, hrow, hiff, hone⟩ := hall j pattern pc hj hp hpc hl hc
  refine ⟨row, hrow, hiff, fun ⟨i, q, hq, hex⟩ => hone hdesc hm ?_⟩
  obtain ⟨hst, -⟩ := hstart j r hj hr
  have hunit := (rotationsToRefine_at g hj hr).2
  have hi : i < ((r :: (ops.getD []).map fun o => o.mul r).map toEuler).length := by
    have := start_lt hq
    simpa using Nat.lt_succ_of_le this
  obtain ⟨x, y, z, hxyz, hnum⟩ := start_number he hunit hops (List.getElem?_eq_getElem hi)
  refine ⟨[x, y, z], ?_, ?_⟩
  · change [x, y, z] ∈ starts.getD (a.place j) []
    rw [hst, ← hxyz]
    exact List.getElem_mem hi
  · refine (explains_congr (a := a) hv.suitable hv.arrays pc (fun v => ?_) pattern).2 hex
    exact congrArg _ (start_unique hnum hq v)

/-- C134: the index of the best starting point. Every starting point (number 0 the rotation in the map,
number `k + 1` operator `k` applied after it) is optimized within the trust region around it, and the
result with the best score is kept with its number. -/
theorem C134_index {toEuler : Quat → List ℝ} (he : FaithfulEuler toEuler) {a : RefineArgs}
    {u l : Img ℝ} (hv : a.Valid u l)
    {inData : List Bool} {rots : List (List Quat)} (g : GoodMap a.points inData rots)
    {ops : Option (List Quat)} (hops : ∀ o ∈ ops.getD [], IsUnitQuat o) {t : Option TrustRegion}
    (ht : GoodTrust t) {rows : List (Option RefineRow)}
    (hrows : refineWithOps toEuler a ops t inData rots = .ok rows)
    {j : ℕ} {pattern : List ℝ} {pc : PC ℝ} {r : Quat} {row : RefineRow}
    (hj : a.points[j]? = some true) (hp : a.patterns[j]? = some pattern) (hpc : a.pcAt j = some pc)
    (hr : IsRotationOf inData rots j r) (hrow : rows[a.place j]? = some (some row)) :
    ∃ f : List ℝ → ℝ, ∃ b ≤ (ops.getD []).length,
      row.psIdx = (if ops.getD [] = [] then none else some b) ∧
      ∀ i ≤ (ops.getD []).length, ∃ alpha beta gamma lo up,
        IsStartNumber (ops.getD []) r i (rotationFromEuler alpha beta gamma) ∧
        boundConstraints .ori [alpha, beta, gamma] t = .ok ((lo, up), t) ∧
        let res := ({ a.solver with trust := t.isSome } : SolverKwargs).run f [alpha, beta, gamma] lo up
        1 - res.funVal ≤ row.score ∧ (i = b → row.x = res.x ∧ row.score = 1 - f res.x) := by
  obtain ⟨starts, lower, upper, heq, h1, h2, h3, hs, hstart⟩ := refineWithOps_eq toEuler (ops := ops) ht g
  rw [heq] at hrows
  obtain ⟨f, b, hb, hps, hall⟩ := C77_pseudo_symmetry (valid_withOps hv ops t) h1 h2 h3 hs hrows hj hp
    hpc hrow
  refine ⟨f, b, hb, ?_, fun i hi => ?_⟩
  · rw [hps]
    simp [RefineArgs.withOps]
  · obtain ⟨s, lo, up, e1, e2, e3, hle, hbest⟩ := hall i hi
    obtain ⟨hst, hbound⟩ := hstart j r hj hr
    have hb' := hbound i s lo up e1 e2 e3
    have hunit := (rotationsToRefine_at g hj hr).2
    change (starts.getD (a.place j) [])[i]? = some s at e1
    rw [hst] at e1
    obtain ⟨x, y, z, rfl, hnum⟩ := start_number he hunit hops e1
    refine ⟨x, y, z, lo, up, hnum, hb', hle, fun h => ?_⟩
    obtain ⟨hx, -, hsc⟩ := hbest h
    exact ⟨hx, hx ▸ hsc⟩

/-- The Euler angles of a rotation, exactly. -/
def exactEuler (q : Quat) : List ℝ :=
  let sigma := Complex.arg ⟨q.a, -q.d⟩
  let delta := Complex.arg ⟨-q.b, -q.c⟩
  [sigma + delta, 2 * Complex.arg ⟨Real.sqrt (q.a ^ 2 + q.d ^ 2), Real.sqrt (q.b ^ 2 + q.c ^ 2)⟩,
    sigma - delta]

theorem arg_parts (x y : ℝ) : Real.sqrt (x ^ 2 + y ^ 2) * Real.cos (Complex.arg ⟨x, y⟩) = x ∧
    Real.sqrt (x ^ 2 + y ^ 2) * Real.sin (Complex.arg ⟨x, y⟩) = y := by
  have hn : ‖(⟨x, y⟩ : ℂ)‖ = Real.sqrt (x ^ 2 + y ^ 2) := by
    rw [Complex.norm_def, Complex.normSq_mk, sq, sq]
  have h1 := Complex.norm_mul_cos_arg (⟨x, y⟩ : ℂ)
  have h2 := Complex.norm_mul_sin_arg (⟨x, y⟩ : ℂ)
  rw [hn] at h1 h2
  exact ⟨h1, h2⟩

/-- The hypothesis on Euler angles can be met. -/
theorem exactEuler_faithful : FaithfulEuler exactEuler := by
  intro q hq
  refine ⟨_, _, _, rfl, fun v => ?_⟩
  unfold rotationFromEuler
  rw [sameRotation_positive _ v]
  have e1 : ((Complex.arg ⟨q.a, -q.d⟩ + Complex.arg ⟨-q.b, -q.c⟩) +
      (Complex.arg ⟨q.a, -q.d⟩ - Complex.arg ⟨-q.b, -q.c⟩)) / 2 = Complex.arg ⟨q.a, -q.d⟩ := by ring
  have e2 : ((Complex.arg ⟨q.a, -q.d⟩ + Complex.arg ⟨-q.b, -q.c⟩) -
      (Complex.arg ⟨q.a, -q.d⟩ - Complex.arg ⟨-q.b, -q.c⟩)) / 2 = Complex.arg ⟨-q.b, -q.c⟩ := by ring
  have e3 : ∀ x : ℝ, 2 * x / 2 = x := fun x => by ring
  simp only [e1, e2, e3]
  have hab := arg_parts (Real.sqrt (q.a ^ 2 + q.d ^ 2)) (Real.sqrt (q.b ^ 2 + q.c ^ 2))
  have hone : Real.sqrt (Real.sqrt (q.a ^ 2 + q.d ^ 2) ^ 2 + Real.sqrt (q.b ^ 2 + q.c ^ 2) ^ 2) = 1 := by
    rw [Real.sq_sqrt (by positivity), Real.sq_sqrt (by positivity)]
    unfold IsUnitQuat at hq
    rw [show q.a ^ 2 + q.d ^ 2 + (q.b ^ 2 + q.c ^ 2) = 1 by linarith, Real.sqrt_one]
  rw [hone, one_mul, one_mul] at hab
  have h1 := arg_parts q.a (-q.d)
  have h2 := arg_parts (-q.b) (-q.c)
  rw [neg_sq] at h1
  rw [neg_sq, neg_sq] at h2
  rw [hab.1, hab.2]
  congr 1
  ext
  · exact h1.1
  · show -Real.sqrt (q.b ^ 2 + q.c ^ 2) * _ = _
    rw [neg_mul, h2.1, neg_neg]
  · show -Real.sqrt (q.b ^ 2 + q.c ^ 2) * _ = _
    rw [neg_mul, h2.2, neg_neg]
  · show -Real.sqrt (q.a ^ 2 + q.d ^ 2) * _ = _
    rw [neg_mul, h1.2, neg_neg]

/-- A case of `C134_found_partial` and `C134_index`: the rotation in the map is the identity after a
rotation by 180 degrees about x, which is also the pseudo-symmetry operator, so starting point number 1
explains the pattern. -/
example : ∃ u l, floatArgs.Valid u l ∧ SameScale floatArgs.mp u l ∧
    DescendingOptimizer floatArgs.solver.opt ∧
    (∀ x0, startGiven floatArgs.solver.method x0 = some x0) ∧
    GoodMap floatArgs.points [true] [[⟨0, 1, 0, 0⟩, ⟨1, 0, 0, 0⟩]] ∧ IsUnitQuat ⟨0, 1, 0, 0⟩ ∧
    GoodTrust (some ⟨false, [1, 1, 1]⟩) ∧ IsRotationOf [true] [[⟨0, 1, 0, 0⟩, ⟨1, 0, 0, 0⟩]] 0 ⟨0, 1, 0, 0⟩ ∧
    floatArgs.patterns[0]? = some [0, 1] ∧ ShowsContrast (maskOf floatArgs) [0, 1] ∧
    ∃ pc, floatArgs.pcAt 0 = some pc ∧ IsStartNumber [⟨0, 1, 0, 0⟩] ⟨0, 1, 0, 0⟩ 1 (rotationFromEuler 0 0 0) ∧
      Explains floatArgs (rotationFromEuler 0 0 0) pc [0, 1] := by
  obtain ⟨u, l, hv, hs, hd, hm, h1, h2, h3, h4, h5⟩ := floatArgs_case
  have hu : IsUnitQuat ⟨0, 1, 0, 0⟩ := by
    unfold IsUnitQuat
    norm_num
  have hu' : IsUnitQuat ⟨1, 0, 0, 0⟩ := by
    unfold IsUnitQuat
    norm_num
  refine ⟨u, l, hv, hs, hd, hm, ⟨rfl, rfl, ?_, ?_, ?_⟩, hu, ?_, ⟨rfl, _, rfl⟩, h2, h4, _, h3, ?_, h5⟩
  · simp
  · simp [hu, hu']
  · intro j hj
    have : floatArgs.points = [true] := rfl
    rwa [this] at hj
  · intro r hr
    cases hr
    exact .inl rfl
  · refine .inr ⟨0, _, rfl, rfl, fun v => ?_⟩
    unfold rotationFromEuler
    rw [sameRotation_positive _ v]
    simp [rotateVector]

end
end Kp
