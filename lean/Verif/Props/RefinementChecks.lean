import Mathlib.Tactic.Linarith
import Mathlib.Tactic.FieldSimp
import Mathlib.Tactic.NormNum
import Mathlib.Tactic.Ring
import Verif.Model.RefinementChecks
import Verif.Props.RefinementMaps

/-
C87: refinement accepts exactly compatible arguments, and phases are compared by what they are.
-/

namespace Kp

/-! Specification. -/

/-- The numbers are the same up to the tolerance used by NumPy. -/
def Within {K : Type*} [Field K] [LinearOrder K] (a b : K) : Prop :=
  |a - b| ≤ 1 / 100000000 + 1 / 100000 * |b|

/-- The phases have the same name, space group, number of symmetry operations and atoms, and
their lattice parameters, rotations of symmetry operations and atoms, one by one, are the same up
to the tolerance. -/
structure SamePhaseWithin {K : Type*} [Field K] [LinearOrder K] (p q : PhaseInfo K) : Prop where
  name : p.name = q.name
  spaceGroup : p.spaceGroup = q.spaceGroup
  noPointGroup : p.pointGroup = none ↔ q.pointGroup = none
  pointGroup : ∀ a b, p.pointGroup = some a → q.pointGroup = some b →
    a.length = b.length ∧ ∀ i (ha : i < a.length) (hb : i < b.length),
      Within (a[i]).quaternion.1 (b[i]).quaternion.1 ∧
      Within (a[i]).quaternion.2.1 (b[i]).quaternion.2.1 ∧
      Within (a[i]).quaternion.2.2.1 (b[i]).quaternion.2.2.1 ∧
      Within (a[i]).quaternion.2.2.2 (b[i]).quaternion.2.2.2
  lattice : ∀ i (hp : i < p.lattice.length) (hq : i < q.lattice.length),
    Within (p.lattice[i]) (q.lattice[i])
  numberOfAtoms : p.atoms.length = q.atoms.length
  atoms : ∀ i (hp : i < p.atoms.length) (hq : i < q.atoms.length),
    (p.atoms[i]).element = (q.atoms[i]).element ∧
    Within (p.atoms[i]).xyz.1 (q.atoms[i]).xyz.1 ∧
    Within (p.atoms[i]).xyz.2.1 (q.atoms[i]).xyz.2.1 ∧
    Within (p.atoms[i]).xyz.2.2 (q.atoms[i]).xyz.2.2 ∧
    Within (p.atoms[i]).occupancy (q.atoms[i]).occupancy

/-- Space group numbers are at most 230. -/
def PhaseInfo.ValidNumber {K : Type*} (p : PhaseInfo K) : Prop := ∀ n, p.spaceGroup = some n → n ≤ 230

/-- The detector fits the signal: as many pixels, and one PC or one per pattern. -/
def DetectorFits (nav sig : List ℕ) (d : DetectorShapes) : Prop :=
  d.shape = sig ∧ (d.nav = [1] ∨ d.nav = nav)

section
variable {K : Type*} [Field K] [LinearOrder K] [IsStrictOrderedRing K]

theorem isclose_iff (a b : K) : isclose a b = true ↔ Within a b := by
  simp [isclose, Within]

theorem within_refl (a : K) : Within a a := by
  unfold Within
  rw [sub_self, abs_zero]
  have := abs_nonneg a
  positivity

theorem zipWith_all {α β : Type*} (f : α → β → Bool) (a : List α) (b : List β) :
    (List.zipWith f a b).all id = true ↔
      ∀ i (ha : i < a.length) (hb : i < b.length), f a[i] b[i] = true := by
  rw [List.all_eq_true]
  constructor
  · intro h i ha hb
    have hl : i < (List.zipWith f a b).length := by rw [List.length_zipWith]; omega
    have := h _ (List.getElem_mem hl)
    simpa using this
  · intro h x hx
    obtain ⟨i, hi, rfl⟩ := List.getElem_of_mem hx
    rw [List.length_zipWith] at hi
    simpa using h i (by omega) (by omega)

theorem closeSpaceGroups_iff {p q : Option ℕ} (hp : ∀ n, p = some n → n ≤ 230)
    (hq : ∀ n, q = some n → n ≤ 230) : closeSpaceGroups p q = true ↔ p = q := by
  cases p with
  | none => cases q <;> simp [closeSpaceGroups]
  | some a =>
    cases q with
    | none => simp [closeSpaceGroups]
    | some b =>
      have ha := hp a rfl
      have hb := hq b rfl
      simp only [closeSpaceGroups, isclose_iff, Option.some.injEq]
      constructor
      · intro h
        by_contra hne
        unfold Within at h
        have hb' : |(b : ℚ)| ≤ 230 := by
          rw [abs_of_nonneg (Nat.cast_nonneg b)]
          exact_mod_cast hb
        have h1 : (1 : ℚ) ≤ |(a : ℚ) - b| := by
          have : (1 : ℤ) ≤ |(a : ℤ) - b| := Int.one_le_abs (by omega)
          exact_mod_cast this
        linarith
      · rintro rfl; exact within_refl _

theorem pointGroupData_length (a : List (SymmetryOperation K)) :
    (pointGroupData a).length = 4 * a.length := by
  induction a with
  | nil => rfl
  | cons o a ih =>
    simp only [pointGroupData, List.flatMap_cons, List.length_append, List.length_cons,
      List.length_nil] at ih ⊢
    omega

theorem allclose_pointGroupData (a b : List (SymmetryOperation K)) (h : a.length = b.length) :
    allclose (pointGroupData a) (pointGroupData b) = true ↔
      ∀ i (ha : i < a.length) (hb : i < b.length),
        Within (a[i]).quaternion.1 (b[i]).quaternion.1 ∧
        Within (a[i]).quaternion.2.1 (b[i]).quaternion.2.1 ∧
        Within (a[i]).quaternion.2.2.1 (b[i]).quaternion.2.2.1 ∧
        Within (a[i]).quaternion.2.2.2 (b[i]).quaternion.2.2.2 := by
  induction a generalizing b with
  | nil => simp [allclose, pointGroupData]
  | cons o a ih =>
    cases b with
    | nil => simp at h
    | cons o' b =>
      have ih := ih b (by simpa using h)
      have hd : ∀ (o : SymmetryOperation K) (l : List (SymmetryOperation K)),
          pointGroupData (o :: l) = o.quaternion.1 :: o.quaternion.2.1 :: o.quaternion.2.2.1 ::
            o.quaternion.2.2.2 :: pointGroupData l := fun _ _ => rfl
      rw [hd, hd]
      unfold allclose at ih ⊢
      simp only [List.zipWith_cons_cons, List.all_cons, id, Bool.and_eq_true, isclose_iff] at ih ⊢
      constructor
      · rintro ⟨h1, h2, h3, h4, h5⟩ i ha hb
        cases i with
        | zero => exact ⟨h1, h2, h3, h4⟩
        | succ i =>
          exact (ih.1 h5) i (by simpa using ha) (by simpa using hb)
      · intro hall
        obtain ⟨h1, h2, h3, h4⟩ := hall 0 (by simp) (by simp)
        refine ⟨h1, h2, h3, h4, ih.2 fun i ha hb => ?_⟩
        exact hall (i + 1) (by simpa using ha) (by simpa using hb)

theorem closePointGroups_iff (p q : Option (List (SymmetryOperation K))) :
    closePointGroups p q = true ↔ (p = none ↔ q = none) ∧
      ∀ a b, p = some a → q = some b → a.length = b.length ∧
        ∀ i (ha : i < a.length) (hb : i < b.length),
          Within (a[i]).quaternion.1 (b[i]).quaternion.1 ∧
          Within (a[i]).quaternion.2.1 (b[i]).quaternion.2.1 ∧
          Within (a[i]).quaternion.2.2.1 (b[i]).quaternion.2.2.1 ∧
          Within (a[i]).quaternion.2.2.2 (b[i]).quaternion.2.2.2 := by
  cases p with
  | none => cases q <;> simp [closePointGroups]
  | some a =>
    cases q with
    | none => simp [closePointGroups]
    | some b =>
      simp only [closePointGroups, Bool.and_eq_true, beq_iff_eq, pointGroupData_length]
      constructor
      · rintro ⟨h1, h2⟩
        refine ⟨by simp, ?_⟩
        rintro a' b' ⟨⟩ ⟨⟩
        have hl : a.length = b.length := by omega
        exact ⟨hl, (allclose_pointGroupData a b hl).1 h2⟩
      · rintro ⟨-, h⟩
        obtain ⟨hl, h⟩ := h a b rfl rfl
        exact ⟨by omega, (allclose_pointGroupData a b hl).2 h⟩

theorem closeAtoms_iff (a b : PhaseAtom K) : closeAtoms a b = true ↔
    a.element = b.element ∧ Within a.xyz.1 b.xyz.1 ∧ Within a.xyz.2.1 b.xyz.2.1 ∧
      Within a.xyz.2.2 b.xyz.2.2 ∧ Within a.occupancy b.occupancy := by
  simp [closeAtoms, allclose, isclose_iff, and_assoc]

/-- C87: phases are found equal exactly if they have the same name, space group and numbers of
symmetry operations and atoms, and their numbers are the same up to the tolerance of NumPy. -/
theorem C87_equal_iff_partial {p q : PhaseInfo K} (hp : p.ValidNumber) (hq : q.ValidNumber) :
    equalPhase p q = none ↔ SamePhaseWithin p q := by
  have hs := closeSpaceGroups_iff (p := p.spaceGroup) (q := q.spaceGroup) hp hq
  have hg := closePointGroups_iff p.pointGroup q.pointGroup
  have hl : allclose p.lattice q.lattice = true ↔ ∀ i (hp : i < p.lattice.length)
      (hq : i < q.lattice.length), Within (p.lattice[i]) (q.lattice[i]) := by
    unfold allclose
    rw [zipWith_all]
    simp only [isclose_iff]
  have ha := zipWith_all closeAtoms p.atoms q.atoms
  simp only [closeAtoms_iff] at ha
  unfold equalPhase
  constructor
  · intro h
    split_ifs at h with h1 h2 h3 h4 h5 h6
    simp only [Bool.not_eq_true', Bool.not_eq_false, ne_eq, not_not] at h1 h2 h3 h4 h5 h6
    exact ⟨h1, hs.1 h2, (hg.1 h3).1, (hg.1 h3).2, hl.1 h5, h4, ha.1 h6⟩
  · rintro ⟨h1, h2, h3, h4, h5, h6, h7⟩
    rw [if_neg (by simpa using h1), if_neg (by rw [hs.2 h2]; simp),
      if_neg (by rw [hg.2 ⟨h3, h4⟩]; simp), if_neg (by simpa using h6),
      if_neg (by rw [hl.2 h5]; simp), if_neg (by rw [ha.2 h7]; simp)]

/-- C87: a phase is always found equal to itself (and to a copy). -/
theorem C87_equal_to_itself (p : PhaseInfo K) : equalPhase p p = none := by
  have hr : ∀ l : List K, allclose l l = true := by
    intro l
    unfold allclose
    rw [zipWith_all]
    intro i _ _
    exact (isclose_iff _ _).2 (within_refl _)
  have hs : closeSpaceGroups p.spaceGroup p.spaceGroup = true := by
    cases p.spaceGroup with
    | none => rfl
    | some n => exact (isclose_iff _ _).2 (within_refl _)
  have hg : closePointGroups p.pointGroup p.pointGroup = true := by
    cases p.pointGroup with
    | none => rfl
    | some l => simp [closePointGroups, hr]
  have ha : (List.zipWith closeAtoms p.atoms p.atoms).all id = true := by
    rw [zipWith_all]
    intro i _ _
    rw [closeAtoms_iff]
    exact ⟨rfl, within_refl _, within_refl _, within_refl _, within_refl _⟩
  rw [equalPhase, hs, hg, ha, hr]
  simp

/-- C87: what a message says is different is different. -/
theorem C87_reported_difference (p q : PhaseInfo K) :
    (equalPhase p q = some .names → p.name ≠ q.name) ∧
    (equalPhase p q = some .spaceGroups → p.spaceGroup ≠ q.spaceGroup) ∧
    (equalPhase p q = some .pointGroups → p.pointGroup ≠ q.pointGroup) ∧
    (equalPhase p q = some .numberOfAtoms → p.atoms.length ≠ q.atoms.length) ∧
    (equalPhase p q = some .lattice → p.lattice ≠ q.lattice) ∧
    (equalPhase p q = some .atoms → p.atoms ≠ q.atoms) := by
  have hself := C87_equal_to_itself p
  unfold equalPhase at hself
  split_ifs at hself with g1 g2 g3 g4 g5 g6
  unfold equalPhase
  by_cases h1 : p.name ≠ q.name
  · rw [if_pos h1]
    exact ⟨fun _ => h1, by simp, by simp, by simp, by simp, by simp⟩
  rw [if_neg h1]
  by_cases h2 : (!closeSpaceGroups p.spaceGroup q.spaceGroup) = true
  · rw [if_pos h2]
    exact ⟨by simp, fun _ he => g2 (by rw [← he] at h2; exact h2), by simp, by simp, by simp,
      by simp⟩
  rw [if_neg h2]
  by_cases h3 : (!closePointGroups p.pointGroup q.pointGroup) = true
  · rw [if_pos h3]
    exact ⟨by simp, by simp, fun _ he => g3 (by rw [← he] at h3; exact h3), by simp, by simp,
      by simp⟩
  rw [if_neg h3]
  by_cases h4 : p.atoms.length ≠ q.atoms.length
  · rw [if_pos h4]
    exact ⟨by simp, by simp, by simp, fun _ => h4, by simp, by simp⟩
  rw [if_neg h4]
  by_cases h5 : (!allclose p.lattice q.lattice) = true
  · rw [if_pos h5]
    exact ⟨by simp, by simp, by simp, by simp, fun _ he => g5 (by rw [← he] at h5; exact h5),
      by simp⟩
  rw [if_neg h5]
  by_cases h6 : (!(List.zipWith closeAtoms p.atoms q.atoms).all id) = true
  · rw [if_pos h6]
    exact ⟨by simp, by simp, by simp, by simp, by simp,
      fun _ he => g6 (by rw [← he] at h6; exact h6)⟩
  rw [if_neg h6]
  simp

end

/-- A phase with one lattice parameter etc. to vary. -/
def examplePhase (a : ℚ) (g : Option (List (SymmetryOperation ℚ))) (atoms : List (PhaseAtom ℚ)) :
    PhaseInfo ℚ := ⟨"ni", none, g, [a, a, a, 90, 90, 90], atoms⟩

/-- Atoms of a primitive NaCl cell. -/
def sodium : PhaseAtom ℚ := ⟨"Na", (0, 0, 0), 1⟩
def chlorine : PhaseAtom ℚ := ⟨"Cl", (1/2, 1/2, 1/2), 1⟩

/-- Point group 2: identity and half a turn about z. -/
def pointGroup2 : List (SymmetryOperation ℚ) := [⟨(1, 0, 0, 0), false⟩, ⟨(0, 0, 0, 1), false⟩]

/-- Point group m: identity and a mirror normal to z. -/
def pointGroupM : List (SymmetryOperation ℚ) := [⟨(1, 0, 0, 0), false⟩, ⟨(0, 0, 0, 1), true⟩]

example : equalPhase (examplePhase (3524/1000) (some pointGroup2) [sodium])
    (examplePhase (3524/1000) (some pointGroup2) [sodium]) = none := C87_equal_to_itself _

example : equalPhase (examplePhase (3524/1000) (some pointGroup2) [sodium])
    (examplePhase (3525/1000) (some pointGroup2) [sodium]) = some .lattice := by decide +kernel

/-- C87 is false: phases of the point groups 2 and m are found equal. -/
theorem C87_point_group_violated : ∃ p q : PhaseInfo ℚ,
    p.pointGroup ≠ q.pointGroup ∧ equalPhase p q = none :=
  ⟨examplePhase 4 (some pointGroup2) [], examplePhase 4 (some pointGroupM) [], by decide +kernel,
    by decide +kernel⟩

/-- C87 is false: the same atoms in another order are another phase. -/
theorem C87_atom_order_violated : ∃ p q : PhaseInfo ℚ,
    p.name = q.name ∧ p.spaceGroup = q.spaceGroup ∧ p.pointGroup = q.pointGroup ∧
    p.lattice = q.lattice ∧ p.atoms.Perm q.atoms ∧ equalPhase p q = some .atoms :=
  ⟨examplePhase 4 none [sodium, chlorine], examplePhase 4 none [chlorine, sodium], rfl, rfl, rfl,
    rfl, List.Perm.swap _ _ _, by decide +kernel⟩

/-- C87 is false: whether phases are found equal depends on which comes first. -/
theorem C87_symmetric_violated : ∃ p q : PhaseInfo ℚ,
    equalPhase p q = none ∧ equalPhase q p = some .lattice :=
  ⟨examplePhase 1 none [], examplePhase (1 + 1001005 / 10 ^ 11) none [], by decide +kernel,
    by decide +kernel⟩

/-- C87 is false: two phases found equal to a third may be found different. -/
theorem C87_transitive_violated : ∃ p q r : PhaseInfo ℚ,
    equalPhase p q = none ∧ equalPhase q r = none ∧ equalPhase p r = some .lattice :=
  ⟨examplePhase 1 none [], examplePhase (1 + 1 / 10 ^ 5) none [],
    examplePhase (1 + 2 / 10 ^ 5) none [], by decide +kernel, by decide +kernel, by decide +kernel⟩

/-! Arguments of refinement. -/

theorem checkDetector_iff (nav sig : List ℕ) (d : DetectorShapes) :
    checkDetector nav sig d = .ok () ↔ DetectorFits nav sig d := by
  unfold checkDetector DetectorFits
  by_cases h1 : sig = d.shape <;> by_cases h2 : d.nav = [1] <;> by_cases h3 : d.nav = nav <;>
    simp [h1, h2, h3, eq_comm]

theorem pointsAndPhases_nodup {R : Type*} {x : RMap R} {mask : Option (List ℕ × List Bool)}
    {inData : List Bool} {ids : List ℤ} (hp : pointsAndPhases x mask = .ok (inData, ids)) :
    ids.Nodup := by
  unfold pointsAndPhases at hp
  split at hp
  · simp only [Except.ok.injEq, Prod.mk.injEq] at hp
    obtain ⟨_, rfl⟩ := hp
    exact List.nodup_dedup _
  · simp only at hp
    split at hp
    · cases hp
    split at hp
    · cases hp
    simp only [Except.ok.injEq, Prod.mk.injEq] at hp
    obtain ⟨_, rfl⟩ := hp
    exact List.nodup_dedup _

/-- The phase of a point to be refined is among those found. -/
theorem pointsAndPhases_mem {R : Type*} {x : RMap R} (wf : x.WF)
    {mask : Option (List ℕ × List Bool)}
    {inData : List Bool} {ids : List ℤ} (hp : pointsAndPhases x mask = .ok (inData, ids)) {i : ℕ}
    (hi : i < x.isInData.length) (href : Spec.isRefined x mask i = true) :
    x.allPhaseId.getD i (-1) ∈ ids := by
  have href' := href
  unfold Spec.isRefined at href'
  simp only [Bool.and_eq_true, bne_iff_ne, ne_eq] at href'
  obtain ⟨⟨hd, hnm⟩, hph⟩ := href'
  have hm : x.isInData[i]? = some true := by
    rw [List.getD_eq_getElem?_getD, List.getElem?_eq_getElem hi] at hd
    rw [List.getElem?_eq_getElem hi]
    simpa using hd
  have hi' : i < x.allPhaseId.length := by rw [wf.phase]; exact hi
  have hpi : x.allPhaseId[i]? = some (x.allPhaseId.getD i (-1)) := by
    rw [List.getD_eq_getElem?_getD, List.getElem?_eq_getElem hi']
    rfl
  unfold pointsAndPhases at hp
  split at hp
  · simp only [Except.ok.injEq, Prod.mk.injEq] at hp
    obtain ⟨_, rfl⟩ := hp
    unfold uniqueIds
    rw [List.mem_dedup]
    unfold RMap.isIndexed
    have : x.allPhaseId.getD i (-1) ∈ x.phaseId := mem_selectMask_of_getElem wf.phase.symm hm hpi
    obtain ⟨k, hk⟩ := List.mem_iff_getElem?.1 this
    refine mem_selectMask_of_getElem (by simp) (i := k) ?_ hk
    rw [List.getElem?_map, hk]
    simpa using hph
  · rename_i m
    simp only at hp
    split at hp
    · cases hp
    split at hp
    · cases hp
    rename_i hlen
    simp only [List.length_map, not_not] at hlen
    simp only [Except.ok.injEq, Prod.mk.injEq] at hp
    obtain ⟨_, rfl⟩ := hp
    unfold uniqueIds
    rw [List.mem_dedup]
    unfold RMap.phaseId
    have hk1 := selectMask_getElem (mask := x.isInData) (l := m.2.map not) (by simp [hlen]) i hm
    have hk2 := selectMask_getElem (mask := x.isInData) (l := x.allPhaseId) wf.phase.symm i hm
    refine mem_selectMask_of_getElem ?_ (i := (x.isInData.take i).count true) ?_ ?_
    · rw [selectMask_length (by simp [hlen]), selectMask_length wf.phase.symm]
    · rw [hk1, List.getElem?_map, List.getElem?_eq_getElem (by omega)]
      simp only [Option.map_some, Option.getD_some] at hnm ⊢
      rw [List.getD_eq_getElem?_getD, List.getElem?_eq_getElem (by omega)] at hnm
      simpa using hnm
    · rw [hk2, hpi]

/-- Points to be refined have the phase returned. -/
theorem indexedPoints_phase {R : Type*} {x : RMap R} (wf : x.WF)
    {mask : Option (List ℕ × List Bool)} {pts : IndexedPoints}
    (hpts : indexedPoints x mask = .ok pts) {i : ℕ} (hi : i < x.isInData.length)
    (href : Spec.isRefined x mask i = true) : x.allPhaseId.getD i (-1) = pts.phaseId := by
  unfold indexedPoints at hpts
  split at hpts
  · cases hpts
  rename_i inData ids hp
  split at hpts
  · cases hpts
  rename_i hids
  split at hpts
  · cases hpts
  rename_i phase rest hfil
  split at hpts
  · cases hpts
  simp only [Except.ok.injEq] at hpts
  subst hpts
  simp only
  have hphase : phase ∈ ids ∧ phase ≠ -1 := by
    have : phase ∈ ids.filter (fun p => p != -1) := by rw [hfil]; exact List.mem_cons_self
    simpa using this
  have hph : x.allPhaseId.getD i (-1) ≠ -1 := by
    unfold Spec.isRefined at href
    simp only [Bool.and_eq_true, bne_iff_ne, ne_eq] at href
    exact href.2
  exact uniqueIds_single (pointsAndPhases_nodup hp) (not_not.1 hids)
    (pointsAndPhases_mem wf hp hi href) hphase.1 hph hphase.2

/-- The navigation mask has the shape of the map if there is no error. -/
theorem indexedPoints_maskShape {R : Type*} {x : RMap R} {m : List ℕ × List Bool}
    {pts : IndexedPoints} (h : indexedPoints x (some m) = .ok pts) :
    m.1 = x.shape ∧ m.2.length = x.isInData.length := by
  unfold indexedPoints pointsAndPhases at h
  by_cases h1 : m.1 = x.shape
  · by_cases h2 : m.2.length = x.isInData.length
    · exact ⟨h1, h2⟩
    · simp [h1, h2] at h
  · simp [h1] at h

section
variable {K R : Type*} [Field K] [LinearOrder K] [IsStrictOrderedRing K]

/-- C87: refinement is only started with a detector of the signal's shape and one PC or one per
pattern, masks of the right shapes, a map of the navigation shape, a suitable master pattern, and
one phase, which is that of all points to be refined and is found equal to that of the master
pattern.  Points to be refined are those in the data, not masked and indexed. -/
theorem C87_accepted_partial {a : RefinementArgs K R} (wf : a.xmap.WF) {pts : List Bool}
    (h : checkRefinement a = .ok pts) :
    DetectorFits a.nav a.sig a.detector ∧ (∀ m, a.signalMask = some m → m = a.sig) ∧
    a.xmap.shape = a.nav ∧
    (∀ m, a.navMask = some m → m.1 = a.nav ∧ m.2.length = a.xmap.isInData.length) ∧
    a.suitable = true ∧
    (∃ id p, a.phases.lookup id = some p ∧ equalPhase a.mpPhase p = none ∧
      ∀ i : ℕ, pts[i]? = some true → a.xmap.allPhaseId[i]? = some id) ∧
    pts.length = a.xmap.isInData.length ∧
    ∀ i < a.xmap.isInData.length, pts[i]? = some (Spec.isRefined a.xmap a.navMask i) := by
  unfold checkRefinement at h
  split at h
  · cases h
  rename_i hdet
  split at h
  · cases h
  rename_i hsm
  split at h
  · cases h
  rename_i hmap
  split at h
  · cases h
  rename_i ip hip
  split at h
  · cases h
  rename_i hsuit
  split at h
  · cases h
  rename_i p hlook
  split at h
  · cases h
  rename_i heq
  obtain rfl := Except.ok.inj h
  obtain ⟨-, hl2, -, hr⟩ := indexedPoints_spec wf hip
  have hshape : a.xmap.shape = a.nav := by
    unfold checkMap at hmap
    split at hmap
    · cases hmap
    · rename_i h; exact not_not.1 h
  refine ⟨(checkDetector_iff _ _ _).1 hdet, ?_, hshape, ?_, by simpa using hsuit,
    ⟨ip.phaseId, p, hlook, heq, ?_⟩, hl2, hr⟩
  · intro m hm
    rw [hm] at hsm
    have : a.sig = m := by simpa using hsm
    exact this.symm
  · intro m hm
    rw [hm] at hip
    obtain ⟨h1, h2⟩ := indexedPoints_maskShape hip
    exact ⟨h1.trans hshape, h2⟩
  · intro i hi
    have hlt : i < a.xmap.isInData.length := by
      rw [← hl2]
      exact (List.getElem?_eq_some_iff.1 hi).1
    have href : Spec.isRefined a.xmap a.navMask i = true := by
      have := hr i hlt
      rw [hi] at this
      exact (Option.some.inj this).symm
    have hlt' : i < a.xmap.allPhaseId.length := by rw [wf.phase]; exact hlt
    have := indexedPoints_phase wf hip hlt href
    rw [List.getD_eq_getElem?_getD, List.getElem?_eq_getElem hlt'] at this
    rw [List.getElem?_eq_getElem hlt']
    simpa using this

/-- Every phase found is that of a point in the data which is not masked. -/
theorem mem_selectMask_iff {α : Type*} {m : List Bool} {l : List α} (hl : m.length = l.length)
    {a : α} : a ∈ selectMask m l ↔ ∃ i : ℕ, m[i]? = some true ∧ l[i]? = some a := by
  constructor
  · intro h
    induction m generalizing l with
    | nil => simp [selectMask] at h
    | cons b m ih =>
      cases l with
      | nil => simp at hl
      | cons c l =>
        have hl' : m.length = l.length := by simpa using hl
        cases b with
        | false =>
          obtain ⟨i, h1, h2⟩ := ih hl' (by simpa [selectMask] using h)
          exact ⟨i + 1, by simpa using h1, by simpa using h2⟩
        | true =>
          rcases (by simpa [selectMask] using h : a = c ∨ a ∈ selectMask m l) with rfl | h
          · exact ⟨0, rfl, rfl⟩
          · obtain ⟨i, h1, h2⟩ := ih hl' h
            exact ⟨i + 1, by simpa using h1, by simpa using h2⟩
  · rintro ⟨i, h1, h2⟩
    exact mem_selectMask_of_getElem hl h1 h2

/-- C87: compatible arguments are accepted: those of the last theorem, with at least one point to
be refined, all of the same phase, in a map with a point for every pattern. -/
theorem C87_accepts {a : RefinementArgs K R} (wf : a.xmap.WF)
    (hdet : DetectorFits a.nav a.sig a.detector)
    (hsm : ∀ m, a.signalMask = some m → m = a.sig) (hshape : a.xmap.shape = a.nav)
    (hnav : (∃ n, a.nav = [n]) ∨ ∃ r c, a.nav = [r, c] ∧ a.xmap.isInData.length = r * c)
    (hmask : ∀ m, a.navMask = some m → m.1 = a.nav ∧ m.2.length = a.xmap.isInData.length)
    (hsuit : a.suitable = true) {id : ℤ} {p : PhaseInfo K} (hlook : a.phases.lookup id = some p)
    (heq : equalPhase a.mpPhase p = none)
    (hsome : ∃ i < a.xmap.isInData.length, Spec.isRefined a.xmap a.navMask i = true)
    (hphase : ∀ i < a.xmap.isInData.length, Spec.isRefined a.xmap a.navMask i = true →
      a.xmap.allPhaseId[i]? = some id) :
    ∃ pts, checkRefinement a = .ok pts := by
  obtain ⟨i0, hi0, href0⟩ := hsome
  -- points and phases
  obtain ⟨inData, ids, hpp, hids⟩ : ∃ inData ids, pointsAndPhases a.xmap a.navMask =
      .ok (inData, ids) ∧ ∀ j ∈ ids, j = id ∨ j = -1 := by
    unfold pointsAndPhases
    cases hm : a.navMask with
    | none =>
      refine ⟨_, _, rfl, fun j hj => ?_⟩
      unfold uniqueIds at hj
      rw [List.mem_dedup, mem_selectMask_iff (by simp [RMap.isIndexed])] at hj
      obtain ⟨k, hk1, hk2⟩ := hj
      unfold RMap.phaseId at hk2
      obtain ⟨i, hi1, hi2⟩ := (mem_selectMask_iff wf.phase.symm).1 (List.mem_of_getElem? hk2)
      by_cases hj1 : j = -1
      · exact .inr hj1
      · left
        have hlt := (List.getElem?_eq_some_iff.1 hi1).1
        have := hphase i hlt (by
          rw [hm]
          simp [Spec.isRefined, hi1, hi2, hj1])
        rw [hi2] at this
        exact Option.some.inj this
    | some m =>
      obtain ⟨h1, h2⟩ := hmask m hm
      have hlen : m.2.length = a.xmap.isInData.length := h2
      simp only [h1, hshape, ne_eq, not_true_eq_false, if_false, List.length_map, hlen]
      refine ⟨_, _, rfl, fun j hj => ?_⟩
      unfold uniqueIds RMap.phaseId at hj
      rw [List.mem_dedup, mem_selectMask_iff (by
        rw [selectMask_length (by simp [hlen]), selectMask_length wf.phase.symm])] at hj
      obtain ⟨k, hk1, hk2⟩ := hj
      obtain ⟨i, hi1, hi2, hi3⟩ : ∃ i, a.xmap.isInData[i]? = some true ∧
          (m.2.map not)[i]? = some true ∧ a.xmap.allPhaseId[i]? = some j := by
        have hgen : ∀ (b : List Bool) (u : List Bool) (v : List ℤ) (k : ℕ), b.length = u.length →
            b.length = v.length → (selectMask b u)[k]? = some true →
            (selectMask b v)[k]? = some j →
            ∃ i : ℕ, b[i]? = some true ∧ u[i]? = some true ∧ v[i]? = some j := by
          intro b
          induction b with
          | nil => intro u v k _ _ hu _; simp [selectMask] at hu
          | cons b0 b ih =>
            intro u v k hbu hbv hu hv
            cases u with
            | nil => simp at hbu
            | cons u0 u =>
              cases v with
              | nil => simp at hbv
              | cons v0 v =>
                cases b0 with
                | false =>
                  obtain ⟨i, x1, x2, x3⟩ := ih u v k (by simpa using hbu) (by simpa using hbv)
                    (by simpa [selectMask] using hu) (by simpa [selectMask] using hv)
                  exact ⟨i + 1, by simpa using x1, by simpa using x2, by simpa using x3⟩
                | true =>
                  cases k with
                  | zero =>
                    refine ⟨0, rfl, ?_, ?_⟩
                    · simpa [selectMask] using hu
                    · simpa [selectMask] using hv
                  | succ k =>
                    obtain ⟨i, x1, x2, x3⟩ := ih u v k (by simpa using hbu) (by simpa using hbv)
                      (by simpa [selectMask] using hu) (by simpa [selectMask] using hv)
                    exact ⟨i + 1, by simpa using x1, by simpa using x2, by simpa using x3⟩
        exact hgen _ _ _ k (by simp [hlen]) wf.phase.symm hk1 hk2
      by_cases hj1 : j = -1
      · exact .inr hj1
      · left
        have hlt := (List.getElem?_eq_some_iff.1 hi1).1
        have hmf : m.2[i]? = some false := by
          rw [List.getElem?_map] at hi2
          cases hq : m.2[i]? with
          | none => rw [hq] at hi2; simp at hi2
          | some b => rw [hq] at hi2; cases b <;> simp_all
        have := hphase i hlt (by
          rw [hm]
          simp [Spec.isRefined, hi1, hi3, hj1, hmf])
        rw [hi3] at this
        exact Option.some.inj this
  have hnd := pointsAndPhases_nodup hpp
  have hmem0 : id ∈ ids ∧ id ≠ -1 := by
    have h1 := pointsAndPhases_mem wf hpp hi0 href0
    have h2 := hphase i0 hi0 href0
    rw [List.getD_eq_getElem?_getD, h2] at h1
    refine ⟨h1, ?_⟩
    unfold Spec.isRefined at href0
    simp only [Bool.and_eq_true, bne_iff_ne, ne_eq] at href0
    have h3 := href0.2
    rw [List.getD_eq_getElem?_getD, h2] at h3
    exact h3
  have hcond : ids.length = 1 ∨ (ids.length = 2 ∧ -1 ∈ ids) := by
    have hsub : ids ⊆ [id, -1] := fun j hj => by
      rcases hids j hj with rfl | rfl <;> simp
    have hle := (List.subperm_of_subset hnd hsub).length_le
    simp only [List.length_cons, List.length_nil] at hle
    have hpos : 0 < ids.length := List.length_pos_of_mem hmem0.1
    by_cases h1 : (-1 : ℤ) ∈ ids
    · right
      refine ⟨?_, h1⟩
      have hsub2 : [id, -1] ⊆ ids := by
        intro j hj
        rcases (by simpa using hj : j = id ∨ j = -1) with rfl | rfl
        · exact hmem0.1
        · exact h1
      have := (List.subperm_of_subset (by simpa using hmem0.2) hsub2).length_le
      simp only [List.length_cons, List.length_nil] at this
      omega
    · left
      have hsub3 : ids ⊆ [id] := fun j hj => by
        rcases hids j hj with rfl | rfl
        · simp
        · exact absurd hj h1
      have := (List.subperm_of_subset hnd hsub3).length_le
      simp only [List.length_cons, List.length_nil] at this
      omega
  obtain ⟨rest, hfil⟩ : ∃ rest, ids.filter (fun p => p != -1) = id :: rest := by
    cases hf : ids.filter (fun p => p != -1) with
    | nil =>
      have : id ∈ ids.filter (fun p => p != -1) := by simpa using hmem0
      rw [hf] at this
      simp at this
    | cons j rest =>
      have : j ∈ ids.filter (fun p => p != -1) := by rw [hf]; exact List.mem_cons_self
      have hj : j ∈ ids ∧ j ≠ -1 := by simpa using this
      rcases hids j hj.1 with rfl | h
      · exact ⟨rest, rfl⟩
      · exact absurd h hj.2
  -- the box of points
  obtain ⟨hinl, hin⟩ := pointsAndPhases_getElem hpp
  have hw : whereTrue inData ≠ [] := by
    intro h0
    have : i0 ∈ whereTrue inData := by
      rw [mem_whereTrue, hin i0 hi0]
      unfold Spec.isRefined at href0
      simp only [Bool.and_eq_true] at href0
      rw [href0.1.1, href0.1.2]
      rfl
    rw [h0] at this
    simp at this
  obtain ⟨box, hbox⟩ : ∃ box, maskBox a.xmap.shape inData = .ok box := by
    rw [hshape]
    unfold maskBox
    rcases hnav with ⟨n, hn⟩ | ⟨r, c, hn, hrc⟩
    · simp only [hn]
      rw [List.head?_eq_some_head hw, List.getLast?_eq_some_getLast hw]
      exact ⟨_, rfl⟩
    · simp only [hn, hinl, hrc, ne_eq, not_true_eq_false, if_false, hw]
      exact ⟨_, rfl⟩
  have hipts : ∃ ip, indexedPoints a.xmap a.navMask = .ok ip ∧ ip.phaseId = id := by
    unfold indexedPoints
    simp only [hpp, hcond, not_true_eq_false, if_false, hfil, hbox]
    exact ⟨_, rfl, rfl⟩
  obtain ⟨ip, hip, hipid⟩ := hipts
  refine ⟨ip.inDataIndexed, ?_⟩
  have hsm' : (a.signalMask.any fun m => a.sig != m) = false := by
    cases hm : a.signalMask with
    | none => rfl
    | some m => simp [hsm m hm]
  unfold checkRefinement
  simp only [(checkDetector_iff _ _ _).2 hdet, hsm', checkMap, hshape, ne_eq, not_true_eq_false,
    if_false, hip, hsuit, hipid, hlook, heq, Bool.not_true, Bool.false_eq_true]

/-- C87: setting a detector or a crystal map of a signal keeps the old one if the new one does not
fit, so after any sequence of them the detector and the map fit the signal. -/
theorem C87_attributes_fit (s : SignalState R) (l : List (AttributeSet R))
    (hd : DetectorFits s.nav s.sig s.detector) (hx : ∀ x, s.xmap = some x → x.shape = s.nav) :
    (s.setAll l).nav = s.nav ∧ (s.setAll l).sig = s.sig ∧
    DetectorFits s.nav s.sig (s.setAll l).detector ∧
    ∀ x, (s.setAll l).xmap = some x → x.shape = s.nav := by
  induction l generalizing s with
  | nil => exact ⟨rfl, rfl, hd, hx⟩
  | cons a l ih =>
    cases a with
    | detector d =>
      simp only [SignalState.setAll, SignalState.setDetector]
      cases hc : checkDetector s.nav s.sig d with
      | error e => exact ih s hd hx
      | ok u => exact ih { s with detector := d } ((checkDetector_iff _ _ _).1 hc) hx
    | xmap x =>
      simp only [SignalState.setAll, SignalState.setXmap, checkMap]
      by_cases hc : x.shape = s.nav
      · simp only [hc, ne_eq, not_true_eq_false, if_false]
        refine ih { s with xmap := some x } hd ?_
        rintro y ⟨⟩
        exact hc
      · simp only [ne_eq, hc, not_false_eq_true, if_true]
        exact ih s hd hx

/-- C87: an attribute which fits is set, one which does not fit is not set and the user is told. -/
theorem C87_set_attribute (s : SignalState R) (d : DetectorShapes) (x : RMap R) :
    ((s.setDetector d).2 = false ↔ DetectorFits s.nav s.sig d) ∧
    ((s.setDetector d).2 = false → (s.setDetector d).1.detector = d) ∧
    ((s.setDetector d).2 = true → (s.setDetector d).1 = s) ∧
    ((s.setXmap x).2 = false ↔ x.shape = s.nav) ∧
    ((s.setXmap x).2 = false → (s.setXmap x).1.xmap = some x) ∧
    ((s.setXmap x).2 = true → (s.setXmap x).1 = s) := by
  refine ⟨?_, ?_, ?_, ?_, ?_, ?_⟩
  · rw [← checkDetector_iff]
    unfold SignalState.setDetector
    cases hc : checkDetector s.nav s.sig d <;> simp
  all_goals first
    | (unfold SignalState.setDetector
       cases hc : checkDetector s.nav s.sig d <;> simp)
    | (unfold SignalState.setXmap checkMap
       by_cases hc : x.shape = s.nav <;> simp [hc])

/-! Coordinates. -/

/-- The coordinates of a regular map in order. -/
def regularCoordinates (rows cols : ℕ) (y0 x0 dy dx : K) : List (K × K) :=
  (List.range rows).flatMap fun (i : ℕ) => (List.range cols).map fun (j : ℕ) =>
    (y0 + (i : K) * dy, x0 + (j : K) * dx)

theorem foldl_min_eq {a m : K} {l : List K} (hm : m ∈ a :: l) (hle : ∀ c ∈ a :: l, m ≤ c) :
    l.foldl min a = m := by
  have h1 : ∀ (l : List K) (a : K), l.foldl min a ∈ a :: l ∧ ∀ c ∈ a :: l, l.foldl min a ≤ c := by
    intro l
    induction l with
    | nil => intro a; simp
    | cons b l ih =>
      intro a
      obtain ⟨i1, i2⟩ := ih (min a b)
      rw [List.foldl_cons]
      refine ⟨?_, ?_⟩
      · rcases List.mem_cons.1 i1 with h | h
        · rw [h]
          rcases min_choice a b with h | h <;> rw [h] <;> simp
        · simp [h]
      · intro c hc
        have i3 := i2 _ List.mem_cons_self
        rcases (by simpa using hc : c = a ∨ c = b ∨ c ∈ l) with rfl | rfl | h
        · exact i3.trans (min_le_left _ _)
        · exact i3.trans (min_le_right _ _)
        · exact i2 c (List.mem_cons_of_mem _ h)
  obtain ⟨h2, h3⟩ := h1 l a
  exact le_antisymm (h3 _ hm) (hle _ h2)

/-- The step found is that of the coordinates. -/
theorem stepSize_eq {l : List K} {c0 d : K} (hd : 0 < d) (h0 : c0 ∈ l) (h1 : c0 + d ∈ l)
    (hall : ∀ c ∈ l, ∃ k : ℕ, c = c0 + k * d) : stepSize l = d := by
  have hge : ∀ c ∈ l, c0 ≤ c := by
    intro c hc
    obtain ⟨k, rfl⟩ := hall c hc
    have : (0 : K) ≤ k * d := by positivity
    linarith
  cases l with
  | nil => simp at h0
  | cons a t =>
    have hm : t.foldl min a = c0 := foldl_min_eq h0 hge
    unfold stepSize
    simp only [hm]
    have hmem : c0 + d ∈ (a :: t).filter (fun c => decide (c ≠ c0)) := by
      simp only [List.mem_filter, h1, ne_eq, decide_eq_true_eq, true_and]
      intro h
      linarith
    cases hf : (a :: t).filter (fun c => decide (c ≠ c0)) with
    | nil => rw [hf] at hmem; simp at hmem
    | cons b r =>
      simp only
      rw [hf] at hmem
      rw [foldl_min_eq hmem ?_]
      · ring
      · intro c hc
        rw [← hf] at hc
        simp only [List.mem_filter, ne_eq, decide_eq_true_eq] at hc
        obtain ⟨k, rfl⟩ := hall c hc.1
        have hk : 1 ≤ k := by
          rcases Nat.eq_zero_or_pos k with rfl | h
          · exact absurd (by simp) hc.2
          · exact h
        have hk' : (1 : K) ≤ k := by exact_mod_cast hk
        nlinarith

/-- C87: points of a map which starts in the origin keep their coordinates in the refined map; in
general all are moved by the coordinates of the first point. -/
theorem C87_coordinates_partial {rows cols : ℕ} (hr : 2 ≤ rows) (hc : 2 ≤ cols) (y0 x0 : K)
    {dy dx : K} (hy : 0 < dy) (hx : 0 < dx) :
    refinedCoordinates rows cols (regularCoordinates rows cols y0 x0 dy dx) =
      some ((regularCoordinates rows cols y0 x0 dy dx).map fun c => (c.1 - y0, c.2 - x0)) := by
  have hmem : ∀ i j : ℕ, i < rows → j < cols →
      ((y0 + (i : K) * dy, x0 + (j : K) * dx) : K × K) ∈ regularCoordinates rows cols y0 x0 dy dx := by
    intro i j hi hj
    simp only [regularCoordinates, List.mem_flatMap, List.mem_map, List.mem_range]
    exact ⟨i, hi, j, hj, rfl⟩
  have h1 : stepSize ((regularCoordinates rows cols y0 x0 dy dx).map Prod.fst) = dy := by
    refine stepSize_eq (c0 := y0) hy ?_ ?_ ?_
    · exact List.mem_map.2 ⟨_, hmem 0 0 (by omega) (by omega), by simp⟩
    · exact List.mem_map.2 ⟨_, hmem 1 0 (by omega) (by omega), by simp⟩
    · intro c h
      simp only [regularCoordinates, List.mem_flatMap, List.mem_map, List.mem_range] at h
      obtain ⟨_, ⟨i, _, j, _, rfl⟩, rfl⟩ := h
      exact ⟨i, rfl⟩
  have h2 : stepSize ((regularCoordinates rows cols y0 x0 dy dx).map Prod.snd) = dx := by
    refine stepSize_eq (c0 := x0) hx ?_ ?_ ?_
    · exact List.mem_map.2 ⟨_, hmem 0 0 (by omega) (by omega), by simp⟩
    · exact List.mem_map.2 ⟨_, hmem 0 1 (by omega) (by omega), by simp⟩
    · intro c h
      simp only [regularCoordinates, List.mem_flatMap, List.mem_map, List.mem_range] at h
      obtain ⟨_, ⟨i, _, j, _, rfl⟩, rfl⟩ := h
      exact ⟨j, rfl⟩
  unfold refinedCoordinates
  simp only [h1, h2, hy.ne', hx.ne', or_self, if_false]
  congr 1
  simp [regularCoordinates, List.map_flatMap, Function.comp_def]

end

/-- C87 is false: points of a map which starts elsewhere get other coordinates by refinement. -/
theorem C87_coordinates_violated : ∃ (rows cols : ℕ) (y0 x0 dy dx : ℚ),
    2 ≤ rows ∧ 2 ≤ cols ∧ 0 < dy ∧ 0 < dx ∧
    refinedCoordinates rows cols (regularCoordinates rows cols y0 x0 dy dx) ≠
      some (regularCoordinates rows cols y0 x0 dy dx) :=
  ⟨2, 2, 10, 10, 1, 1, by decide +kernel, by decide +kernel, by decide +kernel, by decide +kernel,
    by decide +kernel⟩

/-- C87 is false: with a navigation mask of points which are all not indexed, the error is one of
indexing an empty array, and without the mask that the points must have only one phase. -/
theorem C87_not_indexed_violated : ∃ (x : RMap ℕ) (m : List ℕ × List Bool),
    x.WF ∧ (∀ p ∈ x.allPhaseId, p = -1) ∧ m.1 = x.shape ∧
    (match indexedPoints x (some m) with | .error .indexError => true | _ => false) = true ∧
    (match indexedPoints x none with | .error .valueError => true | _ => false) = true :=
  ⟨⟨[2], [true, true], [-1, -1], [0, 0]⟩, ([2], [false, false]), ⟨rfl, rfl⟩, by decide, rfl,
    by decide +kernel, by decide +kernel⟩

/-- A signal of 2 x 2 patterns, of which three are refined. -/
def exampleRefinementArgs : RefinementArgs ℚ ℕ where
  nav := [2, 2]
  sig := [60, 50]
  detector := ⟨[60, 50], [1]⟩
  signalMask := some [60, 50]
  xmap := ⟨[2, 2], [true, true, true, true], [0, 0, -1, 0], [5, 6, 7, 8]⟩
  phases := [(-1, examplePhase 1 none []), (0, examplePhase 4 (some pointGroup2) [sodium])]
  navMask := some ([2, 2], [true, false, false, false])
  suitable := true
  mpPhase := examplePhase 4 (some pointGroup2) [sodium]

example : exampleRefinementArgs.xmap.WF := ⟨rfl, rfl⟩

example : (checkRefinement exampleRefinementArgs).toOption = some [false, true, false, true] := by
  decide +kernel

end Kp
