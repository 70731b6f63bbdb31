import Verif.Model.HoughIndexing
import Mathlib.Algebra.BigOperators.Group.List.Basic
import Mathlib.Tactic.Ring
import Mathlib.Tactic.SplitIfs
import Mathlib.Tactic.Positivity

/-! Lemmas for Hough indexing. -/

set_option linter.unusedSectionVars false

namespace Kp

variable {K P : Type}

theorem npRow_lt {α : Type} {data : List α} {i : ℤ} {j : ℕ} (h : npRow data i = some j) :
    j < data.length := by
  unfold npRow at h
  split_ifs at h <;> simp only [Option.some.injEq] at h <;> omega

theorem npRow_neg_one {α : Type} (data : List α) :
    npRow data (-1) = if data = [] then none else some (data.length - 1) := by
  unfold npRow
  rcases data with _ | ⟨a, l⟩
  · simp
  · simp only [Int.reduceNeg, List.length_cons, Nat.cast_add, Nat.cast_one, reduceCtorEq, if_false]
    rw [if_neg (by omega), if_pos (by omega)]
    simp

theorem npRow_nat {α : Type} (data : List α) (k : ℕ) :
    npRow data (k : ℤ) = if k < data.length then some k else none := by
  unfold npRow
  rw [if_pos (by omega)]
  simp

/-- What success of `xmap_from_hough_indexing_data()` tells. -/
theorem xmapFromHough_ok [Semiring K] {data : List (List (HoughEntry K))} {n : ℕ} {ids : List ℤ}
    {i : ℤ} {nav : Option (List ℕ)} {steps : Option (List K)} {unit : String}
    {out : HoughMap K × List (List (HoughEntry K))}
    (h : xmapFromHough data n ids i nav steps unit = .ok out) :
    ∃ coords j, coordinateArrays (nav.getD [n]) steps = .ok coords ∧ (i = -1 ∨ i ∈ ids) ∧
      npRow data i = some j ∧
      out = (houghMapOf (clearNotIndexed (data.getD j [])) coords ids unit,
        data.set j (clearNotIndexed (data.getD j []))) := by
  unfold xmapFromHough at h
  split at h
  · simp at h
  · split at h
    · simp at h
    · rename_i coords hc
      split at h
      · simp at h
      · rename_i hi
        split at h
        · simp at h
        · rename_i j hj
          refine ⟨coords, j, hc, ?_, hj, ?_⟩
          · by_cases h1 : i = -1
            · exact Or.inl h1
            · right
              by_contra h2
              exact hi ⟨h1, h2⟩
          · simpa using h.symm

theorem coordinateArrays_two [Semiring K] (ny nx : ℕ) (dy dx : K) :
    coordinateArrays [ny, nx] (some [dy, dx]) =
      .ok ((List.range (ny * nx)).map fun (i : ℕ) => ((i % nx : ℕ) : K) * dx,
        some ((List.range (ny * nx)).map fun (i : ℕ) => ((i / nx : ℕ) : K) * dy)) := rfl

theorem flat_lt {ny nx r c : ℕ} (hr : r < ny) (hc : c < nx) : r * nx + c < ny * nx := by
  have h1 : (r + 1) * nx ≤ ny * nx := Nat.mul_le_mul_right nx hr
  have h2 : (r + 1) * nx = r * nx + nx := by ring
  omega

theorem flat_mod {nx r c : ℕ} (hc : c < nx) : (r * nx + c) % nx = c := by
  rw [Nat.mul_comm, Nat.mul_add_mod, Nat.mod_eq_of_lt hc]

theorem flat_div {nx r c : ℕ} (hc : c < nx) : (r * nx + c) / nx = r := by
  rw [Nat.mul_comm, Nat.mul_add_div (by omega), Nat.div_eq_of_lt hc, Nat.add_zero]

theorem clearNotIndexed_idem [Zero K] [One K] (row : List (HoughEntry K)) :
    clearNotIndexed (clearNotIndexed row) = clearNotIndexed row := by
  unfold clearNotIndexed
  rw [List.map_map]
  apply List.map_congr_left
  intro e _
  simp only [Function.comp]
  split_ifs <;> simp_all

theorem getD_of_lt {α : Type} {l : List α} {j : ℕ} (h : j < l.length) (d : α) :
    l[j]? = some (l.getD j d) := by
  simp [List.getElem?_eq_getElem h]

/-- The phases made for PyEBSDIndex, one by one. -/
theorem peiPhases_get (uniq : OrixPhase K → List Hkl → List Hkl)
    (l : List (OrixPhase K × RefItem)) (ps : List (PeiPhase K)) (h : peiPhases uniq l = .ok ps) :
    ps.length = l.length ∧ ∀ (k : ℕ) (p : OrixPhase K) (r : RefItem), l[k]? = some (p, r) →
      ∃ sg, p.spaceGroup = some sg ∧
        ps[k]? = some ⟨p.name, sg, p.lattice, poleFamiliesOf uniq p r⟩ := by
  induction l generalizing ps with
  | nil =>
    simp only [peiPhases, Except.ok.injEq] at h
    subst h
    simp
  | cons a l ih =>
    obtain ⟨p, r⟩ := a
    unfold peiPhases at h
    split at h
    · simp at h
    · rename_i sg hsg
      split at h
      · simp at h
      · rename_i qs hqs
        simp only [Except.ok.injEq] at h
        subst h
        obtain ⟨hl, hg⟩ := ih qs hqs
        refine ⟨by simp [hl], ?_⟩
        intro k p' r' hk
        rcases k with _ | k
        · simp only [List.getElem?_cons_zero, Option.some.injEq, Prod.mk.injEq] at hk
          obtain ⟨rfl, rfl⟩ := hk
          exact ⟨sg, hsg, by simp⟩
        · simp only [List.getElem?_cons_succ] at hk ⊢
          exact hg k p' r' hk

theorem peiPhases_ok (uniq : OrixPhase K → List Hkl → List Hkl)
    (l : List (OrixPhase K × RefItem)) (h : ∀ a ∈ l, a.1.spaceGroup ≠ none) :
    ∃ ps, peiPhases uniq l = .ok ps := by
  induction l with
  | nil => exact ⟨[], rfl⟩
  | cons a l ih =>
    obtain ⟨p, r⟩ := a
    obtain ⟨ps, hps⟩ := ih fun b hb => h b (List.mem_cons_of_mem _ hb)
    have := h (p, r) List.mem_cons_self
    rcases hsg : p.spaceGroup with _ | sg
    · exact absurd hsg this
    · exact ⟨⟨p.name, sg, p.lattice, poleFamiliesOf uniq p r⟩ :: ps, by
        simp [peiPhases, hsg, hps]⟩

section
variable [Field K] [LinearOrder K] [IsStrictOrderedRing K]

theorem closeLattice_refl (a : K) : closeLattice a a := by
  unfold closeLattice
  rw [sub_self, abs_zero]
  have := abs_nonneg a
  positivity

theorem zip_self_mem {α : Type} (l : List α) (ab : α × α) (h : ab ∈ l.zip l) : ab.1 = ab.2 := by
  induction l with
  | nil => simp at h
  | cons a l ih =>
    simp only [List.zip_cons_cons, List.mem_cons] at h
    rcases h with rfl | h
    · rfl
    · exact ih h

/-- When phases are found compatible. -/
theorem phasesError_none (l : List (OrixPhase K × PeiPhase K)) :
    phasesError l = none ↔ ∀ a ∈ l, a.1.spaceGroup = some a.2.spaceGroup ∧
      ∀ ab ∈ a.1.lattice.zip a.2.lattice, closeLattice ab.1 ab.2 := by
  induction l with
  | nil => simp [phasesError]
  | cons a l ih =>
    obtain ⟨p, q⟩ := a
    rw [List.forall_mem_cons, ← ih]
    rw [phasesError]
    rcases hsg : p.spaceGroup with _ | sg
    · simp
    · simp only [Option.some.injEq]
      by_cases h1 : ∀ ab ∈ p.lattice.zip q.lattice, closeLattice ab.1 ab.2
      · rw [if_neg (not_not.mpr h1)]
        by_cases h2 : sg = q.spaceGroup
        · rw [if_neg (not_not.mpr h2)]
          exact ⟨fun h => ⟨⟨h2, h1⟩, h⟩, fun h => h.2⟩
        · rw [if_pos h2]
          simp only [reduceCtorEq, false_iff]
          intro h
          exact h2 h.1.1
      · rw [if_pos h1]
        simp only [reduceCtorEq, false_iff]
        intro h
        exact h1 h.1.2

theorem phaseListsError_none (phases : List (OrixPhase K)) (pei : List (PeiPhase K)) :
    phaseListsError phases pei = none ↔ phases.length = pei.length ∧
      ∀ (k : ℕ) (p : OrixPhase K) (q : PeiPhase K), phases[k]? = some p → pei[k]? = some q →
        p.spaceGroup = some q.spaceGroup ∧
          ∀ ab ∈ p.lattice.zip q.lattice, closeLattice ab.1 ab.2 := by
  unfold phaseListsError
  split_ifs with h
  · simp only [false_iff]
    intro h'
    exact h h'.1
  · push Not at h
    rw [phasesError_none]
    constructor
    · intro h'
      refine ⟨h, ?_⟩
      intro k p q hp hq
      refine h' (p, q) ?_
      apply List.mem_of_getElem? (i := k)
      rw [List.getElem?_zip_eq_some]
      exact ⟨hp, hq⟩
    · rintro ⟨-, h'⟩ ⟨p, q⟩ ha
      obtain ⟨k, hk⟩ := List.getElem?_of_mem ha
      rw [List.getElem?_zip_eq_some] at hk
      exact h' k p q hk.1 hk.2

end

end Kp
