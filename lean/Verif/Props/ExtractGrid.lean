import Verif.Model.ExtractGrid
import Verif.Lemmas.RefinementMaps
import Verif.Props.EbsdDirectory
import Mathlib.Algebra.Order.Ring.Rat
import Mathlib.Tactic.Linarith
import Mathlib.Tactic.Ring
import Mathlib.Tactic.NormNum
import Mathlib.Tactic.FieldSimp

/-
C51: Extracted grids are evenly spaced and consistent.
C72: Patterns of an extracted grid keep their navigation coordinates.
-/

namespace Kp

set_option linter.unusedSectionVars false

/-- Spacing of grid points: the size of the map divided by the number of points plus one, rounded up. -/
def Spec.spacing (g n : ℕ) : ℕ := (n + g) / (g + 1)

theorem gridSpacing_eq : gridSpacing = Spec.spacing := rfl

/-- The number of grid points returned along a dimension. -/
def Spec.gridCount (g n : ℕ) : ℕ := (n + Spec.spacing g n - 1) / Spec.spacing g n - 1

theorem stridedTail_eq (n s : ℕ) : stridedTail n s
    = (List.range ((n + s - 1) / s - 1)).map fun i => (i + 1) * s := by
  unfold stridedTail
  cases h : (n + s - 1) / s with
  | zero => rfl
  | succ m =>
    rw [List.range_succ_eq_map, Nat.add_sub_cancel]
    simp [List.map_map, Function.comp_def]

/-- The spacing is the smallest integer at least `n / (g + 1)`. -/
theorem spacing_spec (g n : ℕ) :
    n ≤ (g + 1) * Spec.spacing g n ∧ ∀ t, n ≤ (g + 1) * t → Spec.spacing g n ≤ t := by
  unfold Spec.spacing
  have hd := Nat.div_add_mod (n + g) (g + 1)
  have hm := Nat.mod_lt (n + g) (by omega : 0 < g + 1)
  constructor
  · omega
  · intro t ht
    apply Nat.le_of_lt_succ
    apply Nat.div_lt_of_lt_mul
    have : (g + 1) * t.succ = (g + 1) * t + (g + 1) := by rw [Nat.succ_eq_add_one]; ring
    omega

theorem spacing_pos {g n : ℕ} (hn : 0 < n) : 0 < Spec.spacing g n := by
  have := (spacing_spec g n).1
  by_contra h0
  have h0 : Spec.spacing g n = 0 := by omega
  rw [h0] at this; omega

/-- With `m` the number of grid points, the last one is inside the map and the next is not. -/
theorem gridCount_spec {g n : ℕ} (hn : 0 < n) :
    Spec.gridCount g n * Spec.spacing g n < n
    ∧ n ≤ (Spec.gridCount g n + 1) * Spec.spacing g n := by
  have hs := spacing_pos (g := g) hn
  unfold Spec.gridCount
  generalize Spec.spacing g n = s at hs ⊢
  have hd := Nat.div_add_mod (n + s - 1) s
  have hm := Nat.mod_lt (n + s - 1) hs
  have hq : 1 ≤ (n + s - 1) / s := (Nat.one_le_div_iff hs).mpr (by omega)
  generalize (n + s - 1) / s = q at hd hq ⊢
  generalize (n + s - 1) % s = r at hd hm
  obtain ⟨k, rfl⟩ : ∃ k, q = k + 1 := ⟨q - 1, by omega⟩
  have e1 : s * (k + 1) = k * s + s := by ring
  have e2 : (k + 1 - 1 + 1) * s = k * s + s := by simp [Nat.add_mul]
  rw [e2, Nat.add_sub_cancel]
  omega

/-- The number of grid points is at most what was asked for. -/
theorem gridCount_le {g n : ℕ} (hn : 0 < n) : Spec.gridCount g n ≤ g := by
  have h1 := (gridCount_spec (g := g) hn).1
  have h2 := (spacing_spec g n).1
  have hs := spacing_pos (g := g) hn
  by_contra hlt
  have : (g + 1) * Spec.spacing g n ≤ Spec.gridCount g n * Spec.spacing g n :=
    Nat.mul_le_mul_right _ (by omega)
  omega

/-- It is exactly what was asked for in maps larger than the square of it. -/
theorem gridCount_eq {g n : ℕ} (h : g * g < n) : Spec.gridCount g n = g := by
  have hn : 0 < n := by omega
  apply Nat.le_antisymm (gridCount_le hn)
  have h1 := (gridCount_spec (g := g) hn).2
  have hs : (g + 1) * Spec.spacing g n ≤ n + g := by
    unfold Spec.spacing; exact Nat.mul_div_le _ _
  have hs' := spacing_pos (g := g) hn
  generalize Spec.gridCount g n = m at h1 ⊢
  generalize Spec.spacing g n = s at h1 hs hs'
  by_contra hlt
  have h2 : (m + 1) * s ≤ g * s := Nat.mul_le_mul_right _ (by omega)
  have h3 : n ≤ g * s := h1.trans h2
  have h4 : (g + 1) * n ≤ (g + 1) * (g * s) := Nat.mul_le_mul_left _ h3
  have h5 : (g + 1) * (g * s) = g * ((g + 1) * s) := by ring
  have h6 : g * ((g + 1) * s) ≤ g * (n + g) := Nat.mul_le_mul_left _ hs
  have h7 : (g + 1) * n = g * n + n := by ring
  have h8 : g * (n + g) = g * n + g * g := by ring
  omega

/-- Amount subtracted to center a dimension. -/
def Spec.shift (g n : ℕ) : ℕ :=
  (Spec.spacing g n - (n - Spec.gridCount g n * Spec.spacing g n)) / 2

theorem shift_int {g n : ℕ} (hn : 0 < n) :
    (((Spec.spacing g n : ℕ) : ℤ) - ((n : ℤ) - ((Spec.gridCount g n * Spec.spacing g n : ℕ) : ℤ))) / 2
      = (Spec.shift g n : ℤ) := by
  obtain ⟨h1, h2⟩ := gridCount_spec (g := g) hn
  unfold Spec.shift
  have e2 : (Spec.gridCount g n + 1) * Spec.spacing g n
      = Spec.gridCount g n * Spec.spacing g n + Spec.spacing g n := by ring
  rw [e2] at h2
  omega

/-- First index along a dimension. -/
def Spec.gridFirst (g n : ℕ) : ℕ := Spec.spacing g n - Spec.shift g n

/-- All indices along a dimension are inside, and the grid is centered: the distance from the start
to the first index and from the last index to the end differ by at most one. -/
theorem grid_inside {g n : ℕ} (hn : 0 < n) (hm : 0 < Spec.gridCount g n) :
    1 ≤ Spec.gridFirst g n
    ∧ Spec.gridFirst g n + (Spec.gridCount g n - 1) * Spec.spacing g n < n
    ∧ (Spec.gridFirst g n
          = n - (Spec.gridFirst g n + (Spec.gridCount g n - 1) * Spec.spacing g n)
      ∨ Spec.gridFirst g n
          = n - (Spec.gridFirst g n + (Spec.gridCount g n - 1) * Spec.spacing g n) + 1) := by
  obtain ⟨h1, h2⟩ := gridCount_spec (g := g) hn
  have hs := spacing_pos (g := g) hn
  unfold Spec.gridFirst Spec.shift
  generalize Spec.gridCount g n = m at h1 h2 hm ⊢
  generalize Spec.spacing g n = s at h1 h2 hs ⊢
  obtain ⟨k, rfl⟩ : ∃ k, m = k + 1 := ⟨m - 1, by omega⟩
  have e1 : (k + 1) * s = k * s + s := by ring
  have e2 : (k + 1 + 1) * s = k * s + s + s := by ring
  rw [e1] at h1 ⊢
  rw [e2] at h2
  rw [Nat.add_sub_cancel]
  omega

/-- Indices of the grid, from the first index and spacing in each dimension. -/
def Spec.gridPoints (gy gx ny nx : ℕ) : List (List (ℕ × ℕ)) :=
  (List.range (Spec.gridCount gy ny)).map fun i => (List.range (Spec.gridCount gx nx)).map fun j =>
    (Spec.gridFirst gy ny + i * Spec.spacing gy ny, Spec.gridFirst gx nx + j * Spec.spacing gx nx)

theorem head?_map_range {α : Type*} {m : ℕ} (hm : 0 < m) (f : ℕ → α) :
    ((List.range m).map f).head? = some (f 0) := by
  rw [List.head?_eq_getElem?, List.getElem?_map, List.getElem?_range hm]; rfl

theorem getLast?_map_range {α : Type*} {m : ℕ} (hm : 0 < m) (f : ℕ → α) :
    ((List.range m).map f).getLast? = some (f (m - 1)) := by
  rw [List.getLast?_eq_getElem?, List.getElem?_map, List.length_map, List.length_range,
    List.getElem?_range (by omega)]; rfl

theorem gridIndices_eq {gy gx ny nx : ℕ} (hny : 0 < ny) (hnx : 0 < nx)
    (hy : 0 < Spec.gridCount gy ny) (hx : 0 < Spec.gridCount gx nx) :
    gridIndices gy gx ny nx = .ok ((Spec.gridPoints gy gx ny nx).map fun row => row.map fun p =>
        ((p.1 : ℤ), (p.2 : ℤ)), Spec.spacing gy ny, Spec.spacing gx nx) := by
  have hsy := spacing_pos (g := gy) hny
  have hsx := spacing_pos (g := gx) hnx
  obtain ⟨cy, _⟩ := gridCount_spec (g := gy) hny
  obtain ⟨cx, _⟩ := gridCount_spec (g := gx) hnx
  have sy := shift_int (g := gy) hny
  have sx := shift_int (g := gx) hnx
  have uy : Spec.shift gy ny ≤ Spec.spacing gy ny := by unfold Spec.shift; omega
  have ux : Spec.shift gx nx ≤ Spec.spacing gx nx := by unfold Spec.shift; omega
  unfold gridIndices
  rw [gridSpacing_eq, if_neg (by omega)]
  have e : ((stridedTail ny (Spec.spacing gy ny)).map fun r =>
        (stridedTail nx (Spec.spacing gx nx)).map fun c => r * nx + c).map
        (fun row => row.map fun v => (v / nx, v % nx))
      = (List.range (Spec.gridCount gy ny)).map fun i => (List.range (Spec.gridCount gx nx)).map
          fun j => ((i + 1) * Spec.spacing gy ny, (j + 1) * Spec.spacing gx nx) := by
    rw [stridedTail_eq, stridedTail_eq]
    simp only [List.map_map, Function.comp_def]
    apply List.map_congr_left
    intro i _
    apply List.map_congr_left
    intro j hj
    have hj : j < Spec.gridCount gx nx := List.mem_range.mp hj
    have : (j + 1) * Spec.spacing gx nx < nx :=
      lt_of_le_of_lt (Nat.mul_le_mul_right _ (by omega)) cx
    rw [Prod.mk.injEq]
    constructor
    · rw [Nat.add_comm, Nat.add_mul_div_right _ _ hnx, Nat.div_eq_of_lt this, Nat.zero_add]
    · rw [Nat.add_comm, Nat.add_mul_mod_self_right, Nat.mod_eq_of_lt this]
  simp only [e, head?_map_range hy, Option.bind_some, head?_map_range hx, getLast?_map_range hy,
    getLast?_map_range hx, Nat.zero_add, Nat.one_mul,
    Nat.sub_add_cancel (Nat.one_le_iff_ne_zero.mpr (by omega : Spec.gridCount gy ny ≠ 0)),
    Nat.sub_add_cancel (Nat.one_le_iff_ne_zero.mpr (by omega : Spec.gridCount gx nx ≠ 0)), sy, sx]
  congr 2
  unfold Spec.gridPoints Spec.gridFirst
  simp only [List.map_map, Function.comp_def]
  apply List.map_congr_left
  intro i _
  apply List.map_congr_left
  intro j _
  rw [Prod.mk.injEq]
  constructor
  · push_cast [Nat.cast_sub uy]; ring
  · push_cast [Nat.cast_sub ux]; ring

theorem allSome_map {α P : Type} {f : α → Option P} {g : α → P} : ∀ {l : List α},
    (∀ a ∈ l, f a = some (g a)) → allSome (l.map f) = some (l.map g)
  | [], _ => rfl
  | a :: l, h => by
    have ih := allSome_map (f := f) (g := g) fun b hb => h b (List.mem_cons_of_mem _ hb)
    simp [allSome, h a List.mem_cons_self, ih]

theorem selectMask_map_decide {α : Type*} (q : α → Bool) : ∀ (l : List α),
    selectMask (l.map q) l = l.filter q
  | [] => by simp
  | a :: l => by
    have ih := selectMask_map_decide q l
    cases h : q a <;> simp [h, ih]

/-- Selecting by a mask that is true at increasing positions. -/
theorem selectMask_positions {α : Type*} {l : List α} {ps : List ℕ} (hs : ps.Pairwise (· < ·))
    (hb : ∀ p ∈ ps, p < l.length) :
    (selectMask ((List.range l.length).map fun p => decide (p ∈ ps)) l).map some
      = ps.map (l[·]?) := by
  have h1 : (List.range l.length).filter (fun p => decide (p ∈ ps)) = ps := by
    apply List.Perm.eq_of_pairwise (le := (· < ·))
    · intro a b _ _ h h'; omega
    · exact (List.pairwise_lt_range).filter _
    · exact hs
    · rw [List.perm_ext_iff_of_nodup (List.nodup_range.filter _) (hs.imp (fun h => Nat.ne_of_lt h))]
      intro a
      simp only [List.mem_filter, List.mem_range, decide_eq_true_eq]
      exact ⟨fun h => h.2, fun h => ⟨hb a h, h⟩⟩
  have h2 : (List.range l.length).map (l[·]?) = l.map some := by
    apply List.ext_getElem
    · simp
    · intro i _ h2
      simp only [List.length_map] at h2
      simp [List.getElem?_eq_getElem h2]
  rw [← selectMask_map, ← h2, selectMask_map, selectMask_map_decide, h1]

/-- Positions of the grid in the row-major array. -/
def Spec.gridFlat (gy gx ny nx : ℕ) : List ℕ :=
  (Spec.gridPoints gy gx ny nx).flatten.map fun p => p.1 * nx + p.2

theorem gridPoints_inside {gy gx ny nx : ℕ} (hny : 0 < ny) (hnx : 0 < nx)
    (hy : 0 < Spec.gridCount gy ny) (hx : 0 < Spec.gridCount gx nx) :
    ∀ p ∈ (Spec.gridPoints gy gx ny nx).flatten, p.1 < ny ∧ p.2 < nx := by
  intro p hp
  unfold Spec.gridPoints at hp
  simp only [List.mem_flatten, List.mem_map, List.mem_range] at hp
  obtain ⟨_, ⟨i, hi, rfl⟩, hp⟩ := hp
  simp only [List.mem_map, List.mem_range] at hp
  obtain ⟨j, hj, rfl⟩ := hp
  constructor
  · refine lt_of_le_of_lt ?_ (grid_inside hny hy).2.1
    exact Nat.add_le_add_left (Nat.mul_le_mul_right _ (by omega)) _
  · refine lt_of_le_of_lt ?_ (grid_inside hnx hx).2.1
    exact Nat.add_le_add_left (Nat.mul_le_mul_right _ (by omega)) _

theorem pairwise_flatMap_range {f : ℕ → ℕ → ℕ} {m n : ℕ}
    (hrow : ∀ i j j', i < m → j < j' → j' < n → f i j < f i j')
    (hcol : ∀ i i' j j', i < i' → i' < m → j < n → j' < n → f i j < f i' j') :
    (((List.range m).map fun i => (List.range n).map fun j => f i j).flatten).Pairwise (· < ·) := by
  rw [List.pairwise_flatten]
  constructor
  · intro l hl
    obtain ⟨i, hi, rfl⟩ := List.mem_map.mp hl
    rw [List.pairwise_map]
    exact (List.pairwise_lt_range).imp_of_mem fun {a b} _ hb hab =>
      hrow i a b (List.mem_range.mp hi) hab (List.mem_range.mp hb)
  · rw [List.pairwise_map]
    refine (List.pairwise_lt_range).imp_of_mem fun {a b} _ hb hab => ?_
    intro x hx y hy
    obtain ⟨j, hj, rfl⟩ := List.mem_map.mp hx
    obtain ⟨j', hj', rfl⟩ := List.mem_map.mp hy
    exact hcol a b j j' hab (List.mem_range.mp hb) (List.mem_range.mp hj) (List.mem_range.mp hj')

theorem gridFlat_sorted {gy gx ny nx : ℕ} (hny : 0 < ny) (hnx : 0 < nx)
    (hx : 0 < Spec.gridCount gx nx) : (Spec.gridFlat gy gx ny nx).Pairwise (· < ·) := by
  have hsy := spacing_pos (g := gy) hny
  have hsx := spacing_pos (g := gx) hnx
  unfold Spec.gridFlat Spec.gridPoints
  rw [List.map_flatten]
  simp only [List.map_map, Function.comp_def]
  have inside := (grid_inside hnx hx).2.1
  apply pairwise_flatMap_range
  · intro i j j' _ hj _
    have : j * Spec.spacing gx nx < j' * Spec.spacing gx nx := Nat.mul_lt_mul_of_pos_right hj hsx
    omega
  · intro i i' j j' hi _ hj hj'
    have h1 : (i + 1) * Spec.spacing gy ny ≤ i' * Spec.spacing gy ny := Nat.mul_le_mul_right _ hi
    have h1' : (i + 1) * Spec.spacing gy ny = i * Spec.spacing gy ny + Spec.spacing gy ny := by ring
    have h2 : j * Spec.spacing gx nx ≤ (Spec.gridCount gx nx - 1) * Spec.spacing gx nx :=
      Nat.mul_le_mul_right _ (by omega)
    generalize i * Spec.spacing gy ny = A at *
    generalize i' * Spec.spacing gy ny = B at *
    have h3 : (Spec.gridFirst gy ny + A + 1) * nx ≤ (Spec.gridFirst gy ny + B) * nx :=
      Nat.mul_le_mul_right _ (by omega)
    have h4 : (Spec.gridFirst gy ny + A + 1) * nx = (Spec.gridFirst gy ny + A) * nx + nx := by ring
    omega

variable {K P X : Type} [Field K] [LinearOrder K] [IsStrictOrderedRing K]

/-- A signal whose patterns, crystal map and (one or as many as patterns) PCs fit its map. -/
structure Spec.GridValid (s : GridSignal K P X) : Prop where
  rows : 0 < s.shape.1
  columns : 0 < s.shape.2
  patterns : s.patterns.length = s.shape.1 * s.shape.2
  xmap : ∀ x, s.xmap = some x → x.length = s.shape.1 * s.shape.2
  pc : s.pcNav = [s.shape.1, s.shape.2] ∧ s.pc.length = s.shape.1 * s.shape.2

theorem gridFlat_lt {gy gx ny nx : ℕ} (hny : 0 < ny) (hnx : 0 < nx)
    (hy : 0 < Spec.gridCount gy ny) (hx : 0 < Spec.gridCount gx nx) :
    ∀ p ∈ Spec.gridFlat gy gx ny nx, p < ny * nx := by
  intro p hp
  obtain ⟨q, hq, rfl⟩ := List.mem_map.mp hp
  obtain ⟨h1, h2⟩ := gridPoints_inside hny hnx hy hx q hq
  calc q.1 * nx + q.2 < q.1 * nx + nx := by omega
    _ = (q.1 + 1) * nx := by ring
    _ ≤ ny * nx := Nat.mul_le_mul_right _ h1

/-- C51 (partial), consistency: for every grid with points in both dimensions, the indices are the
evenly spaced grid points, and patterns, crystal map points and PCs are those at the indices, in
this order. -/
theorem C51_consistent_partial {s : GridSignal K P X} (hs : Spec.GridValid s) {gx gy : ℕ}
    (hgx : gx ≤ s.shape.2) (hgy : gy ≤ s.shape.1)
    (hy : 0 < Spec.gridCount gy s.shape.1) (hx : 0 < Spec.gridCount gx s.shape.2) :
    ∃ r idx, extractGrid s (gx, gy) = .ok (r, idx)
      ∧ idx = ((Spec.gridPoints gy gx s.shape.1 s.shape.2).map fun row => row.map fun p =>
          ((p.1 : ℤ), (p.2 : ℤ)))
      ∧ r.shape = (Spec.gridCount gy s.shape.1, Spec.gridCount gx s.shape.2)
      ∧ r.pcNav = [Spec.gridCount gy s.shape.1, Spec.gridCount gx s.shape.2]
      ∧ r.patterns.map some = (Spec.gridPoints gy gx s.shape.1 s.shape.2).flatten.map
          (fun p => s.patterns[p.1 * s.shape.2 + p.2]?)
      ∧ r.pc.map some = (Spec.gridPoints gy gx s.shape.1 s.shape.2).flatten.map
          (fun p => s.pc[p.1 * s.shape.2 + p.2]?)
      ∧ (∀ x, s.xmap = some x → ∃ x', r.xmap = some x'
          ∧ x'.map some = (Spec.gridPoints gy gx s.shape.1 s.shape.2).flatten.map
              (fun p => x[p.1 * s.shape.2 + p.2]?)) := by
  obtain ⟨⟨ny, nx⟩, patterns, xmap, pcNav, pc, axes⟩ := s
  obtain ⟨hny, hnx, hpat, hxm, hnav, hpc⟩ := hs
  simp only at hny hnx hpat hxm hnav hpc hgx hgy hy hx ⊢
  have hin := gridPoints_inside hny hnx hy hx
  have hlt := gridFlat_lt hny hnx hy hx
  have hflat : allSome (((Spec.gridPoints gy gx ny nx).map fun row => row.map fun p =>
      ((p.1 : ℤ), (p.2 : ℤ))).flatten.map (flatIndex ny nx)) = some (Spec.gridFlat gy gx ny nx) := by
    rw [← List.map_flatten, List.map_map]
    apply allSome_map
    intro p hp
    obtain ⟨h1, h2⟩ := hin p hp
    simp only [Function.comp_apply, flatIndex]
    have e1 : ¬((p.1 : ℤ) < 0) := by omega
    have e2 : ¬((p.2 : ℤ) < 0) := by omega
    simp only [e1, e2, if_false]
    rw [if_pos (by omega)]
    simp
  have lookup : ∀ {α : Type} (l : List α), l.length = ny * nx → ∃ l',
      allSome ((Spec.gridFlat gy gx ny nx).map (l[·]?)) = some l'
      ∧ l'.map some = (Spec.gridFlat gy gx ny nx).map (l[·]?) := by
    intro α l hl
    obtain ⟨d, h1, h2⟩ := allSome_of (l := (Spec.gridFlat gy gx ny nx).map (l[·]?)) (by
      intro k hk
      simp only [List.length_map] at hk
      rw [List.getElem?_map, List.getElem?_eq_getElem hk]
      have := hlt _ (List.getElem_mem hk)
      exact ⟨l[(Spec.gridFlat gy gx ny nx)[k]]'(by omega), by
        rw [Option.map_some, List.getElem?_eq_getElem (by omega)]⟩)
    exact ⟨d, h1, h2.symm⟩
  obtain ⟨pats, hp1, hp2⟩ := lookup patterns hpat
  obtain ⟨pcs, hc1, hc2⟩ := lookup pc hpc
  have hlen : ((Spec.gridPoints gy gx ny nx).map fun row => row.map fun p =>
      ((p.1 : ℤ), (p.2 : ℤ))).length = Spec.gridCount gy ny := by simp [Spec.gridPoints]
  have hlen2 : (((Spec.gridPoints gy gx ny nx).map fun row => row.map fun p =>
      ((p.1 : ℤ), (p.2 : ℤ))).headD []).length = Spec.gridCount gx nx := by
    unfold Spec.gridPoints
    rw [List.headD_eq_head?_getD, List.map_map, head?_map_range hy]
    simp
  unfold extractGrid
  simp only
  rw [if_neg (by omega)]
  simp only [gridIndices_eq hny hnx hy hx, hflat, hp1, hnav, if_true, hc1, Option.map_some, hlen, hlen2]
  refine ⟨_, _, rfl, rfl, rfl, rfl, ?_, ?_, ?_⟩
  · rw [hp2, Spec.gridFlat, List.map_map]; rfl
  · rw [hc2, Spec.gridFlat, List.map_map]; rfl
  · intro x hx'
    refine ⟨_, by rw [hx']; rfl, ?_⟩
    have hl := hxm x hx'
    rw [← hl, selectMask_positions (gridFlat_sorted hny hnx hx) (by rw [hl]; exact hlt),
      Spec.gridFlat, List.map_map]
    rfl

/-- C51 (partial), number and spacing of points: in maps with more points than the square of the grid
size in each dimension, the axes have the size of the data, which is the grid size asked for.  The
spacing is the smallest integer at least the map size divided by the grid size plus one, and the
grid is centered. -/
theorem C51_size_partial {g n : ℕ} (hg : 0 < g) (h : g * g < n) :
    Spec.gridCount g n = g
    ∧ n ≤ (g + 1) * Spec.spacing g n ∧ (∀ t, n ≤ (g + 1) * t → Spec.spacing g n ≤ t)
    ∧ 1 ≤ Spec.gridFirst g n ∧ Spec.gridFirst g n + (g - 1) * Spec.spacing g n < n
    ∧ (Spec.gridFirst g n = n - (Spec.gridFirst g n + (g - 1) * Spec.spacing g n)
      ∨ Spec.gridFirst g n = n - (Spec.gridFirst g n + (g - 1) * Spec.spacing g n) + 1) := by
  have hc := gridCount_eq h
  have hi := grid_inside (g := g) (n := n) (by omega) (by omega)
  rw [hc] at hi
  exact ⟨hc, (spacing_spec g n).1, (spacing_spec g n).2, hi⟩

/-- The axes of the returned signal always have the size asked for. -/
theorem extractGrid_axes {s r : GridSignal K P X} {idx : List (List (ℤ × ℤ))} {gx gy : ℕ}
    (h : extractGrid s (gx, gy) = .ok (r, idx)) :
    r.axes.1.size = gy ∧ r.axes.2.size = gx ∧ r.axes.1.offset = s.axes.1.offset
    ∧ r.axes.2.offset = s.axes.2.offset
    ∧ r.axes.1.scale = Spec.spacing gy s.shape.1 * s.axes.1.scale
    ∧ r.axes.2.scale = Spec.spacing gx s.shape.2 * s.axes.2.scale
    ∧ ∃ sp, gridIndices gy gx s.shape.1 s.shape.2 = .ok (idx, sp) := by
  unfold extractGrid at h
  simp only at h
  split at h
  · cases h
  · split at h
    · cases h
    · rename_i idx' sy sx hi
      have hsp : sy = Spec.spacing gy s.shape.1 ∧ sx = Spec.spacing gx s.shape.2 := by
        unfold gridIndices at hi
        simp only at hi
        split at hi
        · cases hi
        · split at hi
          · injection hi with hi
            simp only [Prod.mk.injEq] at hi
            exact ⟨hi.2.1.symm, hi.2.2.symm⟩
          · cases hi
      split at h
      · cases h
      · split at h
        · cases h
        · split at h
          · cases h
          · injection h with h
            simp only [Prod.mk.injEq] at h
            obtain ⟨rfl, rfl⟩ := h
            exact ⟨rfl, rfl, rfl, rfl, by rw [hsp.1], by rw [hsp.2], _, hi⟩

/-- C51 (partial): the axes have the sizes of the data exactly when all points asked for exist. -/
theorem C51_axes_partial {s : GridSignal K P X} (hs : Spec.GridValid s) {gx gy : ℕ}
    (hgx : 0 < gx) (hgy : 0 < gy) (hy : gy * gy < s.shape.1) (hx : gx * gx < s.shape.2) :
    ∃ r idx, extractGrid s (gx, gy) = .ok (r, idx) ∧ r.shape = (gy, gx)
      ∧ (r.axes.1.size, r.axes.2.size) = r.shape := by
  have h1 : gx ≤ gx * gx := Nat.le_mul_self gx
  have h2 : gy ≤ gy * gy := Nat.le_mul_self gy
  have cy := gridCount_eq hy
  have cx := gridCount_eq hx
  obtain ⟨r, idx, hr, _, hsh, _⟩ := C51_consistent_partial hs (gx := gx) (gy := gy) (by omega)
    (by omega) (by omega) (by omega)
  rw [cy, cx] at hsh
  refine ⟨r, idx, hr, hsh, ?_⟩
  obtain ⟨a1, a2, _⟩ := extractGrid_axes hr
  rw [a1, a2, hsh]

/-- The code does not satisfy C51: a grid with three points in each dimension of a map of three by
three has only two points in each, but axes of size three. -/
theorem C51_not_size :
    extractGrid (K := ℚ) ⟨(3, 3), [0, 1, 2, 10, 11, 12, 20, 21, 22],
      none, [1], [⟨1 / 2, 1 / 2, 1 / 2⟩], (⟨3, 1, 0⟩, ⟨3, 1, 0⟩)⟩ (3, 3)
    = .ok (⟨(2, 2), [11, 12, 21, 22], (none : Option (List ℕ)), [1],
        [⟨1 / 2, 1 / 2, 1 / 2⟩], (⟨3, 1, 0⟩, ⟨3, 1, 0⟩)⟩, [[(1, 1), (1, 2)], [(2, 1), (2, 2)]]) := by
  decide +kernel

/-- The code does not satisfy C51: a grid of the shape of the map never has all its points. -/
theorem C51_not_whole_map {n : ℕ} (hn : 0 < n) : Spec.gridCount n n = n - 1 := by
  have hs : Spec.spacing n n = 1 := by
    have h1 := spacing_pos (g := n) hn
    have h2 := (spacing_spec n n).2 1 (by omega)
    omega
  unfold Spec.gridCount
  rw [hs]
  simp

/-- The code does not satisfy C72: the row coordinate of the first extracted pattern is always
different from its coordinate in the map, since the offset of the axis is not changed. -/
theorem C72_not_coordinates {s : GridSignal K P X} (hs : Spec.GridValid s) {gx gy : ℕ}
    (hscale : 0 < s.axes.1.scale) {r : GridSignal K P X} {idx : List (List (ℤ × ℤ))}
    (h : extractGrid s (gx, gy) = .ok (r, idx)) (hy : 0 < Spec.gridCount gy s.shape.1)
    (hx : 0 < Spec.gridCount gx s.shape.2) :
    ∃ p, idx.head?.bind List.head? = some p
      ∧ r.axes.1.offset + 0 * r.axes.1.scale < s.axes.1.offset + (p.1 : K) * s.axes.1.scale := by
  obtain ⟨_, _, o1, _, _, _, sp, hi⟩ := extractGrid_axes h
  rw [gridIndices_eq hs.rows hs.columns hy hx] at hi
  injection hi with hi
  simp only [Prod.mk.injEq] at hi
  obtain ⟨hi, _⟩ := hi
  have hfirst := (grid_inside hs.rows hy).1
  refine ⟨(Spec.gridFirst gy s.shape.1, Spec.gridFirst gx s.shape.2), ?_, ?_⟩
  · rw [← hi]
    unfold Spec.gridPoints
    rw [List.map_map, head?_map_range hy, Option.bind_some]
    simp only [Function.comp_apply]
    rw [List.map_map, head?_map_range hx]
    simp
  · rw [o1]
    have : (0 : K) < ((Spec.gridFirst gy s.shape.1 : ℕ) : ℤ) * s.axes.1.scale := by
      apply mul_pos _ hscale
      have : (0 : ℤ) < ((Spec.gridFirst gy s.shape.1 : ℕ) : ℤ) := by omega
      exact_mod_cast this
    simp only [zero_mul, add_zero]
    linarith

/-- C72 (partial): differences between coordinates are kept: the coordinates of the points in the
returned signal are shifted by the same amount for all of them. -/
theorem C72_differences_partial {s : GridSignal K P X} (hs : Spec.GridValid s) {gx gy : ℕ}
    {r : GridSignal K P X} {idx : List (List (ℤ × ℤ))}
    (h : extractGrid s (gx, gy) = .ok (r, idx)) (hy : 0 < Spec.gridCount gy s.shape.1)
    (hx : 0 < Spec.gridCount gx s.shape.2) :
    ∃ dy dx : K, ∀ (i j : ℕ) (row : List (ℤ × ℤ)) (p : ℤ × ℤ), idx[i]? = some row → row[j]? = some p →
      s.axes.1.offset + (p.1 : K) * s.axes.1.scale = r.axes.1.offset + (i : K) * r.axes.1.scale + dy
      ∧ s.axes.2.offset + (p.2 : K) * s.axes.2.scale
          = r.axes.2.offset + (j : K) * r.axes.2.scale + dx := by
  obtain ⟨_, _, o1, o2, c1, c2, sp, hi⟩ := extractGrid_axes h
  rw [gridIndices_eq hs.rows hs.columns hy hx] at hi
  injection hi with hi
  simp only [Prod.mk.injEq] at hi
  obtain ⟨hi, _⟩ := hi
  refine ⟨Spec.gridFirst gy s.shape.1 * s.axes.1.scale, Spec.gridFirst gx s.shape.2 * s.axes.2.scale,
    fun i j row p hrow hp => ?_⟩
  rw [← hi] at hrow
  unfold Spec.gridPoints at hrow
  simp only [List.map_map, List.getElem?_map, Option.map_eq_some_iff] at hrow
  obtain ⟨i', hi', rfl⟩ := hrow
  obtain ⟨hil, hie⟩ := List.getElem?_eq_some_iff.mp hi'
  rw [List.getElem_range] at hie
  simp only [Function.comp_apply, List.map_map, List.getElem?_map, Option.map_eq_some_iff] at hp
  obtain ⟨j', hj', rfl⟩ := hp
  obtain ⟨hjl, hje⟩ := List.getElem?_eq_some_iff.mp hj'
  rw [List.getElem_range] at hje
  subst hie hje
  rw [o1, o2, c1, c2]
  simp only
  push_cast
  constructor <;> ring

/-- The hypotheses are met: four columns and three rows of a map with 75 columns and 55 rows. -/
example : 4 * 4 < 75 ∧ 3 * 3 < 55 ∧ Spec.spacing 4 75 = 15 ∧ Spec.gridFirst 4 75 = 15 := by
  decide +kernel

example : Spec.GridValid (K := ℚ) (P := ℕ) (X := ℕ) ⟨(2, 3), [0, 1, 2, 10, 11, 12],
    some [0, 1, 2, 3, 4, 5], [2, 3], List.replicate 6 ⟨1, 2, 3⟩, (⟨2, 1, 0⟩, ⟨3, 1, 0⟩)⟩ :=
  ⟨by decide, by decide, by decide, by rintro x hx; injection hx with hx; subst hx; rfl, rfl, rfl⟩

example : (extractGrid (K := ℚ) (P := ℕ) (X := ℕ) ⟨(2, 3), [0, 1, 2, 10, 11, 12],
    some [0, 1, 2, 3, 4, 5], [2, 3], List.replicate 6 ⟨1, 2, 3⟩, (⟨2, 1, 0⟩, ⟨3, 1, 0⟩)⟩ (1, 1)).toOption
    = some (⟨(1, 1), [12], some [5], [1, 1], [⟨1, 2, 3⟩], (⟨1, 1, 0⟩, ⟨1, 2, 0⟩)⟩, [[(1, 2)]]) := by
  decide +kernel

end Kp
