/-
Lemmas for C53: tile edges rounded to pixels.
-/
import Verif.Model.VirtualBse
import Verif.Lemmas.NpRound
import Mathlib.Algebra.BigOperators.Intervals
import Mathlib.Tactic.FieldSimp
import Mathlib.Tactic.Positivity
import Mathlib.Tactic.NormNum
import Mathlib.Tactic.LinearCombination
import Mathlib.Algebra.Order.Floor.Semiring

set_option linter.unusedSectionVars false

namespace Kp

variable {K : Type} [Field K] [LinearOrder K] [IsStrictOrderedRing K] [FloorRing K]

/-- Pixel edge `k` of a grid. -/
def pixelEdge (K : Type) [Field K] [LinearOrder K] [FloorRing K] (s g k : ℕ) : ℕ :=
  (npRound ((k : K) * s / g)).toNat

/-- No grid edge is half-way between pixels. -/
def NoHalfEdge (s g : ℕ) : Prop := ∀ k m : ℕ, k ≤ g → 2 * k * s ≠ g * (2 * m + 1)

theorem noHalf_fract {s g k : ℕ} (hg : 0 < g) (hk : k ≤ g) (h : NoHalfEdge s g) :
    ((k : K) * s / g) - ⌊((k : K) * s / g)⌋ ≠ 1 / 2 := by
  intro e
  have hg' : (0 : K) < g := by exact_mod_cast hg
  have h0 : (0 : K) ≤ (k : K) * s / g := by positivity
  obtain ⟨m, hm⟩ := Int.eq_ofNat_of_zero_le (Int.floor_nonneg.2 h0)
  rw [hm] at e
  have e' : (k : K) * s / g = m + 1 / 2 := by
    have : ((m : ℤ) : K) = (m : K) := by simp
    rw [← this]
    linarith
  rw [div_eq_iff hg'.ne'] at e'
  refine h k m hk ?_
  have : (2 : K) * k * s = g * (2 * m + 1) := by
    linear_combination (2 : K) * e'
  exact_mod_cast this

theorem edge_zero (s g : ℕ) : npRound (((0 : ℕ) : K) * s / g) = 0 := by
  have := npRound_int (K := K) 0
  simpa using this

theorem edge_last {s g : ℕ} (hg : 0 < g) : npRound (((g : ℕ) : K) * s / g) = s := by
  have hg' : (g : K) ≠ 0 := by exact_mod_cast hg.ne'
  rw [mul_div_assoc, mul_div_cancel₀ _ hg']
  have := npRound_int (K := K) (s : ℤ)
  simpa using this

theorem edge_succ {s g k : ℕ} (hg : 0 < g) (hs : g ≤ s) (hk : k < g) (h : NoHalfEdge s g) :
    npRound ((k : K) * s / g) + 1 ≤ npRound (((k + 1 : ℕ) : K) * s / g) := by
  have hg' : (0 : K) < g := by exact_mod_cast hg
  have hs' : (g : K) ≤ s := by exact_mod_cast hs
  have h1 := npRound_add_int (noHalf_fract (K := K) hg hk.le h) 1
  rw [← h1]
  apply npRound_mono
  push_cast
  rw [add_mul, add_div, one_mul]
  have : (1 : K) ≤ s / g := by rw [le_div_iff₀ hg']; linarith
  linarith

theorem edge_mono {s g : ℕ} {k l : ℕ} (h : k ≤ l) :
    npRound ((k : K) * s / g) ≤ npRound ((l : K) * s / g) := by
  apply npRound_mono
  have : (k : K) ≤ l := by exact_mod_cast h
  gcongr

theorem edge_nonneg (s g k : ℕ) : 0 ≤ npRound ((k : K) * s / g) := by
  have := edge_mono (K := K) (s := s) (g := g) (Nat.zero_le k)
  rwa [edge_zero] at this

theorem pixelEdge_cast (s g k : ℕ) : ((pixelEdge K s g k : ℕ) : ℤ) = npRound ((k : K) * s / g) :=
  Int.toNat_of_nonneg (edge_nonneg s g k)

theorem pixelEdge_zero (s g : ℕ) : pixelEdge K s g 0 = 0 := by
  have := pixelEdge_cast (K := K) s g 0
  rw [edge_zero] at this
  exact_mod_cast this

theorem pixelEdge_last {s g : ℕ} (hg : 0 < g) : pixelEdge K s g g = s := by
  have := pixelEdge_cast (K := K) s g g
  rw [edge_last hg] at this
  exact_mod_cast this

theorem pixelEdge_mono {s g k l : ℕ} (h : k ≤ l) : pixelEdge K s g k ≤ pixelEdge K s g l := by
  have h1 := pixelEdge_cast (K := K) s g k
  have h2 := pixelEdge_cast (K := K) s g l
  have := edge_mono (K := K) (s := s) (g := g) h
  omega

theorem pixelEdge_succ {s g k : ℕ} (hg : 0 < g) (hs : g ≤ s) (hk : k < g)
    (h : NoHalfEdge s g) : pixelEdge K s g k < pixelEdge K s g (k + 1) := by
  have h1 := pixelEdge_cast (K := K) s g k
  have h2 := pixelEdge_cast (K := K) s g (k + 1)
  have := edge_succ (K := K) hg hs hk h
  omega

theorem gridEdges_get {s g k : ℕ} (hk : k ≤ g) :
    (gridEdges s g : List K)[k]? = some ((k : K) * s / g) := by
  unfold gridEdges
  rw [List.getElem?_map, List.getElem?_range (by omega)]
  rfl

theorem roiSide_tile {s g k l : ℕ} (hg : 0 < g) (hk : k ≤ g) (hl : l ≤ g) (scale : K) :
    roiSide (gridEdges s g) scale k l =
      .ok ((k : K) * s / g * scale, (((l + 1 : ℕ) : K) * s / g) * scale) := by
  unfold roiSide
  rw [gridEdges_get hk, gridEdges_get hl, gridEdges_get (by omega)]
  simp only
  congr 2
  push_cast
  ring

/-- The slice of an axis by a run of tiles, of an axis with offset zero. -/
theorem roiSlice_tiles {s g k l : ℕ} {scale : K} (hsc : 0 < scale) (hg : 0 < g) (hs : g ≤ s)
    (hkl : k ≤ l) (hl : l < g) (h : NoHalfEdge s g) :
    roiSlice ⟨s, scale, 0⟩ ((k : K) * s / g * scale, (((l + 1 : ℕ) : K) * s / g) * scale) =
      .ok (pixelEdge K s g k, pixelEdge K s g (l + 1)) := by
  have e1 : ((k : K) * s / g * scale - 0) / scale = (k : K) * s / g := by
    field_simp; ring
  have e2 : (((l + 1 : ℕ) : K) * s / g * scale - 0) / scale - 1 =
      ((l + 1 : ℕ) : K) * s / g + ((-1 : ℤ) : K) := by
    have : (((l + 1 : ℕ) : K) * s / g * scale - 0) / scale = ((l + 1 : ℕ) : K) * s / g := by
      rw [sub_zero, mul_div_assoc, div_self hsc.ne', mul_one]
    rw [this]; push_cast; ring
  have hr := npRound_add_int (noHalf_fract (K := K) hg (show l + 1 ≤ g by omega) h) (-1)
  have n1 := edge_nonneg (K := K) s g k
  have n2 := edge_succ (K := K) hg hs hl h
  have n3 := edge_mono (K := K) (s := s) (g := g) (show l + 1 ≤ g by omega)
  have n4 := edge_mono (K := K) (s := s) (g := g) hkl
  rw [edge_last hg] at n3
  have c := pixelEdge_cast (K := K) s g (l + 1)
  have c' := pixelEdge_cast (K := K) s g k
  have hlow : roiLow (⟨s, scale, 0⟩ : SigAxis K) ((k : K) * s / g * scale) =
      .ok (pixelEdge K s g k) := by
    unfold roiLow
    simp only [e1]
    rw [if_pos ⟨n1, by omega⟩]
    rfl
  have hhigh : roiHigh (⟨s, scale, 0⟩ : SigAxis K) ((k : K) * s / g * scale)
      (((l + 1 : ℕ) : K) * s / g * scale) = .ok (pixelEdge K s g (l + 1)) := by
    unfold roiHigh
    simp only [e2, hr]
    rw [if_pos ⟨by omega, by omega⟩]
    congr 1
    omega
  unfold roiSlice
  simp only [hlow, hhigh]

theorem mapM_ok {α β : Type} (f : α → Except Err β) (g : α → β) :
    ∀ l : List α, (∀ x ∈ l, f x = .ok (g x)) → l.mapM f = .ok (l.map g)
  | [], _ => rfl
  | a :: l, h => by
    rw [List.mapM_cons, h a (List.mem_cons_self ..),
      mapM_ok f g l fun x hx => h x (List.mem_cons_of_mem _ hx)]
    rfl

theorem sum_tiles {A : Type} [AddCommMonoid A] (e : ℕ → ℕ) (he : ∀ k l, k ≤ l → e k ≤ e l)
    (f : ℕ → A) (n : ℕ) :
    ((List.range n).map fun k => ∑ r ∈ Finset.Ico (e k) (e (k + 1)), f r).sum =
      ∑ r ∈ Finset.Ico (e 0) (e n), f r := by
  induction n with
  | zero => simp
  | succ n ih =>
    rw [List.range_succ, List.map_append, List.sum_append, ih]
    simp [Finset.sum_Ico_consecutive f (he 0 n (Nat.zero_le n)) (he n (n + 1) (Nat.le_succ n))]

theorem exists_unique_tile (e : ℕ → ℕ) (he : ∀ k l, k ≤ l → e k ≤ e l) (n r : ℕ)
    (h0 : e 0 = 0) (hr : r < e n) : ∃! k, k < n ∧ e k ≤ r ∧ r < e (k + 1) := by
  have hex : ∀ m, r < e m → ∃ k, k < m ∧ e k ≤ r ∧ r < e (k + 1) := by
    intro m
    induction m with
    | zero => intro h; omega
    | succ m ih =>
      intro h
      by_cases hm : r < e m
      · obtain ⟨k, hk, h'⟩ := ih hm
        exact ⟨k, by omega, h'⟩
      · exact ⟨m, by omega, by omega, h⟩
  obtain ⟨k, hk⟩ := hex n hr
  refine ⟨k, hk, ?_⟩
  rintro l ⟨hl1, hl2, hl3⟩
  rcases lt_trichotomy l k with h | h | h
  · have := he (l + 1) k h; omega
  · exact h
  · have := he (k + 1) l h; omega

end Kp
