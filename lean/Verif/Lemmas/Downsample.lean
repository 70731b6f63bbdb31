import Verif.Model.Downsample
import Verif.Lemmas.Rescale
import Mathlib.Algebra.BigOperators.Intervals
import Mathlib.Algebra.BigOperators.Ring.Finset

set_option linter.unusedSectionVars false

namespace Kp
open Finset

section
variable {K : Type*} [Field K] [LinearOrder K] [IsStrictOrderedRing K]

theorem foldl_add_map {α : Type*} (l : List α) (f : α → K) (v : K) :
    l.foldl (fun v c => v + f c) v = v + (l.map f).sum := by
  induction l generalizing v with
  | nil => simp
  | cons a l ih => simp [ih, add_assoc]

theorem sum_pyRange (a b : ℕ) (f : ℕ → K) :
    ((pyRange a b).map f).sum = ∑ k ∈ range (b - a), f (a + k) := by
  unfold pyRange
  rw [List.map_map]
  generalize b - a = n
  induction n with
  | zero => simp
  | succ n ih =>
    rw [List.range_succ, List.map_append, List.sum_append, ih, sum_range_succ]
    simp [Nat.add_comm]

theorem foldl_cols (a : ℕ → ℕ → K) (r nc : ℕ) (g : ℕ → K → K) (i j : ℕ) :
    ((List.range nc).foldl (fun a c => setAt a r c (g c (a r c))) a) i j =
      if i = r ∧ j < nc then g j (a r j) else a i j := by
  induction nc generalizing i j with
  | zero => simp
  | succ n ih =>
    rw [List.range_succ, List.foldl_append]
    simp only [List.foldl_cons, List.foldl_nil, setAt]
    by_cases h : i = r ∧ j = n
    · obtain ⟨rfl, rfl⟩ := h
      rw [if_pos ⟨rfl, rfl⟩, ih, if_neg (by omega), if_pos ⟨rfl, by omega⟩]
    · rw [if_neg h, ih]
      by_cases h2 : i = r ∧ j < n
      · rw [if_pos h2, if_pos ⟨h2.1, by omega⟩]
      · rw [if_neg h2, if_neg]
        rintro ⟨h3, h4⟩
        rcases Nat.lt_or_eq_of_le (Nat.lt_succ_iff.1 h4) with h5 | h5
        · exact h2 ⟨h3, h5⟩
        · exact h ⟨h3, h5⟩

theorem foldl_rows (l : List ℕ) (a : ℕ → ℕ → K) (r nc : ℕ) (s : ℕ → ℕ → K) (i j : ℕ) :
    (l.foldl (fun a rr => (List.range nc).foldl (fun a c => setAt a r c (a r c + s rr c)) a) a)
      i j = if i = r ∧ j < nc then a r j + (l.map (fun rr => s rr j)).sum else a i j := by
  induction l generalizing a i j with
  | nil =>
    by_cases h : i = r ∧ j < nc
    · simp [h]
    · simp [h]
  | cons x l ih =>
    simp only [List.foldl_cons, List.map_cons, List.sum_cons]
    rw [ih]
    have h0 := foldl_cols a r nc (fun c v => v + s x c)
    by_cases h : i = r ∧ j < nc
    · rw [if_pos h, if_pos h, h0, if_pos ⟨rfl, h.2⟩, add_assoc]
    · rw [if_neg h, if_neg h, h0, if_neg h]

theorem bin2d_val (p : Img K) (f r c : ℕ) (hr : r < p.rows / f) (hc : c < p.cols / f) :
    (bin2d p f).val r c = ∑ i ∈ range f, ∑ j ∈ range f, p.val (r * f + i) (c * f + j) := by
  have inner : ∀ (a : ℕ → ℕ → K) (r rr c : ℕ),
      (pyRange (c * f) ((c + 1) * f)).foldl (fun v cc => v + p.val rr cc) (a r c) =
        a r c + ∑ j ∈ range f, p.val rr (c * f + j) := by
    intro a r rr c
    rw [foldl_add_map, sum_pyRange]
    have : (c + 1) * f - c * f = f := by rw [Nat.add_mul]; omega
    rw [this]
  have outer : ∀ (n : ℕ) (i j : ℕ),
      ((List.range n).foldl (fun a r =>
        (pyRange (r * f) ((r + 1) * f)).foldl (fun a rr =>
          (List.range (p.cols / f)).foldl (fun a c =>
            setAt a r c ((pyRange (c * f) ((c + 1) * f)).foldl
              (fun v cc => v + p.val rr cc) (a r c))) a) a) (fun _ _ => (0 : K))) i j =
      if i < n ∧ j < p.cols / f then
        ∑ k ∈ range f, ∑ l ∈ range f, p.val (i * f + k) (j * f + l) else 0 := by
    intro n
    simp only [inner]
    induction n with
    | zero => intro i j; simp
    | succ n ih =>
      intro i j
      rw [List.range_succ, List.foldl_append]
      simp only [List.foldl_cons, List.foldl_nil]
      rw [foldl_rows _ _ _ _ (fun rr c => ∑ l ∈ range f, p.val rr (c * f + l))]
      by_cases h : i = n ∧ j < p.cols / f
      · rw [if_pos h, ih, if_neg (by omega), if_pos ⟨by omega, h.2⟩, sum_pyRange]
        have : (n + 1) * f - n * f = f := by rw [Nat.add_mul]; omega
        rw [this, zero_add, h.1]
      · rw [if_neg h, ih]
        by_cases h2 : i < n ∧ j < p.cols / f
        · rw [if_pos h2, if_pos ⟨by omega, h2.2⟩]
        · rw [if_neg h2, if_neg]
          rintro ⟨h3, h4⟩
          rcases Nat.lt_or_eq_of_le (Nat.lt_succ_iff.1 h3) with h5 | h5
          · exact h2 ⟨h5, h4⟩
          · exact h ⟨h5, h4⟩
  have := outer (p.rows / f) r c
  rw [if_pos ⟨hr, hc⟩] at this
  exact this

/-- A sum over `n * f` consecutive numbers is a sum over `n` blocks of `f`. -/
theorem sum_blocks (n f : ℕ) (g : ℕ → K) :
    ∑ r ∈ range n, ∑ i ∈ range f, g (r * f + i) = ∑ k ∈ range (n * f), g k := by
  induction n with
  | zero => simp
  | succ n ih =>
    rw [sum_range_succ, ih, Nat.add_mul, Nat.one_mul, sum_range_add]

theorem mem_pixels {p : Img K} {x : K} :
    x ∈ p.pixels ↔ ∃ r < p.rows, ∃ c < p.cols, p.val r c = x := by
  simp [Img.pixels, List.mem_flatMap]

end
end Kp
