/-
Lemmas on rounding to the nearest integer, halves to even.
-/
import Verif.Model.ExtrapolatePc
import Mathlib.Algebra.Order.Floor.Ring
import Mathlib.Tactic.Linarith
import Mathlib.Tactic.Ring

set_option linter.unusedSectionVars false

namespace Kp

variable {K : Type*} [Field K] [LinearOrder K] [IsStrictOrderedRing K] [FloorRing K]

omit [IsStrictOrderedRing K] in
theorem npRound_int [IsStrictOrderedRing K] (n : ℤ) : npRound (n : K) = n := by
  simp [npRound]

/-- Rounding moves a number by at most one half. -/
theorem npRound_close (x : K) : |(npRound x : K) - x| ≤ 1 / 2 := by
  have h1 := Int.floor_le x
  have h2 := Int.lt_floor_add_one x
  unfold npRound
  simp only
  split
  · rw [abs_le]; constructor <;> linarith
  · split
    · push_cast; rw [abs_le]; constructor <;> linarith
    · split
      · rw [abs_le]; constructor <;> linarith
      · push_cast; rw [abs_le]; constructor <;> linarith

/-- Rounding commutes with adding an integer unless the number is half-way between integers. -/
theorem npRound_add_int {x : K} (h : x - ⌊x⌋ ≠ 1 / 2) (m : ℤ) :
    npRound (x + m) = npRound x + m := by
  unfold npRound
  simp only [Int.floor_add_intCast, Int.cast_add]
  rw [show x + (m : K) - ((⌊x⌋ : K) + (m : K)) = x - ⌊x⌋ by ring]
  rcases lt_or_gt_of_ne h with h | h
  · simp only [h, if_true]
  · have h' : ¬ x - ⌊x⌋ < 1 / 2 := not_lt.mpr h.le
    simp only [h, h', if_true, if_false]
    ring

/-- Rounding is between the floor and the floor plus one. -/
theorem npRound_bounds (x : K) : ⌊x⌋ ≤ npRound x ∧ npRound x ≤ ⌊x⌋ + 1 := by
  unfold npRound
  simp only
  split
  · omega
  · split
    · omega
    · split <;> omega

/-- Rounding is monotone. -/
theorem npRound_mono {x y : K} (h : x ≤ y) : npRound x ≤ npRound y := by
  rcases lt_or_eq_of_le (Int.floor_le_floor h) with hf | hf
  · have h1 := (npRound_bounds x).2
    have h2 := (npRound_bounds y).1
    omega
  · have hf' : (⌊x⌋ : K) = ⌊y⌋ := by rw [hf]
    unfold npRound
    simp only [hf]
    split_ifs with a b c d e f g <;> first | omega | (exfalso; linarith)

end Kp
