import Verif.Model.Neighbours
import Mathlib.Algebra.BigOperators.Group.Finset.Basic

/-
Specification of C151: what a map point sees of its neighbours.
-/

namespace Kp.Spec

/-- The map point `(y, x)` is under a window with `wr` rows and `wc` columns placed on `(r, c)`. -/
def UnderWindow (wr wc r c y x : ℕ) : Prop :=
  ∃ i < wr, ∃ j < wc, (y : ℤ) = (r : ℤ) + i - (wr / 2 : ℕ) ∧ (x : ℤ) = (c : ℤ) + j - (wc / 2 : ℕ)

/-- Two maps have the same values under a window placed on `(r, c)`. -/
def SameUnder {V : Type*} (wr wc : ℕ) (map map' : Img V) (r c : ℕ) : Prop :=
  map'.rows = map.rows ∧ map'.cols = map.cols ∧
  ∀ y < map.rows, ∀ x < map.cols, UnderWindow wr wc r c y x → map'.val y x = map.val y x

/-- The sum of the coefficients of a window placed on `(r, c)` which are inside the map. -/
def weightInMap {K : Type*} [Field K] (rows cols wr wc : ℕ) (coeff : ℕ → ℕ → K) (r c : ℕ) : K :=
  ∑ i ∈ Finset.range wr, ∑ j ∈ Finset.range wc,
    let y : ℤ := (r : ℤ) + i - (wr / 2 : ℕ)
    let x : ℤ := (c : ℤ) + j - (wc / 2 : ℕ)
    if 0 ≤ y ∧ y < rows ∧ 0 ≤ x ∧ x < cols then coeff i j else 0

/-- The window has odd axes and is the same turned upside down. -/
def PointSymmetric (w : Img Bool) : Prop :=
  w.rows % 2 = 1 ∧ w.cols % 2 = 1 ∧
  ∀ i < w.rows, ∀ j < w.cols, w.val (w.rows - 1 - i) (w.cols - 1 - j) = w.val i j

end Kp.Spec
