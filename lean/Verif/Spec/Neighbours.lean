import Verif.Model.Neighbours

/-
Specification of operations on map neighbours, on the whole map.
-/

namespace Kp.Spec

section
variable {K : Type*} [Field K]

/-- Sum of the window coefficients times the values `f` of the map points under the window
placed on `(r, c)`, over the points inside the map. -/
def neighbourSum (rows cols : ℕ) (w : Img K) (f : ℕ → ℕ → K) (r c : ℕ) : K :=
  ∑ i ∈ Finset.range w.rows, ∑ j ∈ Finset.range w.cols,
    let y : ℤ := (r : ℤ) + i - (w.rows / 2 : ℕ)
    let x : ℤ := (c : ℤ) + j - (w.cols / 2 : ℕ)
    if 0 ≤ y ∧ y < rows ∧ 0 ≤ x ∧ x < cols then w.val i j * f y.toNat x.toNat else 0

/-- Window-weighted mean over the points inside the map. -/
def neighbourMean (rows cols : ℕ) (w : Img K) (f : ℕ → ℕ → K) (r c : ℕ) : K :=
  neighbourSum rows cols w f r c / neighbourSum rows cols w (fun _ _ => 1) r c

end

section
variable {K : Type*}

/-- Dot product of the pattern in `(r, c)` with the pattern under coefficient `(i, j)` of the
window placed on `(r, c)`: missing if the coefficient is zero or the map point does not
exist. -/
def neighbourDot {V : Type*} (dp : V → V → K) (map : Img V) (w : Img Bool) (r c i j : ℕ) :
    Option K :=
  let y : ℤ := (r : ℤ) + i - (w.rows / 2 : ℕ)
  let x : ℤ := (c : ℤ) + j - (w.cols / 2 : ℕ)
  if w.val i j = true ∧ 0 ≤ y ∧ y < map.rows ∧ 0 ≤ x ∧ x < map.cols then
    some (dp (map.val y.toNat x.toNat) (map.val r c))
  else none

/-- Average of the existing dot products, except that of the pattern with itself. -/
def averageDot {V : Type*} [Field K] (dp : V → V → K) (map : Img V) (w : Img Bool) (r c : ℕ) :
    Option K :=
  let dots := (flatPositions w.rows w.cols).filterMap (fun ij =>
    if ij = (w.rows / 2, w.cols / 2) then none else neighbourDot dp map w r c ij.1 ij.2)
  if dots = [] then none else some (dots.sum / dots.length)

end

end Kp.Spec
