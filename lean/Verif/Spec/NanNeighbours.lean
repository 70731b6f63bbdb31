import Verif.Model.Neighbours
import Mathlib.Analysis.Real.Sqrt

/-
What the average neighbour dot product map shows, on the whole map.
-/

namespace Kp.Spec

section
variable {ι : Type*} [Fintype ι]

/-- Mean intensity. -/
noncomputable def meanOf (p : ι → ℝ) : ℝ := (∑ i, p i) / Fintype.card ι

/-- The pattern has two different pixels. -/
def NotFlat (p : ι → ℝ) : Prop := ∃ i j, p i ≠ p j

/-- Correlation coefficient of two patterns. -/
noncomputable def corrCoef (p q : ι → ℝ) : ℝ :=
  (∑ i, (p i - meanOf p) * (q i - meanOf q)) /
    (Real.sqrt (∑ i, (p i - meanOf p) ^ 2) * Real.sqrt (∑ i, (q i - meanOf q) ^ 2))

end

/-- The values in the map under the `True` coefficients of the window placed on `(r, c)`, without the
one under its origin. -/
def neighboursOf {V : Type*} (map : Img V) (w : Img Bool) (r c : ℕ) : List V :=
  (flatPositions w.rows w.cols).filterMap (fun ij =>
    let y : ℤ := (r : ℤ) + ij.1 - (w.rows / 2 : ℕ)
    let x : ℤ := (c : ℤ) + ij.2 - (w.cols / 2 : ℕ)
    if ij ≠ (w.rows / 2, w.cols / 2) ∧ w.val ij.1 ij.2 = true ∧ 0 ≤ y ∧ y < map.rows ∧ 0 ≤ x ∧
        x < map.cols then
      some (map.val y.toNat x.toNat)
    else none)

open Classical in
/-- Mean correlation of the pattern in `(r, c)` with its neighbours that have contrast: missing if
the pattern has no contrast or no such neighbour. -/
noncomputable def averageCorrelation {ι : Type*} [Fintype ι] (map : Img (ι → ℝ)) (w : Img Bool)
    (r c : ℕ) : Option ℝ :=
  let l := (neighboursOf map w r c).filter (fun q => NotFlat q)
  if NotFlat (map.val r c) ∧ l ≠ [] then
    some ((l.map (fun q => corrCoef q (map.val r c))).sum / l.length)
  else none

/-- Correlation of the pattern in `(r, c)` with the one under coefficient `(i, j)` of the window placed
on it: missing without such a neighbour, or if one of the two has no contrast. -/
noncomputable def correlationAt {ι : Type*} [Fintype ι] (map : Img (ι → ℝ)) (w : Img Bool)
    (r c i j : ℕ) : Option ℝ :=
  let y : ℤ := (r : ℤ) + i - (w.rows / 2 : ℕ)
  let x : ℤ := (c : ℤ) + j - (w.cols / 2 : ℕ)
  open Classical in
  if w.val i j = true ∧ 0 ≤ y ∧ y < map.rows ∧ 0 ≤ x ∧ x < map.cols ∧
      NotFlat (map.val y.toNat x.toNat) ∧ NotFlat (map.val r c) then
    some (corrCoef (map.val y.toNat x.toNat) (map.val r c))
  else none

end Kp.Spec
