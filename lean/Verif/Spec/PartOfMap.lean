import Verif.Model.Base
import Mathlib.Data.List.Basic
import Mathlib.Data.Int.Notation

/-
Specification of C124: operations on patterns and parts of the map.
-/

namespace Kp.Spec

/-- The patterns with the given indices, in this order. -/
def pick {P : Type} (idx : List ℕ) (ps : List P) : List P := idx.filterMap (fun k => ps[k]?)

/-- An operation on the patterns of a signal treats them one by one: processing any selection of the
patterns (a part of the map, in any order, with or without repetition) gives the same selection of
the processed patterns, and it can only fail because it fails on one of the patterns alone. -/
structure PatternByPattern {P Q : Type} (op : List P → Except Err (List Q)) : Prop where
  part : ∀ ps qs, op ps = .ok qs → qs.length = ps.length ∧
    ∀ idx : List ℕ, (∀ k ∈ idx, k < ps.length) → op (pick idx ps) = .ok (pick idx qs)
  fails : ∀ ps e, ps ≠ [] → op ps = .error e → ∃ p ∈ ps, op [p] = .error e

/-- A window of shape `(wr, wc)` placed on the point `(r, c)` of a map of `rows × cols` points has
all its points, of those in the map, in the part of rows `r0, …, r1 - 1` and columns
`c0, …, c1 - 1`. -/
def WindowInPart (rows cols wr wc r0 r1 c0 c1 r c : ℕ) : Prop :=
  ∀ i j : ℕ, i < wr → j < wc →
    let y : ℤ := (r : ℤ) + i - (wr / 2 : ℕ)
    let x : ℤ := (c : ℤ) + j - (wc / 2 : ℕ)
    0 ≤ y → y < rows → 0 ≤ x → x < cols → r0 ≤ y ∧ y < r1 ∧ c0 ≤ x ∧ x < c1

end Kp.Spec
