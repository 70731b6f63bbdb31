import Mathlib.Data.List.Basic
import Verif.Model.Base

/-
NumPy boolean mask indexing of arrays with `n` rows, given as functions of the row.
-/

namespace Kp

/-- Number of selected rows before row `m`. -/
def rank (mask : ℕ → Bool) (m : ℕ) : ℕ := ((List.range m).filter mask).length

/-- `a[mask]`: the selected rows in order. -/
def boolSel {α : Type*} (mask : ℕ → Bool) (n : ℕ) (a : ℕ → α) : List α :=
  ((List.range n).filter mask).map a

/-- `old[mask] = vals`: the selected rows are replaced by the values in order. -/
def boolSet {α : Type*} (mask : ℕ → Bool) (n : ℕ) (old : ℕ → α) (vals : List α) : ℕ → α :=
  fun m => if m < n ∧ mask m then vals.getD (rank mask m) (old m) else old m

end Kp
