import Verif.Spec.Neighbours

/-
Specification of C144: maps scanned from another corner, or along the other axis first, and windows
which look the same from there.
-/

namespace Kp.Spec

section
variable {V : Type*}

/-- The map with its rows from the last to the first. -/
def upsideDown (a : Img V) : Img V := { a with val := fun r c => a.val (a.rows - 1 - r) c }

/-- The map with its columns from the last to the first. -/
def leftRight (a : Img V) : Img V := { a with val := fun r c => a.val r (a.cols - 1 - c) }

/-- The map with rows and columns exchanged. -/
def rowsAsColumns (a : Img V) : Img V :=
  { rows := a.cols, cols := a.rows, val := fun r c => a.val c r }

/-- A window with an odd number of rows which is the same upside down. -/
def SameUpsideDown (w : Img V) : Prop :=
  w.rows % 2 = 1 ∧ ∀ i j, i < w.rows → j < w.cols → w.val (w.rows - 1 - i) j = w.val i j

/-- A window with an odd number of columns which is the same from left to right. -/
def SameLeftRight (w : Img V) : Prop :=
  w.cols % 2 = 1 ∧ ∀ i j, i < w.rows → j < w.cols → w.val i (w.cols - 1 - j) = w.val i j

/-- A window with odd numbers of rows and columns which is the same after half a turn. -/
def SameAfterHalfTurn (w : Img V) : Prop :=
  w.rows % 2 = 1 ∧ w.cols % 2 = 1 ∧
    ∀ i j, i < w.rows → j < w.cols → w.val (w.rows - 1 - i) (w.cols - 1 - j) = w.val i j

end

end Kp.Spec
