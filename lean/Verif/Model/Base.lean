/-
Common definitions of the kikuchipy model: exceptions as values, n-dimensional arrays.
-/

namespace Kp

/-- Python exceptions raised by the modelled code (one constructor per exception type). -/
inductive Err
  | valueError
  | typeError
  | indexError
  | keyError
  | zeroDivision
  | ioError
  | notImplemented
  | attributeError
  | eofError
  deriving DecidableEq, Repr

/-- `Except Err` has decidable equality (used to state results of error branches). -/
instance {α : Type _} [DecidableEq α] : DecidableEq (Except Err α) := fun a b =>
  match a, b with
  | .ok x, .ok y => if h : x = y then isTrue (by rw [h]) else isFalse (by simpa using h)
  | .error x, .error y => if h : x = y then isTrue (by rw [h]) else isFalse (by simpa using h)
  | .ok _, .error _ => isFalse (by simp)
  | .error _, .ok _ => isFalse (by simp)

/-- NumPy array: a shape and a value for every multi-index.  Values at multi-indices
outside the shape are irrelevant. -/
structure NDArr (α : Type _) where
  shape : List Nat
  val : List Nat → α

/-- `i` is a valid multi-index of an array of shape `s`. -/
def ValidIdx : List Nat → List Nat → Prop
  | [], [] => True
  | i :: is, n :: ns => i < n ∧ ValidIdx is ns
  | _, _ => False

/-- Two arrays are equal as NumPy arrays: same shape and same value at every valid index. -/
def NDArr.Eqv {α : Type _} (a b : NDArr α) : Prop :=
  a.shape = b.shape ∧ ∀ i, ValidIdx i a.shape → a.val i = b.val i

/-- Number of elements of an array of the given shape. -/
def shapeSize : List Nat → Nat
  | [] => 1
  | n :: ns => n * shapeSize ns

end Kp
