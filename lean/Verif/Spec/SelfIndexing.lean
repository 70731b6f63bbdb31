import Verif.Model.IndexingCalls
import Mathlib.Data.Real.Basic

/-
What it means that two patterns are the same up to gain and offset.
-/

namespace Kp.Spec

/-- Pixel `k` is used, that is, not masked out. -/
def Used (mask : Option BoolArray) (k : ℕ) : Prop := ∀ m, mask = some m → m.data[k]? = some false

/-- In the pixels used, `b` is `a` with another gain and offset. -/
def SameUpTo (mask : Option BoolArray) (a b : List ℝ) : Prop :=
  ∃ gain offset : ℝ, 0 < gain ∧ ∀ k x y, Used mask k → a[k]? = some x → b[k]? = some y →
    y = gain * x + offset

/-- In the pixels used, `b` is `a` with another gain. -/
def ScaledTo (mask : Option BoolArray) (a b : List ℝ) : Prop :=
  ∃ gain : ℝ, 0 < gain ∧ ∀ k x y, Used mask k → a[k]? = some x → b[k]? = some y → y = gain * x

/-- Not all pixels used are equal. -/
def ShowsContrast (mask : Option BoolArray) (a : List ℝ) : Prop :=
  ∃ k l x y, Used mask k ∧ Used mask l ∧ a[k]? = some x ∧ a[l]? = some y ∧ x ≠ y

/-- Not all pixels used are zero. -/
def ShowsIntensity (mask : Option BoolArray) (a : List ℝ) : Prop :=
  ∃ k x, Used mask k ∧ a[k]? = some x ∧ x ≠ 0

end Kp.Spec
