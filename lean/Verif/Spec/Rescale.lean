import Verif.Model.Base
import Mathlib.Algebra.Order.Field.Basic
import Mathlib.Order.Monotone.Basic

/-
What intensity rescaling and background removal should do to pixel values.
-/

namespace Kp

section
variable {K : Type*} [Field K] [LinearOrder K]

/-- `out` takes both limits of the range and nothing outside. -/
def FillsRange (lo hi : K) (out : List K) : Prop :=
  lo ∈ out ∧ hi ∈ out ∧ ∀ x ∈ out, lo ≤ x ∧ x ≤ hi

/-- `f` maps the range `[imin, imax]` to `[omin, omax]`, clips outside, and keeps the order. -/
structure RangeMap (imin imax omin omax : K) (f : K → K) : Prop where
  below : ∀ x, x ≤ imin → f x = omin
  above : ∀ x, imax ≤ x → f x = omax
  within : ∀ x, omin ≤ f x ∧ f x ≤ omax
  mono : Monotone f

/-- Pixels of `out` are ordered as those of `ref`. -/
def OrderKept (ref out : List K) : Prop :=
  out.length = ref.length ∧ ∀ (i j : ℕ) (x y x' y' : K), ref[i]? = some x → ref[j]? = some y →
    out[i]? = some x' → out[j]? = some y' → x ≤ y → x' ≤ y'

end
end Kp
