import Verif.Model.FloatLambert
import Mathlib.Order.Bounds.Basic

/-! Terms used in the statement of C160. -/

namespace Kp.Spec
noncomputable section

/-- All operations of rescaling are in 64-bit floating point numbers. -/
structure DoubleOperations (F : Formats ℝ) : Prop where
  sub : ∀ x, F.sub.fl x = fl64 x
  div : ∀ x, F.div.fl x = fl64 x
  mul : ∀ x, F.mul.fl x = fl64 x
  add : ∀ x, F.add.fl x = fl64 x

/-- Numbers of ordinary size. -/
def OrdinarySize (w : ℝ) : Prop := 1 / 2 ^ 30 ≤ w ∧ w ≤ 2 ^ 60

/-- The exact linear map from the range from `lo` to `hi` to the range from `omin` to `omax`. -/
def rescaledTo (lo hi omin omax x : ℝ) : ℝ := omin + (x - lo) / (hi - lo) * (omax - omin)

/-- `lo` is the smallest and `hi` the largest value of a list. -/
def IsRangeOf (lo hi : ℝ) (l : List ℝ) : Prop := IsLeast {x | x ∈ l} lo ∧ IsGreatest {x | x ∈ l} hi

end
end Kp.Spec
