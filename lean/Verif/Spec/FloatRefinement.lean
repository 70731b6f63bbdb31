import Verif.Spec.FloatSimilarity
import Verif.Model.FloatRefinement

/-
What the theorems on scores of refinement in floating point arithmetic refer to.
-/

namespace Kp
namespace Spec
noncomputable section

variable {ι : Type*} [Fintype ι]

/-- The exact normalized cross-correlation coefficient of two patterns. -/
def correlation (a b : ι → ℝ) : ℝ :=
  (∑ i, variation a i * variation b i) / (patternNorm (variation a) * patternNorm (variation b))

/-- Every sum adds every pixel once. -/
def AllPixels (o : RefinementOrders ι) : Prop :=
  AddsEveryPixelOnce o.sumExp ∧ AddsEveryPixelOnce o.normExp ∧ AddsEveryPixelOnce o.sumSim ∧
    AddsEveryPixelOnce o.normSim ∧ AddsEveryPixelOnce o.dot

/-- A pattern which is not so flat that its score means nothing: it varies, and its flatness is not of
the order of one over `n u` for `n` pixels. -/
def HasContrast (p : ι → ℝ) : Prop :=
  3 * unitRoundoff .float32 ≤ patternNorm (variation p) ^ 2 ∧
    (Fintype.card ι + 3) * unitRoundoff .float32 * flatness p ≤ 1 / 9

/-- The error of a score of two patterns. -/
def scoreError (a b : ι → ℝ) : ℝ :=
  4 * (Fintype.card ι + 3) * unitRoundoff .float32 * (flatness a + flatness b)

end
end Spec
end Kp
