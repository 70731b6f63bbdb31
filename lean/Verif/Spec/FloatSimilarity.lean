import Verif.Model.FloatSimilarity

/-
What the theorems on similarity scores in floating point arithmetic refer to.
-/

namespace Kp
namespace Spec
noncomputable section

/-- The largest relative error of one operation: `2⁻²⁴` for float32 and `2⁻⁵³` for float64. -/
def unitRoundoff (t : MetricType) : ℝ := 2 ^ (-(t.digits : ℤ))

/-- Every pixel is added, and only once. -/
def AddsEveryPixelOnce {ι : Type*} [Fintype ι] (s : SumOrder ι) : Prop :=
  s.pixels.Perm Finset.univ.toList

/-- Length of a pattern as a vector. -/
def patternNorm {ι : Type*} [Fintype ι] (p : ι → ℝ) : ℝ := Real.sqrt (∑ i, p i ^ 2)

/-- The part of a pattern which varies. -/
def variation {ι : Type*} [Fintype ι] (p : ι → ℝ) : ι → ℝ :=
  fun i => p i - (∑ j, p j) / Fintype.card ι

/-- How much longer a pattern is than the part of it that varies: large for a pattern of low
contrast. -/
def flatness {ι : Type*} [Fintype ι] (p : ι → ℝ) : ℝ :=
  patternNorm p / patternNorm (variation p)

/-- The number of pixels which are not masked out. -/
def nKept {ι : Type*} [Fintype ι] (mask : ι → Bool) : ℕ := Fintype.card (Kept mask)

end
end Spec
end Kp
