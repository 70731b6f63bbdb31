import Verif.Model.Normalize
import Verif.Model.FloatRescale
import Mathlib.Data.Fintype.BigOperators

/-
Model of the normalized dot product and the normalized cross-correlation
(`src/kikuchipy/indexing/similarity_metrics/_normalized_dot_product.py` and
`_normalized_cross_correlation.py`) in floating point arithmetic: the result of every operation is
rounded to nearest, ties to even.

Sums are evaluated in some order, which depends on NumPy, Dask's chunks and the linear algebra
library (`einsum` with `optimize=True` is a matrix product), and may differ from call to call; it is
a parameter (`SumOrder`). Overflow and NaN are not modelled; patterns for which there is a division by
zero are not of interest. A pattern is a function on its pixels which are not masked out.
-/

namespace Kp
noncomputable section

/-- The data types which the metrics allow (`_normalized_dot_product.py` L45): number of binary digits
and exponent of the smallest positive number. -/
inductive MetricType
  | float32
  | float64
  deriving DecidableEq

/-- Binary digits of a type. -/
def MetricType.digits : MetricType → ℕ
  | .float32 => 24
  | .float64 => 53

/-- Exponent of the smallest positive number of a type. -/
def MetricType.emin : MetricType → ℤ
  | .float32 => -149
  | .float64 => -1074

/-- Rounding to a number of the type. -/
def MetricType.fl (t : MetricType) (x : ℝ) : ℝ := binaryRound t.digits t.emin x

/-- A way to add products of pixels: the rounded product of one pixel, the rounded sum of two such
sums, or a sum and one more product in a fused operation (which rounds once). Starting from zero
changes nothing and is left out. -/
inductive SumOrder (ι : Type*)
  | term (i : ι)
  | plus (l r : SumOrder ι)
  | fused (l : SumOrder ι) (i : ι)

variable {ι : Type*}

/-- The pixels in a sum. -/
def SumOrder.pixels : SumOrder ι → List ι
  | .term i => [i]
  | .plus l r => l.pixels ++ r.pixels
  | .fused l i => l.pixels ++ [i]

/-- The sum of `a i * b i` in this order. -/
def SumOrder.eval (fl : ℝ → ℝ) (a b : ι → ℝ) : SumOrder ι → ℝ
  | .term i => fl (a i * b i)
  | .plus l r => fl (l.eval fl a b + r.eval fl a b)
  | .fused l i => fl (l.eval fl a b + a i * b i)

/-- `_normalize_patterns` (`_normalized_dot_product.py` L181-195), and the last lines of
`_zero_mean_normalize_patterns_numpy` and `_dask` (`_normalized_cross_correlation.py` L231-232,
L239-240), for one pattern. -/
def normalizeFloat (fl : ℝ → ℝ) (norm : SumOrder ι) (p : ι → ℝ) : ι → ℝ := fun i =>
  fl (p i / fl (Real.sqrt (norm.eval fl p p)))

/-- `_normalize_patterns` of both patterns and `match` (`_normalized_dot_product.py` L150-195). -/
def ndpFl (fl : ℝ → ℝ) (normA normB dot : SumOrder ι) (a b : ι → ℝ) : ℝ :=
  dot.eval fl (normalizeFloat fl normA a) (normalizeFloat fl normB b)

variable [Fintype ι]

/-- `np.mean` of one pattern (`_normalized_cross_correlation.py` L229, L237). -/
def meanFloat (fl : ℝ → ℝ) (sum : SumOrder ι) (p : ι → ℝ) : ℝ :=
  fl (sum.eval fl p (fun _ => 1) / Fintype.card ι)

/-- `patterns -= patterns_mean` (`_normalized_cross_correlation.py` L230, L238). -/
def centerFloat (fl : ℝ → ℝ) (sum : SumOrder ι) (p : ι → ℝ) : ι → ℝ := fun i =>
  fl (p i - meanFloat fl sum p)

/-- `_zero_mean_normalize_patterns` of both patterns and `match`
(`_normalized_cross_correlation.py` L159-198, L228-241). -/
def nccFl (fl : ℝ → ℝ) (sumA sumB normA normB dot : SumOrder ι) (a b : ι → ℝ) : ℝ :=
  ndpFl fl normA normB dot (centerFloat fl sumA a) (centerFloat fl sumB b)

end
end Kp
