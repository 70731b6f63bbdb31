import Verif.Model.Base
import Mathlib.Analysis.Real.Sqrt
import Mathlib.Algebra.BigOperators.Field

/-
Model of intensity normalization (`pattern/_pattern.py`) and of the normalized
cross-correlation and normalized dot product (`indexing/similarity_metrics`).

A pattern is a function from its pixels (any finite type) to real numbers: no rounding.
-/

namespace Kp

open Finset

section
variable {ι : Type*} [Fintype ι]

/-- `np.mean`. -/
noncomputable def mean (p : ι → ℝ) : ℝ := (∑ i, p i) / Fintype.card ι

/-- `np.std` (population standard deviation). -/
noncomputable def std (p : ι → ℝ) : ℝ :=
  Real.sqrt ((∑ i, (p i - mean p) ^ 2) / Fintype.card ι)

/-- `_normalize_intensity` (`pattern/_pattern.py` L198-210), float output. -/
noncomputable def normalizeIntensity (numStd : ℝ) (divideBySquareRoot : Bool) (p : ι → ℝ) :
    ι → ℝ := fun i =>
  if divideBySquareRoot then (p i - mean p) / (numStd * std p * Real.sqrt (Fintype.card ι))
  else (p i - mean p) / (numStd * std p)

/-- Pixels kept by a signal mask (`_mask_patterns`,
`_normalized_cross_correlation.py` L185-188): those where it is `False`. -/
abbrev Kept (mask : ι → Bool) := {i : ι // mask i = false}

/-- Restriction of a pattern to the kept pixels. -/
def maskPattern (mask : ι → Bool) (p : ι → ℝ) : Kept mask → ℝ := fun i => p i

/-- `_zero_mean_normalize_patterns_numpy` and `_dask`
(`_normalized_cross_correlation.py` L228-241). -/
noncomputable def zeroMeanNormalize (p : ι → ℝ) : ι → ℝ := fun i =>
  (p i - mean p) / Real.sqrt (∑ j, (p j - mean p) ^ 2)

/-- `_normalize_patterns` (`_normalized_dot_product.py` L181-195). -/
noncomputable def normalizePattern (p : ι → ℝ) : ι → ℝ := fun i =>
  p i / Real.sqrt (∑ j, p j ^ 2)

/-- `einsum("ik,mk->im")` for one experimental and one dictionary pattern (`match` in both
metrics). -/
def dotPatterns (a b : ι → ℝ) : ℝ := ∑ i, a i * b i

/-- `NormalizedCrossCorrelationMetric.__call__` for one pair of patterns: prepare (mask,
zero-mean normalize) both and match (`_normalized_cross_correlation.py` L82-183). -/
noncomputable def ncc (mask : ι → Bool) (a b : ι → ℝ) : ℝ :=
  dotPatterns (zeroMeanNormalize (maskPattern mask a)) (zeroMeanNormalize (maskPattern mask b))

/-- `NormalizedDotProductMetric.__call__` for one pair of patterns
(`_normalized_dot_product.py` L74-174). -/
noncomputable def ndp (mask : ι → Bool) (a b : ι → ℝ) : ℝ :=
  dotPatterns (normalizePattern (maskPattern mask a)) (normalizePattern (maskPattern mask b))

/-- `_ncc_single_patterns_1d_float32_exp_centered` (`_normalized_cross_correlation.py`
L200-225): the score used in refinement, with the experimental pattern already centered and
its squared norm given. -/
noncomputable def nccSingle (exp sim : ι → ℝ) (expSquaredNorm : ℝ) : ℝ :=
  (∑ i, exp i * (sim i - mean sim)) /
    Real.sqrt (expSquaredNorm * ∑ i, (sim i - mean sim) ^ 2)

end

end Kp
