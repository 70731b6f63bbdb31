import Verif.Model.FloatSimilarity

/-
Model of the score which refinement of orientations and projection centers works with
(`src/kikuchipy/indexing/_refinement/_solvers.py` and `_objective_functions.py`) in floating point
arithmetic: the result of every operation is rounded to nearest, ties to even.

The functions are compiled by Numba with `fastmath=True`, which may sum in any order and fuse
operations: the orders are a parameter (`SumOrder`). Numba divides the sum of 32-bit numbers by the
number of pixels in double precision; whether the mean is then subtracted in single or double precision
is a parameter too (`wide`). Patterns are those after conversion to 32 bits, the mask and the optional
rescaling of the experimental pattern. Overflow and NaN are not modelled, nor approximate reciprocals.
-/

namespace Kp
noncomputable section

variable {ι : Type*} [Fintype ι]

/-- The orders of the five sums behind one score: the mean of each pattern, the square of the length
of each pattern, and the product of both. -/
structure RefinementOrders (ι : Type*) where
  sumExp : SumOrder ι
  normExp : SumOrder ι
  sumSim : SumOrder ι
  normSim : SumOrder ι
  dot : SumOrder ι

/-- `pattern -= np.mean(pattern)` for 32-bit numbers (`pattern/_pattern.py` L138,
`_normalized_cross_correlation.py` L222). -/
def centerWide (wide : MetricType) (sum : SumOrder ι) (p : ι → ℝ) : ι → ℝ := fun i =>
  MetricType.float32.fl
    (wide.fl (p i - wide.fl (sum.eval MetricType.float32.fl p (fun _ => 1) / Fintype.card ι)))

/-- `_zero_mean_sum_square_1d_float32` (`pattern/_pattern.py` L136-139), the last step of
`_prepare_pattern` (`_solvers.py` L51-72): the centered experimental pattern and the square of its
length. -/
def preparePatternFl (wide : MetricType) (sum norm : SumOrder ι) (p : ι → ℝ) : (ι → ℝ) × ℝ :=
  let c := centerWide wide sum p
  (c, norm.eval MetricType.float32.fl c c)

/-- `_ncc_single_patterns_1d_float32_exp_centered` (`_normalized_cross_correlation.py` L200-225). -/
def nccExpCenteredFl (wide : MetricType) (sum norm dot : SumOrder ι) (exp sim : ι → ℝ)
    (expSquaredNorm : ℝ) : ℝ :=
  let c := centerWide wide sum sim
  MetricType.float32.fl (dot.eval MetricType.float32.fl exp c /
    MetricType.float32.fl (Real.sqrt (MetricType.float32.fl
      (expSquaredNorm * norm.eval MetricType.float32.fl c c))))

/-- The score of a simulated pattern, from the two patterns. -/
def refinementScoreFl (wide : MetricType) (o : RefinementOrders ι) (exp sim : ι → ℝ) : ℝ :=
  let e := preparePatternFl wide o.sumExp o.normExp exp
  nccExpCenteredFl wide o.sumSim o.normSim o.dot e.1 sim e.2

/-- `return 1 - _ncc_single_patterns_1d_float32_exp_centered(...)`, in double precision
(`_objective_functions.py` L74, L130-132, L188-190). -/
def objectiveFl (score : ℝ) : ℝ := MetricType.float64.fl (1 - score)

/-- `ncc = 1 - res.fun` (`_solvers.py` L205, L239, L326, L416, L450, L513, L564, L599): the score that
is reported. -/
def reportedScoreFl (objective : ℝ) : ℝ := MetricType.float64.fl (1 - objective)

end
end Kp
