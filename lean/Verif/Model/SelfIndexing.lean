import Verif.Model.Normalize
import Verif.Model.IndexingCalls

/-
The two similarity metrics of kikuchipy, as they are used in dictionary indexing: on the pixels which
are kept by the signal mask, one after another.
-/

namespace Kp
noncomputable section

/-- `NormalizedCrossCorrelationMetric` for the kept pixels of an experimental and a dictionary pattern
(/repo/src/kikuchipy/indexing/similarity_metrics/_normalized_cross_correlation.py L88-183 and
L228-241). -/
def nccOf (a b : List ℝ) : ℝ :=
  ncc (ι := Fin a.length) (fun _ => false) (fun i => a.getD i 0) (fun i => b.getD i 0)

/-- `NormalizedDotProductMetric` for the kept pixels of an experimental and a dictionary pattern
(/repo/src/kikuchipy/indexing/similarity_metrics/_normalized_dot_product.py L77-174 and
L181-195). -/
def ndpOf (a b : List ℝ) : ℝ :=
  ndp (ι := Fin a.length) (fun _ => false) (fun i => a.getD i 0) (fun i => b.getD i 0)

end
end Kp
