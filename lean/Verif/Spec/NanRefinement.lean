import Verif.Spec.Refine
import Verif.Model.NanRefinement

/-! Specification for `Verif.Props.NanRefinement` (C153). -/

namespace Kp

/-- A pattern with contrast: not all of its pixels have the same value. -/
def Spec.PixelsDiffer (l : List ℝ) : Prop := ∃ x ∈ l, ∃ y ∈ l, x ≠ y

/-- `s` (`none` for NaN) is the score, in the pixels not masked out, of an experimental pattern with
the pattern `get_patterns` simulates for orientation `q` and projection center `p`: their correlation
if both have contrast, otherwise NaN. -/
def Spec.IsNanScore (a : RefineArgs) (pattern : List ℝ) (q : Quat) (p : PC ℝ) (s : Option ℝ) : Prop :=
  ∃ sim, a.mp.getPatterns [1] [q] { a.det with nav := [1], pc := [p] } a.m a.energy (.float 32) [1] =
      .ok ([1], [some sim]) ∧
    (Spec.PixelsDiffer (Spec.keep a.signalMask pattern) → Spec.PixelsDiffer (Spec.keep a.signalMask sim) →
      s = some (Spec.pearson (Spec.keep a.signalMask pattern) (Spec.keep a.signalMask sim))) ∧
    (¬ Spec.PixelsDiffer (Spec.keep a.signalMask pattern) → s = none) ∧
    (¬ Spec.PixelsDiffer (Spec.keep a.signalMask sim) → s = none)

/-- The optimizer reports the value of the objective function at the point it returns. -/
def Spec.ReportsValue (opt : OptimizerNan) : Prop := ∀ f s b, (opt f s b).funVal = f (opt f s b).x

/-- The results of optimizing `f` from each of the starting points of a map point. -/
def Spec.optimizations (a : RefineArgs) (opt : OptimizerNan) (f : List ℝ → Option ℝ)
    (starts lower upper : List (List ℝ)) : List (OptResult (Option ℝ) (List ℝ)) :=
  List.zipWith (fun s b => opt f (startGiven a.solver.method s)
    (boundsGiven a.solver.method a.solver.trust b)) starts (lower.zip upper)

/-- The row holds result number `b`. If all results have a score, none is better than that of `b`. If
some are NaN, `b` is the first of those. -/
def Spec.Chosen (runs : List (OptResult (Option ℝ) (List ℝ))) (row : NanRow) (b : ℕ) : Prop :=
  (∃ r, runs[b]? = some r ∧ row.x = r.x ∧ row.nfev = r.nfev ∧ row.score = r.funVal.map (1 - ·)) ∧
  ((∀ r ∈ runs, r.funVal ≠ none) → ∃ s, row.score = some s ∧
    ∀ r ∈ runs, ∀ v, r.funVal = some v → 1 - v ≤ s) ∧
  ((∃ r ∈ runs, r.funVal = none) → row.score = none ∧
    ∀ i < b, ∀ r, runs[i]? = some r → r.funVal ≠ none)

end Kp
