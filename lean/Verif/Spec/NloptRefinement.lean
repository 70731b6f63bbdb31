import Verif.Model.NloptRefinement

/-
Specification of C147: what refining a pattern alone, with its own optimizer, gives.
-/

namespace Kp.Spec
noncomputable section

/-- The optimization of a pattern from a starting point: the settings the user asked for, the bounds of
this starting point if there is a trust region, and the objective function of this pattern. -/
def ownProblem (settings : NloptSettings) (trust : Bool) (p : NloptPoint) (s : NloptStart) :
    NloptProblem :=
  ⟨settings, if trust then some s.lower else none, if trust then some s.upper else none, p.objective⟩

/-- `row` is the result of refining the pattern alone: the optimization from each starting point gives
a result, and the first one with the lowest value is reported. -/
def RefinedAlone (alg : NloptAlgorithm) (settings : NloptSettings) (trust ps : Bool) (p : NloptPoint)
    (row : RefineRow) : Prop :=
  ∃ results : List (OptResult ℝ (List ℝ)),
    List.Forall₂ (fun s r => alg (ownProblem settings trust p s) s.x0 = .ok r) p.starts results ∧
    ∃ best r, results[best]? = some r ∧
      (∀ j r', results[j]? = some r' → r.funVal ≤ r'.funVal ∧ (j < best → r.funVal < r'.funVal)) ∧
      row = ⟨1 - r.funVal, r.nfev, r.x, if ps then some best else none⟩

/-- Refining the pattern alone raises an exception. -/
def FailsAlone (alg : NloptAlgorithm) (settings : NloptSettings) (trust : Bool) (p : NloptPoint)
    (e : Err) : Prop :=
  ∃ s ∈ p.starts, alg (ownProblem settings trust p s) s.x0 = .error e

end
end Kp.Spec
