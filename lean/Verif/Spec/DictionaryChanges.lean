import Verif.Spec.DictionaryIndexing

/-
Specification for `Verif.Props.DictionaryChanges` (C140).
-/

namespace Kp.Spec

/-- The dictionary patterns a result (score and dictionary index of each match) points at. -/
def matchedPatterns {K D : Type*} (dict : List D) (result : List (K × ℕ)) : List (Option D) :=
  result.map fun c => dict[c.2]?

/-- The scores of a result, best first. -/
def bestScores {K : Type*} (result : List (K × ℕ)) : List K := result.map Prod.fst

/-- No dictionary pattern has a lower score than the lowest of the normalized cross-correlation and the
normalized dot product. -/
def NotBelowMinusOne {K D : Type*} [Field K] [LinearOrder K] (score : D → K) (dict : List D) : Prop :=
  ∀ d ∈ dict, -1 ≤ score d

end Kp.Spec
