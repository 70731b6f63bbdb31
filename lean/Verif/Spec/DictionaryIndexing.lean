import Verif.Model.Base
import Mathlib.Algebra.Order.Field.Basic

/-
What it means to return the best matches of a dictionary, independent of how they are
found.
-/

namespace Kp

/-- `best` holds the `n` best of the dictionary scores `scores`, where `better a b` means
score `a` is at least as good as score `b`: `n` entries (score, dictionary index), from
best to worst, each index a position of the dictionary with the score it has there, no
index twice, and every dictionary pattern left out at most as good as every one kept. -/
structure IsBest {K : Type*} (better : K → K → Prop) (n : ℕ) (scores : List K)
    (best : List (K × ℕ)) : Prop where
  length : best.length = n
  sorted : (best.map Prod.fst).Pairwise better
  own_score : ∀ c ∈ best, scores[c.2]? = some c.1
  distinct : (best.map Prod.snd).Nodup
  optimal : ∀ (i : ℕ) (s : K), scores[i]? = some s → i ∉ best.map Prod.snd →
    ∀ c ∈ best, better c.1 s

end Kp
