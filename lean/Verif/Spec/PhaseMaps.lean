import Verif.Spec.SelfIndexing
import Verif.Model.PhaseMaps

/-
Specification of indexing with one dictionary per phase.
-/

namespace Kp.Spec

/-- A pattern looks like one of the dictionary of this phase, in the pixels compared. -/
def LooksLike {R D : Type} (ph : PhaseCall ℝ R D) (p : List ℝ) : Prop :=
  ∃ d ∈ ph.call.dictionary, SameUpTo ph.call.sigMask d p

/-- Pattern `i` was indexed with the dictionary of phase `k`, looks like a pattern of it, and looks
like no pattern in any of the other dictionaries it was indexed with. -/
def OnlyPhase {R D : Type} (phases : List (PhaseCall ℝ R D)) (i k : ℕ) (p : List ℝ) : Prop :=
  (∃ ph, phases[k]? = some ph ∧ Used ph.call.navMask i ∧ LooksLike ph p) ∧
  ∀ k' ph', k' ≠ k → phases[k']? = some ph' → Used ph'.call.navMask i → ¬ LooksLike ph' p

/-- The same patterns are indexed with all dictionaries, with the same number of matches kept per
pattern (at least one). -/
structure SamePatterns {R D : Type} (phases : List (PhaseCall ℝ R D)) (nav : List ℕ)
    (patterns : List (List ℝ)) (N : ℕ) : Prop where
  some_phase : phases ≠ []
  nav : ∀ ph ∈ phases, ph.call.navShape = nav
  patterns : ∀ ph ∈ phases, ph.call.patterns = patterns
  kept : ∀ ph ∈ phases, min ph.call.keepN ph.call.dictionary.length = N
  pos : 0 < N

/-- The masks given when merging are those used when indexing. -/
def MasksOfCalls {R D : Type} (phases : List (PhaseCall ℝ R D))
    (masks : Option (List (Option NavMask))) : Prop :=
  masks = some (phases.map (fun ph => navMaskOf ph.call)) ∨
    masks = none ∧ ∀ ph ∈ phases, ph.call.navMask = none

end Kp.Spec
