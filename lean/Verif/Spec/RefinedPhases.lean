import Verif.Spec.SelfRefinement
import Verif.Spec.MergeMaps
import Verif.Lemmas.Refine
import Verif.Model.RefinedPhases

/-
Specification of refining with one master pattern per phase, then merging.
-/

namespace Kp.Spec

/-- The arguments of the refinement of one phase fit together, the optimizer never returns a worse point
than the one it starts with, and the two hemispheres of the master pattern have the same range of
intensities (or are 32-bit floats). -/
structure GoodRefinement {D : Type} (ph : PhaseRefinement D) : Prop where
  valid : ∃ u l, ph.args.Valid u l ∧ SameScale ph.args.mp u l
  starts : ph.starts.length = ph.args.points.count true
  lower : ph.lower.length = ph.args.points.count true
  upper : ph.upper.length = ph.args.points.count true
  operators : ∀ x, (x ∈ ph.starts ∨ x ∈ ph.lower ∨ x ∈ ph.upper) → x.length = ph.args.nPs + 1
  descends : DescendingOptimizer ph.args.solver.opt
  method : ∀ x0, startGiven ph.args.solver.method x0 = some x0
  size : ph.args.points.length = ph.nav.prod
  inData : ph.inData.length = ph.args.points.length
  refined : ∀ i : ℕ, ph.args.points[i]? = some true → ph.inData[i]? = some true
  indexed : 0 ≤ ph.id

/-- The same patterns are refined with all master patterns. -/
structure SameRefined {D : Type} (phases : List (PhaseRefinement D)) (nav : List ℕ)
    (patterns : List (List ℝ)) : Prop where
  some_phase : phases ≠ []
  nav : ∀ ph ∈ phases, ph.nav = nav
  patterns : ∀ ph ∈ phases, ph.args.patterns = patterns

/-- The masks given when merging say which points of the maps are in the data. -/
def MasksOfData {D : Type} (phases : List (PhaseRefinement D))
    (masks : Option (List (Option NavMask))) : Prop :=
  masks = none ∧ (∀ ph ∈ phases, ∀ i < ph.nav.prod, ph.inData[i]? = some true) ∨
    ∃ ms, masks = some ms ∧ ms.length = phases.length ∧
      ∀ (k : ℕ) (ph : PhaseRefinement D) (mk : Option NavMask), phases[k]? = some ph →
        ms[k]? = some mk → mk = some (inDataMask ph) ∨
          mk = none ∧ ∀ i < ph.nav.prod, ph.inData[i]? = some true

/-- One of the orientations refinement of point `i` starts with. -/
def StartsWith {D : Type} (ph : PhaseRefinement D) (i : ℕ) (q : Quat) : Prop :=
  ph.args.points[i]? = some true ∧ ∃ s ∈ ph.starts.getD (ph.args.place i) [],
    q = rotationFromEuler (s.getD 0 0) (s.getD 1 0) (s.getD 2 0)

/-- Pattern `p` in point `i` is explained by one of the orientations with which its refinement with phase
`k` starts, and by no orientation of any of the other phases it is refined with. -/
def ExplainedOnlyBy {D : Type} (phases : List (PhaseRefinement D)) (i k : ℕ) (p : List ℝ) : Prop :=
  (∃ ph q pc, phases[k]? = some ph ∧ StartsWith ph i q ∧ ph.args.pcAt i = some pc ∧
    Explains ph.args q pc p) ∧
  ∀ k' ph' pc q, k' ≠ k → phases[k']? = some ph' → ph'.args.points[i]? = some true →
    ph'.args.pcAt i = some pc → ¬ Explains ph'.args q pc p

end Kp.Spec
