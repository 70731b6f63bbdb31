import Verif.Spec.Refine
import Verif.Spec.SelfIndexing

/-
Specification for `Verif.Props.SelfRefinement` (C123).
-/

namespace Kp.Spec

/-- `sim` is the pattern `get_patterns` simulates (by default with 32-bit floats) for one orientation
`q` and one projection center `p` with the master pattern, energy and detector of a refinement. -/
def IsSimulated (a : RefineArgs) (q : Quat) (p : PC ℝ) (sim : List ℝ) : Prop :=
  a.mp.getPatterns [1] [q] { a.det with nav := [1], pc := [p] } a.m a.energy (.float 32) [1] =
    .ok ([1], [some sim])

/-- The signal mask of a refinement, as an array. -/
def maskOf (a : RefineArgs) : Option BoolArray :=
  a.signalMask.map (fun m => ⟨[a.det.nrows, a.det.ncols], m⟩)

/-- Orientation `q` and projection center `p` explain a pattern: the pattern is, in the pixels not
masked out, the simulated one up to gain and offset. -/
def Explains (a : RefineArgs) (q : Quat) (p : PC ℝ) (pattern : List ℝ) : Prop :=
  ∃ sim, IsSimulated a q p sim ∧ SameUpTo (maskOf a) sim pattern

/-- Two quaternions are the same rotation: every vector is rotated to the same vector. -/
def SameRotation (q r : Quat) : Prop := ∀ v : V3 ℝ, rotateVector q v = rotateVector r v

end Kp.Spec
