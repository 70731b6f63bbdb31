import Verif.Model.Refine

/-! Specification for `Verif.Props.Refine` (C77). -/

namespace Kp

/-- Mean of a list of numbers. -/
noncomputable def Spec.avg (l : List ℝ) : ℝ := l.sum / l.length

/-- The normalized cross-correlation (Pearson correlation) coefficient of two patterns. -/
noncomputable def Spec.pearson (a b : List ℝ) : ℝ :=
  ((a.zip b).map fun p => (p.1 - Spec.avg a) * (p.2 - Spec.avg b)).sum /
    Real.sqrt ((a.map fun x => (x - Spec.avg a) ^ 2).sum * (b.map fun x => (x - Spec.avg b) ^ 2).sum)

/-- The pixels not masked out by a signal mask (`True` for pixels to leave out). -/
def Spec.keep (mask : Option (List Bool)) (l : List ℝ) : List ℝ :=
  match mask with
  | none => l
  | some m => ((l.zip m).filter fun p => !p.2).map Prod.fst

/-- `s` is the correlation, in the pixels not masked out, of an experimental pattern with the pattern
`get_patterns` simulates for orientation `q` and projection center `p`. -/
def Spec.IsScore (a : RefineArgs) (pattern : List ℝ) (q : Quat) (p : PC ℝ) (s : ℝ) : Prop :=
  ∃ sim, a.mp.getPatterns [1] [q] { a.det with nav := [1], pc := [p] } a.m a.energy (.float 32) [1] =
      .ok ([1], [some sim]) ∧
    s = Spec.pearson (Spec.keep a.signalMask pattern) (Spec.keep a.signalMask sim)

end Kp
