import Verif.Spec.MasterSymmetry
import Verif.Spec.PatternOverlay

/-
Specification for `Verif.Props.MovedPatterns` (C139).
-/

namespace Kp.Spec
noncomputable section

/-- The detector after its projection centers were moved `a` pixels to the right and `b` pixels down. -/
def withMovedPc (d : Detector ℝ) (a b : ℤ) : Detector ℝ :=
  { d with pc := d.pc.map fun p => ⟨p.x + a / d.ncols, p.y + b / d.nrows, p.z⟩ }

/-- The mean of a function over the block `(i, j)` of `f` x `f` pixels. -/
def blockMean (f i j : ℕ) (g : ℕ → ℕ → ℝ) : ℝ :=
  (∑ k ∈ Finset.range f, ∑ l ∈ Finset.range f, g (i * f + k) (j * f + l)) / (f * f)

/-- `u` is the unit vector in the crystal that the middle of the block `(i, j)` of `f` x `f` pixels of a
pattern of `nr` x `nc` pixels looks along: as `PixelDirection`, with the mean position on the screen of the
pixels in the block. -/
def BlockDirection (nr nc f : ℕ) (m : M3) (q : Quat) (p : PC ℝ) (i j : ℕ) (u : V3 ℝ) : Prop :=
  ∃ s : V3 ℝ, s.dot s = 1 ∧ u = rotateVector q s ∧
    ∃ t : ℝ, 0 < t ∧ m.apply s = V3.smul t
      ⟨blockMean f i j fun r c => (gnomonic nr nc p ((r : ℝ) + 1 / 2, (c : ℝ) + 1 / 2)).2,
       blockMean f i j fun r c => (gnomonic nr nc p ((r : ℝ) + 1 / 2, (c : ℝ) + 1 / 2)).1, 1⟩

/-- A detector and the PCs it has are good for simulating patterns of rotations: a single PC for all, or one
for each. -/
structure FitsRotations (d : Detector ℝ) (rotShape : List ℕ) (rots : List Quat) : Prop where
  number : d.pc.length = d.nav.prod
  rotations : rots.length = rotShape.prod
  axes : rotShape.length ≤ 2
  shape : d.nav = rotShape ∨ d.nav = [1]
  before : ∀ p ∈ d.pc, 0 < p.z

end
end Kp.Spec
