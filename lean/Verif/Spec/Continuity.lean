import Verif.Spec.MasterSymmetry
import Verif.Spec.PseudoSymmetry
import Verif.Spec.Refine

/-
Specification for `Verif.Props.Continuity` (C138).
-/

namespace Kp.Spec
noncomputable section

/-- Two vectors differ by less than `δ` in each component. -/
def NearV (δ : ℝ) (v w : V3 ℝ) : Prop := |w.x - v.x| < δ ∧ |w.y - v.y| < δ ∧ |w.z - v.z| < δ

/-- Two projection centers differ by less than `δ` in each component. -/
def NearPc (δ : ℝ) (p r : PC ℝ) : Prop := |r.x - p.x| < δ ∧ |r.y - p.y| < δ ∧ |r.z - p.z| < δ

/-- Two orientations are near: every unit vector is rotated to vectors which differ by less than `δ`. -/
def NearRotation (δ : ℝ) (q r : Quat) : Prop :=
  ∀ v : V3 ℝ, v.x ^ 2 + v.y ^ 2 + v.z ^ 2 = 1 → NearV δ (rotateVector q v) (rotateVector r v)

/-- Two hemispheres have the same pixels on their border, where they meet. -/
def SameBorder (u l : Img ℝ) : Prop :=
  ∀ r c, r < u.rows → c < u.cols → (r = 0 ∨ r = u.rows - 1 ∨ c = 0 ∨ c = u.cols - 1) →
    u.val r c = l.val r c

/-- The intensity of a master pattern changes little if the direction changes little. -/
def ContinuousIntensity (u l : Img ℝ) : Prop :=
  ∀ v : V3 ℝ, v ≠ ⟨0, 0, 0⟩ → ∀ ε, 0 < ε → ∃ δ, 0 < δ ∧ ∀ w, NearV δ v w →
    |intensityIn u l w - intensityIn u l v| < ε

/-- The (kept) pixels of a pattern are not all the same. -/
def NotConstant (l : List ℝ) : Prop := ∃ x ∈ l, ∃ y ∈ l, x ≠ y

/-- The pixels of the pattern compared with the experimental one for an orientation and a projection center
in refinement. -/
def comparedWith (a : RefineArgs) (data : MasterData) (q : Quat) (p : PC ℝ) : List ℝ :=
  projectPattern q data.upper data.lower data.npx data.npy data.scale
    (a.detectorData.directionCosines p.x p.y p.z) false 0 1 (.float 32)

end
end Kp.Spec
