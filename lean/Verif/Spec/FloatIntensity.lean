import Verif.Spec.MasterSymmetry
import Verif.Spec.Continuity
import Verif.Spec.FloatPosition

/-! Terms used in the statement of C159. -/

namespace Kp.Spec
noncomputable section

/-- The exact intensity of a direction: of the hemisphere of the direction, interpolated linearly in
both directions at its place in the square Lambert projection. -/
def exactIntensity (n : ℕ) (u l : Img ℝ) (v : V3 ℝ) : ℝ :=
  if 0 ≤ v.z then bilinearAt n u.val (masterRow n v) (masterColumn n v)
  else bilinearAt n l.val (masterRow n v) (masterColumn n v)

/-- An image of `n × n` pixels with absolute values of at most `M`, where pixels next to each other
differ by at most `D`. -/
structure SmoothImage (n : ℕ) (M D : ℝ) (img : Img ℝ) : Prop where
  bounded : ∀ r c, r < n → c < n → |img.val r c| ≤ M
  rows : ∀ r c, r + 1 < n → c < n → |img.val (r + 1) c - img.val r c| ≤ D
  columns : ∀ r c, r < n → c + 1 < n → |img.val r (c + 1) - img.val r c| ≤ D

/-- Both hemispheres have the same pixels on the border. -/
def BordersMeet (n : ℕ) (u l : Img ℝ) : Prop :=
  ∀ r c, r < n → c < n → (r = 0 ∨ r = n - 1 ∨ c = 0 ∨ c = n - 1) → u.val r c = l.val r c

end
end Kp.Spec
