import Verif.Model.Downsample
import Mathlib.Analysis.Real.Sqrt
import Mathlib.Algebra.BigOperators.Group.Finset.Basic

/-
Specification of spatial filtering, independent of Fourier transforms.
-/

namespace Kp.Spec

/-- Nearest valid index: edge values are replicated outside the image. -/
def clampIdx (n : ℕ) (i : ℤ) : ℕ := (min (max i 0) ((n : ℤ) - 1)).toNat

/-- Window-weighted sum of the image around pixel `(y, x)`, with the window origin in
`(rows // 2, cols // 2)` of the window and edge values replicated outside the image. -/
noncomputable def correlate (p w : Img ℝ) (y x : ℕ) : ℝ :=
  ∑ i ∈ Finset.range w.rows, ∑ j ∈ Finset.range w.cols,
    w.val i j * p.val (clampIdx p.rows ((y : ℤ) + i - (w.rows / 2 : ℕ)))
      (clampIdx p.cols ((x : ℤ) + j - (w.cols / 2 : ℕ)))

end Kp.Spec
