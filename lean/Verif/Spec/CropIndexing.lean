import Verif.Spec.SelfIndexing

/-
What it means that a pattern is a crop of another, and that a mask leaves out what the crop does.
-/

namespace Kp.Spec

/-- A rectangle of `h x w` pixels in patterns of `rows x cols` pixels, with its upper left pixel at
row `t` and column `l`. -/
structure Window where
  rows : ℕ
  cols : ℕ
  t : ℕ
  l : ℕ
  h : ℕ
  w : ℕ

/-- The rectangle is inside of the patterns. -/
def Window.Inside (r : Window) : Prop := r.t + r.h ≤ r.rows ∧ r.l + r.w ≤ r.cols

/-- `p'` is the rectangle of `p`, both in row-major order. -/
def IsCrop (r : Window) (p p' : List ℝ) : Prop :=
  p.length = r.rows * r.cols ∧ p'.length = r.h * r.w ∧
    ∀ i j, i < r.h → j < r.w → p'[i * r.w + j]? = p[(i + r.t) * r.cols + (j + r.l)]?

/-- `m` masks out the pixels outside of the rectangle, and those masked out by `mask` in it. -/
def MasksOutside (r : Window) (m : BoolArray) (mask : Option BoolArray) : Prop :=
  ∀ y x, y < r.rows → x < r.cols →
    (Used (some m) (y * r.cols + x) ↔
      (r.t ≤ y ∧ y < r.t + r.h) ∧ (r.l ≤ x ∧ x < r.l + r.w) ∧
        Used mask ((y - r.t) * r.w + (x - r.l)))

end Kp.Spec
