import Verif.Model.Rescale
import Verif.Model.Downsample
import Mathlib.Analysis.SpecialFunctions.Complex.Circle

/-
Specification of C125: filtering of patterns, independent of Fourier transforms as they are computed.
-/

namespace Kp.Spec

/-- The same shape and pixels. -/
def SamePattern (p q : Img ℝ) : Prop :=
  p.rows = q.rows ∧ p.cols = q.cols ∧ ∀ r c, r < p.rows → c < p.cols → p.val r c = q.val r c

/-- The component of a pattern with frequency `(u, v)`: the sum of the pixels times a wave with `u`
periods from top to bottom and `v` from left to right. -/
noncomputable def component (p : Img ℝ) (u v : ℤ) : ℂ :=
  ∑ r ∈ Finset.range p.rows, ∑ c ∈ Finset.range p.cols,
    (p.val r c : ℂ) * Complex.exp (-(2 * Real.pi * Complex.I) *
      ((u : ℂ) * r / p.rows + (v : ℂ) * c / p.cols))

/-- Where the coefficient of frequency `u` is in a transfer function with `n` rows (columns): first
the frequencies from zero on, or with the zero frequency shifted to the centre. -/
def frequencyIndex (n : ℕ) (shift : Bool) (u : ℤ) : ℕ :=
  ((if shift then u + (n / 2 : ℕ) else u) % (n : ℤ)).toNat

/-- The coefficient of a transfer function for the frequency `(u, v)`. -/
def transferAt (t : Img ℝ) (shift : Bool) (u v : ℤ) : ℝ :=
  t.val (frequencyIndex t.rows shift u) (frequencyIndex t.cols shift v)

/-- `g` is the pattern `p` filtered with the transfer function `t`: each component is multiplied by
the coefficient of its frequency. The waves `(u, v)` and `(-u, -v)` make up one real wave, which has
the mean of their two coefficients. -/
def FrequencyFiltered (t : Img ℝ) (shift : Bool) (p g : Img ℝ) : Prop :=
  g.rows = p.rows ∧ g.cols = p.cols ∧ ∀ u v : ℤ,
    component g u v =
      (((transferAt t shift u v + transferAt t shift (-u) (-v)) / 2 : ℝ) : ℂ) * component p u v

/-- `q` is `g` stretched to the range of the data type `d`. -/
def StretchedTo (d : DType) (g q : Img ℝ) : Prop :=
  q.rows = g.rows ∧ q.cols = g.cols ∧ ∃ lo hi : ℝ, ∃ range : ℤ × ℤ,
    dtypeRange d = some range ∧
    IsLeast {x | ∃ r c, r < g.rows ∧ c < g.cols ∧ g.val r c = x} lo ∧
    IsGreatest {x | ∃ r c, r < g.rows ∧ c < g.cols ∧ g.val r c = x} hi ∧
    ∀ r c, r < g.rows → c < g.cols → q.val r c =
      castTo d ((g.val r c - lo) / (hi - lo) * (range.2 - range.1) + range.1)

end Kp.Spec
