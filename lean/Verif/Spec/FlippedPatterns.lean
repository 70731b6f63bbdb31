import Verif.Spec.MapSymmetry
import Verif.Spec.SignalFftFilter

/-
Specification of C146: patterns turned upside down, mirrored or transposed, and patterns with their
pixels in another order.
-/

namespace Kp.Spec

/-- Ways to hold a pattern. -/
inductive Flip
  | upsideDown
  | leftRight
  | rowsAsColumns
  deriving DecidableEq

/-- The pattern held that way. -/
def Flip.apply {V : Type*} : Flip → Img V → Img V
  | .upsideDown => Spec.upsideDown
  | .leftRight => Spec.leftRight
  | .rowsAsColumns => Spec.rowsAsColumns

/-- A window whose origin (half its size, rounded down) is in the middle, along the direction which
is reversed. -/
def Flip.Centred {V : Type*} (f : Flip) (w : Img V) : Prop :=
  match f with
  | .upsideDown => w.rows % 2 = 1
  | .leftRight => w.cols % 2 = 1
  | .rowsAsColumns => True

/-- The wave which becomes the wave with `u` periods from top to bottom and `v` from left to right. -/
def Flip.frequency (f : Flip) (u v : ℤ) : ℤ × ℤ :=
  match f with
  | .upsideDown => (-u, v)
  | .leftRight => (u, -v)
  | .rowsAsColumns => (v, u)

/-- The transfer function `t'` does to the waves of flipped patterns what `t` does to those of the
patterns. -/
def Flip.SameTransfer (f : Flip) (shift : Bool) (t t' : Img ℝ) : Prop :=
  ∀ u v, transferAt t' shift u v = transferAt t shift (f.frequency u v).1 (f.frequency u v).2

/-- The pixels of a pattern in the order of `idx`. -/
def rearranged {K : Type*} [Zero K] (idx : List ℕ) (p : List K) : List K :=
  idx.map fun i => p.getD i 0

end Kp.Spec
