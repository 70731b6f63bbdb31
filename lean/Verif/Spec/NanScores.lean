import Verif.Model.Base
import Mathlib.Order.Defs.LinearOrder

/-
Which of two scores is better when a score may be missing.
-/

namespace Kp.Spec

/-- Score `a` is at least as good as score `b`: larger is better, and any number is better than no
score (`none`). -/
def AtLeast {K : Type} [LinearOrder K] : Option K → Option K → Prop
  | some a, some b => b ≤ a
  | none, some _ => False
  | _, none => True

end Kp.Spec
