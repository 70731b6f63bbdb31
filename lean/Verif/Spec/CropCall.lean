import Verif.Model.CropCall

/-
Specification of cropping (C145): the values of the parameters of `crop`, and slicing of one of the
four axes of a signal.
-/

namespace Kp

variable {K V X : Type} [Field K]

/-- Values of a bound call of `crop`. -/
def Spec.CropBound (b : List (String × CropValue)) (ax : CropAxis) (start stop : CropArg) : Prop :=
  b.lookup "axis" = some (.axis ax) ∧ b.lookup "start" = some (.position start)
    ∧ b.lookup "end" = some (.position stop)

/-- A start or end given as an index, or not given. -/
def Spec.indexArg : Option ℤ → CropArg
  | none => .none
  | some i => .index i

/-- Shape of a map and patterns after slicing one axis. -/
def Spec.slicedShape (sh : CropShape) (ax : CropAxis) (s : PySlice) : CropShape :=
  match ax with
  | .navRow => (((s.positions sh.1.1).length, sh.1.2), sh.2)
  | .navCol => ((sh.1.1, (s.positions sh.1.2).length), sh.2)
  | .sigRow => (sh.1, ((s.positions sh.2.1).length, sh.2.2))
  | .sigCol => (sh.1, (sh.2.1, (s.positions sh.2.2).length))

/-- Attributes of a signal after slicing one axis with `inav` or `isig`. -/
def Spec.slicedAttrs (a : SignalAttrs K V X) (sh : CropShape) (ax : CropAxis) (s : PySlice) :
    SignalAttrs K V X :=
  match ax with
  | .navRow => inavAttrs a sh.1 s ⟨none, none, none⟩
  | .navCol => inavAttrs a sh.1 ⟨none, none, none⟩ s
  | .sigRow => isigAttrs a sh.2 s ⟨none, none, none⟩
  | .sigCol => isigAttrs a sh.2 ⟨none, none, none⟩ s

end Kp
