import Verif.Model.MergeMaps

/-
Specification of merging crystal maps.
-/

namespace Kp.Spec

section
variable {K R D : Type*} [Field K] [LinearOrder K]

/-- Row in the data of map `k` of map point `m`, if the map has data there: the number of
points with data before `m`. -/
def rowOf (masks : Option (List (Option NavMask))) (k m : ℕ) : Option ℕ :=
  match masks with
  | none => some m
  | some ms =>
    match ms.getD k none with
    | none => some m
    | some q => if q.keep m then some ((List.range m).countP q.keep) else none

/-- Score `a` is at least as good as score `b`. -/
def AsGood (greaterIsBetter : Bool) (a b : K) : Prop :=
  if greaterIsBetter then b ≤ a else a ≤ b

/-- Mean of the first `n` scores. -/
def meanScore (x : XMap K R D) (row n : ℕ) : K :=
  ((List.range n).map (x.scores row)).sum / n

/-- Order of merged scores: best to worst, missing scores last. -/
def RankedBefore (greaterIsBetter : Bool) : Option K → Option K → Prop
  | some a, some b => AsGood greaterIsBetter a b
  | none, some _ => False
  | _, none => True

end

end Kp.Spec
