import Verif.Model.StoredChunks

/-
Specification of C128: processing in place in chunks, and lazy signals.
-/

namespace Kp.Spec

/-- All chunks are stored. -/
def Finished {ι P : Type*} (s : StoreState ι P) : Prop :=
  ∀ j ∈ s.jobs, j = .writing []

section
variable {A : Type*}

/-- What a user expects: every signal has its own patterns. -/
def valueStep (l : List A) : SessionStep A → List A
  | .inplace i f => l.modify i f
  | .newSignal i f _ => match l[i]? with
    | some a => l ++ [f a]
    | none => l
  | .compute _ => l

/-- A history in which no signal in memory is processed in place while there are lazy signals which
are computed from its array. -/
def NoLazyProcessed (copies : Bool) (s : Session A) : List (SessionStep A) → Prop
  | [] => True
  | .inplace i f :: rest =>
    (∀ b, s.signals[i]? = some (.memory b) →
      ∀ b' g, LazySignal.lazy b' g ∈ s.signals → b' ≠ b) ∧
    NoLazyProcessed copies (sessionStep copies s (.inplace i f)) rest
  | st :: rest => NoLazyProcessed copies (sessionStep copies s st) rest

end

end Kp.Spec
