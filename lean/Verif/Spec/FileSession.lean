import Verif.Model.FileSession

/-! Specification for sessions with h5ebsd files. -/

namespace Kp.Spec

variable {P S : Type} [DecidableEq P]

/-- The beginning of a session: some files, none of them open. -/
def newSession (content : P → Option (FileContent S)) : FileSession P S := ⟨content, fun _ => none, 0, [], []⟩

/-- A state which is reached by some events, among them calls which raise. -/
def Reached (parseInt : List Char → Option ℤ) (complete : S → Bool) (st : FileSession P S) : Prop :=
  ∃ content events, st = (newSession content).run parseInt complete events

/-- Neither a lazy signal of the file nor an exception raised while it was open is in use. -/
def Unused (st : FileSession P S) (p : P) : Prop :=
  (∀ σ ∈ st.signals, σ.path ≠ p) ∧ ∀ e ∈ st.errors, e.2 ≠ p

/-- A lazy signal stays in use. -/
def SignalKept (σ : LazyScan P) (events : List (SessionEvent P S)) : Prop :=
  ∀ h, SessionEvent.forget h ∈ events → h ≠ σ.handle

end Kp.Spec
