import Verif.Model.Script

/-
Specification of C149: scripts as if every variable and every attribute of a signal held its own copy,
so that changing one never changes another.
-/

namespace Kp.Spec

variable {V : Type}

/-- A signal with the given attributes. -/
def withSignal (σ : Place → Option V) (s : String) (d b m : Option V) : Place → Option V
  | .det n => if n = s then d else σ (.det n)
  | .bg n => if n = s then b else σ (.bg n)
  | .xmap n => if n = s then m else σ (.xmap n)
  | .var n => σ (.var n)

/-- A place with a new content. -/
def withValue (σ : Place → Option V) (p : Place) (v : Option V) : Place → Option V :=
  fun q => if q = p then v else σ q

/-- What a call means if there are no references, only values. -/
def callOnValues (σ : Place → Option V) : ScriptCall V → Place → Option V
  | .create x v => withValue σ (.var x) (some v)
  | .share x p => withValue σ (.var x) (σ p)
  | .compute x f => withValue σ (.var x) (some (f σ))
  | .signal s d b m new => withSignal σ s
      (match d with | some x => σ (.var x) | none => some new)
      (b.bind fun x => σ (.var x)) (m.bind fun x => σ (.var x))
  | .simulate s d m => withSignal σ s (σ (.var d)) none (some m)
  | .setDet s x => withValue σ (.det s) (σ (.var x))
  | .setBg s x => withValue σ (.bg s) (σ (.var x))
  | .setMap s x => withValue σ (.xmap s) (σ (.var x))
  | .modify p f => withValue σ p ((σ p).map f)
  | .plain t s => withSignal σ t (σ (.det s)) (σ (.bg s)) (σ (.xmap s))
  | .asLazy t s f => withSignal σ t (σ (.det s)) ((σ (.bg s)).map f) (σ (.xmap s))
  | .downsample t s f g =>
    withSignal σ t ((σ (.det s)).map f) ((σ (.bg s)).map g) (σ (.xmap s))
  | .downsampled s f g =>
    withSignal σ s ((σ (.det s)).map f) ((σ (.bg s)).map g) (σ (.xmap s))
  | .derive t s f g h =>
    withSignal σ t ((σ (.det s)).map f) ((σ (.bg s)).bind g) ((σ (.xmap s)).bind h)

/-- What a script means if there are no references, only values. -/
def valueRun (σ : Place → Option V) (cs : List (ScriptCall V)) : Place → Option V :=
  cs.foldl callOnValues σ

/-- The calls which change an existing object: changes by the user and `downsample`. -/
def Changes : ScriptCall V → Prop
  | .modify _ _ => True
  | .downsample _ _ _ _ => True
  | .downsampled _ _ _ => True
  | _ => False

/-- No other place holds the object which is held at a place. -/
def HeldOnlyAt (st : ScriptState V) (p : Place) : Prop :=
  ∀ q, q ≠ p → st.env q = st.env p → st.env p = none

/-- A call in which only objects held at one place are changed, and the result of `downsample` with
`inplace=False` replaces the signal. -/
def Careful (st : ScriptState V) : ScriptCall V → Prop
  | .modify p _ => HeldOnlyAt st p
  | .downsample t s _ _ => t = s ∧ HeldOnlyAt st (.det s)
  | .downsampled s _ _ => HeldOnlyAt st (.det s)
  | _ => True

/-- A script of careful calls. -/
def CarefulScript : ScriptState V → List (ScriptCall V) → Prop
  | _, [] => True
  | st, c :: cs => Careful st c ∧ CarefulScript (scriptStep st c) cs

/-- All attributes of a signal are outside a set of places. -/
def Outside (own : Place → Prop) (s : String) : Prop :=
  ¬ own (.det s) ∧ ¬ own (.bg s) ∧ ¬ own (.xmap s)

/-- A rule for scripts which can be checked by reading them: some places are chosen as one's own; only
these are changed, and no call which shares objects involves them. -/
def Follows (own : Place → Prop) : ScriptCall V → Prop
  | .create _ _ => True
  | .compute _ _ => True
  | .derive _ _ _ _ _ => True
  | .share x p => ¬ own (.var x) ∧ ¬ own p
  | .signal s d b m _ =>
    (∀ x, d = some x → ¬ own (.var x) ∧ ¬ own (.det s)) ∧
    (∀ x, b = some x → ¬ own (.var x) ∧ ¬ own (.bg s)) ∧
    (∀ x, m = some x → ¬ own (.var x) ∧ ¬ own (.xmap s))
  | .simulate s d _ => ¬ own (.var d) ∧ ¬ own (.det s)
  | .setDet s x => ¬ own (.var x) ∧ ¬ own (.det s)
  | .setBg s x => ¬ own (.var x) ∧ ¬ own (.bg s)
  | .setMap s x => ¬ own (.var x) ∧ ¬ own (.xmap s)
  | .modify p _ => own p
  | .plain t s => t = s ∨ Outside own t ∧ Outside own s
  | .asLazy t s _ => t = s ∨ Outside own t ∧ Outside own s
  | .downsample t s _ _ => t = s ∧ own (.det s)
  | .downsampled s _ _ => own (.det s)

end Kp.Spec
