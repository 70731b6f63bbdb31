/-
Specification for C52: how a signal whose attributes nobody else can reach responds to
modifications.
-/
import Verif.Model.Aliasing

namespace Kp

/-- The effect of one modification on the contents seen by its own signal. -/
def viewStep {D B X : Type} (v : AttrView D B X) : AttrStep D B X → AttrView D B X
  | .setDet d => { v with det := some d }
  | .mutDet f => { v with det := v.det.map f }
  | .setBg b => { v with bg := some b }
  | .mutBg f => { v with bg := v.bg.map f }
  | .setMap x => { v with xmap := some x }
  | .mutMap f => { v with xmap := v.xmap.map f }

/-- The modifications in a history made through the signal `who`. -/
def ownSteps {D B X : Type} (who : Bool) (ss : List (Bool × AttrStep D B X)) :
    List (AttrStep D B X) :=
  (ss.filter fun s => s.1 == who).map Prod.snd

/-- The two signals are independent: after every history of modifications of both, each sees
exactly its own modifications. -/
def Independent {D B X : Type} (h : AttrHeap D B X) (a b : AttrRefs) : Prop :=
  ∀ ss : List (Bool × AttrStep D B X),
    let r := attrRun h a b ss
    readAttrs r.1 r.2.1 = (ownSteps false ss).foldl viewStep (readAttrs h a) ∧
    readAttrs r.1 r.2.2 = (ownSteps true ss).foldl viewStep (readAttrs h b)

/-- The references of a signal are references to existing objects. -/
def AttrRefs.Valid {D B X : Type} (h : AttrHeap D B X) (a : AttrRefs) : Prop :=
  a.det < h.dets.length ∧ (∀ r, a.bg = some r → r < h.bgs.length) ∧
    ∀ r, a.xmap = some r → r < h.maps.length

/-- What the signal returned by an operation should show: the attributes of the original, but the
background as a lazy array, the detector and the background binned, or whatever the operation
makes of them. -/
def returnedView {D B X : Type} (v : AttrView D B X) : OutOfPlace D B X → AttrView D B X
  | .plain => v
  | .asLazy toLazy => { v with bg := v.bg.map toLazy }
  | .downsample shrink bin => { v with det := v.det.map shrink, bg := v.bg.map bin }
  | .deepcopy => v
  | .derive fD fB fX => ⟨v.det.map fD, v.bg.bind fB, v.xmap.bind fX⟩

end Kp
