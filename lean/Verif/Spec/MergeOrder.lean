import Verif.Spec.MergeMaps

/-
Specification of C150: merging crystal maps in another order, or one after the other.
-/

namespace Kp.Spec

variable {K R D : Type*} [Field K] [LinearOrder K]

/-- The navigation masks passed, if any are, for maps listed with their masks. -/
def givenMasks (masked : Bool) (ps : List (XMap K R D × Option NavMask)) :
    Option (List (Option NavMask)) :=
  if masked then some (ps.map Prod.snd) else none

/-- The shape of a map with its mask. -/
def shapeWith (masked : Bool) (p : XMap K R D × Option NavMask) : List ℕ :=
  if masked then (match p.2 with | some k => k.shape | none => p.1.shape) else p.1.shape

/-- The row of a map point in the data of a map, if the map has data there. -/
def rowWith (masked : Bool) (p : XMap K R D × Option NavMask) (m : ℕ) : Option ℕ :=
  if masked then
    match p.2 with
    | none => some m
    | some q => if q.keep m then some ((List.range m).countP q.keep) else none
  else some m

/-- A map has a better score (mean of `n` scores) in a map point than all others. -/
def BestAlone (masked greaterIsBetter : Bool) (n : ℕ) (ps : List (XMap K R D × Option NavMask)) (m : ℕ)
    (p : XMap K R D × Option NavMask) (row : ℕ) : Prop :=
  rowWith masked p m = some row ∧
  ∃ rest, ps.Perm (p :: rest) ∧ ∀ q ∈ rest, ∀ r, rowWith masked q m = some r →
    ¬ AsGood greaterIsBetter (meanScore q.1 r n) (meanScore p.1 row n)

/-- All maps say that a point is not indexed. With masks this is lost (C26). -/
def NowhereIndexed (masked : Bool) (ps : List (XMap K R D × Option NavMask)) (m : ℕ) : Prop :=
  masked = false ∧ ∀ p ∈ ps, p.1.phaseId m = -1

/-- A merged map as a crystal map to be merged again: `M` points with `N` scores each. -/
def asCrystalMap (out : MergedMap K R D) (shape : List ℕ) (N : ℕ) (name : String) (phase : D) :
    XMap K R D where
  shape := shape
  size := shape.prod
  nRot := N
  rots := out.rots
  scores := fun m n => (out.scores m).getD n 0
  sims := fun m n => (out.sims m).getD n 0
  phaseId := out.phaseId
  name := name
  phase := phase

/-- The phase in the list of phases which a point of a merged map has. -/
def phaseEntryAt (out : MergedMap K R D) (m : ℕ) : Option (String × Option D) :=
  (out.phases.find? fun e => e.1 == out.phaseId m).map Prod.snd

end Kp.Spec
