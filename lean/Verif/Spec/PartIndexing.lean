import Verif.Spec.PartOfMap
import Verif.Model.IndexingCalls
import Verif.Model.RefinementMaps
import Verif.Model.HoughIndexing

/-
Specification of C126: parts of what is given to indexing and refinement, and of what they return.
A part is a list of indices of map points, in any order, with or without repetition, together with
the navigation shape they are given.
-/

namespace Kp.Spec

/-- The part of an optional navigation mask. -/
def maskPart (shape idx : List ℕ) (mask : Option (List ℕ × List Bool)) :
    Option (List ℕ × List Bool) := mask.map (fun m => (shape, pick idx m.2))

/-- A call of dictionary indexing with part of the patterns and of the navigation mask, all other
arguments kept. -/
def callPart {K R : Type} (shape idx : List ℕ) (c : IndexingCall K R) : IndexingCall K R :=
  { c with
    navShape := shape
    patterns := pick idx c.patterns
    navMask := c.navMask.map (fun m => ⟨shape, pick idx m.data⟩) }

/-- Two maps returned by dictionary indexing have the same points in the data and the same scores,
dictionary indices and rotations in these points.  (The other points have unspecified values.) -/
def SameIndexed {K R : Type} (a b : List (IndexedPoint K R)) : Prop :=
  List.Forall₂ (fun p q => p.inData = q.inData ∧ (p.inData = true → p = q)) a b

/-- A crystal map with only some of the points. -/
def mapPart {R : Type} (shape idx : List ℕ) (x : RMap R) : RMap R where
  shape := shape
  isInData := pick idx x.isInData
  allPhaseId := pick idx x.allPhaseId
  allRotations := pick idx x.allRotations

/-- The projection centers of a part of the map: the only one, or those of the points. -/
def pcPart {C : Type} (idx : List ℕ) (pcs : List C) : List C :=
  if pcs.length = 1 then pcs else pick idx pcs

/-- A navigation shape in one or two dimensions for `n` points. -/
def ShapeOf (n : ℕ) (shape : List ℕ) : Prop :=
  shape = [n] ∨ ∃ r c, shape = [r, c] ∧ r * c = n

/-- A signal with some of the patterns. -/
def signalPart {K P : Type} (shape : List ℕ) (steps : List K) (idx : List ℕ) (s : HoughSignal K P) :
    HoughSignal K P :=
  { s with nav := shape, steps := steps, patterns := pick idx s.patterns }

/-- The indexer for a part of the map: the same if it has one projection center for all patterns,
otherwise with the projection centers of the part (as `EBSDDetector.get_indexer()` makes it from the
detector of the part). -/
def indexerPart {K P : Type} (idx : List ℕ) (ix : HoughIndexer K P) : HoughIndexer K P :=
  if ix.pcShape = [3] then ix
  else { ix with pcShape := squeezedPcShape idx.length, pcs := pick idx ix.pcs }

/-- Indices of the points in the given rows and columns of a map with `nx` columns, row by row: the
points of `s.inav[...]`. -/
def rectangle (nx : ℕ) (ys xs : List ℕ) : List ℕ := ys.flatMap fun y => xs.map fun x => y * nx + x

/-- A crystal map of shape `(ny, nx)` after taking rows `r0, …, r1 - 1` and columns `c0, …, c1 - 1`
with `xmap[r0:r1, c0:c1]`, as orix does it: the arrays of all points are kept and `is_in_data` is
`False` for the other points. -/
def sliceOfMap {R : Type} (nx r0 r1 c0 c1 : ℕ) (x : RMap R) : RMap R :=
  { x with
    shape := [r1 - r0, c1 - c0]
    isInData := x.isInData.zipIdx.map fun p =>
      p.1 && decide (r0 ≤ p.2 / nx ∧ p.2 / nx < r1 ∧ c0 ≤ p.2 % nx ∧ p.2 % nx < c1) }

end Kp.Spec
