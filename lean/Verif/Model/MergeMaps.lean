import Mathlib.Algebra.Order.Field.Basic
import Mathlib.Data.List.Sort
import Verif.Model.Mask

/-
Model of `merge_crystal_maps` (`indexing/_merge_crystal_maps.py`).

Simplifications: every crystal map has one phase (besides not-indexed points); scores are
exact numbers without NaN (NaN appears only where a map has no data, `none` here); there are
as many simulation indices as scores per point; the number of `False` in the masks and the
masks found from `is_in_data` are inputs. The orix `CrystalMap` constructor is not modelled:
the result is what is passed to it.
-/

namespace Kp

/-- A crystal map, with rows for the points in the data. -/
structure XMap (K R D : Type*) where
  /-- `CrystalMap.shape` -/
  shape : List ℕ
  /-- Number of points in the data -/
  size : ℕ
  /-- `rotations_per_point` -/
  nRot : ℕ
  rots : ℕ → List R
  scores : ℕ → ℕ → K
  sims : ℕ → ℕ → ℤ
  phaseId : ℕ → ℤ
  /-- Name of the phase, and everything else compared by `_equal_phase`. -/
  name : String
  phase : D

/-- A navigation mask, inverted: `True` where there is data. -/
structure NavMask where
  shape : List ℕ
  keep : ℕ → Bool

structure MergedMap (K R D : Type*) where
  phaseId : ℕ → ℤ
  phases : List (ℤ × String × Option D)
  rots : ℕ → List R
  scores : ℕ → List K
  sims : ℕ → List ℤ
  mergedScores : ℕ → List (Option K)
  mergedSims : ℕ → List (Option ℤ)

section
variable {K R D : Type*} [Field K] [LinearOrder K] [DecidableEq D]

/-- First position of the largest value that is not NaN. -/
def nanargmaxAux : List (Option K) → ℕ → Option (ℕ × K) → Option (ℕ × K)
  | [], _, b => b
  | none :: l, i, b => nanargmaxAux l (i + 1) b
  | some x :: l, i, none => nanargmaxAux l (i + 1) (some (i, x))
  | some x :: l, i, some (j, y) =>
    if y < x then nanargmaxAux l (i + 1) (some (i, x)) else nanargmaxAux l (i + 1) (some (j, y))

/-- `np.nanargmax` of one row, `none` if all are NaN (NumPy raises `ValueError`). -/
def nanargmax (l : List (Option K)) : Option ℕ := (nanargmaxAux l 0 none).map Prod.fst

/-- `combined_scores[m, n, k]` (L193-203) of one map: its scores put where its mask is `True`
(everywhere without mask). -/
def combined {α : Type*} (x : XMap K R D) (mask : Option (ℕ → Bool)) (M : ℕ) (a : ℕ → ℕ → α)
    (m n : ℕ) : Option α :=
  match mask with
  | some keep =>
    boolSet keep M (fun _ => none) ((List.range x.size).map (fun j => some (a j n))) m
  | none => some (a m n)

/-- Python's `[:n]` on an axis of length `len`. -/
def sliceTo (n : ℤ) (len : ℕ) : ℕ := if 0 ≤ n then min n.toNat len else ((len : ℤ) + n).toNat

/-- `np.nanmean`. -/
def nanmeanO (l : List (Option K)) : Option K :=
  let v := l.filterMap id
  if v = [] then none else some (v.sum / v.length)

/-- `best_scores[m, k]` (L205-211) of one map. -/
def bestScore (x : XMap K R D) (mask : Option (ℕ → Bool)) (M N : ℕ) (meanNBest : ℤ) (m : ℕ) :
    Option K :=
  if 1 < N then
    nanmeanO ((List.range (sliceTo meanNBest N)).map (combined x mask M x.scores m))
  else combined x mask M x.scores m 0

/-- `not_indexed[i, m]` (L216-226) of one map: with a mask the assignment is to a copy and has
no effect. -/
def notIndexed (x : XMap K R D) (mask : Option (ℕ → Bool)) (m : ℕ) : Bool :=
  match mask with
  | some _ => false
  | none => x.phaseId m == -1

/-- The values of the points `phase_mask` in a map (L267-283): `a[phase_mask2]` with
`phase_mask2 = phase_mask[nav_mask1d]`, or `a[phase_mask]` without mask. -/
def selected {α : Type*} (x : XMap K R D) (mask : Option (ℕ → Bool)) (M : ℕ)
    (phaseMask : ℕ → Bool) (a : ℕ → α) : List α :=
  match mask with
  | some keep =>
    let phaseMask2 := boolSel keep M phaseMask
    boolSel (fun j => phaseMask2.getD j false) x.size a
  | none => boolSel phaseMask x.size a

/-- `PhaseList.add`: the ID is one more than the largest ID, or 0. -/
def addPhase (l : List (ℤ × String × Option D)) (name : String) (p : Option D) : List (ℤ × String × Option D) :=
  l ++ [(match (l.map (·.1)).max? with | some i => i + 1 | none => 0, name, p)]

/-- State of the loop over maps (L239-283). -/
structure MergeState (K R D : Type*) where
  phaseId : ℕ → ℤ
  phases : List (ℤ × String × Option D)
  rots : ℕ → List R
  scores : ℕ → List K
  sims : ℕ → List ℤ

/-- One iteration of the loop over maps (L239-283). -/
def mergeStep (M N : ℕ) (st : MergeState K R D) (x : XMap K R D) (mask : Option (ℕ → Bool))
    (i : ℕ) : MergeState K R D :=
  let phaseMask : ℕ → Bool := fun m => st.phaseId m == (i : ℤ)
  if (List.range M).any phaseMask then
    let pp : (ℕ → ℤ) × List (ℤ × String × Option D) :=
      match st.phases.find? (fun p => p.2.1 == x.name) with
      | some p =>
        if p.2.2 = some x.phase then
          (fun m => if phaseMask m then p.1 else st.phaseId m, st.phases)
        else (st.phaseId, addPhase st.phases (x.name ++ toString i) (some x.phase))
      | none => (st.phaseId, addPhase st.phases x.name (some x.phase))
    { phaseId := pp.1
      phases := pp.2
      rots := boolSet phaseMask M st.rots (selected x mask M phaseMask x.rots)
      scores := boolSet phaseMask M st.scores
        (selected x mask M phaseMask (fun j => (List.range N).map (x.scores j)))
      sims := boolSet phaseMask M st.sims
        (selected x mask M phaseMask (fun j => (List.range N).map (x.sims j))) }
  else st

/-- The loop over maps, the first map having index `i`. -/
def mergeLoop (M N : ℕ) :
    List (XMap K R D × Option (ℕ → Bool)) → ℕ → MergeState K R D → MergeState K R D
  | [], _, st => st
  | (x, mask) :: l, i, st => mergeLoop M N l (i + 1) (mergeStep M N st x mask i)

/-- The order of `np.argsort(sign * -scores, kind="mergesort")`: NaN is last. -/
def scoreLe (sign : K) (s : List (Option K)) (i j : ℕ) : Prop :=
  match s.getD i none, s.getD j none with
  | some x, some y => sign * -x ≤ sign * -y
  | none, some _ => False
  | _, none => True

instance (sign : K) (s : List (Option K)) : DecidableRel (scoreLe sign s) := by
  intro i j
  unfold scoreLe
  split <;> infer_instance

/-- `best_sorted_idx` (L288-290) of one point. -/
def bestSortedIdx (sign : K) (s : List (Option K)) : List ℕ :=
  (List.range s.length).insertionSort (scoreLe sign s)

/-- Smallest and largest value, NaN ignored (`none` if all are NaN). -/
def nanMinMax (l : List (Option ℤ)) : Option (ℤ × ℤ) :=
  match l.filterMap id with
  | [] => none
  | a :: l => some (l.foldl min a, l.foldl max a)

/-- Increments of the simulation indices per map (L319-327), from the smallest and largest
index of each map; `prev` is the largest index of the previous map after its increment. -/
def simIncrements : List (ℤ × ℤ) → Option ℤ → List ℤ
  | [], _ => []
  | (_, hi) :: l, none => 0 :: simIncrements l (some hi)
  | (lo, hi) :: l, some prev =>
    let inc := |prev - lo| + 1
    inc :: simIncrements l (some (hi + inc))

/-- One row of a combined array, reshaped from `(N, K)` to `(N * K)`. -/
def combRow {α β : Type*} (maps : List β) (N : ℕ) (f : β → ℕ → Option α) : List (Option α) :=
  (List.range N).flatMap (fun n => maps.map (fun x => f x n))

/-- The arrays of the merged map (L189-345) for maps with their masks (`navigation_masks1d`),
`M` map points and `N` scores per point. -/
def mergeCore (maps : List (XMap K R D × Option (ℕ → Bool))) (M N : ℕ) (sign : K)
    (meanNBest : ℤ) : Except Err (MergedMap K R D) :=
  -- `squeeze()` removes the axis of map points if there is one point (L207): `np.nanargmax`
  -- then raises `AxisError`, or the masks have the wrong length
  if 1 < N ∧ M = 1 then
    .error (if sliceTo meanNBest N = 1 then .valueError else .indexError)
  else
    let best : ℕ → Option ℕ := fun m => nanargmax (maps.map (fun p =>
      (bestScore p.1 p.2 M N meanNBest m).map (sign * ·)))
    -- `np.nanargmax` raises for points with only NaN (L214)
    if (List.range M).any (fun m => (best m).isNone) then .error .valueError
    else
      let phaseId : ℕ → ℤ := fun m =>
        if maps.all (fun p => notIndexed p.1 p.2 m) then -1 else (((best m).getD 0 : ℕ) : ℤ)
      let st := mergeLoop M N maps 0
        { phaseId := phaseId
          phases := if (List.range M).any (fun m => phaseId m == -1) then
              [((-1 : ℤ), "not_indexed", none)] else []
          rots := fun _ => []
          scores := fun _ => List.replicate N 0
          sims := fun _ => List.replicate N 0 }
      let incs := simIncrements (maps.map (fun p => (nanMinMax ((List.range M).flatMap (fun m =>
        (List.range N).map (combined p.1 p.2 M p.1.sims m)))).getD (0, 0))) none
      let combScores : ℕ → List (Option K) := fun m =>
        combRow maps N (fun p n => combined p.1 p.2 M p.1.scores m n)
      let combSims : ℕ → List (Option ℤ) := fun m =>
        combRow (maps.zip incs) N (fun p n =>
          (combined p.1.1 p.1.2 M p.1.1.sims m n).map (· + p.2))
      .ok
        { phaseId := st.phaseId
          phases := st.phases
          rots := st.rots
          scores := st.scores
          sims := st.sims
          mergedScores := fun m =>
            (bestSortedIdx sign (combScores m)).map (fun j => (combScores m).getD j none)
          mergedSims := fun m =>
            (bestSortedIdx sign (combScores m)).map (fun j => (combSims m).getD j none) }

/-- `navigation_masks1d` (L144-153): with masks, a map without mask gets a mask of all
`True`. -/
def masks1d (xmaps : List (XMap K R D)) (masks : Option (List (Option NavMask))) :
    List (XMap K R D × Option (ℕ → Bool)) :=
  match masks with
  | none => xmaps.map (fun x => (x, none))
  | some ms => (xmaps.zip ms).map (fun p => (p.1, match p.2 with
    | some k => some k.keep
    | none => some (fun _ => true)))

/-- `map_shapes` (L98-136). -/
def mapShapes (xmaps : List (XMap K R D)) (masks : Option (List (Option NavMask))) :
    List (List ℕ) :=
  match masks with
  | none => xmaps.map (·.shape)
  | some ms => (xmaps.zip ms).map (fun p => match p.2 with
    | some k => k.shape
    | none => p.1.shape)

/-- The sign of the scores (L171-179). -/
def mergeSign (meanNBest : ℤ) (greaterIsBetter : Option Bool) : K :=
  match greaterIsBetter with
  | none => if 0 ≤ meanNBest then 1 else -1
  | some b => if b then 1 else -1

/-- `mean_n_best` after L171-179. -/
def mergeNBest (meanNBest : ℤ) (greaterIsBetter : Option Bool) : ℤ :=
  match greaterIsBetter with
  | none => |meanNBest|
  | some _ => meanNBest

/-- `merge_crystal_maps` (L94-354), with simulation indices. `masks` is `navigation_masks`
(inverted). Putting the data of a map in its mask raises `ValueError` if the mask does not
have as many `True` as the map has points. -/
def mergeCrystalMaps (xmaps : List (XMap K R D)) (meanNBest : ℤ) (greaterIsBetter : Option Bool)
    (masks : Option (List (Option NavMask))) : Except Err (MergedMap K R D) :=
  if (masks.map List.length).getD xmaps.length ≠ xmaps.length then .error .valueError
  else
    let shapes := mapShapes xmaps masks
    let shape := shapes.headD []
    if shapes.any (· != shape) then .error .valueError
    else
      let M := shape.prod
      let maps := masks1d xmaps masks
      if maps.any (fun p => p.1.size != rank (p.2.getD (fun _ => true)) M) then
        .error .valueError
      else
        let N := (xmaps.map (·.nRot)).headD 0
        if xmaps.any (fun x => x.nRot != N) then .error .valueError
        else mergeCore maps M N (mergeSign meanNBest greaterIsBetter)
          (mergeNBest meanNBest greaterIsBetter)

end

end Kp
