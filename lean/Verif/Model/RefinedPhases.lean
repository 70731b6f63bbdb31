import Verif.Model.Refine
import Verif.Model.RefinementMaps
import Verif.Model.MergeMaps

/-
Model of refining the same patterns with one master pattern per phase: the crystal maps returned by
`EBSD.refine_orientation` (`signals/ebsd.py`, `indexing/_refinement/_refinement.py`) as they are passed
to `merge_crystal_maps` (`indexing/_merge_crystal_maps.py`), without simulation indices.

Simplifications: which points are in the data and which of them are indexed
(`_get_indexed_points_in_data_in_xmap`, `Verif.Model.RefinementMaps`) are inputs, and so are the
starting Euler angles and bounds. The map shape is the one of the patterns.
-/

namespace Kp

/-- Orientation refinement with the master pattern of one phase: the arguments (with the points to
refine), starting points and bounds, the shape of the map, the points of the crystal map in the data (and
not masked out), the phase ID in the crystal map, and the phase of the master pattern. -/
structure PhaseRefinement (D : Type) where
  args : RefineArgs
  starts : List (List (List ℝ))
  lower : List (List (List ℝ))
  upper : List (List (List ℝ))
  nav : List ℕ
  inData : List Bool
  id : ℤ
  name : String
  phase : D

/-- One point of a refined crystal map. -/
structure RefinedPoint where
  score : ℝ
  rot : Quat
  phaseId : ℤ

noncomputable section

/-- What a refined map has in points which are not indexed (`_get_crystal_map_parameters`,
`_refinement.py` L302-334, and L94-96): score 0, the identity rotation, phase ID -1. -/
def notRefined : RefinedPoint := ⟨0, ⟨1, 0, 0, 0⟩, -1⟩

/-- The results of one point (`_refinement.py` L92, L107-111). -/
def refinedPoint (id : ℤ) (r : RefineRow) : RefinedPoint :=
  ⟨r.score, rotationFromEuler (r.x.getD 0 0) (r.x.getD 1 0) (r.x.getD 2 0), id⟩

variable {D : Type}

/-- The points in the data of the refined crystal map (`_refinement.py` L85-118): the results are put
in the points to refine, and `CrystalMap` gives the points in the data. -/
def refinedPoints (ph : PhaseRefinement D) (rows : List RefineRow) : List RefinedPoint :=
  selectMask ph.inData (scatterMask (List.replicate ph.args.points.length notRefined) ph.args.points
    (rows.map (refinedPoint ph.id)))

/-- The refined crystal map, as used by `merge_crystal_maps`. -/
def refinedMapOf (ph : PhaseRefinement D) (rows : List RefineRow) : XMap ℝ Quat D :=
  let pts := refinedPoints ph rows
  { shape := ph.nav
    size := pts.length
    nRot := 1
    rots := fun j => (pts[j]?.map (fun p => [p.rot])).getD []
    scores := fun j _ => (pts[j]?.map (·.score)).getD 0
    sims := fun _ _ => 0
    phaseId := fun j => (pts[j]?.map (·.phaseId)).getD 0
    name := ph.name
    phase := ph.phase }

/-- The navigation mask for `merge_crystal_maps` (`_merge_crystal_maps.py` L98-107, L144-153): there is
data in the points in the data. -/
def inDataMask (ph : PhaseRefinement D) : NavMask := ⟨ph.nav, fun i => ph.inData[i]? == some true⟩

/-- `EBSD.refine_orientation` (`ebsd.py` L1986-2186) of the same patterns for one phase after the other.
A point which cannot be refined is an `IndexError` (see `Verif.Model.Refine`). -/
def refinePhases : List (PhaseRefinement D) → Except Err (List (XMap ℝ Quat D))
  | [] => .ok []
  | ph :: l =>
    match refineOrientation ph.args ph.starts ph.lower ph.upper with
    | .error e => .error e
    | .ok rows =>
      if rows.any Option.isNone then .error .indexError
      else
        match refinePhases l with
        | .error e => .error e
        | .ok xs => .ok (refinedMapOf ph (rows.filterMap (fun r => r)) :: xs)

end

end Kp
