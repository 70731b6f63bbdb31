import Verif.Model.MergeMaps
import Verif.Model.HoughIndexing
import Verif.Model.RefinementMaps

/-
Model of where `merge_crystal_maps` (`indexing/_merge_crystal_maps.py`) puts the points of the maps
it merges: the masks made from `is_in_data` when none are given (L96-107), and the coordinates of the
merged map (L342-354).

Simplifications: the maps are 2D, with at least two rows and columns (orix leaves out axes with one
value), and the coordinates of all points of a map are those of a grid. orix' `CrystalMap.shape` and
`_data_slices_from_coordinates()` are those of the smallest box with all points in the data; the
latter are found from the coordinates in units of the step size, so the coordinates of the first point
must be 0 for this to be the box, as they are in maps from kikuchipy.
-/

namespace Kp

/-- A crystal map of points on a grid: the shape of all points (`_original_shape`), the step sizes,
`is_in_data` and the data of all points, in row-major order. -/
structure GridMap (K R D : Type) where
  ny : ℕ
  nx : ℕ
  dy : K
  dx : K
  inData : ℕ → Bool
  nRot : ℕ
  rots : ℕ → List R
  scores : ℕ → ℕ → K
  sims : ℕ → ℕ → ℤ
  phaseId : ℕ → ℤ
  name : String
  phase : D

/-- The smallest box with all points in the data: rows `r0` to (not including) `r1`, and columns `c0`
to `c1`. -/
structure DataBox where
  r0 : ℕ
  r1 : ℕ
  c0 : ℕ
  c1 : ℕ
  deriving DecidableEq

section
variable {K R D : Type} [Field K] [LinearOrder K] [DecidableEq D]

namespace GridMap

/-- The points in the data. -/
def points (g : GridMap K R D) : List ℕ := (List.range (g.ny * g.nx)).filter g.inData

/-- `xmap._data_slices_from_coordinates()` (L104). -/
def box (g : GridMap K R D) : DataBox :=
  let rows := g.points.map (· / g.nx)
  let cols := g.points.map (· % g.nx)
  ⟨natMin rows, natMax rows + 1, natMin cols, natMax cols + 1⟩

/-- The attributes of the map used when merging: those of the points in the data
(`CrystalMap.__getattr__`), and `CrystalMap.shape`. -/
def toXMap (g : GridMap K R D) : XMap K R D where
  shape := [g.box.r1 - g.box.r0, g.box.c1 - g.box.c0]
  size := g.points.length
  nRot := g.nRot
  rots := fun j => g.rots (g.points.getD j 0)
  scores := fun j => g.scores (g.points.getD j 0)
  sims := fun j => g.sims (g.points.getD j 0)
  phaseId := fun j => g.phaseId (g.points.getD j 0)
  name := g.name
  phase := g.phase

/-- `is_in_data.reshape(_original_shape)[slice_i]` (L105), flattened. -/
def croppedMask (g : GridMap K R D) : NavMask where
  shape := [g.box.r1 - g.box.r0, g.box.c1 - g.box.c0]
  keep := fun m =>
    let w := g.box.c1 - g.box.c0
    g.inData ((g.box.r0 + m / w) * g.nx + (g.box.c0 + m % w))

end GridMap

/-- `merge_crystal_maps` without navigation masks (L96-107). A map without points in the data has no
box (`ValueError` from `np.min`). -/
def mergeGridMaps (gs : List (GridMap K R D)) (meanNBest : ℤ) (greaterIsBetter : Option Bool) :
    Except Err (MergedMap K R D) :=
  if gs.all (fun g => (List.range (g.ny * g.nx)).all g.inData) then
    mergeCrystalMaps (gs.map GridMap.toXMap) meanNBest greaterIsBetter none
  else if gs.any (fun g => g.points.isEmpty) then .error .valueError
  else mergeCrystalMaps (gs.map GridMap.toXMap) meanNBest greaterIsBetter
    (some (gs.map (fun g => some g.croppedMask)))

/-- The coordinates of the merged map (L342-345): step sizes of the first map, in the order x, y. -/
def mergedCoordinates (gs : List (GridMap K R D)) (mapShape : List ℕ) :
    Except String (List K × Option (List K)) :=
  match gs.head? with
  | none => .error "IndexError: list index out of range"
  | some g => coordinateArrays mapShape (some ([g.dx, g.dy].take mapShape.length))

end

end Kp
