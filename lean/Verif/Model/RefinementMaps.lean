import Verif.Model.DictionaryIndexing
import Verif.Model.GetPatterns

/-
How refinement selects map points and puts results back:
`_get_indexed_points_in_data_in_xmap` (`/repo/src/kikuchipy/signals/util/_crystal_map.py`
L111-161), `_prepare_patterns_for_refinement` (`/repo/src/kikuchipy/signals/ebsd.py` L2972-3047),
`_RefinementSetup.__init__` (`/repo/src/kikuchipy/indexing/_refinement/_refinement.py` L948-1010)
and `compute_refine_*_results` (L58-298).

Simplifications: arrays are flattened row-major. The solver of one pattern is a function of the
pattern, the starting rotation(s) and the PC. Pseudo-symmetry operators are part of what the
starting rotation stands for.
-/

namespace Kp

/-- What refinement uses of an orix `CrystalMap`: the shape of the points in the data, the
`is_in_data` array, and phase IDs and rotations of *all* points. -/
structure RMap (R : Type*) where
  shape : List ℕ
  isInData : List Bool
  allPhaseId : List ℤ
  allRotations : List R

namespace RMap
variable {R : Type*}

/-- `xmap.phase_id`: phase IDs of the points in the data (orix). -/
def phaseId (x : RMap R) : List ℤ := selectMask x.isInData x.allPhaseId

/-- `xmap.is_indexed` (orix): of points in the data. -/
def isIndexed (x : RMap R) : List Bool := x.phaseId.map (fun p => p != -1)

/-- `xmap.rotations[:, 0]` (orix): best rotations of the points in the data. -/
def rotations (x : RMap R) : List R := selectMask x.isInData x.allRotations

end RMap

/-- `np.unique` of phase IDs (the order does not matter here). -/
def uniqueIds (l : List ℤ) : List ℤ := l.dedup

/-- Indices of `True` (`np.where(a)[0]`). -/
def whereTrue (a : List Bool) : List ℕ := (List.range a.length).filter (fun i => a.getD i false)

/-- Largest and smallest value (`.max()`, `.min()`), 0 for an empty list. -/
def natMax (l : List ℕ) : ℕ := l.foldl max 0

def natMin (l : List ℕ) : ℕ := match l with
  | [] => 0
  | a :: l => l.foldl min a

/-- The shape of the smallest box with all points, and whether it is full
(`_crystal_map.py` L146-158). Errors: no points, or an `is_in_data` array of another size than
the map shape. -/
def maskBox (shape : List ℕ) (inData : List Bool) : Except Err (List ℕ × Bool) :=
  match shape with
  | [_] =>
    let idx := whereTrue inData
    match idx.head?, idx.getLast? with
    | some a, some b =>
      let size := b - a + 1
      .ok ([size], decide (size = idx.length))
    | _, _ => .error .indexError
  | [r, c] =>
    if inData.length ≠ r * c then .error .valueError
    else
      let idx := whereTrue inData
      if idx = [] then .error .valueError
      else
        let rows := idx.map (· / c)
        let cols := idx.map (· % c)
        let rSize := natMax rows - natMin rows + 1
        let cSize := natMax cols - natMin cols + 1
        .ok ([rSize, cSize], decide (rSize * cSize = idx.length))
  | _ => .error .valueError

/-- The result of `_get_indexed_points_in_data_in_xmap`. -/
structure IndexedPoints where
  inDataIndexed : List Bool
  inData : List Bool
  phaseId : ℤ
  maskShape : Option (List ℕ)
  deriving DecidableEq

/-- The first part of `_get_indexed_points_in_data_in_xmap` (`_crystal_map.py` L115-132): points
in the data and mask, and their phase IDs. -/
def pointsAndPhases {R : Type*} (x : RMap R) (mask : Option (List ℕ × List Bool)) :
    Except Err (List Bool × List ℤ) :=
  match mask with
  | none => .ok (x.isInData, uniqueIds (selectMask x.isIndexed x.phaseId))
  | some m =>
    if m.1 ≠ x.shape then .error .valueError
    else
      let inMask := m.2.map not
      if inMask.length ≠ x.isInData.length then .error .indexError
      else
        let inMaskAndData := selectMask x.isInData inMask
        .ok (List.zipWith (· && ·) x.isInData inMask,
          uniqueIds (selectMask inMaskAndData x.phaseId))

/-- `_get_indexed_points_in_data_in_xmap` (`_crystal_map.py` L111-161). -/
def indexedPoints {R : Type*} (x : RMap R) (mask : Option (List ℕ × List Bool)) :
    Except Err IndexedPoints :=
  match pointsAndPhases x mask with
  | .error e => .error e
  | .ok (inData, ids) =>
    if ¬ (ids.length = 1 ∨ (ids.length = 2 ∧ -1 ∈ ids)) then .error .valueError
    else match ids.filter (fun p => p != -1) with
      | [] => .error .indexError
      | phase :: _ =>
        let isIndexed := scatterMask (List.replicate inData.length false) x.isInData x.isIndexed
        let inDataIndexed := List.zipWith (· && ·) inData isIndexed
        match maskBox x.shape inData with
        | .error e => .error e
        | .ok (box, full) =>
          .ok { inDataIndexed := inDataIndexed
                inData := inData
                phaseId := phase
                maskShape := if inDataIndexed ≠ inData ∨ full = false then none else some box }

/-- Chunk functions (`_refinement.py` L439-716): a loop over the patterns of a chunk. -/
def refineChunk {P R C V : Type*} (solve : P → R → C → V) (ps : List P) (rs : List R)
    (cs : List C) : List V :=
  List.zipWith (fun f c => f c) (List.zipWith (fun p r => solve p r) ps rs) cs

/-- `da.map_blocks(chunk_func, patterns, rotations, pc)` (`_refinement.py` L391-423, L600-609,
L748-757): all arrays are split into the same chunks. -/
def refineBlocks {P R C V : Type*} (solve : P → R → C → V) (chunks : List ℕ) (ps : List P)
    (rs : List R) (cs : List C) : List V :=
  (List.zipWith (fun f c => f c)
    (List.zipWith (fun p r => refineChunk solve p r) (splitChunks chunks ps)
      (splitChunks chunks rs))
    (splitChunks chunks cs)).flatten

/-- The refinement result of one point: score, number of evaluations, rotation, PC. -/
structure Refined (R C K : Type*) where
  score : K
  numEvals : ℕ
  rotation : R
  pc : C

/-- The map and PCs returned by refinement. -/
structure RefinedMap (R C K : Type*) where
  isInData : List Bool
  phaseId : List ℤ
  scores : List K
  numEvals : List ℕ
  rotations : List R
  pc : List C
  /-- The navigation shape of the returned detector. -/
  pcShape : List ℕ

/-- Refinement of a map: `EBSD.refine_orientation`, `refine_projection_center` and
`refine_orientation_projection_center` (`ebsd.py` L2148-2185, L2332-2374, L2557-2592) with the
selection of patterns (`_prepare_patterns_for_refinement`), rotations and PCs
(`_RefinementSetup.__init__` L965-1000, with `detPc` the flattened PCs of the detector) and
`compute_refine_orientation_projection_center_results` (L195-298). -/
def refineMap {P R C K : Type*} [Zero K] (identity : R) (solve : P → R → C → Refined R C K)
    (x : RMap R) (mask : Option (List ℕ × List Bool)) (patterns : List P) (detPc : List C)
    (chunks : List ℕ) : Except Err (RefinedMap R C K) :=
  match indexedPoints x mask with
  | .error e => .error e
  | .ok pts =>
    if pts.inDataIndexed.length ≠ patterns.length then .error .indexError
    else
      let n := pts.inDataIndexed.length
      let points := pts.inDataIndexed
      let pats := if points.all id then patterns else selectMask points patterns
      let rots := selectMask (selectMask x.isInData points) x.rotations
      match detPc with
      | [] => .error .indexError
      | pc0 :: rest =>
        let pcs := if rest = [] then List.replicate (points.count true) pc0
          else selectMask points detPc
        let res := refineBlocks solve chunks pats rots pcs
        let isIndexed := scatterMask (List.replicate pts.inData.length false) x.isInData x.isIndexed
        let phase := scatterMask (List.replicate n 0) points
          (List.replicate (points.count true) pts.phaseId)
        let phase := scatterMask phase (isIndexed.map not)
          (List.replicate ((isIndexed.map not).count true) (-1))
        .ok { isInData := pts.inData
              phaseId := phase
              scores := scatterMask (List.replicate n 0) points (res.map Refined.score)
              numEvals := scatterMask (List.replicate n 0) points (res.map Refined.numEvals)
              rotations := scatterMask (List.replicate n identity) points
                (res.map Refined.rotation)
              pc := res.map Refined.pc
              pcShape := pts.maskShape.getD [res.length] }

end Kp
