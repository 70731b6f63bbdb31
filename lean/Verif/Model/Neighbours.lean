import Mathlib.Algebra.BigOperators.Group.Finset.Basic
import Mathlib.Data.List.Sort
import Verif.Model.Downsample

/-
Model of operations on map neighbours: `EBSD.average_neighbour_patterns`,
`get_average_neighbour_dot_product_map` and `get_neighbour_dot_product_matrices`
(`signals/ebsd.py`), `pattern/chunk.py`, `signals/util/_map_helper.py` and
`_get_chunk_overlap_depth` (`signals/util/_dask.py`).

Simplifications: maps have two navigation axes (a map with one navigation axis is a map with
one column and a window with one column); exact numbers. Dask's `map_overlap` is modelled
from its documentation for `boundary="none"`: each chunk is extended by up to `depth` points
into the neighbouring chunks, the function is called, and the added points are trimmed. Dask
makes sure (by rechunking) that chunks are at least as large as the depth; here extended
chunks are cut at the map edges instead, which is the same then.
-/

namespace Kp

/-! ### Dask -/

/-- Start and stop of the chunk with point `i` along one axis, for chunk sizes starting at
`off`. -/
def chunkBounds : List ℕ → ℕ → ℕ → ℕ × ℕ
  | [], off, _ => (off, off)
  | c :: cs, off, i => if i < off + c then (off, off + c) else chunkBounds cs (off + c) i

/-- Start and stop of the chunk with point `i`, extended by the depth. -/
def overlapBounds (chunks : List ℕ) (n depth i : ℕ) : ℕ × ℕ :=
  let b := chunkBounds chunks 0 i
  (b.1 - depth, min (b.2 + depth) n)

/-- `a[r0:r1, c0:c1]`. -/
def subImg {V : Type*} (a : Img V) (r0 r1 c0 c1 : ℕ) : Img V :=
  { rows := r1 - r0
    cols := c1 - c0
    val := fun r c => a.val (r0 + r) (c0 + c) }

/-- `dask.array.map_overlap(f, a, depth={0: dr, 1: dc}, boundary="none")`. -/
def mapOverlap {V W : Type*} (rowChunks colChunks : List ℕ) (dr dc : ℕ) (f : Img V → Img W)
    (a : Img V) : Img W :=
  { rows := a.rows
    cols := a.cols
    val := fun i j =>
      let rb := overlapBounds rowChunks a.rows dr i
      let cb := overlapBounds colChunks a.cols dc j
      (f (subImg a rb.1 rb.2 cb.1 cb.2)).val (i - rb.1) (j - cb.1) }

/-! ### Averaging -/

/-- Element `(y, x)` of an array, if it exists. -/
def atZ {V : Type*} (a : Img V) (y x : ℤ) : Option V :=
  if 0 ≤ y ∧ y < a.rows ∧ 0 ≤ x ∧ x < a.cols then some (a.val y.toNat x.toNat) else none

section
variable {K : Type*} [Field K] [LinearOrder K] [FloorRing K]

/-- `scipy.ndimage.correlate(..., mode="constant")`: the sum of window coefficients times
the values (`f`) of the elements under the window centered (at half its shape) on `(r, c)`;
elements outside are 0. -/
def correlateConst {V : Type*} (a : Img V) (f : V → K) (w : Img K) (r c : ℕ) : K :=
  ∑ i ∈ Finset.range w.rows, ∑ j ∈ Finset.range w.cols,
    w.val i j * ((atZ a ((r : ℤ) + i - (w.rows / 2 : ℕ)) ((c : ℤ) + j - (w.cols / 2 : ℕ))).map f).getD 0

/-- Conversion from floating point to integer. -/
def truncInt (x : K) : ℤ := if 0 ≤ x then ⌊x⌋ else ⌈x⌉

/-- `window_sums` (`signals/ebsd.py` L1027-1031): correlation of an *integer* array of ones
with the window, which SciPy returns as integers (rounded toward zero). -/
def windowSums (rows cols : ℕ) (w : Img K) (r c : ℕ) : ℤ :=
  truncInt (correlateConst { rows := rows, cols := cols, val := fun _ _ => () } (fun _ => 1) w r c)

/-- `_average_neighbour_patterns` and `_rescale_neighbour_averaged_patterns`
(`pattern/chunk.py` L129-164) on one chunk of patterns of `m` pixels and window sums.
`none` is a pattern of non-finite values (division by a zero window sum). -/
def averageChunk (w : Img K) (m : ℕ) (d : DType) (omin omax : K) (a : Img ((ℕ → K) × ℤ)) :
    Img (Option (List K)) :=
  { rows := a.rows
    cols := a.cols
    val := fun r c =>
      if (a.val r c).2 = 0 then none
      else
        let p := (List.range m).map (fun px =>
          correlateConst a (fun v => v.1 px) w r c / ((a.val r c).2 : K))
        some ((rescaleWithMinMax p (listMin p) (listMax p) omin omax).map (castTo d)) }

/-- `overlap_depth[i]` (`signals/ebsd.py` L1056-1063): `window_shape[i]` is the shape before
a missing second axis was added (`IndexError` if there is none); `dask_array.chunks[i][0]`. -/
def averageDepth (windowShape : List ℕ) (chunks : List ℕ) (n i : ℕ) : Except Err ℕ :=
  if chunks.headD 0 < n then
    match windowShape[i]? with
    | some s => .ok (s / 2 + 1)
    | none => .error .indexError
  else .ok 1

/-- `EBSD.average_neighbour_patterns` (`signals/ebsd.py` L1006-1111) for a valid window with
shape `windowShape` (one or two axes) and coefficients `coeff`, on a map of patterns of `m`
pixels and data type `d`; the chunks are those of `get_dask_array`. -/
def averageNeighbourPatterns (map : Img (ℕ → K)) (m : ℕ) (d : DType) (windowShape : List ℕ)
    (coeff : ℕ → ℕ → K) (rowChunks colChunks : List ℕ) : Except Err (Img (Option (List K))) :=
  if windowShape = [1] ∨ windowShape = [1, 1] then
    .ok { rows := map.rows
          cols := map.cols
          val := fun r c => some ((List.range m).map (map.val r c)) }
  else
    let w : Img K :=
      { rows := windowShape.getD 0 1
        cols := windowShape.getD 1 1
        val := coeff }
    match averageDepth windowShape rowChunks map.rows 0,
        averageDepth windowShape colChunks map.cols 1, dtypeRange d with
    | .error e, _, _ => .error e
    | _, .error e, _ => .error e
    | _, _, none => .error .keyError
    | .ok dr, .ok dc, some (omin, omax) =>
      .ok (mapOverlap rowChunks colChunks dr dc (averageChunk w m d omin omax)
        { rows := map.rows
          cols := map.cols
          val := fun r c => (map.val r c, windowSums map.rows map.cols w r c) })

end

/-! ### Dot products -/

section
variable {V K : Type*}

/-- Window positions in row-major order. -/
def flatPositions (rows cols : ℕ) : List (ℕ × ℕ) :=
  (List.range rows).flatMap (fun i => (List.range cols).map (fun j => (i, j)))

/-- `flat_window_truthy_indices` (`signals/util/_map_helper.py` L317-319). -/
def truthyIndices (w : Img Bool) : List ℕ :=
  (List.range (w.rows * w.cols)).filter (fun k => w.val (k / w.cols) (k % w.cols))

/-- `center_index` (`signals/util/_map_helper.py` L312-321): position of the window origin
among the `True` coefficients; `IndexError` if the origin coefficient is `False`. -/
def centerIndex (w : Img Bool) : Except Err ℕ :=
  let t := truthyIndices w
  let o := (w.rows / 2) * w.cols + w.cols / 2
  if o ∈ t then .ok (t.idxOf o) else .error .indexError

/-- The `indices` `scipy.ndimage.generic_filter` passes for map point `(r, c)` of a chunk of
shape `(rows, cols)`: for every `True` window coefficient the flat index of the map point
under it, or -1 outside the chunk (`signals/util/_map_helper.py` L66-93). -/
def filterIndices (rows cols : ℕ) (w : Img Bool) (r c : ℕ) : List ℤ :=
  (truthyIndices w).map (fun k =>
    let y : ℤ := (r : ℤ) + (k / w.cols : ℕ) - (w.rows / 2 : ℕ)
    let x : ℤ := (c : ℤ) + (k % w.cols : ℕ) - (w.cols / 2 : ℕ)
    if 0 ≤ y ∧ y < rows ∧ 0 ≤ x ∧ x < cols then y * cols + x else -1)

/-- `patterns[np.unravel_index(i, nav_shape)]`. -/
def patternAtFlat (a : Img V) (i : ℤ) : V :=
  a.val ((i / a.cols).toNat) ((i % a.cols).toNat)

/-- `neighbour_idx`: positions in `indices` of the neighbours
(`signals/util/_map_helper.py` L152). -/
def neighbourIdx (indices : List ℤ) (patIdx : ℤ) : List ℕ :=
  (List.range indices.length).filter (fun k =>
    decide (indices.getD k (-1) ≠ patIdx) && decide (indices.getD k (-1) ≠ -1))

/-- `np.nanmean` of numbers: `none` (NaN) if there are none. -/
def nanmean [Field K] (l : List K) : Option K := if l = [] then none else some (l.sum / l.length)

/-- `_neighbour_dot_products` (`signals/util/_map_helper.py` L144-183), the dot products of
the pattern under the window origin with the neighbours in `neighbour_idx`. `dp` is the dot
product after the optional centering and normalization of both patterns. -/
def neighbourDots (dp : V → V → K) (a : Img V) (indices : List ℤ) (center : ℕ) : List K :=
  let patIdx := indices.getD center (-1)
  (neighbourIdx indices patIdx).map (fun k =>
    dp (patternAtFlat a (indices.getD k (-1))) (patternAtFlat a patIdx))

/-- `_get_average_dot_product_map` on one chunk (`signals/util/_map_helper.py` L255-308). -/
def adpChunk [Field K] (dp : V → V → K) (w : Img Bool) (center : ℕ) (a : Img V) : Img (Option K) :=
  { rows := a.rows
    cols := a.cols
    val := fun r c =>
      nanmean (neighbourDots dp a (filterIndices a.rows a.cols w r c) center) }

/-- `_get_neighbour_dot_product_matrices` on one chunk (`signals/util/_map_helper.py`
L186-252): for each map point the matrix as a function of the flat window index, initially
NaN (`none`), updated with the center value and the dot products. -/
def dpMatricesChunk (dp : V → V → K) (w : Img Bool) (center : ℕ) (a : Img V) :
    Img (ℕ → Option K) :=
  { rows := a.rows
    cols := a.cols
    val := fun r c =>
      let indices := filterIndices a.rows a.cols w r c
      let t := truthyIndices w
      let patIdx := indices.getD center (-1)
      let nb := neighbourIdx indices patIdx
      let out : ℕ → Option K := fun k =>
        if k = t.getD center 0 then some (dp (patternAtFlat a patIdx) (patternAtFlat a patIdx))
        else none
      (nb.zip (neighbourDots dp a indices center)).foldl
        (fun out x => fun k => if k = t.getD x.1 0 then some x.2 else out k) out }

/-- `_get_chunk_overlap_depth` (`signals/util/_dask.py` L198-216) for one axis: the number of
neighbours (`Window.n_neighbours`) if the axis is chunked (the largest chunk is not the whole
axis), else no overlap. -/
def dpDepth (windowLen : ℕ) (chunks : List ℕ) (n : ℕ) : ℕ :=
  if chunks.foldl max 0 ≠ n then windowLen - windowLen / 2 - 1 else 0

/-- `EBSD.get_average_neighbour_dot_product_map` (`signals/ebsd.py` L1425-1491) without
`dp_matrices`. -/
def adpMap [Field K] (dp : V → V → K) (map : Img V) (w : Img Bool) (rowChunks colChunks : List ℕ) :
    Except Err (Img (Option K)) :=
  match centerIndex w with
  | .error e => .error e
  | .ok center => .ok (mapOverlap rowChunks colChunks (dpDepth w.rows rowChunks map.rows)
      (dpDepth w.cols colChunks map.cols) (adpChunk dp w center) map)

/-- `EBSD.get_neighbour_dot_product_matrices` (`signals/ebsd.py` L1259-1309). -/
def dpMatrices (dp : V → V → K) (map : Img V) (w : Img Bool) (rowChunks colChunks : List ℕ) :
    Except Err (Img (ℕ → Option K)) :=
  match centerIndex w with
  | .error e => .error e
  | .ok center => .ok (mapOverlap rowChunks colChunks (dpDepth w.rows rowChunks map.rows)
      (dpDepth w.cols colChunks map.cols) (dpMatricesChunk dp w center) map)

/-- `EBSD.get_average_neighbour_dot_product_map` with `dp_matrices` given
(`signals/ebsd.py` L1432-1441): the center value is set to NaN and the mean of the values
that are not NaN is returned. -/
def adpFromMatrices [Field K] (w : Img Bool) (mats : Img (ℕ → Option K)) : Img (Option K) :=
  { rows := mats.rows
    cols := mats.cols
    val := fun r c =>
      let o := (w.rows / 2) * w.cols + w.cols / 2
      nanmean ((List.range (w.rows * w.cols)).filterMap
        (fun k => if k = o then none else mats.val r c k)) }

end

end Kp
