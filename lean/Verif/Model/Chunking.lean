/-
Model of the chunking of data and learning results, signals/util/_dask.py:

* L33-111 `get_chunking`
* L114-160 `get_dask_array`
* L163-195 `_reduce_chunks`
* L198-216 `_get_chunk_overlap_depth`
* L219-280 `_rechunk_learning_results`

and of the parts of `dask.array.core.normalize_chunks` it uses (from knowledge of Dask, not in
/repo): chunks of a given size, -1 for a single chunk, and "auto".  The size Dask picks for
"auto" is a parameter.
-/
import Verif.Model.Base
import Mathlib.Data.Nat.Notation
import Mathlib.Data.Int.Notation

namespace Kp

/-- A chunk specification of one axis. -/
inductive ChunkSpec
  | auto
  | size (c : ℤ)
  deriving DecidableEq

/-- Dask's `blockdims_from_blockshape` for one axis of size `n` and chunks of size `c`: as many
chunks of size `c` as fit, then the rest; an empty axis is one empty chunk. -/
def blockDims (n c : ℕ) : List ℕ :=
  if n = 0 then [0]
  else List.replicate (n / c) c ++ if n % c = 0 then [] else [n % c]

/-- Dask's `normalize_chunks` for one axis of size `n`; `auto` is the chunk size Dask picks.
-1 is a single chunk.  0 is a division by zero.  Other negative sizes give chunks which do not
add up to the shape, a ValueError.
Simplification: the empty axis accepts every size. -/
def normalizeAxis (auto : ℕ) (n : ℕ) : ChunkSpec → Except Err (List ℕ)
  | .auto => .ok (blockDims n auto)
  | .size c =>
    if c = -1 then .ok [n]
    else if n = 0 then .ok [0]
    else if c = 0 then .error .zeroDivision
    else if c < 0 then .error .valueError
    else .ok (blockDims n c.toNat)

/-- Dask's `normalize_chunks` for a dictionary of specifications of axes; axes without one are
a single chunk.  `auto i` is the chunk size Dask picks for axis `i`. -/
def normalizeChunks (auto : ℕ → ℕ) (spec : ℕ → Option ChunkSpec) (shape : List ℕ) :
    Except Err (List (List ℕ)) :=
  shape.zipIdx.mapM fun p => match spec p.2 with
    | some s => normalizeAxis (auto p.2) p.1 s
    | none => .ok [p.1]

/-- `chunks_dict` of `get_chunking`, L92-101: the navigation axes have the wanted chunk shape
or "auto", the signal axes -1. -/
def chunksDict (navDim sigDim : ℕ) (chunkShape : Option ℤ) (i : ℕ) : Option ChunkSpec :=
  if i < navDim then
    match chunkShape with
    | none => some .auto
    | some c => some (.size c)
  else if i < navDim + sigDim then some (.size (-1))
  else none

/-- `get_chunking(data_shape=shape, nav_dim, sig_dim, chunk_shape, ...)`, L33-111. -/
def getChunking (auto : ℕ → ℕ) (shape : List ℕ) (navDim sigDim : ℕ)
    (chunkShape : Option ℤ) : Except Err (List (List ℕ)) :=
  normalizeChunks auto (chunksDict navDim sigDim chunkShape) shape

/-- Size of the largest chunk of an axis (`chunksize[i]` of a Dask array). -/
def maxChunk (l : List ℕ) : ℕ := l.foldl max 0

/-- `chunks_dict` of `_reduce_chunks`, L170-179: "auto" for navigation axes and -1 for the last
two; with two navigation axes, the one with the smallest chunks is -1 as well if a stack of
patterns along it takes fewer than `chunkBytes` bytes (four bytes per pixel). -/
def reduceSpec (chunks : List (List ℕ)) (chunkBytes : ℕ) (i : ℕ) : Option ChunkSpec :=
  let navNdim := chunks.length - 2
  let sizes := chunks.map maxChunk
  let sig := (sizes.drop navNdim).foldl (· * ·) 1
  if i < navNdim then
    match sizes.take navNdim with
    | [a, b] =>
      let idxMin := if a ≤ b then 0 else 1
      if i = idxMin ∧ min a b * sig * 4 < chunkBytes then some (.size (-1)) else some .auto
    | _ => some .auto
  else if i < navNdim + 2 then some (.size (-1))
  else none

/-- `_reduce_chunks`, L163-195: new chunks of a Dask array with the given chunks.  The axes of
specification -1 keep their chunks. -/
def reduceChunks (auto : ℕ → ℕ) (chunks : List (List ℕ)) (chunkBytes : ℕ) :
    Except Err (List (List ℕ)) := do
  let new ← normalizeChunks auto (reduceSpec chunks chunkBytes) (chunks.map List.sum)
  .ok ((chunks.zip new).zipIdx.map fun p =>
    if reduceSpec chunks chunkBytes p.2 = some (.size (-1)) then p.1.1 else p.1.2)

/-- `get_dask_array`, L114-160: the chunks of the array, for data in memory (`chunks` is `none`) of
the given shape, or for lazy data with given chunks. Values are only cast to the data type. -/
def getDaskArray (auto : ℕ → ℕ) (shape : List ℕ) (chunks : Option (List (List ℕ)))
    (navDim sigDim : ℕ) (rechunk : Bool) (chunkShape : Option ℤ) (chunkBytes : Option ℕ) :
    Except Err (List (List ℕ)) :=
  match chunks with
  | some ch => if rechunk then reduceChunks auto ch (chunkBytes.getD 8000000) else .ok ch
  | none => getChunking auto shape navDim sigDim chunkShape

/-- Ceiling of `a / b` for natural numbers (`np.ceil` of the quotient; exact arithmetic). -/
def ceilDiv (a b : ℕ) : ℕ := (a + b - 1) / b

/-- The loop of `_rechunk_learning_results`, L267-269: halve the larger size (the first if
equal) until the two add up to less than `s` bytes.  `fuel` bounds the number of iterations;
`none` stands for a loop which has not ended yet. -/
def halveSizes (s : ℕ) : ℕ → ℕ → ℕ → Option (ℕ × ℕ)
  | 0, _, _ => none
  | fuel + 1, f, l =>
    if f + l < s then some (f, l)
    else if l ≤ f then halveSizes s fuel (f / 2) l
    else halveSizes s fuel f (l / 2)

/-- `_rechunk_learning_results`, L219-280: the chunk sizes of the first axes of factors and
loadings (`none` stands for -1, unchunked), for factors of shape `(n0, c)` and loadings of
shape `(n2, c')` with `item` bytes per number, chunks of at most `s` bytes.
Simplifications: exact arithmetic; `s` (`mbytes_chunk * 2**20`) is a natural number; a number
divided by zero is the error ZeroDivision (NumPy warns and the conversion of infinity to an
integer raises OverflowError); fuel `f + l + 1` suffices (proved). -/
def rechunkLearning (n0 c n2 c' item s : ℕ) : Except Err (Option ℕ × Option ℕ) :=
  if c ≠ c' then .error .valueError
  else
    let f := n0 * c * item
    let l := n2 * c' * item
    if s = 0 then .error .zeroDivision
    else
      let numChunks := ceilDiv (f + l) s
      if f ≤ s then
        if numChunks = 0 then .error .zeroDivision
        else .ok (none, some (n2 / numChunks))
      else match halveSizes s (f + l + 1) f l with
        | none => .error .notImplemented
        | some (f', l') =>
          if f' = 0 ∨ l' = 0 then .error .zeroDivision
          else
            let fc := ceilDiv f f'
            let lc := ceilDiv l l'
            if fc = 0 ∨ lc = 0 then .error .zeroDivision
            else .ok (some (n0 / fc), some (n2 / lc))

end Kp
