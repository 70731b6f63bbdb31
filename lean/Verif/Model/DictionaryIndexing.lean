import Verif.Model.Base
import Mathlib.Algebra.Order.Field.Basic

/-
Model of `indexing/_dictionary_indexing.py`: the score bookkeeping of dictionary indexing.
The similarity metric is abstract: only its scores, its sign and its masks matter.
-/

namespace Kp

section
variable {K : Type*} [Field K] [LinearOrder K]

/-- What is assumed of NumPy's `argsort` and dask's `argtopk`: the returned indices are a
permutation of all positions and visit the keys in ascending order.  The order of equal
keys is not specified (NumPy's default sort is not stable, dask's depends on chunking). -/
structure IsArgsort (f : List K → List ℕ) : Prop where
  perm : ∀ l, (f l).Perm (List.range l.length)
  sorted : ∀ l, ((f l).map (fun i => l.getD i 0)).Pairwise (· ≤ ·)

/-- One candidate: (score, dictionary index). -/
abbrev Cand (K : Type*) := K × ℕ

/-- `np.take_along_axis` of the paired arrays `scores` and `simulation_indices`. -/
def takeAlong (l : List (Cand K)) (idx : List ℕ) : List (Cand K) :=
  idx.map (fun i => l.getD i (0, 0))

/-- `_match_chunk` (`_dictionary_indexing.py` L172-203) for one experimental pattern:
`argtopk(keep_n)` and `topk(keep_n)` of the scores of the chunk (the largest scores,
descending).  Note that `metric.sign` is not used.  The indices are local to the chunk.
If the chunk has fewer than `keep_n` patterns, dask returns all of them (its declared shape
is then wrong, and the `reshape` in L199-201 to that declared shape does nothing). -/
def matchChunk (argtopk : List K → List ℕ) (keepN : ℕ) (chunk : List K) : List (Cand K) :=
  takeAlong chunk.zipIdx ((argtopk (chunk.map (fun s => -s))).take keepN)

/-- One iteration of the loop over dictionary chunks (`_dictionary_indexing.py`
L105-128): match the chunk, add the chunk start to the indices, stack with the best so
far, and keep the `keepN` first of `argsort(negative_sign * all_scores)`. -/
def mergeChunk (argtopk argsort : List K → List ℕ) (sign : ℤ) (keepN nPer : ℕ)
    (state : List (Cand K)) (start : ℕ) (chunk : List K) : List (Cand K) :=
  let m := (matchChunk argtopk (min keepN nPer) chunk).map (fun c => (c.1, c.2 + start))
  let all := state ++ m
  let best := (argsort (all.map (fun c => ((-sign : ℤ) : K) * c.1))).take keepN
  takeAlong all best

/-- The dictionary chunk `dictionary[start:end]` with `start = i * n_per_iteration` and
`end = (i + 1) * n_per_iteration` (`_dictionary_indexing.py` L102-106; the correction of
`chunk_ends[-1]` never changes it). -/
def dictChunk (nPer : ℕ) (scores : List K) (i : ℕ) : List K :=
  (scores.drop (i * nPer)).take nPer

/-- Number of iterations, `ceil(dictionary_size / n_per_iteration)`
(`_dictionary_indexing.py` L68). -/
def nIterations (n nPer : ℕ) : ℕ := (n + nPer - 1) / nPer

/-- `_dictionary_indexing` (`_dictionary_indexing.py` L66-128) for one experimental
pattern, given its scores with the whole dictionary.  The best candidates start as
`keepN` copies of score `-sign` and index 0 (L97-98). -/
def dictionaryIndexing (argtopk argsort : List K → List ℕ) (sign : ℤ) (keepN nPer : ℕ)
    (scores : List K) : List (Cand K) :=
  let n := scores.length
  let keepN := min keepN n
  if n = nPer then matchChunk argtopk keepN scores
  else
    (List.range (nIterations n nPer)).foldl
      (fun st i => mergeChunk argtopk argsort sign keepN nPer st (i * nPer)
        (dictChunk nPer scores i))
      (List.replicate keepN (((-sign : ℤ) : K), 0))

end

section
variable {α β : Type*}

/-- Boolean mask selection `a[mask]` (row-major order kept). -/
def selectMask (mask : List Bool) (l : List α) : List α :=
  (l.zip mask).filterMap (fun am => if am.2 then some am.1 else none)

/-- Boolean mask assignment `a[mask] = vals` (values are consumed in row-major order). -/
def scatterMask (old : List α) : List Bool → List α → List α
  | [], _ => []
  | true :: ms, v :: vs => v :: scatterMask old.tail ms vs
  | true :: ms, [] => (old.head?.toList) ++ scatterMask old.tail ms []
  | false :: ms, vs => (old.head?.toList) ++ scatterMask old.tail ms vs

/-- `_dictionary_indexing` for a map (`_dictionary_indexing.py` L70, L141-167 and
`prepare_experimental`, `_normalized_cross_correlation.py` L108-127): patterns where
`navigation_mask` is `True` are removed before matching and results are scattered back;
`junk` stands for the values of `np.empty` (scores, simulation indices) and the identity
(rotations) in the masked points.  Returns per map point `(is_in_data, result)`. -/
def indexMap (index : α → β) (junk : List β) (navMask : Option (List Bool)) (patterns : List α) :
    List (Bool × β) :=
  match navMask with
  | none => patterns.map (fun p => (true, index p))
  | some mask =>
    let keep := mask.map not
    let results := (selectMask keep patterns).map index
    keep.zip (scatterMask junk keep results)

end

end Kp
