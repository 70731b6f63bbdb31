import Verif.Model.DictionaryIndexing
import Verif.Model.MergeMaps
import Verif.Model.Normalize
import Mathlib.Data.List.Sort

/-
Dictionary indexing and merging of crystal maps with scores that may be NaN
(`indexing/_dictionary_indexing.py`, `indexing/_merge_crystal_maps.py`,
`indexing/similarity_metrics`): a pattern without contrast cannot be normalized.

A score is a number or `none`, which is NaN. Numbers are exact, no rounding: in floating point,
the mean of a pattern of equal pixels may differ from them in the last place, and such a pattern
then has some score. There is at least one pixel left by the signal mask.
-/

namespace Kp

section
variable {ι : Type*} [Fintype ι]

/-- Norm of a centered pattern (`_normalized_cross_correlation.py` L231, L239). -/
noncomputable def centeredNorm (p : ι → ℝ) : ℝ := Real.sqrt (∑ j, (p j - mean p) ^ 2)

/-- Norm of a pattern (`_normalized_dot_product.py` L189-191). -/
noncomputable def plainNorm (p : ι → ℝ) : ℝ := Real.sqrt (∑ j, p j ^ 2)

/-- A number or NaN: `x` if both norms divided by are not zero. A pattern with norm zero is zero, and
all its pixels are 0 / 0 = NaN, and so is the sum in `einsum`. -/
noncomputable def scoreOrNan (normA normB x : ℝ) : Option ℝ :=
  if normA = 0 ∨ normB = 0 then none else some x

/-- `NormalizedCrossCorrelationMetric.__call__` for one pair of patterns
(`_normalized_cross_correlation.py` L82-183, L228-241). -/
noncomputable def nccNan (mask : ι → Bool) (a b : ι → ℝ) : Option ℝ :=
  scoreOrNan (centeredNorm (maskPattern mask a)) (centeredNorm (maskPattern mask b)) (ncc mask a b)

/-- `NormalizedDotProductMetric.__call__` for one pair of patterns (`_normalized_dot_product.py`
L74-195). -/
noncomputable def ndpNan (mask : ι → Bool) (a b : ι → ℝ) : Option ℝ :=
  scoreOrNan (plainNorm (maskPattern mask a)) (plainNorm (maskPattern mask b)) (ndp mask a b)

end

section
variable {K : Type} [Field K] [LinearOrder K]

/-- The order of NumPy's sorts, ascending: NaN is last. -/
def NanLe : Option K → Option K → Prop
  | some a, some b => a ≤ b
  | none, some _ => False
  | _, none => True

instance : DecidableRel (NanLe (K := K)) := by
  intro a b
  cases a <;> cases b <;> (unfold NanLe; infer_instance)

/-- What is assumed of `np.argsort`: indices visit all positions in ascending order, equal keys in any
order. -/
structure IsArgsortNan (f : List (Option K) → List ℕ) : Prop where
  perm : ∀ l, (f l).Perm (List.range l.length)
  sorted : ∀ l, ((f l).map (fun i => l.getD i none)).Pairwise NanLe

/-- What is assumed of dask's `argtopk(k)`, for all `k` at once: `np.argpartition`, and `np.argsort`
of the last elements, reversed. So indices visit all positions in descending order of NumPy's sorts,
NaN first. -/
structure IsArgtopkNan (f : List (Option K) → List ℕ) : Prop where
  perm : ∀ l, (f l).Perm (List.range l.length)
  sorted : ∀ l, ((f l).map (fun i => l.getD i none)).Pairwise (fun a b => NanLe b a)

/-- One candidate: (score, dictionary index). -/
abbrev CandNan (K : Type) := Option K × ℕ

/-- `np.take_along_axis` of the paired arrays `scores` and `simulation_indices`. -/
def takeAlongNan (l : List (CandNan K)) (idx : List ℕ) : List (CandNan K) :=
  idx.map (fun i => l.getD i (none, 0))

/-- `_match_chunk` (`_dictionary_indexing.py` L172-203) for one experimental pattern. -/
def matchChunkNan (argtopk : List (Option K) → List ℕ) (keepN : ℕ) (chunk : List (Option K)) :
    List (CandNan K) :=
  takeAlongNan chunk.zipIdx ((argtopk chunk).take keepN)

/-- One iteration of the loop over dictionary chunks (`_dictionary_indexing.py` L105-128). -/
def mergeChunkNan (argtopk argsort : List (Option K) → List ℕ) (sign : ℤ) (keepN nPer : ℕ)
    (state : List (CandNan K)) (start : ℕ) (chunk : List (Option K)) : List (CandNan K) :=
  let m := (matchChunkNan argtopk (min keepN nPer) chunk).map (fun c => (c.1, c.2 + start))
  let all := state ++ m
  let keys := all.map (fun c => c.1.map (fun s => ((-sign : ℤ) : K) * s))
  takeAlongNan all ((argsort keys).take keepN)

/-- The dictionary chunk `dictionary[start:end]` (`_dictionary_indexing.py` L102-106). -/
def dictChunkNan (nPer : ℕ) (scores : List (Option K)) (i : ℕ) : List (Option K) :=
  (scores.drop (i * nPer)).take nPer

/-- `_dictionary_indexing` (`_dictionary_indexing.py` L66-128) for one experimental pattern, given
its scores with the whole dictionary. -/
def dictionaryIndexingNan (argtopk argsort : List (Option K) → List ℕ) (sign : ℤ) (keepN nPer : ℕ)
    (scores : List (Option K)) : List (CandNan K) :=
  let n := scores.length
  let keepN := min keepN n
  if n = nPer then matchChunkNan argtopk keepN scores
  else
    (List.range (nIterations n nPer)).foldl
      (fun st i => mergeChunkNan argtopk argsort sign keepN nPer st (i * nPer)
        (dictChunkNan nPer scores i))
      (List.replicate keepN (some ((-sign : ℤ) : K), 0))

/-- Phase of one point in `merge_crystal_maps` with one score per point and map
(`_merge_crystal_maps.py` L205-214): `np.nanargmax` raises if all scores are NaN. -/
def phaseOfPoint (sign : K) (scores : List (Option K)) : Except Err ℕ :=
  match nanargmax (scores.map (fun s => s.map (sign * ·))) with
  | some i => .ok i
  | none => .error .valueError

/-- Phases of all points (`_merge_crystal_maps.py` L196-214): `maps` has the scores of each map, in
the order of points. -/
def mergePhases (sign : K) (maps : List (List (Option K))) (nPoints : ℕ) : Except Err (List ℕ) :=
  (List.range nPoints).mapM fun m => phaseOfPoint sign (maps.map (fun l => l.getD m none))

/-- The scores of the best matches in a crystal map from dictionary indexing
(`_dictionary_indexing.py` L164-166 with `keep_n = 1`), of several patterns. -/
def bestScoresNan {α : Type*} (argtopk argsort : List (Option K) → List ℕ) (nPer : ℕ)
    (score : α → α → Option K) (dictionary patterns : List α) : List (Option K) :=
  patterns.map fun p =>
    ((dictionaryIndexingNan argtopk argsort 1 1 nPer (dictionary.map (score p))).map Prod.fst).headD
      none

end

end Kp
