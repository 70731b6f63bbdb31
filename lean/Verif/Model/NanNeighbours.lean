import Verif.Model.Neighbours
import Verif.Model.NanScores
import Verif.Model.FloatSimilarity
import Mathlib.Data.List.ReduceOption

/-
Dot products of neighbouring patterns with all steps before the product and NaN where a pattern
cannot be normalized (`signals/ebsd.py`, `signals/util/_map_helper.py`, `pattern/_pattern.py`).

A number is exact or, as `none`, NaN. Patterns are rounded to the data type they are converted to;
the arithmetic on them and the conversion of the result are exact. Patterns have no NaN pixels.
-/

namespace Kp

section
variable {ι : Type*} [Fintype ι]

/-- `_zero_mean` (`pattern/_pattern.py` L142-144). -/
noncomputable def zeroMean (p : ι → ℝ) : ι → ℝ := fun i => p i - mean p

/-- `_normalize` (`pattern/_pattern.py` L147-151): a pattern with norm zero is zero, and all its
pixels are 0 / 0 = NaN. -/
noncomputable def normalizeNan (p : ι → ℝ) : Option (ι → ℝ) :=
  if plainNorm p = 0 then none else some (fun i => p i / plainNorm p)

/-- Conversion to the data type and pre-processing of one pattern (`signals/util/_map_helper.py`
L155-171). -/
noncomputable def prepareNeighbour (t : MetricType) (zeroMeanArg normalizeArg : Bool) (p : ι → ℝ) :
    Option (ι → ℝ) :=
  let p : ι → ℝ := fun i => t.fl (p i)
  let p := if zeroMeanArg then zeroMean p else p
  if normalizeArg then normalizeNan p else some p

/-- One of `dot_products`, or `center_value` (`signals/util/_map_helper.py` L174-179). -/
noncomputable def neighbourProduct (t : MetricType) (zeroMeanArg normalizeArg : Bool)
    (neighbour p : ι → ℝ) : Option ℝ :=
  match prepareNeighbour t zeroMeanArg normalizeArg neighbour,
    prepareNeighbour t zeroMeanArg normalizeArg p with
  | some a, some b => some (dotPatterns a b)
  | _, _ => none

end

/-- `np.nanmean` of numbers and NaN. -/
def nanmeanNan {K : Type*} [Field K] (l : List (Option K)) : Option K := nanmean l.reduceOption

section
variable {ι : Type*} [Fintype ι]

/-- `_get_average_dot_product_map` on one chunk (`signals/util/_map_helper.py` L255-308): patterns are
converted to `dtype_out`. -/
noncomputable def adpChunkNan (t : MetricType) (zeroMeanArg normalizeArg : Bool) (w : Img Bool)
    (center : ℕ) (a : Img (ι → ℝ)) : Img (Option ℝ) :=
  { rows := a.rows
    cols := a.cols
    val := fun r c => nanmeanNan (neighbourDots (neighbourProduct t zeroMeanArg normalizeArg) a
      (filterIndices a.rows a.cols w r c) center) }

/-- `EBSD.get_average_neighbour_dot_product_map` (`signals/ebsd.py` L1425-1491) without
`dp_matrices`. -/
noncomputable def adpMapNan (t : MetricType) (zeroMeanArg normalizeArg : Bool) (map : Img (ι → ℝ))
    (w : Img Bool) (rowChunks colChunks : List ℕ) : Except Err (Img (Option ℝ)) :=
  match centerIndex w with
  | .error e => .error e
  | .ok center => .ok (mapOverlap rowChunks colChunks (dpDepth w.rows rowChunks map.rows)
      (dpDepth w.cols colChunks map.cols) (adpChunkNan t zeroMeanArg normalizeArg w center) map)

/-- `_get_neighbour_dot_product_matrices` on one chunk (`signals/util/_map_helper.py` L231-252): the
data type asked for, `t`, is not passed to `_map_helper`, which converts patterns to its default,
`float32`. A value is missing both if never set and if it is a product with NaN. -/
noncomputable def dpMatricesChunkNan (_t : MetricType) (zeroMeanArg normalizeArg : Bool)
    (w : Img Bool) (center : ℕ) (a : Img (ι → ℝ)) : Img (ℕ → Option ℝ) :=
  { rows := a.rows
    cols := a.cols
    val := fun r c k => ((dpMatricesChunk (neighbourProduct .float32 zeroMeanArg normalizeArg) w
      center a).val r c k).join }

/-- `EBSD.get_neighbour_dot_product_matrices` (`signals/ebsd.py` L1259-1309). -/
noncomputable def dpMatricesNan (t : MetricType) (zeroMeanArg normalizeArg : Bool)
    (map : Img (ι → ℝ)) (w : Img Bool) (rowChunks colChunks : List ℕ) :
    Except Err (Img (ℕ → Option ℝ)) :=
  match centerIndex w with
  | .error e => .error e
  | .ok center => .ok (mapOverlap rowChunks colChunks (dpDepth w.rows rowChunks map.rows)
      (dpDepth w.cols colChunks map.cols) (dpMatricesChunkNan t zeroMeanArg normalizeArg w center)
      map)

end

end Kp
