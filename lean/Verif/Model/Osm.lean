import Verif.Model.Neighbours

/-
Model of `orientation_similarity_map` (`indexing/_orientation_similarity_map.py`).

Simplifications: exact numbers; NaN is `none`; the final `squeeze()` (which removes axes of
length 1 and keeps all values) is left out.
-/

namespace Kp

/-- `len(np.intersect1d(a, b))`: number of different values in both. -/
def interCount (a b : List ℤ) : ℕ := (a.dedup.filter (fun x => decide (x ∈ b))).length

section
variable {K : Type*} [Field K]

/-- Row `i` of an array with `size` rows, counted from the end if negative. -/
def pyRow (size : ℕ) (i : ℤ) : ℕ := if i < 0 then ((size : ℤ) + i).toNat else i.toNat

/-- `_orientation_similarity_per_pixel` (L125-148). `v` are the flat map indices under the
footprint (-1 outside the map), `m` gives the `n` first indices of a map point. -/
def osmPixel (v : List ℤ) (center size : ℕ) (m : ℕ → List ℤ) (n : ℕ) (normalize : Bool) :
    Option K :=
  let cv := v.getD center 0
  let nb := v.filter (fun i => decide (i ≠ -1) && decide (i ≠ cv))
  let counts : List K := nb.map (fun i =>
    (interCount (m (pyRow size cv)) (m (pyRow size i)) : K))
  (nanmean counts).map (fun x => if normalize then x / n else x)

/-- `orientation_similarity_map` (L95-122) of a map of the given shape, with `size` points and
`keepN` simulation indices per point: the maps for `n` in `n_best, n_best - 1, ...,
from_n_best`. `IndexError` for maps without two axes (`osm[:, :, i]`, L111) and for a
`center_index` too large; `ValueError` if the map shape does not have `size` points
(L101). -/
def orientationSimilarityMap (shape : List ℕ) (size keepN : ℕ) (sims : ℕ → ℕ → ℤ)
    (nBest : Option ℕ) (normalize : Bool) (fromNBest : Option ℕ) (foot : Img Bool)
    (center : ℕ) : Except Err (List (Img (Option K))) :=
  let n := nBest.getD keepN
  if keepN < n then .error .valueError
  else if shape.prod ≠ size then .error .valueError
  else match shape with
    | [rows, cols] =>
      if (truthyIndices foot).length ≤ center then .error .indexError
      else
        let fromN := fromNBest.getD n
        .ok ((List.range (n - fromN + 1)).map (fun i =>
          { rows := rows
            cols := cols
            val := fun r c => osmPixel (filterIndices rows cols foot r c) center size
              (fun p => (List.range (n - i)).map (sims p)) (n - i) normalize }))
    | _ => .error .indexError

/-- The default footprint (L107-108). -/
def osmFootprint : Img Bool :=
  { rows := 3, cols := 3, val := fun i j => i == 1 || j == 1 }

end

end Kp
