import Verif.Model.FloatCoordinates
import Verif.Model.FloatSimilarity
import Verif.Model.MasterPattern

/-
Model of the directions of detector pixels (`_get_direction_cosines_for_fixed_pc`,
`src/kikuchipy/signals/util/_master_pattern.py` L133-206) in 64-bit floating point numbers: the
result of every operation is rounded to nearest, ties to even.

The function is compiled, and reads outside of an array are not noticed there; here they give
`none`. Compilation uses `fastmath=True`: of the evaluations this allows, a product and a sum
rounded once, multiplication with a reciprocal in the length of `np.arange`, and all orders of the
sums in the matrix product and in the norm are modelled. Overflow is not modelled.
-/

namespace Kp
noncomputable section

/-- How a pixel's direction is evaluated: sums and products of coordinates rounded once (`fused`),
reciprocal of the step (`recip`), order of the sums of the matrix product and of the norm. -/
structure DirectionOrders where
  fused : Bool
  recip : Bool
  dot : Fin 3 → SumOrder (Fin 3)
  norm : SumOrder (Fin 3)

/-- The number of values of `np.arange(start, stop, step)` as compiled by Numba,
`ceil((stop - start) / step)` (used in `_master_pattern.py` L177, L179). -/
def arangeLengthFl (recip : Bool) (start stop step : ℝ) : ℕ :=
  ⌈overNormFl recip step (fl64 (stop - start))⌉.toNat

/-- Value number `k` of `np.arange(start, stop, step)` as compiled by Numba, `start + k * step`;
`none` outside of the array (`_master_pattern.py` L177-179, L193-194). -/
def arangeAtFl (fused recip : Bool) (start stop step : ℝ) (k : ℕ) : Option ℝ :=
  if k < arangeLengthFl recip start stop step then some (mulAddFl fused step k start) else none

/-- The position of a pixel relative to the projection center (`_master_pattern.py` L174-194). -/
def Detector.pixelPositionFl (fused recip : Bool) (d : Detector ℝ) (p : PC ℝ) (row col : ℕ) :
    Option (Fin 3 → ℝ) := do
  let xScale := fl64 (fl64 (d.xMaxFl p - d.xMinFl p) / (d.ncols : ℝ))
  let yScale := fl64 (fl64 (d.yMaxFl p - d.yMinFl p) / (d.nrows : ℝ))
  let gx ← arangeAtFl fused recip (d.xMinFl p) (d.xMaxFl p) xScale col
  let gy ← arangeAtFl fused recip (d.yMaxFl p) (d.yMinFl p) (-yScale) row
  some ![fl64 (fl64 (gx + fl64 (xScale / 2)) * p.z), fl64 (fl64 (gy - fl64 (yScale / 2)) * p.z),
    p.z]

/-- The direction of a pixel (`_master_pattern.py` L174-204); `om` is `om_detector_to_sample`. -/
def Detector.pixelDirectionFl (o : DirectionOrders) (d : Detector ℝ) (p : PC ℝ)
    (om : Fin 3 → Fin 3 → ℝ) (row col : ℕ) : Option (Fin 3 → ℝ) := do
  let v ← d.pixelPositionFl o.fused o.recip p row col
  some (normalizeFloat fl64 o.norm fun i => (o.dot i).eval fl64 (om i) v)

/-- `_get_direction_cosines_for_fixed_pc` (`_master_pattern.py` L133-206): the directions of the
pixels in the mask. -/
def Detector.directionCosinesFl (o : ℕ → DirectionOrders) (d : Detector ℝ) (p : PC ℝ)
    (om : Fin 3 → Fin 3 → ℝ) (mask : List Bool) : List (Option (Fin 3 → ℝ)) :=
  (maskedIndices mask).map fun i => d.pixelDirectionFl (o i) p om (i / d.ncols) (i % d.ncols)

end
end Kp
