import Verif.Model.SampleToDetector
import Verif.Model.Downsample
import Verif.Model.Rescale
import Mathlib.Analysis.SpecialFunctions.Trigonometric.Arctan
import Mathlib.Analysis.SpecialFunctions.Sqrt
import Mathlib.Data.Real.Sign

/-
Model of `signals/util/_master_pattern.py` (square Lambert projection, interpolation in and
projection from master patterns) and `_utils/numba.py` (rotations), over ℝ.
-/

namespace Kp
noncomputable section

/-! ### Lambert projection -/

/-- `SQRT_PI_HALF` (`_master_pattern.py` L78). -/
def sqrtPiHalf : ℝ := Real.sqrt (Real.pi / 2)
/-- `SQRT_PI_OVER_2` (`_master_pattern.py` L79). -/
def sqrtPiOver2 : ℝ := Real.sqrt Real.pi / 2
/-- `TWO_OVER_SQRT_PI` (`_master_pattern.py` L80). -/
def twoOverSqrtPi : ℝ := 2 / Real.sqrt Real.pi

/-- `_vector2lambert` (`_master_pattern.py` L530-568) of one vector; `(X, Y)`. -/
def vector2lambert (v : V3 ℝ) : ℝ × ℝ :=
  let w := normalizeV v
  let absZ := |w.z|
  let sqrtZ := Real.sqrt (2 * (1 - absZ))
  if absZ = 1 then (0, 0)
  else if |w.y| ≤ |w.x| then
    (Real.sign w.x * sqrtZ * sqrtPiOver2,
     Real.sign w.x * sqrtZ * twoOverSqrtPi * Real.arctan (w.y / w.x))
  else
    (Real.sign w.y * sqrtZ * twoOverSqrtPi * Real.arctan (w.x / w.y),
     Real.sign w.y * sqrtZ * sqrtPiOver2)

/-- `_lambert2vector` (`_master_pattern.py` L711-760) of one point of the square
`[-1, 1] x [-1, 1]`. -/
def lambert2vector (x y : ℝ) : V3 ℝ :=
  let xi := x * Real.sqrt (Real.pi / 2)
  let yi := y * Real.sqrt (Real.pi / 2)
  if max |xi| |yi| = 0 then ⟨0, 0, 1⟩
  else if |xi| ≤ |yi| then
    let q := 2 * yi * Real.sqrt (Real.pi - yi ^ 2) / Real.pi
    let qq := xi * Real.pi * (1 / 4) / yi
    ⟨q * Real.sin qq, q * Real.cos qq, 1 - 2 * yi ^ 2 / Real.pi⟩
  else
    let q := 2 * xi * Real.sqrt (Real.pi - xi ^ 2) / Real.pi
    let qq := yi * Real.pi * (1 / 4) / xi
    ⟨q * Real.cos qq, q * Real.sin qq, 1 - 2 * xi ^ 2 / Real.pi⟩

end

end Kp
