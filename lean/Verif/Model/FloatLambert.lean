import Verif.Model.MasterPattern
import Verif.Model.FloatRescale

/-
Model of the rotation of directions (`_utils/numba.py` L59-82), their square Lambert projection and
interpolation parameters (`signals/util/_master_pattern.py` L530-678) in 64-bit floating point numbers: the result of every
operation is rounded to nearest, ties to even.

Results which are not numbers (NaN) are `none`. The functions are compiled with `fastmath=True`, which
allows other evaluations than written; of these, fused multiplications and additions in the sum of
squares and multiplication with the reciprocal of the norm are modelled, since the results there decide
which branch is taken. Overflow is not modelled (coordinates of directions are not large).
-/

namespace Kp
noncomputable section

/-- Rounding to a 64-bit floating point number. -/
def fl64 (x : ℝ) : ℝ := binaryRound 53 (-1074) x

/-- `rotate_vector` (`_utils/numba.py` L59-82) of one vector, as written. -/
def rotateVectorFl (q : Quat) (v : V3 ℝ) : V3 ℝ :=
  let aa := fl64 (q.a * q.a)
  let bb := fl64 (q.b * q.b)
  let cc := fl64 (q.c * q.c)
  let dd := fl64 (q.d * q.d)
  let ac := fl64 (q.a * q.c)
  let ab := fl64 (q.a * q.b)
  let ad := fl64 (q.a * q.d)
  let bc := fl64 (q.b * q.c)
  let bd := fl64 (q.b * q.d)
  let cd := fl64 (q.c * q.d)
  ⟨fl64 (fl64 (fl64 (fl64 (fl64 (aa + bb) - cc) - dd) * v.x) +
      fl64 (2 * fl64 (fl64 (fl64 (ac + bd) * v.z) + fl64 (fl64 (bc - ad) * v.y)))),
   fl64 (fl64 (fl64 (fl64 (fl64 (aa - bb) + cc) - dd) * v.y) +
      fl64 (2 * fl64 (fl64 (fl64 (ad + bc) * v.x) + fl64 (fl64 (cd - ab) * v.z)))),
   fl64 (fl64 (fl64 (fl64 (fl64 (aa - bb) - cc) + dd) * v.z) +
      fl64 (2 * fl64 (fl64 (fl64 (ab + cd) * v.y) + fl64 (fl64 (bd - ac) * v.x))))⟩

/-- `np.sum(np.square(v), axis=1)` (`_master_pattern.py` L545) of one vector, as written or with fused
multiplications and additions. -/
def sumSquaresFl (fused : Bool) (v : V3 ℝ) : ℝ :=
  if fused then fl64 (v.z * v.z + fl64 (v.y * v.y + fl64 (v.x * v.x)))
  else fl64 (fl64 (fl64 (v.x * v.x) + fl64 (v.y * v.y)) + fl64 (v.z * v.z))

/-- One component of `v / norm` (`_master_pattern.py` L547), as written or multiplied with the
reciprocal. -/
def overNormFl (recip : Bool) (norm x : ℝ) : ℝ :=
  if recip then fl64 (x * fl64 (1 / norm)) else fl64 (x / norm)

/-- `v / norm` (`_master_pattern.py` L545-547); NaN for a vector of length zero. -/
def normalizeFl (fused recip : Bool) (v : V3 ℝ) : Option (V3 ℝ) :=
  let norm := fl64 (Real.sqrt (sumSquaresFl fused v))
  if norm = 0 then none
  else some ⟨overNormFl recip norm v.x, overNormFl recip norm v.y, overNormFl recip norm v.z⟩

/-- `np.sqrt`: NaN for negative numbers. -/
def sqrtFl (x : ℝ) : Option ℝ := if x < 0 then none else some (fl64 (Real.sqrt x))

/-- `SQRT_PI` (`_master_pattern.py` L77). -/
def sqrtPiFl : ℝ := fl64 (Real.sqrt (fl64 Real.pi))
/-- `SQRT_PI_HALF` (`_master_pattern.py` L78). -/
def sqrtPiHalfFl : ℝ := fl64 (Real.sqrt (fl64 (fl64 Real.pi / 2)))
/-- `SQRT_PI_OVER_2` (`_master_pattern.py` L79). -/
def sqrtPiOver2Fl : ℝ := fl64 (sqrtPiFl / 2)
/-- `TWO_OVER_SQRT_PI` (`_master_pattern.py` L80). -/
def twoOverSqrtPiFl : ℝ := fl64 (2 / sqrtPiFl)

/-- `_vector2lambert` (`_master_pattern.py` L530-568) of one vector; `atan` is the mathematical
library's `arctan`. -/
def vector2lambertFl (atan : ℝ → ℝ) (fused recip : Bool) (v : V3 ℝ) : Option (ℝ × ℝ) := do
  let w ← normalizeFl fused recip v
  let absZ := |w.z|
  let sqrtZ ← sqrtFl (fl64 (2 * fl64 (1 - absZ)))
  if absZ = 1 then some (0, 0)
  else if |w.y| ≤ |w.x| then
    if w.x = 0 then none
    else
      let s := fl64 (Real.sign w.x * sqrtZ)
      some (fl64 (s * sqrtPiOver2Fl), fl64 (fl64 (s * twoOverSqrtPiFl) * atan (fl64 (w.y / w.x))))
  else
    let s := fl64 (Real.sign w.y * sqrtZ)
    some (fl64 (fl64 (s * twoOverSqrtPiFl) * atan (fl64 (w.x / w.y))), fl64 (s * sqrtPiOver2Fl))

/-- The loop body of `_get_lambert_interpolation_parameters` (`_master_pattern.py` L651-676). -/
def interpAtFl (i j : ℝ) (npx npy : ℤ) (scale : ℝ) : Interp :=
  let nii := toInt32 (fl64 (i + scale))
  let nij := toInt32 (fl64 (j + scale))
  let niip := nii + 1
  let nijp := nij + 1
  let niip := if npx ≤ niip then nii else niip
  let nijp := if npy ≤ nijp then nij else nijp
  let nii := if nii < 0 then niip else nii
  let nij := if nij < 0 then nijp else nij
  let di := fl64 (fl64 (i - nii) + scale)
  let dj := fl64 (fl64 (j - nij) + scale)
  { nii := nii, nij := nij, niip := niip, nijp := nijp
    di := di, dj := dj, dim := fl64 (1 - di), djm := fl64 (1 - dj) }

/-- `_get_lambert_interpolation_parameters` (`_master_pattern.py` L571-678) of one vector; `none` if
the position is not a number (its conversion to an integer index is undefined). -/
def lambertInterpFl (atan : ℝ → ℝ) (fused recip : Bool) (v : V3 ℝ) (npx npy : ℤ) (scale : ℝ) :
    Option Interp := do
  let xy ← vector2lambertFl atan fused recip v
  some (interpAtFl (fl64 (fl64 (scale * xy.2) / sqrtPiHalfFl)) (fl64 (fl64 (scale * xy.1) / sqrtPiHalfFl))
    npx npy scale)

end
end Kp
