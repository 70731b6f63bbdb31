import Verif.Model.Rescale
import Mathlib.Algebra.Order.Ring.Abs
import Mathlib.Data.Int.Log

/-
Model of `rescale_intensity` (`src/kikuchipy/pattern/_pattern.py` L31-111) in the arithmetic of the
machine: floating point results are rounded, and differences of integer arrays wrap around.

The kernel `_rescale_with_min_max` is compiled with `fastmath=True` (L96), which allows the compiler
to evaluate it in other ways than written (`Evaluation`). Overflow of floating point numbers, NaN
and constant patterns are not modelled.
-/

namespace Kp

/-- Rounding to the numbers of a floating point format: `fl` is monotone and does not change numbers
of the format, among which are 0 and 1; the difference of two different numbers of the format is not
rounded to zero (as in IEEE 754, with gradual underflow). -/
structure Rounding (K : Type*) [Field K] [LinearOrder K] where
  fl : K → K
  mono : Monotone fl
  idem : ∀ x, fl (fl x) = fl x
  zero : fl 0 = 0
  one : fl 1 = 1
  pos : ∀ a b, fl a = a → fl b = b → a < b → 0 < fl (b - a)

section
variable {K : Type*} [Field K] [LinearOrder K] [FloorRing K]

/-- Nearest integer, the even one of two. -/
def roundEven (x : K) : ℤ :=
  if x - ⌊x⌋ < 1 / 2 then ⌊x⌋
  else if 1 / 2 < x - ⌊x⌋ then ⌊x⌋ + 1
  else if ⌊x⌋ % 2 = 0 then ⌊x⌋ else ⌊x⌋ + 1

/-- The exponent of the last digit of a number: `p` binary digits, but not below `emin`. -/
def lastDigit [IsStrictOrderedRing K] (p : ℕ) (emin : ℤ) (x : K) : ℤ :=
  max (Int.log 2 |x| - p + 1) emin

/-- Rounding to nearest, ties to even, in a binary floating point format with `p` digits and smallest
positive number `2 ^ emin`, without overflow: binary64 is `p = 53, emin = -1074` and binary32
`p = 24, emin = -149`. -/
def binaryRound [IsStrictOrderedRing K] (p : ℕ) (emin : ℤ) (x : K) : K :=
  roundEven (x / 2 ^ lastDigit p emin x) * 2 ^ lastDigit p emin x
end

/-- Formats of the results of the four operations of `_rescale_with_min_max`, which depend on the data
types of the pattern and the limits, and of the returned array if this is of floating point type. -/
structure Formats (K : Type*) [Field K] [LinearOrder K] where
  sub : Rounding K
  div : Rounding K
  mul : Rounding K
  add : Rounding K
  out : Rounding K

/-- Ways to evaluate `(pattern - imin) / float(imax - imin) * (omax - omin) + omin` which are allowed
with `fastmath=True`: as written, with the multiplication and addition fused, with division replaced
by multiplication with the reciprocal, and with the reciprocal and `omax - omin` multiplied first. -/
inductive Evaluation
  | written
  | fused
  | reciprocal
  | folded
  deriving DecidableEq

section
variable {K : Type*} [Field K] [LinearOrder K]

/-- `_rescale_with_min_max` (`pattern/_pattern.py` L96-111), for one pixel, with rounding. -/
def rescalePixelFl (F : Formats K) (e : Evaluation) (imin imax omin omax x : K) : K :=
  let n := F.sub.fl (x - imin)
  let d := F.sub.fl (imax - imin)
  match e with
  | .written => F.add.fl (F.mul.fl (F.div.fl (n / d) * (omax - omin)) + omin)
  | .fused => F.add.fl (F.div.fl (n / d) * (omax - omin) + omin)
  | .reciprocal => F.add.fl (F.mul.fl (F.div.fl (n * F.div.fl (1 / d)) * (omax - omin)) + omin)
  | .folded => F.add.fl (F.mul.fl (n * F.mul.fl (F.div.fl (1 / d) * (omax - omin))) + omin)

variable [FloorRing K]

/-- `astype(dtype)` of values within the range of the type. -/
def castFl (F : Formats K) (d : DType) (x : K) : K :=
  match d with
  | .float _ | .other => F.out.fl x
  | .uint _ | .int _ => truncate x

/-- `rescale_intensity` (`pattern/_pattern.py` L31-93) without percentiles, with rounding. -/
def rescaleIntensityFl (F : Formats K) (e : Evaluation) (pattern : List K) (dtypeIn : DType)
    (inRange outRange : Option (K × K)) (dtypeOut : Option DType) : Except Err (List K) :=
  let dtypeOut := dtypeOut.getD dtypeIn
  let (imin, imax, pattern) := match inRange with
    | none => (listMin pattern, listMax pattern, pattern)
    | some (lo, hi) => (lo, hi, pattern.map (clip lo hi))
  let orange : Except Err (K × K) := match outRange with
    | none => match dtypeRange dtypeOut with
      | some (lo, hi) => .ok (lo, hi)
      | none => .error .keyError
    | some r => .ok r
  match orange with
  | .error e => .error e
  | .ok (omin, omax) =>
    .ok ((pattern.map (rescalePixelFl F e imin imax omin omax)).map (castFl F dtypeOut))

/-! ### Signed integers -/

/-- A result of an operation on signed integers of some bits wraps around. -/
def wrapInt (bits : ℕ) (z : ℤ) : ℤ := (z + 2 ^ (bits - 1)) % 2 ^ bits - 2 ^ (bits - 1)

/-- `rescale_intensity` of a pattern of signed integers without `in_range`, with floating point output
(exact): `pattern - imin` is an array of the pattern's type, while `imax - imin` is a 64-bit integer
(`pattern/_pattern.py` L76-77, L110). -/
def rescaleSigned (bits : ℕ) (pattern : List ℤ) (omin omax : K) : List K :=
  let imin := pattern.foldr min (pattern.headD 0)
  let imax := pattern.foldr max (pattern.headD 0)
  pattern.map fun x => (wrapInt bits (x - imin) : K) / ((imax - imin : ℤ) : K) * (omax - omin) + omin

end
end Kp
