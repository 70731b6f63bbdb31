import Mathlib.Algebra.Field.Basic

/-! Three-component vectors, used by several numba kernels. -/

namespace Kp

/-- A vector with three components. -/
@[ext] structure V3 (K : Type*) where
  x : K
  y : K
  z : K
  deriving DecidableEq

variable {K : Type*}

/-- Dot product. -/
def V3.dot [Mul K] [Add K] (a b : V3 K) : K := a.x * b.x + a.y * b.y + a.z * b.z

/-- Cross product. -/
def V3.cross [Mul K] [Sub K] (a b : V3 K) : V3 K :=
  ⟨a.y * b.z - a.z * b.y, a.z * b.x - a.x * b.z, a.x * b.y - a.y * b.x⟩

/-- Scaling. -/
def V3.smul [Mul K] (c : K) (a : V3 K) : V3 K := ⟨c * a.x, c * a.y, c * a.z⟩

/-- Sum. -/
def V3.add [Add K] (a b : V3 K) : V3 K := ⟨a.x + b.x, a.y + b.y, a.z + b.z⟩

end Kp
