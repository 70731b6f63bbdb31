import Verif.Model.Nordif
import Mathlib.Tactic.Ring

/-
Reading numbers from binary files, as `np.fromfile` does on little-endian machines.
-/

namespace Kp

/-- The `n` bytes at byte position `pos` of a file (fewer at the end of the file). -/
def bytesAt (file : List Byte) (pos n : ℕ) : List Byte := (file.drop pos).take n

/-- Value of an unsigned little-endian integer. -/
def leNat : List Byte → ℕ
  | [] => 0
  | b :: bs => b.val + 256 * leNat bs

/-- Split bytes into integers of `width` bytes. -/
def leNats (width : ℕ) : ℕ → List Byte → List ℕ
  | 0, _ => []
  | n + 1, bs => leNat (bs.take width) :: leNats width n (bs.drop width)

/-- `np.fromfile(file, dtype, 1)` of an unsigned integer of `width` bytes at a position; `none` at
the end of the file. -/
def uintAt (file : List Byte) (pos width : ℕ) : Option ℕ :=
  if (bytesAt file pos width).length = width then some (leNat (bytesAt file pos width)) else none

end Kp
