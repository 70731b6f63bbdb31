import Verif.Model.EbsdDirectory
import Verif.Model.Detector

/-
Model of reading patterns in a region of interest from Bruker h5ebsd files:
`src/kikuchipy/io/plugins/bruker_h5ebsd/_api.py` and `get_data` in
`src/kikuchipy/io/plugins/_h5ebsd.py`.

Patterns are values of a type `P` with a `zero` pattern. Positions are pairs (row, column) in the
order of the patterns in the file.
-/

namespace Kp

/-- `np.all(np.diff(np.sort(unique)) == 1)`. -/
def consecutive : List ℕ → Bool
  | a :: b :: l => decide (b = a + 1) && consecutive (b :: l)
  | _ => true

/-- Whether all numbers in a list are the same: `np.unique(counts).size == 1`, which is false for an
empty list. -/
def allSame : List ℕ → Bool
  | [] => false
  | a :: l => l.all (· == a)

/-- Largest and smallest number in a list (zero if empty, not reached). -/
def listMaxN (l : List ℕ) : ℕ := l.foldl max 0
/-- See `listMaxN`. -/
def listMinN : List ℕ → ℕ
  | [] => 0
  | a :: l => l.foldl min a

/-- `_bruker_roi_is_rectangular` (`bruker_h5ebsd/_api.py` L187-198); empty arrays raise
`ValueError`. -/
def brukerRoi (iy ix : List ℕ) : Except Err (ℕ × ℕ × Bool) :=
  if iy = [] then .error .valueError
  else
    let uy := sortedSet iy
    let ux := sortedSet ix
    let rect := consecutive uy && consecutive ux && allSame (uy.map fun v => iy.count v)
      && allSame (ux.map fun v => ix.count v)
    .ok (listMaxN iy - listMinN iy + 1, listMaxN ix - listMinN ix + 1, rect)

/-- `argsort` of a list of distinct numbers. For equal numbers, which NumPy does not order, the
order in the list is kept. -/
def argsortNat (keys : List ℕ) : List ℕ :=
  (List.range keys.length).insertionSort fun a b => keys.getD a 0 ≤ keys.getD b 0

/-- Take patterns by index (`IndexError` outside of the array). -/
def takeIdx {P : Type} (pats : List P) : List ℕ → Except Err (List P)
  | [] => .ok []
  | k :: ks =>
    match pats[k]?, takeIdx pats ks with
    | some p, .ok l => .ok (p :: l)
    | _, _ => .error .indexError

/-- What is returned: map shape, patterns and projection centers in row-major order. -/
structure BrukerScan (K P : Type) where
  ny : ℕ
  nx : ℕ
  padded : Bool
  patterns : List P
  pc : List (PC K)
  deriving DecidableEq

/-- Reading patterns with positions (`bruker_h5ebsd/_api.py` L99-118, L144-149, L169-177, and
`get_data`, `_h5ebsd.py` L303-381).  If the number of patterns is not the size of the map, the array
is padded with zeros; padding an array that is too large raises `ValueError`. The array of several
projection centers is reshaped to the map. -/
def brukerRead {K P : Type} (zero : P) (iy ix : List ℕ) (pats : List P) (pcs : List (PC K)) :
    Except Err (BrukerScan K P) :=
  match brukerRoi iy ix with
  | .error e => .error e
  | .ok (ny, nx, rect) =>
    if rect then
      let keys := List.zipWith (fun y x => (y - listMinN iy) * nx + (x - listMinN ix)) iy ix
      match takeIdx pats (argsortNat keys) with
      | .error e => .error e
      | .ok data =>
        if 1 < pcs.length ∧ pcs.length ≠ ny * nx then .error .valueError
        else if data.length = ny * nx then .ok ⟨ny, nx, false, data, pcs⟩
        else if data.length < ny * nx then
          .ok ⟨ny, nx, true, data ++ List.replicate (ny * nx - data.length) zero, pcs⟩
        else .error .valueError
    else .error .valueError

end Kp
