import Verif.Model.Base
import Mathlib.Data.List.Sort
import Mathlib.Data.List.Dedup
import Mathlib.Data.Nat.Notation

/-
Model of reading patterns in a directory: `src/kikuchipy/io/plugins/ebsd_directory/_api.py`.

Files are given in the order in which they are listed (`glob.glob`), each with its pattern. All
patterns have the same shape and data type, as the documentation requires, and are values of a type
`P` here. A regular expression with two groups is a function from a file name to the pair of
integers found, or `none` if it does not match.
-/

namespace Kp

/-- What is returned: whether a warning is given, navigation shape and patterns in row-major
order. -/
structure DirSignal (P : Type) where
  warned : Bool
  navShape : List ℕ
  data : List P
  deriving DecidableEq

/-- Choose a regular expression (`ebsd_directory/_api.py` L94-100): the given one or the first
default that matches the name of the first file. -/
def chooseRegex {R : Type} (search : R → String → Option (ℕ × ℕ)) (given : Option R)
    (defaults : List R) (first : String) : Option R :=
  match given with
  | some r => some r
  | none => defaults.find? fun r => (search r first).isSome

/-- Coordinates (x, y) of each file (`ebsd_directory/_api.py` L109-116): `AttributeError` if the
expression does not match, since `re.search` returns `None`. -/
def readCoords (search : String → Option (ℕ × ℕ)) : List String → Except Err (List (ℕ × ℕ))
  | [] => .ok []
  | fn :: fns =>
    match search fn with
    | none => .error .attributeError
    | some xy =>
      match readCoords search fns with
      | .error e => .error e
      | .ok l => .ok (xy :: l)

/-- Sorted distinct coordinates (`ebsd_directory/_api.py` L112-119). -/
def sortedSet (l : List ℕ) : List ℕ := l.dedup.insertionSort (· ≤ ·)

/-- Put each pattern in its place in the empty array of objects
(`ebsd_directory/_api.py` L147-149); a later pattern replaces an earlier one. -/
def placeAll {P : Type} (xs ys : List ℕ) (items : List ((ℕ × ℕ) × P)) (init : List (Option P)) :
    List (Option P) :=
  items.foldl (fun acc it =>
    acc.set (ys.idxOf it.1.2 * xs.length + xs.idxOf it.1.1) (some it.2)) init

/-- All patterns, if none is missing. -/
def allSome {P : Type} : List (Option P) → Option (List P)
  | [] => some []
  | none :: _ => none
  | some p :: l => (allSome l).map (p :: ·)

/-- `file_reader` (`ebsd_directory/_api.py` L38-185). If a position of the array of objects is
never set, `None` remains there and `da.block` raises `ValueError`. -/
def readDirectory {R P : Type} (search : R → String → Option (ℕ × ℕ)) (given : Option R)
    (defaults : List R) (files : List (String × P)) : Except Err (DirSignal P) :=
  match files with
  | [] => .error .indexError
  | (first, _) :: _ =>
    let n := files.length
    let patterns := files.map Prod.snd
    match chooseRegex search given defaults first with
    | none => .ok ⟨true, [n], patterns⟩
    | some r =>
      match readCoords (search r) (files.map Prod.fst) with
      | .error e => .error e
      | .ok coords =>
        let xs := sortedSet (coords.map Prod.fst)
        let ys := sortedSet (coords.map Prod.snd)
        if n ≠ ys.length * xs.length then .ok ⟨true, [n], patterns⟩
        else
          match allSome (placeAll xs ys (coords.zip patterns)
            (List.replicate (ys.length * xs.length) none)) with
          | none => .error .valueError
          | some data => .ok ⟨false, [ys.length, xs.length], data⟩

end Kp
