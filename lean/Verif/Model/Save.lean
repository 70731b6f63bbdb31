import Verif.Model.Base
import Mathlib.Data.Int.Notation
import Mathlib.Data.Nat.Notation
import Mathlib.Tactic.TypeStar

/-
Model of saving signals: `src/kikuchipy/io/_io.py` (`_save`), `src/kikuchipy/io/_util.py`
(prompts), `src/kikuchipy/signals/ebsd.py` (`EBSD.save`) and the parts of
`src/kikuchipy/io/plugins/kikuchipy_h5ebsd/_api.py` that decide where a scan is written.

File names are lists of characters of the last path component; directories are left out.
-/

namespace Kp

/-! ### Prompts -/

/-- What happens at a call of `input()`: the user enters text, or `input()` raises `OSError`.
When the list of events is exhausted, `input()` raises `EOFError`. -/
inductive InputEvent
  | text (t : List Char)
  | osError
  deriving DecidableEq

/-- `str.lower` for the letters of file extensions and answers (ASCII only). -/
def lower (t : List Char) : List Char := t.map Char.toLower

/-- The `while` loop of `_get_input_bool` (`_util.py` L38-44): answers after the first one are
not converted to lower case before comparison. -/
def askAgain : List InputEvent → Except Err Bool × List InputEvent
  | [] => (.error .eofError, [])
  | .osError :: r => (.ok false, r)
  | .text t :: r => if t = ['y'] then (.ok true, r) else if t = ['n'] then (.ok false, r)
    else askAgain r

/-- `_get_input_bool` (`_util.py` L25-48). -/
def getInputBool : List InputEvent → Except Err Bool × List InputEvent
  | [] => (.error .eofError, [])
  | .osError :: r => (.ok false, r)
  | .text t :: r => if lower t = ['y'] then (.ok true, r) else if lower t = ['n'] then (.ok false, r)
    else askAgain r

/-- `_get_input_variable` with type `int` (`_util.py` L64-84); `parseInt` is Python's `int` on
strings. `none` is returned when `input()` raises `OSError`. -/
def getInputInt (parseInt : List Char → Option ℤ) :
    List InputEvent → Except Err (Option ℤ) × List InputEvent
  | [] => (.error .eofError, [])
  | .osError :: r => (.ok none, r)
  | .text t :: r => match parseInt t with
    | some n => (.ok (some n), r)
    | none => getInputInt parseInt r

/-! ### Files -/

/-- An HDF5 file: whether its top group says that it was made by kikuchipy, and its scans by
number in the order in which h5py iterates over them. Scan groups are taken to be named
"Scan N" with an integer N, as kikuchipy names them; other groups are left out. -/
structure H5File (S : Type*) where
  isKikuchipy : Bool
  scans : List (ℤ × S)
  deriving DecidableEq

/-- Content of a file: HDF5, a NORDIF file with the patterns of a signal, or anything else. -/
inductive FileContent (S : Type*)
  | h5 (f : H5File S)
  | nordif (s : S)
  | other (bytes : List UInt8)
  deriving DecidableEq

/-- The plugins that write (`specification.yaml` of each plugin). -/
inductive Writer
  | h5ebsd
  | nordif
  deriving DecidableEq

/-- `get_valid_scan_number` (`kikuchipy_h5ebsd/_api.py` L329-356), the loop over the numbers of
the scans in the file. -/
def getValidScanNumber (parseInt : List Char → Option ℤ) :
    List ℤ → ℤ → List InputEvent → Except Err ℤ × List InputEvent
  | [], n, ev => (.ok n, ev)
  | i :: is, n, ev =>
    if i = n then
      match getInputInt parseInt ev with
      | (.error e, ev') => (.error e, ev')
      | (.ok none, ev') => (.error .ioError, ev')
      | (.ok (some n'), ev') =>
        if n' = i then (.error .ioError, ev') else getValidScanNumber parseInt is n' ev'
    else getValidScanNumber parseInt is n ev

/-- `KikuchipyH5EBSDWriter.__init__` and `write` (`kikuchipy_h5ebsd/_api.py` L238-259, L370-462):
the outcome and the content of the file afterwards. Only where the scan is written is modelled,
not what: writing the datasets is taken to succeed. `create_group` raises `ValueError` for an
existing name. Opening a file that is not HDF5 with mode "r+" raises `OSError`. -/
def h5Write {S : Type*} (parseInt : List Char → Option ℤ) (old : Option (FileContent S))
    (addScan : Bool) (scanNumber : ℤ) (s : S) (ev : List InputEvent) :
    Except Err Unit × FileContent S :=
  match old, addScan with
  | some (.h5 f), true =>
    if f.isKikuchipy = false ∨ f.scans = [] then (.error .ioError, .h5 f)
    else match (getValidScanNumber parseInt (f.scans.map Prod.fst) scanNumber ev).1 with
      | .error e => (.error e, .h5 f)
      | .ok n =>
        if n ∈ f.scans.map Prod.fst then (.error .valueError, .h5 f)
        else (.ok (), .h5 { f with scans := f.scans ++ [(n, s)] })
  | some c, true => (.error .ioError, c)
  | _, _ => (.ok (), .h5 ⟨true, [(scanNumber, s)]⟩)

/-- The `overwrite` argument: `None`, `True`, `False` or something else. -/
inductive PyTri
  | none | true | false | other
  deriving DecidableEq

/-- The two questions asked by `_save`. -/
inductive Question
  | addScan
  | overwrite
  deriving DecidableEq

/-- What `_save` did: outcome (`true` if a file was written), content of the target file
afterwards, and the questions answered with the answers understood. -/
structure SaveResult (S : Type*) where
  outcome : Except Err Bool
  file : Option (FileContent S)
  log : List (Question × Bool)
  deriving DecidableEq

/-- `add_scan` and `overwrite` after the question about adding a scan (`_io.py` L427-439): the
new `overwrite`, the `add_scan` keyword argument given to the writer, remaining events and log. -/
def decideAddScan (w : Writer) (isFile : Bool) (overwrite : PyTri) (addScan : Option Bool)
    (ev : List InputEvent) :
    Except Err (PyTri × Option Bool × List InputEvent) × List (Question × Bool) :=
  if w = .h5ebsd ∧ overwrite ≠ .true ∧ isFile = true then
    match addScan with
    | some b => (.ok (if b then .true else overwrite, some b, ev), [])
    | none => match getInputBool ev with
      | (.error e, _) => (.error e, [])
      | (.ok b, ev') => (.ok (if b then .true else overwrite, some b, ev'), [(.addScan, b)])
  else (.ok (overwrite, none, ev), [])

/-- Whether to write (`_io.py` L441-453 and `_overwrite`, `_util.py` L51-61). -/
def decideWrite (isFile : Bool) (overwrite : PyTri) (ev : List InputEvent) :
    Except Err (Bool × List InputEvent) × List (Question × Bool) :=
  match overwrite with
  | .none =>
    if isFile then
      match getInputBool ev with
      | (.error e, _) => (.error e, [])
      | (.ok b, ev') => (.ok (b, ev'), [(.overwrite, b)])
    else (.ok (true, ev), [])
  | .true => (.ok (true, ev), [])
  | .false => (.ok (!isFile, ev), [])
  | .other => (.error .valueError, [])

/-- `_save` after the writer has been chosen (`_io.py` L398-463): `file` is the content of the
target file before the call, if it exists. The writers' failures other than those in `h5Write`
are left out. -/
def saveWith {S : Type*} (parseInt : List Char → Option ℤ) (w : Writer) (navDim : ℕ)
    (file : Option (FileContent S)) (overwrite : PyTri) (addScan : Option Bool) (scanNumber : ℤ)
    (s : S) (ev : List InputEvent) : SaveResult S :=
  if 2 < navDim then ⟨.error .valueError, file, []⟩
  else match decideAddScan w file.isSome overwrite addScan ev with
    | (.error e, log) => ⟨.error e, file, log⟩
    | (.ok (ow, addKw, ev'), log) => match decideWrite file.isSome ow ev' with
      | (.error e, log') => ⟨.error e, file, log ++ log'⟩
      | (.ok (false, _), log') => ⟨.ok false, file, log ++ log'⟩
      | (.ok (true, ev''), log') => match w with
        | .nordif => ⟨.ok true, some (.nordif s), log ++ log'⟩
        | .h5ebsd => match h5Write parseInt file (addKw.getD false) scanNumber s ev'' with
          | (.error e, c) => ⟨.error e, some c, log ++ log'⟩
          | (.ok (), c) => ⟨.ok true, some c, log ++ log'⟩

/-! ### File names -/

/-- Split at the last dot, which goes with the second part. -/
def splitLastDot : List Char → Option (List Char × List Char)
  | [] => none
  | c :: cs => match splitLastDot cs with
    | some (a, b) => some (c :: a, b)
    | none => if c = '.' then some ([], c :: cs) else none

/-- `os.path.splitext` of a file name without directory: leading dots are not separators. -/
def splitext (name : List Char) : List Char × List Char :=
  match splitLastDot (name.dropWhile (· = '.')) with
  | some (a, b) => (name.takeWhile (· = '.') ++ a, b)
  | none => (name, [])

/-- `PurePath.suffix` of a file name: empty if the last dot comes first or last. -/
def pathSuffix (name : List Char) : List Char :=
  match splitLastDot name with
  | some (a, b) => if a = [] ∨ b.length ≤ 1 then [] else b
  | none => []

/-- The writing plugin for an extension (`_io.py` L398-409; extensions from the
`specification.yaml` files). -/
def writerFor (ext : List Char) : Option Writer :=
  if lower ext ∈ ["h5".toList, "hdf5".toList, "h5ebsd".toList] then some .h5ebsd
  else if lower ext = "dat".toList then some .nordif
  else none

/-- Name of the file to write and the writer in `_save` (`_io.py` L391-409). -/
def saveTarget (name : List Char) : Except Err (List Char × Writer) :=
  let ext := (splitext name).2.drop 1
  let (ext, name) := if ext = [] then ("h5".toList, name ++ '.' :: "h5".toList) else (ext, name)
  match writerFor ext with
  | some w => .ok (name, w)
  | none => .error .valueError

/-- `tmp_parameters` of a signal that has been loaded or saved. -/
structure TmpParameters where
  filename : List Char
  extension : List Char

/-- What `EBSD.save` does: hand over to HyperSpy, with the file name argument, or write a file with
a given name with a writer. -/
inductive SaveAction
  | hyperspy (filename : Option (List Char))
  | write (name : List Char) (w : Writer)
  deriving DecidableEq

/-- The choice of file and format in `EBSD.save` (`ebsd.py` L2645-2663) followed by that in
`_save`. The `General.original_filename` fallback is `original`. -/
def saveChoice (filename : Option (List Char)) (extension : Option (List Char))
    (tmp : Option TmpParameters) (original : Option (List Char)) : Except Err SaveAction :=
  let r : Except Err (List Char × Option (List Char)) := match filename with
    | some f => .ok (f, extension)
    | none => match tmp with
      | some t => .ok (t.filename, match extension with
          | some (c :: cs) => some (c :: cs)
          | _ => some t.extension)
      | none => match original with
        | some f => .ok (f, extension)
        | none => .error .valueError
  match r with
  | .error e => .error e
  | .ok (fname, extension) =>
    let ext := extension.getD ((pathSuffix fname).drop 1)
    if lower ext = "hspy".toList ∨ lower ext = "zspy".toList then .ok (.hyperspy filename)
    else match saveTarget fname with
      | .error e => .error e
      | .ok (name, w) => .ok (.write name w)

end Kp
