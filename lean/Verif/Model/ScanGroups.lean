import Verif.Model.Load

/-
Model of the choice of scans in h5ebsd files: `src/kikuchipy/io/plugins/_h5ebsd.py` and the parts of
`src/kikuchipy/io/plugins/kikuchipy_h5ebsd/_api.py` and `src/kikuchipy/io/_io.py` around it.
-/

namespace Kp

/-- Member of the top group of an h5ebsd file: a dataset with text, or a group, of which only is
modelled whether it has the groups "EBSD/Data" and "EBSD/Header", and the scan in it. -/
inductive TopEntry (S : Type)
  | dataset (value : List Char)
  | group (hasData hasHeader : Bool) (scan : S)

/-- Top group of a file: names and members in the order in which h5py iterates over them, which is
the order of the names. -/
abbrev TopGroup (S : Type) := List (List Char × TopEntry S)

/-- `get_scan_groups` of the reader (`_h5ebsd.py` L241-255) and `scan_group_names` (L155-163). All
groups are taken as scans. -/
def scanGroups {S : Type} (file : TopGroup S) : List (List Char × Bool × Bool × S) :=
  file.filterMap fun e => match e.2 with
    | .dataset _ => none
    | .group d h s => some (e.1, d, h, s)

/-- One turn of the loop in `get_manufacturer_version` (`_h5ebsd.py` L228-233). The value of a group
has no method `lower`. Values other than text are left out. -/
def manufacturerVersionStep {S : Type} (acc : Option (List Char) × Option (List Char))
    (e : List Char × TopEntry S) : Except Err (Option (List Char) × Option (List Char)) :=
  if lower e.1 = "manufacturer".toList then
    match e.2 with
    | .dataset v => .ok (some (lower v), acc.2)
    | .group _ _ _ => .error .attributeError
  else if lower e.1 = "version".toList ∨ lower e.1 = "format version".toList then
    match e.2 with
    | .dataset v => .ok (acc.1, some (lower v))
    | .group _ _ _ => .error .attributeError
  else .ok acc

/-- `get_manufacturer_version` (`_h5ebsd.py` L212-239). -/
def manufacturerVersion {S : Type} (file : TopGroup S) : Except Err (List Char × List Char) := do
  let acc ← file.foldlM manufacturerVersionStep (none, none)
  match acc with
  | (some m, some v) => .ok (m, v)
  | _ => .error .ioError

/-- `supported_manufacturers` (`_h5ebsd.py` L144). -/
def supportedManufacturers : List (List Char) :=
  ["bruker nano".toList, "edax".toList, "kikuchipy".toList, "oxford instruments".toList]

/-- `check_file` of the reader (`_h5ebsd.py` L177-210), after the manufacturer has been read. -/
def checkFile {S : Type} (file : TopGroup S) (manufacturer : List Char) : Except Err Unit :=
  if (scanGroups file).any (fun g => g.2.1 && g.2.2.1) = false then .error .ioError
  else if manufacturer ∈ supportedManufacturers then .ok ()
  else .error .ioError

/-- The inner loop of `get_desired_scan_groups` (`_h5ebsd.py` L285-290): first group with the name. -/
def findScan {S : Type} (groups : List (List Char × Bool × Bool × S)) (name : List Char) :
    Option (Bool × Bool × S) :=
  (groups.find? fun g => g.1 = name).map Prod.snd

/-- `get_desired_scan_groups` (`_h5ebsd.py` L257-301): the groups and the names for which a warning
is given. `names` is `none` if no name is given, and a list with one name for a string. -/
def desiredScanGroups {S : Type} (groups : List (List Char × Bool × Bool × S))
    (names : Option (List (List Char))) :
    Except Err (List (Bool × Bool × S) × List (List Char)) :=
  match names with
  | none => match groups with
    | [] => .error .indexError
    | g :: _ => .ok ([g.2], [])
  | some ns =>
    if ns.length = 1 ∧ ∃ n ∈ ns, findScan groups n = none then .error .ioError
    else .ok (ns.filterMap (findScan groups), ns.filter fun n => (findScan groups n).isNone)

/-- `scan2dict` of a group, as far as the groups in it are concerned: looking up a group that is not
there raises. -/
def readScanGroup {S : Type} (g : Bool × Bool × S) : Except Err S :=
  if g.1 && g.2.1 then .ok g.2.2 else .error .keyError

/-- `__init__` (`_h5ebsd.py` L146-151), `read` (L469-507) and `load` (`_io.py` L122-144): the signals
and the names for which a warning is given. -/
def loadScans {S : Type} (file : TopGroup S) (names : Option (List (List Char))) :
    Except Err (List S × List (List Char)) := do
  let mv ← manufacturerVersion file
  checkFile file mv.1
  let r ← desiredScanGroups (scanGroups file) names
  let scans ← r.1.mapM readScanGroup
  pure (scans, r.2)

/-! ### Files written -/

/-- Order of names in a file: by their characters. -/
def nameLe : List Char → List Char → Bool
  | [], _ => true
  | _ :: _, [] => false
  | a :: as, b :: bs => if a = b then nameLe as bs else decide (a < b)

/-- New member of a file: at its place in the order of names. -/
def insertEntry {S : Type} (e : List Char × TopEntry S) : TopGroup S → TopGroup S
  | [] => [e]
  | x :: xs => if nameLe e.1 x.1 then e :: x :: xs else x :: insertEntry e xs

/-- Name of a scan (`kikuchipy_h5ebsd/_api.py` L397). `str` is Python's `str` on integers. -/
def scanName (str : ℤ → List Char) (n : ℤ) : List Char := "Scan ".toList ++ str n

/-- A new file (`kikuchipy_h5ebsd/_api.py` L390-397). -/
def newScanFile {S : Type} (str : ℤ → List Char) (version : List Char) (n : ℤ) (s : S) : TopGroup S :=
  insertEntry (scanName str n, .group true true s)
    [("manufacturer".toList, .dataset "kikuchipy".toList), ("version".toList, .dataset version)]

/-- A scan added to a file under a number that is not in the file (`kikuchipy_h5ebsd/_api.py`
L387-397). -/
def addScanTo {S : Type} (str : ℤ → List Char) (file : TopGroup S) (n : ℤ) (s : S) : TopGroup S :=
  insertEntry (scanName str n, .group true true s) file

end Kp
