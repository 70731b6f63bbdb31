import Verif.Model.ScanGroups

/-
Model of the steps by which a signal is written to kikuchipy's h5ebsd format, each of which may be
the last one (`src/kikuchipy/io/plugins/kikuchipy_h5ebsd/_api.py` L236-264 and L370-462,
`src/kikuchipy/io/plugins/_h5ebsd.py` L90-125), and of reading what is then in the file
(`kikuchipy_h5ebsd/_api.py` L65-130, `_h5ebsd.py` L345-356).

A step is a call of h5py. An exception in a step (a full disk, a lazy computation that fails, an
interrupt from the keyboard) leaves what earlier steps have done. What remains of an HDF5 file when
the process is killed is not modelled. Values are of any type `V`; datasets which have been
created and not yet been filled have the value `zero`.
-/

namespace Kp

/-- Path within a scan group. -/
abbrev H5Path := List String

/-- A group or a dataset. -/
inductive H5Item (V : Type)
  | group
  | dataset (values : List V)

/-- The content of a scan group, in the order of creation. Groups above a member are not listed. -/
abbrev H5Tree (V : Type) := List (H5Path × H5Item V)

/-- Calls of h5py on a scan group: `create_group`, `create_dataset` with a number of values,
`dataset[()] = values`, and storing one block (pattern) of a dataset. -/
inductive ScanStep (V : Type)
  | group (p : H5Path)
  | create (p : H5Path) (n : ℕ)
  | fill (p : H5Path) (values : List V)
  | block (p : H5Path) (i : ℕ) (v : V)

variable {V : Type}

/-- Change the values of a dataset. -/
def updateDataset (f : List V → List V) (p : H5Path) (t : H5Tree V) : H5Tree V :=
  t.map fun e => if e.1 = p then (e.1, match e.2 with
    | .group => .group
    | .dataset v => .dataset (f v)) else e

/-- The effect of a step. -/
def ScanStep.run (zero : V) (t : H5Tree V) : ScanStep V → H5Tree V
  | .group p => t ++ [(p, .group)]
  | .create p n => t ++ [(p, .dataset (List.replicate n zero))]
  | .fill p v => updateDataset (fun _ => v) p t
  | .block p i v => updateDataset (fun l => l.set i v) p t

/-- `_dict2hdf5group` (`_h5ebsd.py` L90-125): every value is stored in two steps (L123-125). -/
def dictSteps (p : H5Path) (entries : List (String × List V)) : List (ScanStep V) :=
  entries.flatMap fun e => [.create (p ++ [e.1]) e.2.length, .fill (p ++ [e.1]) e.2]

/-- Names in the header, in the order in which they are written (`kikuchipy_h5ebsd/_api.py`
L424-443). -/
def headerKeys : List String :=
  ["azimuth_angle", "twist_angle", "binning", "elevation_angle", "n_columns", "n_rows",
   "pattern_width", "pattern_height", "pcx", "pcy", "pcz", "detector_pixel_size", "sample_tilt",
   "static_background", "step_x", "step_y"]

/-- Names in the header of the microscope (L450-456). -/
def semKeys : List String := ["beam_energy", "magnification", "microscope", "working_distance"]

/-- What is written of a signal: patterns, entries of the dictionary of its crystal map, header and
header of the microscope. -/
structure ScanSource (V : Type) where
  patterns : List V
  xmap : List (String × List V)
  header : String → List V
  sem : String → List V

/-- The steps of `write` after the scan group has been created (`kikuchipy_h5ebsd/_api.py`
L399-460). The values `manufacturer` and `version` next to the crystal map are left out, and
dictionaries in the dictionary of the crystal map are taken as entries. -/
def scanSteps (s : ScanSource V) : List (ScanStep V) :=
  [.group ["EBSD", "Data"], .create ["EBSD", "Data", "patterns"] s.patterns.length] ++
  (s.patterns.zipIdx.map fun e => .block ["EBSD", "Data", "patterns"] e.2 e.1) ++
  [.group ["EBSD", "CrystalMap"], .group ["EBSD", "CrystalMap", "crystal_map"]] ++
  dictSteps ["EBSD", "CrystalMap", "crystal_map"] s.xmap ++
  [.group ["EBSD", "Header"]] ++
  dictSteps ["EBSD", "Header"] (headerKeys.map fun k => (k, s.header k)) ++
  [.group ["SEM", "Header"]] ++
  dictSteps ["SEM", "Header"] (semKeys.map fun k => (k, s.sem k))

/-- The content of the scan group after some steps. -/
def treeAfter (zero : V) (steps : List (ScanStep V)) : H5Tree V :=
  steps.foldl (ScanStep.run zero) []

/-! ### The file -/

/-- Is there something with this path (`path in group`)? -/
def hasPath (t : H5Tree V) (p : H5Path) : Bool := t.any fun e => p.isPrefixOf e.1

/-- The top group of a file: names and texts of datasets, or scan groups. -/
inductive TopItem (V : Type)
  | text (value : List Char)
  | scan (t : H5Tree V)

/-- A file. -/
abbrev TopFile (V : Type) := List (List Char × TopItem V)

/-- A file as seen by the reader. -/
def TopFile.top (f : TopFile V) : TopGroup (H5Tree V) :=
  f.map fun e => (e.1, match e.2 with
    | .text v => .dataset v
    | .scan t => .group (hasPath t ["EBSD", "Data"]) (hasPath t ["EBSD", "Header"]) t)

/-- A new member, at its place in the order of names. -/
def insertItem (e : List Char × TopItem V) : TopFile V → TopFile V
  | [] => [e]
  | x :: xs => if nameLe e.1 x.1 then e :: x :: xs else x :: insertItem e xs

/-- Steps on the file: opening it with mode "w", creating a dataset with text in the top group and
storing it, creating a scan group, and steps in the scan group. -/
inductive FileStep (V : Type)
  | truncate
  | createText (name : List Char)
  | fillText (name value : List Char)
  | scanGroup (name : List Char)
  | inScan (name : List Char) (s : ScanStep V)

/-- The effect of a step on the file, `none` if there is no file. Only opening makes a file. -/
def FileStep.run (zero : V) (f : Option (TopFile V)) : FileStep V → Option (TopFile V)
  | .truncate => some []
  | .createText n => f.map (insertItem (n, .text []))
  | .fillText n v => f.map (List.map fun e => if e.1 = n then (n, .text v) else e)
  | .scanGroup n => f.map (insertItem (n, .scan []))
  | .inScan n s => f.map (List.map fun e => if e.1 = n then (n, match e.2 with
      | .text v => .text v
      | .scan t => .scan (s.run zero t)) else e)

/-- All steps of saving a signal: to a new file or instead of an old one (`add = false`), or to an
existing file under a valid number (`kikuchipy_h5ebsd/_api.py` L244-252, L387-460). -/
def saveSteps (str : ℤ → List Char) (version : List Char) (add : Bool) (n : ℤ) (s : ScanSource V) :
    List (FileStep V) :=
  (if add then [] else [.truncate, .createText "manufacturer".toList,
    .fillText "manufacturer".toList "kikuchipy".toList, .createText "version".toList,
    .fillText "version".toList version]) ++
  .scanGroup (scanName str n) :: (scanSteps s).map (.inScan (scanName str n))

/-- The file after the first `k` steps of saving. A file that is open elsewhere cannot be opened to
write (L249-252). -/
def fileAfterSteps (zero : V) (str : ℤ → List Char) (version : List Char)
    (old : Option (TopFile V)) (openElsewhere add : Bool) (n : ℤ) (s : ScanSource V) (k : ℕ) :
    Option (TopFile V) :=
  if openElsewhere then old
  else ((saveSteps str version (add && old.isSome) n s).take k).foldl (FileStep.run zero) old

/-! ### Reading -/

/-- The datasets in a group (`_hdf5group2dict`, `_h5ebsd.py` L60-87). -/
def readDict (t : H5Tree V) (p : H5Path) : List (String × List V) :=
  t.filterMap fun e => match e.2 with
    | .group => none
    | .dataset v => if e.1.dropLast = p ∧ e.1 ≠ [] then some (e.1.getLast?.getD "", v) else none

/-- What is read of a scan. -/
structure ReadScan (V : Type) where
  patterns : List V
  xmap : Option (List (String × List V))
  header : List (String × List V)
  sem : List (String × List V)

/-- `scan2dict` (`kikuchipy_h5ebsd/_api.py` L65-173) and `get_data` (`_h5ebsd.py` L345-356): what is
not there raises `KeyError`. Other entries of the header have default values. -/
def readTree (t : H5Tree V) : Except Err (ReadScan V) :=
  let header := readDict t ["EBSD", "Header"]
  if hasPath t ["EBSD", "Header"] = false then .error .keyError
  else if ∃ k ∈ ["n_rows", "n_columns", "pattern_height", "pattern_width"],
      header.lookup k = none then .error .keyError
  else if hasPath t ["SEM", "Header"] = false then .error .keyError
  else match (readDict t ["EBSD", "Data"]).lookup "patterns" with
    | none => .error .keyError
    | some p =>
      if hasPath t ["EBSD", "CrystalMap"] = true ∧
          hasPath t ["EBSD", "CrystalMap", "crystal_map"] = false then .error .keyError
      else .ok
        { patterns := p
          xmap := if hasPath t ["EBSD", "CrystalMap"] then
            some (readDict t ["EBSD", "CrystalMap", "crystal_map"]) else none
          header := header
          sem := readDict t ["SEM", "Header"] }

/-- `load` of a file: `__init__` and `read` of the reader (`_h5ebsd.py` L146-151, L469-507). There
must be a file. -/
def loadTopFile (f : Option (TopFile V)) (names : Option (List (List Char))) :
    Except Err (List (ReadScan V)) :=
  match f with
  | none => .error .ioError
  | some f => do
    let mv ← manufacturerVersion f.top
    checkFile f.top mv.1
    let r ← desiredScanGroups (scanGroups f.top) names
    r.1.mapM fun g => readTree g.2.2

end Kp
