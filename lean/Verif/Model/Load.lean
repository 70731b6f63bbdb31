import Verif.Model.Save

/-
Model of `load` in `src/kikuchipy/io/_io.py`: choice of reader and the parameters set on the
loaded signals.
-/

namespace Kp

/-- Content of an HDF5 dataset, as far as reader selection is concerned: text (bytes, or an array
with one item of bytes) or anything else. -/
inductive DsetValue
  | text (t : List Char)
  | other
  deriving DecidableEq

mutual
/-- Member of an HDF5 group. -/
inductive H5Member
  | dset (v : DsetValue)
  | group (g : H5Members)

/-- Members of an HDF5 group by name, in the order in which h5py iterates over them. -/
inductive H5Members
  | nil
  | cons (name : List Char) (m : H5Member) (rest : H5Members)
end

/-- `key.lstrip().lower()` (`_io.py` L226). -/
def normalizeKey (k : List Char) : List Char := lower (k.dropWhile Char.isWhitespace)

/-- The value of a key in the dictionary made by `_hdf5group2dict` in `_plugin_from_footprints`
(`_io.py` L223-233): of several names that are the same after normalization, the last one. -/
def H5Members.find? : H5Members → List Char → Option H5Member
  | .nil, _ => none
  | .cons name m rest, k => match rest.find? k with
    | some m' => some m'
    | none => if normalizeKey name = k then some m else none

/-- `_exists(...) is not None` (`_io.py` L235-238) for a footprint split at "/". Searching inside
a dataset raises `TypeError` (in the code, a dataset named "manufacturer" is a string instead of
an integer in the dictionary, in which searching may also give false; no footprint of a plugin has
anything after "manufacturer"). -/
def H5Members.hasPath : H5Members → List (List Char) → Except Err Bool
  | _, [] => .error .indexError
  | g, k :: ks => match g.find? k, ks with
    | none, _ => .ok false
    | some _, [] => .ok true
    | some (.group g'), ks => g'.hasPath ks
    | some (.dset _), _ => .error .typeError
termination_by _ ks => ks.length

/-- Specification of a reader (`specification.yaml`), footprints in lower case and split at
"/". -/
structure Plugin where
  name : String
  extensions : List (List Char)
  manufacturer : List Char
  footprints : List (List (List Char))
  deriving DecidableEq

/-- The loop over the footprints of a plugin (`_io.py` L261-269): whether all of them, and at
least one, exist in the file. -/
def Plugin.matches (p : Plugin) (g : H5Members) : Except Err Bool := do
  let found ← p.footprints.mapM g.hasPath
  let n := found.count true
  pure (decide (0 < n ∧ n = p.footprints.length))

/-- The manufacturer given in the file (`_io.py` L245-252), in lower case: `none` if there is no
such key. -/
def H5Members.manufacturer (g : H5Members) : Except Err (Option (List Char)) :=
  match g.find? "manufacturer".toList with
  | none => .ok none
  | some (.dset (.text t)) => .ok (some (lower t))
  | some (.dset .other) => .error .attributeError
  | some (.group _) => .error .typeError

/-- `filterM` in `Except`. -/
def filterE {α : Type} (p : α → Except Err Bool) : List α → Except Err (List α)
  | [] => .ok []
  | a :: l => match p a with
    | .error e => .error e
    | .ok b => match filterE p l with
      | .error e => .error e
      | .ok l' => .ok (if b then a :: l' else l')

/-- `_plugin_from_footprints` (`_io.py` L198-276). -/
def pluginFromFootprints (g : H5Members) (plugins : List Plugin) : Except Err (Option Plugin) :=
  match g.manufacturer with
  | .error e => .error e
  | .ok man =>
    match plugins.filter (fun p => decide (man = some p.manufacturer)) with
    | [p] => .ok (some p)
    | _ => match filterE (fun p => p.matches g) plugins with
      | .error e => .error e
      | .ok [p] => .ok (some p)
      | .ok _ => .ok none

/-- The choice of reader in `load` (`_io.py` L109-126): `hdf5` is the top group of the file if it
is an HDF5 file. -/
def selectReader (plugins : List Plugin) (extension : List Char) (hdf5 : Option H5Members) :
    Except Err Plugin :=
  match plugins.filter (fun p => decide (lower extension ∈ p.extensions)) with
  | [] => .error .ioError
  | [p] => .ok p
  | readers => match hdf5 with
    | none => .error .ioError
    | some g => match pluginFromFootprints g readers with
      | .error e => .error e
      | .ok none => .error .ioError
      | .ok (some p) => .ok p

/-- The readers of kikuchipy (`io/plugins/*/specification.yaml`). -/
def kikuchipyPlugins : List Plugin :=
  let h5 := ["h5".toList, "hdf5".toList, "h5ebsd".toList]
  let ems := ["h5".toList, "hdf5".toList]
  let mv := [["manufacturer".toList], ["version".toList]]
  [⟨"bruker_h5ebsd", h5, "bruker nano".toList, mv⟩,
   ⟨"ebsd_directory", ["tif".toList, "tiff".toList, "bmp".toList, "png".toList], "None".toList, []⟩,
   ⟨"edax_binary", ["up1".toList, "up2".toList], "edax".toList, []⟩,
   ⟨"edax_h5ebsd", h5, "edax".toList, mv⟩,
   ⟨"emsoft_ebsd", ems, "emsoft".toList,
     [["emdata".toList, "ebsd".toList, "ebsdpatterns".toList]]⟩,
   ⟨"emsoft_ebsd_master_pattern", ems, "emsoft".toList, [["emdata".toList, "ebsdmaster".toList]]⟩,
   ⟨"emsoft_ecp_master_pattern", ems, "emsoft".toList, [["emdata".toList, "ecpmaster".toList]]⟩,
   ⟨"emsoft_tkd_master_pattern", ems, "emsoft".toList, [["emdata".toList, "tkdmaster".toList]]⟩,
   ⟨"kikuchipy_h5ebsd", h5, "kikuchipy".toList, mv⟩,
   ⟨"nordif", ["dat".toList], "nordif".toList, []⟩,
   ⟨"nordif_calibration_patterns", ["txt".toList], "nordif".toList, []⟩,
   ⟨"oxford_binary", ["ebsp".toList], "oxford".toList, []⟩,
   ⟨"oxford_h5ebsd", ["h5oina".toList], "oxford".toList, []⟩]

/-- Folder, file name and extension in `tmp_parameters` of a loaded signal. -/
structure LoadedFrom (D : Type*) where
  folder : D
  filename : List Char
  extension : List Char
  deriving DecidableEq

/-- The loop over the signals of a file in `load` (`_io.py` L132-140), for `n` signals: `dir` is
the directory of `filename`, `none` if there is none in the name. `os.path.abspath` gives such a
name the current working directory. The variable `filename` is assigned in the loop. -/
def loadLoop {D : Type*} (cwd : D) : ℕ → Option D → List Char → List (LoadedFrom D)
  | 0, _, _ => []
  | n + 1, dir, filename =>
    let (stem, ext) := splitext filename
    ⟨dir.getD cwd, stem, ext.filter (· ≠ '.')⟩ :: loadLoop cwd n none stem

end Kp
