import Mathlib.Data.List.Basic
import Mathlib.Data.Int.Notation

/-
Model of the data cache: `Dataset`, `clear_cache()`, `get_fetching_pooch()`, `ni_gain()` and
`ni_gain_calibration()` of `src/kikuchipy/data/_data.py` L43-91, L179-318, L614-786.

Of the pooch package, the behaviour of `Pooch.fetch()` and `Unzip` is modelled, since the code
relies on it: `fetch()` leaves a file with the registered hash alone, otherwise downloads to a
temporary file, checks the hash and moves the file in place; `Unzip` unpacks the archive if it was
downloaded just now or if one of its members is missing. A downloaded file is `net url`, the same
for each of the five attempts.

Paths are lists of their parts, relative to the cache directory. The type `B` is the contents of
files, `H` that of their MD5 hashes.
-/

namespace Kp

abbrev CachePath := List String

section
variable {B H : Type}

/-- Files in the cache directory and the URLs requested so far. -/
structure CacheWorld (B : Type) where
  files : List (CachePath × B)
  requests : List String

/-- Everything else the code depends on. `members` is the content of a ZIP archive. -/
structure FetchEnv (B H : Type) where
  md5 : B → H
  hashes : CachePath → Option H
  urls : CachePath → Option String
  net : String → Option B
  members : B → List (CachePath × B)
  package : CachePath → Option B
  pooch : Bool

/-- Content of a file. -/
def CacheWorld.read (w : CacheWorld B) (p : CachePath) : Option B :=
  (w.files.find? fun f => f.1 == p).map fun f => f.2

/-- Deletion of a file. -/
def CacheWorld.remove (w : CacheWorld B) (p : CachePath) : CacheWorld B :=
  { w with files := w.files.filter fun f => f.1 != p }

/-- Writing or replacing a file. -/
def CacheWorld.write (w : CacheWorld B) (p : CachePath) (b : B) : CacheWorld B :=
  { w with files := (p, b) :: (w.remove p).files }

/-- What `Pooch.fetch()` found to do. -/
inductive FetchAction
  | fetch
  | download
  deriving DecidableEq

/-- `Pooch.fetch()`, with `base_url=""` (L80-91): a file without URL of its own is requested with
its path as URL. -/
def poochFetch [DecidableEq H] (env : FetchEnv B H) (w : CacheWorld B) (p : CachePath) :
    Except String FetchAction × CacheWorld B :=
  match env.hashes p with
  | none => (.error "ValueError: not in the registry", w)
  | some h =>
    if (w.read p).map env.md5 = some h then (.ok .fetch, w)
    else
      let url := (env.urls p).getD ("/".intercalate p)
      let w := { w with requests := w.requests ++ [url] }
      match env.net url with
      | none => (.error "download failed", w)
      | some b =>
        if env.md5 b = h then (.ok .download, w.write p b)
        else (.error "ValueError: hash does not match", w)

/-- A data set (L614-643): path relative to the cache directory, with `data` first, and the name of
the archive it is in. -/
structure CacheDataset where
  relpath : CachePath
  collection : Option String

/-- `Dataset.__init__()` (L621-643): `registry_hashes[...]` raises for unknown paths. -/
def CacheDataset.make (env : FetchEnv B H) (relpath : CachePath) (collection : Option String) :
    Except String CacheDataset :=
  match env.hashes ("data" :: relpath) with
  | none => .error "KeyError"
  | some _ => .ok ⟨"data" :: relpath, collection⟩

/-- The directory archives are unpacked to: `Unzip(extract_dir=self.file_directory)` is relative to
the directory of the archive (L661-663, L709-713). -/
def CacheDataset.extractDir (d : CacheDataset) : CachePath := "data" :: d.relpath.tail.dropLast

/-- `Unzip.__call__()` up to the unpacking. -/
def unzip (env : FetchEnv B H) (w : CacheWorld B) (dir : CachePath) (archive : B)
    (action : FetchAction) : CacheWorld B :=
  if action = .download ∨ (env.members archive).any (fun m => (w.read (dir ++ m.1)).isNone) then
    (env.members archive).foldl (fun w m => w.write (dir ++ m.1) m.2) w
  else w

/-- `Dataset.fetch_file_path_from_collection()` (L702-730). The names searched are those of all files
in the directory, as returned by `Unzip`. -/
def fetchFromCollection [DecidableEq H] (env : FetchEnv B H) (w : CacheWorld B) (d : CacheDataset)
    (c : String) : Except String CachePath × CacheWorld B :=
  match poochFetch env w ["data", c] with
  | (.error e, w) => (.error e, w)
  | (.ok action, w) =>
    match w.read ["data", c] with
    | none => (.error "FileNotFoundError", w)
    | some archive =>
      let w := unzip env w d.extractDir archive action
      let found := w.files.any fun f => d.extractDir.isPrefixOf f.1 && f.1.getLast? == d.relpath.getLast?
      let w := w.remove ["data", c]
      if found then (.ok d.relpath, w) else (.error "ValueError: not found in the collection", w)

/-- A file in the package or in the cache. -/
inductive DataFile
  | package (p : CachePath)
  | cache (p : CachePath)
  deriving DecidableEq

/-- `marshall.fetch(file_path, downloader=downloader)` (L786). -/
def fetchCached [DecidableEq H] (env : FetchEnv B H) (w : CacheWorld B) (p : CachePath) :
    Except String DataFile × CacheWorld B :=
  match poochFetch env w p with
  | (.error e, w) => (.error e, w)
  | (.ok _, w) => (.ok (.cache p), w)

/-- The branches for files that are missing or have another hash (L763-784). -/
def fetchMissing [DecidableEq H] (env : FetchEnv B H) (w : CacheWorld B) (d : CacheDataset)
    (allowDownload : Bool) : Except String DataFile × CacheWorld B :=
  if allowDownload = true then
    match d.collection with
    | some c =>
      match fetchFromCollection env w d c with
      | (.error e, w) => (.error e, w)
      | (.ok p, w) => fetchCached env w p
    | none => fetchCached env w d.relpath
  else (.error "ValueError: must be downloaded", w)

/-- `Dataset.fetch_file_path()` (L732-786). -/
def fetchFilePath [DecidableEq H] (env : FetchEnv B H) (w : CacheWorld B) (d : CacheDataset)
    (allowDownload : Bool) : Except String DataFile × CacheWorld B :=
  match env.package d.relpath.tail with
  | some b =>
    if some (env.md5 b) = env.hashes d.relpath then (.ok (.package d.relpath.tail), w)
    else (.error "AttributeError: incorrect MD5 hash", w)
  | none =>
    if env.pooch = false then (.error "ImportError", w)
    else
      match w.read d.relpath with
      | some b =>
        if some (env.md5 b) = env.hashes d.relpath then fetchCached env w d.relpath
        else fetchMissing env w d allowDownload
      | none => fetchMissing env w d allowDownload

/-- Content of a returned file. -/
def DataFile.content (env : FetchEnv B H) (w : CacheWorld B) : DataFile → Option B
  | .package p => env.package p
  | .cache p => w.read p

end

/-! ### Cache directory -/

/-- The environment variable `KIKUCHIPY_DATA_DIR`, if set, with the cache directory of the operating
system and the home directory. -/
structure CacheEnvironment where
  setting : Option String
  osCache : String
  home : String

/-- `os.path.expanduser()`, for the home directory of the user only. -/
def expandUser (home p : String) : String :=
  match p.toList with
  | ['~'] => home
  | '~' :: '/' :: r => home ++ String.ofList ('/' :: r)
  | _ => p

/-- A session: the directory `get_fetching_pooch()` gave when it was called first, if it was. -/
structure CacheSession where
  pooch : Option String

/-- `get_fetching_pooch()` (L76-91): cached, and `pooch.create()` expands `~` in the path. The
subdirectory of the version is left out: it is in the directory. -/
def CacheSession.get (s : CacheSession) (e : CacheEnvironment) : String × CacheSession :=
  match s.pooch with
  | some d => (d, s)
  | none =>
    let d := expandUser e.home (e.setting.getD e.osCache)
    (d, ⟨some d⟩)

/-- The directory `clear_cache()` deletes the contents of (L67-71). -/
def clearedDirectory (e : CacheEnvironment) : String := e.setting.getD e.osCache

/-! ### Gain series -/

/-- Gain of each scan (L240, L310). -/
def niGains : List ℕ := [0, 3, 6, 9, 12, 15, 17, 20, 22, 24]

/-- `gain[number - 1]` (L241, L311) with Python's negative indices. -/
def niGain (number : ℤ) : Except String ℕ :=
  let i := number - 1
  let j := if i < 0 then i + 10 else i
  if 0 ≤ j ∧ j < 10 then .ok (niGains.getD j.toNat 0) else .error "IndexError"

/-- File and archive of `ni_gain()` and `ni_gain_calibration()` (L240-243, L310-315). -/
def niGainDataset (number : ℤ) (name : String) : Except String (CachePath × String) := do
  let g ← niGain number
  pure (["ni_gain", toString number, name],
    "scan" ++ toString number ++ "_gain" ++ toString g ++ "db.zip")

/-- Registered files of the gain series (`_registry.py` L35-44). -/
def niGainArchives : List String :=
  ["scan1_gain0db.zip", "scan2_gain3db.zip", "scan3_gain6db.zip", "scan4_gain9db.zip",
    "scan5_gain12db.zip", "scan6_gain15db.zip", "scan7_gain17db.zip", "scan8_gain20db.zip",
    "scan9_gain22db.zip", "scan10_gain24db.zip"]

/-- Registered files of the gain series (`_registry.py` L45-64). -/
def niGainFiles : List CachePath :=
  ["1", "2", "3", "4", "5", "6", "7", "8", "9", "10"].flatMap fun n =>
    [["ni_gain", n, "Pattern.dat"], ["ni_gain", n, "Setting.txt"]]

end Kp
