import Verif.Model.Nordif

/-
Model of saving a signal to a NORDIF file in the steps in which it happens, any of which may be the
last one: `file_writer` in `src/kikuchipy/io/plugins/nordif/_api.py` (L435-451).

There is a file system. `names` gives the file behind a name (several names may be the same file,
as with relative names and links). A lazy signal computes a pattern when it is asked for it, from
what files then contain: `file_reader` (L148-154) of a lazy signal only stores the name, sizes and
data type. Chunks of a lazy signal that HyperSpy has computed and kept before are left out. Consent
to overwrite is the topic of `Save.lean`.
-/

namespace Kp

/-- Files by number, and the file behind a name. -/
structure FileSystem where
  names : String → ℕ
  content : ℕ → Option (List Byte)

/-- Change the content of a file. -/
def FileSystem.set (fs : FileSystem) (i : ℕ) (c : List Byte) : FileSystem :=
  { fs with content := fun j => if j = i then some c else fs.content j }

/-- Append to a file. -/
def FileSystem.append (fs : FileSystem) (i : ℕ) (c : List Byte) : FileSystem :=
  fs.set i ((fs.content i).getD [] ++ c)

/-- The patterns of a signal: how many, and the bytes of each when it is asked for. -/
structure PatternSource where
  count : ℕ
  get : FileSystem → ℕ → Except Err (List Byte)

/-- A signal in memory. -/
def PatternSource.inMemory (patterns : List (List Byte)) : PatternSource where
  count := patterns.length
  get := fun _ k => .ok (patterns.getD k [])

/-- A signal loaded lazily from a NORDIF file with `n` patterns of `size` pixels, and processed with
a function of a pattern (`nordif/_api.py` L148-154). The whole file is mapped into memory, which
raises `ValueError` if it is too short, and there is no file is a `FileNotFoundError`. -/
def PatternSource.lazyFile (name : String) (n size : ℕ) (process : List Byte → List Byte) :
    PatternSource where
  count := n
  get := fun fs k =>
    match fs.content (fs.names name) with
    | none => .error .ioError
    | some bytes =>
      if n * size ≤ bytes.length then .ok (process (patternAt size bytes k)) else .error .valueError

/-- How saving ends. -/
inductive SaveOutcome
  | completed
  | failed (e : Err)
  | interrupted
  deriving DecidableEq

/-- The loop in `file_writer` (L444-451) over some patterns, interrupted when `budget` bytes have
been written. -/
def writePatterns (src : PatternSource) (i : ℕ) : List ℕ → ℕ → FileSystem → SaveOutcome × FileSystem
  | [], _, fs => (.completed, fs)
  | k :: ks, budget, fs =>
    match src.get fs k with
    | .error e => (.failed e, fs)
    | .ok bytes =>
      if bytes.length ≤ budget then writePatterns src i ks (budget - bytes.length) (fs.append i bytes)
      else (.interrupted, fs.append i (bytes.take budget))

/-- `file_writer` (L435-451): the file is opened with mode "wb", which empties it, and the patterns
are written in their order. -/
def saveNordif (src : PatternSource) (name : String) (budget : ℕ) (fs : FileSystem) :
    SaveOutcome × FileSystem :=
  writePatterns src (fs.names name) (List.range src.count) budget (fs.set (fs.names name) [])

end Kp
