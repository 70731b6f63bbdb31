import Verif.Model.Save

/-
Model of a session in which kikuchipy h5ebsd files are loaded and saved: which files are open after
each call, and what can be done with them then. `KikuchipyH5EBSDWriter.__init__`, `check_file`,
`get_scan_groups` and `write` (`src/kikuchipy/io/plugins/kikuchipy_h5ebsd/_api.py` L236-264, L292-327,
L370-462) and `H5EBSDReader.__init__`, `check_file` and `read` (`src/kikuchipy/io/plugins/_h5ebsd.py`
L146-151, L177-210, L469-507).

Neither function uses a context manager: the file is closed in the last line, so it stays open if an
error is raised before. Python closes it when nothing refers to it any more, i.e. when the exception
(whose traceback refers to the reader or writer) is forgotten; in an interactive session this is at
the next exception.

HDF5 (from knowledge of its source): all handles of a file in a process share the mode in which it was
first opened; a file which is open can not be truncated (mode "w"), and one which is open for reading
can not be opened for writing ("r+"). What other processes do is not modelled, see
`Model/ConcurrentSave.lean`. Files of other manufacturers and other options of `h5py.File` are not
modelled.
-/

namespace Kp

/-- Mode in which HDF5 opened a file first. -/
inductive SharedMode
  | read
  | readWrite
  deriving DecidableEq

/-- Argument `mode` of `h5py.File`. -/
inductive OpenMode
  | r
  | rPlus
  | w
  deriving DecidableEq

/-- A lazy signal: its patterns are those of a scan in a file, read through a handle. -/
structure LazyScan (P : Type) where
  handle : ℕ
  path : P
  number : ℤ
  deriving DecidableEq

/-- The state of a session: files, open files with the mode in which they were first opened and their
handles, number of the next handle, lazy signals in use, and handles of readers and writers which are
referred to by an exception in use. -/
structure FileSession (P S : Type) where
  content : P → Option (FileContent S)
  opened : P → Option (SharedMode × List ℕ)
  next : ℕ
  signals : List (LazyScan P)
  errors : List (ℕ × P)

variable {P S : Type} [DecidableEq P]

/-- Value of a function changed in one place. -/
def putAt {α : Type} (f : P → α) (p : P) (a : α) : P → α := fun q => if q = p then a else f q

/-- Handles of a file after one more has been opened, `mode` being used if it is the first one. -/
def addHandle (o : Option (SharedMode × List ℕ)) (mode : SharedMode) (h : ℕ) :
    Option (SharedMode × List ℕ) :=
  match o with
  | none => some (mode, [h])
  | some (m, hs) => some (m, hs ++ [h])

/-- Handles of a file after one has been closed. -/
def closeHandle (o : Option (SharedMode × List ℕ)) (h : ℕ) : Option (SharedMode × List ℕ) :=
  match o with
  | none => none
  | some (m, hs) =>
    if hs.filter (· ≠ h) = [] then none else some (m, hs.filter (· ≠ h))

/-- `h5py.File(filename, mode)` (`kikuchipy_h5ebsd/_api.py` L252, `_h5ebsd.py` L148). The new handle is
`st.next`. -/
def FileSession.openFile (st : FileSession P S) (p : P) (mode : OpenMode) : Except Err (FileSession P S) :=
  let with_ (m : SharedMode) : FileSession P S :=
    { st with opened := putAt st.opened p (addHandle (st.opened p) m st.next), next := st.next + 1 }
  match mode with
  | .r => match st.content p with
    | some (.h5 _) => .ok (with_ .read)
    | _ => .error .ioError
  | .rPlus => match st.content p, st.opened p with
    | some (.h5 _), some (.read, _) => .error .ioError
    | some (.h5 _), _ => .ok (with_ .readWrite)
    | _, _ => .error .ioError
  | .w => match st.opened p with
    | some _ => .error .ioError
    | none => .ok { with_ .readWrite with content := putAt st.content p (some (.h5 ⟨false, []⟩)) }

/-- `File.close` of the handle. -/
def FileSession.closeFile (st : FileSession P S) (p : P) (h : ℕ) : FileSession P S :=
  { st with opened := putAt st.opened p (closeHandle (st.opened p) h) }

/-- The file has this content now. -/
def FileSession.written (st : FileSession P S) (p : P) (c : FileContent S) : FileSession P S :=
  { st with content := putAt st.content p (some c) }

/-- An error was raised while the handle was open. -/
def FileSession.leftOpen (st : FileSession P S) (p : P) (h : ℕ) : FileSession P S :=
  { st with errors := (h, p) :: st.errors }

/-- A call of `file_writer` (`kikuchipy_h5ebsd/_api.py` L465-497). `stop` says that an error is raised
while writing (e.g. no space, an interrupt, a value h5py can not store): whether manufacturer and
version have been written, and the part of the scan which has been written, if any. -/
structure WriterCall (P S : Type) where
  path : P
  addScan : Bool
  number : ℤ
  scan : S
  answers : List InputEvent
  stop : Option (Bool × Option S)

/-- Content of the file if writing stops, from what it would have been. The scan is the last one. -/
def stoppedContent (existed : Bool) (full : FileContent S) (stop : Bool × Option S) : FileContent S :=
  match full with
  | .h5 f => .h5 ⟨existed || stop.1, f.scans.dropLast ++
      (match stop.2, f.scans.getLast? with
        | some part, some q => [(q.1, part)]
        | _, _ => [])⟩
  | c => c

/-- `KikuchipyH5EBSDWriter.__init__` and `write` (`kikuchipy_h5ebsd/_api.py` L238-259, L370-462) with
`check_file` (L292-318) and `get_scan_groups` (L320-327): what is written is as in `h5Write`. -/
def FileSession.save (parseInt : List Char → Option ℤ) (st : FileSession P S) (c : WriterCall P S) :
    Except Err Unit × FileSession P S :=
  let existed := (st.content c.path).isSome && c.addScan
  match st.openFile c.path (if existed then .rPlus else .w) with
  | .error e => (.error e, st)
  | .ok st1 =>
    let h := st.next
    let old := if existed then st.content c.path else none
    match h5Write parseInt old c.addScan c.number c.scan c.answers with
    | (.error e, full) => (.error e, (st1.written c.path full).leftOpen c.path h)
    | (.ok (), full) =>
      match c.stop with
      | some stop =>
        (.error .ioError, (st1.written c.path (stoppedContent existed full stop)).leftOpen c.path h)
      | none => (.ok (), (st1.written c.path full).closeFile c.path h)

/-- What is returned by `load`: patterns in memory or a lazy signal. -/
inductive Loaded (P S : Type)
  | memory (s : S)
  | lazy (σ : LazyScan P)

/-- The scan with a number in a file. -/
def scanIn (c : Option (FileContent S)) (n : ℤ) : Option S :=
  match c with
  | some (.h5 f) => (f.scans.find? fun q => q.1 = n).map Prod.snd
  | _ => none

/-- `load` of one scan of a kikuchipy h5ebsd file: the file is opened and closed to find the reader
(`_io.py` L240-275), then opened by the reader, which checks it (`_h5ebsd.py` L177-210), looks for the
scan (L257-301), reads it (`scan2dict`, which fails if it is not `complete`) and, if it is not lazy,
closes the file (L504-505). -/
def FileSession.load (complete : S → Bool) (st : FileSession P S) (p : P) (n : ℤ) (lazy : Bool) :
    Except Err (Loaded P S) × FileSession P S :=
  match st.content p with
  | some (.h5 f) =>
    if f.isKikuchipy = false then (.error .ioError, st)
    else match st.openFile p .r with
      | .error e => (.error e, st)
      | .ok st1 =>
        let h := st.next
        match scanIn (st.content p) n with
        | none => (.error .ioError, st1.leftOpen p h)
        | some s =>
          if complete s = false then (.error .keyError, st1.leftOpen p h)
          else if lazy then
            (.ok (.lazy ⟨h, p, n⟩), { st1 with signals := ⟨h, p, n⟩ :: st1.signals })
          else (.ok (.memory s), st1.closeFile p h)
  | _ => (.error .ioError, st)

/-- Computing the patterns of a lazy signal. Reading through a closed handle raises. -/
def FileSession.compute (st : FileSession P S) (σ : LazyScan P) : Except Err S :=
  match st.opened σ.path with
  | none => .error .valueError
  | some (_, hs) =>
    if σ.handle ∈ hs then
      match scanIn (st.content σ.path) σ.number with
      | some s => .ok s
      | none => .error .keyError
    else .error .valueError

/-- Nothing refers to a lazy signal or an exception any more: Python closes its handle. -/
def FileSession.forget (st : FileSession P S) (h : ℕ) : FileSession P S :=
  { st with
    opened := fun p => closeHandle (st.opened p) h
    signals := st.signals.filter fun σ => σ.handle ≠ h
    errors := st.errors.filter fun e => e.1 ≠ h }

/-- What happens in a session. -/
inductive SessionEvent (P S : Type)
  | save (c : WriterCall P S)
  | load (p : P) (n : ℤ) (lazy : Bool)
  | forget (h : ℕ)

/-- The state after an event, whether it raises or not. -/
def FileSession.step (parseInt : List Char → Option ℤ) (complete : S → Bool) (st : FileSession P S) :
    SessionEvent P S → FileSession P S
  | .save c => (st.save parseInt c).2
  | .load p n lazy => (st.load complete p n lazy).2
  | .forget h => st.forget h

/-- The state after several events. -/
def FileSession.run (parseInt : List Char → Option ℤ) (complete : S → Bool) (st : FileSession P S)
    (events : List (SessionEvent P S)) : FileSession P S :=
  events.foldl (FileSession.step parseInt complete) st

end Kp
