import Verif.Model.Save

/-
Model of several processes which save a signal to the same h5ebsd file at the same time: `_save`
(`src/kikuchipy/io/_io.py` L426-466), `_overwrite` (`_util.py` L51-61) and `KikuchipyH5EBSDWriter`
(`kikuchipy_h5ebsd/_api.py` L236-264, L387-462), each in steps between which other processes may do
theirs: look whether there is a file, look once more before asking to overwrite it, look again
in the writer, open the file, choose a number (which may mean to ask for one), write and close it.

An open file is locked by the HDF5 library: opening it elsewhere to write raises an error and
changes nothing. A writer that fails releases the file. Writing the datasets is taken to succeed
(see `InterruptedSave.lean`). No process deletes the file.
-/

namespace Kp

/-- The arguments of a call of `save`, the signal, and what is entered in the terminal. -/
structure SaveCall (S : Type) where
  overwrite : PyTri
  addScan : Option Bool
  scanNumber : ℤ
  scan : S
  events : List InputEvent

/-- Where a process is: before the first look (`_io.py` L427), before the decision to write (L444),
before the writer looks (`_api.py` L241), before it opens the file (L248) to add a scan or to
start anew, while the file is open before (L387) and after a number has been chosen, and afterwards
(`true` if a file was written). -/
inductive SaveState
  | start
  | asked (isFile : Bool) (overwrite : PyTri) (addKw : Option Bool) (ev : List InputEvent)
  | decided (addKw : Bool) (ev : List InputEvent)
  | opening (append : Bool) (ev : List InputEvent)
  | opened (append : Bool) (ev : List InputEvent)
  | writing (append : Bool) (number : ℤ)
  | done (outcome : Except Err Bool)

/-- The file, who has it open to write, and where processes are. -/
structure SharedFile (S : Type) where
  file : Option (FileContent S)
  lock : Option ℕ
  procs : ℕ → SaveState

variable {S : Type}

/-- A process moves on. -/
def SharedFile.move (g : SharedFile S) (i : ℕ) (p : SaveState) : SharedFile S :=
  { g with procs := fun j => if j = i then p else g.procs j }

/-- The next step of process `i`. -/
def stepSave (parseInt : List Char → Option ℤ) (calls : ℕ → SaveCall S) (i : ℕ) (g : SharedFile S) :
    SharedFile S :=
  let c := calls i
  match g.procs i with
  | .start =>
    match decideAddScan .h5ebsd g.file.isSome c.overwrite c.addScan c.events with
    | (.error e, _) => g.move i (.done (.error e))
    | (.ok (ow, addKw, ev), _) => g.move i (.asked g.file.isSome ow addKw ev)
  | .asked isFile ow addKw ev =>
    match decideWrite (if ow = .none then g.file.isSome else isFile) ow ev with
    | (.error e, _) => g.move i (.done (.error e))
    | (.ok (false, _), _) => g.move i (.done (.ok false))
    | (.ok (true, ev), _) => g.move i (.decided (addKw.getD false) ev)
  | .decided addKw ev => g.move i (.opening (addKw && g.file.isSome) ev)
  | .opening append ev =>
    if g.lock.isSome then g.move i (.done (.error .ioError))
    else { g.move i (.opened append ev) with
      lock := some i, file := if append then g.file else some (.h5 ⟨false, []⟩) }
  | .opened append ev =>
    let fail (e : Err) : SharedFile S := { g.move i (.done (.error e)) with lock := none }
    if append then
      match g.file with
      | some (.h5 f) =>
        if f.isKikuchipy = false ∨ f.scans = [] then fail .ioError
        else match (getValidScanNumber parseInt (f.scans.map Prod.fst) c.scanNumber ev).1 with
          | .error e => fail e
          | .ok n =>
            if n ∈ f.scans.map Prod.fst then fail .valueError else g.move i (.writing true n)
      | _ => fail .ioError
    else g.move i (.writing false c.scanNumber)
  | .writing append n =>
    let new : H5File S := match append, g.file with
      | true, some (.h5 f) => { f with scans := f.scans ++ [(n, c.scan)] }
      | _, _ => ⟨true, [(n, c.scan)]⟩
    { g.move i (.done (.ok true)) with lock := none, file := some (.h5 new) }
  | .done _ => g

/-- Before any process has begun. -/
def startSaves (file : Option (FileContent S)) : SharedFile S := ⟨file, none, fun _ => .start⟩

/-- The steps of processes in some order. -/
def runSaves (parseInt : List Char → Option ℤ) (calls : ℕ → SaveCall S) (schedule : List ℕ)
    (g : SharedFile S) : SharedFile S :=
  schedule.foldl (fun g i => stepSave parseInt calls i g) g

end Kp
