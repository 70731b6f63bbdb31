import Verif.Model.H5Ebsd
import Mathlib.Data.Nat.Notation

/-
Model of reading and writing NORDIF binary files:
`src/kikuchipy/io/plugins/nordif/_api.py`.

A file is a list of bytes. Reading of the setting file is modelled by its results (the sizes and
the step size). The background pattern, metadata and detector are left out.
-/

namespace Kp

/-- Bytes of 8-bit values (0-255). -/
abbrev Byte := Fin 256

/-- Scan size given to the reader: an integer or (width, height). -/
inductive ScanSize
  | int (n : ℕ)
  | pair (nx ny : ℕ)

/-- Number of map rows and columns (`nordif/_api.py` L121-126). -/
def ScanSize.rowsCols : ScanSize → ℕ × ℕ
  | .int n => (1, n)
  | .pair nx ny => (ny, nx)

/-- The pattern with index `k` in an array of patterns with `size` pixels each. -/
def patternAt {V : Type} (size : ℕ) (data : List V) (k : ℕ) : List V :=
  (data.drop (k * size)).take size

/-- `file_writer` (`nordif/_api.py` L433-449): all patterns, flattened, one after the other, in
the "flyback" order of HyperSpy, in which the last navigation axis (columns) varies fastest.
`encode` gives the bytes of a value of the data type of the signal. -/
def nordifWrite {V : Type} (encode : V → List Byte) (nPatterns patternSize : ℕ) (data : List V) :
    List Byte :=
  (List.range nPatterns).flatMap fun k => (patternAt patternSize data k).flatMap encode

/-- The data returned by `file_reader` (`nordif/_api.py` L128-153), `(lazy, file, scan_size,
pattern_size) ↦ array`. `np.fromfile` reads at most the requested number of bytes.  The lazy
array is a memory map of the file with the four-dimensional shape, which raises `ValueError` (when
computed) if the file is shorter. -/
def nordifData (lazy : Bool) (file : List Byte) (scan : ScanSize) (sx sy : ℕ) :
    Except Err (FlatArr Byte) :=
  let (ny, nx) := scan.rowsCols
  let size := ny * nx * sy * sx
  if lazy then
    if size ≤ file.length then .ok ⟨[ny, nx, sy, sx], file.take size⟩ else .error .valueError
  else
    let data : FlatArr Byte := ⟨[(file.take size).length], file.take size⟩
    match data.reshape [ny, nx, sy, sx] with
    | .ok a => .ok a.squeeze
    | .error _ => (data.padTo 0 (ny * nx * sy * sx)).reshape [ny, nx, sy, sx]

variable {K : Type} [Field K]

/-- The axes returned by `file_reader` (`nordif/_api.py` L157-182). `step`: the step size in the
setting file, `none` if there is no such file. -/
def nordifAxes (step : Option K) (shape : List ℕ) : List (SignalAxis K) :=
  let s := step.getD 1
  let names := ["y", "x", "dy", "dx"]
  let scales : List K := [s, s, 1, 1]
  (List.range shape.length).map fun i =>
    ⟨names.getD i "", shape.getD i 0, scales.getD i 1⟩

/-- `file_reader` (`nordif/_api.py` L43-191): data and axes. -/
def nordifRead (lazy : Bool) (file : List Byte) (scan : ScanSize) (sx sy : ℕ) (step : Option K) :
    Except Err (FlatArr Byte × List (SignalAxis K)) :=
  match nordifData lazy file scan sx sy with
  | .error e => .error e
  | .ok a => .ok (a, nordifAxes step a.shape)

end Kp
