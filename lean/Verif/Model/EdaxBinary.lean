import Verif.Model.Bytes

/-
Model of reading EDAX UP1/UP2 files: `src/kikuchipy/io/plugins/edax_binary/_api.py`.

A file is a list of bytes. `dec` reads a 64-bit floating point number from its bytes. Reading past
the end of the file raises an error (`IndexError` for the version, `ValueError` otherwise).
Conversion of unsigned 32-bit numbers to Python integers is exact; overflow of their products is not
modelled.
-/

namespace Kp

/-- The header (`edax_binary/_api.py` L147-157). -/
structure EdaxHeader (K : Type) where
  sx : ℕ
  sy : ℕ
  patternOffset : ℕ
  nx : ℕ
  ny : ℕ
  nPatterns : ℕ
  dx : K
  dy : K
  isHex : Bool

variable {K : Type} [Field K]

/-- Number of patterns from the size of the file (`edax_binary/_api.py` L117-118, L134-137). The
file size is a Python integer and the offset an unsigned 32-bit NumPy integer: with NumPy 2 the
difference is computed with 32 bits and a larger file size raises `OverflowError` (`newNumPy`).
Division by zero for empty patterns and files shorter than the offset raise an error as well. -/
def edaxCount (newNumPy : Bool) (fileSize offset patternBytes : ℕ) : Except Err ℕ :=
  if newNumPy ∧ 2 ^ 32 ≤ fileSize then .error .valueError
  else if patternBytes = 0 ∨ fileSize < offset then .error .valueError
  else .ok ((fileSize - offset) / patternBytes)

/-- `__init__` and `read_header` (`edax_binary/_api.py` L98-152). `width`: bytes per pixel, 1 for
UP1 and 2 for UP2 files. -/
def edaxHeader (newNumPy : Bool) (dec : List Byte → K) (width : ℕ) (file : List Byte) :
    Except Err (EdaxHeader K) :=
  match uintAt file 0 4 with
  | none => .error .indexError
  | some version =>
    if version = 2 then .error .valueError
    else
      match uintAt file 4 4, uintAt file 8 4, uintAt file 12 4 with
      | some sx, some sy, some offset =>
        if version = 1 then
          match edaxCount newNumPy file.length offset (sx * sy * width) with
          | .error e => .error e
          | .ok n => .ok ⟨sx, sy, offset, n, 1, n, 1, 1, false⟩
        else
          match uintAt file 17 4, uintAt file 21 4, uintAt file 25 1 with
          | some nx, some ny, some hex =>
            if (bytesAt file 26 16).length = 16 then
              let dx := dec (bytesAt file 26 8)
              let dy := dec (bytesAt file 34 8)
              if hex ≠ 0 then
                match edaxCount newNumPy file.length offset (sx * sy * width) with
                | .error e => .error e
                | .ok n => .ok ⟨sx, sy, offset, n, 1, n, dx, dy, true⟩
              else .ok ⟨sx, sy, offset, nx, ny, nx * ny, dx, dy, false⟩
            else .error .valueError
          | _, _, _ => .error .valueError
      | _, _, _ => .error .valueError

/-- The axes in `read_scan` (`edax_binary/_api.py` L207-220). -/
def edaxAxes (dy dx : K) (shape : List ℕ) : List (SignalAxis K) :=
  let navDim := shape.length - 2
  let scales : List K := [dy, dx] ++ ([1, 1] : List K).take navDim
  let names := (["y", "x"].drop (2 - navDim)) ++ ["dy", "dx"]
  (List.range shape.length).map fun i => ⟨names.getD i "", shape.getD i 0, scales.getD i 1⟩

/-- `read_scan` (`edax_binary/_api.py` L159-232): data and axes. The memory map raises `ValueError`
if the file is too short. Values are the integers in the file. -/
def edaxRead (newNumPy : Bool) (dec : List Byte → K) (width : ℕ) (file : List Byte)
    (navShape : Option (ℕ × ℕ)) : Except Err (FlatArr ℕ × List (SignalAxis K)) :=
  match edaxHeader newNumPy dec width file with
  | .error e => .error e
  | .ok h =>
    let nav : Except Err (ℕ × ℕ) :=
      match navShape with
      | some (ny, nx) =>
        if h.isHex then .ok (h.ny, h.nx)
        else if ny * nx ≠ h.nPatterns then .error .valueError else .ok (ny, nx)
      | none => .ok (h.ny, h.nx)
    match nav with
    | .error e => .error e
    | .ok (ny, nx) =>
      let shape := if ny = 1 then [nx, h.sy, h.sx] else [ny, nx, h.sy, h.sx]
      let n := shapeSize shape
      let bytes := bytesAt file h.patternOffset (n * width)
      if bytes.length = n * width then
        .ok (⟨shape, leNats width n bytes⟩, edaxAxes h.dy h.dx shape)
      else .error .valueError

end Kp
