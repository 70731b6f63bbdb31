import Verif.Model.Bytes
import Verif.Model.ExtrapolatePc

/-
Model of reading Oxford Instruments' .ebsp files:
`src/kikuchipy/io/plugins/oxford_binary/_api.py`.

A file is a list of bytes. Fields of pattern headers (32-bit integers) are read as unsigned.
`dec` reads a 64-bit floating point number from its bytes. Reading past the end of the file gives
zeros or shorter lists for the tables at the start of the file, and an error for the patterns.
-/

namespace Kp

/-- A signed 64-bit integer from its unsigned value. -/
def signed64 (n : ℕ) : ℤ := if n < 2 ^ 63 then n else (n : ℤ) - 2 ^ 64

/-- `get_version` (`oxford_binary/_api.py` L450-468). -/
def oxVersion (file : List Byte) : ℕ := (-signed64 (leNat (bytesAt file 0 8))).toNat

/-- Size of the pattern header: four or, from version 5, six 32-bit integers
(`oxford_binary/_api.py` L208-230). -/
def oxHeaderSize (version : ℕ) : ℕ := if version < 5 then 16 else 24

/-- `pattern_starts_byte_position` (`oxford_binary/_api.py` L195-206). -/
def oxStartsPos (version : ℕ) : ℕ := if version = 0 then 0 else if 3 < version then 9 else 8

/-- Twenty times the assumed largest size of a pattern (`oxford_binary/_api.py` L571-574). -/
def oxMaxJump (version : ℕ) : ℕ := 20 * (1024 * 1344 * 2 + oxHeaderSize version)

/-- Index of the first jump: `np.nonzero(abs(np.diff(a)) > jump)[0][0]`; `none` (`IndexError`) if
there is none. -/
def firstJump (jump : ℕ) : List ℤ → Option ℕ
  | a :: b :: l => if (jump : ℤ) < |b - a| then some 0 else (firstJump jump (b :: l)).map (· + 1)
  | _ => none

/-- The assumed pattern starts: at most `size // (1600 + header size)` signed 64-bit integers
(`oxford_binary/_api.py` L556-564). -/
def oxAssumedStarts (version : ℕ) (file : List Byte) : List ℤ :=
  let count := min (file.length / (1600 + oxHeaderSize version))
    ((file.length - oxStartsPos version) / 8)
  (leNats 8 count (file.drop (oxStartsPos version))).map signed64

/-- `guess_number_of_patterns` (`oxford_binary/_api.py` L531-577). -/
def oxGuess (version : ℕ) (file : List Byte) : Except Err ℕ :=
  match firstJump (oxMaxJump version) (oxAssumedStarts version file) with
  | none => .error .indexError
  | some n => .ok (if version < 5 then n + 1 else n)

/-- `first_pattern_position` (`oxford_binary/_api.py` L165-168). -/
def oxFirst (version n : ℕ) : ℕ := oxStartsPos version + n * 8

/-- `get_pattern_starts` (`oxford_binary/_api.py` L324-333), zero if a pattern is not in the
file. -/
def oxStarts (version n : ℕ) (file : List Byte) : List ℕ :=
  leNats 8 n (bytesAt file (oxStartsPos version) (n * 8))

/-- The footer of a pattern: whether it has beam positions, its size in the data type of the memory
map and its size used to determine the order of patterns. -/
structure OxFooter where
  hasX : Bool
  hasY : Bool
  memSize : ℕ
  size : ℕ

/-- `get_pattern_footer_dtype` (`oxford_binary/_api.py` L335-372), at the byte position `pos` of the
footer of the first pattern. -/
def oxFooter (version : ℕ) (file : List Byte) (pos : ℕ) : Except Err OxFooter :=
  if version = 1 then .ok ⟨true, true, 16, 16⟩
  else if 1 < version then
    match uintAt file pos 1 with
    | none => .error .valueError
    | some fx =>
      let x := fx ≠ 0
      match uintAt file (pos + 1 + if x then 8 else 0) 1 with
      | none => .error .valueError
      | some fy =>
        let y := fy ≠ 0
        .ok ⟨x, y, (if x then 9 else 0) + (if y then 9 else 0),
          2 + (if x then 8 else 0) + (if y then 8 else 0)⟩
  else .ok ⟨false, false, 0, 0⟩

/-- `pattern_order` (`oxford_binary/_api.py` L185-193): position in the file of each pattern in the
map; conversion to integer truncates. -/
def oxOrder (first recordSize : ℕ) (starts : List ℕ) : List ℤ :=
  starts.map fun s : ℕ => ((s : ℤ) - (first : ℤ)).tdiv (recordSize : ℤ)

/-- Whether each number is one more than the one before: `np.allclose(np.diff(order), 1)`. -/
def stepsOfOne : List ℤ → Bool
  | a :: b :: l => decide (b - a = 1) && stepsOfOne (b :: l)
  | _ => true

/-- Take elements: `data[order]`, an error outside of the array.  Negative indices, which count from
the end in Python, do not occur if the patterns are after the table of positions; they are an error
here. -/
def takeOrder {V : Type} (data : List V) : List ℤ → Except Err (List V)
  | [] => .ok []
  | k :: ks =>
    match (if k < 0 then none else data[k.toNat]?), takeOrder data ks with
    | some v, .ok l => .ok (v :: l)
    | _, _ => .error .indexError

/-- What is returned: patterns as pixel values, and from the original metadata the map index of
each pattern and the beam positions. -/
structure OxScan (K : Type) where
  patterns : List (List ℕ)
  map1dId : List ℕ
  beamX : Option (List K)
  beamY : Option (List K)

/-- The reader (`oxford_binary/_api.py` L88-150, L230-284, L374-413, L470-533) given the version and
the number of patterns. -/
def oxReadN {K : Type} (dec : List Byte → K) (version n : ℕ) (file : List Byte) :
    Except Err (OxScan K) :=
  let first := oxFirst version n
  let hs := oxHeaderSize version
  let starts := oxStarts version n file
  match uintAt file (first + hs - 16) 4, uintAt file (first + hs - 12) 4,
      uintAt file (first + hs - 8) 4, uintAt file (first + hs - 4) 4 with
  | some compressed, some nrows, some ncols, some nBytes =>
    if compressed ≠ 0 then .error .notImplemented
    else
      let width := if nBytes = nrows * ncols then 1 else 2
      match oxFooter version file (first + hs + nBytes) with
      | .error e => .error e
      | .ok footer =>
        let present := starts.filter (· ≠ 0)
        let nPresent := present.length
        let memRecord := hs + nrows * ncols * width + footer.memSize
        let recordSize := nBytes + (hs + footer.size)
        -- Memory map
        if file.length < first + nPresent * memRecord then .error .valueError
        else
          let data := (List.range nPresent).map fun k =>
            leNats width (nrows * ncols)
              (bytesAt file (first + k * memRecord + hs) (nrows * ncols * width))
          let footerField (offset : ℕ) := (List.range nPresent).map fun k => dec
            (bytesAt file (first + k * memRecord + hs + nrows * ncols * width + offset) 8)
          let order := oxOrder first recordSize starts
          let orderPresent := oxOrder first recordSize present
          -- Patterns
          let patterns := if stepsOfOne order = false ∧ nPresent = n then takeOrder data order
            else .ok data
          let flag := if version = 1 then 0 else 1
          let beamX := if footer.hasX then (takeOrder (footerField flag) orderPresent).map some
            else .ok none
          let beamY := if footer.hasY then (takeOrder
            (footerField ((if footer.hasX then flag + 8 else 0) + flag)) orderPresent).map some
            else .ok none
          match patterns, beamX, beamY with
          | .ok patterns, .ok bx, .ok by' => .ok {
              patterns := patterns
              map1dId := (List.range n).filter fun i => starts.getD i 0 ≠ 0
              beamX := bx
              beamY := by' }
          | _, _, _ => .error .indexError
  | _, _, _, _ => .error .indexError

/-- The reader (`oxford_binary/_api.py` L40-150). -/
def oxRead {K : Type} (dec : List Byte → K) (file : List Byte) : Except Err (OxScan K) :=
  let version := oxVersion file
  match oxGuess version file with
  | .error e => .error e
  | .ok n => oxReadN dec version n file

/-- `get_navigation_shape_and_step_size` (`oxford_binary/_api.py` L286-322), from the beam positions
(x, y) of the first, second and last pattern in the map. Division by a zero step gives NaN, which
cannot be converted to an integer. -/
def oxNavShape {K : Type} [Field K] [LinearOrder K] [FloorRing K] (first second last : K × K) :
    Except Err (ℕ × ℕ × K) :=
  let step := second.1 - first.1
  if step = 0 then .error .valueError
  else
    let nrows := (npRound (last.2 / step) - npRound (first.2 / step)).natAbs + 1
    let ncols := (npRound (last.1 / step) - npRound (first.1 / step)).natAbs + 1
    .ok (nrows, ncols, step)

end Kp
