import Verif.Model.EbsdDirectory
import Verif.Model.Detector
import Verif.Model.DictionaryIndexing
import Mathlib.Data.Int.Notation

/-
Model of extracting a grid of patterns from a map: `grid_indices`
(`src/kikuchipy/signals/util/array_tools.py`) and `EBSD.extract_grid`
(`src/kikuchipy/signals/ebsd.py`), for maps with two navigation dimensions.

Patterns and crystal map points are values of types `P` and `X`, stored in row-major order.  The
crystal map has all points of the map.
-/

namespace Kp

/-- Spacing along one dimension, `ceil(n / (g + 1))` (`array_tools.py` L75-77).  The floating point
division is exact enough for the ceiling to be that of the rational number. -/
def gridSpacing (g n : ℕ) : ℕ := (n + g) / (g + 1)

/-- Positions `[::s][1:]` of an axis of size `n` (`array_tools.py` L80-83). -/
def stridedTail (n s : ℕ) : List ℕ := ((List.range ((n + s - 1) / s)).map (· * s)).tail

/-- `grid_indices` for two dimensions (`array_tools.py` L21-107): indices (row, column) for each grid
point, and spacing. A slice with step zero raises `ValueError`, the first point of an empty grid
`IndexError`. -/
def gridIndices (gy gx ny nx : ℕ) : Except Err (List (List (ℤ × ℤ)) × ℕ × ℕ) :=
  let sy := gridSpacing gy ny
  let sx := gridSpacing gx nx
  if sy = 0 ∨ sx = 0 then .error .valueError
  else
    -- flat indices, then unraveled
    let idx1 := (stridedTail ny sy).map fun r => (stridedTail nx sx).map fun c => r * nx + c
    let idx2 := idx1.map fun row => row.map fun v => (v / nx, v % nx)
    match idx2.head?.bind List.head?, idx2.getLast?.bind List.getLast? with
    | some first, some last =>
      let subY : ℤ := ((first.1 : ℤ) - (ny - last.1)) / 2
      let subX : ℤ := ((first.2 : ℤ) - (nx - last.2)) / 2
      .ok (idx2.map fun row => row.map fun p => ((p.1 : ℤ) - subY, (p.2 : ℤ) - subX), sy, sx)
    | _, _ => .error .indexError

/-- Position in the row-major array of a (row, column) index; negative indices count from the end,
and `none` is an `IndexError`. -/
def flatIndex (ny nx : ℕ) (p : ℤ × ℤ) : Option ℕ :=
  let r := if p.1 < 0 then p.1 + ny else p.1
  let c := if p.2 < 0 then p.2 + nx else p.2
  if 0 ≤ r ∧ r < ny ∧ 0 ≤ c ∧ c < nx then some (r.toNat * nx + c.toNat) else none

/-- A navigation axis. -/
structure GridAxis (K : Type*) where
  size : ℕ
  scale : K
  offset : K
  deriving DecidableEq

/-- A signal with two navigation dimensions, as far as it matters for `extract_grid`. -/
structure GridSignal (K P X : Type) where
  /-- Shape of the array of patterns. -/
  shape : ℕ × ℕ
  patterns : List P
  xmap : Option (List X)
  pcNav : List ℕ
  pc : List (PC K)
  axes : GridAxis K × GridAxis K
  deriving DecidableEq

/-- `EBSD.extract_grid` (`ebsd.py` L267-378); `grid` is given as (columns, rows).  Patterns are
returned in row-major order. -/
def extractGrid {K P X : Type} [Field K] (s : GridSignal K P X) (grid : ℕ × ℕ) :
    Except Err (GridSignal K P X × List (List (ℤ × ℤ))) :=
  let (ny, nx) := s.shape
  if grid.1 > nx ∨ grid.2 > ny then .error .valueError
  else
    let (gy, gx) := (grid.2, grid.1)
    match gridIndices gy gx ny nx with
    | .error e => .error e
    | .ok (idx, sy, sx) =>
      match allSome (idx.flatten.map (flatIndex ny nx)) with
      | none => .error .indexError
      | some flat =>
        match allSome (flat.map (s.patterns[·]?)) with
        | none => .error .indexError
        | some pats =>
          let mask := (List.range (ny * nx)).map fun p => decide (p ∈ flat)
          let xmap := s.xmap.map (selectMask mask)
          let pcNew : Option (List ℕ × List (PC K)) :=
            if s.pcNav = [ny, nx] then
              (allSome (flat.map (s.pc[·]?))).map fun l => ([idx.length, (idx.headD []).length], l)
            else if s.pcNav ≠ [1] then some ([1], [⟨1 / 2, 1 / 2, 1 / 2⟩])
            else some (s.pcNav, s.pc)
          match pcNew with
          | none => .error .indexError
          | some (nav, pc) =>
            .ok (⟨(idx.length, (idx.headD []).length), pats, xmap, nav, pc,
              (⟨gy, sy * s.axes.1.scale, s.axes.1.offset⟩,
                ⟨gx, sx * s.axes.2.scale, s.axes.2.offset⟩)⟩, idx)

end Kp
