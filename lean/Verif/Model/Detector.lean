import Verif.Model.Base
import Mathlib.Algebra.Order.Field.Basic

/-
Model of `src/kikuchipy/detectors/_ebsd_detector.py` (class `EBSDDetector`): projection
center conventions, gnomonic bounds, coordinate conversion and cropping.
Numbers are elements of an arbitrary linearly ordered field `K` (no floating point
rounding).
-/

namespace Kp

/-- One projection center `(PCx, PCy, PCz)`: the last axis of `EBSDDetector.pc`
(`_ebsd_detector.py` L440-462). -/
@[ext] structure PC (K : Type*) where
  x : K
  y : K
  z : K
  deriving DecidableEq

/-- The attributes of `EBSDDetector` (`_ebsd_detector.py` L282-318).  `pc` is the
flattened (row-major) array of projection centers and `nav` the navigation shape
(`navigation_shape` L614-623), so `pc.length` is the product of `nav`.  `binning` is the
float `_binning` (L681-695).  psygnal signals are not modelled. -/
@[ext] structure Detector (K : Type*) where
  nrows : ℕ
  ncols : ℕ
  pxSize : K
  binning : K
  tilt : K
  azimuthal : K
  twist : K
  sampleTilt : K
  nav : List ℕ
  pc : List (PC K)
  deriving DecidableEq

/-! ### Projection center conventions -/

/-- `PC_CONVENTIONS_SINGLE` (`_ebsd_detector.py` L85). -/
inductive Conv
  | bruker
  | tsl
  | oxford
  | emsoft
  deriving DecidableEq, Repr

/-- `PC_CONVENTIONS_ALIASES` (`_ebsd_detector.py` L86-91), in dictionary order. -/
def pcConventionsAliases : List (Conv × List String) :=
  [ (.bruker, ["bruker"]),
    (.tsl, ["tsl", "edax", "amatek"]),
    (.oxford, ["oxford", "aztec"]),
    (.emsoft, ["emsoft", "emsoft4", "emsoft5"]) ]

/-- Python's `str.lower` on one character, exact whenever the result is ASCII: besides
A-Z, the only character whose lower case is a single ASCII character is the Kelvin sign
U+212A.  Other non-ASCII characters are left as they are (simplification: their lower
case is never ASCII, so membership in the alias table is unaffected). -/
def pyLower (c : Char) : Char :=
  if c = '\u212A' then 'k' else c.toLower

/-- `EBSDDetector._get_pc_convention_or_raise` (`_ebsd_detector.py` L2206-2218). -/
def getPcConventionOrRaise (conv : String) : Except Err Conv :=
  let convLower := conv.toList.map pyLower
  match pcConventionsAliases.find? (fun kv => kv.2.any (fun a => a.toList == convLower)) with
  | some kv => .ok kv.1
  | none => .error .valueError

/-- EMsoft version from the last character of the convention string:
`int(convention[-1])`, 5 on `ValueError` (`_ebsd_detector.py` L2241-2244, L2271-2274). -/
def emsoftVersion (conv : String) : ℕ :=
  match conv.toList.getLast? with
  | some c => if c.isDigit then c.toNat - '0'.toNat else 5
  | none => 5

section Conversions

variable {K : Type*} [Field K] [LinearOrder K]

/-- `aspect_ratio` (`_ebsd_detector.py` L650-654). -/
def Detector.aspect (d : Detector K) : K := (d.ncols : K) / (d.nrows : K)

/-- `_pc_emsoft2bruker` (`_ebsd_detector.py` L2295-2303). -/
def Detector.emsoft2bruker (d : Detector K) (version : ℕ) (p : PC K) : PC K :=
  let pcx := if version < 5 then -p.x else p.x
  { x := 1 / 2 - pcx / ((d.ncols : K) * d.binning)
    y := 1 / 2 - p.y / ((d.nrows : K) * d.binning)
    z := p.z / ((d.nrows : K) * d.binning * d.pxSize) }

/-- `_pc_tsl2bruker` (`_ebsd_detector.py` L2305-2309). -/
def Detector.tsl2bruker (d : Detector K) (p : PC K) : PC K :=
  { x := p.x
    y := 1 - p.y
    z := p.z * (((min d.nrows d.ncols : ℕ) : K) / (d.nrows : K)) }

/-- `_pc_oxford2bruker` (`_ebsd_detector.py` L2311-2315). -/
def Detector.oxford2bruker (d : Detector K) (p : PC K) : PC K :=
  { x := p.x
    y := 1 - p.y * d.aspect
    z := p.z * d.aspect }

/-- `_pc_bruker2emsoft` (`_ebsd_detector.py` L2317-2324). -/
def Detector.bruker2emsoft (d : Detector K) (version : ℕ) (p : PC K) : PC K :=
  let x0 := (1 / 2 - p.x) * (d.ncols : K) * d.binning
  { x := if version < 5 then -x0 else x0
    y := (1 / 2 - p.y) * (d.nrows : K) * d.binning
    z := p.z * (d.nrows : K) * d.binning * d.pxSize }

/-- `_pc_bruker2tsl` (`_ebsd_detector.py` L2326-2330). -/
def Detector.bruker2tsl (d : Detector K) (p : PC K) : PC K :=
  { x := p.x
    y := 1 - p.y
    z := p.z / (((min d.nrows d.ncols : ℕ) : K) / (d.nrows : K)) }

/-- `_pc_bruker2oxford` (`_ebsd_detector.py` L2332-2336). -/
def Detector.bruker2oxford (d : Detector K) (p : PC K) : PC K :=
  { x := p.x
    y := (1 - p.y) / d.aspect
    z := p.z / d.aspect }

/-- `_get_pc_in_bruker_convention` (`_ebsd_detector.py` L2220-2247): the stored array,
elementwise. -/
def Detector.getPcInBruker (d : Detector K) (convention : String) :
    Except Err (List (PC K)) :=
  match getPcConventionOrRaise convention with
  | .error e => .error e
  | .ok .tsl => .ok (d.pc.map d.tsl2bruker)
  | .ok .oxford => .ok (d.pc.map d.oxford2bruker)
  | .ok .emsoft => .ok (d.pc.map (d.emsoft2bruker (emsoftVersion convention)))
  | .ok .bruker => .ok d.pc

/-- `_get_pc_in_convention` (`_ebsd_detector.py` L2249-2277). -/
def Detector.getPcInConvention (d : Detector K) (convention : String) :
    Except Err (List (PC K)) :=
  match getPcConventionOrRaise convention with
  | .error e => .error e
  | .ok .tsl => .ok (d.pc.map d.bruker2tsl)
  | .ok .oxford => .ok (d.pc.map d.bruker2oxford)
  | .ok .emsoft => .ok (d.pc.map (d.bruker2emsoft (emsoftVersion convention)))
  | .ok .bruker => .ok d.pc

/-- `__init__` (`_ebsd_detector.py` L282-318): the attributes are stored with `pc` as
given, then `_set_pc_in_bruker_convention` (L2338-2341) replaces `pc`.  `raw` carries the
constructor arguments.  The deprecated `convention=None` is the same as `"bruker"`. -/
def Detector.init (raw : Detector K) (convention : String) : Except Err (Detector K) :=
  match raw.getPcInBruker convention with
  | .error e => .error e
  | .ok pcs => .ok { raw with pc := pcs }

/-! ### Gnomonic bounds -/

/-- `x_min` (`_ebsd_detector.py` L730-737) for one PC. -/
def Detector.xMin (d : Detector K) (p : PC K) : K := -d.aspect * (p.x / p.z)
/-- `x_max` (`_ebsd_detector.py` L739-746). -/
def Detector.xMax (d : Detector K) (p : PC K) : K := d.aspect * (1 - p.x) / p.z
/-- `y_min` (`_ebsd_detector.py` L757-764). -/
def Detector.yMin (_ : Detector K) (p : PC K) : K := -(1 - p.y) / p.z
/-- `y_max` (`_ebsd_detector.py` L766-773). -/
def Detector.yMax (_ : Detector K) (p : PC K) : K := p.y / p.z

/-- `x_scale` (`_ebsd_detector.py` L784-795). -/
def Detector.xScale (d : Detector K) (p : PC K) : K :=
  if d.ncols = 1 then d.xMax p - d.xMin p
  else (d.xMax p - d.xMin p) / ((d.ncols : K) - 1)
/-- `y_scale` (`_ebsd_detector.py` L797-808). -/
def Detector.yScale (d : Detector K) (p : PC K) : K :=
  if d.nrows = 1 then d.yMax p - d.yMin p
  else (d.yMax p - d.yMin p) / ((d.nrows : K) - 1)

/-- The four squared corner distances in `r_max` (`_ebsd_detector.py` L828-832), exactly
as written: the fourth entry, commented "Lower left", repeats the first. -/
def Detector.rMaxCorners (d : Detector K) (p : PC K) : List K :=
  [ d.xMin p ^ 2 + d.yMin p ^ 2,
    d.xMax p ^ 2 + d.yMin p ^ 2,
    d.xMax p ^ 2 + d.yMax p ^ 2,
    d.xMin p ^ 2 + d.yMin p ^ 2 ]

/-- Square of `r_max` (`_ebsd_detector.py` L821-833): `np.max` of the corners.  The square
root is left out so the definition works in any ordered field. -/
def Detector.rMaxSq (d : Detector K) (p : PC K) : K :=
  max (max (d.xMin p ^ 2 + d.yMin p ^ 2) (d.xMax p ^ 2 + d.yMin p ^ 2))
    (max (d.xMax p ^ 2 + d.yMax p ^ 2) (d.xMin p ^ 2 + d.yMin p ^ 2))

/-! ### Pixel <-> gnomonic coordinates -/

/-- Linear conversion factors `m_x, c_x, m_y, c_y`. -/
structure Factors (K : Type*) where
  mx : K
  cx : K
  my : K
  cy : K

/-- `get_pixel_to_gnomonic_coords_conversion_numba`
(`_convert_detector_coordinates.py` L55-67) with `bounds = (0, ncols-1, 0, nrows-1)`
(`_ebsd_detector.py` L656-661). -/
def Detector.pixToGn (d : Detector K) (p : PC K) : Factors K :=
  { mx := (d.xMax p - d.xMin p) / (((d.ncols : K) - 1) + 1)
    cx := d.xMin p
    my := (d.yMin p - d.yMax p) / (((d.nrows : K) - 1) + 1)
    cy := d.yMax p }

/-- `get_gnomonic_to_pixel_coords_conversion_numba`
(`_convert_detector_coordinates.py` L70-82). -/
def Detector.gnToPix (d : Detector K) (p : PC K) : Factors K :=
  let mx := (((d.ncols : K) - 1) + 1) / (d.xMax p - d.xMin p)
  let my := (((d.nrows : K) - 1) + 1) / (d.yMin p - d.yMax p)
  { mx := mx
    cx := -d.xMin p * mx
    my := my
    cy := -d.yMax p * my }

/-- `_convert_coordinates` (`_convert_detector_coordinates.py` L188-204) on one coordinate
pair, ordered (y, x). -/
def convertPair (f : Factors K) (c : K × K) : K × K :=
  (f.my * c.1 + f.cy, f.mx * c.2 + f.cx)

/-- The array of coordinates, with the last axis of length 2 replaced by pairs.  `shape`
is the shape without the last axis.  `convert_coordinates` raises `ValueError` when the
last axis has another length (`_convert_detector_coordinates.py` L126-130); that check is
in the type here. -/
abbrev Coords (K : Type*) := NDArr (K × K)

/-- `convert_coordinates` (`_convert_detector_coordinates.py` L119-185) with
`detector_index=None`: `factors` has shape `nav`; coordinates are either given per map
point (leading axes equal to `nav`, with at least one further axis besides the pair axis)
or shared by all map points. `np.atleast_2d` means `coords.shape` is not empty. -/
def convertCoordinates (nav : List ℕ) (factors : List ℕ → Factors K) (c : Coords K) :
    Coords K :=
  if c.shape.length ≥ nav.length + 1 ∧ c.shape.take nav.length = nav then
    { shape := c.shape
      val := fun i => convertPair (factors (i.take nav.length)) (c.val i) }
  else
    { shape := nav ++ c.shape
      val := fun i =>
        convertPair (factors (i.take nav.length)) (c.val (i.drop nav.length)) }

/-- `convert_coordinates` with a `detector_index` selecting one map point
(`_convert_detector_coordinates.py` L159-183, `len(index_shape) == 0`). -/
def convertCoordinatesAt (f : Factors K) (c : Coords K) : Coords K :=
  { shape := c.shape, val := fun i => convertPair f (c.val i) }

/-- `to_gnomonic_coords(coords)` (`_ebsd_detector.py` L902-942) for all map points;
`pcAt` is the PC array indexed by map position. -/
def Detector.toGnomonicCoords (d : Detector K) (pcAt : List ℕ → PC K) (c : Coords K) :
    Coords K :=
  convertCoordinates d.nav (fun i => d.pixToGn (pcAt i)) c

/-- `to_pixel_coords(coords)` (`_ebsd_detector.py` L944-984) for all map points. -/
def Detector.toPixelCoords (d : Detector K) (pcAt : List ℕ → PC K) (c : Coords K) :
    Coords K :=
  convertCoordinates d.nav (fun i => d.gnToPix (pcAt i)) c

/-- `to_gnomonic_coords` of one coordinate pair (y, x) for one map point. -/
def Detector.toGnomonic (d : Detector K) (p : PC K) (c : K × K) : K × K :=
  convertPair (d.pixToGn p) c

/-- `to_pixel_coords` of one coordinate pair (gy, gx) for one map point. -/
def Detector.toPixel (d : Detector K) (p : PC K) (c : K × K) : K × K :=
  convertPair (d.gnToPix p) c

/-! ### Cropping -/

/-- Clamped extent of `crop` (`_ebsd_detector.py` L1002-1010): (top, bottom, left,
right). -/
def cropExtent (ny nx : ℕ) (e : ℤ × ℤ × ℤ × ℤ) : ℤ × ℤ × ℤ × ℤ :=
  (max e.1 0, min e.2.1 ny, max e.2.2.1 0, min e.2.2.2 nx)

/-- PC after cropping (`_ebsd_detector.py` L1021-1023). -/
def Detector.cropPc (d : Detector K) (top left : ℤ) (nyNew nxNew : ℤ) (p : PC K) : PC K :=
  { x := (p.x * (d.ncols : K) - (left : K)) / (nxNew : K)
    y := (p.y * (d.nrows : K) - (top : K)) / (nyNew : K)
    z := p.z * (d.nrows : K) / (nyNew : K) }

/-- Navigation shape of `np.dstack((pcx, pcy, pcz))` without the last axis: `dstack`
first makes arrays at least 3D, turning shape `(n,)` into `(1, n, 1)` and `(m, n)` into
`(m, n, 1)`. -/
def dstackNav : List ℕ → List ℕ
  | [n] => [1, n]
  | s => s

/-- `crop` (`_ebsd_detector.py` L986-1033) for an extent of Python integers (a
non-integer extent raises the same `ValueError`).  The returned detector is made by the
constructor with `shape, pc, tilt, sample_tilt, binning, px_size, azimuthal`; `twist` is
not passed, so it takes the constructor's default 0.  `int(self._binning)` is modelled as
the binning itself (binning is documented to be an integer). -/
def Detector.crop (d : Detector K) (extent : ℤ × ℤ × ℤ × ℤ) : Except Err (Detector K) :=
  let e := cropExtent d.nrows d.ncols extent
  let top := e.1
  let bottom := e.2.1
  let left := e.2.2.1
  let right := e.2.2.2
  let nyNew := bottom - top
  let nxNew := right - left
  if nyNew ≤ 0 ∨ nxNew ≤ 0 then .error .valueError
  else .ok
    { nrows := nyNew.toNat
      ncols := nxNew.toNat
      pxSize := d.pxSize
      binning := d.binning
      tilt := d.tilt
      azimuthal := d.azimuthal
      twist := 0
      sampleTilt := d.sampleTilt
      nav := dstackNav d.nav
      pc := d.pc.map (d.cropPc top left nyNew nxNew) }

end Conversions

end Kp
