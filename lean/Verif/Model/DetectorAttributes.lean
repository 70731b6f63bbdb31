import Verif.Model.AdaptiveEqualization

/-
Model of assignments to the attributes of an `EBSDDetector`
(`src/kikuchipy/detectors/_ebsd_detector.py` L280-424, L439-634, L680-695, L2281-2293), and of the
signals which tell listeners about new values.

Finite floats are rationals. NaN and infinity are left out.
-/

namespace Kp

/-- A value assigned to an attribute: a real number (also a bool), a complex number, or something
which is not a `numbers.Number`. -/
inductive AttrValue
  | real (q : ℚ)
  | complex (re im : ℚ)
  | other
  deriving DecidableEq

/-- `isinstance(value, Number)`, then `float(value)`, which raises `TypeError` for a complex number
(`_ebsd_detector.py` L340-342, L368-370, L395-397, L420-422, L577-579, L693-695). -/
def numberOrRaise : AttrValue → Except Err ℚ
  | .real q => .ok q
  | .complex _ _ => .error .typeError
  | .other => .error .valueError

/-- A value assigned to `shape`: not iterable, iterable without `len`, or with items. -/
inductive ShapeValue
  | notIterable
  | noLen
  | items (l : List AttrValue)
  deriving DecidableEq

/-- `_parse_valid_shape_or_raise` (`_ebsd_detector.py` L2281-2293). -/
def parseShape : ShapeValue → Except Err (ℤ × ℤ)
  | .notIterable => .error .valueError
  | .noLen => .error .typeError
  | .items l =>
    if l.length ≠ 2 ∨ AttrValue.other ∈ l then .error .valueError
    else match l with
      | [.real ny, .real nx] => .ok (pyInt ny, pyInt nx)
      | _ => .error .typeError

/-- A NumPy array of floats in C order. -/
@[ext] structure NdFloats where
  shape : List ℕ
  data : List ℚ
  deriving DecidableEq

/-- `np.atleast_2d`. -/
def NdFloats.atleast2d (a : NdFloats) : NdFloats :=
  match a.shape with
  | [] => ⟨[1, 1], a.data⟩
  | [n] => ⟨[1, n], a.data⟩
  | _ => a

/-- The attributes of a detector. -/
@[ext] structure DetectorState where
  shape : ℤ × ℤ
  pxSize : ℚ
  binning : ℚ
  tilt : ℚ
  azimuthal : ℚ
  twist : ℚ
  sampleTilt : ℚ
  pc : NdFloats
  deriving DecidableEq

/-- `navigation_shape` (`_ebsd_detector.py` L614-624): all but the last dimension. -/
def DetectorState.navigationShape (d : DetectorState) : List ℕ := d.pc.shape.dropLast

/-- `binning` (`_ebsd_detector.py` L680-689). -/
def DetectorState.binningInt (d : DetectorState) : ℤ := pyInt d.binning

/-- `height` (`_ebsd_detector.py` L697-703). -/
def DetectorState.heightMicrons (d : DetectorState) : ℚ := d.shape.1 * d.pxSize * d.binning

/-- `pcx`, `pcy` and `pcz` (`_ebsd_detector.py` L493-516, L518-541, L543-566): `pc[..., i]`. -/
def DetectorState.coordinate (d : DetectorState) (i : ℕ) : Except Err (List ℚ) :=
  let c := d.pc.shape.getLast?.getD 0
  if i < c then .ok ((List.range d.navigationShape.prod).map fun j => d.pc.data.getD (j * c + i) 0)
  else .error .indexError

/-- `pc_flattened` (`_ebsd_detector.py` L481-487): `reshape((-1, 3))`. -/
def DetectorState.pcFlattened (d : DetectorState) : Except Err NdFloats :=
  if d.pc.data.length % 3 = 0 then .ok ⟨[d.pc.data.length / 3, 3], d.pc.data⟩ else .error .valueError

/-- Signals emitted to listeners (psygnal). -/
inductive Emission
  | sampleTilt (v : ℚ)
  | tilt (v : ℚ)
  | azimuthal (v : ℚ)
  | twist (v : ℚ)
  | pc (a : NdFloats)
  deriving DecidableEq

/-- The shape which `reshape` makes of `dims` for an array with `size` values: one negative entry
stands for what is left. -/
def resolveShape (size : ℕ) (dims : List ℤ) : Except Err (List ℕ) :=
  let known := (dims.filter (0 ≤ ·)).map Int.toNat
  let unknown := (dims.filter (· < 0)).length
  if unknown = 0 then
    if known.prod = size then .ok (dims.map Int.toNat) else .error .valueError
  else if unknown = 1 then
    if known.prod ≠ 0 ∧ size % known.prod = 0 then
      .ok (dims.map fun d => if d < 0 then size / known.prod else d.toNat)
    else .error .valueError
  else .error .valueError

/-- Where the value at a flat index of the target comes from in a value of shape `src`, of the same
number of dimensions. -/
def broadcastIndex : List ℕ → List ℕ → ℕ → ℕ
  | _ :: ts, s :: ss, i =>
    (if s = 1 then 0 else i / ts.prod) * ss.prod + broadcastIndex ts ss (i % ts.prod)
  | _, _, _ => 0

/-- The shape of a value with leading dimensions of size one added or removed, such that it has as
many dimensions as the target, if this is possible. -/
def alignShape (target : ℕ) (src : List ℕ) : Option (List ℕ) :=
  if src.length ≤ target then some (List.replicate (target - src.length) 1 ++ src)
  else if (src.take (src.length - target)).all (· = 1) then some (src.drop (src.length - target))
  else none

/-- `pc[..., i] = value`: NumPy broadcasts the value to the navigation shape and ignores leading
dimensions of size one, or raises `ValueError`. -/
def setCoordinate (pc : NdFloats) (i : ℕ) (v : NdFloats) : Except Err NdFloats :=
  let nav := pc.shape.dropLast
  let c := pc.shape.getLast?.getD 0
  if c ≤ i then .error .indexError
  else match alignShape nav.length v.shape with
    | none => .error .valueError
    | some s =>
      if (s.zip nav).all (fun p => p.1 = 1 ∨ p.1 = p.2) then
        .ok ⟨pc.shape, (List.range pc.data.length).map fun j =>
          if j % c = i then v.data.getD (broadcastIndex nav s (j / c)) 0 else pc.data.getD j 0⟩
      else .error .valueError

/-- A value assigned to `navigation_shape`: a tuple of integers, or something else with a length
which cannot be added to a tuple (a list or an array). -/
inductive NavValue
  | tuple (dims : List ℤ)
  | notTuple (len : ℕ)
  deriving DecidableEq

/-- Assignments. Values of `pc`, `pcx`, `pcy` and `pcz` are what NumPy makes of them, `none` if this
is not an array of numbers. -/
inductive Assignment
  | sampleTilt (v : AttrValue)
  | tilt (v : AttrValue)
  | azimuthal (v : AttrValue)
  | twist (v : AttrValue)
  | pxSize (v : AttrValue)
  | binning (v : AttrValue)
  | shape (v : ShapeValue)
  | pc (v : Option NdFloats)
  | coordinate (i : Fin 3) (v : Option NdFloats)
  | navigationShape (v : NavValue)
  deriving DecidableEq

/-- The setters (`_ebsd_detector.py` L338-344, L366-372, L393-399, L418-424, L456-461, L507-511,
L531-535, L555-559, L574-579, L599-601, L626-634, L691-695): the new detector and the emitted
signals. -/
def DetectorState.assign (d : DetectorState) : Assignment → Except Err (DetectorState × List Emission)
  | .sampleTilt v => do
    let q ← numberOrRaise v
    return ({ d with sampleTilt := q }, [.sampleTilt q])
  | .tilt v => do
    let q ← numberOrRaise v
    return ({ d with tilt := q }, [.tilt q])
  | .azimuthal v => do
    let q ← numberOrRaise v
    return ({ d with azimuthal := q }, [.azimuthal q])
  | .twist v => do
    let q ← numberOrRaise v
    return ({ d with twist := q }, [.twist q])
  | .pxSize v => do
    let q ← numberOrRaise v
    return ({ d with pxSize := q }, [])
  | .binning v => do
    let q ← numberOrRaise v
    return ({ d with binning := q }, [])
  | .shape v => do
    let s ← parseShape v
    return ({ d with shape := s }, [])
  | .pc none => .error .valueError
  | .pc (some a) => .ok ({ d with pc := a.atleast2d }, [.pc a.atleast2d])
  | .coordinate _ none => .error .valueError
  | .coordinate i (some a) => do
    let pc ← setCoordinate d.pc i a.atleast2d
    return ({ d with pc := pc }, [.pc pc])
  | .navigationShape (.notTuple len) => if 2 < len then .error .valueError else .error .typeError
  | .navigationShape (.tuple dims) =>
    if 2 < dims.length then .error .valueError
    else do
      let s ← resolveShape d.pc.data.length (dims ++ [3])
      let a := NdFloats.atleast2d ⟨s, d.pc.data⟩
      return ({ d with pc := a }, [.pc a, .pc a])

/-- What happens between two looks at the detector: an assignment, which may raise, or a change of a
value in the array that `pc` returns (`_ebsd_detector.py` L440-454 returns the array itself). -/
inductive DetectorEvent
  | assign (a : Assignment)
  | inPlace (j : ℕ) (v : ℚ)
  deriving DecidableEq

/-- A detector and what a listener has been told last. -/
@[ext] structure Observed where
  det : DetectorState
  told : List Emission

/-- One event. An assignment that raises does nothing. -/
def Observed.step (o : Observed) : DetectorEvent → Observed
  | .assign a => match o.det.assign a with
    | .error _ => o
    | .ok (d, e) => ⟨d, o.told ++ e⟩
  | .inPlace j v =>
    ⟨{ o.det with pc := ⟨o.det.pc.shape, o.det.pc.data.set j v⟩ }, o.told⟩

/-- A history of events. -/
def Observed.after (o : Observed) (events : List DetectorEvent) : Observed :=
  events.foldl Observed.step o

end Kp
