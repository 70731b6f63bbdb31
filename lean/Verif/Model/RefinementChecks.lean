import Mathlib.Algebra.Order.Field.Basic
import Mathlib.Algebra.Order.Field.Rat
import Verif.Model.RefinementMaps

/-
What refinement and the setters of a signal accept, and how phases are compared:
`_equal_phase`, `_xmap_is_compatible_with_signal`
(`/repo/src/kikuchipy/signals/util/_crystal_map.py` L28-108),
`_detector_is_compatible_with_signal` (`/repo/src/kikuchipy/signals/util/_detector.py` L28-61),
`EBSD._check_refinement_parameters` (`/repo/src/kikuchipy/signals/ebsd.py` L2880-2970) and
`_get_crystal_map_parameters` (`/repo/src/kikuchipy/indexing/_refinement/_refinement.py` L302-336).

Simplifications: numbers are elements of an ordered field instead of floats.  Warnings of differing
step sizes are left out, as they have no effect.
-/

namespace Kp

/-- `np.isclose(a, b)` with the default tolerances (NumPy): relative to the *second* argument. -/
def isclose {K : Type*} [Field K] [LinearOrder K] (a b : K) : Bool :=
  decide (|a - b| ≤ 1 / 100000000 + 1 / 100000 * |b|)

/-- `np.allclose` of arrays of the same size (NumPy). -/
def allclose {K : Type*} [Field K] [LinearOrder K] (a b : List K) : Bool :=
  (List.zipWith isclose a b).all id

/-- An atom of a structure (diffpy.structure): element, fractional coordinates and occupancy. -/
structure PhaseAtom (K : Type*) where
  element : String
  xyz : K × K × K
  occupancy : K
  deriving DecidableEq

/-- A symmetry operation (orix): a rotation as a unit quaternion, and whether it is followed by
inversion.  `Symmetry.data` has the quaternions only. -/
structure SymmetryOperation (K : Type*) where
  quaternion : K × K × K × K
  improper : Bool
  deriving DecidableEq

/-- What `_equal_phase` uses of an orix `Phase`: the name, the number of the space group if there is
one, the operations of the point group if there is one, lattice parameters and atoms. -/
structure PhaseInfo (K : Type*) where
  name : String
  spaceGroup : Option ℕ
  pointGroup : Option (List (SymmetryOperation K))
  lattice : List K
  atoms : List (PhaseAtom K)
  deriving DecidableEq

/-- What differs between two phases, as named in messages (`_crystal_map.py` L66-106). -/
inductive PhaseDifference
  | names | spaceGroups | pointGroups | numberOfAtoms | lattice | atoms
  deriving DecidableEq

section
variable {K : Type*} [Field K] [LinearOrder K]

/-- `np.allclose` of two space group numbers with `np.nan` for a missing one and `equal_nan=True`
(L72-83). -/
def closeSpaceGroups : Option ℕ → Option ℕ → Bool
  | none, none => true
  | some a, some b => isclose (a : ℚ) (b : ℚ)
  | _, _ => false

/-- The numbers of the array `point_group.data`. -/
def pointGroupData (l : List (SymmetryOperation K)) : List K :=
  l.flatMap fun o => [o.quaternion.1, o.quaternion.2.1, o.quaternion.2.2.1, o.quaternion.2.2.2]

/-- The comparison of point groups (L76-79, L86-89): `np.nan`, of size 1, for a missing one. -/
def closePointGroups : Option (List (SymmetryOperation K)) → Option (List (SymmetryOperation K)) →
    Bool
  | none, none => true
  | some a, some b => (pointGroupData a).length == (pointGroupData b).length &&
      allclose (pointGroupData a) (pointGroupData b)
  | _, _ => false

/-- The comparison of two atoms (L101-105). -/
def closeAtoms (a b : PhaseAtom K) : Bool :=
  a.element == b.element &&
    allclose [a.xyz.1, a.xyz.2.1, a.xyz.2.2] [b.xyz.1, b.xyz.2.1, b.xyz.2.2] &&
    isclose a.occupancy b.occupancy

/-- `_equal_phase` (`_crystal_map.py` L65-108): `none` if the phases are found equal, otherwise
what differs. -/
def equalPhase (p q : PhaseInfo K) : Option PhaseDifference :=
  if p.name ≠ q.name then some .names
  else if !closeSpaceGroups p.spaceGroup q.spaceGroup then some .spaceGroups
  else if !closePointGroups p.pointGroup q.pointGroup then some .pointGroups
  else if p.atoms.length ≠ q.atoms.length then some .numberOfAtoms
  else if !allclose p.lattice q.lattice then some .lattice
  else if !(List.zipWith closeAtoms p.atoms q.atoms).all id then some .atoms
  else none

/-- The shapes of a signal's detector. -/
structure DetectorShapes where
  shape : List ℕ
  nav : List ℕ
  deriving DecidableEq

/-- What is wrong with the arguments. -/
inductive RefinementError
  | detectorShape | detectorNav | signalMask | mapShape | masterPattern | phase (d : PhaseDifference)
  | noPhase | points (e : Err)
  deriving DecidableEq

/-- `_detector_is_compatible_with_signal(raise_if_not=True)` (`_detector.py` L38-61): of two errors
the last is reported. -/
def checkDetector (nav sig : List ℕ) (d : DetectorShapes) : Except RefinementError Unit :=
  let e : Option RefinementError := if sig ≠ d.shape then some .detectorShape else none
  let e := if d.nav ≠ [1] ∧ d.nav ≠ nav then some .detectorNav else e
  match e with
  | some e => .error e
  | none => .ok ()

/-- `_xmap_is_compatible_with_signal(raise_if_not=True)` (`_crystal_map.py` L28-61). -/
def checkMap {R : Type*} (nav : List ℕ) (x : RMap R) : Except RefinementError Unit :=
  if x.shape ≠ nav then .error .mapShape else .ok ()

/-- The arguments of refinement which are checked: shapes of the signal, the detector, the shape of
the signal mask, the crystal map with its phases, the navigation mask, the phase of the master
pattern and whether it is suitable for projection (`MasterPattern.checkSuitable`). -/
structure RefinementArgs (K R : Type*) where
  nav : List ℕ
  sig : List ℕ
  detector : DetectorShapes
  signalMask : Option (List ℕ)
  xmap : RMap R
  phases : List (ℤ × PhaseInfo K)
  navMask : Option (List ℕ × List Bool)
  suitable : Bool
  mpPhase : PhaseInfo K

/-- `EBSD._check_refinement_parameters` (`ebsd.py` L2931-2970), giving the points to refine. -/
def checkRefinement {R : Type*} (a : RefinementArgs K R) : Except RefinementError (List Bool) :=
  match checkDetector a.nav a.sig a.detector with
  | .error e => .error e
  | .ok () =>
    if a.signalMask.any (fun m => a.sig != m) then .error .signalMask
    else match checkMap a.nav a.xmap with
      | .error e => .error e
      | .ok () => match indexedPoints a.xmap a.navMask with
        | .error e => .error (.points e)
        | .ok pts =>
          if !a.suitable then .error .masterPattern
          else match a.phases.lookup pts.phaseId with
            | none => .error .noPhase
            | some p => match equalPhase a.mpPhase p with
              | some d => .error (.phase d)
              | none => .ok pts.inDataIndexed

/-- The attributes of a signal set by the user. -/
structure SignalState (R : Type*) where
  nav : List ℕ
  sig : List ℕ
  detector : DetectorShapes
  xmap : Option (RMap R)

/-- `EBSD.detector` setter (`ebsd.py` L215-223): the new state and whether it raised. -/
def SignalState.setDetector {R : Type*} (s : SignalState R) (d : DetectorShapes) :
    SignalState R × Bool :=
  match checkDetector s.nav s.sig d with
  | .error _ => (s, true)
  | .ok () => ({ s with detector := d }, false)

/-- `EBSD.xmap` setter (`ebsd.py` L238-243). -/
def SignalState.setXmap {R : Type*} (s : SignalState R) (x : RMap R) : SignalState R × Bool :=
  match checkMap s.nav x with
  | .error _ => (s, true)
  | .ok () => ({ s with xmap := some x }, false)

/-- One attribute set by the user. -/
inductive AttributeSet (R : Type*)
  | detector (d : DetectorShapes)
  | xmap (x : RMap R)

/-- A sequence of attributes set by the user, some of which raise. -/
def SignalState.setAll {R : Type*} (s : SignalState R) : List (AttributeSet R) → SignalState R
  | [] => s
  | .detector d :: l => (s.setDetector d).1.setAll l
  | .xmap x :: l => (s.setXmap x).1.setAll l

/-- `CrystalMap.dx`, `dy` (orix, `_step_size_from_coordinates`): the difference between the two
smallest different coordinates, 0 if there is only one. -/
def stepSize (l : List K) : K :=
  match l with
  | [] => 0
  | a :: t =>
    let m := t.foldl min a
    match l.filter (fun c => decide (c ≠ m)) with
    | [] => 0
    | b :: r => r.foldl min b - m

/-- Coordinates (y, x) of the points of a refined 2D map, in order: `_get_crystal_map_parameters`
(`_refinement.py` L309-314) with orix' `create_coordinate_arrays`.  For a map
with 0 for a step fewer step sizes than axes are passed, and there is no result here. -/
def refinedCoordinates (rows cols : ℕ) (coords : List (K × K)) : Option (List (K × K)) :=
  let dy := stepSize (coords.map Prod.fst)
  let dx := stepSize (coords.map Prod.snd)
  if dy = 0 ∨ dx = 0 then none
  else some ((List.range rows).flatMap fun (i : ℕ) => (List.range cols).map fun (j : ℕ) =>
    ((i : K) * dy, (j : K) * dx))

end

end Kp
