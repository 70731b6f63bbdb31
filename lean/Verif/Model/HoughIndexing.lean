import Verif.Model.Detector
import Mathlib.Algebra.Order.Ring.Abs
import Mathlib.Data.Int.Notation

/-
Model of Hough indexing with PyEBSDIndex: `src/kikuchipy/indexing/_hough_indexing.py`,
`EBSD.hough_indexing` and `hough_indexing_optimize_pc` (`src/kikuchipy/signals/ebsd.py` L1618-1825)
and `EBSDDetector.get_indexer` (`src/kikuchipy/detectors/_ebsd_detector.py` L1598-1658).

PyEBSDIndex itself is a parameter: `HoughIndexer.solve` gives the solutions for one pattern with
its PC. Printed messages, lazy patterns and the GPU are not modelled.
-/

namespace Kp

/-- One element of PyEBSDIndex' result array (`_hough_indexing.py` L57-60). -/
@[ext] structure HoughEntry (K : Type) where
  quat : K × K × K × K
  phase : ℤ
  fit : K
  cm : K
  pq : K
  nmatch : ℤ
  deriving DecidableEq

/-- The crystal map returned (`_hough_indexing.py` L102-115): `CrystalMap` keeps the arrays it is
given; `y` is missing for a map of one dimension. -/
@[ext] structure HoughMap (K : Type) where
  rotations : List (K × K × K × K)
  phaseId : List ℤ
  fit : List K
  cm : List K
  pq : List K
  nmatch : List ℤ
  x : List K
  y : Option (List K)
  phaseListIds : List ℤ
  scanUnit : String
  deriving DecidableEq

/-- `data[i]` of a NumPy array: negative indices count from the end; `none` is an `IndexError`. -/
def npRow {α : Type} (data : List α) (i : ℤ) : Option ℕ :=
  if 0 ≤ i then (if i < data.length then some i.toNat else none)
  else if 0 ≤ (data.length : ℤ) + i then some ((data.length : ℤ) + i).toNat else none

/-- `rot_arr[not_indexed] = [1, 0, 0, 0]` (`_hough_indexing.py` L95-99). `rot_arr` is a field of a
row of the array, a view, so the assignment is made in the array itself. -/
def clearNotIndexed {K : Type} [Zero K] [One K] (row : List (HoughEntry K)) :
    List (HoughEntry K) :=
  row.map fun e => if e.phase = -1 then { e with quat := (1, 0, 0, 0) } else e

/-- `orix.crystal_map.create_coordinate_arrays` for maps of one and two dimensions: positions of
all map points in row-major order, of unit step if no step sizes are given. -/
def coordinateArrays {K : Type} [Semiring K] (nav : List ℕ) (steps : Option (List K)) :
    Except String (List K × Option (List K)) :=
  match nav with
  | [nx] =>
    match steps.getD [1] with
    | [dx] => .ok ((List.range nx).map fun (i : ℕ) => (i : K) * dx, none)
    | _ => .error "ValueError: step sizes"
  | [ny, nx] =>
    match steps.getD [1, 1] with
    | [dy, dx] =>
      .ok ((List.range (ny * nx)).map fun (i : ℕ) => ((i % nx : ℕ) : K) * dx,
        some ((List.range (ny * nx)).map fun (i : ℕ) => ((i / nx : ℕ) : K) * dy))
    | _ => .error "ValueError: step sizes"
  | _ => .error "ValueError: dimensions"

/-- The crystal map from one row of results (`_hough_indexing.py` L93-115). -/
def houghMapOf {K : Type} (row : List (HoughEntry K)) (coords : List K × Option (List K))
    (ids : List ℤ) (unit : String) : HoughMap K :=
  { rotations := row.map HoughEntry.quat
    phaseId := row.map HoughEntry.phase
    fit := row.map HoughEntry.fit
    cm := row.map HoughEntry.cm
    pq := row.map HoughEntry.pq
    nmatch := row.map HoughEntry.nmatch
    x := coords.1
    y := coords.2
    phaseListIds := ids
    scanUnit := unit }

/-- `xmap_from_hough_indexing_data()` (`_hough_indexing.py` L43-117), with the array `data` after
the call. `n` is `data.shape[1]`. A navigation shape of no dimensions is not modelled. -/
def xmapFromHough {K : Type} [Semiring K] (data : List (List (HoughEntry K))) (n : ℕ)
    (ids : List ℤ) (dataIndex : ℤ) (nav : Option (List ℕ)) (steps : Option (List K))
    (unit : String) : Except String (HoughMap K × List (List (HoughEntry K))) :=
  if nav.any (fun s => 2 < s.length) then
    .error "ValueError: `nav_shape` cannot be a tuple of more than two integers"
  else
    match coordinateArrays (nav.getD [n]) steps with
    | .error e => .error e
    | .ok coords =>
      if dataIndex ≠ -1 ∧ dataIndex ∉ ids then
        .error "ValueError: `phase_list` IDs must contain data_index"
      else
        match npRow data dataIndex with
        | none => .error "IndexError"
        | some j =>
          .ok (houghMapOf (clearNotIndexed (data.getD j [])) coords ids unit,
            data.set j (clearNotIndexed (data.getD j [])))

/-! ### Phases and reflectors -/

/-- A phase of an orix phase list, as far as used here. `lattice` is `abcABG()`. -/
structure OrixPhase (K : Type) where
  name : String
  spaceGroup : Option ℕ
  lattice : List K
  deriving DecidableEq

/-- Miller indices. -/
abbrev Hkl : Type := ℤ × ℤ × ℤ

/-- A phase of PyEBSDIndex, as made by `addphase()` (`_hough_indexing.py` L323-328). -/
structure PeiPhase (K : Type) where
  name : String
  spaceGroup : ℕ
  lattice : List K
  poleFamilies : Option (List Hkl)
  deriving DecidableEq

/-- An element of a list of reflectors: `None`, one vector `[h, k, l]`, vectors (a list, tuple,
array or `ReciprocalLatticeVector`) or a number. -/
inductive RefItem
  | none
  | vector (h : Hkl)
  | vectors (l : List Hkl)
  | number (n : ℤ)
  deriving DecidableEq

/-- The argument `reflectors`: `None`, an array or `ReciprocalLatticeVector`, or a list or tuple. -/
inductive RefArg
  | none
  | array (l : List Hkl)
  | list (l : List RefItem)
  deriving DecidableEq

/-- Whether an element is one vector. -/
def RefItem.isVector : RefItem → Bool
  | .vector _ => true
  | _ => false

/-- The vector, if an element is one. -/
def RefItem.toVector : RefItem → Option Hkl
  | .vector h => some h
  | _ => Option.none

/-- A list of items as one set of reflectors, as `ReciprocalLatticeVector(phase, hkl=ref)`
reads it; `ValueError` if it is not an array with rows of three numbers. -/
def oneSet (l : List RefItem) : Except String RefItem :=
  match l with
  | [.number h, .number k, .number m] => .ok (.vector (h, k, m))
  | _ =>
    if l ≠ [] ∧ l.all RefItem.isVector then .ok (.vectors (l.filterMap RefItem.toVector))
    else .error "ValueError"

/-- "Make list of reflectors iterable" (`_hough_indexing.py` L294-305). A wrapped list which is
not a set of reflectors is refused here, in the code when it is used. -/
def reflectorItems (n : ℕ) (r : RefArg) : Except String (List RefItem) :=
  match r with
  | .none => .ok (List.replicate n .none)
  | .array l =>
    if n = 1 then .ok [.vectors l]
    else .error "ValueError: One set of reflectors or None must be passed per phase"
  | .list l =>
    if l.length = n then .ok l
    else if n = 1 then
      match oneSet l with
      | .error e => .error e
      | .ok s => .ok [s]
    else .error "ValueError: One set of reflectors or None must be passed per phase"

/-- The reflectors given to `addphase()` (`_hough_indexing.py` L316-322). `uniq` is
`ReciprocalLatticeVector(phase, hkl).unique(use_symmetry=True).hkl`. -/
def poleFamiliesOf {K : Type} (uniq : OrixPhase K → List Hkl → List Hkl) (p : OrixPhase K)
    (r : RefItem) : Option (List Hkl) :=
  match r with
  | .none => Option.none
  | .number _ => Option.none
  | .vector h => some (uniq p [h])
  | .vectors l => some (uniq p l)

/-- The loop over phases of `_get_pyebsdindex_phaselist()` (`_hough_indexing.py` L307-334). -/
def peiPhases {K : Type} (uniq : OrixPhase K → List Hkl → List Hkl) :
    List (OrixPhase K × RefItem) → Except String (List (PeiPhase K))
  | [] => .ok []
  | (p, r) :: l =>
    match p.spaceGroup with
    | none => .error "ValueError: Space group for each phase must be set"
    | some sg =>
      match peiPhases uniq l with
      | .error e => .error e
      | .ok ps => .ok (⟨p.name, sg, p.lattice, poleFamiliesOf uniq p r⟩ :: ps)

/-- `_get_pyebsdindex_phaselist()` (`_hough_indexing.py` L256-337). -/
def peiPhaseList {K : Type} (uniq : OrixPhase K → List Hkl → List Hkl)
    (phases : List (OrixPhase K)) (r : RefArg) : Except String (List (PeiPhase K)) :=
  match reflectorItems phases.length r with
  | .error e => .error e
  | .ok items => peiPhases uniq (phases.zip items)

/-! ### The indexer -/

/-- PyEBSDIndex' `EBSDIndexer`, as far as used. `pcShape` is the shape of `indexer.PC` and `pcs`
its rows. `solve p pc j` is solution `j` for pattern `p` with projection center `pc`. -/
structure HoughIndexer (K P : Type) where
  vendor : String
  patDim : ℕ × ℕ
  pcShape : List ℕ
  pcs : List (PC K)
  sampleTilt : K
  camElev : K
  phases : List (PeiPhase K)
  solve : P → PC K → ℕ → HoughEntry K

/-- `self.pc_flattened.squeeze()` has shape `(3,)` for one PC, otherwise `(n, 3)`
(`_ebsd_detector.py` L1653). -/
def squeezedPcShape (n : ℕ) : List ℕ := if n = 1 then [3] else [n, 3]

/-- `EBSDDetector.get_indexer()` (`_ebsd_detector.py` L1646-1658, `_hough_indexing.py` L120-185). -/
def getIndexer {K P : Type} (uniq : OrixPhase K → List Hkl → List Hkl)
    (solve : P → PC K → ℕ → HoughEntry K) (det : Detector K) (phases : List (OrixPhase K))
    (r : RefArg) : Except String (HoughIndexer K P) :=
  match peiPhaseList uniq phases r with
  | .error e => .error e
  | .ok ps =>
    .ok
      { vendor := "KIKUCHIPY"
        patDim := (det.nrows, det.ncols)
        pcShape := squeezedPcShape det.pc.length
        pcs := det.pc
        sampleTilt := det.sampleTilt
        camElev := det.tilt
        phases := ps
        solve := solve }

/-- `_indexer_is_compatible_with_kikuchipy()` (`_hough_indexing.py` L340-407): the message of the
error, if there is any. -/
def indexerError {K P : Type} (ix : HoughIndexer K P) (sig : ℕ × ℕ) (navSize : Option ℕ)
    (checkPc : Bool) : Option String :=
  if ix.vendor.toLower ≠ "kikuchipy" then some "ValueError: 'indexer.vendor' must be 'kikuchipy'"
  else if sig ≠ ix.patDim then
    some "ValueError: Indexer signal shape must be equal to the signal shape"
  else if checkPc ∧ ¬(ix.pcShape = [3] ∨ ∃ n ∈ navSize, ix.pcShape = [n, 3]) then
    some "ValueError: `indexer.PC` must be an array of shape"
  else none

section
variable {K : Type} [Field K] [LinearOrder K]

/-- `np.allclose(lat, lat_pei, atol=1e-12)` (`_hough_indexing.py` L463) of one pair; the relative
tolerance is NumPy's default. -/
def closeLattice (a b : K) : Prop := |a - b| ≤ 1 / 10 ^ 12 + 1 / 10 ^ 5 * |b|

instance (a b : K) : Decidable (closeLattice a b) := by unfold closeLattice; infer_instance

/-- The loop of `_phase_lists_are_compatible()` (`_hough_indexing.py` L455-480). -/
def phasesError : List (OrixPhase K × PeiPhase K) → Option String
  | [] => none
  | (p, q) :: l =>
    match p.spaceGroup with
    | none => some "AttributeError: 'NoneType' object has no attribute 'number'"
    | some sg =>
      if ¬ ∀ ab ∈ p.lattice.zip q.lattice, closeLattice ab.1 ab.2 then
        some "ValueError: unequal lattice parameters"
      else if sg ≠ q.spaceGroup then some "ValueError: unequal space group numbers"
      else phasesError l

/-- `_phase_lists_are_compatible()` (`_hough_indexing.py` L410-485): the message of the error, if
there is any. Lists of lattice parameters have length 6. -/
def phaseListsError (phases : List (OrixPhase K)) (pei : List (PeiPhase K)) : Option String :=
  if phases.length ≠ pei.length then some "ValueError: unequal number of phases"
  else phasesError (phases.zip pei)

/-- An EBSD signal: shape and steps of the navigation axes (rows first), shape of the patterns,
patterns in row-major order (`data.reshape((-1,) + sig_shape)`, ebsd.py L1682-1696) and unit of
the navigation axes. -/
structure HoughSignal (K P : Type) where
  nav : List ℕ
  steps : List K
  sig : ℕ × ℕ
  patterns : List P
  unit : String

/-- `indexer.index_pats()`: a row of solutions for each phase and a last row with the best of
each pattern. An array of one PC is used for all patterns. -/
def indexPats {P : Type} (ix : HoughIndexer K P) (patterns : List P) :
    List (List (HoughEntry K)) :=
  let pcs := if ix.pcShape = [3] then List.replicate patterns.length (ix.pcs.headD ⟨0, 0, 0⟩)
    else ix.pcs
  (List.range (ix.phases.length + 1)).map fun j =>
    (patterns.zip pcs).map fun p => ix.solve p.1 p.2 j

/-- `EBSD.hough_indexing()` (ebsd.py L1673-1719): the crystal map and the index data returned. -/
def houghIndexing {P : Type} (s : HoughSignal K P) (ids : List ℤ) (phases : List (OrixPhase K))
    (ix : HoughIndexer K P) : Except String (HoughMap K × List (List (HoughEntry K))) :=
  match indexerError ix s.sig (some s.nav.prod) true with
  | some e => .error e
  | none =>
    match phaseListsError phases ix.phases with
    | some e => .error e
    | none =>
      match xmapFromHough (indexPats ix s.patterns) s.patterns.length ids (-1) (some s.nav)
          (some s.steps) "px" with
      | .error e => .error e
      | .ok (m, data) => .ok ({ m with scanUnit := s.unit }, data)

/-- The chunks announced by `_get_info_message()` (`_hough_indexing.py` L497) with the chunk size
of `hough_indexing()` (ebsd.py L1695): `int(np.ceil(nav_size / min(chunksize, max(n, 1))))`. -/
def houghChunks (navSize chunkSize : ℕ) : ℕ :=
  let c := min chunkSize (max navSize 1)
  (navSize + c - 1) / c

/-- Checks and result of `hough_indexing_optimize_pc()` (ebsd.py L1778-1825). `pcSize` is
`pc0.size` and `optimized` the PCs PyEBSDIndex returns: one, or one for each pattern if `batch`. -/
def houghOptimizePc {P : Type} (s : HoughSignal K P) (pcSize : ℕ) (ix : HoughIndexer K P)
    (batch : Bool) (method : String) (optimized : List (PC K)) : Except String (Detector K) :=
  if pcSize ≠ 3 then .error "ValueError: `pc0` must be of size 3"
  else if method.toLower ∉ ["nelder-mead", "pso"] then
    .error "ValueError: `method` must be one of the supported methods"
  else
    match indexerError ix s.sig (some s.nav.prod) false with
    | some e => .error e
    | none =>
      if batch ∧ optimized.length ≠ s.nav.prod then .error "ValueError: cannot reshape array"
      else
        .ok
          { nrows := s.sig.1, ncols := s.sig.2, pxSize := 1, binning := 1, tilt := ix.camElev
            azimuthal := 0, twist := 0, sampleTilt := ix.sampleTilt
            nav := if batch ∧ s.nav ≠ [] then s.nav else [1]
            pc := optimized }

end

end Kp
