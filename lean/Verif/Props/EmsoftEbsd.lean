import Verif.Model.EmsoftEbsd
import Verif.Props.Save
import Mathlib.Tactic.Linarith
import Mathlib.Tactic.LinearCombination
import Mathlib.Tactic.Ring
import Mathlib.Tactic.FieldSimp
import Mathlib.Tactic.NormNum
import Mathlib.Data.Rat.Floor

/-
C96: reading patterns simulated with EMsoft.
-/

set_option linter.unusedSectionVars false

namespace Kp

/-! ### Specification -/

/-- The value of a three- or four-dimensional array at an index. -/
def Spec.valueAt {V : Type} (a : FlatArr V) (idx : List ℕ) : Option V :=
  match a.shape, idx with
  | [_, m, k], [i, u, v] => a.data[(i * m + u) * k + v]?
  | [_, c, m, k], [i, j, u, v] => a.data[((i * c + j) * m + u) * k + v]?
  | _, _ => none

/-- A file made by EMEBSD.f90 with `n` patterns of `ny` rows and `nx` columns: as many rows of Euler
angles, and atom data for each atom type. -/
structure Spec.EmWellFormed {K : Type} (f : EmsoftEbsdFile K) (n ny nx : ℕ) : Prop where
  program : f.programName = some ["EMEBSD.f90".toList]
  shape : f.patterns.shape = [n, ny, nx]
  size : f.patterns.data.length = n * ny * nx
  euler : f.euler.length = n
  types : f.crystal.atomTypes.length = f.crystal.nAtomTypes
  rows : f.crystal.atomData.length = 5
  columns : ∀ r ∈ f.crystal.atomData, r.length = f.crystal.nAtomTypes
  lattice : f.crystal.lattice.length = 6

variable {K : Type} [Field K] [LinearOrder K] [IsStrictOrderedRing K] {R : Type}

/-! ### The phase -/

theorem atomEntry_ok {data : List (List K)} {n r i : ℕ} (hr : r < data.length)
    (hc : ∀ row ∈ data, row.length = n) (hi : i < n) :
    ∃ v, atomEntry data r i = .ok v ∧ (data[r]?.bind fun row => row[i]?) = some v := by
  have h1 : data[r]? = some data[r] := List.getElem?_eq_getElem hr
  have hl : i < (data[r]).length := by rw [hc _ (List.getElem_mem hr)]; exact hi
  refine ⟨(data[r])[i], ?_, ?_⟩
  · unfold atomEntry
    rw [h1]
    simp [List.getElem?_eq_getElem hl]
  · rw [h1]
    simp [List.getElem?_eq_getElem hl]

/-- The atom that a file describes in a column of the atom data. -/
structure Spec.AtomOf (eightPiSq : K) (c : EmCrystalData K) (i : ℕ) (a : EmAtom K) : Prop where
  element : c.atomTypes[i]? = some a.element
  x : (c.atomData[0]?.bind fun row => row[i]?) = some a.xyz.1
  y : (c.atomData[1]?.bind fun row => row[i]?) = some a.xyz.2.1
  z : (c.atomData[2]?.bind fun row => row[i]?) = some a.xyz.2.2
  occupancy : (c.atomData[3]?.bind fun row => row[i]?) = some a.occupancy
  /-- The Debye-Waller factor B = 8 π² U, from nm² to Å². -/
  factor : ∃ b, (c.atomData[4]?.bind fun row => row[i]?) = some b ∧
    eightPiSq * a.uIso = 100 * b

theorem emAtom_ok {e : K} (he : e ≠ 0) {c : EmCrystalData K} {i : ℕ}
    (ht : c.atomTypes.length = c.nAtomTypes) (hr : c.atomData.length = 5)
    (hc : ∀ r ∈ c.atomData, r.length = c.nAtomTypes) (hi : i < c.nAtomTypes) :
    ∃ a, emAtom e c i = .ok a ∧ Spec.AtomOf e c i a := by
  obtain ⟨x, hx, hx'⟩ := atomEntry_ok (r := 0) (by omega) hc hi
  obtain ⟨y, hy, hy'⟩ := atomEntry_ok (r := 1) (by omega) hc hi
  obtain ⟨z, hz, hz'⟩ := atomEntry_ok (r := 2) (by omega) hc hi
  obtain ⟨o, ho, ho'⟩ := atomEntry_ok (r := 3) (by omega) hc hi
  obtain ⟨b, hb, hb'⟩ := atomEntry_ok (r := 4) (by omega) hc hi
  have hti : i < c.atomTypes.length := by omega
  refine ⟨⟨c.atomTypes[i], (x, y, z), o, b / e * 100⟩, ?_, ?_⟩
  · unfold emAtom
    rw [List.getElem?_eq_getElem hti, hx, hy, hz, ho, hb]
    rfl
  · exact ⟨List.getElem?_eq_getElem hti, hx', hy', hz', ho', b, hb', by field_simp⟩

theorem emAtoms_ok {e : K} (he : e ≠ 0) {c : EmCrystalData K}
    (ht : c.atomTypes.length = c.nAtomTypes) (hr : c.atomData.length = 5)
    (hc : ∀ r ∈ c.atomData, r.length = c.nAtomTypes) :
    ∀ m ≤ c.nAtomTypes, ∃ l, emAtoms e c m = .ok l ∧ l.length = m ∧
      ∀ i < m, ∃ a, l[i]? = some a ∧ Spec.AtomOf e c i a := by
  intro m
  induction m with
  | zero => intro _; exact ⟨[], rfl, rfl, fun i hi => absurd hi (by omega)⟩
  | succ m ih =>
    intro hm
    obtain ⟨l, h1, h2, h3⟩ := ih (by omega)
    obtain ⟨a, ha, ha'⟩ := emAtom_ok he ht hr hc (show m < c.nAtomTypes by omega)
    refine ⟨l ++ [a], ?_, by simp [h2], ?_⟩
    · rw [emAtoms, h1]
      change (emAtom e c m >>= fun a => Except.ok (l ++ [a])) = _
      rw [ha]
      rfl
    · intro i hi
      by_cases him : i = m
      · subst him
        exact ⟨a, by rw [List.getElem?_append_right (by omega)]; simp [h2], ha'⟩
      · obtain ⟨a', h4, h5⟩ := h3 i (by omega)
        exact ⟨a', by rw [List.getElem?_append_left (by omega)]; exact h4, h5⟩

theorem crystalPhase_ok {e : K} (he : e ≠ 0) {c : EmCrystalData K} (name : List Char)
    (ht : c.atomTypes.length = c.nAtomTypes) (hr : c.atomData.length = 5)
    (hc : ∀ r ∈ c.atomData, r.length = c.nAtomTypes) (hl : c.lattice.length = 6) :
    ∃ p, crystalPhase e c name = .ok p ∧ p.name = (splitext (afterSlash name)).1 ∧
      p.spaceGroup = c.spaceGroup ∧ p.lattice = c.lattice ∧ p.atoms.length = c.nAtomTypes ∧
      ∀ i < c.nAtomTypes, ∃ a, p.atoms[i]? = some a ∧ Spec.AtomOf e c i a := by
  obtain ⟨l, h1, h2, h3⟩ := emAtoms_ok he ht hr hc c.nAtomTypes le_rfl
  refine ⟨⟨_, _, _, l⟩, ?_, rfl, rfl, rfl, h2, h3⟩
  unfold crystalPhase
  rw [h1]
  change (if c.lattice.length ≠ 6 then _ else _) = _
  rw [if_neg (by simp [hl])]
  rfl

/-! ### Reading -/

theorem readEmsoftEbsd_ok {e : K} {fromEuler : K × K × K → R} {filename : List Char}
    {size : EmScanSize} {lazy : Bool} {f : EmsoftEbsdFile K} {s : EmsoftEbsdScan K R}
    (h : readEmsoftEbsd e fromEuler filename size lazy f = .ok s) :
    checkEmsoftEbsd f.programName = .ok () ∧ emsoftData f size = .ok s.data ∧
      emsoftAxes f.delta s.data.shape = .ok s.axes ∧
      crystalPhase e f.crystal f.xtalName = .ok s.phase ∧ emsoftDetector f = .ok s.detector ∧
      s.beamEnergy = f.energyMax ∧ s.title = emsoftTitle filename ∧
      s.mapShape = [f.euler.length] ∧ s.rotations = f.euler.map fromEuler ∧
      s.fileOpen = lazy := by
  unfold readEmsoftEbsd at h
  cases h1 : checkEmsoftEbsd f.programName with
  | error _ => simp [h1] at h
  | ok u =>
    cases h2 : emsoftData f size with
    | error _ => simp [h1, h2] at h
    | ok d =>
      cases h3 : emsoftAxes f.delta d.shape with
      | error _ => simp [h1, h2, h3] at h
      | ok ax =>
        cases h4 : crystalPhase e f.crystal f.xtalName with
        | error _ => simp [h1, h2, h3, h4] at h
        | ok p =>
          cases h5 : emsoftDetector f with
          | error _ => simp [h1, h2, h3, h4, h5] at h
          | ok dt =>
            simp only [h1, h2, h3, h4, h5, Except.ok.injEq] at h
            subst h
            exact ⟨rfl, rfl, h3, rfl, rfl, rfl, rfl, rfl, rfl, rfl⟩

theorem readEmsoftEbsd_of {e : K} {fromEuler : K × K × K → R} {filename : List Char}
    {size : EmScanSize} {lazy : Bool} {f : EmsoftEbsdFile K} {d : FlatArr K}
    {ax : List (SignalAxis K × String)} {p : EmPhase K} {dt : Detector K}
    (h1 : checkEmsoftEbsd f.programName = .ok ()) (h2 : emsoftData f size = .ok d)
    (h3 : emsoftAxes f.delta d.shape = .ok ax)
    (h4 : crystalPhase e f.crystal f.xtalName = .ok p) (h5 : emsoftDetector f = .ok dt) :
    readEmsoftEbsd e fromEuler filename size lazy f = .ok
      ⟨f.energyMax, emsoftTitle filename, d, ax, [f.euler.length], f.euler.map fromEuler, p, dt,
        lazy⟩ := by
  unfold readEmsoftEbsd
  simp only [h1, h2, h3, h4, h5]

theorem emsoftDetector_eq (f : EmsoftEbsdFile K) :
    emsoftDetector f = .ok
      { nrows := f.numsy, ncols := f.numsx, pxSize := f.delta, binning := f.binning,
        tilt := f.thetac, azimuthal := 0, twist := 0, sampleTilt := 70, nav := [1],
        pc := [⟨1 / 2 - f.xpc / ((f.numsx : K) * f.binning),
          1 / 2 - f.ypc / ((f.numsy : K) * f.binning),
          f.detectorDistance / ((f.numsy : K) * f.binning * f.delta)⟩] } := by
  have h : getPcConventionOrRaise "emsoft" = .ok .emsoft := by decide +kernel
  have hv : emsoftVersion "emsoft" = 5 := by decide +kernel
  unfold emsoftDetector Detector.init Detector.getPcInBruker
  simp only [h, hv]
  simp [Detector.emsoft2bruker]

theorem checkEmsoftEbsd_ok_iff (p : Option (List (List Char))) :
    checkEmsoftEbsd p = .ok () ↔ ∃ l, p = some ("EMEBSD.f90".toList :: l) := by
  unfold checkEmsoftEbsd
  split
  · simp
  · simp
  · rename_i q l
    split_ifs with hq
    · constructor
      · intro h; cases h
      · rintro ⟨l', h⟩
        exact absurd (List.cons.inj (Option.some.inj h)).1 hq
    · simp only [ne_eq, Decidable.not_not] at hq
      exact ⟨fun _ => ⟨l, by rw [hq]⟩, fun _ => rfl⟩

/-- Only files written by the program EMEBSD.f90 are read. -/
theorem C96_program_checked (e : K) (fromEuler : K × K × K → R) (filename : List Char)
    (size : EmScanSize) (lazy : Bool) (f : EmsoftEbsdFile K) :
    ((∃ s, readEmsoftEbsd e fromEuler filename size lazy f = .ok s) →
      ∃ l, f.programName = some ("EMEBSD.f90".toList :: l)) ∧
    (f.programName = none →
      readEmsoftEbsd e fromEuler filename size lazy f = .error .ioError) ∧
    (∀ p l, f.programName = some (p :: l) → p ≠ "EMEBSD.f90".toList →
      readEmsoftEbsd e fromEuler filename size lazy f = .error .ioError) := by
  refine ⟨?_, ?_, ?_⟩
  · rintro ⟨s, h⟩
    exact (checkEmsoftEbsd_ok_iff _).1 (readEmsoftEbsd_ok h).1
  · intro h
    unfold readEmsoftEbsd checkEmsoftEbsd
    simp [h]
  · intro p l h hp
    unfold readEmsoftEbsd checkEmsoftEbsd
    rw [h]
    simp only [if_pos hp]

/-- If the dataset with the name of the program is empty, the error is not the documented
`IOError`. -/
theorem C96_program_checked_violated (e : K) (fromEuler : K × K × K → R) (filename : List Char)
    (size : EmScanSize) (lazy : Bool) (f : EmsoftEbsdFile K) (h : f.programName = some []) :
    readEmsoftEbsd e fromEuler filename size lazy f = .error .indexError := by
  unfold readEmsoftEbsd checkEmsoftEbsd
  simp [h]

theorem emsoftAxes_three (px : K) (n m k : ℕ) :
    emsoftAxes px [n, m, k] =
      .ok [(⟨"x", n, 1⟩, "px"), (⟨"dy", m, px⟩, "um"), (⟨"dx", k, px⟩, "um")] := rfl

theorem emsoftAxes_four (px : K) (r c m k : ℕ) :
    emsoftAxes px [r, c, m, k] =
      .ok [(⟨"y", r, 1⟩, "px"), (⟨"x", c, 1⟩, "px"), (⟨"dy", m, px⟩, "um"),
        (⟨"dx", k, px⟩, "um")] := rfl

/-- A well-formed file is read as it is, as a row of patterns, with one map point per pattern whose
rotation is that of the pattern. -/
theorem C96_read_default (e : K) (he : e ≠ 0) (fromEuler : K × K × K → R) (filename : List Char)
    (lazy : Bool) (f : EmsoftEbsdFile K) (n ny nx : ℕ) (hf : Spec.EmWellFormed f n ny nx) :
    ∃ s, readEmsoftEbsd e fromEuler filename .none lazy f = .ok s ∧
      s.data = f.patterns ∧
      s.axes = [(⟨"x", n, 1⟩, "px"), (⟨"dy", ny, f.delta⟩, "um"), (⟨"dx", nx, f.delta⟩, "um")] ∧
      s.mapShape = [n] ∧ s.rotations.length = n ∧
      (∀ (i : ℕ) (a : K × K × K), f.euler[i]? = some a →
        s.rotations[i]? = some (fromEuler a)) ∧
      s.beamEnergy = f.energyMax := by
  obtain ⟨p, hp, -⟩ := crystalPhase_ok he f.xtalName hf.types hf.rows hf.columns hf.lattice
  have hc : checkEmsoftEbsd f.programName = .ok () :=
    (checkEmsoftEbsd_ok_iff _).2 ⟨[], hf.program⟩
  have hd : emsoftData f .none = .ok f.patterns := rfl
  have ha : emsoftAxes f.delta f.patterns.shape =
      .ok [(⟨"x", n, 1⟩, "px"), (⟨"dy", ny, f.delta⟩, "um"), (⟨"dx", nx, f.delta⟩, "um")] := by
    rw [hf.shape]; exact emsoftAxes_three f.delta n ny nx
  refine ⟨_, readEmsoftEbsd_of hc hd ha hp (emsoftDetector_eq f), rfl, rfl, ?_, ?_, ?_, rfl⟩
  · simp [hf.euler]
  · simp [hf.euler]
  · intro i a hi
    simp [hi]

theorem reshape_ok_iff {V : Type} (a b : FlatArr V) (shape : List ℕ) :
    a.reshape shape = .ok b ↔ a.data.length = shapeSize shape ∧ b = ⟨shape, a.data⟩ := by
  unfold FlatArr.reshape
  split_ifs with h
  · simp only [Except.ok.injEq, h, true_and]
    exact eq_comm
  · simp [h]

/-- With the number of rows and columns of a map given as `scan_size`, the pattern of row `i` and
column `j` is the pattern `i * columns + j` of the file. This is so for a well-formed file with as
many patterns as there are in the map, others are errors. -/
theorem C96_scan_size_rows_columns (e : K) (he : e ≠ 0) (fromEuler : K × K × K → R)
    (filename : List Char) (lazy : Bool) (f : EmsoftEbsdFile K) (n : ℕ)
    (hf : Spec.EmWellFormed f n f.numsy f.numsx) (hy : 0 < f.numsy) (hx : 0 < f.numsx)
    (r c : ℕ) :
    (r * c = n → ∃ s, readEmsoftEbsd e fromEuler filename (.tuple [r, c]) lazy f = .ok s ∧
      s.axes = [(⟨"y", r, 1⟩, "px"), (⟨"x", c, 1⟩, "px"), (⟨"dy", f.numsy, f.delta⟩, "um"),
        (⟨"dx", f.numsx, f.delta⟩, "um")] ∧
      s.data.shape = [r, c, f.numsy, f.numsx] ∧
      (∀ i j u v : ℕ, Spec.valueAt s.data [i, j, u, v] =
        Spec.valueAt f.patterns [i * c + j, u, v]) ∧
      ∀ i j : ℕ, s.rotations[i * c + j]? = (f.euler[i * c + j]?).map fromEuler) ∧
    (r * c ≠ n →
      readEmsoftEbsd e fromEuler filename (.tuple [r, c]) lazy f = .error .valueError) := by
  have hc : checkEmsoftEbsd f.programName = .ok () :=
    (checkEmsoftEbsd_ok_iff _).2 ⟨[], hf.program⟩
  have hsz : shapeSize [r, c, f.numsy, f.numsx] = r * c * f.numsy * f.numsx := by
    simp [shapeSize]; ring
  constructor
  · intro hn
    obtain ⟨p, hp, -⟩ := crystalPhase_ok he f.xtalName hf.types hf.rows hf.columns hf.lattice
    have hd : emsoftData f (.tuple [r, c]) =
        .ok ⟨[r, c, f.numsy, f.numsx], f.patterns.data⟩ := by
      change f.patterns.reshape [r, c, f.numsy, f.numsx] = _
      rw [reshape_ok_iff]
      exact ⟨by rw [hf.size, hsz, hn], rfl⟩
    refine ⟨_, readEmsoftEbsd_of hc hd (emsoftAxes_four f.delta r c f.numsy f.numsx) hp
      (emsoftDetector_eq f), rfl, rfl, ?_, ?_⟩
    · intro i j u v
      unfold Spec.valueAt
      simp [hf.shape]
    · intro i j
      simp
  · intro hn
    have hd : emsoftData f (.tuple [r, c]) = .error .valueError := by
      change f.patterns.reshape [r, c, f.numsy, f.numsx] = _
      unfold FlatArr.reshape
      rw [if_neg]
      rw [hf.size, hsz]
      intro h
      exact hn (Nat.eq_of_mul_eq_mul_right (Nat.mul_pos hy hx) (by
        rw [← mul_assoc, ← mul_assoc]; exact h.symm))
    unfold readEmsoftEbsd
    rw [hc, hd]

/-- An integer `scan_size` must be the number of patterns in the file, and then changes nothing. -/
theorem C96_scan_size_integer (e : K) (fromEuler : K × K × K → R)
    (filename : List Char) (lazy : Bool) (f : EmsoftEbsdFile K) (n : ℕ)
    (hf : Spec.EmWellFormed f n f.numsy f.numsx) (hy : 0 < f.numsy) (hx : 0 < f.numsx) (m : ℕ) :
    readEmsoftEbsd e fromEuler filename (.int m) lazy f =
      if m = n then readEmsoftEbsd e fromEuler filename .none lazy f else .error .valueError := by
  have hc : checkEmsoftEbsd f.programName = .ok () :=
    (checkEmsoftEbsd_ok_iff _).2 ⟨[], hf.program⟩
  have hsz : shapeSize [m, f.numsy, f.numsx] = m * f.numsy * f.numsx := by
    simp [shapeSize]; ring
  split_ifs with hm
  · have hd : emsoftData f (.int m) = emsoftData f .none := by
      change f.patterns.reshape [m, f.numsy, f.numsx] = .ok f.patterns
      rw [reshape_ok_iff]
      refine ⟨by rw [hf.size, hsz, hm], ?_⟩
      rw [FlatArr.ext_iff]
      exact ⟨by rw [hf.shape, hm], rfl⟩
    unfold readEmsoftEbsd
    rw [hd]
  · have hd : emsoftData f (.int m) = .error .valueError := by
      change f.patterns.reshape [m, f.numsy, f.numsx] = _
      unfold FlatArr.reshape
      rw [if_neg]
      rw [hf.size, hsz]
      intro h
      exact hm (Nat.eq_of_mul_eq_mul_right (Nat.mul_pos hy hx) (by
        rw [← mul_assoc, ← mul_assoc]; exact h.symm))
    unfold readEmsoftEbsd
    rw [hc, hd]

/-- Sizes with more than two numbers are never accepted. -/
theorem C96_scan_size_at_most_two (e : K) (fromEuler : K × K × K → R) (filename : List Char)
    (lazy : Bool) (f : EmsoftEbsdFile K) (l : List ℕ) (hl : 2 < l.length)
    (s : EmsoftEbsdScan K R) :
    readEmsoftEbsd e fromEuler filename (.tuple l) lazy f ≠ .ok s := by
  intro h
  obtain ⟨-, hd, ha, -⟩ := readEmsoftEbsd_ok h
  have hd' : f.patterns.reshape (l ++ [f.numsy, f.numsx]) = .ok s.data := hd
  rw [reshape_ok_iff] at hd'
  rw [hd'.2] at ha
  simp only at ha
  match l, hl with
  | a :: b :: c :: l, _ =>
    unfold emsoftAxes at ha
    simp only at ha
    rw [if_neg (by simp)] at ha
    cases l with
    | nil => simp [emsoftAxesFrom] at ha
    | cons d l => simp [emsoftAxesFrom] at ha

/-- The example file: six patterns of one row and two columns. -/
def exEmsoft : EmsoftEbsdFile ℚ where
  programName := some ["EMEBSD.f90".toList]
  energyMax := 20
  numsy := 1
  numsx := 2
  delta := 70
  binning := 1
  thetac := 10
  xpc := 1 / 2
  ypc := -1 / 4
  detectorDistance := 35
  patterns := ⟨[6, 1, 2], [0, 1, 2, 3, 4, 5, 6, 7, 8, 9, 10, 11]⟩
  xtalName := "xtal/al2cu.v2.xtal".toList
  euler := [(0, 0, 0), (1, 0, 0), (2, 0, 0), (3, 0, 0), (4, 0, 0), (5, 0, 0)]
  crystal := ⟨2, [13, 29], [[1, 2], [3, 4], [5, 6], [1, 1], [1 / 200, 1 / 100]], 140,
    [1, 1, 1, 90, 90, 90]⟩

theorem exEmsoft_wellFormed : Spec.EmWellFormed exEmsoft 6 exEmsoft.numsy exEmsoft.numsx :=
  ⟨rfl, rfl, rfl, rfl, rfl, rfl, by decide +kernel, rfl⟩

example : ((readEmsoftEbsd 80 id "sim.h5".toList (.tuple [2, 3]) false exEmsoft).toOption.map
    fun s => s.data.shape) = some [2, 3, 1, 2] ∧
    ((readEmsoftEbsd 80 id "sim.h5".toList (.tuple [2, 3]) false exEmsoft).toOption.bind
      fun s => Spec.valueAt s.data [1, 2, 0, 1]) = some 11 ∧
    ((readEmsoftEbsd 80 id "sim.h5".toList (.tuple [2, 4]) false exEmsoft).toOption.map
      fun s => s.data.shape) = none ∧
    ((readEmsoftEbsd 80 id "sim.h5".toList .none true exEmsoft).toOption.map
      fun s => s.mapShape) = some [6] := by decide +kernel

/-- The documentation says that `scan_size` is the width and the height of the map. It is the
height and the width. -/
theorem C96_width_height_violated :
    ¬ ∀ (f : EmsoftEbsdFile ℚ) (n w h : ℕ) (s : EmsoftEbsdScan ℚ (ℚ × ℚ × ℚ)),
      Spec.EmWellFormed f n f.numsy f.numsx →
      readEmsoftEbsd 80 id "sim.h5".toList (.tuple [w, h]) false f = .ok s →
      s.axes.find? (fun a => a.1.name == "x") = some (⟨"x", w, 1⟩, "px") := by
  intro h
  obtain ⟨s, hs, ha, -⟩ := (C96_scan_size_rows_columns (80 : ℚ) (by norm_num) id "sim.h5".toList
    false exEmsoft 6 exEmsoft_wellFormed (by decide) (by decide) 2 3).1 rfl
  have := h exEmsoft 6 2 3 s exEmsoft_wellFormed hs
  rw [ha] at this
  revert this
  decide +kernel

/-- Without or with an integer `scan_size` the crystal map has the shape of the navigation axes, as
`EBSD.xmap` requires. -/
theorem C96_map_shape_partial (e : K) (fromEuler : K × K × K → R) (filename : List Char)
    (lazy : Bool) (f : EmsoftEbsdFile K) (n : ℕ) (hf : Spec.EmWellFormed f n f.numsy f.numsx)
    (hy : 0 < f.numsy) (hx : 0 < f.numsx) (size : EmScanSize)
    (hsize : size = .none ∨ ∃ m, size = .int m) (s : EmsoftEbsdScan K R)
    (h : readEmsoftEbsd e fromEuler filename size lazy f = .ok s) :
    s.data.shape = s.mapShape ++ [f.numsy, f.numsx] := by
  have key : ∀ s : EmsoftEbsdScan K R,
      readEmsoftEbsd e fromEuler filename .none lazy f = .ok s →
      s.data.shape = s.mapShape ++ [f.numsy, f.numsx] := by
    intro s h
    obtain ⟨-, hd, -, -, -, -, -, hm, -⟩ := readEmsoftEbsd_ok h
    have hd' : f.patterns = s.data := by
      have : (Except.ok f.patterns : Except Err (FlatArr K)) = .ok s.data := hd
      simpa using this
    rw [← hd', hf.shape, hm, hf.euler]
    rfl
  rcases hsize with rfl | ⟨m, rfl⟩
  · exact key s h
  · rw [C96_scan_size_integer e fromEuler filename lazy f n hf hy hx] at h
    split_ifs at h
    exact key s h

/-- With rows and columns given, the crystal map never has the shape of the navigation axes. -/
theorem C96_map_shape_violated (e : K) (fromEuler : K × K × K → R) (filename : List Char)
    (lazy : Bool) (f : EmsoftEbsdFile K) (r c : ℕ) (s : EmsoftEbsdScan K R)
    (h : readEmsoftEbsd e fromEuler filename (.tuple [r, c]) lazy f = .ok s) :
    s.data.shape = [r, c] ++ [f.numsy, f.numsx] ∧ s.mapShape ≠ [r, c] := by
  obtain ⟨-, hd, -, -, -, -, -, hm, -⟩ := readEmsoftEbsd_ok h
  have hd' : f.patterns.reshape [r, c, f.numsy, f.numsx] = .ok s.data := hd
  rw [reshape_ok_iff] at hd'
  exact ⟨by rw [hd'.2]; rfl, by rw [hm]; simp⟩

/-! ### The detector -/

/-- The projection center that EMsoft means: `xpc` and `ypc` are distances from the center of the
screen in pixels of the screen, which has `rows` × `columns` pixels of size `delta`, and the
distance is in the unit of the pixel size. In fractions of the screen, from the upper left. -/
def Spec.emsoftPc (f : EmsoftEbsdFile K) (rows columns : K) : PC K :=
  ⟨1 / 2 - f.xpc / columns, 1 / 2 - f.ypc / rows, f.detectorDistance / (rows * f.delta)⟩

/-- Without binning, the detector has the shape of the patterns and the projection center of the
file. The sample tilt is always 70 degrees. -/
theorem C96_detector_partial (e : K) (fromEuler : K × K × K → R) (filename : List Char)
    (size : EmScanSize) (lazy : Bool) (f : EmsoftEbsdFile K) (n : ℕ)
    (hf : Spec.EmWellFormed f n f.numsy f.numsx) (hb : f.binning = 1) (s : EmsoftEbsdScan K R)
    (h : readEmsoftEbsd e fromEuler filename size lazy f = .ok s) :
    (∃ nav, s.data.shape = nav ++ [s.detector.nrows, s.detector.ncols]) ∧
    s.detector.pc = [Spec.emsoftPc f f.numsy f.numsx] ∧ s.detector.tilt = f.thetac ∧
    s.detector.pxSize = f.delta ∧ s.detector.sampleTilt = 70 ∧ s.detector.azimuthal = 0 ∧
    s.detector.twist = 0 := by
  obtain ⟨-, hd, -, -, hdet, -⟩ := readEmsoftEbsd_ok h
  rw [emsoftDetector_eq] at hdet
  have hdet' := Except.ok.inj hdet
  refine ⟨?_, ?_, ?_, ?_, ?_, ?_, ?_⟩
  · rw [← hdet']
    cases size with
    | none =>
      have hd' : f.patterns = s.data := by
        have : (Except.ok f.patterns : Except Err (FlatArr K)) = .ok s.data := hd
        simpa using this
      exact ⟨[n], by rw [← hd', hf.shape]; rfl⟩
    | int m =>
      have hd' : f.patterns.reshape [m, f.numsy, f.numsx] = .ok s.data := hd
      rw [reshape_ok_iff] at hd'
      exact ⟨[m], by rw [hd'.2]; rfl⟩
    | tuple l =>
      have hd' : f.patterns.reshape (l ++ [f.numsy, f.numsx]) = .ok s.data := hd
      rw [reshape_ok_iff] at hd'
      exact ⟨l, by rw [hd'.2]⟩
  · rw [← hdet', hb]
    simp [Spec.emsoftPc]
  all_goals rw [← hdet']

/-- With binning by `b > 1`, EMEBSD.f90 stores patterns with `1 / b` of the rows and columns of the
screen. Such a file is read without an error, but the detector does not have the shape of the
patterns, and the projection center is not the one in the file unless it is at the center of the
screen. -/
theorem C96_binning_violated (e : K) (he : e ≠ 0) (fromEuler : K × K × K → R)
    (filename : List Char) (lazy : Bool) (f : EmsoftEbsdFile K) (n ny nx b : ℕ) (hb : 1 < b)
    (hfb : f.binning = b) (hny : f.numsy = b * ny) (hnx : f.numsx = b * nx) (hy : 0 < ny)
    (hx : 0 < nx) (hf : Spec.EmWellFormed f n ny nx) (hpc : f.xpc ≠ 0) :
    ∃ s, readEmsoftEbsd e fromEuler filename .none lazy f = .ok s ∧ s.data.shape = [n, ny, nx] ∧
      (s.detector.nrows, s.detector.ncols) ≠ (ny, nx) ∧
      s.detector.pc ≠ [Spec.emsoftPc f f.numsy f.numsx] := by
  obtain ⟨s, hs, hd, -⟩ := C96_read_default e he fromEuler filename lazy f n ny nx hf
  obtain ⟨-, -, -, -, hdet, -⟩ := readEmsoftEbsd_ok hs
  rw [emsoftDetector_eq] at hdet
  have hdet' := Except.ok.inj hdet
  refine ⟨s, hs, by rw [hd, hf.shape], ?_, ?_⟩
  · rw [← hdet']
    intro h
    have h1 : f.numsy = ny := congrArg Prod.fst h
    rw [hny] at h1
    nlinarith
  · rw [← hdet']
    intro h
    have h1 := congrArg PC.x (List.cons.inj h).1
    simp only [Spec.emsoftPc] at h1
    have hxk : (0 : K) < (f.numsx : K) := by
      have : 0 < f.numsx := by rw [hnx]; exact Nat.mul_pos (by omega) hx
      exact_mod_cast this
    have hbk : (1 : K) < f.binning := by rw [hfb]; exact_mod_cast hb
    have h2 : f.xpc / ((f.numsx : K) * f.binning) = f.xpc / (f.numsx : K) := by linarith
    have hb0 : f.binning ≠ 0 := by intro h; rw [h] at hbk; linarith [zero_lt_one (α := K)]
    rw [div_eq_div_iff (mul_ne_zero hxk.ne' hb0) hxk.ne'] at h2
    have h3 : f.xpc * (f.numsx : K) * (f.binning - 1) = 0 := by linear_combination -h2
    rcases mul_eq_zero.1 h3 with h4 | h4
    · exact (mul_ne_zero hpc hxk.ne') h4
    · linarith

/-- ... and giving the number of patterns as `scan_size` is an error. -/
theorem C96_binned_scan_size_violated (e : K) (fromEuler : K × K × K → R)
    (filename : List Char) (lazy : Bool) (f : EmsoftEbsdFile K) (n ny nx b : ℕ) (hb : 1 < b)
    (hny : f.numsy = b * ny) (hnx : f.numsx = b * nx) (hn : 0 < n) (hy : 0 < ny)
    (hx : 0 < nx) (hf : Spec.EmWellFormed f n ny nx) :
    readEmsoftEbsd e fromEuler filename (.int n) lazy f = .error .valueError := by
  have hc : checkEmsoftEbsd f.programName = .ok () :=
    (checkEmsoftEbsd_ok_iff _).2 ⟨[], hf.program⟩
  have hd : emsoftData f (.int n) = .error .valueError := by
    change f.patterns.reshape [n, f.numsy, f.numsx] = _
    unfold FlatArr.reshape
    rw [if_neg]
    rw [hf.size, hny, hnx]
    simp only [shapeSize]
    intro h
    have h1 : 0 < n * ny * nx := Nat.mul_pos (Nat.mul_pos hn hy) hx
    have h2 : n * ny * nx = (b * b) * (n * ny * nx) := h.trans (by ring)
    have h3 : 2 ≤ b * b := by nlinarith
    nlinarith
  unfold readEmsoftEbsd
  rw [hc, hd]

example : Spec.EmWellFormed { exEmsoft with binning := 2, numsy := 2, numsx := 4 } 6 1 2 :=
  ⟨rfl, rfl, rfl, rfl, rfl, rfl, by decide +kernel, rfl⟩

/-! ### Phase and names -/

/-- The phase has the space group of the file and its atoms, in order, with their coordinates,
occupancies and Debye-Waller factors (from nm² to Å²). -/
theorem C96_phase_partial (e : K) (he : e ≠ 0) (fromEuler : K × K × K → R) (filename : List Char)
    (size : EmScanSize) (lazy : Bool) (f : EmsoftEbsdFile K) (n ny nx : ℕ)
    (hf : Spec.EmWellFormed f n ny nx) (s : EmsoftEbsdScan K R)
    (h : readEmsoftEbsd e fromEuler filename size lazy f = .ok s) :
    s.phase.spaceGroup = f.crystal.spaceGroup ∧ s.phase.lattice = f.crystal.lattice ∧
    s.phase.atoms.length = f.crystal.nAtomTypes ∧
    ∀ i < f.crystal.nAtomTypes, ∃ a, s.phase.atoms[i]? = some a ∧
      Spec.AtomOf e f.crystal i a := by
  obtain ⟨-, -, -, hp, -⟩ := readEmsoftEbsd_ok h
  obtain ⟨p, hp', -, h1, h2, h3, h4⟩ :=
    crystalPhase_ok he f.xtalName hf.types hf.rows hf.columns hf.lattice
  rw [hp] at hp'
  have := Except.ok.inj hp'
  rw [this]
  exact ⟨h1, h2, h3, h4⟩

/-- In the file all lengths are in nm. The phase does not have one unit of length: there is no
number `unit` such that lattice parameters are multiplied with it and Debye-Waller factors with its
square, for files with any nonzero lattice parameter and factor. -/
theorem C96_phase_unit_violated (e : K) (he : e ≠ 0) (fromEuler : K × K × K → R)
    (filename : List Char) (size : EmScanSize) (lazy : Bool) (f : EmsoftEbsdFile K) (n ny nx : ℕ)
    (hf : Spec.EmWellFormed f n ny nx) (s : EmsoftEbsdScan K R)
    (h : readEmsoftEbsd e fromEuler filename size lazy f = .ok s) (i : ℕ)
    (hi : i < f.crystal.nAtomTypes) (b a0 : K)
    (hb : (f.crystal.atomData[4]?.bind fun row => row[i]?) = some b) (hb0 : b ≠ 0)
    (ha : f.crystal.lattice[0]? = some a0) (ha0 : a0 ≠ 0) :
    ¬ ∃ unit : K, s.phase.lattice[0]? = some (unit * a0) ∧
      ∀ a, s.phase.atoms[i]? = some a → e * a.uIso = unit ^ 2 * b := by
  rintro ⟨unit, h1, h2⟩
  obtain ⟨-, hl, -, hat⟩ :=
    C96_phase_partial e he fromEuler filename size lazy f n ny nx hf s h
  rw [hl, ha] at h1
  obtain ⟨a, ha', hs⟩ := hat i hi
  obtain ⟨b', hb', hfac⟩ := hs.factor
  rw [hb] at hb'
  have hbb := Option.some.inj hb'
  have h3 := h2 a ha'
  rw [hfac, ← hbb] at h3
  have h4 : unit = 1 := by
    have := Option.some.inj h1
    have : (unit - 1) * a0 = 0 := by linear_combination -this
    rcases mul_eq_zero.1 this with h | h
    · linarith
    · exact absurd h ha0
  rw [h4] at h3
  have h5 : (99 : K) * b = 0 := by linear_combination h3
  rcases mul_eq_zero.1 h5 with h6 | h6
  · norm_num at h6
  · exact hb0 h6

example : ((readEmsoftEbsd 80 id "sim.h5".toList .none false exEmsoft).toOption.map
    fun s => s.phase) = some ⟨"al2cu.v2".toList, 140, [1, 1, 1, 90, 90, 90],
      [⟨13, (1, 3, 5), 1, 1 / 160⟩, ⟨29, (2, 4, 6), 1, 1 / 80⟩]⟩ := by decide +kernel

theorem afterSlash_append (dir name : List Char) (h : '/' ∉ name) :
    afterSlash (dir ++ '/' :: name) = name := by
  induction dir with
  | nil => simp [afterSlash, h]
  | cons c cs ih =>
    rw [List.cons_append, afterSlash, if_pos (by simp)]
    exact ih

theorem afterSlash_self (name : List Char) (h : '/' ∉ name) : afterSlash name = name := by
  cases name with
  | nil => rfl
  | cons c cs =>
    rw [List.mem_cons, not_or] at h
    rw [afterSlash, if_neg h.2, if_neg (Ne.symm h.1)]

/-- The phase is named after the crystal file, without directory and extension. -/
theorem C96_phase_name (e : K) (fromEuler : K × K × K → R) (filename : List Char)
    (size : EmScanSize) (lazy : Bool) (f : EmsoftEbsdFile K) (s : EmsoftEbsdScan K R)
    (h : readEmsoftEbsd e fromEuler filename size lazy f = .ok s) (dir stem ext : List Char)
    (hname : f.xtalName = stem ++ '.' :: ext ∨
      f.xtalName = dir ++ '/' :: (stem ++ '.' :: ext))
    (hstem : ∃ c ∈ stem, c ≠ '.') (hs : '/' ∉ stem) (hext : '.' ∉ ext) (he : '/' ∉ ext) :
    s.phase.name = stem := by
  obtain ⟨-, -, -, hp, -⟩ := readEmsoftEbsd_ok h
  have hn : '/' ∉ stem ++ '.' :: ext := by simp [hs, he]
  have ha : afterSlash f.xtalName = stem ++ '.' :: ext := by
    rcases hname with h | h
    · rw [h]; exact afterSlash_self _ hn
    · rw [h]; exact afterSlash_append _ _ hn
  have hpn : s.phase.name = (splitext (afterSlash f.xtalName)).1 := by
    unfold crystalPhase at hp
    cases hat : emAtoms e f.crystal f.crystal.nAtomTypes with
    | error _ => rw [hat] at hp; cases hp
    | ok l =>
      rw [hat] at hp
      change (if f.crystal.lattice.length ≠ 6 then _ else _) = _ at hp
      by_cases hl : f.crystal.lattice.length ≠ 6
      · rw [if_pos hl] at hp; cases hp
      · rw [if_neg hl] at hp
        have := Except.ok.inj hp
        rw [← this]
  rw [hpn, ha, splitext_append hstem hext]

/-- The title is the name of the file without directory and extension, if there is no other dot in
it. -/
theorem C96_title_partial (e : K) (fromEuler : K × K × K → R) (dir stem ext : List Char)
    (hstem : '.' ∉ stem) (hs : '/' ∉ stem) (he : '/' ∉ ext) (size : EmScanSize) (lazy : Bool)
    (f : EmsoftEbsdFile K) (s : EmsoftEbsdScan K R)
    (h : readEmsoftEbsd e fromEuler (dir ++ '/' :: (stem ++ '.' :: ext)) size lazy f = .ok s) :
    s.title = stem := by
  obtain ⟨-, -, -, -, -, -, ht, -⟩ := readEmsoftEbsd_ok h
  rw [ht]
  unfold emsoftTitle
  rw [afterSlash_append _ _ (by simp [hs, he])]
  rw [List.takeWhile_append_of_pos]
  · simp
  · intro c hc
    simp only [ne_eq, decide_not, Bool.not_eq_eq_eq_not, Bool.not_true, decide_eq_false_iff_not]
    rintro rfl
    exact hstem hc

/-- Two files whose names differ after the first dot have the same title. -/
theorem C96_title_violated (stem a b dir : List Char) (hstem : '.' ∉ stem) (hs : '/' ∉ stem)
    (ha : '/' ∉ a) (hb : '/' ∉ b) (e : K) (fromEuler : K × K × K → R) (size : EmScanSize)
    (lazy : Bool) (f g : EmsoftEbsdFile K) (s t : EmsoftEbsdScan K R)
    (h : readEmsoftEbsd e fromEuler (dir ++ '/' :: (stem ++ '.' :: a)) size lazy f = .ok s)
    (h' : readEmsoftEbsd e fromEuler (dir ++ '/' :: (stem ++ '.' :: b)) size lazy g = .ok t) :
    s.title = t.title := by
  rw [C96_title_partial e fromEuler dir stem a hstem hs ha size lazy f s h,
    C96_title_partial e fromEuler dir stem b hstem hs hb size lazy g t h']

example : ((readEmsoftEbsd 80 id "data/ni.20kv.h5".toList .none false exEmsoft).toOption.map
    fun s => s.title) = some "ni".toList := by decide +kernel

end Kp
