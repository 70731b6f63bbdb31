import Verif.Model.MasterPattern

/-
`EBSDMasterPattern.get_patterns` (`/repo/src/kikuchipy/signals/ebsd_master_pattern.py` L97-328).

Simplifications: dask arrays are split into chunks, mapped chunk by chunk and joined again. The
signal axes (names, scales), the crystal map in the result and progress bars are not modelled.
Arrays are flattened row-major and paired with their shape.
-/

namespace Kp

/-- Splitting of an array along its first axis into chunks of the given sizes
(`da.from_array(x, chunks)` and `x.rechunk(chunks)`). -/
def splitChunks {α : Type*} : List ℕ → List α → List (List α)
  | [], _ => []
  | c :: cs, xs => xs.take c :: splitChunks cs (xs.drop c)

/-- `_project_patterns_from_master_pattern_with_fixed_pc` (`_master_pattern.py` L299-368) of one
chunk, with `proj` for `_project_single_pattern_from_master_pattern`. -/
def projectFixed {R D P : Type*} (proj : R → D → P) (dc : D) (rots : List R) : List (Option P) :=
  rots.map (fun r => some (proj r dc))

/-- `_project_patterns_from_master_pattern_with_varying_pc` (`_master_pattern.py` L371-440) of
one chunk. `none` stands for a read outside `direction_cosines`, which numba does not check. -/
def projectVarying {R D P : Type*} (proj : R → D → P) (rots : List R) (dcs : List D) :
    List (Option P) :=
  (List.range rots.length).map (fun i =>
    match rots[i]?, dcs[i]? with
    | some r, some d => some (proj r d)
    | _, _ => none)

/-- The checks of shapes and the mapping over chunks in `get_patterns`
(`ebsd_master_pattern.py` L189-284). `navDet` is `detector.navigation_shape`, so that
`len(detector.pc)` is its first entry; `dcs` are the sets of direction cosines, one per PC;
`chunks` are the chunk sizes along the flattened navigation axis from `get_chunking`. -/
def getPatternsCore {R D P : Type*} (proj : R → D → P) (rotShape : List ℕ) (rots : List R)
    (navDet : List ℕ) (dcs : List D) (chunks : List ℕ) : Except Err (List ℕ × List (Option P)) :=
  if rotShape ≠ navDet ∧ navDet.headD 0 > 1 then .error .valueError
  else if rotShape.length > 2 then .error .valueError
  else if navDet = [1] then
    match dcs with
    | [] => .ok (rotShape, [])
    | dc :: _ => .ok (rotShape, ((splitChunks chunks rots).map (projectFixed proj dc)).flatten)
  else
    .ok (rotShape,
      (List.zipWith (projectVarying proj) (splitChunks chunks rots) (splitChunks chunks dcs)).flatten)

noncomputable section

/-- What `get_patterns` uses of a master pattern: whether it is in the Lambert projection, the
point group of the phase (`none` if not set, else whether it contains inversion), whether there
are two hemispheres (`hemispheres.length = 2`), the hemispheres for each energy in order and the
data type. -/
structure MasterPattern where
  lambert : Bool
  inversion : Option Bool
  both : Bool
  /-- Energies along the energy axis with the array(s) for each energy: upper and, with
  `both`, lower. -/
  arrays : List (ℝ × Img ℝ × Img ℝ)
  dtype : DType

/-- `_is_suitable_for_projection(raise_if_not=True)` (`ebsd_master_pattern.py` L330-376). -/
def MasterPattern.checkSuitable (mp : MasterPattern) : Except Err Unit :=
  let e : Option Err := if !mp.lambert then some .notImplemented else none
  let e : Option Err := match mp.inversion with
    | none => some .attributeError
    | some inv => if !mp.both && !inv then some .attributeError else e
  match e with
  | some e => .error e
  | none => .ok ()

/-- The index of the energy closest to `e` (hyperspy's `value2index`, `argmin` of the
distances; a float index outside the axis raises in hyperspy and is not modelled). -/
def nearestEnergy (es : List ℝ) (e : ℝ) : ℕ :=
  (List.range es.length).foldl
    (fun b i => if |es.getD i 0 - e| < |es.getD b 0 - e| then i else b) 0

/-- `_get_master_pattern_arrays_from_energy` (`_kikuchi_master_pattern.py` L314-345). -/
def MasterPattern.arraysFromEnergy (mp : MasterPattern) (energy : Option ℝ) :
    Option (Img ℝ × Img ℝ) :=
  let pick : Option (ℝ × Img ℝ × Img ℝ) :=
    if mp.arrays.length > 1 then
      match energy with
      | none => mp.arrays.getLast?
      | some e => mp.arrays[nearestEnergy (mp.arrays.map Prod.fst) e]?
    else mp.arrays.head?
  pick.map (fun a => if mp.both then a.2 else (a.2.1, a.2.1))

/-- `get_patterns` (`ebsd_master_pattern.py` L187-328): intensities of each pattern, `m` is the
sample-to-detector matrix of the detector. -/
def MasterPattern.getPatterns (mp : MasterPattern) (rotShape : List ℕ) (rots : List Quat)
    (d : Detector ℝ) (m : M3) (energy : Option ℝ) (dtypeOut : DType) (chunks : List ℕ) :
    Except Err (List ℕ × List (Option (List ℝ))) :=
  match mp.checkSuitable with
  | .error e => .error e
  | .ok () =>
    if rotShape ≠ d.nav ∧ d.nav.headD 0 > 1 then .error .valueError
    else if rotShape.length > 2 then .error .valueError
    else
      let rescale := decide (dtypeOut ≠ mp.dtype)
      match (if rescale then dtypeRange dtypeOut else some (1, 2)), mp.arraysFromEnergy energy with
      | none, _ => .error .keyError
      | some _, none => .error .indexError
      | some r, some a =>
        getPatternsCore (fun rot dcs =>
            projectPattern rot a.1 a.2 a.1.cols a.1.rows (((a.1.cols : ℝ) - 1) / 2) dcs rescale r.1
              r.2 dtypeOut)
          rotShape rots d.nav (directionCosines d m none) chunks

end

end Kp
