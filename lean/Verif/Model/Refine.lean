import Verif.Model.GetPatterns
import Verif.Model.RefinementSetup
import Verif.Model.DictionaryIndexing
import Verif.Model.EbsdDirectory
import Verif.Model.ExtrapolatePc

/-
Objective functions, solvers and loops over chunks of refinement:
`/repo/src/kikuchipy/indexing/_refinement/{_objective_functions,_solvers,_refinement}.py`,
`_prepare_patterns_for_refinement` in `/repo/src/kikuchipy/signals/ebsd.py` and
`/repo/src/kikuchipy/_utils/_gnonomic_bounds.py`.

Simplifications: real arithmetic, with 0 for 0 / 0 where NumPy gives NaN (the score of a constant
pattern). Optimizers of SciPy and NLopt are arbitrary functions of the objective function, starting
point and bounds, without state. Conversion of rotations to Euler angles by orix is not modelled:
the starting points are given. Patterns, hemispheres and direction cosines are lists or images of
real numbers.
-/

namespace Kp
noncomputable section

/-! ### Patterns -/

/-- `_prepare_patterns_for_refinement` (`ebsd.py` L3009-3023): the flattened patterns of the points
to refine without the pixels masked out, and the mask with `True` for pixels to use. -/
def patternsForRefinement (patterns : List (List ℝ)) (points : List Bool)
    (signalMask : Option (List Bool)) (sigSize : ℕ) : List (List ℝ) × List Bool :=
  let ps := if points.all id then patterns else selectMask points patterns
  match signalMask with
  | none => (ps, List.replicate sigSize true)
  | some m =>
    let keep := m.map (fun b => !b)
    (ps.map (selectMask keep), keep)

/-- `_prepare_pattern` (`_solvers.py` L50-72), with `_rescale_without_min_max_1d_float32` and
`_zero_mean_sum_square_1d_float32` (`pattern/_pattern.py` L125-139). -/
def preparePattern (pattern : List ℝ) (rescale : Bool) : List ℝ × ℝ :=
  let p := if rescale then rescaleWithMinMax pattern (listMin pattern) (listMax pattern) (-1) 1
    else pattern
  let p' := p.map (fun x => x - listMean p)
  (p', (p'.map (fun x => x ^ 2)).sum)

/-- `_ncc_single_patterns_1d_float32_exp_centered` (`_normalized_cross_correlation.py`
L200-225). -/
def nccExpCentered (exp sim : List ℝ) (expSquaredNorm : ℝ) : ℝ :=
  let sim' := sim.map (fun x => x - listMean sim)
  (List.zipWith (· * ·) exp sim').sum /
    Real.sqrt (expSquaredNorm * (sim'.map (fun x => x ^ 2)).sum)

/-! ### Fixed parameters -/

/-- `rescale_intensity(img, dtype_out=np.float32)`: to the range [-1, 1] of the data type
(`pattern/_pattern.py` L36-93). -/
def Img.rescaleSigned (img : Img ℝ) : Img ℝ :=
  img.mapVal (rescalePixel (listMin img.pixels) (listMax img.pixels) (-1) 1)

/-- The hemispheres, their shape and the scale given to the objective functions. -/
structure MasterData where
  upper : Img ℝ
  lower : Img ℝ
  npx : ℤ
  npy : ℤ
  scale : ℝ

/-- `_get_master_pattern_data` (`_refinement.py` L1288-1320). -/
def MasterPattern.refinementData (mp : MasterPattern) (energy : Option ℝ) : Option MasterData :=
  match mp.arraysFromEnergy energy with
  | none => none
  | some (u, l) =>
    let ul := if mp.dtype ≠ .float 32 then (u.rescaleSigned, l.rescaleSigned) else (u, l)
    some ⟨ul.1, ul.2, u.cols, u.rows, ((u.cols : ℝ) - 1) / 2⟩

/-- `get_gnomonic_bounds` (`_utils/_gnonomic_bounds.py` L25-65). -/
def getGnomonicBounds (nrows ncols : ℕ) (pcx pcy pcz : ℝ) : ℝ × ℝ × ℝ × ℝ :=
  let aspectRatio : ℝ := (ncols : ℝ) / nrows
  (-aspectRatio * (pcx / pcz), aspectRatio * (1 - pcx) / pcz, -(1 - pcy) / pcz, pcy / pcz)

/-- What of the detector is fixed during refinement: signal mask (`True` for pixels to use), shape
and orientation matrix from the detector to the sample. -/
structure DetectorData where
  mask : List Bool
  nrows : ℕ
  ncols : ℕ
  om : M3

/-- Direction cosines of the pixels to use for a projection center, as computed in two objective
functions and in the orientation solvers (`_objective_functions.py` L110-119, L165-174,
`_solvers.py` L165-175, L493-503). -/
def DetectorData.directionCosines (g : DetectorData) (pcx pcy pcz : ℝ) : List (V3 ℝ) :=
  directionCosinesFixed (getGnomonicBounds g.nrows g.ncols pcx pcy pcz) pcz g.nrows g.ncols g.om
    g.mask

/-! ### Objective functions -/

/-- `_refine_orientation_objective_function` (`_objective_functions.py` L36-74). -/
def objectiveOri (exp : List ℝ × ℝ) (dc : List (V3 ℝ)) (mp : MasterData) (x : List ℝ) : ℝ :=
  let simulated := projectPattern (rotationFromEuler (x.getD 0 0) (x.getD 1 0) (x.getD 2 0))
    mp.upper mp.lower mp.npx mp.npy mp.scale dc false 0 1 (.float 32)
  1 - nccExpCentered exp.1 simulated exp.2

/-- `_refine_pc_objective_function` (`_objective_functions.py` L77-132). -/
def objectivePc (exp : List ℝ × ℝ) (rot : Quat) (mp : MasterData) (g : DetectorData)
    (x : List ℝ) : ℝ :=
  let dc := g.directionCosines (x.getD 0 0) (x.getD 1 0) (x.getD 2 0)
  let simulated := projectPattern rot mp.upper mp.lower mp.npx mp.npy mp.scale dc false 0 1
    (.float 32)
  1 - nccExpCentered exp.1 simulated exp.2

/-- `_refine_orientation_pc_objective_function` (`_objective_functions.py` L140-190). -/
def objectiveOriPc (exp : List ℝ × ℝ) (mp : MasterData) (g : DetectorData) (x : List ℝ) : ℝ :=
  let dc := g.directionCosines (x.getD 3 0) (x.getD 4 0) (x.getD 5 0)
  let simulated := projectPattern (rotationFromEuler (x.getD 0 0) (x.getD 1 0) (x.getD 2 0))
    mp.upper mp.lower mp.npx mp.npy mp.scale dc false 0 1 (.float 32)
  1 - nccExpCentered exp.1 simulated exp.2

/-! ### Solvers -/

/-- An optimizer: objective function, starting point if it takes one, bounds if it gets any. -/
abbrev Optimizer :=
  (List ℝ → ℝ) → Option (List ℝ) → Option (List ℝ × List ℝ) → OptResult ℝ (List ℝ)

/-- Methods that get a starting point (`_solvers.py` L183-203 and similar). -/
def startGiven (m : OptMethod) (x0 : List ℝ) : Option (List ℝ) :=
  match m with
  | .minimize | .lnNelderMead | .basinhopping => some x0
  | .differentialEvolution | .dualAnnealing | .shgo => none

/-- A row of results: score, number of evaluations, control variables and, with pseudo-symmetry
operators, the index of the best starting point. -/
structure RefineRow where
  score : ℝ
  nfev : ℕ
  x : List ℝ
  psIdx : Option ℕ

/-- The method, whether a trust region was passed and the optimizer. -/
structure SolverKwargs where
  method : OptMethod
  trust : Bool
  opt : Optimizer

/-- One call of the optimizer. -/
def SolverKwargs.run (k : SolverKwargs) (f : List ℝ → ℝ) (x0 lower upper : List ℝ) :
    OptResult ℝ (List ℝ) :=
  k.opt f (startGiven k.method x0) (boundsGiven k.method k.trust (lower, upper))

/-- Single optimization, without pseudo-symmetry operators (`_solvers.py` L182-208, L302-330,
L394-420, L513-521, L563-575, L601-609). -/
def solveSingle (k : SolverKwargs) (f : List ℝ → ℝ) (x0 lower upper : List ℝ) : RefineRow :=
  let r := k.run f x0 lower upper
  ⟨1 - r.funVal, r.nfev, r.x, none⟩

/-- The optimization from starting point number `i` (`_solvers.py` L211-238). -/
def SolverKwargs.runAt (k : SolverKwargs) (f : List ℝ → ℝ) (starts lower upper : List (List ℝ))
    (i : ℕ) : Option (OptResult ℝ (List ℝ)) :=
  match starts[i]?, lower[i]?, upper[i]? with
  | some x0, some l, some u => some (k.run f x0 l u)
  | _, _, _ => none

/-- Optimization from each of the `nPs + 1` starting points and choice of the best one
(`_solvers.py` L209-247, L421-455, L522-542, L610-622); without operators, from the first.
`none` stands for `IndexError`. -/
def solveMany (k : SolverKwargs) (nPs : ℕ) (f : List ℝ → ℝ) (starts lower upper : List (List ℝ)) :
    Option RefineRow :=
  if nPs = 0 then
    match starts[0]?, lower[0]?, upper[0]? with
    | some x0, some l, some u => some (solveSingle k f x0 l u)
    | _, _, _ => none
  else
    match allSome ((List.range (nPs + 1)).map (k.runAt f starts lower upper)) with
    | none => none
    | some res =>
      (if k.method.isNlopt then bestNlopt res else bestScipy res).map
        (fun b => ⟨b.1, b.2.1, b.2.2.1, some b.2.2.2⟩)

/-- `_refine_orientation_solver_scipy` and `_nlopt` (`_solvers.py` L78-247, L461-542) with the
direction cosines `dc`, or with those for the PC if there are none. -/
def oriSolver (k : SolverKwargs) (nPs : ℕ) (rescale : Bool) (mp : MasterData)
    (dc : List (V3 ℝ) ⊕ (DetectorData × PC ℝ)) (pattern : List ℝ)
    (starts lower upper : List (List ℝ)) : Option RefineRow :=
  let dc := match dc with
    | .inl dc => dc
    | .inr (g, p) => g.directionCosines p.x p.y p.z
  solveMany k nPs (objectiveOri (preparePattern pattern rescale) dc mp) starts lower upper

/-- `_refine_pc_solver_scipy` and `_nlopt` (`_solvers.py` L250-330, L545-575). -/
def pcSolver (k : SolverKwargs) (rescale : Bool) (mp : MasterData) (g : DetectorData)
    (pattern : List ℝ) (rot : Quat) (pc lower upper : List ℝ) : RefineRow :=
  solveSingle k (objectivePc (preparePattern pattern rescale) rot mp g) pc lower upper

/-- `_refine_orientation_pc_solver_scipy` and `_nlopt` (`_solvers.py` L333-455, L578-622). -/
def oriPcSolver (k : SolverKwargs) (nPs : ℕ) (rescale : Bool) (mp : MasterData) (g : DetectorData)
    (pattern : List ℝ) (starts lower upper : List (List ℝ)) : Option RefineRow :=
  solveMany k nPs (objectiveOriPc (preparePattern pattern rescale) mp g) starts lower upper

/-! ### Loops over chunks -/

/-- The loop `for i in range(nav_size): results[i] = solver(...)` over four arrays of a chunk
(`_refinement.py` L487-498, L552-564, L786-793, L834-843). `none` stands for `IndexError`. -/
def chunkLoop4 {A B C D R : Type} (f : A → B → C → D → Option R) (a : List A) (b : List B)
    (c : List C) (d : List D) : List (Option R) :=
  (List.range a.length).map (fun i =>
    match a[i]?, b[i]?, c[i]?, d[i]? with
    | some a, some b, some c, some d => f a b c d
    | _, _, _, _ => none)

/-- The same over five arrays (`_refinement.py` L470-485, L533-550, L661-668, L693-702). -/
def chunkLoop5 {A B C D E R : Type} (f : A → B → C → D → E → Option R) (a : List A) (b : List B)
    (c : List C) (d : List D) (e : List E) : List (Option R) :=
  (List.range a.length).map (fun i =>
    match a[i]?, b[i]?, c[i]?, d[i]?, e[i]? with
    | some a, some b, some c, some d, some e => f a b c d e
    | _, _, _, _, _ => none)

/-- `da.map_blocks` over four arrays with the same chunks, followed by joining the results. -/
def mapBlocks4 {A B C D R : Type} (f : A → B → C → D → Option R) (chunks : List ℕ) (a : List A)
    (b : List B) (c : List C) (d : List D) : List (Option R) :=
  ((List.range chunks.length).map (fun k =>
    chunkLoop4 f ((splitChunks chunks a).getD k []) ((splitChunks chunks b).getD k [])
      ((splitChunks chunks c).getD k []) ((splitChunks chunks d).getD k []))).flatten

/-- `da.map_blocks` over five arrays with the same chunks. -/
def mapBlocks5 {A B C D E R : Type} (f : A → B → C → D → E → Option R) (chunks : List ℕ)
    (a : List A) (b : List B) (c : List C) (d : List D) (e : List E) : List (Option R) :=
  ((List.range chunks.length).map (fun k =>
    chunkLoop5 f ((splitChunks chunks a).getD k []) ((splitChunks chunks b).getD k [])
      ((splitChunks chunks c).getD k []) ((splitChunks chunks d).getD k [])
      ((splitChunks chunks e).getD k []))).flatten

/-! ### Refinement -/

/-- Arguments common to the three kinds of refinement: patterns (flattened, one per map point) with
their data type, points to refine, signal mask (`True` for pixels to leave out), detector with its
sample-to-detector matrix, master pattern, energy, the optimizer, number of pseudo-symmetry operators
and the chunks of the patterns to refine. -/
structure RefineArgs where
  patterns : List (List ℝ)
  dtype : DType
  points : List Bool
  signalMask : Option (List Bool)
  det : Detector ℝ
  m : M3
  mp : MasterPattern
  energy : Option ℝ
  solver : SolverKwargs
  nPs : ℕ
  chunks : List ℕ

/-- `detector.navigation_size > 1` (`_refinement.py` L983). -/
def RefineArgs.uniquePc (a : RefineArgs) : Bool := decide (1 < a.det.nav.prod)

/-- `solver_kwargs["rescale"] = patterns.dtype == np.float32` (`_refinement.py` L958). -/
def RefineArgs.rescale (a : RefineArgs) : Bool := decide (a.dtype = .float 32)

/-- The projection centers of the points to refine (`_refinement.py` L980-994). -/
def RefineArgs.pcs (a : RefineArgs) : List (PC ℝ) :=
  if a.uniquePc then selectMask a.points a.det.pc
  else List.replicate (a.points.count true) (a.det.pc.getD 0 ⟨0, 0, 0⟩)

/-- `set_fixed_parameters` (`_refinement.py` L1141-1176): what is kept of the detector. -/
def RefineArgs.detectorData (a : RefineArgs) : DetectorData :=
  ⟨(patternsForRefinement a.patterns a.points a.signalMask (a.det.nrows * a.det.ncols)).2,
    a.det.nrows, a.det.ncols, a.m.transpose⟩

/-- The prepared patterns. -/
def RefineArgs.prepared (a : RefineArgs) : List (List ℝ) :=
  (patternsForRefinement a.patterns a.points a.signalMask (a.det.nrows * a.det.ncols)).1

/-- `_refine_orientation` (`_refinement.py` L340-425) until the results are computed. `starts` are
the Euler angles, `lower` and `upper` the bounds for each point to refine (and, on the second axis,
each pseudo-symmetry operator). -/
def refineOrientation (a : RefineArgs) (starts lower upper : List (List (List ℝ))) :
    Except Err (List (Option RefineRow)) :=
  match a.mp.refinementData a.energy with
  | none => .error .indexError
  | some mp =>
    if a.uniquePc then
      .ok (mapBlocks5 (fun p s l u pc =>
          oriSolver a.solver a.nPs a.rescale mp (.inr (a.detectorData, pc)) p s l u)
        a.chunks a.prepared starts lower upper a.pcs)
    else
      let dc := (directionCosines a.det a.m (some a.detectorData.mask)).getD 0 []
      .ok (mapBlocks4 (fun p s l u => oriSolver a.solver a.nPs a.rescale mp (.inl dc) p s l u)
        a.chunks a.prepared starts lower upper)

/-- `_refine_pc` (`_refinement.py` L577-639) until the results are computed. -/
def refinePc (a : RefineArgs) (rots : List Quat) (lower upper : List (List ℝ)) :
    Except Err (List (Option RefineRow)) :=
  match a.mp.refinementData a.energy with
  | none => .error .indexError
  | some mp =>
    .ok (mapBlocks5 (fun p q (pc : PC ℝ) l u =>
        some (pcSolver a.solver a.rescale mp a.detectorData p q [pc.x, pc.y, pc.z] l u))
      a.chunks a.prepared rots a.pcs lower upper)

/-- `_refine_orientation_pc` (`_refinement.py` L709-770) until the results are computed. `starts` are
the Euler angles; the PC is the same for all pseudo-symmetry operators (L996-1008). -/
def refineOrientationPc (a : RefineArgs) (starts lower upper : List (List (List ℝ))) :
    Except Err (List (Option RefineRow)) :=
  match a.mp.refinementData a.energy with
  | none => .error .indexError
  | some mp =>
    let rotPc := List.zipWith (fun (s : List (List ℝ)) (p : PC ℝ) => s.map (· ++ [p.x, p.y, p.z]))
      starts a.pcs
    .ok (mapBlocks4 (fun p s l u => oriPcSolver a.solver a.nPs a.rescale mp a.detectorData p s l u)
      a.chunks a.prepared rotPc lower upper)

end

end Kp
