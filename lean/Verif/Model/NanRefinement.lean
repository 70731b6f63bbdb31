import Verif.Model.Refine

/-
Refinement with scores that are not a number:
`/repo/src/kikuchipy/indexing/_refinement/{_objective_functions,_solvers,_refinement}.py` and
`_ncc_single_patterns_1d_float32_exp_centered` in
`/repo/src/kikuchipy/indexing/similarity_metrics/_normalized_cross_correlation.py`, as in
`Verif.Model.Refine` but with `none` for NaN where that model has 0 for 0 / 0.

Simplifications: those of `Verif.Model.Refine` otherwise. The functions are compiled with
`fastmath=True`, which leaves the result of 0 / 0 to the compiler; it is taken to be NaN, as for IEEE
754 arithmetic. Real arithmetic: a constant pattern has no rounding error after its mean is
subtracted.
-/

namespace Kp
noncomputable section

open scoped Classical in
/-- `_ncc_single_patterns_1d_float32_exp_centered` (`_normalized_cross_correlation.py` L200-225):
`np.divide` gives NaN if the denominator is zero, as then the numerator is zero, too. -/
def nccCenteredNan (exp sim : List ℝ) (expSquaredNorm : ℝ) : Option ℝ :=
  let sim' := sim.map (fun x => x - listMean sim)
  let den := Real.sqrt (expSquaredNorm * (sim'.map (fun x => x ^ 2)).sum)
  if den = 0 then none else some ((List.zipWith (· * ·) exp sim').sum / den)

/-- `_refine_orientation_objective_function` (`_objective_functions.py` L36-74). -/
def objectiveOriNan (exp : List ℝ × ℝ) (dc : List (V3 ℝ)) (mp : MasterData) (x : List ℝ) : Option ℝ :=
  let simulated := projectPattern (rotationFromEuler (x.getD 0 0) (x.getD 1 0) (x.getD 2 0))
    mp.upper mp.lower mp.npx mp.npy mp.scale dc false 0 1 (.float 32)
  (nccCenteredNan exp.1 simulated exp.2).map (1 - ·)

/-- `_refine_pc_objective_function` (`_objective_functions.py` L77-132). -/
def objectivePcNan (exp : List ℝ × ℝ) (rot : Quat) (mp : MasterData) (g : DetectorData)
    (x : List ℝ) : Option ℝ :=
  let dc := g.directionCosines (x.getD 0 0) (x.getD 1 0) (x.getD 2 0)
  let simulated := projectPattern rot mp.upper mp.lower mp.npx mp.npy mp.scale dc false 0 1
    (.float 32)
  (nccCenteredNan exp.1 simulated exp.2).map (1 - ·)

/-- `_refine_orientation_pc_objective_function` (`_objective_functions.py` L140-190). -/
def objectiveOriPcNan (exp : List ℝ × ℝ) (mp : MasterData) (g : DetectorData) (x : List ℝ) :
    Option ℝ :=
  let dc := g.directionCosines (x.getD 3 0) (x.getD 4 0) (x.getD 5 0)
  let simulated := projectPattern (rotationFromEuler (x.getD 0 0) (x.getD 1 0) (x.getD 2 0))
    mp.upper mp.lower mp.npx mp.npy mp.scale dc false 0 1 (.float 32)
  (nccCenteredNan exp.1 simulated exp.2).map (1 - ·)

/-- An optimizer of an objective function which may be NaN. -/
abbrev OptimizerNan :=
  (List ℝ → Option ℝ) → Option (List ℝ) → Option (List ℝ × List ℝ) → OptResult (Option ℝ) (List ℝ)

/-- `np.argmax`: the first NaN, or the first largest value if there is none. -/
def argmaxNan (l : List (Option ℝ)) : ℕ :=
  match l.findIdx? Option.isNone with
  | some i => i
  | none => argmaxFirst (l.map (·.getD 0))

/-- `np.argmin`: the first NaN, or the first smallest value if there is none. -/
def argminNan (l : List (Option ℝ)) : ℕ :=
  match l.findIdx? Option.isNone with
  | some i => i
  | none => argminFirst (l.map (·.getD 0))

/-- A row of results whose score may be NaN. -/
structure NanRow where
  score : Option ℝ
  nfev : ℕ
  x : List ℝ
  psIdx : Option ℕ

/-- The choice of the best result with SciPy (`_solvers.py` L239-247, L450-455). -/
def bestScipyNan (res : List (OptResult (Option ℝ) (List ℝ))) : Option NanRow :=
  let ncc := res.map (fun r => r.funVal.map (1 - ·))
  let best := argmaxNan ncc
  match res[best]?, ncc[best]? with
  | some r, some s => some ⟨s, r.nfev, r.x, some best⟩
  | _, _ => none

/-- The choice of the best result with NLopt (`_solvers.py` L531-537, L617-622). -/
def bestNloptNan (res : List (OptResult (Option ℝ) (List ℝ))) : Option NanRow :=
  let inv := res.map (fun r => r.funVal)
  let best := argminNan inv
  match res[best]?, inv[best]? with
  | some r, some s => some ⟨s.map (1 - ·), r.nfev, r.x, some best⟩
  | _, _ => none

/-- One call of the optimizer (`_solvers.py` L183-203 and similar); `k` says which method it is and
whether a trust region was passed. -/
def runNan (k : SolverKwargs) (opt : OptimizerNan) (f : List ℝ → Option ℝ) (x0 lower upper : List ℝ) :
    OptResult (Option ℝ) (List ℝ) :=
  opt f (startGiven k.method x0) (boundsGiven k.method k.trust (lower, upper))

/-- Single optimization (`_solvers.py` L182-208, L302-330, L394-420, L513-521, L563-575,
L601-609). -/
def solveSingleNan (k : SolverKwargs) (opt : OptimizerNan) (f : List ℝ → Option ℝ)
    (x0 lower upper : List ℝ) : NanRow :=
  let r := runNan k opt f x0 lower upper
  ⟨r.funVal.map (1 - ·), r.nfev, r.x, none⟩

/-- The optimization from starting point number `i` (`_solvers.py` L211-238). -/
def runAtNan (k : SolverKwargs) (opt : OptimizerNan) (f : List ℝ → Option ℝ)
    (starts lower upper : List (List ℝ)) (i : ℕ) : Option (OptResult (Option ℝ) (List ℝ)) :=
  match starts[i]?, lower[i]?, upper[i]? with
  | some x0, some l, some u => some (runNan k opt f x0 l u)
  | _, _, _ => none

/-- Optimization from each of the `nPs + 1` starting points and choice of the best one
(`_solvers.py` L209-247, L421-455, L522-542, L610-622); without operators, from the first. -/
def solveManyNan (k : SolverKwargs) (opt : OptimizerNan) (nPs : ℕ) (f : List ℝ → Option ℝ)
    (starts lower upper : List (List ℝ)) : Option NanRow :=
  if nPs = 0 then
    match starts[0]?, lower[0]?, upper[0]? with
    | some x0, some l, some u => some (solveSingleNan k opt f x0 l u)
    | _, _, _ => none
  else
    match allSome ((List.range (nPs + 1)).map (runAtNan k opt f starts lower upper)) with
    | none => none
    | some res => if k.method.isNlopt then bestNloptNan res else bestScipyNan res

/-- `_refine_orientation_solver_scipy` and `_nlopt` (`_solvers.py` L78-247, L461-542). -/
def oriSolverNan (k : SolverKwargs) (opt : OptimizerNan) (nPs : ℕ) (rescale : Bool) (mp : MasterData)
    (dc : List (V3 ℝ) ⊕ (DetectorData × PC ℝ)) (pattern : List ℝ)
    (starts lower upper : List (List ℝ)) : Option NanRow :=
  let dc := match dc with
    | .inl dc => dc
    | .inr (g, p) => g.directionCosines p.x p.y p.z
  solveManyNan k opt nPs (objectiveOriNan (preparePattern pattern rescale) dc mp) starts lower upper

/-- `_refine_pc_solver_scipy` and `_nlopt` (`_solvers.py` L250-330, L545-575). -/
def pcSolverNan (k : SolverKwargs) (opt : OptimizerNan) (rescale : Bool) (mp : MasterData)
    (g : DetectorData) (pattern : List ℝ) (rot : Quat) (pc lower upper : List ℝ) : NanRow :=
  solveSingleNan k opt (objectivePcNan (preparePattern pattern rescale) rot mp g) pc lower upper

/-- `_refine_orientation_pc_solver_scipy` and `_nlopt` (`_solvers.py` L333-455, L578-622). -/
def oriPcSolverNan (k : SolverKwargs) (opt : OptimizerNan) (nPs : ℕ) (rescale : Bool)
    (mp : MasterData) (g : DetectorData) (pattern : List ℝ) (starts lower upper : List (List ℝ)) :
    Option NanRow :=
  solveManyNan k opt nPs (objectiveOriPcNan (preparePattern pattern rescale) mp g) starts lower upper

/-- `_refine_orientation` (`_refinement.py` L340-425) until the results are computed, with the
optimizer `opt` in place of that in `a`. -/
def refineOrientationNan (a : RefineArgs) (opt : OptimizerNan)
    (starts lower upper : List (List (List ℝ))) : Except Err (List (Option NanRow)) :=
  match a.mp.refinementData a.energy with
  | none => .error .indexError
  | some mp =>
    if a.uniquePc then
      .ok (mapBlocks5 (fun p s l u pc =>
          oriSolverNan a.solver opt a.nPs a.rescale mp (.inr (a.detectorData, pc)) p s l u)
        a.chunks a.prepared starts lower upper a.pcs)
    else
      let dc := (directionCosines a.det a.m (some a.detectorData.mask)).getD 0 []
      .ok (mapBlocks4 (fun p s l u =>
          oriSolverNan a.solver opt a.nPs a.rescale mp (.inl dc) p s l u)
        a.chunks a.prepared starts lower upper)

/-- `_refine_pc` (`_refinement.py` L577-639) until the results are computed. -/
def refinePcNan (a : RefineArgs) (opt : OptimizerNan) (rots : List Quat)
    (lower upper : List (List ℝ)) : Except Err (List (Option NanRow)) :=
  match a.mp.refinementData a.energy with
  | none => .error .indexError
  | some mp =>
    .ok (mapBlocks5 (fun p q (pc : PC ℝ) l u =>
        some (pcSolverNan a.solver opt a.rescale mp a.detectorData p q [pc.x, pc.y, pc.z] l u))
      a.chunks a.prepared rots a.pcs lower upper)

/-- `_refine_orientation_pc` (`_refinement.py` L709-770) until the results are computed. -/
def refineOrientationPcNan (a : RefineArgs) (opt : OptimizerNan)
    (starts lower upper : List (List (List ℝ))) : Except Err (List (Option NanRow)) :=
  match a.mp.refinementData a.energy with
  | none => .error .indexError
  | some mp =>
    let rotPc := List.zipWith (fun (s : List (List ℝ)) (p : PC ℝ) => s.map (· ++ [p.x, p.y, p.z]))
      starts a.pcs
    .ok (mapBlocks4 (fun p s l u =>
        oriPcSolverNan a.solver opt a.nPs a.rescale mp a.detectorData p s l u)
      a.chunks a.prepared rotPc lower upper)

end

end Kp
