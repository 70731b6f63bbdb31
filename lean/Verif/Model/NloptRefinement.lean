import Verif.Model.Refine

/-
Model of the NLopt optimizer of a refinement, which is one object with a changing state:
`set_optimization_parameters` in `/repo/src/kikuchipy/indexing/_refinement/_refinement.py` L1053-1120,
the loops over the patterns of a block (L504-571, L670-699, L811-845) and the solvers in
`_refinement/_solvers.py` L464-622.

A block copies the optimizer it is given (L531, L683, L826) and uses the copy for all its patterns: it
sets the objective function and bounds, runs the optimizer and then asks it for the value and the number
of evaluations of the last run. Blocks are run by several threads; each of these operations is one step
here, and steps of blocks are interleaved in any order. Objects are kept by their address.

Simplifications: `optimize` looks at the state of the object when it is called (the objective function
and bounds can only be changed through the same object). The starting points and bounds of a pattern
are given as one list, one for each pseudo-symmetry operator and the one without. The result without
operators is the best of one. NLopt moves a lower bound to an upper bound if they differ by less than the
smallest normal number; this is left out.
-/

namespace Kp
noncomputable section

/-- What an optimizer is made with. -/
structure NloptSettings where
  algorithm : String
  dim : ℕ
  rtol : ℝ
  steps : Option (List ℝ)
  maxeval : Option ℕ

/-- The optimizer made by `set_optimization_parameters` (`_refinement.py` L1081-1120) for methods of
NLopt; `none` for those of SciPy. The name of the algorithm is `method.upper()`; a missing package is an
`ImportError` (`valueError` here, as in `refineCall`). -/
def nloptSettings (mode : RMode) (method : String) (installed : Bool) (rtol : ℝ)
    (initialStep : Option (List ℝ)) (maxeval : Option ℕ) : Except Err (Option NloptSettings) :=
  match OptMethod.ofString method with
  | none => .error .valueError
  | some m =>
    if m.isNlopt then
      if installed = false then .error .valueError
      else match initialStep with
        | none => .ok (some ⟨method.toUpper, mode.nControl, rtol, none, maxeval⟩)
        | some s =>
          match initialSteps mode s with
          | .error e => .error e
          | .ok s => .ok (some ⟨method.toUpper, mode.nControl, rtol, some s, maxeval⟩)
    else .ok none

/-- What the optimization depends on besides the starting point. -/
structure NloptProblem where
  settings : NloptSettings
  lower : Option (List ℝ)
  upper : Option (List ℝ)
  objective : List ℝ → ℝ

/-- `opt.optimize`: the result, or an exception (a starting point out of bounds, for instance). -/
abbrev NloptAlgorithm := NloptProblem → List ℝ → Except Err (OptResult ℝ (List ℝ))

/-- An optimizer object. -/
structure NloptObject where
  settings : NloptSettings
  lower : Option (List ℝ)
  upper : Option (List ℝ)
  objective : Option (List ℝ → ℝ)
  lastValue : ℝ
  numEvals : ℕ

/-- `nlopt.opt(method, n)` with the settings: nothing else is set. -/
def NloptObject.new (s : NloptSettings) : NloptObject := ⟨s, none, none, none, 0, 0⟩

/-- A starting point with its bounds. -/
structure NloptStart where
  x0 : List ℝ
  lower : List ℝ
  upper : List ℝ

/-- A pattern: its objective function and starting points. -/
structure NloptPoint where
  objective : List ℝ → ℝ
  starts : List NloptStart

/-- Operations of a solver. -/
inductive NloptInstr
  | setObjective (f : List ℝ → ℝ)
  | setLower (b : List ℝ)
  | setUpper (b : List ℝ)
  | optimize (x0 : List ℝ)
  | readValue
  | readEvals
  | report

/-- Setting the bounds (`_solvers.py` L508-510, L523-525, L556-558, L594-596, L609-611). -/
def boundInstrs (trust : Bool) (s : NloptStart) : List NloptInstr :=
  if trust then [.setLower s.lower, .setUpper s.upper] else []

/-- Running the optimizer and reading its state (`_solvers.py` L512-514, L527-529, L563-565, L598-600,
L613-615). -/
def runInstrs (s : NloptStart) : List NloptInstr := [.optimize s.x0, .readValue, .readEvals]

/-- The operations of `_refine_orientation_solver_nlopt` and `_refine_orientation_pc_solver_nlopt`
(`_solvers.py` L500-536, L586-622), which set the objective function once, and of
`_refine_pc_solver_nlopt` (L549-567), which sets it after the bounds. -/
def pointProgram (mode : RMode) (trust : Bool) (p : NloptPoint) : List NloptInstr :=
  match mode with
  | .pc => p.starts.flatMap (fun s => boundInstrs trust s ++ .setObjective p.objective :: runInstrs s)
      ++ [.report]
  | _ => .setObjective p.objective :: p.starts.flatMap (fun s => boundInstrs trust s ++ runInstrs s)
      ++ [.report]

/-- The variables `eu_all`, `ncc_inv_all` and `num_evals_all` of a solver (`_solvers.py` L518-521,
L604-607). -/
structure NloptLocals where
  xs : List (List ℝ)
  vals : List ℝ
  evals : List ℕ

/-- One operation on an optimizer (`ps`: there are pseudo-symmetry operators): the optimizer and
variables afterwards, and the row of results if the pattern is done (`_solvers.py` L531-536, L617-622). -/
def nloptExec (alg : NloptAlgorithm) (ps : Bool) (o : NloptObject) (l : NloptLocals) :
    NloptInstr → Except Err (NloptObject × NloptLocals × List RefineRow)
  | .setObjective f => .ok ({ o with objective := some f }, l, [])
  | .setLower b => .ok ({ o with lower := some b }, l, [])
  | .setUpper b => .ok ({ o with upper := some b }, l, [])
  | .optimize x0 =>
    match o.objective with
    | none => .error .valueError
    | some f =>
      match alg ⟨o.settings, o.lower, o.upper, f⟩ x0 with
      | .error e => .error e
      | .ok r => .ok ({ o with lastValue := r.funVal, numEvals := r.nfev },
          { l with xs := l.xs ++ [r.x] }, [])
  | .readValue => .ok (o, { l with vals := l.vals ++ [o.lastValue] }, [])
  | .readEvals => .ok (o, { l with evals := l.evals ++ [o.numEvals] }, [])
  | .report =>
    let best := argminFirst l.vals
    .ok (o, ⟨[], [], []⟩, [⟨1 - l.vals.getD best 0, l.evals.getD best 0, l.xs.getD best [],
      if ps then some best else none⟩])

/-- A block: the address of its optimizer once it is copied, operations still to be done, variables,
rows of `results` done, and the exception that ended it. -/
structure NloptBlock where
  addr : Option ℕ
  todo : List NloptInstr
  vars : NloptLocals
  rows : List RefineRow
  failed : Option Err

/-- Optimizers by address, the next free address and the blocks. -/
structure NloptState (n : ℕ) where
  heap : ℕ → NloptObject
  next : ℕ
  blocks : Fin n → NloptBlock

/-- A step of some block: copying the optimizer given to all blocks, which has address 0
(`opt = nlopt.opt(opt)`, `_refinement.py` L531, L683, L826), or an operation on its copy. -/
inductive NloptStep {n : ℕ} (alg : NloptAlgorithm) (ps : Bool) : NloptState n → NloptState n → Prop
  | copy (s : NloptState n) (i : Fin n) (h : (s.blocks i).addr = none) :
      NloptStep alg ps s ⟨Function.update s.heap s.next (s.heap 0), s.next + 1,
        Function.update s.blocks i { (s.blocks i) with addr := some s.next }⟩
  | exec (s : NloptState n) (i : Fin n) (a : ℕ) (c : NloptInstr) (l : List NloptInstr)
      (h : (s.blocks i).addr = some a) (ht : (s.blocks i).todo = c :: l)
      (hf : (s.blocks i).failed = none) (o : NloptObject) (v : NloptLocals) (r : List RefineRow)
      (he : nloptExec alg ps (s.heap a) (s.blocks i).vars c = .ok (o, v, r)) :
      NloptStep alg ps s ⟨Function.update s.heap a o, s.next,
        Function.update s.blocks i ⟨some a, l, v, (s.blocks i).rows ++ r, none⟩⟩
  | fail (s : NloptState n) (i : Fin n) (a : ℕ) (c : NloptInstr) (l : List NloptInstr)
      (h : (s.blocks i).addr = some a) (ht : (s.blocks i).todo = c :: l)
      (hf : (s.blocks i).failed = none) (e : Err)
      (he : nloptExec alg ps (s.heap a) (s.blocks i).vars c = .error e) :
      NloptStep alg ps s ⟨s.heap, s.next,
        Function.update s.blocks i { (s.blocks i) with failed := some e }⟩

/-- A run of a number of steps. -/
inductive NloptRun {n : ℕ} (alg : NloptAlgorithm) (ps : Bool) :
    ℕ → NloptState n → NloptState n → Prop
  | refl (s : NloptState n) : NloptRun alg ps 0 s s
  | tail (m : ℕ) (s t u : NloptState n) (h : NloptRun alg ps m s t) (st : NloptStep alg ps t u) :
      NloptRun alg ps (m + 1) s u

/-- The start: one optimizer, and each block has the patterns of its chunk to refine. -/
def nloptStart {n : ℕ} (settings : NloptSettings) (mode : RMode) (trust : Bool)
    (work : Fin n → List NloptPoint) : NloptState n :=
  ⟨fun _ => .new settings, 1,
    fun i => ⟨none, (work i).flatMap (pointProgram mode trust), ⟨[], [], []⟩, [], none⟩⟩

/-- All blocks have ended. -/
def NloptState.Done {n : ℕ} (s : NloptState n) : Prop :=
  ∀ i, (s.blocks i).addr ≠ none ∧ ((s.blocks i).failed ≠ none ∨ (s.blocks i).todo = [])

end
end Kp
