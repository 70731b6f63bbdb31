import Verif.Model.Refine

/-
Model of the refinement of blocks of patterns by several threads:
`/repo/src/kikuchipy/indexing/_refinement/_solvers.py` L180-203, L302-324, L391-414 and the calls of
`da.map_blocks` with `solver_kwargs` in `_refinement.py` L391-424, L617-626, L752-761.

The SciPy solvers write to the dictionary `method_kwargs` of `solver_kwargs` before they call the
optimizer, which is given the contents of the dictionary. Between the two, other threads may run.
Whether blocks get the same dictionary or one each is up to Dask, and is a parameter here. NLopt
optimizers are copied for each block (`_refinement.py` L531, L683, L826), so nothing is shared.

Simplifications: one optimization for each pattern, no pseudo-symmetry operators. Writing to the
dictionary, and the call including the reading of the dictionary, are single steps. The user gives
no `bounds` and no `args` in `method_kwargs`.
-/

namespace Kp
noncomputable section

/-- The optimization for one pattern: its position in the results, objective function, starting point
and bounds. -/
structure SolverTask where
  idx : ℕ
  f : List ℝ → ℝ
  x0 : List ℝ
  lower : List ℝ
  upper : List ℝ

/-- What solvers change in the dictionary: `method_kwargs["bounds"]` and
`method_kwargs["minimizer_kwargs"]["args"]`. The latter are the arguments of the objective function,
and stand for the function here. -/
structure SharedKwargs where
  bounds : Option (List ℝ × List ℝ)
  args : Option (List ℝ → ℝ)

/-- The change of the dictionary before the call (`_solvers.py` L182-183, L198, L303-304, L319,
L393-394, L409). -/
def SolverKwargs.put (k : SolverKwargs) (t : SolverTask) (d : SharedKwargs) : SharedKwargs :=
  match k.method with
  | .minimize => if k.trust then { d with bounds := some (t.lower, t.upper) } else d
  | .basinhopping => { d with args := some t.f }
  | _ => d

/-- The call of the optimizer (`_solvers.py` L184-203, L305-324, L395-414). -/
def SolverKwargs.call (k : SolverKwargs) (t : SolverTask) (d : SharedKwargs) :
    OptResult ℝ (List ℝ) :=
  match k.method with
  | .minimize => k.opt t.f (some t.x0) d.bounds
  | .basinhopping => k.opt (d.args.getD fun _ => 0) (some t.x0) none
  | m => k.opt t.f (startGiven m t.x0) (boundsGiven m k.trust (t.lower, t.upper))

/-- A block: optimizations still to be done, and whether the dictionary was changed for the first of
them. -/
structure RefineBlock where
  todo : List SolverTask
  written : Bool

/-- Dictionaries, blocks and results. -/
structure RefineState (n : ℕ) where
  dicts : ℕ → SharedKwargs
  blocks : Fin n → RefineBlock
  results : ℕ → Option (OptResult ℝ (List ℝ))

/-- A step of some block, which uses dictionary number `dict i`. -/
inductive RefineStep {n : ℕ} (k : SolverKwargs) (dict : Fin n → ℕ) :
    RefineState n → RefineState n → Prop
  | put (s : RefineState n) (i : Fin n) (t : SolverTask) (l : List SolverTask)
      (h : s.blocks i = ⟨t :: l, false⟩) :
      RefineStep k dict s
        ⟨Function.update s.dicts (dict i) (k.put t (s.dicts (dict i))),
          Function.update s.blocks i ⟨t :: l, true⟩, s.results⟩
  | call (s : RefineState n) (i : Fin n) (t : SolverTask) (l : List SolverTask)
      (h : s.blocks i = ⟨t :: l, true⟩) :
      RefineStep k dict s
        ⟨s.dicts, Function.update s.blocks i ⟨l, false⟩,
          Function.update s.results t.idx (some (k.call t (s.dicts (dict i))))⟩

/-- A run of a number of steps, of any blocks in any order. -/
inductive RefineRun {n : ℕ} (k : SolverKwargs) (dict : Fin n → ℕ) :
    ℕ → RefineState n → RefineState n → Prop
  | refl (s : RefineState n) : RefineRun k dict 0 s s
  | tail (m : ℕ) (s t u : RefineState n) (h : RefineRun k dict m s t) (st : RefineStep k dict t u) :
      RefineRun k dict (m + 1) s u

/-- The start: no results, and dictionaries as prepared. -/
def refineStart {n : ℕ} (work : Fin n → List SolverTask) : RefineState n :=
  ⟨fun _ => ⟨none, none⟩, fun i => ⟨work i, false⟩, fun _ => none⟩

/-- All blocks are done. -/
def RefineState.Done {n : ℕ} (s : RefineState n) : Prop := ∀ i, (s.blocks i).todo = []

end
end Kp
