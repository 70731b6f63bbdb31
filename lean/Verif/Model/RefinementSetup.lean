import Mathlib.Analysis.SpecialFunctions.Trigonometric.Basic
import Verif.Model.Base
import Verif.Model.Rescale

/-
Bounds, optimization methods and class-level state of refinement:
`/repo/src/kikuchipy/indexing/_refinement/_refinement.py` (`_RefinementSetup` L851-1285) and
`/repo/src/kikuchipy/indexing/_refinement/_solvers.py`.

Simplifications: real arithmetic. dask is taken to rebuild dictionaries given as keyword
arguments to `map_blocks`, so that solvers get copies of `solver_kwargs` (see DESIGN.md).
-/

namespace Kp

/-- What is refined (`mode`). -/
inductive RMode
  | ori
  | pc
  | oriPc
  deriving DecidableEq, Repr

/-- `SUPPORTED_OPTIMIZATION_METHODS` (`_refinement/__init__.py` L32-64). -/
inductive OptMethod
  | minimize
  | lnNelderMead
  | basinhopping
  | differentialEvolution
  | dualAnnealing
  | shgo
  deriving DecidableEq, Repr

/-- `SUPPORTED_OPTIMIZATION_METHODS[method]["supports_bounds"]`. -/
def OptMethod.supportsBounds : OptMethod → Bool
  | .basinhopping => false
  | _ => true

/-- `SUPPORTED_OPTIMIZATION_METHODS[method]["package"] == "nlopt"`. -/
def OptMethod.isNlopt : OptMethod → Bool
  | .lnNelderMead => true
  | _ => false

/-- `method.lower()` looked up among the supported methods (`_refinement.py` L1081-1088). -/
def OptMethod.ofString (s : String) : Option OptMethod :=
  match s.toLower with
  | "minimize" => some .minimize
  | "ln_neldermead" => some .lnNelderMead
  | "basinhopping" => some .basinhopping
  | "differential_evolution" => some .differentialEvolution
  | "dual_annealing" => some .dualAnnealing
  | "shgo" => some .shgo
  | _ => none

/-- `n_control_variables` (`_refinement.py` L1039-1041). -/
def RMode.nControl : RMode → ℕ
  | .ori => 3
  | .pc => 3
  | .oriPc => 6

noncomputable section

/-- `np.deg2rad`. -/
def deg2rad (x : ℝ) : ℝ := x * (Real.pi / 180)

/-- A trust region as `np.asarray` sees it: an array of floats or an array of integers. -/
structure TrustRegion where
  isInt : Bool
  values : List ℝ

/-- Assignment into an array: integer arrays truncate. -/
def TrustRegion.store (t : TrustRegion) (x : ℝ) : ℝ := if t.isInt then truncate x else x

/-- `eu_lower + pc_lower` etc. (`_refinement.py` L1209-1217, L1222-1233). -/
def RMode.lowerAbs : RMode → List ℝ
  | .ori => List.replicate 3 (-deg2rad 5)
  | .pc => List.replicate 3 (-2)
  | .oriPc => List.replicate 3 (-deg2rad 5) ++ List.replicate 3 (-2)

def RMode.upperAbs : RMode → List ℝ
  | .ori => [2 * Real.pi + deg2rad 5, Real.pi + deg2rad 5, 2 * Real.pi + deg2rad 5]
  | .pc => List.replicate 3 2
  | .oriPc => [2 * Real.pi + deg2rad 5, Real.pi + deg2rad 5, 2 * Real.pi + deg2rad 5] ++
      List.replicate 3 2

/-- The values used for the trust region, and the array of the caller afterwards
(`_refinement.py` L1219-1234): with `ori`, angles are converted in a new array; with `ori_pc`
they are converted in place, in the array of the caller if that is a NumPy array
(`np.asarray` does not copy). -/
def RMode.trustRegion (mode : RMode) (t : TrustRegion) : List ℝ × TrustRegion :=
  match mode with
  | .ori => (t.values.map deg2rad, t)
  | .pc => (t.values, t)
  | .oriPc =>
    let v := (t.values.take 3).map (fun x => t.store (deg2rad x)) ++ t.values.drop 3
    (v, { t with values := v })

/-- `data_to_optimize` minus and plus `trust_region` of one set of control variables, an array of one value
is broadcast. -/
def broadcastTo (n : ℕ) (l : List ℝ) : Except Err (List ℝ) :=
  if l.length = n then .ok l
  else match l with
    | [a] => .ok (List.replicate n a)
    | _ => .error .valueError

/-- `get_bound_constraints` (`_refinement.py` L1178-1239) for the starting point `x`: lower and
upper bounds, and the trust region of the caller afterwards. Without a trust region the bounds
are zeros. -/
def boundConstraints (mode : RMode) (x : List ℝ) (t : Option TrustRegion) :
    Except Err ((List ℝ × List ℝ) × Option TrustRegion) :=
  match t with
  | none => .ok ((List.replicate mode.nControl 0, List.replicate mode.nControl 0), none)
  | some t =>
    let (v, t') := mode.trustRegion t
    match broadcastTo mode.nControl v with
    | .error e => .error e
    | .ok v =>
      .ok ((List.zipWith max (List.zipWith (fun x v => x - v) x v) mode.lowerAbs,
        List.zipWith min (List.zipWith (fun x v => x + v) x v) mode.upperAbs), some t')

/-- The initial steps given to NLopt (`_refinement.py` L1104-1115): `np.repeat(initial_step, 3)`
after a check of the number of values. -/
def initialSteps (mode : RMode) (steps : List ℝ) : Except Err (List ℝ) :=
  if steps.length ≠ (if mode = .oriPc then 2 else 1) then .error .valueError
  else .ok (steps.flatMap (List.replicate 3))

/-- The bounds given to the optimizer, `none` if it gets none (`_solvers.py` L183-203, L303-323,
L391-420, L507-510, L565-567, L597-600). -/
def boundsGiven (m : OptMethod) (trustRegionPassed : Bool) (bounds : List ℝ × List ℝ) :
    Option (List ℝ × List ℝ) :=
  match m with
  | .minimize => if trustRegionPassed then some bounds else none
  | .lnNelderMead => if trustRegionPassed then some bounds else none
  | .basinhopping => none
  | .differentialEvolution => some bounds
  | .dualAnnealing => some bounds
  | .shgo => some bounds

end

/-! ### Class-level state -/

/-- A scipy keyword argument dictionary of the caller: the keys that are looked at. -/
structure MethodKwargs where
  method : Option String
  minimizerKwargs : Bool
  other : List String
  deriving DecidableEq

/-- The class attributes `map_blocks_kwargs` and `solver_kwargs` of `_RefinementSetup`
(`_refinement.py` L918-919): dictionaries shared by all instances. `none` means no such key. -/
structure ClassState (Opt Fixed : Type*) where
  opt : Option Opt := none
  dropAxis : Option (List ℕ) := none
  fixed : Option Fixed := none
  rescale : Option Bool := none
  trustRegionPassed : Option Bool := none

/-- Arguments of a refinement call, as far as they matter here. -/
structure RefineCall (Opt Fixed : Type*) where
  mode : RMode
  method : String
  /-- Whether NLopt is installed. -/
  nlopt : Bool
  /-- The optimizer made from `rtol`, `initial_step` and `maxeval`, or the exception raised. -/
  opt : Except Err Opt
  methodKwargs : Option MethodKwargs
  /-- The fixed parameters (master pattern etc.) or the exception raised. -/
  fixed : Except Err Fixed
  rescale : Bool
  trustRegionPassed : Bool
  /-- Whether `get_bound_constraints` raises. -/
  boundsError : Option Err

/-- Keyword arguments given to `da.map_blocks` by one call. -/
structure RefineTask (Opt Fixed : Type*) where
  opt : Option Opt
  dropAxis : Option (List ℕ)
  method : Option OptMethod
  methodKwargs : Option MethodKwargs
  fixed : Option Fixed
  rescale : Option Bool
  trustRegionPassed : Option Bool

/-- The changes made to the method keyword arguments of the caller (`_refinement.py`
L1124-1136). -/
def prepareKwargs (m : OptMethod) (k : MethodKwargs) : MethodKwargs :=
  let k := if m = .minimize ∧ k.method = none then { k with method := some "Nelder-Mead" } else k
  if m = .basinhopping ∧ k.minimizerKwargs = false then { k with minimizerKwargs := true } else k

/-- `_RefinementSetup.__init__` followed by `get_bound_constraints` and
`solver_kwargs["trust_region_passed"] = ...` (`_refinement.py` L921-1035, L1045-1139, L376-378):
the outcome (exception or task), the class state afterwards and the method keyword arguments of
the caller afterwards. -/
def refineCall {Opt Fixed : Type*} (s : ClassState Opt Fixed) (a : RefineCall Opt Fixed) :
    Except Err (RefineTask Opt Fixed) × ClassState Opt Fixed × Option MethodKwargs :=
  let dropAxis := if a.mode = .pc then [1] else [1, 2]
  match OptMethod.ofString a.method with
  | none => (.error .valueError, s, a.methodKwargs)
  | some m =>
    if m.isNlopt then
      if a.nlopt = false then (.error .valueError, s, a.methodKwargs)
      else match a.opt with
        | .error e => (.error e, s, a.methodKwargs)
        | .ok opt =>
          -- `self.map_blocks_kwargs["opt"] = opt`
          let s := { s with opt := some opt }
          match a.fixed with
          | .error e => (.error e, s, a.methodKwargs)
          | .ok fixed =>
            -- `self.solver_kwargs` is the dictionary of the class
            let s := { s with fixed := some fixed, rescale := some a.rescale,
                              dropAxis := some dropAxis }
            match a.boundsError with
            | some e => (.error e, s, a.methodKwargs)
            | none =>
              let s := { s with trustRegionPassed := some a.trustRegionPassed }
              (.ok { opt := s.opt, dropAxis := s.dropAxis, method := none, methodKwargs := none,
                     fixed := s.fixed, rescale := s.rescale,
                     trustRegionPassed := s.trustRegionPassed }, s, a.methodKwargs)
    else
      -- a dictionary of the caller is changed
      let k := prepareKwargs m (a.methodKwargs.getD ⟨none, false, []⟩)
      let given := a.methodKwargs.map (fun _ => k)
      match a.fixed with
      | .error e => (.error e, s, given)
      | .ok fixed =>
        -- `self.solver_kwargs = {...}` makes a dictionary of the instance
        let s := { s with dropAxis := some dropAxis, opt := none }
        match a.boundsError with
        | some e => (.error e, s, given)
        | none =>
          (.ok { opt := s.opt, dropAxis := s.dropAxis, method := some m, methodKwargs := some k,
                 fixed := some fixed, rescale := some a.rescale,
                 trustRegionPassed := some a.trustRegionPassed }, s, given)

/-- The class state after a history of calls. -/
def refineHistory {Opt Fixed : Type*} (s : ClassState Opt Fixed) (l : List (RefineCall Opt Fixed)) :
    ClassState Opt Fixed :=
  l.foldl (fun s a => (refineCall s a).2.1) s

/-! ### Pseudo-symmetry -/

/-- The result of one optimization: objective function value, number of evaluations and control
variables. -/
structure OptResult (K X : Type*) where
  funVal : K
  nfev : ℕ
  x : X

section
variable {K X : Type*} [Field K] [LinearOrder K]

/-- `np.argmax`: the first largest value. -/
def argmaxFirst (l : List K) : ℕ :=
  (List.range l.length).foldl (fun b i => if l.getD b 0 < l.getD i 0 then i else b) 0

/-- `np.argmin`: the first smallest value. -/
def argminFirst (l : List K) : ℕ :=
  (List.range l.length).foldl (fun b i => if l.getD i 0 < l.getD b 0 then i else b) 0

/-- SciPy with pseudo-symmetry operators (`_solvers.py` L210-247, L421-455): score, evaluations,
control variables and operator index. -/
def bestScipy (res : List (OptResult K X)) : Option (K × ℕ × X × ℕ) :=
  let ncc := res.map (fun r => 1 - r.funVal)
  let best := argmaxFirst ncc
  match res[best]?, ncc[best]? with
  | some r, some s => some (s, r.nfev, r.x, best)
  | _, _ => none

/-- NLopt with pseudo-symmetry operators (`_solvers.py` L517-537, L607-622). -/
def bestNlopt (res : List (OptResult K X)) : Option (K × ℕ × X × ℕ) :=
  let inv := res.map (fun r => r.funVal)
  let best := argminFirst inv
  match res[best]?, inv[best]? with
  | some r, some s => some (1 - s, r.nfev, r.x, best)
  | _, _ => none

end

end Kp
