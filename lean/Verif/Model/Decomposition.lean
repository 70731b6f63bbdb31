/-
Decomposition models: `EBSD.get_decomposition_model()` and
`LazyEBSD.get_decomposition_model_write()`.
-/
import Verif.Model.Base
import Verif.Model.Chunking
import Mathlib.Algebra.BigOperators.Group.List.Basic
import Mathlib.Algebra.Field.Defs
import Mathlib.Data.Int.Notation
import Mathlib.Tactic.TypeStar

namespace Kp

/-- Learning results of a decomposition: component patterns of `nPix` pixels and loadings of
`nNav` map positions, `nComp` of each.  Simplification: other results (explained variance,
output dimension, mean of a centred decomposition) are not modelled. -/
structure Learning (K : Type*) where
  nPix : ℕ
  nNav : ℕ
  nComp : ℕ
  factors : ℕ → ℕ → K
  loadings : ℕ → ℕ → K

/-- The `components` argument: not given, a number, or a list of indices. -/
inductive Components
  | all
  | first (n : ℤ)
  | only (l : List ℤ)

/-- Stop of the Python slice `[:n]` of an axis of size `size`. -/
def pyStop (size : ℕ) (n : ℤ) : ℕ :=
  if n < 0 then ((size : ℤ) + n).toNat else min n.toNat size

/-- A NumPy index of an axis of size `size`: negative indices count from the end, and indices out
of range raise IndexError. -/
def pyIndex (size : ℕ) (i : ℤ) : Except Err ℕ :=
  if 0 ≤ i ∧ i < size then .ok i.toNat
  else if i < 0 ∧ 0 ≤ i + size then .ok (i + size).toNat
  else .error .indexError

/-- The components kept, src/kikuchipy/signals/util/_dask.py: `_update_learning_results`,
L315-324: `factors[:, components]` or `factors[:, :components]`. -/
def keptComponents (nComp : ℕ) : Components → Except Err (List ℕ)
  | .all => .ok (List.range nComp)
  | .first n => .ok (List.range (pyStop nComp n))
  | .only l => l.mapM (pyIndex nComp)

/-- `_update_learning_results`, L283-332: cast (`cast`) and keep components.  Rechunking of lazy
results may raise (`rechunk`) but does not change values. -/
def updateLearning {K : Type} (cast : K → K) (rechunk : Learning K → Except Err Unit)
    (lr : Learning K) (comp : Components) : Except Err (Learning K) :=
  match keptComponents lr.nComp comp with
  | .error e => .error e
  | .ok idx =>
    let new : Learning K :=
      { nPix := lr.nPix
        nNav := lr.nNav
        nComp := idx.length
        factors := fun j c => cast (lr.factors j (idx.getD c 0))
        loadings := fun i c => cast (lr.loadings i (idx.getD c 0)) }
    match rechunk new with
    | .error e => .error e
    | .ok () => .ok new

/-- `(factors @ loadings.T).T` flattened in C order: ebsd.py L3271-3273, and
HyperSpy's `get_decomposition_model()` (from its documentation). -/
def recMatrix {K : Type} [Semiring K] (lr : Learning K) (k : ℕ) : K :=
  ((List.range lr.nComp).map fun c =>
    lr.factors (k % lr.nPix) c * lr.loadings (k / lr.nPix) c).sum

/-- HyperSpy's `get_decomposition_model()` called with `components=None`: the product of all
components, reshaped to the shape of the data (`size` numbers), which raises ValueError if the
number of elements differs.  Modelled from its documentation. -/
def hyperspyModel {K : Type} [Semiring K] (size : ℕ) (lr : Learning K) :
    Except Err (ℕ → K) :=
  if lr.nNav * lr.nPix = size then .ok (recMatrix lr) else .error .valueError

/-- `get_decomposition_model`, src/kikuchipy/signals/ebsd.py L2696-2721: the result, and the
learning results of the signal afterwards.  They are set before HyperSpy is called and reset
after it, without `try`. -/
def getDecompositionModel {K : Type} [Semiring K] (cast : K → K)
    (rechunk : Learning K → Except Err Unit) (size : ℕ) (lr : Learning K) (comp : Components) :
    Except Err (ℕ → K) × Learning K :=
  match updateLearning cast rechunk lr comp with
  | .error e => (.error e, lr)
  | .ok new =>
    match hyperspyModel size new with
    | .error e => (.error e, new)
    | .ok m => (.ok m, lr)

/-- Steps of `get_decomposition_model_write`, ebsd.py L3240-3289, which may raise after the
temporary file has been written. -/
inductive WriteStep
  | chunks | multiply | reshape | rechunk | rescale | save
  deriving DecidableEq

/-- Files after `get_decomposition_model_write`: of learning results (temporary) and of the
model. -/
structure WriteFiles where
  learn : Bool
  model : Bool
  deriving DecidableEq

/-- The steps in the order of the code. -/
def writeSteps : List WriteStep := [.chunks, .multiply, .reshape, .rechunk, .rescale, .save]

/-- Perform steps until one raises: whether all were performed, and the error. -/
def runSteps (fail : WriteStep → Option Err) : List WriteStep → Except Err Unit
  | [] => .ok ()
  | s :: rest => match fail s with
    | some e => .error e
    | none => runSteps fail rest

/-- `get_decomposition_model_write`, ebsd.py L3234-3290: the result and the files left, for a
given directory (`dirOut`, L3242-3246: without it, and none in the metadata, AttributeError) and
failing steps.  `fail .save` stands for an error before the file is written. -/
def modelWrite {K : Type} (cast : K → K) (rechunk : Learning K → Except Err Unit)
    (lr : Learning K) (comp : Components) (dirOut metaDir : Bool) (fail : WriteStep → Option Err) :
    Except Err Unit × WriteFiles :=
  match updateLearning cast rechunk lr comp with
  | .error e => (.error e, ⟨false, false⟩)
  | .ok _ =>
    if !dirOut && !metaDir then (.error .attributeError, ⟨false, false⟩)
    else match runSteps fail writeSteps with
      | .error e => (.error e, ⟨true, false⟩)
      | .ok () => (.ok (), ⟨false, true⟩)

/-- The failing steps of a signal with `ndim` data axes and `size` numbers, if nothing else
fails: the reshape, L3278, raises if sizes differ and the rechunking to four axes, L3279, raises
ValueError if the data do not have four axes (Dask). -/
def shapeFailures (ndim size : ℕ) {K : Type} (lr : Learning K) : WriteStep → Option Err
  | .reshape => if lr.nNav * lr.nPix = size then none else some .valueError
  | .rechunk => if ndim = 4 then none else some .valueError
  | _ => none

end Kp
