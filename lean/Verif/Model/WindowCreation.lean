import Verif.Model.Window

/-
Model of the creation of windows, `Window.__new__` (`filters/window.py` L117-187), of
`make_circular` with the window's name (L249-269), `is_valid` (L222-230) and `shape_compatible`
(L271-288).

SciPy's `get_window` is a parameter.  Values are real numbers.  Not modelled: other attributes of
NumPy subclasses.
-/

namespace Kp
noncomputable section

/-- A number in a requested shape. -/
inductive ShapeNum
  | int (n : ℤ)
  | float (x : ℝ)

/-- The number compared by NumPy. -/
def ShapeNum.value : ShapeNum → ℝ
  | .int n => n
  | .float x => x

/-- Is it a float? -/
def ShapeNum.isFloat : ShapeNum → Bool
  | .int _ => false
  | .float _ => true

/-- The integer, for an array without floats. -/
def ShapeNum.toInt : ShapeNum → ℤ
  | .int n => n
  | .float _ => 0

/-- The argument `shape`: not given, something that cannot be made a tuple, or a sequence. -/
inductive ShapeArg
  | missing
  | scalar
  | seq (l : List ShapeNum)

/-- The argument `window`: not given, the name of a window, a NumPy or Dask array, or something
else. -/
inductive WindowArg
  | missing
  | name (s : String)
  | array (dask : Bool) (a : NDArr ℝ)
  | other

/-- The keyword arguments: `Nx`, `fftbins`, and the others in the order of the call. -/
structure WindowKwargs where
  nx : Option ℕ := none
  fftbins : Option Bool := none
  rest : List (String × ℝ) := []

/-- A window. -/
structure WindowObj where
  data : NDArr ℝ
  name : String
  circular : Bool

/-- The shape to use (`filters/window.py` L126-138): errors in the order of the checks.  A shape
with a float among its entries is a float array for NumPy, so the comparison comes first. -/
def parseWindowShape (shape : ShapeArg) (nx : Option ℕ) : Except Err (List ℕ) :=
  match shape, nx with
  | .missing, none => .ok [3, 3]
  | _, some n => .ok [n]
  | .scalar, none => .error .typeError
  | .seq l, none =>
    open Classical in
    if ∃ x ∈ l, x.value < 1 then .error .valueError
    else if l.any ShapeNum.isFloat then .error .typeError
    else .ok (l.map fun x => x.toInt.toNat)

/-- `make_circular` (`filters/window.py` L249-269). -/
def WindowObj.makeCircular (w : WindowObj) : Except Err WindowObj :=
  if w.data.shape.length = 1 then .ok w
  else match Kp.makeCircular w.data with
    | .error e => .error e
    | .ok d => .ok
      { data := d, circular := true
        name := if w.name = "rectangular" ∨ w.name = "boxcar" then "circular" else w.name }

/-- A one-dimensional array. -/
def arrayOf (l : List ℝ) : NDArr ℝ := { shape := [l.length], val := fun idx => l.getD (idx.getD 0 0) 0 }

/-- `np.outer` of two one-dimensional arrays. -/
def outerOf (l m : List ℝ) : NDArr ℝ :=
  { shape := [l.length, m.length]
    val := fun idx => l.getD (idx.getD 0 0) 0 * m.getD (idx.getD 1 0) 0 }

/-- A window function of one length, called for the first axis, and once more for the second of two
axes (`filters/window.py` L170-173). -/
def separable (f : ℕ → Except Err (List ℝ)) (shape : List ℕ) : Except Err (NDArr ℝ) :=
  match shape with
  | [] => .error .indexError
  | n :: rest =>
    match f n with
    | .error e => .error e
    | .ok l =>
      match rest with
      | [m] =>
        match f m with
        | .error e => .error e
        | .ok k => .ok (outerOf l k)
      | _ => .ok (arrayOf l)

/-- The transfer functions (`filters/window.py` L152-164 and L170-173), see `freqWindow`. -/
def transferWindow (f : FreqFilter) (shape : List ℕ) (cutoff : ℝ) (width : Option ℝ) :
    Except Err (NDArr ℝ) :=
  match (match f with
    | .lowpass => lowpass shape cutoff width
    | .highpass => highpass shape cutoff width) with
  | .error e => .error e
  | .ok data =>
    if shape.length = 2 ∧ data.shape.length = 1 then .error .typeError else .ok data

/-- `Window(window, shape, **kwargs)` (`filters/window.py` L117-187), with SciPy's
`get_window((name, *args), Nx, fftbins)`. -/
def newWindow (getWindow : String → List ℝ → ℕ → Bool → Except Err (List ℝ)) (window : WindowArg)
    (shape : ShapeArg) (kw : WindowKwargs) : Except Err WindowObj :=
  match parseWindowShape shape kw.nx with
  | .error e => .error e
  | .ok s =>
    let named : String → Except Err WindowObj := fun name =>
      if name = "modified_hann" then
        (separable (fun n => .ok ((List.range n).map (modifiedHann n))) s).map
          (⟨·, name, false⟩)
      else if name = "lowpass" ∨ name = "highpass" then
        match kw.rest.lookup "cutoff" with
        | none => .error .keyError
        | some c =>
          (transferWindow (if name = "lowpass" then .lowpass else .highpass) s c
            (kw.rest.lookup "cutoff_width")).map (⟨·, name, false⟩)
      else
        let scipy := if name = "circular" then "rectangular" else name
        match separable (fun n => getWindow scipy (kw.rest.map (·.2)) n (kw.fftbins.getD false)) s with
        | .error e => .error e
        | .ok d =>
          if name = "circular" then WindowObj.makeCircular ⟨d, scipy, false⟩
          else .ok ⟨d, scipy, false⟩
    match window with
    | .missing => named "circular"
    | .name n => named n
    | .array _ a => .ok ⟨a, "custom", false⟩
    | .other => .error .valueError

/-- A window made from the caller's array and then made circular: the window, and the caller's
array afterwards.  `np.asarray(data).view(cls)` (`filters/window.py` L180) shares the memory of a
NumPy array, while a Dask array is computed into new memory. -/
def makeCircularCustom (dask : Bool) (a : NDArr ℝ) : Except Err (WindowObj × NDArr ℝ) :=
  match WindowObj.makeCircular ⟨a, "custom", false⟩ with
  | .error e => .error e
  | .ok w => .ok (w, if dask then a else w.data)

/-- `is_valid` (`filters/window.py` L222-230). -/
def WindowObj.isValid (w : WindowObj) : Bool := decide (w.data.shape.length < 3)

/-- `any(np.array(a) > np.array(b))`: element by element, with one element broadcast, otherwise
arrays of different lengths raise a `ValueError`. -/
def anyGreater (a b : List ℕ) : Except Err Bool :=
  if a.length = b.length then .ok ((List.zipWith (fun x y => decide (y < x)) a b).any id)
  else match a, b with
    | [x], b => .ok (b.any fun y => decide (y < x))
    | a, [y] => .ok (a.any fun x => decide (y < x))
    | _, _ => .error .valueError

/-- `shape_compatible` (`filters/window.py` L271-288). -/
def shapeCompatible (w shape : List ℕ) : Except Err Bool :=
  if shape.length < w.length then .ok false
  else (anyGreater w shape).map (!·)

end
end Kp
