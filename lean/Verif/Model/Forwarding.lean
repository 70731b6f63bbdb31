/-
Model of how the signal classes forward the arguments of `rescale_intensity`,
`normalize_intensity` and `adaptive_histogram_equalization` to the general signal class.

* signals/_kikuchipy_signal.py L87-100 (parameters of `rescale_intensity`), L245-253
  (`normalize_intensity`), L340-348 (`adaptive_histogram_equalization`)
* signals/virtual_bse_image.py L42-100
* signals/ebsd.py L3111-3169
* signals/ebsd_master_pattern.py L434-492
* signals/ecp_master_pattern.py L120-178
-/
import Verif.Model.Base

namespace Kp

/-- A Python value passed as an argument: the literals used as defaults, or any other value
`u` of the user (a data type, a range, a kernel size, ...).
Simplification: only the literals which occur as defaults are distinguished. -/
inductive PyArg (U : Type)
  | none
  | bool (b : Bool)
  | int (n : Int)
  | user (u : U)
  deriving DecidableEq

/-- Parameters of a Python function, in order, with their defaults (all parameters of the
modelled methods but `self` have one). -/
abbrev Params (U : Type) := List (String × PyArg U)

/-- Python's binding of a call `f(*pos, **kw)` to the parameters of `f`: positional arguments
bind from the left, keywords by name, the rest are defaults.  Too many positional arguments,
an unexpected keyword, a keyword for a parameter already bound and a repeated keyword are
errors.  The result is the list of values seen by the body, in the order of the parameters.
(Semantics of calls, Python language reference 6.3.4.) -/
def bindCall {U : Type} (ps : Params U) (pos : List (PyArg U))
    (kw : List (String × PyArg U)) : Except Err (List (PyArg U)) :=
  if ps.length < pos.length then .error .typeError
  else if kw.any (fun k => !(((ps.drop pos.length).map Prod.fst).contains k.1)) then
    .error .typeError
  else if ¬ (kw.map Prod.fst).Nodup then .error .typeError
  else .ok (pos ++ (ps.drop pos.length).map fun p => (kw.lookup p.1).getD p.2)

/-- The arguments of a `super().method(...)` call, each being a parameter name of the calling
method: positional arguments, then keywords. -/
structure Forward where
  pos : List String
  kw : List (String × String)

/-- Value of the parameter called `n` in the body of a method with parameters `ps` bound to
`vals`.  Simplification: an unknown name gives `none` instead of a NameError; no modelled
method has one. -/
def bodyVar {U : Type} (ps : Params U) (vals : List (PyArg U)) (n : String) : PyArg U :=
  (((ps.map Prod.fst).zip vals).lookup n).getD .none

/-- A method `def m(self, <ps>): return super().m(<fw>)` of a subclass called with
`(*pos, **kw)`: the arguments seen by the body of the method of the general class, whose
parameters are `base`. -/
def forwardCall {U : Type} (ps base : Params U) (fw : Forward) (pos : List (PyArg U))
    (kw : List (String × PyArg U)) : Except Err (List (PyArg U)) := do
  let vals ← bindCall ps pos kw
  bindCall base (fw.pos.map (bodyVar ps vals)) (fw.kw.map fun k => (k.1, bodyVar ps vals k.2))

/-- The three methods of the general class which the signal classes override only for
documentation. -/
inductive FwMethod
  | rescale
  | normalize
  | adaptive
  deriving DecidableEq

/-- The signal classes overriding them. -/
inductive FwClass
  | ebsd
  | ebsdMaster
  | ecpMaster
  | virtualBse
  deriving DecidableEq

/-- Parameters of the methods of KikuchipySignal2D: signals/_kikuchipy_signal.py L87-100,
L245-253, L340-348.  `clip_limit=0.0` is written as the integer 0. -/
def baseParams {U : Type} : FwMethod → Params U
  | .rescale => [("relative", .bool false), ("in_range", .none), ("out_range", .none),
      ("dtype_out", .none), ("percentiles", .none), ("show_progressbar", .none),
      ("inplace", .bool true), ("lazy_output", .none)]
  | .normalize => [("num_std", .int 1), ("divide_by_square_root", .bool false),
      ("dtype_out", .none), ("show_progressbar", .none), ("inplace", .bool true),
      ("lazy_output", .none)]
  | .adaptive => [("kernel_size", .none), ("clip_limit", .int 0), ("nbins", .int 128),
      ("show_progressbar", .none), ("inplace", .bool true), ("lazy_output", .none)]

/-- Parameters of the overriding methods: the same names, order and defaults in all four
classes (signals/ebsd.py L3111-3161, ebsd_master_pattern.py L434-484, ecp_master_pattern.py
L120-170, virtual_bse_image.py L42-92). -/
def subParams {U : Type} (_ : FwClass) : FwMethod → Params U
  | .rescale => [("relative", .bool false), ("in_range", .none), ("out_range", .none),
      ("dtype_out", .none), ("percentiles", .none), ("show_progressbar", .none),
      ("inplace", .bool true), ("lazy_output", .none)]
  | .normalize => [("num_std", .int 1), ("divide_by_square_root", .bool false),
      ("dtype_out", .none), ("show_progressbar", .none), ("inplace", .bool true),
      ("lazy_output", .none)]
  | .adaptive => [("kernel_size", .none), ("clip_limit", .int 0), ("nbins", .int 128),
      ("show_progressbar", .none), ("inplace", .bool true), ("lazy_output", .none)]

/-- The `super()` calls.  Positional for EBSD (signals/ebsd.py L3124-3133, L3144-3151,
L3162-3169) and VirtualBSEImage (virtual_bse_image.py L55-64, L75-82, L93-100); keywords for
the first two methods of the master pattern classes (ebsd_master_pattern.py L443-450,
L465-474, L485-492; ecp_master_pattern.py L129-136, L151-160, L171-178). -/
def superCall : FwClass → FwMethod → Forward
  | .ebsd, .rescale => ⟨["relative", "in_range", "out_range", "dtype_out", "percentiles",
      "show_progressbar", "inplace", "lazy_output"], []⟩
  | .ebsd, .normalize => ⟨["num_std", "divide_by_square_root", "dtype_out",
      "show_progressbar", "inplace", "lazy_output"], []⟩
  | .ebsd, .adaptive => ⟨["kernel_size", "clip_limit", "nbins", "show_progressbar",
      "inplace", "lazy_output"], []⟩
  | .ebsdMaster, .rescale => ⟨[], [("relative", "relative"), ("in_range", "in_range"),
      ("out_range", "out_range"), ("dtype_out", "dtype_out"), ("percentiles", "percentiles"),
      ("show_progressbar", "show_progressbar"), ("inplace", "inplace"),
      ("lazy_output", "lazy_output")]⟩
  | .ebsdMaster, .normalize => ⟨[], [("num_std", "num_std"),
      ("divide_by_square_root", "divide_by_square_root"), ("dtype_out", "dtype_out"),
      ("show_progressbar", "show_progressbar"), ("inplace", "inplace"),
      ("lazy_output", "lazy_output")]⟩
  | .ebsdMaster, .adaptive => ⟨["kernel_size", "clip_limit", "nbins", "show_progressbar",
      "inplace", "lazy_output"], []⟩
  | .ecpMaster, .rescale => ⟨[], [("relative", "relative"), ("in_range", "in_range"),
      ("out_range", "out_range"), ("dtype_out", "dtype_out"), ("percentiles", "percentiles"),
      ("show_progressbar", "show_progressbar"), ("inplace", "inplace"),
      ("lazy_output", "lazy_output")]⟩
  | .ecpMaster, .normalize => ⟨[], [("num_std", "num_std"),
      ("divide_by_square_root", "divide_by_square_root"), ("dtype_out", "dtype_out"),
      ("show_progressbar", "show_progressbar"), ("inplace", "inplace"),
      ("lazy_output", "lazy_output")]⟩
  | .ecpMaster, .adaptive => ⟨["kernel_size", "clip_limit", "nbins", "show_progressbar",
      "inplace", "lazy_output"], []⟩
  | .virtualBse, .rescale => ⟨["relative", "in_range", "out_range", "dtype_out",
      "percentiles", "show_progressbar", "inplace", "lazy_output"], []⟩
  | .virtualBse, .normalize => ⟨["num_std", "divide_by_square_root", "show_progressbar",
      "dtype_out", "inplace", "lazy_output"], []⟩
  | .virtualBse, .adaptive => ⟨["kernel_size", "clip_limit", "nbins", "show_progressbar",
      "inplace", "lazy_output"], []⟩

/-- `s.method(*pos, **kw)` for a signal of class `c`: the arguments which reach the general
implementation. -/
def callMethod {U : Type} (c : FwClass) (m : FwMethod) (pos : List (PyArg U))
    (kw : List (String × PyArg U)) : Except Err (List (PyArg U)) :=
  forwardCall (subParams c m) (baseParams m) (superCall c m) pos kw

/-- Beginning of the body of the general `normalize_intensity`,
signals/_kikuchipy_signal.py L306-317: the data type of the returned or changed images, for
images of data type `own` which are not RGB, from the bound arguments.  `np.dtype(x)` is
`parse x`; it raises TypeError for a bool.
Simplification: `lazy_output` and `inplace` are truthy when they are the literal True. -/
def normalizeDtype {U : Type} (parse : PyArg U → Option U) (own : U) :
    List (PyArg U) → Except Err U
  | [_, _, dtypeOut, _, inplace, lazyOutput] =>
    if (match lazyOutput, inplace with | .bool true, .bool true => true | _, _ => false) = true then .error .valueError
    else match dtypeOut with
      | .none => .ok own
      | d => match parse d with
        | some t => .ok t
        | none => .error .typeError
  | _ => .error .typeError

end Kp
