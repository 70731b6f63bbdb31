/-
C54: the signal classes forward each argument of `rescale_intensity`, `normalize_intensity`
and `adaptive_histogram_equalization` to the parameter of the same name of the general signal
method.  False of `VirtualBSEImage.normalize_intensity`.
-/
import Verif.Lemmas.Forwarding

namespace Kp

/-- C54: for every class and method but `VirtualBSEImage.normalize_intensity`, a call with any
positional and keyword arguments has the effect of the same call of the general method: the
same values under the same names, or the same error. -/
theorem C54_forwarding_faithful {U : Type} (c : FwClass) (m : FwMethod)
    (hne : ¬ (c = .virtualBse ∧ m = .normalize))
    (pos : List (PyArg U)) (kw : List (String × PyArg U)) :
    callMethod c m pos kw = bindCall (baseParams m) pos kw := by
  have hn : ((baseParams (U := U) m).map Prod.fst).Nodup := by cases m <;> simp [baseParams]
  have hs : subParams (U := U) c m = baseParams m := by cases m <;> rfl
  unfold callMethod
  rw [hs]
  cases c <;> cases m <;>
    first
    | exact absurd ⟨rfl, rfl⟩ hne
    | exact forwardCall_pos _ _ hn rfl rfl pos kw
    | exact forwardCall_kw _ _ hn rfl rfl pos kw

/-- Non-vacuity: a call with positional and keyword arguments goes through. -/
example : callMethod (U := String) .virtualBse .rescale [.bool true]
    [("dtype_out", .user "uint8"), ("inplace", .bool false)] =
    .ok [.bool true, .none, .none, .user "uint8", .none, .none, .bool false, .none] := by
  decide +kernel

/-- ... and a wrong keyword is the same error. -/
example : callMethod (U := String) .ebsd .normalize [] [("dtype", .user "uint8")] =
    .error .typeError := by decide +kernel

/-- What `VirtualBSEImage.normalize_intensity` does with its arguments, for every call: the
values of `dtype_out` and `show_progressbar` arrive swapped. -/
theorem C54_virtual_bse_normalize_swaps {U : Type} (pos : List (PyArg U))
    (kw : List (String × PyArg U)) (n d t p i l : PyArg U)
    (h : bindCall (baseParams .normalize) pos kw = .ok [n, d, t, p, i, l]) :
    callMethod .virtualBse .normalize pos kw = .ok [n, d, p, t, i, l] := by
  unfold callMethod forwardCall
  change (bindCall (baseParams .normalize) pos kw >>= _) = _
  rw [h]
  rfl

example : bindCall (U := String) (baseParams .normalize) [.int 2]
    [("dtype_out", .user "float32")] =
    .ok [.int 2, .bool false, .user "float32", .none, .bool true, .none] := by decide +kernel

/-- C54 is false: the property fails for `VirtualBSEImage.normalize_intensity`. -/
theorem C54_forwarding_violated : ¬ ∀ (c : FwClass) (m : FwMethod)
    (pos : List (PyArg String)) (kw : List (String × PyArg String)),
    callMethod c m pos kw = bindCall (baseParams m) pos kw := by
  intro h
  have := h .virtualBse .normalize [] [("dtype_out", .user "float32")]
  revert this
  decide +kernel

/-- The observable effect: `dtype_out` is ignored by `VirtualBSEImage.normalize_intensity`,
the images keep their own data type whatever data type is asked for. -/
theorem C54_virtual_bse_dtype_ignored {U : Type} (parse : PyArg U → Option U) (own t : U) :
    (callMethod .virtualBse .normalize [] [("dtype_out", .user t)]).bind
      (normalizeDtype parse own) = .ok own := by
  rfl

/-- ... whereas the general method, and hence every other class, returns the data type asked
for. -/
theorem C54_dtype_honoured {U : Type} (parse : PyArg U → Option U) (own t : U)
    (hp : parse (.user t) = some t) (c : FwClass) (hc : c ≠ .virtualBse) :
    (callMethod c .normalize [] [("dtype_out", .user t)]).bind
      (normalizeDtype parse own) = .ok t := by
  rw [C54_forwarding_faithful c .normalize (fun h => hc h.1)]
  have hb : bindCall (baseParams .normalize) [] [("dtype_out", .user t)] =
      .ok [.int 1, .bool false, .user t, .none, .bool true, .none] := rfl
  rw [hb]
  change normalizeDtype parse own [.int 1, .bool false, .user t, .none, .bool true, .none] = _
  simp [normalizeDtype, hp]

/-- ... and asking for a progress bar, or for none, is an error, `np.dtype(True)` being a
TypeError. -/
theorem C54_virtual_bse_progressbar_error {U : Type} (parse : PyArg U → Option U) (own : U)
    (hp : ∀ b, parse (.bool b) = none) (b : Bool) :
    (callMethod .virtualBse .normalize [] [("show_progressbar", .bool b)]).bind
      (normalizeDtype parse own) = .error .typeError := by
  change normalizeDtype parse own [.int 1, .bool false, .bool b, .none, .bool true, .none] = _
  simp [normalizeDtype, hp]

/-- The part of C54 which holds for `VirtualBSEImage.normalize_intensity`: calls which leave
`dtype_out` and `show_progressbar` equal, such as at their defaults, are faithful.  Missing:
calls which set one of them. -/
theorem C54_virtual_bse_normalize_partial {U : Type} (pos : List (PyArg U))
    (kw : List (String × PyArg U)) (n d t i l : PyArg U)
    (h : bindCall (baseParams .normalize) pos kw = .ok [n, d, t, t, i, l]) :
    callMethod .virtualBse .normalize pos kw = bindCall (baseParams .normalize) pos kw := by
  rw [C54_virtual_bse_normalize_swaps pos kw n d t t i l h, h]

example : bindCall (U := String) (baseParams .normalize) [.int 2] [("inplace", .bool false)] =
    .ok [.int 2, .bool false, .none, .none, .bool false, .none] := by decide +kernel

/-- A call which the general method rejects is rejected with the same error, in every class. -/
theorem C54_errors_agree {U : Type} (c : FwClass) (m : FwMethod) (pos : List (PyArg U))
    (kw : List (String × PyArg U)) (e : Err) (h : bindCall (baseParams m) pos kw = .error e) :
    callMethod c m pos kw = .error e := by
  by_cases hne : c = .virtualBse ∧ m = .normalize
  · obtain ⟨rfl, rfl⟩ := hne
    unfold callMethod forwardCall
    change (bindCall (baseParams .normalize) pos kw >>= _) = _
    rw [h]
    rfl
  · rw [C54_forwarding_faithful c m hne, h]

end Kp
