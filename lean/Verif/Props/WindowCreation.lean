import Verif.Model.WindowCreation
import Verif.Props.Window

/-
C95: a window has the requested shape and values.
-/

namespace Kp
noncomputable section

open Spec

/-- The contract of SciPy's `get_window`: as many values as asked for, and ones for the rectangular
window. -/
structure SciPyWindows (g : String → List ℝ → ℕ → Bool → Except Err (List ℝ)) : Prop where
  length : ∀ name args n b l, g name args n b = .ok l → l.length = n
  rectangular : ∀ n b, g "rectangular" [] n b = .ok (List.replicate n 1)

/-- A SciPy with rectangular windows and triangular ones with the slope as the first parameter and
an offset as the second. -/
def exSciPy (name : String) (args : List ℝ) (n : ℕ) (_ : Bool) : Except Err (List ℝ) :=
  if name = "rectangular" then .ok (List.replicate n 1)
  else .ok ((List.range n).map fun (i : ℕ) => args.getD 0 0 * (i : ℝ) + args.getD 1 0)

theorem exSciPy_contract : SciPyWindows exSciPy := by
  constructor
  · intro name args n b l h
    unfold exSciPy at h
    split at h
    · simp only [Except.ok.injEq] at h
      subst h
      simp
    · simp only [Except.ok.injEq] at h
      subst h
      simp
  · intro n b
    simp [exSciPy]

variable (g : String → List ℝ → ℕ → Bool → Except Err (List ℝ))

theorem parse_ints (l : List ℤ) (h : ∀ n ∈ l, 1 ≤ n) :
    parseWindowShape (.seq (l.map .int)) none = .ok (l.map Int.toNat) := by
  unfold parseWindowShape
  simp only
  rw [if_neg, if_neg]
  · simp [ShapeNum.toInt]
  · simp [ShapeNum.isFloat]
  · rintro ⟨x, hx, hlt⟩
    rw [List.mem_map] at hx
    obtain ⟨n, hn, rfl⟩ := hx
    have := h n hn
    simp only [ShapeNum.value] at hlt
    have : (1 : ℝ) ≤ n := by exact_mod_cast this
    linarith

/-- C95: a named SciPy window of one axis has SciPy's values for this length. -/
theorem C95_one_axis (name : String) (hn : name ≠ "modified_hann" ∧ name ≠ "lowpass" ∧
      name ≠ "highpass" ∧ name ≠ "circular") (n : ℤ) (h : 1 ≤ n) (fb : Option Bool)
    (args : List (String × ℝ)) (l : List ℝ)
    (hl : g name (args.map (·.2)) n.toNat (fb.getD false) = .ok l) :
    ∃ w, newWindow g (.name name) (.seq [.int n]) ⟨none, fb, args⟩ = .ok w ∧ w.name = name ∧
      w.circular = false ∧ w.data.shape = [l.length] ∧
      ∀ (i : ℕ) (x : ℝ), l[i]? = some x → w.data.val [i] = x := by
  have hp := parse_ints [n] (by simpa using h)
  simp only [List.map_cons, List.map_nil] at hp
  refine ⟨⟨arrayOf l, name, false⟩, ?_, rfl, rfl, rfl, ?_⟩
  · unfold newWindow
    simp only [hp, hn.1, hn.2.1, hn.2.2.1, hn.2.2.2, if_false, or_self, separable, hl]
  · intro i x hi
    simp [arrayOf, hi]

/-- C95: a named SciPy window of two axes is the product of SciPy's windows of both lengths, with
the same parameters. -/
theorem C95_two_axes (hg : SciPyWindows g) (name : String) (hn : name ≠ "modified_hann" ∧
      name ≠ "lowpass" ∧ name ≠ "highpass" ∧ name ≠ "circular") (n m : ℤ) (h : 1 ≤ n) (h' : 1 ≤ m)
    (fb : Option Bool) (args : List (String × ℝ)) (l k : List ℝ)
    (hl : g name (args.map (·.2)) n.toNat (fb.getD false) = .ok l)
    (hk : g name (args.map (·.2)) m.toNat (fb.getD false) = .ok k) :
    ∃ w, newWindow g (.name name) (.seq [.int n, .int m]) ⟨none, fb, args⟩ = .ok w ∧ w.name = name ∧
      w.circular = false ∧ w.data.shape = [n.toNat, m.toNat] ∧
      ∀ (i j : ℕ) (x y : ℝ), l[i]? = some x → k[j]? = some y → w.data.val [i, j] = x * y := by
  have hp := parse_ints [n, m] (by simp [h, h'])
  simp only [List.map_cons, List.map_nil] at hp
  refine ⟨⟨outerOf l k, name, false⟩, ?_, rfl, rfl, ?_, ?_⟩
  · unfold newWindow
    simp only [hp, hn.1, hn.2.1, hn.2.2.1, hn.2.2.2, if_false, or_self, separable, hl, hk]
  · simp [outerOf, hg.length _ _ _ _ _ hl, hg.length _ _ _ _ _ hk]
  · intro i j x y hi hj
    simp [outerOf, hi, hj]

example : ∃ w, newWindow exSciPy (.name "tri") (.seq [.int 2, .int 3]) ⟨none, none, [("slope", 2), ("o", 1)]⟩
      = .ok w ∧ w.data.shape = [2, 3] ∧ w.data.val [1, 2] = 3 * 5 := by
  obtain ⟨w, h, -, -, hs, hv⟩ := C95_two_axes exSciPy exSciPy_contract "tri" (by decide) 2 3
    (by norm_num) (by norm_num) none [("slope", 2), ("o", 1)] [1, 3] [1, 3, 5]
    (by simp [exSciPy, List.range_succ]; norm_num) (by simp [exSciPy, List.range_succ]; norm_num)
  exact ⟨w, h, hs, hv 1 2 3 5 rfl rfl⟩

/-- C95 is false of shapes with more than two axes: only the first axis is used, the window has one
axis, and nothing is raised. -/
theorem C95_three_axes_violated (hg : SciPyWindows g) (n m k : ℤ) (h : 1 ≤ n) (h' : 1 ≤ m)
    (h'' : 1 ≤ k) :
    ∃ w, newWindow g (.name "rectangular") (.seq [.int n, .int m, .int k]) {} = .ok w ∧
      w.data.shape = [n.toNat] := by
  have hp := parse_ints [n, m, k] (by simp [h, h', h''])
  simp only [List.map_cons, List.map_nil] at hp
  refine ⟨⟨arrayOf (List.replicate n.toNat 1), "rectangular", false⟩, ?_, by simp [arrayOf]⟩
  unfold newWindow
  simp only [hp]
  rw [if_neg (by decide), if_neg (by decide), if_neg (by decide)]
  simp only [separable, List.map_nil, hg.rectangular]
  rw [if_neg (by decide)]

/-- C95: the default window and circular windows: ones within the longest half width of the origin
and zeros outside, called circular. -/
theorem C95_circular_partial (hg : SciPyWindows g) (n m : ℤ) (h : 1 ≤ n) (h' : 1 ≤ m)
    (hrow : n ≠ 1 ∨ m = 1) (arg : WindowArg) (harg : arg = .missing ∨ arg = .name "circular") :
    ∃ w, newWindow g arg (.seq [.int n, .int m]) {} = .ok w ∧ w.name = "circular" ∧
      w.circular = true ∧ w.data.shape = [n.toNat, m.toNat] ∧
      ∀ i j : ℕ, (i : ℤ) < n → (j : ℤ) < m →
        w.data.val [i, j] =
          if elemDist n.toNat m.toNat i j ≤ max (n.toNat / 2 : ℕ) (m.toNat / 2 : ℕ) then 1 else 0 := by
  have hp := parse_ints [n, m] (by simp [h, h'])
  simp only [List.map_cons, List.map_nil] at hp
  obtain ⟨w, hw, hs, hv⟩ := C16_circular_2d_partial n m h h' hrow
  unfold circularWindow at hw
  rw [if_neg (by simp; omega)] at hw
  simp only [List.map_cons, List.map_nil] at hw
  -- the outer product of ones
  set d := outerOf (List.replicate n.toNat 1) (List.replicate m.toNat 1) with hd
  have hds : d.shape = [n.toNat, m.toNat] := by simp [hd, outerOf]
  have hnew : newWindow g arg (.seq [.int n, .int m]) {} =
      WindowObj.makeCircular ⟨d, "rectangular", false⟩ := by
    unfold newWindow
    simp only [hp]
    rcases harg with rfl | rfl <;> simp only <;>
      rw [if_neg (by decide), if_neg (by decide)] <;>
      simp only [if_true, separable, List.map_nil, hg.rectangular, hd]
  rw [hnew]
  unfold WindowObj.makeCircular
  rw [if_neg (by simp [hds])]
  unfold Kp.makeCircular at hw ⊢
  simp only [hds] at hw ⊢
  rw [if_neg (by simp)] at hw ⊢
  unfold maskAssign at hw ⊢
  simp only [hds] at hw ⊢
  split at hw
  · rename_i hpre
    rw [if_pos hpre]
    refine ⟨_, rfl, by simp, rfl, rfl, ?_⟩
    intro i j hi hj
    obtain ⟨h1, h2⟩ := hv i j hi hj
    simp only [Except.ok.injEq] at hw
    subst hw
    simp only at h1 h2 ⊢
    have hdv : d.val [i, j] = 1 := by
      have hi' : i < n.toNat := by omega
      have hj' : j < m.toNat := by omega
      have e1 : (List.replicate n.toNat (1 : ℝ)).getD i 0 = 1 := by
        rw [List.getD_eq_getElem?_getD, List.getElem?_replicate, if_pos hi']; rfl
      have e2 : (List.replicate m.toNat (1 : ℝ)).getD j 0 = 1 := by
        rw [List.getD_eq_getElem?_getD, List.getElem?_replicate, if_pos hj']; rfl
      simp only [hd, outerOf, List.getD_cons_zero, List.getD_cons_succ, e1, e2, mul_one]
    rw [hdv]
    by_cases hc : elemDist n.toNat m.toNat i j ≤ max (n.toNat / 2 : ℕ) (m.toNat / 2 : ℕ)
    · rw [if_pos hc]; exact h1 hc
    · rw [if_neg hc]; exact h2 (not_le.mp hc)
  · simp at hw

example : ∃ w, newWindow exSciPy .missing (.seq [.int 3, .int 5]) {} = .ok w ∧ w.circular = true ∧
    w.data.shape = [3, 5] :=
  let ⟨w, h, _, hc, hs, _⟩ := C95_circular_partial exSciPy exSciPy_contract 3 5 (by norm_num)
    (by norm_num) (Or.inl (by norm_num)) .missing (Or.inl rfl)
  ⟨w, h, hc, hs⟩

/-- C95: without a shape, a named window has three by three elements: the same as asking for it. -/
theorem C95_default_shape (arg : WindowArg) (fb : Option Bool) (args : List (String × ℝ)) :
    newWindow g arg .missing ⟨none, fb, args⟩ =
      newWindow g arg (.seq [.int 3, .int 3]) ⟨none, fb, args⟩ := by
  have hp := parse_ints [3, 3] (by simp)
  simp only [List.map_cons, List.map_nil] at hp
  unfold newWindow
  simp only [hp]
  rfl

/-- C95: which shapes are rejected: something that is no sequence and floats with a `TypeError`,
numbers below one with a `ValueError`, and only these. -/
theorem C95_shape_errors (shape : ShapeArg) :
    (∀ e, parseWindowShape shape none = .error e ↔
      (shape = .scalar ∧ e = .typeError) ∨
      ∃ l, shape = .seq l ∧ (((∃ x ∈ l, x.value < 1) ∧ e = .valueError) ∨
        ((¬ ∃ x ∈ l, x.value < 1) ∧ (∃ x ∈ l, x.isFloat = true) ∧ e = .typeError))) ∧
    (∀ e arg kw, kw.nx = none → parseWindowShape shape none = .error e →
      newWindow g arg shape kw = .error e) := by
  constructor
  · intro e
    cases shape with
    | missing => simp [parseWindowShape]
    | scalar =>
      simp only [parseWindowShape, Except.error.injEq, true_and, reduceCtorEq, false_and,
        exists_false, or_false]
      exact eq_comm
    | seq l =>
      simp only [parseWindowShape, reduceCtorEq, false_and, false_or, ShapeArg.seq.injEq]
      by_cases h1 : ∃ x ∈ l, x.value < 1
      · rw [if_pos h1]
        constructor
        · intro h
          exact ⟨l, rfl, Or.inl ⟨h1, by simpa using h.symm⟩⟩
        · rintro ⟨l', rfl, ⟨-, rfl⟩ | ⟨h, -⟩⟩
          · rfl
          · exact absurd h1 h
      · rw [if_neg h1]
        by_cases h2 : l.any ShapeNum.isFloat = true
        · rw [if_pos h2]
          constructor
          · intro h
            exact ⟨l, rfl, Or.inr ⟨h1, by simpa using h2, by simpa using h.symm⟩⟩
          · rintro ⟨l', rfl, ⟨h, -⟩ | ⟨-, -, rfl⟩⟩
            · exact absurd h h1
            · rfl
        · rw [if_neg h2]
          constructor
          · intro h
            simp at h
          · rintro ⟨l', rfl, ⟨h, -⟩ | ⟨-, h, -⟩⟩
            · exact absurd h h1
            · exact absurd (by simpa using h) h2
  · intro e arg kw hk h
    unfold newWindow
    rw [hk, h]

/-- C95: an array is used as it is. -/
theorem C95_custom_partial (dask : Bool) (a : NDArr ℝ) (shape : ShapeArg) (kw : WindowKwargs)
    (s : List ℕ) (h : parseWindowShape shape kw.nx = .ok s) :
    newWindow g (.array dask a) shape kw = .ok ⟨a, "custom", false⟩ := by
  unfold newWindow
  simp only [h]

/-- C95 is false of the claim that the shape is not used with an array: one that would be invalid
otherwise raises an error. -/
theorem C95_custom_shape_violated (dask : Bool) (a : NDArr ℝ) :
    newWindow g (.array dask a) (.seq [.int 0]) {} = .error .valueError := by
  unfold newWindow parseWindowShape
  simp only
  rw [if_pos ⟨.int 0, by simp, by simp [ShapeNum.value]⟩]

/-- C95: making a window from a Dask array circular leaves the caller's array alone. -/
theorem C95_caller_array_partial (a b : NDArr ℝ) (w : WindowObj)
    (h : makeCircularCustom true a = .ok (w, b)) : b = a := by
  unfold makeCircularCustom at h
  split at h
  · simp at h
  · simp only [if_true, Except.ok.injEq, Prod.mk.injEq] at h
    exact h.2.symm

/-- C95 is false of a window made from a NumPy array: making it circular sets the corners of the
caller's own array to zero. -/
theorem C95_caller_array_violated :
    ∃ (a b : NDArr ℝ) (w : WindowObj), makeCircularCustom false a = .ok (w, b) ∧
      b.val [0, 0] = 0 ∧ a.val [0, 0] = 1 := by
  have hm : ∃ w, Kp.makeCircular { shape := [3, 3], val := fun _ => 1 } = .ok w ∧ w.val [0, 0] = 0 := by
    obtain ⟨w, hw, -, hv⟩ := C16_circular_2d_partial 3 3 (by norm_num) (by norm_num)
      (Or.inl (by norm_num))
    refine ⟨w, ?_, ?_⟩
    · unfold circularWindow at hw
      rw [if_neg (by simp)] at hw
      simpa using hw
    · refine (hv 0 0 (by norm_num) (by norm_num)).2 ?_
      unfold elemDist
      rw [gt_iff_lt, Real.lt_sqrt (by positivity)]
      norm_num
  obtain ⟨w, hw, h0⟩ := hm
  refine ⟨{ shape := [3, 3], val := fun _ => 1 }, w, ⟨w, "custom", true⟩, ?_, h0, rfl⟩
  unfold makeCircularCustom WindowObj.makeCircular
  simp [hw]

/-- C95: the names of the keyword arguments of a SciPy window do not matter, … -/
theorem C95_keyword_names_ignored (name : String) (hn : name ≠ "lowpass" ∧ name ≠ "highpass")
    (shape : ShapeArg) (nx : Option ℕ) (fb : Option Bool) (a b : List (String × ℝ))
    (h : a.map (·.2) = b.map (·.2)) :
    newWindow g (.name name) shape ⟨nx, fb, a⟩ = newWindow g (.name name) shape ⟨nx, fb, b⟩ := by
  unfold newWindow
  simp only [hn.1, hn.2, or_self, if_false, h]

/-- C95 is false of keyword arguments: … so passing the same arguments in another order gives another
window. -/
theorem C95_keyword_order_violated :
    ∃ v w, newWindow exSciPy (.name "tri") (.seq [.int 2]) ⟨none, none, [("slope", 2), ("offset", 1)]⟩
        = .ok v ∧
      newWindow exSciPy (.name "tri") (.seq [.int 2]) ⟨none, none, [("offset", 1), ("slope", 2)]⟩
        = .ok w ∧ v.data.val [0] ≠ w.data.val [0] := by
  obtain ⟨v, h1, -, -, -, hv⟩ := C95_one_axis exSciPy "tri" (by decide) 2 (by norm_num) none
    [("slope", 2), ("offset", 1)] [1, 3] (by simp [exSciPy, List.range_succ]; norm_num)
  obtain ⟨w, h2, -, -, -, hw⟩ := C95_one_axis exSciPy "tri" (by decide) 2 (by norm_num) none
    [("offset", 1), ("slope", 2)] [2, 3] (by simp [exSciPy, List.range_succ]; norm_num)
  refine ⟨v, w, h1, h2, ?_⟩
  rw [hv 0 1 rfl, hw 0 2 rfl]
  norm_num

/-- C95: the transfer functions need a cutoff, whatever else is given. -/
theorem C95_cutoff_needed (name : String) (hn : name = "lowpass" ∨ name = "highpass")
    (shape : ShapeArg) (kw : WindowKwargs) (s : List ℕ) (hs : parseWindowShape shape kw.nx = .ok s)
    (h : ∀ x, ("cutoff", x) ∉ kw.rest) :
    newWindow g (.name name) shape kw = .error .keyError := by
  have hl : kw.rest.lookup "cutoff" = none := by
    rw [List.lookup_eq_none_iff]
    rintro ⟨a, b⟩ hp
    rw [bne_iff_ne]
    rintro rfl
    exact h b hp
  unfold newWindow
  simp only [hs]
  rcases hn with rfl | rfl
  · rw [if_neg (by decide), if_pos (Or.inl rfl), hl]
  · rw [if_neg (by decide), if_pos (Or.inr rfl), hl]

/-- C95: the transfer functions are those of C17 for the requested shape, cutoff and cutoff width. -/
theorem C95_transfer_functions (l : List ℤ) (hl : ∀ n ∈ l, 1 ≤ n) (c : ℝ) (cw : Option ℝ)
    (fb : Option Bool) (rest : List (String × ℝ)) (hc : rest.lookup "cutoff" = some c)
    (hw : rest.lookup "cutoff_width" = cw) :
    newWindow g (.name "lowpass") (.seq (l.map .int)) ⟨none, fb, rest⟩ =
        (freqWindow .lowpass l c cw).map (⟨·, "lowpass", false⟩) ∧
      newWindow g (.name "highpass") (.seq (l.map .int)) ⟨none, fb, rest⟩ =
        (freqWindow .highpass l c cw).map (⟨·, "highpass", false⟩) := by
  have hp := parse_ints l hl
  have hany : (l.any (· < 1)) = false := by
    rw [List.any_eq_false]
    intro n hn
    have := hl n hn
    simpa using this
  constructor
  · unfold newWindow
    simp only [hp]
    rw [if_neg (by decide), if_pos (by simp), hc, hw]
    unfold transferWindow freqWindow
    rw [hany]
    simp only [if_true, Bool.false_eq_true, if_false]
    cases lowpass (l.map Int.toNat) c cw <;> rfl
  · unfold newWindow
    simp only [hp]
    rw [if_neg (by decide), if_pos (by simp), hc, hw]
    unfold transferWindow freqWindow
    rw [hany, if_neg (by decide)]
    simp only [Bool.false_eq_true, if_false]
    cases highpass (l.map Int.toNat) c cw <;> rfl

/-- Four by five elements with a cutoff of one: one in the origin and zero in the corner of the low-pass
filter, and the other way round for the high-pass filter. -/
example : ∃ v w, newWindow g (.name "lowpass") (.seq [.int 4, .int 5])
      ⟨none, none, [("cutoff_width", 1 / 4), ("cutoff", 1)]⟩ = .ok v ∧ v.data.val [2, 2] = 1 ∧
    newWindow g (.name "highpass") (.seq [.int 4, .int 5])
      ⟨none, none, [("cutoff_width", 1 / 4), ("cutoff", 1)]⟩ = .ok w ∧ w.data.val [2, 2] = 0 := by
  obtain ⟨e1, e2⟩ := C95_transfer_functions g [4, 5] (by simp) 1 (some (1 / 4)) none
    [("cutoff_width", 1 / 4), ("cutoff", 1)] rfl rfl
  obtain ⟨v, h1, -, h2⟩ := C17_lowpass_partial 4 5 (by norm_num) (by norm_num) 1 (some (1 / 4))
    (by norm_num)
  obtain ⟨w, h3, -, h4⟩ := C17_highpass_partial 4 5 (by norm_num) (by norm_num) 1 (some (1 / 4))
    (by norm_num)
  have h0 : elemDist (Int.toNat 4) (Int.toNat 5) 2 2 = 0 := by
    have : Int.toNat 4 = 4 := rfl
    have : Int.toNat 5 = 5 := rfl
    simp [elemDist, *]
  refine ⟨⟨v, "lowpass", false⟩, ⟨w, "highpass", false⟩, ?_, (h2 2 2 (by norm_num) (by norm_num)).1 ?_, ?_,
    (h4 2 2 (by norm_num) (by norm_num)).2.1 ?_⟩
  · have := e1
    rw [h1] at this
    exact this
  · rw [h0]; norm_num
  · have := e2
    rw [h3] at this
    exact this
  · rw [h0]; norm_num

/-- C95: the length `Nx` is used instead of the shape, whatever this is. -/
theorem C95_length (arg : WindowArg) (shape : ShapeArg) (n : ℕ) (hn : 1 ≤ n) (fb : Option Bool)
    (args : List (String × ℝ)) :
    newWindow g arg shape ⟨some n, fb, args⟩ = newWindow g arg (.seq [.int n]) ⟨none, fb, args⟩ := by
  have hp := parse_ints [(n : ℤ)] (by simpa using hn)
  simp only [List.map_cons, List.map_nil, Int.toNat_natCast] at hp
  have hq : parseWindowShape shape (some n) = .ok [n] := by
    cases shape <;> rfl
  unfold newWindow
  simp only [hp, hq]

/-- A window is valid exactly if it has at most two axes: none, one or two. -/
theorem C95_valid (w : WindowObj) : w.isValid = true ↔
    w.data.shape = [] ∨ (∃ n, w.data.shape = [n]) ∨ ∃ n m, w.data.shape = [n, m] := by
  unfold WindowObj.isValid
  rcases w.data.shape with _ | ⟨a, _ | ⟨b, _ | ⟨c, l⟩⟩⟩ <;> simp

/-- C95: whether a window fits data: with as many axes, exactly if none of them is longer, a window
of one axis exactly if it is not longer than any axis, and one with more axes never. -/
theorem C95_compatible_partial (w s : List ℕ) :
    (w.length = s.length → ∃ b, shapeCompatible w s = .ok b ∧
      (b = true ↔ ∀ (i n m : ℕ), w[i]? = some n → s[i]? = some m → n ≤ m)) ∧
    (∀ n, w = [n] → s ≠ [] → ∃ b, shapeCompatible w s = .ok b ∧ (b = true ↔ ∀ m ∈ s, n ≤ m)) ∧
    (s.length < w.length → shapeCompatible w s = .ok false) := by
  refine ⟨?_, ?_, ?_⟩
  · intro hl
    unfold shapeCompatible anyGreater
    rw [if_neg (by omega), if_pos hl]
    refine ⟨_, rfl, ?_⟩
    simp only [Bool.not_eq_true', List.any_eq_false, id_eq]
    constructor
    · intro h i n m hn hm
      by_contra hlt
      refine h true ?_ rfl
      rw [List.mem_iff_getElem?]
      exact ⟨i, by rw [List.getElem?_zipWith, hn, hm]; simp; omega⟩
    · intro h x hx
      rw [List.mem_iff_getElem?] at hx
      obtain ⟨i, hi⟩ := hx
      rw [List.getElem?_zipWith] at hi
      cases hn : w[i]? with
      | none => rw [hn] at hi; simp at hi
      | some n =>
        cases hm : s[i]? with
        | none => rw [hn, hm] at hi; simp at hi
        | some m =>
          rw [hn, hm] at hi
          have := h i n m hn hm
          simp only [Option.some.injEq] at hi
          rw [← hi]
          simp only [decide_eq_true_eq]
          omega
  · rintro n rfl hs
    unfold shapeCompatible anyGreater
    have h1 : 1 ≤ s.length := List.length_pos_iff.mpr hs
    rw [if_neg (by simp; omega)]
    by_cases h : [n].length = s.length
    · rw [if_pos h]
      simp only [List.length_cons, List.length_nil, zero_add] at h
      obtain ⟨m, rfl⟩ := List.length_eq_one_iff.mp h.symm
      exact ⟨_, rfl, by simp⟩
    · rw [if_neg h]
      exact ⟨_, rfl, by simp⟩
  · intro h
    unfold shapeCompatible
    rw [if_pos h]

/-- C95 is false of asking whether a window with two axes fits data with three: an error instead of
an answer. -/
theorem C95_compatible_violated :
    shapeCompatible [3, 3] [10, 10, 10] = .error .valueError := by
  rfl

example : shapeCompatible [3, 3] [10, 3] = .ok true ∧ shapeCompatible [3, 3] [10, 2] = .ok false ∧
    shapeCompatible [3] [10, 2] = .ok false ∧ shapeCompatible [3, 3] [10] = .ok false := by
  refine ⟨rfl, rfl, rfl, rfl⟩

end
end Kp
