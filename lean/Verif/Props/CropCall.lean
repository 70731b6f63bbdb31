import Verif.Spec.CropCall
import Verif.Props.SliceSignal
import Mathlib.Tactic.FieldSimp

/-
C145: Cropping gives what slicing gives, however the arguments of `crop` are passed.
-/

namespace Kp

set_option linter.unusedSectionVars false

/-! ### Arguments -/

section
variable {V : Type}

/-- Keywords written one after the other, each key at most once. -/
theorem overwriteKeywords_eq : ∀ (kw : List (String × V)) (p : List (String × V)),
    (kw.map Prod.fst).Nodup →
    overwriteKeywords p kw = p.map fun q => (q.1, (kw.lookup q.1).getD q.2)
  | [], p, _ => by simp [overwriteKeywords]
  | (k, v) :: kw, p, h => by
    rw [List.map_cons, List.nodup_cons] at h
    have ih := overwriteKeywords_eq kw (p.map fun q => if q.1 = k then (q.1, v) else q) h.2
    have hk : kw.lookup k = none := by
      rw [List.lookup_eq_none_iff]
      intro q hq
      have : k ≠ q.1 := fun e => h.1 (List.mem_map.mpr ⟨q, hq, e.symm⟩)
      simpa using this
    unfold overwriteKeywords at ih ⊢
    rw [List.foldl_cons, ih, List.map_map]
    apply List.map_congr_left
    intro q _
    simp only [Function.comp]
    by_cases e : q.1 = k
    · rw [if_pos e]
      simp only [e, hk, Option.getD_none, List.lookup_cons_self, Option.getD_some]
    · rw [if_neg e, List.lookup_cons]
      have : (q.1 == k) = false := by simpa using e
      rw [this]

/-- Positional arguments and keywords together give what Python binds. -/
theorem overwrite_bind (nil : V) (kw : List (String × V)) :
    ∀ (sig : List (PyParam V)) (args : List V) (b : List (String × V)),
    bindFrom sig args kw = .ok b →
    ∃ p, overwritePositional (sig.map fun q => (q.name, q.default.getD nil)) args = .ok p
      ∧ (p.map fun q => (q.1, (kw.lookup q.1).getD q.2)) = b
  | [], [], b, h => by
    rw [bindFrom] at h
    injection h with h
    exact ⟨[], rfl, by rw [← h]; rfl⟩
  | [], _ :: _, b, h => by rw [bindFrom] at h; cases h
  | s :: sig, v :: vs, b, h => by
    rw [bindFrom] at h
    split at h
    · cases h
    · rename_i hn
      cases hr : bindFrom sig vs kw with
      | error e => rw [hr] at h; cases h
      | ok r =>
        rw [hr] at h
        injection h with h
        obtain ⟨p, hp, hpb⟩ := overwrite_bind nil kw sig vs r hr
        refine ⟨(s.name, v) :: p, ?_, ?_⟩
        · rw [List.map_cons, overwritePositional, hp]; rfl
        · have : kw.lookup s.name = none := Option.not_isSome_iff_eq_none.mp hn
          rw [List.map_cons, hpb, ← h, this]; rfl
  | s :: sig, [], b, h => by
    rw [bindFrom] at h
    have key : ∀ v r, bindFrom sig [] kw = .ok r → (kw.lookup s.name).getD (s.default.getD nil) = v →
        b = (s.name, v) :: r → ∃ p, overwritePositional
          ((s :: sig).map fun q => (q.name, q.default.getD nil)) [] = .ok p
          ∧ (p.map fun q => (q.1, (kw.lookup q.1).getD q.2)) = b := by
      intro v r hr hv hb
      obtain ⟨p, hp, hpb⟩ := overwrite_bind nil kw sig [] r hr
      have hp' : p = sig.map fun q => (q.name, q.default.getD nil) := by
        cases sig <;> · rw [overwritePositional] at hp; injection hp with hp; exact hp.symm
      refine ⟨_, by rw [overwritePositional], ?_⟩
      rw [List.map_cons, List.map_cons, ← hp', hpb, hb, ← hv]
    cases hr : bindFrom sig [] kw with
    | error e =>
      rw [hr] at h
      split at h <;> cases h
    | ok r =>
      rw [hr] at h
      split at h
      · rename_i v e
        injection h with h
        exact key v r hr (by rw [e]; rfl) h.symm
      · rename_i d e1 e2
        injection h with h
        exact key d r hr (by rw [e1, e2]; rfl) h.symm
      · cases h

/-- C145, arguments: for any method, any parameters of interest and any call Python accepts, with any
mixture of positional and keyword arguments, the values found are those Python binds; if some
parameter of interest is not in the signature, none are found. -/
theorem C145_parameters {sig : List (PyParam V)} (nil : V) (interest : List String) {args : List V}
    {kwargs b : List (String × V)} (hk : (kwargs.map Prod.fst).Nodup)
    (h : bindArguments sig args kwargs = .ok b) :
    getParameters sig nil interest args kwargs
      = .ok (interest.mapM fun k => (b.lookup k).map fun v => (k, v)) := by
  unfold bindArguments at h
  split at h
  · cases h
  · obtain ⟨p, hp, hb⟩ := overwrite_bind nil kwargs sig args b h
    unfold getParameters
    rw [hp]
    change Except.ok _ = _
    rw [overwriteKeywords_eq kwargs p hk, hb]

end

variable {K V X : Type} [Field K] [LinearOrder K] [IsStrictOrderedRing K]

/-- What a call does, by the values of its parameters. -/
theorem cropCall_bound (a : SignalAttrs K V X) (sh : CropShape) {args : List CropValue}
    {kwargs b : List (String × CropValue)} (hk : (kwargs.map Prod.fst).Nodup)
    (h : bindArguments cropParams args kwargs = .ok b) {ax : CropAxis} {start stop : CropArg}
    (hb : Spec.CropBound b ax start stop) :
    cropCall a sh args kwargs =
      if start = .none ∧ stop = .none then .ok (a, sh.crop ax start stop)
      else match changedAxis sh (sh.crop ax start stop) with
        | none => .ok (a, sh.crop ax start stop)
        | some .sigRow => .ok (cropSigUpdate a sh (sh.crop ax start stop) false start stop,
            sh.crop ax start stop)
        | some .sigCol => .ok (cropSigUpdate a sh (sh.crop ax start stop) true start stop,
            sh.crop ax start stop)
        | some .navRow => (cropNavUpdate a sh false start stop).map (·, sh.crop ax start stop)
        | some .navCol => (cropNavUpdate a sh true start stop).map (·, sh.crop ax start stop) := by
  obtain ⟨h1, h2, h3⟩ := hb
  have hp := C145_parameters (.position .none) ["start", "end"] hk h
  have hm : (["start", "end"].mapM fun k => (b.lookup k).map fun v => (k, v))
      = some [("start", .position start), ("end", .position stop)] := by
    simp [List.mapM_cons, h2, h3]
  rw [hm] at hp
  unfold cropCall
  simp only [h, h1, h2, h3, hp, bind, Except.bind]
  by_cases hn : start = .none ∧ stop = .none
  · rw [if_pos hn, if_pos]
    simp [hn.1, hn.2]
  · rw [if_neg hn, if_neg]
    · have l1 : (([("start", CropValue.position start), ("end", CropValue.position stop)] :
          List (String × CropValue)).lookup "start") = some (.position start) := by simp [List.lookup]
      have l2 : (([("start", CropValue.position start), ("end", CropValue.position stop)] :
          List (String × CropValue)).lookup "end") = some (.position stop) := by simp [List.lookup]
      simp only [l1, l2]
      rcases changedAxis sh (sh.crop ax start stop) with _ | (_ | _ | _ | _)
      · rfl
      · cases cropNavUpdate a sh false start stop <;> rfl
      · cases cropNavUpdate a sh true start stop <;> rfl
      · rfl
      · rfl
    · simpa using hn

/-- C145, however the arguments are passed: calls giving the parameters the same values do the
same. -/
theorem C145_same_call (a : SignalAttrs K V X) (sh : CropShape) {args args' : List CropValue}
    {kwargs kwargs' b b' : List (String × CropValue)} (hk : (kwargs.map Prod.fst).Nodup)
    (hk' : (kwargs'.map Prod.fst).Nodup) (h : bindArguments cropParams args kwargs = .ok b)
    (h' : bindArguments cropParams args' kwargs' = .ok b') {ax : CropAxis} {start stop : CropArg}
    (hb : Spec.CropBound b ax start stop) (hb' : Spec.CropBound b' ax start stop) :
    cropCall a sh args kwargs = cropCall a sh args' kwargs' := by
  rw [cropCall_bound a sh hk h hb, cropCall_bound a sh hk' h' hb']

/-- Python's binding of a call with positions. -/
theorem bind_positional (ax : CropAxis) (s t : CropArg) :
    bindArguments cropParams [.axis ax, .position s, .position t] []
      = .ok [("axis", .axis ax), ("start", .position s), ("end", .position t),
          ("convert_units", .flag false)] := rfl

/-- C145, the usual ways of calling: positions, keywords in any order, and a mixture. -/
theorem C145_by_name (a : SignalAttrs K V X) (sh : CropShape) (ax : CropAxis) (s t : CropArg)
    (kwargs : List (String × CropValue))
    (hperm : kwargs.Perm [("axis", .axis ax), ("start", .position s), ("end", .position t)]) :
    cropCall a sh [] kwargs = cropCall a sh [.axis ax, .position s, .position t] []
    ∧ cropCall a sh [.axis ax] [("end", .position t), ("start", .position s)]
        = cropCall a sh [.axis ax, .position s, .position t] []
    ∧ cropCall a sh [.axis ax, .position s] [("convert_units", .flag true), ("end", .position t)]
        = cropCall a sh [.axis ax, .position s, .position t] [] := by
  have hb0 : Spec.CropBound [("axis", .axis ax), ("start", .position s), ("end", .position t),
      ("convert_units", .flag false)] ax s t := ⟨by simp [List.lookup], by simp [List.lookup], by simp [List.lookup]⟩
  have hb1 : Spec.CropBound [("axis", .axis ax), ("start", .position s), ("end", .position t),
      ("convert_units", .flag true)] ax s t := ⟨by simp [List.lookup], by simp [List.lookup], by simp [List.lookup]⟩
  have hnd : (kwargs.map Prod.fst).Nodup := by
    have := (hperm.map Prod.fst).nodup_iff
    rw [this]; simp
  have look : ∀ k v, (k, v) ∈ kwargs → kwargs.lookup k = some v := by
    intro k v hm
    clear hperm
    induction kwargs with
    | nil => cases hm
    | cons q kw ih =>
      rw [List.map_cons, List.nodup_cons] at hnd
      rw [List.mem_cons] at hm
      obtain ⟨q1, q2⟩ := q
      rcases hm with e | hm
      · injection e with e1 e2; rw [e1, e2, List.lookup_cons_self]
      · have : k ≠ q1 := fun e => hnd.1 (List.mem_map.mpr ⟨(k, v), hm, e⟩)
        rw [List.lookup_cons, show (k == q1) = false from by simpa using this]
        exact ih hnd.2 hm
  have m1 := look "axis" (.axis ax) (hperm.mem_iff.mpr (by simp))
  have m2 := look "start" (.position s) (hperm.mem_iff.mpr (by simp))
  have m3 := look "end" (.position t) (hperm.mem_iff.mpr (by simp))
  have m4 : kwargs.lookup "convert_units" = none := by
    rw [List.lookup_eq_none_iff]
    intro q hq
    have := hperm.mem_iff.mp hq
    simp only [List.mem_cons, List.not_mem_nil, or_false] at this
    rcases this with e | e | e <;> · rw [e]; rfl
  refine ⟨C145_same_call a sh hnd (by simp) ?_ (bind_positional ax s t) hb0 hb0,
    C145_same_call a sh (by simp) (by simp) (by rfl) (bind_positional ax s t) hb0 hb0,
    C145_same_call a sh (by simp) (by simp) (by rfl) (bind_positional ax s t) hb1 hb0⟩
  unfold bindArguments
  rw [if_neg]
  · simp only [cropParams, bindFrom, m1, m2, m3, m4]
    rfl
  · rw [List.any_eq_true]
    rintro ⟨q, hq, hq'⟩
    have := hperm.mem_iff.mp hq
    simp only [List.mem_cons, List.not_mem_nil, or_false] at this
    rcases this with e | e | e <;> · rw [e] at hq'; simp [cropParams] at hq'

/-! ### One axis -/

theorem positions_all (n : ℕ) : (PySlice.mk none none none).positions n = List.range n := by
  have := PySlice.positions_eq (s := ⟨none, none, none⟩) (Or.inl rfl) (n := n) (le_refl _)
  rw [this]; simp [PySlice.lo, PySlice.hi]

theorem indexArg_toIndex (o : Option ℤ) : (Spec.indexArg o).toIndex = o := by cases o <;> rfl

theorem indexArg_isIndex (o : Option ℤ) : (Spec.indexArg o).isIndex = true := by cases o <;> rfl

theorem indexArg_none (o : Option ℤ) : Spec.indexArg o = .none ↔ o = none := by cases o <;> simp [Spec.indexArg]

theorem changedAxis_set (sh : CropShape) (ax : CropAxis) (n : ℕ) :
    changedAxis sh (sh.set ax n) = if n = sh.size ax then none else some ax := by
  by_cases h : n = sh.size ax
  · rw [if_pos h]
    cases ax <;> simp [changedAxis, CropShape.size, CropShape.set] at h ⊢ <;> exact h.symm
  · rw [if_neg h]
    have h' : ¬ sh.size ax = n := fun e => h e.symm
    cases ax <;> simp [changedAxis, CropShape.size, CropShape.set, List.find?] at h h' ⊢ <;>
      rw [show (_ != n) = true from bne_iff_ne.mpr h']

theorem CropShape.set_size (sh : CropShape) (ax : CropAxis) : sh.set ax (sh.size ax) = sh := by
  cases ax <;> rfl

/-- C145, cropping to everything leaves the signal as it is. -/
theorem C145_crop_everything (a : SignalAttrs K V X) (sh : CropShape) (ax : CropAxis) (s t : Option ℤ)
    (h : ((PySlice.mk s t none).positions (sh.size ax)).length = sh.size ax) :
    cropCall a sh [.axis ax, .position (Spec.indexArg s), .position (Spec.indexArg t)] []
      = .ok (a, sh) := by
  have hb0 : Spec.CropBound [("axis", .axis ax), ("start", .position (Spec.indexArg s)),
      ("end", .position (Spec.indexArg t)), ("convert_units", .flag false)] ax (Spec.indexArg s)
      (Spec.indexArg t) := ⟨by simp [List.lookup], by simp [List.lookup], by simp [List.lookup]⟩
  rw [cropCall_bound a sh (by simp) (bind_positional ax _ _) hb0]
  have e : sh.crop ax (Spec.indexArg s) (Spec.indexArg t) = sh := by
    unfold CropShape.crop
    rw [indexArg_toIndex, indexArg_toIndex, h, CropShape.set_size]
  have c : changedAxis sh sh = none := by
    have := changedAxis_set sh ax (sh.size ax)
    rwa [if_pos rfl, CropShape.set_size] at this
  rw [e, c]
  split <;> rfl

/-- C145, cropping any axis to a part of it: shape and attributes are those after slicing that
axis. -/
theorem C145_crop_axis (a : SignalAttrs K V X) (sh : CropShape) (ax : CropAxis) (s t : Option ℤ)
    (h : ((PySlice.mk s t none).positions (sh.size ax)).length ≠ sh.size ax) :
    cropCall a sh [.axis ax, .position (Spec.indexArg s), .position (Spec.indexArg t)] []
      = .ok (Spec.slicedAttrs a sh ax ⟨s, t, none⟩, Spec.slicedShape sh ax ⟨s, t, none⟩) := by
  have hb0 : Spec.CropBound [("axis", .axis ax), ("start", .position (Spec.indexArg s)),
      ("end", .position (Spec.indexArg t)), ("convert_units", .flag false)] ax (Spec.indexArg s)
      (Spec.indexArg t) := ⟨by simp [List.lookup], by simp [List.lookup], by simp [List.lookup]⟩
  rw [cropCall_bound a sh (by simp) (bind_positional ax _ _) hb0]
  have hn : ¬ (Spec.indexArg s = .none ∧ Spec.indexArg t = .none) := by
    rw [indexArg_none, indexArg_none]
    rintro ⟨rfl, rfl⟩
    exact h (by rw [positions_all, List.length_range])
  rw [if_neg hn]
  unfold CropShape.crop
  rw [changedAxis_set, indexArg_toIndex, indexArg_toIndex, if_neg h]
  cases ax <;>
    simp [cropNavUpdate, cropSigUpdate, indexArg_isIndex, indexArg_toIndex, oneSliced,
      Spec.slicedAttrs, Spec.slicedShape, CropShape.set, CropShape.size, isigAttrs, positions_all,
      Except.map]

/-! ### Both axes -/

theorem positions_nat {t b n : ℕ} (h1 : t < b) (h2 : b ≤ n) :
    (PySlice.mk (some (t : ℤ)) (some (b : ℤ)) none).positions n
      = (List.range (b - t)).map (t + ·) := by
  have e1 : (PySlice.mk (some (t : ℤ)) (some (b : ℤ)) none).lo n = t := by
    simp only [PySlice.lo]; rw [if_neg (by omega)]; omega
  have e2 : (PySlice.mk (some (t : ℤ)) (some (b : ℤ)) none).hi n = b := by
    simp only [PySlice.hi]; rw [if_neg (by omega)]; omega
  rw [PySlice.positions_eq (Or.inl rfl) (by rw [e2]; exact h2), e1, e2]

theorem positions_nat_length {t b n : ℕ} (h1 : t < b) (h2 : b ≤ n) :
    ((PySlice.mk (some (t : ℤ)) (some (b : ℤ)) none).positions n).length = b - t := by
  rw [positions_nat h1 h2]; simp

theorem positions_nat_all {n : ℕ} (h : 0 < n) :
    (PySlice.mk (some ((0 : ℕ) : ℤ)) (some (n : ℤ)) none).positions n = List.range n := by
  rw [positions_nat h (le_refl _)]; simp

theorem filterMap_getElem_range {α : Type*} (l : List α) :
    (List.range l.length).filterMap (fun i => l[i]?) = l := by
  apply List.map_injective_iff.mpr (Option.some_injective α)
  have := takeMap_row (nx := 0) (l := l) (y := 0) (xs := List.range l.length)
    (fun x hx => by simpa using hx)
  simp only [Nat.zero_mul, Nat.zero_add] at this
  rw [this]
  apply List.ext_getElem? 
  intro i
  by_cases h : i < l.length
  · simp [h]
  · simp [h]

/-- Slicing rows and then columns of a rectangular array. -/
theorem takeRows_twice {bg : List (List V)} {ny nx : ℕ} (h1 : bg.length = ny)
    (h2 : ∀ r ∈ bg, r.length = nx) {ys xs : List ℕ} (hys : ∀ y ∈ ys, y < ny) :
    takeRows (takeRows bg ys (List.range nx)) (List.range ys.length) xs = takeRows bg ys xs := by
  have e1 : takeRows bg ys (List.range nx) = ys.filterMap fun y => bg[y]? := by
    unfold takeRows
    apply List.filterMap_congr
    intro y hy
    rw [List.getElem?_eq_getElem (by rw [h1]; exact hys y hy)]
    have : (bg[y]'(by rw [h1]; exact hys y hy)).length = nx := h2 _ (List.getElem_mem _)
    rw [Option.map_some, ← this, filterMap_getElem_range]
  have e2 : (ys.filterMap fun y => bg[y]?).length = ys.length := by
    have := takeRows_get (a := bg) (xs := List.range nx) h1 h2 hys (by simp)
    rw [e1] at this; exact this.1
  have e3 : ∀ L : List (List V), (List.range L.length).filterMap
      (fun y => (L[y]?).map fun row => xs.filterMap fun x => row[x]?)
      = L.map fun row => xs.filterMap fun x => row[x]? := by
    intro L
    conv_rhs => rw [← filterMap_getElem_range L]
    rw [List.map_filterMap]
  unfold takeRows at e1 ⊢
  rw [e1, ← e2, e3, List.map_filterMap]

/-- Slicing rows and then columns of a map. -/
theorem takeMap_twice {A : Type*} {ny nx : ℕ} {l : List A} (hl : l.length = ny * nx) {xs : List ℕ}
    (hxs : ∀ x ∈ xs, x < nx) : ∀ {ys : List ℕ}, (∀ y ∈ ys, y < ny) →
    takeMap nx (takeMap nx l ys (List.range nx)) (List.range ys.length) xs = takeMap nx l ys xs
  | [], _ => rfl
  | y :: ys, h => by
    have ih := takeMap_twice hl hxs (ys := ys) fun z hz => h z (List.mem_cons_of_mem _ hz)
    have hy := h y List.mem_cons_self
    have hlt : ∀ x < nx, y * nx + x < l.length := by
      intro x hx
      have h2 : (y + 1) * nx ≤ ny * nx := Nat.mul_le_mul_right _ (by omega)
      have h3 : (y + 1) * nx = y * nx + nx := by ring
      omega
    set row := (List.range nx).filterMap fun x => l[y * nx + x]? with hrow
    have hr : row.map some = (List.range nx).map fun x => l[y * nx + x]? :=
      takeMap_row (fun x hx => hlt x (by simpa using hx))
    have hlen : row.length = nx := by simpa using congrArg List.length hr
    have hget : ∀ x < nx, row[x]? = l[y * nx + x]? := by
      intro x hx
      have := congrArg (fun L => L[x]?) hr
      simp only [List.getElem?_map, List.getElem?_range hx, Option.map_some] at this
      rw [List.getElem?_eq_getElem (by omega : x < row.length)] at this ⊢
      simpa using this
    have e : takeMap nx l (y :: ys) (List.range nx) = row ++ takeMap nx l ys (List.range nx) := by
      unfold takeMap; rw [List.flatMap_cons]
    rw [e, List.length_cons, List.range_succ_eq_map]
    unfold takeMap at ih ⊢
    rw [List.flatMap_cons, List.flatMap_cons, List.flatMap_map]
    congr 1
    · apply List.filterMap_congr
      intro x hx
      rw [Nat.zero_mul, Nat.zero_add, List.getElem?_append_left (by rw [hlen]; exact hxs x hx)]
      exact hget x (hxs x hx)
    · rw [← ih]
      apply List.flatMap_congr
      intro z _
      apply List.filterMap_congr
      intro x _
      have : (z + 1) * nx = nx + z * nx := by ring
      rw [Nat.succ_eq_add_one, this, List.getElem?_append_right (by omega), hlen]
      congr 1; omega

/-- Cropping a detector to a rectangle inside it. -/
theorem crop_rectangle (d : Detector K) {t b l r : ℕ} (htb : t < b) (hb : b ≤ d.nrows)
    (hlr : l < r) (hr : r ≤ d.ncols) :
    d.crop ((t : ℤ), (b : ℤ), (l : ℤ), (r : ℤ)) = .ok
      { d with
        nrows := b - t, ncols := r - l, twist := 0, nav := dstackNav d.nav
        pc := d.pc.map (d.cropPc t l ((b - t : ℕ) : ℤ) ((r - l : ℕ) : ℤ)) } := by
  unfold Detector.crop
  refine (if_neg (by simp only [cropExtent]; omega)).trans ?_
  simp only [cropExtent]
  have e1 : max (t : ℤ) 0 = t := by omega
  have e2 : min (b : ℤ) (d.nrows : ℤ) = b := by omega
  have e3 : ((b : ℤ) - t).toNat = b - t := by omega
  have e4 : (b : ℤ) - t = ((b - t : ℕ) : ℤ) := by omega
  have f1 : max (l : ℤ) 0 = l := by omega
  have f2 : min (r : ℤ) (d.ncols : ℤ) = r := by omega
  have f3 : ((r : ℤ) - l).toNat = r - l := by omega
  have f4 : (r : ℤ) - l = ((r - l : ℕ) : ℤ) := by omega
  simp only [e1, e2, e3, f1, f2, f3]
  rw [e4, f4]

/-- C145, `crop_signal(top, bottom, left, right)`: for every rectangle inside the patterns and not all
of them, background, detector and shape are those of `isig[left:right, top:bottom]`. -/
theorem C145_crop_signal (a : SignalAttrs K V X) (sh : CropShape) {t b l r : ℕ}
    (hd : a.detector.nrows = sh.2.1 ∧ a.detector.ncols = sh.2.2)
    (hbg : ∀ bg, a.background = some bg → bg.length = sh.2.1 ∧ ∀ row ∈ bg, row.length = sh.2.2)
    (htb : t < b) (hb : b ≤ sh.2.1) (hlr : l < r) (hr : r ≤ sh.2.2)
    (hpart : b - t ≠ sh.2.1 ∨ r - l ≠ sh.2.2) :
    cropSignal a sh (.index t) (.index b) (.index l) (.index r)
      = .ok (isigAttrs a sh.2 ⟨some t, some b, none⟩ ⟨some l, some r, none⟩,
          (sh.1, (b - t, r - l))) := by
  obtain ⟨nav, ny, nx⟩ := sh
  obtain ⟨hd1, hd2⟩ := hd
  simp only at hd1 hd2 hb hr hpart hbg ⊢
  have ly := positions_nat_length htb hb
  have lx := positions_nat_length hlr hr
  unfold cropSignal
  by_cases hy : b - t = ny
  · have ht0 : t = 0 := by omega
    have hbn : b = ny := by omega
    subst ht0; subst hbn
    rw [show (CropArg.index ((0 : ℕ) : ℤ)) = Spec.indexArg (some ((0 : ℕ) : ℤ)) from rfl,
      show (CropArg.index ((b : ℕ) : ℤ)) = Spec.indexArg (some ((b : ℕ) : ℤ)) from rfl,
      C145_crop_everything a _ .sigRow _ _ (by simpa [CropShape.size] using ly)]
    have := C145_crop_axis a (nav, b, nx) .sigCol (some (l : ℤ)) (some (r : ℤ)) (by
      simp only [CropShape.size, lx]; simpa using hpart)
    refine this.trans ?_
    simp only [Spec.slicedAttrs, Spec.slicedShape, isigAttrs, lx, positions_all,
      positions_nat_all htb, Nat.sub_zero, List.length_range, sliceSigDetector, sliceExtent,
      Option.getD_none, Option.getD_some]
    rfl
  · have h1 := C145_crop_axis a (nav, ny, nx) .sigRow (some (t : ℤ)) (some (b : ℤ)) (by
      simp only [CropShape.size, ly]; exact hy)
    rw [show (CropArg.index (t : ℤ)) = Spec.indexArg (some (t : ℤ)) from rfl,
      show (CropArg.index (b : ℤ)) = Spec.indexArg (some (b : ℤ)) from rfl, h1]
    simp only [bind, Except.bind, Spec.slicedShape, ly]
    by_cases hx : r - l = nx
    · have hl0 : l = 0 := by omega
      have hrn : r = nx := by omega
      subst hl0; subst hrn
      have h2 := C145_crop_everything (Spec.slicedAttrs a (nav, ny, r) .sigRow
        ⟨some (t : ℤ), some (b : ℤ), none⟩) (nav, b - t, r) .sigCol (some ((0 : ℕ) : ℤ))
        (some (r : ℤ)) (by simpa [CropShape.size] using lx)
      refine h2.trans ?_
      simp only [Spec.slicedAttrs, isigAttrs, ly, positions_all,
        positions_nat_all hlr, Nat.sub_zero, List.length_range, sliceSigDetector, sliceExtent,
        Option.getD_none, Option.getD_some]
      rfl
    · have h2 := C145_crop_axis (Spec.slicedAttrs a (nav, ny, nx) .sigRow
        ⟨some (t : ℤ), some (b : ℤ), none⟩) (nav, b - t, nx) .sigCol (some (l : ℤ))
        (some (r : ℤ)) (by simp only [CropShape.size, lx]; exact hx)
      refine h2.trans ?_
      simp only [Spec.slicedShape, lx]
      congr 2
      have hK : ∀ n : ℕ, 0 < n → ((n : ℕ) : K) ≠ 0 := fun n hn => Nat.cast_ne_zero.mpr (by omega)
      have hdet : sliceSigDetector (sliceSigDetector a.detector ⟨some (t : ℤ), some (b : ℤ), none⟩
            ⟨none, none, none⟩ (b - t, nx)) ⟨none, none, none⟩ ⟨some (l : ℤ), some (r : ℤ), none⟩
            (b - t, r - l)
          = sliceSigDetector a.detector ⟨some (t : ℤ), some (b : ℤ), none⟩
            ⟨some (l : ℤ), some (r : ℤ), none⟩ (b - t, r - l) := by
        have c1 := crop_rectangle a.detector htb (by omega : b ≤ a.detector.nrows)
          (by omega : 0 < nx) (by omega : nx ≤ a.detector.ncols)
        have c2 := crop_rectangle a.detector htb (by omega : b ≤ a.detector.nrows) hlr
          (by omega : r ≤ a.detector.ncols)
        simp only [Nat.cast_zero, Nat.sub_zero] at c1
        simp only [sliceSigDetector, sliceExtent, Option.getD_some, Option.getD_none, c1, c2]
        have c3 := crop_rectangle
          { a.detector with
            nrows := b - t, ncols := nx, twist := 0, nav := dstackNav a.detector.nav
            pc := a.detector.pc.map (a.detector.cropPc t 0 ((b - t : ℕ) : ℤ) nx) }
          (by omega : 0 < b - t) (le_refl (b - t)) hlr hr
        simp only [Nat.cast_zero, Nat.sub_zero] at c3
        rw [c3]
        have f5 : dstackNav (dstackNav a.detector.nav) = dstackNav a.detector.nav := by
          rcases a.detector.nav with _ | ⟨n, _ | ⟨m, k⟩⟩ <;> rfl
        simp only [f5, List.map_map]
        congr 1
        apply List.map_congr_left
        intro p _
        have k1 := hK nx (by omega)
        have k2 := hK (b - t) (by omega)
        have k3 := hK (r - l) (by omega)
        simp only [Function.comp, Detector.cropPc, hd1, hd2, Int.cast_natCast, Int.cast_zero,
          sub_zero]
        congr 1 <;> field_simp
      have hback : (a.background.map fun bg => takeRows bg
            ((PySlice.mk (some (t : ℤ)) (some (b : ℤ)) none).positions ny) (List.range nx)).map
            (fun bg => takeRows bg (List.range (b - t))
              ((PySlice.mk (some (l : ℤ)) (some (r : ℤ)) none).positions nx))
          = a.background.map fun bg => takeRows bg
            ((PySlice.mk (some (t : ℤ)) (some (b : ℤ)) none).positions ny)
            ((PySlice.mk (some (l : ℤ)) (some (r : ℤ)) none).positions nx) := by
        cases hbk : a.background with
        | none => rfl
        | some bg =>
          obtain ⟨g1, g2⟩ := hbg bg hbk
          have := takeRows_twice g1 g2 (xs := (PySlice.mk (some (l : ℤ)) (some (r : ℤ))
            none).positions nx) (positions_lt (s := ⟨some (t : ℤ), some (b : ℤ), none⟩))
          rw [ly] at this
          simp only [Option.map_some, this]
      simp only [Spec.slicedAttrs, isigAttrs, ly, lx, positions_all, List.length_range, hdet, hback]

/-- C145, cropping map rows and then map columns: for every rectangle of the map, crystal map, PCs and
shape are those of `inav[left:right, top:bottom]`; both with one PC and with one in every map
point. -/
theorem C145_crop_map (a : SignalAttrs K V X) (sh : CropShape) {t b l r : ℕ}
    (hd : a.detector.nav = [1]
      ∨ a.detector.nav = [sh.1.1, sh.1.2] ∧ a.detector.pc.length = sh.1.1 * sh.1.2)
    (hm : ∀ m, a.xmap = some m → m.shape = [sh.1.1, sh.1.2] ∧ m.points.length = sh.1.1 * sh.1.2)
    (htb : t < b) (hb : b ≤ sh.1.1) (hlr : l < r) (hr : r ≤ sh.1.2)
    (hpart : b - t ≠ sh.1.1 ∨ r - l ≠ sh.1.2) :
    (cropCall a sh [.axis .navRow, .position (.index t), .position (.index b)] []).bind
        (fun q => cropCall q.1 q.2 [.axis .navCol, .position (.index l), .position (.index r)] [])
      = .ok (inavAttrs a sh.1 ⟨some t, some b, none⟩ ⟨some l, some r, none⟩,
          ((b - t, r - l), sh.2)) := by
  obtain ⟨⟨ny, nx⟩, sig⟩ := sh
  simp only at hd hm hb hr hpart ⊢
  have ly := positions_nat_length htb hb
  have lx := positions_nat_length hlr hr
  have same : ∀ {s s' u u' : PySlice}, s.positions ny = s'.positions ny →
      u.positions nx = u'.positions nx → inavAttrs a (ny, nx) s u = inavAttrs a (ny, nx) s' u' := by
    intro s s' u u' e1 e2
    simp only [inavAttrs, sliceNavDetector, e1, e2]
    rcases hd with h | ⟨h, _⟩ <;> simp only [h, e1, e2]
  by_cases hy : b - t = ny
  · have ht0 : t = 0 := by omega
    have hbn : b = ny := by omega
    subst ht0; subst hbn
    rw [show (CropArg.index ((0 : ℕ) : ℤ)) = Spec.indexArg (some ((0 : ℕ) : ℤ)) from rfl,
      show (CropArg.index ((b : ℕ) : ℤ)) = Spec.indexArg (some ((b : ℕ) : ℤ)) from rfl,
      C145_crop_everything a _ .navRow _ _ (by simpa [CropShape.size] using ly)]
    have := C145_crop_axis a ((b, nx), sig) .navCol (some (l : ℤ)) (some (r : ℤ)) (by
      simp only [CropShape.size, lx]; simpa using hpart)
    refine this.trans ?_
    simp only [Spec.slicedAttrs, Spec.slicedShape, lx, Nat.sub_zero]
    rw [same ((positions_all b).trans (positions_nat_all htb).symm) rfl]
  · have h1 := C145_crop_axis a ((ny, nx), sig) .navRow (some (t : ℤ)) (some (b : ℤ)) (by
      simp only [CropShape.size, ly]; exact hy)
    rw [show (CropArg.index (t : ℤ)) = Spec.indexArg (some (t : ℤ)) from rfl,
      show (CropArg.index (b : ℤ)) = Spec.indexArg (some (b : ℤ)) from rfl, h1]
    simp only [Except.bind, Spec.slicedShape, ly]
    by_cases hx : r - l = nx
    · have hl0 : l = 0 := by omega
      have hrn : r = nx := by omega
      subst hl0; subst hrn
      have h2 := C145_crop_everything (Spec.slicedAttrs a ((ny, r), sig) .navRow
        ⟨some (t : ℤ), some (b : ℤ), none⟩) ((b - t, r), sig) .navCol (some ((0 : ℕ) : ℤ))
        (some (r : ℤ)) (by simpa [CropShape.size] using lx)
      refine h2.trans ?_
      simp only [Spec.slicedAttrs, Nat.sub_zero]
      rw [same rfl ((positions_all r).trans (positions_nat_all hlr).symm)]
    · have h2 := C145_crop_axis (Spec.slicedAttrs a ((ny, nx), sig) .navRow
        ⟨some (t : ℤ), some (b : ℤ), none⟩) ((b - t, nx), sig) .navCol (some (l : ℤ))
        (some (r : ℤ)) (by simp only [CropShape.size, lx]; exact hx)
      refine h2.trans ?_
      simp only [Spec.slicedShape, lx]
      congr 2
      have hyne : (PySlice.mk (some (t : ℤ)) (some (b : ℤ)) none).positions ny ≠ [] := by
        intro e; rw [e] at ly; simp only [List.length_nil] at ly; omega
      have hxne : (PySlice.mk (some (l : ℤ)) (some (r : ℤ)) none).positions nx ≠ [] := by
        intro e; rw [e] at lx; simp only [List.length_nil] at lx; omega
      have hspan : ∀ {t b n : ℕ}, t < b → b ≤ n →
          spanOf ((PySlice.mk (some (t : ℤ)) (some (b : ℤ)) none).positions n) = b - t := by
        intro t b n h1 h2
        have hh : (PySlice.mk (some (t : ℤ)) (some (b : ℤ)) none).hi n ≤ n := by
          simp only [PySlice.hi]; rw [if_neg (by omega)]; omega
        have hl := positions_nat_length h1 h2
        rw [spanOf_positions (Or.inl rfl) hh (by intro e; rw [e] at hl; simp only [List.length_nil] at hl; omega), hl]
      have hspan' : ∀ n, 0 < n → spanOf (List.range n) = n := by
        intro n hn
        rw [← positions_nat_all hn, hspan hn (le_refl _), Nat.sub_zero]
      have hrne : List.range nx ≠ [] := by
        intro e; have := congrArg List.length e; simp at this; omega
      have hrne' : List.range (b - t) ≠ [] := by
        intro e; have := congrArg List.length e; simp at this; omega
      have twice : ∀ {A : Type} {L : List A}, L.length = ny * nx →
          takeMap nx (takeMap nx L ((PySlice.mk (some (t : ℤ)) (some (b : ℤ)) none).positions ny)
            (List.range nx)) (List.range (b - t))
            ((PySlice.mk (some (l : ℤ)) (some (r : ℤ)) none).positions nx)
          = takeMap nx L ((PySlice.mk (some (t : ℤ)) (some (b : ℤ)) none).positions ny)
            ((PySlice.mk (some (l : ℤ)) (some (r : ℤ)) none).positions nx) := by
        intro A L hL
        have := takeMap_twice hL (positions_lt (s := ⟨some (l : ℤ), some (r : ℤ), none⟩))
          (positions_lt (s := ⟨some (t : ℤ), some (b : ℤ), none⟩))
        rwa [ly] at this
      have hmap : (a.xmap.map fun m => sliceXmap m (ny, nx)
            ((PySlice.mk (some (t : ℤ)) (some (b : ℤ)) none).positions ny) (List.range nx)).map
            (fun m => sliceXmap m (b - t, nx) (List.range (b - t))
              ((PySlice.mk (some (l : ℤ)) (some (r : ℤ)) none).positions nx))
          = a.xmap.map fun m => sliceXmap m (ny, nx)
            ((PySlice.mk (some (t : ℤ)) (some (b : ℤ)) none).positions ny)
            ((PySlice.mk (some (l : ℤ)) (some (r : ℤ)) none).positions nx) := by
        cases hmk : a.xmap with
        | none => rfl
        | some m =>
          obtain ⟨g1, g2⟩ := hm m hmk
          have key : ∀ {M : SlicedMap X} {n n' : ℕ} {ys xs : List ℕ}, M.shape = [n, n'] → ys ≠ [] →
              xs ≠ [] → sliceXmap M (n, n') ys xs
                = ⟨[spanOf ys, spanOf xs], takeMap n' M.points ys xs⟩ := by
            intro M n n' ys xs e1 e2 e3
            exact if_pos ⟨e1, e2, e3⟩
          have k1 := key g1 hyne hrne
          have k2 := key g1 hyne hxne
          rw [hspan htb hb, hspan' nx (by omega)] at k1
          rw [hspan htb hb, hspan hlr hr] at k2
          simp only [Option.map_some, k1, k2]
          rw [key rfl hrne' hxne, hspan' _ (by omega), hspan hlr hr, twice g2]
      have hdet : sliceNavDetector (sliceNavDetector a.detector ⟨some (t : ℤ), some (b : ℤ), none⟩
            ⟨none, none, none⟩) ⟨none, none, none⟩ ⟨some (l : ℤ), some (r : ℤ), none⟩
          = sliceNavDetector a.detector ⟨some (t : ℤ), some (b : ℤ), none⟩
            ⟨some (l : ℤ), some (r : ℤ), none⟩ := by
        rcases hd with h | ⟨h, hl⟩
        · simp only [sliceNavDetector, h]
        · have n1 : takeMap nx a.detector.pc ((PySlice.mk (some (t : ℤ)) (some (b : ℤ))
              none).positions ny) (List.range nx) ≠ [] := by
            intro e
            have := takeMap_length hl (xs := List.range nx) (by simp)
              (positions_lt (s := ⟨some (t : ℤ), some (b : ℤ), none⟩))
            rw [e, ly, List.length_range, List.length_nil] at this
            have := Nat.mul_pos (show 0 < b - t by omega) (show 0 < nx by omega)
            omega
          simp only [sliceNavDetector, h, positions_all, n1, if_false, ly, List.length_range, lx,
            twice hl]
      simp only [Spec.slicedAttrs, inavAttrs, positions_all, hdet, hmap]

/-- Cropping to everything and slicing everything differ: slicing drops the twist of the detector and
changes the navigation shape of a detector with one PC. -/
theorem C145_everything_matters :
    let a := { exAttrs with detector := { exAttrs.detector with nav := [1], pc := [⟨1 / 3, 1 / 4, 2⟩] } }
    (cropSignal a ((1, 4), (4, 4)) (.index 0) (.index 4) (.index 0) (.index 4)).toOption
        = some (a, ((1, 4), (4, 4)))
    ∧ a.detector.twist = 3
    ∧ (isigAttrs a (4, 4) ⟨some 0, some 4, none⟩ ⟨some 0, some 4, none⟩).detector.twist = 0
    ∧ (isigAttrs a (4, 4) ⟨some 0, some 4, none⟩ ⟨some 0, some 4, none⟩).detector.nav = [1, 1] := by
  decide +kernel

/-- The hypotheses of `C145_crop_signal` and `C145_crop_map` are met. -/
example : (exAttrs.detector.nrows = 4 ∧ exAttrs.detector.ncols = 4)
    ∧ (∀ bg, exAttrs.background = some bg → bg.length = 4 ∧ ∀ row ∈ bg, row.length = 4)
    ∧ exAttrs.detector.nav = [1, 4] ∧ exAttrs.detector.pc.length = 1 * 4
    ∧ (∀ m, exAttrs.xmap = some m → m.shape = [1, 4] ∧ m.points.length = 1 * 4) := by
  refine ⟨⟨rfl, rfl⟩, ?_, rfl, rfl, ?_⟩
  · rintro bg h; injection h with h; rw [← h]; decide
  · rintro m h; injection h with h; rw [← h]; decide

example : ((cropSignal exAttrs ((1, 4), (4, 4)) (.index 1) (.index 3) (.index 0)
      (.index 2)).toOption.map fun q => (q.1.background, q.1.detector.nrows, q.1.detector.ncols, q.2))
    = some (some [[10, 11], [20, 21]], 2, 2, ((1, 4), (2, 2))) := by decide +kernel

/-- The hypotheses of `C145_parameters` and `C145_same_call` are met: a mixed call. -/
example : (bindArguments cropParams [.axis .sigRow] [("end", .position (.index 3)),
      ("start", .position (.index 1))]).toOption
      = some [("axis", .axis .sigRow), ("start", .position (.index 1)), ("end", .position (.index 3)),
        ("convert_units", .flag false)]
    ∧ (bindArguments cropParams [.axis .sigRow, .axis .sigRow] [("axis", .axis .sigRow)]).toOption = none
    ∧ (bindArguments cropParams [] [("begin", .axis .sigRow)]).toOption = none := by decide +kernel

end Kp
