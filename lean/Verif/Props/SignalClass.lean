import Verif.Model.SignalClass

/-
C91: the class of a signal follows its type, and operations keep the class's own attributes.
-/

namespace Kp

variable {V C : Type}

/-! ### Specification -/

/-- The signal types of the documentation (`hyperspy_extension.yaml`), with aliases. -/
def Spec.typeNames : SigKind → List String
  | .ebsd => ["EBSD", "electron_backscatter_diffraction"]
  | .ebsdMaster => ["EBSDMasterPattern", "ebsd_master_pattern", "master_pattern"]
  | .ecpMaster => ["ECPMasterPattern", "ecp_master_pattern"]
  | .vbse => ["VirtualBSEImage", "virtual_backscatter_electron_image"]
  | .plain => []

/-- A signal whose class is the one of its type, and which has the attributes of its class. -/
structure Spec.Consistent (s : Sig V) : Prop where
  kind : s.kind = if s.real then kindOfType s.type else .plain
  attrs : ∀ n ∈ s.kind.custom, ∃ v, s.attr n = some v

/-- The signal after an operation, also if it raised. -/
def Spec.after (o : AttrOps V) (s : Sig V) (op : SigOp) : Sig V :=
  match s.apply o op with
  | .ok s' => s'
  | .error (_, s') => s'

/-- Operations that do not ask for another class. -/
def Spec.keeps : SigOp → Prop
  | .setType _ => False
  | .changeDtype r => r = true
  | _ => True

/-! ### Loading -/

theorem filter_unique {α : Type} {p : α → Bool} {c : α} : ∀ {l : List α},
    l.Pairwise (fun a b => ¬ (p a = true ∧ p b = true)) →
    (l.filter p = [c] ↔ c ∈ l ∧ p c = true)
  | [], _ => by simp
  | a :: l, h => by
    have ⟨h1, h2⟩ := List.pairwise_cons.1 h
    have ih := filter_unique (c := c) h2
    by_cases ha : p a = true
    · have hnil : l.filter p = [] := by
        rw [List.filter_eq_nil_iff]
        intro b hb hpb
        exact h1 b hb ⟨ha, hpb⟩
      rw [List.filter_cons_of_pos ha, hnil]
      constructor
      · intro e
        have : a = c := by simpa using e
        subst this
        exact ⟨by simp, ha⟩
      · rintro ⟨hc, hpc⟩
        rcases List.mem_cons.1 hc with rfl | hc
        · rfl
        · exact absurd ⟨ha, hpc⟩ (h1 c hc)
    · rw [List.filter_cons_of_neg ha, ih]
      constructor
      · rintro ⟨hc, hpc⟩
        exact ⟨by simp [hc], hpc⟩
      · rintro ⟨hc, hpc⟩
        rcases List.mem_cons.1 hc with rfl | hc
        · exact absurd hpc ha
        · exact ⟨hc, hpc⟩

theorem classes_disjoint (lazy : Bool) (t : String) :
    (signalClasses.filter (fun c => c.lazy == lazy)).Pairwise (fun a b =>
      ¬ ((a.signalType == t || a.aliases.contains t) = true ∧
        (b.signalType == t || b.aliases.contains t) = true)) := by
  have h : ∀ lazy : Bool, (signalClasses.filter (fun c => c.lazy == lazy)).Pairwise (fun a b =>
      ∀ t ∈ a.signalType :: a.aliases, t ∉ b.signalType :: b.aliases) := by decide
  refine (h lazy).imp ?_
  rintro a b hab ⟨h1, h2⟩
  simp only [Bool.or_eq_true, beq_iff_eq, List.contains_iff_mem] at h1 h2
  refine hab t ?_ ?_
  · rcases h1 with rfl | h1
    · simp
    · simp [h1]
  · rcases h2 with rfl | h2
    · simp
    · simp [h2]

/-- C91: a signal with real data is loaded into the one class of its signal type or alias, lazy if
and only if this is asked for; and data of a type that is not understood, a type which is not
kikuchipy's, or `record_by` other than "image" raises `ValueError`. -/
theorem C91_loaded_class (d : String) (t : Option String) (lazy : Bool) (r : Option String) :
    (∀ c, dict2signalClass r t d lazy = .ok c ↔
      dtypeIsReal d = true ∧ (r = none ∨ r = some "image") ∧ c ∈ signalClasses ∧ c.lazy = lazy ∧
        (t.getD "" = c.signalType ∨ t.getD "" ∈ c.aliases)) ∧
    (∀ e, dict2signalClass r t d lazy = .error e → e = .valueError) := by
  have key : ∀ t : String, (∀ c, assignSignalSubclass d t lazy = .ok c ↔
      dtypeIsReal d = true ∧ c ∈ signalClasses ∧ c.lazy = lazy ∧
        (t = c.signalType ∨ t ∈ c.aliases)) ∧
      (∀ e, assignSignalSubclass d t lazy = .error e → e = .valueError) := by
    intro t
    constructor
    · intro c
      have hu := filter_unique (c := c) (classes_disjoint lazy t)
      unfold assignSignalSubclass
      by_cases hd : dtypeIsReal d = true
      · simp only [hd, if_true, true_and]
        have e : (c ∈ signalClasses ∧ c.lazy = lazy ∧ (t = c.signalType ∨ t ∈ c.aliases)) ↔
            (signalClasses.filter (fun c => c.lazy == lazy)).filter
              (fun c => c.signalType == t || c.aliases.contains t) = [c] := by
          rw [hu]
          simp only [List.mem_filter, beq_iff_eq, Bool.or_eq_true, List.contains_iff_mem, and_assoc,
            eq_comm (a := t)]
        rw [e]
        generalize (signalClasses.filter (fun c => c.lazy == lazy)).filter
          (fun c => c.signalType == t || c.aliases.contains t) = l
        match l with
        | [] => simp
        | [a] => simp
        | a :: b :: l => simp
      · simp [hd]
    · intro e he
      unfold assignSignalSubclass at he
      split at he
      · simp only at he
        split at he
        · cases he
        · cases he; rfl
      · cases he; rfl
  obtain ⟨k1, k2⟩ := key (t.getD "")
  constructor
  · intro c
    cases r with
    | none => simpa [dict2signalClass] using k1 c
    | some r =>
      by_cases hr : r = "image"
      · simpa [dict2signalClass, hr] using k1 c
      · simp [dict2signalClass, hr]
  · intro e he
    cases r with
    | none => exact k2 e he
    | some r =>
      by_cases hr : r = "image"
      · simp only [dict2signalClass, hr, ne_eq, not_true_eq_false, if_false] at he
        exact k2 e he
      · simp only [dict2signalClass, hr, ne_eq, not_false_eq_true, if_true] at he
        cases he; rfl

example : dict2signalClass (some "image") (some "master_pattern") "uint8" true =
    .ok ⟨"LazyEBSDMasterPattern", "EBSDMasterPattern", ["ebsd_master_pattern", "master_pattern"],
      true⟩ := by decide +kernel

example : dict2signalClass (some "image") (some "EBSD") "complex64" false = .error .valueError := by
  decide +kernel

theorem textContains_infix (part : List Char) : ∀ pre post : List Char,
    textContains part (pre ++ part ++ post) = true
  | [], post => by
    cases h : part ++ post with
    | nil =>
      obtain ⟨rfl, rfl⟩ := List.append_eq_nil_iff.1 h
      rfl
    | cons c cs =>
      have h1 : textContains part (c :: cs) = true := by
        rw [textContains, ← h]
        simp
      simpa [h] using h1
  | c :: pre, post => by
    have := textContains_infix part pre post
    simp only [List.cons_append, textContains]
    rw [this]
    simp

/-- C91: all integer and floating point types have a name that is understood. -/
theorem C91_numbers_understood (pre post : List Char) :
    dtypeIsReal (String.ofList (pre ++ "int".toList ++ post)) = true ∧
      dtypeIsReal (String.ofList (pre ++ "float".toList ++ post)) = true := by
  unfold dtypeIsReal
  constructor
  · have e : (String.ofList (pre ++ "int".toList ++ post)).toList = pre ++ "int".toList ++ post :=
      String.toList_ofList
    rw [e, textContains_infix "int".toList pre post]
    simp
  · have e : (String.ofList (pre ++ "float".toList ++ post)).toList =
        pre ++ "float".toList ++ post := String.toList_ofList
    rw [e, textContains_infix "float".toList pre post]
    simp

theorem textContains_iff (part : List Char) : ∀ s : List Char,
    textContains part s = true ↔ part <:+: s
  | [] => by
    cases part <;> simp [textContains]
  | c :: cs => by
    rw [textContains, Bool.or_eq_true, List.isPrefixOf_iff_prefix, textContains_iff part cs,
      List.infix_cons_iff]

/-- C91: the names that are understood are those with one of five words in them. -/
theorem C91_names_understood (name : String) : dtypeIsReal name = true ↔
    ∃ word ∈ ["float", "int", "void", "bool", "object"], word.toList <:+: name.toList := by
  unfold dtypeIsReal
  simp only [Bool.or_eq_true, textContains_iff, List.mem_cons, List.not_mem_nil, or_false,
    exists_eq_or_imp, exists_eq_left, or_assoc]

example : String.ofList ("u".toList ++ "int".toList ++ "16".toList) = "uint16" := by decide +kernel

/-! ### Attributes -/

theorem kindOfType_spec (t : String) (k : SigKind) (hk : k ≠ .plain) :
    kindOfType t = k ↔ t ∈ Spec.typeNames k := by
  unfold kindOfType
  constructor
  · intro h
    split_ifs at h <;> subst h <;> simp_all [Spec.typeNames]
  · intro h
    cases k <;> simp only [Spec.typeNames, List.mem_cons, List.not_mem_nil, or_false] at h
    · rcases h with rfl | rfl <;> decide
    · rcases h with rfl | rfl | rfl <;> decide
    · rcases h with rfl | rfl <;> decide
    · rcases h with rfl | rfl <;> decide

theorem master_contains {t : String} (h : (kindOfType t).isMaster = true) :
    textContains "master".toList (t.toList.map pyLower) = true := by
  have h' : kindOfType t = .ebsdMaster ∨ kindOfType t = .ecpMaster := by
    revert h
    cases kindOfType t <;> simp [SigKind.isMaster]
  rcases h' with h' | h'
  · rw [kindOfType_spec _ _ (by decide)] at h'
    simp only [Spec.typeNames, List.mem_cons, List.not_mem_nil, or_false] at h'
    rcases h' with rfl | rfl | rfl <;> decide +kernel
  · rw [kindOfType_spec _ _ (by decide)] at h'
    simp only [Spec.typeNames, List.mem_cons, List.not_mem_nil, or_false] at h'
    rcases h' with rfl | rfl <;> decide +kernel

theorem getCustom_ok {s : Sig V} (h : ∀ n ∈ s.kind.custom, ∃ v, s.attr n = some v) :
    ∃ attrs, s.getCustom = .ok attrs ∧
      ∀ n, attrs.lookup n = if n ∈ s.kind.custom then s.attr n else none := by
  obtain ⟨k, t, r, l, a⟩ := s
  unfold Sig.getCustom
  simp only at h ⊢
  cases k
  case ebsd =>
    obtain ⟨v1, h1⟩ := h .detector (by simp [SigKind.custom])
    obtain ⟨v2, h2⟩ := h .staticBackground (by simp [SigKind.custom])
    obtain ⟨v3, h3⟩ := h .xmap (by simp [SigKind.custom])
    refine ⟨[(.detector, v1), (.staticBackground, v2), (.xmap, v3)], ?_, ?_⟩
    · simp [SigKind.custom, h1, h2, h3, bind, Except.bind, pure, Except.pure]
    · intro n
      cases n <;> first
        | (rw [if_pos (by decide)]; first | exact h1.symm | exact h2.symm | exact h3.symm)
        | (rw [if_neg (by decide)]; rfl)
  case vbse => exact ⟨[], rfl, by simp [SigKind.custom]⟩
  case plain => exact ⟨[], rfl, by simp [SigKind.custom]⟩
  all_goals
    obtain ⟨v1, h1⟩ := h .hemisphere (by simp [SigKind.custom])
    obtain ⟨v2, h2⟩ := h .phase (by simp [SigKind.custom])
    obtain ⟨v3, h3⟩ := h .projection (by simp [SigKind.custom])
    refine ⟨[(.hemisphere, v1), (.phase, v2), (.projection, v3)], ?_, ?_⟩
    · simp [SigKind.custom, h1, h2, h3, bind, Except.bind, pure, Except.pure]
    · intro n
      cases n <;> first
        | (rw [if_pos (by decide)]; first | exact h1.symm | exact h2.symm | exact h3.symm)
        | (rw [if_neg (by decide)]; rfl)

theorem hsAssign_consistent (o : AttrOps V) (s : Sig V) : Spec.Consistent (s.hsAssign o) := by
  refine ⟨rfl, ?_⟩
  intro n hn
  refine ⟨o.default n, ?_⟩
  simp only [Sig.hsAssign, Sig.runInit] at hn ⊢
  rw [if_pos hn]

theorem delete_consistent {s : Sig V} (h : Spec.Consistent s) {names : List AttrName}
    (hd : ∀ n ∈ names, n ∉ s.kind.custom) : Spec.Consistent (s.delete names) := by
  refine ⟨h.kind, ?_⟩
  intro n hn
  have hn' : n ∈ s.kind.custom := hn
  obtain ⟨v, hv⟩ := h.attrs n hn'
  refine ⟨v, ?_⟩
  simp only [Sig.delete]
  rw [if_neg (fun hm => hd n hm hn'), hv]

theorem assignSubclass_consistent (o : AttrOps V) (s : Sig V) :
    Spec.Consistent (s.assignSubclass o) := by
  unfold Sig.assignSubclass
  split_ifs with h1
  · exact hsAssign_consistent o s
  · simp only
    split_ifs with h2
    · refine delete_consistent (hsAssign_consistent o s) ?_
      intro n _ hn
      rw [h2] at hn
      simp [SigKind.custom] at hn
    · exact hsAssign_consistent o s

theorem assignSubclass_kind (o : AttrOps V) (s : Sig V) :
    (s.assignSubclass o).kind = if s.real then kindOfType s.type else .plain := by
  unfold Sig.assignSubclass
  simp only
  split_ifs <;> simp_all [Sig.hsAssign, Sig.runInit, Sig.delete]

theorem assignSubclass_same (o : AttrOps V) (s : Sig V) :
    (s.assignSubclass o).type = s.type ∧ (s.assignSubclass o).real = s.real ∧
      (s.assignSubclass o).lazy = s.lazy := by
  unfold Sig.assignSubclass
  simp only
  split_ifs <;> exact ⟨rfl, rfl, rfl⟩

theorem setCustom_spec {s s' : Sig V} {conv : V → V} {attrs : List (AttrName × V)}
    (h : s.setCustom conv attrs = .ok s') :
    s'.kind = s.kind ∧ s'.type = s.type ∧ s'.real = s.real ∧ s'.lazy = s.lazy ∧
      (∀ n v, attrs.lookup n = some v → n ∈ s.kind.custom → s'.attr n = some (conv v)) ∧
      (∀ n, attrs.lookup n = none ∨ n ∉ s.kind.custom → s'.attr n = s.attr n) := by
  unfold Sig.setCustom at h
  split_ifs at h
  rw [Except.ok.injEq] at h
  subst h
  refine ⟨rfl, rfl, rfl, rfl, ?_, ?_⟩
  · intro n v hv hn
    simp [hv, hn]
  · intro n hn
    cases hl : attrs.lookup n with
    | none => simp [hl]
    | some v =>
      rcases hn with hn | hn
      · rw [hl] at hn; cases hn
      · simp [hl, hn]

theorem setCustom_consistent {s s' : Sig V} {conv : V → V} {attrs : List (AttrName × V)}
    (h : Spec.Consistent s) (hs : s.setCustom conv attrs = .ok s') : Spec.Consistent s' := by
  obtain ⟨h1, h2, h3, -, h4, h5⟩ := setCustom_spec hs
  refine ⟨by rw [h1, h2, h3]; exact h.kind, ?_⟩
  intro n hn
  rw [h1] at hn
  cases hl : attrs.lookup n with
  | none =>
    rw [h5 n (Or.inl hl)]
    exact h.attrs n hn
  | some v => exact ⟨_, h4 n v hl hn⟩

theorem setCustom_ok {s : Sig V} (hs : s.kind ≠ .plain) (conv : V → V)
    (attrs : List (AttrName × V)) : ∃ s', s.setCustom conv attrs = .ok s' := by
  unfold Sig.setCustom
  rw [if_neg hs]
  exact ⟨_, rfl⟩

/-- A class other than a master pattern's does not have a master pattern's attributes. -/
theorem custom_disjoint {k k' : SigKind} (hk : k.isMaster = true) (hk' : k'.isMaster = false)
    {n : AttrName} (hn : n ∈ k.custom) : n ∉ k'.custom := by
  cases k <;> cases k' <;> simp_all [SigKind.isMaster, SigKind.custom] <;>
    rcases hn with rfl | rfl | rfl <;> simp

theorem around_consistent (o : AttrOps V) {s : Sig V} (h : Spec.Consistent s) (after : Sig V)
    (conv : V → V) :
    Spec.Consistent (match s.around o after conv with
      | .ok s' => s'
      | .error (_, s') => s') := by
  obtain ⟨attrs, ha, -⟩ := getCustom_ok h.attrs
  have hc := assignSubclass_consistent o after
  by_cases h1 : s.kind = .plain
  · simp only [Sig.around, if_pos h1]
    exact hc
  · by_cases h2 : (after.assignSubclass o).kind = .plain
    · simp only [Sig.around, if_neg h1, ha, if_pos h2]
      refine delete_consistent hc ?_
      intro n _ hn
      rw [h2] at hn
      simp [SigKind.custom] at hn
    · simp only [Sig.around, if_neg h1, ha, if_neg h2]
      cases hset : (after.assignSubclass o).setCustom conv attrs with
      | error e => exact hc
      | ok s' => exact setCustom_consistent hc hset

/-- C91: after any sequence of operations (set another signal type, of kikuchipy or not; make lazy;
compute; change the data type, also to complex; copy), whether or not some of them raised, the
signal has the class of its type and all custom attributes of that class. -/
theorem C91_attributes_present (o : AttrOps V) {s : Sig V} (h : Spec.Consistent s)
    (ops : List SigOp) : Spec.Consistent (ops.foldl (Spec.after o) s) := by
  have step : ∀ (s : Sig V) (op : SigOp), Spec.Consistent s → Spec.Consistent (Spec.after o s op) := by
    intro s op h
    obtain ⟨attrs, ha, -⟩ := getCustom_ok h.attrs
    unfold Spec.after
    cases op with
    | deepcopy => exact h
    | setType t =>
      simp only [Sig.apply]
      by_cases hm : s.kind.isMaster = true
      · rw [if_pos hm]
        unfold Sig.masterSetType
        split_ifs with ht
        · simp only [ha]
          have hc := assignSubclass_consistent o { s with type := t }
          cases hset : (s.hsSetType o t).setCustom id attrs with
          | error e => exact hc
          | ok s' => exact setCustom_consistent hc hset
        · refine delete_consistent (assignSubclass_consistent o { s with type := t }) ?_
          intro n hn
          refine custom_disjoint hm ?_ hn
          rw [assignSubclass_kind]
          simp only
          split_ifs
          · by_contra hne
            exact ht (master_contains (by simpa using hne))
          · rfl
      · rw [if_neg hm]
        exact assignSubclass_consistent o { s with type := t }
    | asLazy => exact around_consistent o h _ _
    | changeDtype r => exact around_consistent o h _ _
    | compute =>
      simp only [Sig.apply, Sig.computeOp]
      have hc := assignSubclass_consistent o { s with lazy := false }
      by_cases h1 : s.lazy = true
      swap
      · simp only [if_neg h1]
        exact h
      by_cases h2 : s.kind = .plain
      · simp only [if_pos h1, if_pos h2]
        exact hc
      · simp only [if_pos h1, if_neg h2, ha]
        cases hset : ({ s with lazy := false }.assignSubclass o).setCustom o.compute attrs with
        | error e => exact hc
        | ok s' => exact setCustom_consistent hc hset
  induction ops generalizing s with
  | nil => exact h
  | cons op ops ih => exact ih (step s op h)

/-- C91: making a signal lazy, computing it, changing the data type of real data and copying keep
the class and the content of all custom attributes, in any sequence. -/
theorem C91_attributes_kept (o : AttrOps V) (content : V → C)
    (hl : ∀ v, content (o.toLazy v) = content v) (hcomp : ∀ v, content (o.compute v) = content v)
    {s s' : Sig V} (h : Spec.Consistent s) (hk : s.kind ≠ .plain) {ops : List SigOp}
    (hops : ∀ op ∈ ops, Spec.keeps op) (hs : s.applyAll o ops = .ok s') :
    s'.kind = s.kind ∧ s'.type = s.type ∧
      ∀ n ∈ s.kind.custom, (s'.attr n).map content = (s.attr n).map content := by
  have step : ∀ (s s' : Sig V) (op : SigOp), Spec.Consistent s → s.kind ≠ .plain →
      Spec.keeps op → s.apply o op = .ok s' →
      Spec.Consistent s' ∧ s'.kind = s.kind ∧ s'.type = s.type ∧
      ∀ n ∈ s.kind.custom, (s'.attr n).map content = (s.attr n).map content := by
    intro s s' op h hk hop hs
    have hreal : s.real = true := by
      by_contra hr
      have := h.kind
      simp only [Bool.not_eq_true] at hr
      rw [hr] at this
      exact hk (by simpa using this)
    obtain ⟨attrs, ha, hlook⟩ := getCustom_ok h.attrs
    have fin : ∀ (after : Sig V) (conv : V → V), (∀ v, content (conv v) = content v) →
        after.real = true → after.type = s.type →
        (after.assignSubclass o).setCustom conv attrs = .ok s' →
        Spec.Consistent s' ∧ s'.kind = s.kind ∧ s'.type = s.type ∧
        ∀ n ∈ s.kind.custom, (s'.attr n).map content = (s.attr n).map content := by
      intro after conv hconv hr ht hset
      obtain ⟨h1, h2, h3, -, h4, -⟩ := setCustom_spec hset
      have hkind : (after.assignSubclass o).kind = s.kind := by
        rw [assignSubclass_kind, hr, ht, h.kind, hreal]
      refine ⟨setCustom_consistent (assignSubclass_consistent o after) hset, by rw [h1, hkind],
        by rw [h2, (assignSubclass_same o after).1, ht], ?_⟩
      intro n hn
      obtain ⟨v, hv⟩ := h.attrs n hn
      have := h4 n v (by rw [hlook n, if_pos hn, hv]) (by rw [hkind]; exact hn)
      rw [this, hv]
      simp [hconv]
    have hplain : ∀ after : Sig V, after.real = true → after.type = s.type →
        (after.assignSubclass o).kind ≠ .plain := by
      intro after hr ht
      rw [assignSubclass_kind, hr, ht]
      have := h.kind
      rw [hreal] at this
      rwa [← this]
    cases op with
    | setType t => exact hop.elim
    | deepcopy =>
      simp only [Sig.apply, Except.ok.injEq] at hs
      subst hs
      exact ⟨h, rfl, rfl, fun _ _ => rfl⟩
    | asLazy =>
      simp only [Sig.apply, Sig.around, if_neg hk, ha,
        if_neg (hplain { s with lazy := true } hreal rfl)] at hs
      cases hset : ({ s with lazy := true }.assignSubclass o).setCustom o.toLazy attrs with
      | error e => rw [hset] at hs; cases hs
      | ok s'' =>
        rw [hset] at hs
        simp only [Except.ok.injEq] at hs
        subst hs
        exact fin { s with lazy := true } _ hl hreal rfl hset
    | changeDtype r =>
      have hr : r = true := hop
      subst hr
      simp only [Sig.apply, Sig.around, if_neg hk, ha,
        if_neg (hplain { s with real := true } rfl rfl)] at hs
      cases hset : ({ s with real := true }.assignSubclass o).setCustom id attrs with
      | error e => rw [hset] at hs; cases hs
      | ok s'' =>
        rw [hset] at hs
        simp only [Except.ok.injEq] at hs
        subst hs
        exact fin { s with real := true } _ (fun _ => rfl) rfl rfl hset
    | compute =>
      simp only [Sig.apply, Sig.computeOp, if_neg hk, ha] at hs
      split_ifs at hs
      cases hset : ({ s with lazy := false }.assignSubclass o).setCustom o.compute attrs with
      | error e => rw [hset] at hs; cases hs
      | ok s'' =>
        rw [hset] at hs
        simp only [Except.ok.injEq] at hs
        subst hs
        exact fin { s with lazy := false } _ hcomp hreal rfl hset
  induction ops generalizing s with
  | nil =>
    simp only [Sig.applyAll, Except.ok.injEq] at hs
    subst hs
    exact ⟨rfl, rfl, fun _ _ => rfl⟩
  | cons op ops ih =>
    rw [Sig.applyAll] at hs
    cases hop : s.apply o op with
    | error e => rw [hop] at hs; cases hs
    | ok s1 =>
      rw [hop] at hs
      obtain ⟨c1, k1, t1, a1⟩ := step s s1 op h hk (hops op (by simp)) hop
      obtain ⟨k2, t2, a2⟩ := ih c1 (by rw [k1]; exact hk)
        (fun op' hop' => hops op' (by simp [hop'])) hs
      refine ⟨by rw [k2, k1], by rw [t2, t1], ?_⟩
      intro n hn
      rw [a2 n (by rw [k1]; exact hn), a1 n hn]

/-- C91: on a signal of kikuchipy, these operations do not raise, except for computing a signal that
is not lazy; and they give a lazy signal or one in memory as asked. -/
theorem C91_operations_succeed (o : AttrOps V) {s : Sig V} (h : Spec.Consistent s)
    (hk : s.kind ≠ .plain) :
    (∃ s', s.apply o .asLazy = .ok s' ∧ s'.lazy = true) ∧
    (∃ s', s.apply o (.changeDtype true) = .ok s' ∧ s'.lazy = s.lazy) ∧
    (∃ s', s.apply o .deepcopy = .ok s' ∧ s'.lazy = s.lazy) ∧
    (s.lazy = true → ∃ s', s.apply o .compute = .ok s' ∧ s'.lazy = false) ∧
    (s.lazy = false → s.apply o .compute = .error (.attributeError, s)) := by
  obtain ⟨attrs, ha, -⟩ := getCustom_ok h.attrs
  have hreal : s.real = true := by
    by_contra hr
    have := h.kind
    simp only [Bool.not_eq_true] at hr
    rw [hr] at this
    exact hk (by simpa using this)
  have hplain : ∀ after : Sig V, after.real = true → after.type = s.type →
      (after.assignSubclass o).kind ≠ .plain := by
    intro after hr ht
    rw [assignSubclass_kind, hr, ht]
    have := h.kind
    rw [hreal] at this
    rwa [← this]
  refine ⟨?_, ?_, ⟨s, rfl, rfl⟩, ?_, ?_⟩
  · have hp := hplain { s with lazy := true } hreal rfl
    obtain ⟨s', hs'⟩ := setCustom_ok hp o.toLazy attrs
    refine ⟨s', ?_, ?_⟩
    · simp only [Sig.apply, Sig.around, if_neg hk, ha, if_neg hp, hs']
    · rw [(setCustom_spec hs').2.2.2.1, (assignSubclass_same o _).2.2]
  · have hp := hplain { s with real := true } rfl rfl
    obtain ⟨s', hs'⟩ := setCustom_ok hp id attrs
    refine ⟨s', ?_, ?_⟩
    · simp only [Sig.apply, Sig.around, if_neg hk, ha, if_neg hp, hs']
    · rw [(setCustom_spec hs').2.2.2.1, (assignSubclass_same o _).2.2]
  · intro hl
    have hp := hplain { s with lazy := false } hreal rfl
    obtain ⟨s', hs'⟩ := setCustom_ok hp o.compute attrs
    refine ⟨s', ?_, ?_⟩
    · simp only [Sig.apply, Sig.computeOp, if_pos hl, if_neg hk, ha, hs']
    · rw [(setCustom_spec hs').2.2.2.1, (assignSubclass_same o _).2.2]
  · intro hl
    simp [Sig.apply, Sig.computeOp, hl]

/-- C91: setting a master pattern signal to any type or alias of master patterns gives the class of
that type and keeps hemisphere, phase and projection. -/
theorem C91_master_types (o : AttrOps V) {s : Sig V} (h : Spec.Consistent s)
    (hk : s.kind.isMaster = true) {t : String} {k : SigKind} (hm : k.isMaster = true)
    (ht : t ∈ Spec.typeNames k) :
    ∃ s', s.apply o (.setType t) = .ok s' ∧ s'.kind = k ∧
      ∀ n ∈ [AttrName.hemisphere, .phase, .projection], s'.attr n = s.attr n := by
  obtain ⟨attrs, ha, hlook⟩ := getCustom_ok h.attrs
  have hreal : s.real = true := by
    by_contra hr
    have := h.kind
    simp only [Bool.not_eq_true] at hr
    rw [hr] at this
    rw [this] at hk
    simp [SigKind.isMaster] at hk
  have hkt : kindOfType t = k := by
    rw [kindOfType_spec]
    · exact ht
    · rintro rfl
      simp [SigKind.isMaster] at hm
  have hkind : (s.hsSetType o t).kind = k := by
    unfold Sig.hsSetType
    rw [assignSubclass_kind]
    simp only [hreal, if_true, hkt]
  have hp : (s.hsSetType o t).kind ≠ .plain := by
    rw [hkind]
    rintro rfl
    simp [SigKind.isMaster] at hm
  obtain ⟨s', hs'⟩ := setCustom_ok hp id attrs
  have hc : textContains "master".toList (t.toList.map pyLower) = true :=
    master_contains (by rw [hkt]; exact hm)
  have hcust : ∀ k : SigKind, k.isMaster = true → k.custom = [.hemisphere, .phase, .projection] := by
    intro k
    cases k <;> simp [SigKind.isMaster, SigKind.custom]
  refine ⟨s', ?_, ?_, ?_⟩
  · simp only [Sig.apply, if_pos hk, Sig.masterSetType, if_pos hc, ha, hs']
  · rw [(setCustom_spec hs').1, hkind]
  · intro n hn
    have hn' : n ∈ s.kind.custom := by rw [hcust _ hk]; exact hn
    obtain ⟨v, hv⟩ := h.attrs n hn'
    have := (setCustom_spec hs').2.2.2.2.1 n v (by rw [hlook n, if_pos hn', hv])
      (by rw [hkind, hcust _ hm]; exact hn)
    rw [this, hv]
    rfl

/-- C91: a signal of kikuchipy set to a type that is not kikuchipy's, or given complex data, becomes
a plain signal without the attributes of its former class (for types without "master" in them). -/
theorem C91_attributes_removed_partial (o : AttrOps V) {s : Sig V} (h : Spec.Consistent s)
    (hk : s.kind ≠ .plain) {t : String} (ht : kindOfType t = .plain)
    (hm : textContains "master".toList (t.toList.map pyLower) = false) :
    (∃ s', s.apply o (.setType t) = .ok s' ∧ s'.kind = .plain ∧
      ∀ n ∈ s.kind.custom, s'.attr n = none) ∧
    (∃ s', s.apply o (.changeDtype false) = .ok s' ∧ s'.kind = .plain ∧
      ∀ n ∈ s.kind.custom, s'.attr n = none) := by
  obtain ⟨attrs, ha, -⟩ := getCustom_ok h.attrs
  have hkind : (s.hsSetType o t).kind = .plain := by
    unfold Sig.hsSetType
    rw [assignSubclass_kind]
    simp [ht]
  constructor
  · by_cases hmk : s.kind.isMaster = true
    · refine ⟨(s.hsSetType o t).delete s.kind.custom, ?_, hkind, ?_⟩
      · simp only [Sig.apply, if_pos hmk, Sig.masterSetType]
        rw [if_neg (by rw [hm]; decide)]
      · intro n hn
        simp [Sig.delete, hn]
    · refine ⟨s.hsSetType o t, ?_, hkind, ?_⟩
      · simp only [Sig.apply, if_neg hmk]
      · intro n hn
        have h2 : ({ s with type := t }.hsAssign o).kind = .plain := by
          simp [Sig.hsAssign, Sig.runInit, ht]
        simp only [Sig.hsSetType, Sig.assignSubclass, if_neg hk, if_pos h2, Sig.delete]
        rw [if_pos hn]
  · have h2 : ({ s with real := false }.assignSubclass o).kind = .plain := by
      rw [assignSubclass_kind]
      rfl
    refine ⟨({ s with real := false }.assignSubclass o).delete s.kind.custom, ?_, h2, ?_⟩
    · simp only [Sig.apply, Sig.around, if_neg hk, ha, if_pos h2]
    · intro n hn
      simp [Sig.delete, hn]

/-- C91 is false for patterns: setting the signal type of an EBSD signal to the type it has, or an
alias of it, resets the detector, static background and crystal map to their defaults. -/
theorem C91_same_type_violated (o : AttrOps V) {s : Sig V} (h : Spec.Consistent s)
    (hk : s.kind = .ebsd) {t : String} (ht : t ∈ Spec.typeNames .ebsd) :
    ∃ s', s.apply o (.setType t) = .ok s' ∧ s'.kind = .ebsd ∧
      ∀ n ∈ [AttrName.detector, .staticBackground, .xmap], s'.attr n = some (o.default n) := by
  have hreal : s.real = true := by
    by_contra hr
    have := h.kind
    simp only [Bool.not_eq_true] at hr
    rw [hr, hk] at this
    simp at this
  have hkt : kindOfType t = .ebsd := (kindOfType_spec t .ebsd (by decide)).2 ht
  have hkind : ({ s with type := t }.hsAssign o).kind = .ebsd := by
    simp [Sig.hsAssign, Sig.runInit, hreal, hkt]
  refine ⟨{ s with type := t }.hsAssign o, ?_, hkind, ?_⟩
  · have h1 : ¬ s.kind.isMaster = true := by rw [hk]; decide
    have h2 : ¬ s.kind = .plain := by rw [hk]; decide
    have h3 : ¬ ({ s with type := t }.hsAssign o).kind = .plain := by rw [hkind]; decide
    simp only [Sig.apply, if_neg h1, Sig.hsSetType, Sig.assignSubclass, if_neg h2, if_neg h3]
  · intro n hn
    have hn' : n ∈ SigKind.ebsd.custom := hn
    simp only [Sig.hsAssign, Sig.runInit, hreal, if_true, hkt]
    rw [if_pos hn']

/-- C91 is false for master patterns and unknown types with "master" in them, e.g. a type in other
letter case: an exception is raised after the signal has been made a plain one without its
attributes, while other unknown types do not raise. -/
theorem C91_unknown_master_violated (o : AttrOps V) {s : Sig V} (h : Spec.Consistent s)
    (hk : s.kind.isMaster = true) {t : String} (ht : kindOfType t = .plain)
    (hm : textContains "master".toList (t.toList.map pyLower) = true) :
    ∃ s', s.apply o (.setType t) = .error (.attributeError, s') ∧ s'.kind = .plain ∧
      ∀ n ∈ s.kind.custom, s'.attr n = none := by
  obtain ⟨attrs, ha, -⟩ := getCustom_ok h.attrs
  have hp : s.kind ≠ .plain := by
    intro e
    rw [e] at hk
    simp [SigKind.isMaster] at hk
  have h2 : ({ s with type := t }.hsAssign o).kind = .plain := by
    simp [Sig.hsAssign, Sig.runInit, ht]
  have hkind : (s.hsSetType o t).kind = .plain := by
    unfold Sig.hsSetType
    rw [assignSubclass_kind]
    simp [ht]
  refine ⟨s.hsSetType o t, ?_, hkind, ?_⟩
  · simp only [Sig.apply, if_pos hk, Sig.masterSetType, if_pos hm, ha, Sig.setCustom, if_pos hkind]
  · intro n hn
    simp only [Sig.hsSetType, Sig.assignSubclass, if_neg hp, if_pos h2, Sig.delete]
    rw [if_pos hn]

/-- An EBSD signal with its attributes. -/
def sigExample : Sig ℕ := ⟨.ebsd, "EBSD", true, false, fun
  | .detector => some 1
  | .staticBackground => some 2
  | .xmap => some 3
  | _ => none⟩

/-- Attributes with zero as default. -/
def attrOpsExample : AttrOps ℕ := ⟨fun _ => 0, id, id⟩

theorem sigExample_consistent : Spec.Consistent sigExample :=
  ⟨by decide +kernel, by
    intro n hn
    cases n <;> first | exact ⟨_, rfl⟩ | exact absurd hn (by decide)⟩

example : ((sigExample.applyAll attrOpsExample
    [.asLazy, .changeDtype true, .compute, .deepcopy]).toOption.map
      (fun s => (s.kind, s.lazy, s.attr .detector, s.attr .xmap))) =
    some (.ebsd, false, some 1, some 3) := by decide +kernel

example : ((sigExample.apply attrOpsExample (.setType "EBSD")).toOption.map
    (fun s => (s.kind, s.attr .detector, s.attr .xmap))) = some (.ebsd, some 0, some 0) := by
  decide +kernel

example : kindOfType "ebsdmasterpattern" = .plain ∧
    textContains "master".toList ("ebsdmasterpattern".toList.map pyLower) = true := by
  decide +kernel

example : ((sigExample.applyAll attrOpsExample
    [.setType "master_pattern", .setType "ECPMasterPattern", .setType ""]).toOption.map
      (fun s => (s.kind, s.attr .hemisphere))) = some (.plain, none) := by decide +kernel

end Kp
