import Verif.Model.InterruptedSave
import Verif.Props.ScanGroups

/-!
Lemmas about the steps of saving a signal.
-/

namespace Kp

variable {V : Type}

theorem updateDataset_append (f : List V → List V) (p : H5Path) (t r : H5Tree V) :
    updateDataset f p (t ++ r) = updateDataset f p t ++ updateDataset f p r := by
  simp [updateDataset]

theorem updateDataset_of_ne (f : List V → List V) (p : H5Path) (t : H5Tree V)
    (h : ∀ e ∈ t, e.1 ≠ p) : updateDataset f p t = t := by
  unfold updateDataset
  conv_rhs => rw [← List.map_id t]
  apply List.map_congr_left
  intro e he
  rw [if_neg (h e he)]
  rfl

theorem updateDataset_last (f : List V → List V) (p : H5Path) (t : H5Tree V) (v : List V)
    (h : ∀ e ∈ t, e.1 ≠ p) :
    updateDataset f p (t ++ [(p, .dataset v)]) = t ++ [(p, .dataset (f v))] := by
  rw [updateDataset_append, updateDataset_of_ne f p t h]
  simp [updateDataset]

theorem run_dictSteps (zero : V) (p : H5Path) (es : List (String × List V)) :
    ∀ t : H5Tree V, (∀ e ∈ es, ∀ x ∈ t, x.1 ≠ p ++ [e.1]) → (es.map Prod.fst).Nodup →
      (dictSteps p es).foldl (ScanStep.run zero) t =
        t ++ es.map fun e => (p ++ [e.1], H5Item.dataset e.2) := by
  induction es with
  | nil => intro t _ _; simp [dictSteps]
  | cons e es ih =>
    intro t h hn
    have e1 : dictSteps p (e :: es) =
        [.create (p ++ [e.1]) e.2.length, .fill (p ++ [e.1]) e.2] ++ dictSteps p es := by
      simp [dictSteps]
    rw [e1, List.foldl_append]
    simp only [List.foldl_cons, List.foldl_nil, ScanStep.run]
    rw [updateDataset_last _ _ _ _ (h e List.mem_cons_self)]
    rw [List.map_cons, List.nodup_cons] at hn
    rw [ih]
    · simp
    · intro d hd x hx
      rcases List.mem_append.1 hx with hx | hx
      · exact h d (List.mem_cons_of_mem _ hd) x hx
      · rw [List.mem_singleton] at hx
        subst hx
        intro hc
        have : e.1 = d.1 := by simpa using hc
        exact hn.1 (List.mem_map.2 ⟨d, hd, this.symm⟩)
    · exact hn.2

theorem run_blocks (zero : V) (p : H5Path) (t : H5Tree V) (h : ∀ e ∈ t, e.1 ≠ p) (l : List V) :
    ∀ a : List V,
      ((l.zipIdx a.length).map fun e => ScanStep.block p e.2 e.1).foldl (ScanStep.run zero)
        (t ++ [(p, .dataset (a ++ List.replicate l.length zero))]) =
      t ++ [(p, .dataset (a ++ l))] := by
  induction l with
  | nil => intro a; simp
  | cons v l ih =>
    intro a
    rw [List.zipIdx_cons, List.map_cons, List.foldl_cons]
    simp only [ScanStep.run]
    rw [updateDataset_last _ _ _ _ h]
    have e1 : (a ++ List.replicate (v :: l).length zero).set a.length v =
        (a ++ [v]) ++ List.replicate l.length zero := by
      rw [List.length_cons, List.replicate_succ, List.set_append_right _ _ le_rfl]
      simp
    rw [e1]
    have := ih (a ++ [v])
    rw [List.length_append, List.length_singleton] at this
    rw [this]
    simp

/-- The steps up to the header of the microscope. -/
def coreSteps (s : ScanSource V) : List (ScanStep V) :=
  [.group ["EBSD", "Data"], .create ["EBSD", "Data", "patterns"] s.patterns.length] ++
  (s.patterns.zipIdx.map fun e => .block ["EBSD", "Data", "patterns"] e.2 e.1) ++
  [.group ["EBSD", "CrystalMap"], .group ["EBSD", "CrystalMap", "crystal_map"]] ++
  dictSteps ["EBSD", "CrystalMap", "crystal_map"] s.xmap ++
  [.group ["EBSD", "Header"]] ++
  dictSteps ["EBSD", "Header"] (headerKeys.map fun k => (k, s.header k))

/-- The steps from the header of the microscope on. -/
def semSteps (s : ScanSource V) : List (ScanStep V) :=
  dictSteps ["SEM", "Header"] (semKeys.map fun k => (k, s.sem k))

theorem scanSteps_eq (s : ScanSource V) :
    scanSteps s = coreSteps s ++ .group ["SEM", "Header"] :: semSteps s := by
  simp [scanSteps, coreSteps, semSteps]

/-- The content after these steps. -/
def coreTree (s : ScanSource V) : H5Tree V :=
  [(["EBSD", "Data"], .group), (["EBSD", "Data", "patterns"], .dataset s.patterns),
   (["EBSD", "CrystalMap"], .group), (["EBSD", "CrystalMap", "crystal_map"], .group)] ++
  (s.xmap.map fun e => (["EBSD", "CrystalMap", "crystal_map", e.1], H5Item.dataset e.2)) ++
  [(["EBSD", "Header"], .group)] ++
  (headerKeys.map fun k => (["EBSD", "Header", k], H5Item.dataset (s.header k)))

theorem treeAfter_core (zero : V) (s : ScanSource V) (hx : (s.xmap.map Prod.fst).Nodup) :
    treeAfter zero (coreSteps s) = coreTree s := by
  unfold treeAfter coreSteps
  simp only [List.foldl_append, List.foldl_cons, List.foldl_nil, ScanStep.run, List.nil_append]
  have h1 := run_blocks zero ["EBSD", "Data", "patterns"] [(["EBSD", "Data"], H5Item.group)]
    (by simp) s.patterns []
  simp only [List.length_nil, List.nil_append] at h1
  rw [h1, run_dictSteps zero _ s.xmap _ (by simp) hx, run_dictSteps zero _ _ _ ?_ ?_]
  · simp [coreTree, List.map_map, Function.comp_def]
  · intro e _ x hx hc
    simp only [List.mem_append, List.mem_singleton, List.mem_map] at hx
    rcases hx with ((((rfl | rfl) | rfl) | rfl) | ⟨d, -, rfl⟩) | rfl <;> simp at hc
  · rw [List.map_map]
    have : (Prod.fst ∘ fun k => (k, s.header k)) = (id : String → String) := rfl
    rw [this, List.map_id]
    decide

/-! ### Paths -/

/-- The path on which a step works. -/
def ScanStep.path : ScanStep V → H5Path
  | .group p => p
  | .create p _ => p
  | .fill p _ => p
  | .block p _ _ => p

theorem mem_updateDataset {f : List V → List V} {p : H5Path} {t : H5Tree V} {e : H5Path × H5Item V}
    (h : e ∈ updateDataset f p t) : ∃ x ∈ t, x.1 = e.1 := by
  unfold updateDataset at h
  rw [List.mem_map] at h
  obtain ⟨x, hx, rfl⟩ := h
  refine ⟨x, hx, ?_⟩
  split <;> rfl

theorem paths_of_steps (zero : V) (P : H5Path → Prop) (steps : List (ScanStep V)) :
    ∀ t : H5Tree V, (∀ e ∈ t, P e.1) → (∀ st ∈ steps, P st.path) →
      ∀ e ∈ steps.foldl (ScanStep.run zero) t, P e.1 := by
  induction steps with
  | nil => intro t h _; exact h
  | cons st steps ih =>
    intro t ht hs
    rw [List.foldl_cons]
    apply ih
    · intro e he
      have hp := hs st List.mem_cons_self
      cases st with
      | group p =>
        rcases List.mem_append.1 he with he | he
        · exact ht e he
        · rw [List.mem_singleton] at he; subst he; exact hp
      | create p n =>
        rcases List.mem_append.1 he with he | he
        · exact ht e he
        · rw [List.mem_singleton] at he; subst he; exact hp
      | fill p v =>
        obtain ⟨x, hx, h2⟩ := mem_updateDataset he
        rw [← h2]; exact ht x hx
      | block p i v =>
        obtain ⟨x, hx, h2⟩ := mem_updateDataset he
        rw [← h2]; exact ht x hx
    · intro s' hs'
      exact hs s' (List.mem_cons_of_mem _ hs')

/-- A path in the header of the microscope. -/
def IsSem (p : H5Path) : Prop := ["SEM", "Header"].isPrefixOf p = true

theorem path_dictSteps {p : H5Path} {es : List (String × List V)} {st : ScanStep V}
    (h : st ∈ dictSteps p es) : ∃ k, st.path = p ++ [k] := by
  unfold dictSteps at h
  rw [List.mem_flatMap] at h
  obtain ⟨e, _, h⟩ := h
  rcases (by simpa using h : st = _ ∨ st = _) with rfl | rfl <;> exact ⟨e.1, rfl⟩

theorem core_not_sem (s : ScanSource V) : ∀ st ∈ coreSteps s, ¬ IsSem st.path := by
  intro st h
  unfold coreSteps at h
  simp only [List.mem_append, List.mem_cons, List.not_mem_nil, or_false, List.mem_map] at h
  unfold IsSem
  rcases h with ((((((rfl | rfl) | ⟨e, _, rfl⟩) | (rfl | rfl)) | h) | rfl) | h)
  · simp [ScanStep.path, List.isPrefixOf]
  · simp [ScanStep.path, List.isPrefixOf]
  · simp [ScanStep.path, List.isPrefixOf]
  · simp [ScanStep.path, List.isPrefixOf]
  · simp [ScanStep.path, List.isPrefixOf]
  · obtain ⟨k, hk⟩ := path_dictSteps h
    rw [hk]; simp [List.isPrefixOf]
  · simp [ScanStep.path, List.isPrefixOf]
  · obtain ⟨k, hk⟩ := path_dictSteps h
    rw [hk]; simp [List.isPrefixOf]

theorem sem_isSem (s : ScanSource V) : ∀ st ∈ semSteps s, IsSem st.path := by
  intro st h
  obtain ⟨k, hk⟩ := path_dictSteps h
  rw [hk]; simp [IsSem, List.isPrefixOf]

theorem coreTree_not_sem (s : ScanSource V) : ∀ e ∈ coreTree s, ¬ IsSem e.1 := by
  intro e h
  unfold coreTree at h
  simp only [List.mem_append, List.mem_cons, List.not_mem_nil, or_false, List.mem_map] at h
  unfold IsSem
  rcases h with ((((rfl | rfl | rfl | rfl) | ⟨e, _, rfl⟩) | rfl) | ⟨e, _, rfl⟩) <;>
    simp [List.isPrefixOf]

theorem run_append_of_sem (zero : V) (c : H5Tree V) (hc : ∀ e ∈ c, ¬ IsSem e.1)
    (steps : List (ScanStep V)) :
    ∀ r : H5Tree V, (∀ st ∈ steps, IsSem st.path) →
      steps.foldl (ScanStep.run zero) (c ++ r) = c ++ steps.foldl (ScanStep.run zero) r := by
  induction steps with
  | nil => intro r _; rfl
  | cons st steps ih =>
    intro r hs
    have hp := hs st List.mem_cons_self
    have hne : ∀ e ∈ c, e.1 ≠ st.path := fun e he h => hc e he (h ▸ hp)
    rw [List.foldl_cons, List.foldl_cons]
    have : st.run zero (c ++ r) = c ++ st.run zero r := by
      cases st with
      | group p => simp [ScanStep.run]
      | create p n => simp [ScanStep.run]
      | fill p v =>
        simp only [ScanStep.run]
        have hne' : ∀ e ∈ c, e.1 ≠ p := hne
        rw [updateDataset_append, updateDataset_of_ne _ _ _ hne']
      | block p i v =>
        simp only [ScanStep.run]
        have hne' : ∀ e ∈ c, e.1 ≠ p := hne
        rw [updateDataset_append, updateDataset_of_ne _ _ _ hne']
    rw [this]
    exact ih _ fun s' h' => hs s' (List.mem_cons_of_mem _ h')

/-- The content after some steps: without a header of the microscope, or all but this header. -/
theorem treeAfter_take (zero : V) (s : ScanSource V) (hx : (s.xmap.map Prod.fst).Nodup) (k : ℕ) :
    (k ≤ (coreSteps s).length →
      ∀ e ∈ treeAfter zero ((scanSteps s).take k), ¬ IsSem e.1) ∧
    ((coreSteps s).length < k →
      treeAfter zero ((scanSteps s).take k) = coreTree s ++
        ((semSteps s).take (k - (coreSteps s).length - 1)).foldl (ScanStep.run zero)
          [(["SEM", "Header"], .group)]) := by
  rw [scanSteps_eq, List.take_append]
  constructor
  · intro hk
    rw [Nat.sub_eq_zero_of_le hk, List.take_zero, List.append_nil]
    apply paths_of_steps zero (fun p => ¬ IsSem p)
    · simp
    · intro st hst
      exact core_not_sem s st (List.mem_of_mem_take hst)
  · intro hk
    rw [List.take_of_length_le (Nat.le_of_lt hk)]
    obtain ⟨j, hj⟩ : ∃ j, k - (coreSteps s).length = j + 1 := ⟨k - (coreSteps s).length - 1, by omega⟩
    rw [hj, List.take_succ_cons, Nat.add_sub_cancel]
    unfold treeAfter
    rw [List.foldl_append]
    have := treeAfter_core zero s hx
    unfold treeAfter at this
    rw [this, List.foldl_cons]
    simp only [ScanStep.run]
    rw [run_append_of_sem zero _ (coreTree_not_sem s)]
    intro st hst
    exact sem_isSem s st (List.mem_of_mem_take hst)

/-! ### Reading -/

theorem hasPath_append (t r : H5Tree V) (p : H5Path) :
    hasPath (t ++ r) p = (hasPath t p || hasPath r p) := by
  simp [hasPath]

theorem readDict_append (t r : H5Tree V) (p : H5Path) :
    readDict (t ++ r) p = readDict t p ++ readDict r p := by
  simp [readDict]

theorem readDict_sem (r : H5Tree V) (hr : ∀ e ∈ r, IsSem e.1) (p : H5Path) (hp : p.head? = some "EBSD") :
    readDict r p = [] := by
  unfold readDict
  rw [List.filterMap_eq_nil_iff]
  intro e he
  have h := hr e he
  obtain ⟨q, i⟩ := e
  cases i with
  | group => rfl
  | dataset v =>
    simp only
    rw [if_neg]
    rintro ⟨h1, -⟩
    unfold IsSem at h
    match q, h with
    | [], h => simp [List.isPrefixOf] at h
    | [a], h => simp [List.isPrefixOf] at h
    | a :: b :: l, h =>
      simp only [List.isPrefixOf, Bool.and_eq_true, beq_iff_eq] at h
      obtain ⟨rfl, -⟩ := h
      rw [List.dropLast_cons_cons] at h1
      rw [← h1] at hp
      simp at hp

theorem readDict_map (p : H5Path) (es : List (String × List V)) :
    readDict (es.map fun e => (p ++ [e.1], H5Item.dataset e.2)) p = es := by
  induction es with
  | nil => rfl
  | cons e es ih =>
    have h1 : readDict [(p ++ [e.1], H5Item.dataset e.2)] p = [e] := by simp [readDict]
    rw [List.map_cons, ← List.singleton_append, readDict_append, h1, ih]
    rfl

theorem readDict_map_ne (p q : H5Path) (hpq : p ≠ q) (es : List (String × List V)) :
    readDict (es.map fun e => (p ++ [e.1], H5Item.dataset e.2)) q = [] := by
  unfold readDict
  rw [List.filterMap_eq_nil_iff]
  intro e he
  rw [List.mem_map] at he
  obtain ⟨d, -, rfl⟩ := he
  simp [hpq]

/-- What is read of the content up to the header of the microscope. -/
theorem readDict_coreTree (s : ScanSource V) :
    readDict (coreTree s) ["EBSD", "Header"] = headerKeys.map (fun k => (k, s.header k)) ∧
    readDict (coreTree s) ["EBSD", "Data"] = [("patterns", s.patterns)] ∧
    readDict (coreTree s) ["EBSD", "CrystalMap", "crystal_map"] = s.xmap ∧
    readDict (coreTree s) ["SEM", "Header"] = [] := by
  have e1 : coreTree s =
    [(["EBSD", "Data"], .group), (["EBSD", "Data", "patterns"], .dataset s.patterns),
     (["EBSD", "CrystalMap"], .group), (["EBSD", "CrystalMap", "crystal_map"], .group)] ++
    (s.xmap.map fun e => (["EBSD", "CrystalMap", "crystal_map"] ++ [e.1], H5Item.dataset e.2)) ++
    [(["EBSD", "Header"], .group)] ++
    ((headerKeys.map fun k => (k, s.header k)).map fun e =>
      (["EBSD", "Header"] ++ [e.1], H5Item.dataset e.2)) := by
    simp [coreTree, List.map_map, Function.comp_def]
  rw [e1]
  simp only [readDict_append]
  refine ⟨?_, ?_, ?_, ?_⟩
  · rw [readDict_map, readDict_map_ne _ _ (by simp)]
    simp [readDict]
  · rw [readDict_map_ne _ _ (by simp), readDict_map_ne _ _ (by simp)]
    simp [readDict]
  · rw [readDict_map, readDict_map_ne _ _ (by simp)]
    simp [readDict]
  · rw [readDict_map_ne _ _ (by simp), readDict_map_ne _ _ (by simp)]
    simp [readDict]

theorem readTree_of_not_sem (t : H5Tree V) (h : ∀ e ∈ t, ¬ IsSem e.1) :
    readTree t = .error .keyError := by
  have : hasPath t ["SEM", "Header"] = false := by
    unfold hasPath
    rw [List.any_eq_false]
    exact h
  unfold readTree
  simp only [this, if_true]
  split
  · rfl
  · split <;> rfl

theorem readTree_core (s : ScanSource V) (r : H5Tree V) (hr : ∀ e ∈ r, IsSem e.1) (hne : r ≠ []) :
    readTree (coreTree s ++ r) = .ok
      { patterns := s.patterns
        xmap := some s.xmap
        header := headerKeys.map fun k => (k, s.header k)
        sem := readDict r ["SEM", "Header"] } := by
  obtain ⟨h1, h2, h3, h4⟩ := readDict_coreTree s
  have hs : hasPath r ["SEM", "Header"] = true := by
    obtain ⟨e, r', rfl⟩ := List.exists_cons_of_ne_nil hne
    unfold hasPath
    rw [List.any_eq_true]
    exact ⟨e, List.mem_cons_self, hr e List.mem_cons_self⟩
  have g1 : hasPath (coreTree s) ["EBSD", "Header"] = true := by
    unfold hasPath
    rw [List.any_eq_true]
    exact ⟨(["EBSD", "Header"], .group), by simp [coreTree], by simp [List.isPrefixOf]⟩
  have g2 : hasPath (coreTree s) ["EBSD", "CrystalMap"] = true := by
    unfold hasPath
    rw [List.any_eq_true]
    exact ⟨(["EBSD", "CrystalMap"], .group), by simp [coreTree], by simp [List.isPrefixOf]⟩
  have g3 : hasPath (coreTree s) ["EBSD", "CrystalMap", "crystal_map"] = true := by
    unfold hasPath
    rw [List.any_eq_true]
    exact ⟨(["EBSD", "CrystalMap", "crystal_map"], .group), by simp [coreTree], by simp [List.isPrefixOf]⟩
  have d1 : readDict (coreTree s ++ r) ["EBSD", "Header"] =
      headerKeys.map (fun k => (k, s.header k)) := by
    rw [readDict_append, h1, readDict_sem r hr _ rfl, List.append_nil]
  have d2 : readDict (coreTree s ++ r) ["EBSD", "Data"] = [("patterns", s.patterns)] := by
    rw [readDict_append, h2, readDict_sem r hr _ rfl, List.append_nil]
  have d3 : readDict (coreTree s ++ r) ["EBSD", "CrystalMap", "crystal_map"] = s.xmap := by
    rw [readDict_append, h3, readDict_sem r hr _ rfl, List.append_nil]
  have d4 : readDict (coreTree s ++ r) ["SEM", "Header"] = readDict r ["SEM", "Header"] := by
    rw [readDict_append, h4, List.nil_append]
  unfold readTree
  simp only [hasPath_append, g1, g2, g3, hs, d1, d2, d3, d4, Bool.true_or, Bool.or_true]
  rw [if_neg (by simp), if_neg, if_neg (by simp)]
  · simp [List.lookup]
  · rintro ⟨k, hk, hc⟩
    simp only [List.mem_cons, List.not_mem_nil, or_false] at hk
    rcases hk with rfl | rfl | rfl | rfl <;> simp [headerKeys, List.lookup] at hc

/-- Reading a scan after some steps: an error, or everything but the header of the microscope is
there. -/
theorem readTree_after (zero : V) (s : ScanSource V) (hx : (s.xmap.map Prod.fst).Nodup) (k : ℕ) :
    (k ≤ (coreSteps s).length →
      readTree (treeAfter zero ((scanSteps s).take k)) = .error .keyError) ∧
    ((coreSteps s).length < k → ∃ sem,
      readTree (treeAfter zero ((scanSteps s).take k)) = .ok
        ⟨s.patterns, some s.xmap, headerKeys.map fun k => (k, s.header k), sem⟩) := by
  obtain ⟨h1, h2⟩ := treeAfter_take zero s hx k
  refine ⟨fun hk => readTree_of_not_sem _ (h1 hk), fun hk => ?_⟩
  rw [h2 hk]
  refine ⟨_, readTree_core s _ ?_ ?_⟩
  · apply paths_of_steps zero IsSem
    · intro e he
      rw [List.mem_singleton] at he
      subst he
      simp [IsSem, List.isPrefixOf]
    · intro st hst
      exact sem_isSem s st (List.mem_of_mem_take hst)
  · intro hc
    have hlen : ∀ (steps : List (ScanStep V)) (t : H5Tree V),
        t.length ≤ (steps.foldl (ScanStep.run zero) t).length := by
      intro steps
      induction steps with
      | nil => intro t; exact le_rfl
      | cons st steps ih =>
        intro t
        refine le_trans ?_ (ih _)
        cases st <;> simp [ScanStep.run, updateDataset]
    have := hlen ((semSteps s).take (k - (coreSteps s).length - 1)) [(["SEM", "Header"], .group)]
    rw [hc] at this
    simp at this

/-- All steps done. -/
theorem readTree_all (zero : V) (s : ScanSource V) (hx : (s.xmap.map Prod.fst).Nodup) :
    readTree (treeAfter zero (scanSteps s)) = .ok
      ⟨s.patterns, some s.xmap, headerKeys.map fun k => (k, s.header k),
        semKeys.map fun k => (k, s.sem k)⟩ := by
  have h2 := (treeAfter_take zero s hx ((coreSteps s).length + 1 + (semSteps s).length)).2 (by omega)
  have hl : (scanSteps s).length = (coreSteps s).length + 1 + (semSteps s).length := by
    rw [scanSteps_eq, List.length_append, List.length_cons]; omega
  rw [List.take_of_length_le (by omega)] at h2
  rw [h2, List.take_of_length_le (by omega)]
  have h3 : (semSteps s).foldl (ScanStep.run zero) [(["SEM", "Header"], .group)] =
      [(["SEM", "Header"], .group)] ++ ((semKeys.map fun k => (k, s.sem k)).map fun e =>
        (["SEM", "Header"] ++ [e.1], H5Item.dataset e.2)) := by
    unfold semSteps
    apply run_dictSteps
    · simp
    · rw [List.map_map]
      have : (Prod.fst ∘ fun k => (k, s.sem k)) = (id : String → String) := rfl
      rw [this, List.map_id]
      decide
  rw [h3, readTree_core]
  · rw [readDict_append, readDict_map]
    simp [readDict]
  · intro e he
    rcases List.mem_append.1 he with he | he
    · rw [List.mem_singleton] at he
      subst he
      simp [IsSem, List.isPrefixOf]
    · rw [List.mem_map] at he
      obtain ⟨d, -, rfl⟩ := he
      simp [IsSem, List.isPrefixOf]
  · simp

/-! ### The file -/

/-- A member as the reader sees it. -/
def TopItem.entry : TopItem V → TopEntry (H5Tree V)
  | .text v => .dataset v
  | .scan t => .group (hasPath t ["EBSD", "Data"]) (hasPath t ["EBSD", "Header"]) t

theorem top_eq (f : TopFile V) : f.top = f.map fun e => (e.1, e.2.entry) := by
  unfold TopFile.top
  apply List.map_congr_left
  intro e _
  cases e.2 <;> rfl

theorem top_insertItem (e : List Char × TopItem V) (f : TopFile V) :
    TopFile.top (insertItem e f) = insertEntry (e.1, e.2.entry) f.top := by
  rw [top_eq, top_eq]
  induction f with
  | nil => rfl
  | cons x xs ih =>
    rw [insertItem, List.map_cons, insertEntry]
    split
    · rfl
    · rw [List.map_cons, ih]

theorem map_insertItem (g : List Char × TopItem V → List Char × TopItem V) (nm : List Char)
    (i : TopItem V) (f : TopFile V) (hg : ∀ e ∈ f, g e = e) (hn : (g (nm, i)).1 = nm) :
    (insertItem (nm, i) f).map g = insertItem (g (nm, i)) f := by
  induction f with
  | nil => rfl
  | cons x xs ih =>
    have hx := hg x List.mem_cons_self
    rw [insertItem, insertItem, hn]
    split
    · rw [List.map_cons, List.map_cons, hx]
      congr 2
      conv_rhs => rw [← List.map_id xs]
      exact List.map_congr_left fun e he => hg e (List.mem_cons_of_mem _ he)
    · rw [List.map_cons, hx, ih fun e he => hg e (List.mem_cons_of_mem _ he)]

theorem run_inScan (zero : V) (nm : List Char) (f : TopFile V) (hf : ∀ e ∈ f, e.1 ≠ nm)
    (steps : List (ScanStep V)) : ∀ t : H5Tree V,
    (steps.map (FileStep.inScan nm)).foldl (FileStep.run zero)
      (some (insertItem (nm, .scan t) f)) =
    some (insertItem (nm, .scan (steps.foldl (ScanStep.run zero) t)) f) := by
  induction steps with
  | nil => intro t; rfl
  | cons st steps ih =>
    intro t
    rw [List.map_cons, List.foldl_cons, List.foldl_cons, ← ih]
    congr 1
    simp only [FileStep.run, Option.map_some]
    rw [map_insertItem]
    · simp
    · intro e he
      rw [if_neg (hf e he)]
    · simp

/-- The file after some steps of adding a scan. -/
theorem after_add (zero : V) (str : ℤ → List Char) (version : List Char) (f : TopFile V) (n : ℤ)
    (s : ScanSource V) (hf : ∀ e ∈ f, e.1 ≠ scanName str n) (k : ℕ) :
    fileAfterSteps zero str version (some f) false true n s (k + 1) =
      some (insertItem (scanName str n, .scan (treeAfter zero ((scanSteps s).take k))) f) := by
  unfold fileAfterSteps saveSteps
  simp only [Option.isSome_some, Bool.and_true, if_true, List.nil_append, Bool.false_eq_true,
    if_false]
  rw [List.take_succ_cons, List.foldl_cons, ← List.map_take]
  simp only [FileStep.run, Option.map_some]
  exact run_inScan zero _ f hf _ _

/-- The file with its maker and version. -/
def headFile (version : List Char) : TopFile V :=
  [("manufacturer".toList, .text "kikuchipy".toList), ("version".toList, .text version)]

theorem scanName_ne_m (str : ℤ → List Char) (n : ℤ) (l : List Char) (h : l.head? ≠ some 'S') :
    l ≠ scanName str n := by
  intro hc
  apply h
  rw [hc, scanName]
  have : "Scan ".toList = ['S', 'c', 'a', 'n', ' '] := by decide
  rw [this]
  rfl

theorem headFile_ne (version : List Char) (str : ℤ → List Char) (n : ℤ) :
    ∀ e ∈ (headFile version : TopFile V), e.1 ≠ scanName str n := by
  intro e he
  unfold headFile at he
  simp only [List.mem_cons, List.not_mem_nil, or_false] at he
  rcases he with rfl | rfl
  · exact scanName_ne_m _ _ _ (show "manufacturer".toList.head? ≠ some 'S' by decide)
  · exact scanName_ne_m _ _ _ (show "version".toList.head? ≠ some 'S' by decide)

theorem firstSteps (zero : V) (version : List Char) (old : Option (TopFile V)) :
    ([.truncate, .createText "manufacturer".toList,
      .fillText "manufacturer".toList "kikuchipy".toList, .createText "version".toList,
      .fillText "version".toList version] : List (FileStep V)).foldl (FileStep.run zero) old =
      some (headFile version) := by
  have h1 : nameLe "version".toList "manufacturer".toList = false := by decide
  have h2 : ¬ "manufacturer".toList = "version".toList := by decide
  unfold headFile
  generalize "version".toList = ve at *
  generalize "manufacturer".toList = ma at *
  generalize "kikuchipy".toList = ki at *
  simp [FileStep.run, insertItem, h1, h2]

/-- The file after some steps of making a new file: no scans at first. -/
theorem after_new (zero : V) (str : ℤ → List Char) (version : List Char) (old : Option (TopFile V))
    (add : Bool) (hadd : add = true → old = none) (n : ℤ) (s : ScanSource V) (k : ℕ) :
    (1 ≤ k → k ≤ 5 → ∃ f, fileAfterSteps zero str version old false add n s k = some f ∧
      ∀ e ∈ f, ∃ v, e.2 = .text v) ∧
    fileAfterSteps zero str version old false add n s (k + 6) =
      some (insertItem (scanName str n, .scan (treeAfter zero ((scanSteps s).take k)))
        (headFile version)) := by
  have hb : (add && old.isSome) = false := by
    cases add with
    | false => rfl
    | true => rw [hadd rfl]; rfl
  have hsteps : saveSteps str version (add && old.isSome) n s =
      [.truncate, .createText "manufacturer".toList,
        .fillText "manufacturer".toList "kikuchipy".toList, .createText "version".toList,
        .fillText "version".toList version] ++
      .scanGroup (scanName str n) :: (scanSteps s).map (.inScan (scanName str n)) := by
    unfold saveSteps
    rw [hb]
    simp only [Bool.false_eq_true, if_false]
  unfold fileAfterSteps
  rw [hsteps]
  simp only [Bool.false_eq_true, if_false]
  constructor
  · intro h1 h5
    rw [List.take_append_of_le_length (by simpa using h5)]
    have key : ∀ (steps : List (FileStep V)) (f : TopFile V), (∀ e ∈ f, ∃ v, e.2 = .text v) →
        (∀ st ∈ steps, (∃ a, st = .createText a) ∨ ∃ a b, st = .fillText a b) →
        ∃ g, steps.foldl (FileStep.run zero) (some f) = some g ∧ ∀ e ∈ g, ∃ v, e.2 = .text v := by
      intro steps
      induction steps with
      | nil => intro f hf _; exact ⟨f, rfl, hf⟩
      | cons st steps ih =>
        intro f hf hs
        rw [List.foldl_cons]
        rcases hs st List.mem_cons_self with ⟨a, rfl⟩ | ⟨a, b, rfl⟩
        · apply ih
          · intro e he
            have hins : ∀ (f : TopFile V), (∀ e ∈ f, ∃ v, e.2 = .text v) →
                ∀ e ∈ insertItem (a, .text []) f, ∃ v, e.2 = .text v := by
              intro f
              induction f with
              | nil =>
                intro _ e he
                rw [insertItem, List.mem_singleton] at he
                subst he
                exact ⟨[], rfl⟩
              | cons x xs ih' =>
                intro hf e he
                rw [insertItem] at he
                split at he
                · rcases List.mem_cons.1 he with rfl | he
                  · exact ⟨[], rfl⟩
                  · exact hf e he
                · rcases List.mem_cons.1 he with rfl | he
                  · exact hf _ List.mem_cons_self
                  · exact ih' (fun e he => hf e (List.mem_cons_of_mem _ he)) e he
            exact hins f hf e he
          · exact fun s' h' => hs s' (List.mem_cons_of_mem _ h')
        · apply ih
          · intro e he
            rw [List.mem_map] at he
            obtain ⟨x, hx, rfl⟩ := he
            split
            · exact ⟨b, rfl⟩
            · exact hf x hx
          · exact fun s' h' => hs s' (List.mem_cons_of_mem _ h')
    obtain ⟨j, rfl⟩ : ∃ j, k = j + 1 := ⟨k - 1, by omega⟩
    rw [List.take_succ_cons, List.foldl_cons]
    apply key
    · simp
    · intro st hst
      have := List.mem_of_mem_take hst
      simp only [List.mem_cons, List.not_mem_nil, or_false] at this
      rcases this with rfl | rfl | rfl | rfl
      · exact Or.inl ⟨_, rfl⟩
      · exact Or.inr ⟨_, _, rfl⟩
      · exact Or.inl ⟨_, rfl⟩
      · exact Or.inr ⟨_, _, rfl⟩
  · rw [List.take_append]
    rw [List.take_of_length_le (by simp)]
    have : k + 6 - ([FileStep.truncate, .createText "manufacturer".toList,
        .fillText "manufacturer".toList "kikuchipy".toList, .createText "version".toList,
        .fillText "version".toList version] : List (FileStep V)).length = k + 1 := by simp
    rw [this, List.foldl_append, firstSteps, List.take_succ_cons, List.foldl_cons, ← List.map_take]
    simp only [FileStep.run, Option.map_some]
    exact run_inScan zero _ _ (headFile_ne version str n) _ _

end Kp
