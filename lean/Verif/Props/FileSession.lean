import Verif.Spec.FileSession
import Verif.Props.Save

/-!
C131: lazy signals keep their patterns whatever is saved, and files can be used again after every call.
-/

namespace Kp

open Spec

variable {P S : Type} [DecidableEq P]

/-! ### Handles -/

/-- What holds between calls: lazy signals and exceptions in use have open handles, and only these. -/
structure FileSessionInv (st : FileSession P S) : Prop where
  signals : ∀ σ ∈ st.signals, ∃ m hs, st.opened σ.path = some (m, hs) ∧ σ.handle ∈ hs
  errors : ∀ e ∈ st.errors, ∃ m hs, st.opened e.2 = some (m, hs) ∧ e.1 ∈ hs
  handles : ∀ p m hs, st.opened p = some (m, hs) → hs ≠ [] ∧ ∀ h ∈ hs, h < st.next ∧
    ((∃ σ ∈ st.signals, σ.handle = h ∧ σ.path = p) ∨ (h, p) ∈ st.errors)

theorem putAt_same {α : Type} (f : P → α) (p : P) (a : α) : putAt f p a p = a := by simp [putAt]

theorem putAt_other {α : Type} (f : P → α) {p q : P} (a : α) (h : q ≠ p) : putAt f p a q = f q := by
  simp [putAt, h]

theorem putAt_self {α : Type} (f : P → α) (p : P) : putAt f p (f p) = f := by
  funext q
  by_cases h : q = p
  · subst h; exact putAt_same _ _ _
  · exact putAt_other _ _ h

theorem putAt_twice {α : Type} (f : P → α) (p : P) (a b : α) : putAt (putAt f p a) p b = putAt f p b := by
  funext q
  by_cases h : q = p
  · subst h; rw [putAt_same, putAt_same]
  · rw [putAt_other _ _ h, putAt_other _ _ h, putAt_other _ _ h]

/-- Opening and closing. -/
theorem close_add (o : Option (SharedMode × List ℕ)) (mode : SharedMode) (h : ℕ)
    (ho : ∀ m hs, o = some (m, hs) → hs ≠ [] ∧ ∀ k ∈ hs, k < h) :
    closeHandle (addHandle o mode h) h = o := by
  cases o with
  | none => simp [addHandle, closeHandle]
  | some x =>
    obtain ⟨m, hs⟩ := x
    obtain ⟨h1, h2⟩ := ho m hs rfl
    have h3 : hs.filter (fun k => decide (k ≠ h)) = hs := by
      rw [List.filter_eq_self]
      intro k hk
      have := h2 k hk
      simp only [ne_eq, decide_not, Bool.not_eq_eq_eq_not, Bool.not_true, decide_eq_false_iff_not]
      omega
    simp only [addHandle, closeHandle, List.filter_append, h3]
    simp [h1]

/-- What opening does. -/
theorem openFile_ok {st st1 : FileSession P S} {p : P} {mode : OpenMode} (h : st.openFile p mode = .ok st1) :
    (∃ m, st1.opened = putAt st.opened p (addHandle (st.opened p) m st.next)) ∧
    st1.next = st.next + 1 ∧ st1.signals = st.signals ∧ st1.errors = st.errors ∧
    (mode ≠ .w → st1.content = st.content) ∧
    (mode = .w → st.opened p = none ∧ ∃ c, st1.content = putAt st.content p c) := by
  unfold FileSession.openFile at h
  cases mode with
  | r =>
    simp only at h
    split at h
    · cases h; exact ⟨⟨_, rfl⟩, rfl, rfl, rfl, fun _ => rfl, fun h => by cases h⟩
    · cases h
  | rPlus =>
    simp only at h
    split at h
    · cases h
    · cases h; exact ⟨⟨_, rfl⟩, rfl, rfl, rfl, fun _ => rfl, fun h => by cases h⟩
    · cases h
  | w =>
    simp only at h
    split at h
    · cases h
    · rename_i ho
      cases h
      exact ⟨⟨_, rfl⟩, rfl, rfl, rfl, fun h => absurd rfl h, fun _ => ⟨ho, _, rfl⟩⟩

theorem mem_addHandle {o : Option (SharedMode × List ℕ)} {mode : SharedMode} {h k : ℕ} {m hs}
    (ho : o = some (m, hs)) (hk : k ∈ hs) :
    ∃ m' hs', addHandle o mode h = some (m', hs') ∧ k ∈ hs' := by
  subst ho
  exact ⟨m, hs ++ [h], rfl, by simp [hk]⟩

theorem new_addHandle (o : Option (SharedMode × List ℕ)) (mode : SharedMode) (h : ℕ) :
    ∃ m' hs', addHandle o mode h = some (m', hs') ∧ h ∈ hs' := by
  cases o with
  | none => exact ⟨mode, [h], rfl, by simp⟩
  | some x => exact ⟨x.1, x.2 ++ [h], rfl, by simp⟩

/-- One more handle of a lazy signal or an exception. -/
theorem inv_opened {st st1 : FileSession P S} (hi : FileSessionInv st) (p : P) (m : SharedMode)
    (ho : st1.opened = putAt st.opened p (addHandle (st.opened p) m st.next))
    (hn : st1.next = st.next + 1)
    (hnew : (∃ n, st1.signals = ⟨st.next, p, n⟩ :: st.signals ∧ st1.errors = st.errors) ∨
      (st1.signals = st.signals ∧ st1.errors = (st.next, p) :: st.errors)) : FileSessionInv st1 := by
  have hold : ∀ q k, (∃ m hs, st.opened q = some (m, hs) ∧ k ∈ hs) →
      ∃ m hs, st1.opened q = some (m, hs) ∧ k ∈ hs := by
    rintro q k ⟨m', hs, h1, h2⟩
    rw [ho]
    by_cases hq : q = p
    · subst hq
      rw [putAt_same]
      exact mem_addHandle h1 h2
    · rw [putAt_other _ _ hq]
      exact ⟨m', hs, h1, h2⟩
  have hthis : ∃ m hs, st1.opened p = some (m, hs) ∧ st.next ∈ hs := by
    rw [ho, putAt_same]
    exact new_addHandle _ _ _
  have hsig : ∀ σ ∈ st.signals, σ ∈ st1.signals := by
    rcases hnew with ⟨n, h1, _⟩ | ⟨h1, _⟩ <;> rw [h1] <;> intro σ h
    · exact List.mem_cons_of_mem _ h
    · exact h
  have herr : ∀ e ∈ st.errors, e ∈ st1.errors := by
    rcases hnew with ⟨n, _, h1⟩ | ⟨_, h1⟩ <;> rw [h1] <;> intro σ h
    · exact h
    · exact List.mem_cons_of_mem _ h
  refine ⟨?_, ?_, ?_⟩
  · intro σ hσ
    rcases hnew with ⟨n, h1, _⟩ | ⟨h1, _⟩ <;> rw [h1] at hσ
    · rcases List.mem_cons.1 hσ with rfl | hσ
      · exact hthis
      · exact hold _ _ (hi.signals σ hσ)
    · exact hold _ _ (hi.signals σ hσ)
  · intro e he
    rcases hnew with ⟨n, _, h1⟩ | ⟨_, h1⟩ <;> rw [h1] at he
    · exact hold _ _ (hi.errors e he)
    · rcases List.mem_cons.1 he with rfl | he
      · exact hthis
      · exact hold _ _ (hi.errors e he)
  · intro q m' hs hq
    have hlift : ∀ k hs', (∃ m', st.opened q = some (m', hs')) → k ∈ hs' → k < st1.next ∧
        ((∃ σ ∈ st1.signals, σ.handle = k ∧ σ.path = q) ∨ (k, q) ∈ st1.errors) := by
      rintro k hs' ⟨m', h1⟩ hk
      obtain ⟨h2, h3⟩ := (hi.handles q m' hs' h1).2 k hk
      refine ⟨by omega, ?_⟩
      rcases h3 with ⟨σ, h4, h5⟩ | h4
      · exact Or.inl ⟨σ, hsig σ h4, h5⟩
      · exact Or.inr (herr _ h4)
    rw [ho] at hq
    by_cases hqp : q = p
    · subst hqp
      have hmine : st.next < st1.next ∧
          ((∃ σ ∈ st1.signals, σ.handle = st.next ∧ σ.path = q) ∨ (st.next, q) ∈ st1.errors) := by
        refine ⟨by omega, ?_⟩
        rcases hnew with ⟨n, h1, _⟩ | ⟨_, h1⟩ <;> rw [h1]
        · exact Or.inl ⟨_, List.mem_cons_self .., rfl, rfl⟩
        · exact Or.inr (List.mem_cons_self ..)
      rw [putAt_same] at hq
      cases hoq : st.opened q with
      | none =>
        rw [hoq] at hq
        simp only [addHandle, Option.some.injEq, Prod.mk.injEq] at hq
        rw [← hq.2]
        refine ⟨by simp, ?_⟩
        intro k hk
        rw [List.mem_singleton.1 hk]
        exact hmine
      | some x =>
        obtain ⟨m2, hs2⟩ := x
        rw [hoq] at hq
        simp only [addHandle, Option.some.injEq, Prod.mk.injEq] at hq
        rw [← hq.2]
        refine ⟨by simp, ?_⟩
        intro k hk
        rcases List.mem_append.1 hk with hk | hk
        · exact hlift k hs2 ⟨m2, hoq⟩ hk
        · rw [List.mem_singleton.1 hk]
          exact hmine
    · rw [putAt_other _ _ hqp] at hq
      exact ⟨(hi.handles q m' hs hq).1, fun k hk => hlift k hs ⟨m', hq⟩ hk⟩

omit [DecidableEq P] in
/-- The same handles as before. -/
theorem inv_same {st st1 : FileSession P S} (hi : FileSessionInv st) (ho : st1.opened = st.opened)
    (hn : st.next ≤ st1.next) (hs : st1.signals = st.signals) (he : st1.errors = st.errors) :
    FileSessionInv st1 := by
  refine ⟨?_, ?_, ?_⟩
  · rw [hs, ho]; exact hi.signals
  · rw [he, ho]; exact hi.errors
  · rw [hs, he, ho]
    intro p m l h
    exact ⟨(hi.handles p m l h).1, fun k hk =>
      ⟨Nat.lt_of_lt_of_le ((hi.handles p m l h).2 k hk).1 hn, ((hi.handles p m l h).2 k hk).2⟩⟩

/-- After opening and closing, the handles are those before. -/
theorem closed_again {st : FileSession P S} (hi : FileSessionInv st) (p : P) (m : SharedMode) :
    putAt (putAt st.opened p (addHandle (st.opened p) m st.next)) p
      (closeHandle (putAt st.opened p (addHandle (st.opened p) m st.next) p) st.next) = st.opened := by
  rw [putAt_same, putAt_twice, close_add, putAt_self]
  intro m' hs h
  exact ⟨(hi.handles p m' hs h).1, fun k hk => ((hi.handles p m' hs h).2 k hk).1⟩

/-- What a call of the writer does to the handles: none is left if it succeeds, one if it fails after
opening the file. -/
theorem save_cases (parseInt : List Char → Option ℤ) {st : FileSession P S} (hi : FileSessionInv st)
    (c : WriterCall P S) :
    ((∃ e, (st.save parseInt c).1 = .error e) ∧ (st.save parseInt c).2 = st) ∨
    (((st.save parseInt c).1 = .ok () → (st.save parseInt c).2.opened = st.opened ∧
        (st.save parseInt c).2.signals = st.signals ∧ (st.save parseInt c).2.errors = st.errors) ∧
      FileSessionInv (st.save parseInt c).2 ∧
      (∀ σ ∈ st.signals, σ ∈ (st.save parseInt c).2.signals) ∧
      (∀ q, q ≠ c.path → (st.save parseInt c).2.content q = st.content q) ∧
      ((st.opened c.path).isSome → c.addScan = true ∧ ∃ old full, st.content c.path = some old ∧
        (h5Write parseInt (some old) true c.number c.scan c.answers).2 = full ∧
        ((st.save parseInt c).2.content c.path = some full ∨
          ∃ stop, (h5Write parseInt (some old) true c.number c.scan c.answers).1 = .ok () ∧
          (st.save parseInt c).2.content c.path = some (stoppedContent true full stop)))) := by
  unfold FileSession.save
  simp only
  cases hopen : st.openFile c.path
      (if ((st.content c.path).isSome && c.addScan) = true then .rPlus else .w) with
  | error e => exact Or.inl ⟨⟨e, rfl⟩, rfl⟩
  | ok st1 =>
    right
    obtain ⟨⟨m, h1⟩, h2, h3, h4, h5, h6⟩ := openFile_ok hopen
    simp only
    have hcont : ∀ q, q ≠ c.path → st1.content q = st.content q := by
      intro q hq
      by_cases hw : ((st.content c.path).isSome && c.addScan) = true
      · rw [h5 (by simp [hw])]
      · obtain ⟨_, d, hd⟩ := h6 (by simp [hw])
        rw [hd, putAt_other _ _ hq]
    have hold : (st.opened c.path).isSome → ((st.content c.path).isSome && c.addScan) = true := by
      intro ho
      by_contra hw
      obtain ⟨hn, _⟩ := h6 (by simp [hw])
      rw [hn] at ho
      cases ho
    have hform : (st.opened c.path).isSome → c.addScan = true ∧ ∃ old, st.content c.path = some old ∧
        (if ((st.content c.path).isSome && c.addScan) = true then st.content c.path else none) =
          some old := by
      intro ho
      have := hold ho
      rw [Bool.and_eq_true] at this
      obtain ⟨old, hold'⟩ := Option.isSome_iff_exists.1 this.1
      exact ⟨this.2, old, hold', by simp [hold', this.2]⟩
    have hleft : ∀ full, FileSessionInv ((st1.written c.path full).leftOpen c.path st.next) := fun full =>
      inv_opened hi c.path m h1 h2 (Or.inr ⟨h3, by simp [FileSession.leftOpen, FileSession.written, h4]⟩)
    cases hw : h5Write parseInt
        (if ((st.content c.path).isSome && c.addScan) = true then st.content c.path else none)
        c.addScan c.number c.scan c.answers with
    | mk r full =>
      cases r with
      | error e =>
        refine ⟨fun h => by simp at h, hleft full, ?_, ?_, ?_⟩
        · intro σ hσ
          simpa [FileSession.leftOpen, FileSession.written, h3] using hσ
        · intro q hq
          simp [FileSession.leftOpen, FileSession.written, putAt_other _ _ hq, hcont q hq]
        · intro ho
          obtain ⟨ha, old, ho1, ho2⟩ := hform ho
          rw [ho2, ha] at hw
          refine ⟨ha, old, full, ho1, by rw [hw], Or.inl ?_⟩
          simp [FileSession.leftOpen, FileSession.written, putAt_same]
      | ok u =>
        cases u
        cases hst : c.stop with
        | none =>
          have hop : (((st1.written c.path full).closeFile c.path st.next)).opened = st.opened := by
            simp only [FileSession.closeFile, FileSession.written, h1]
            exact closed_again hi c.path m
          simp only
          refine ⟨fun _ => ⟨hop, h3, h4⟩, inv_same hi hop (by simp [FileSession.closeFile, FileSession.written, h2]) h3 h4, ?_, ?_, ?_⟩
          · intro σ hσ
            simpa [FileSession.closeFile, FileSession.written, h3] using hσ
          · intro q hq
            simp [FileSession.closeFile, FileSession.written, putAt_other _ _ hq, hcont q hq]
          · intro ho
            obtain ⟨ha, old, ho1, ho2⟩ := hform ho
            rw [ho2, ha] at hw
            refine ⟨ha, old, full, ho1, by rw [hw], Or.inl ?_⟩
            simp [FileSession.closeFile, FileSession.written, putAt_same]
        | some stop =>
          simp only
          refine ⟨fun h => by simp at h, hleft _, ?_, ?_, ?_⟩
          · intro σ hσ
            simpa [FileSession.leftOpen, FileSession.written, h3] using hσ
          · intro q hq
            simp [FileSession.leftOpen, FileSession.written, putAt_other _ _ hq, hcont q hq]
          · intro ho
            obtain ⟨ha, old, ho1, ho2⟩ := hform ho
            have he := hold ho
            rw [ho2, ha] at hw
            refine ⟨ha, old, full, ho1, by rw [hw], Or.inr ⟨stop, by rw [hw], ?_⟩⟩
            simp [FileSession.leftOpen, FileSession.written, putAt_same, he]

/-- What loading does to the handles. -/
def LoadOutcome (st : FileSession P S) (p : P) (n : ℤ) (r : Except Err (Loaded P S) × FileSession P S) : Prop :=
  FileSessionInv r.2 ∧ r.2.content = st.content ∧ (∀ σ ∈ st.signals, σ ∈ r.2.signals) ∧
  (∀ s, r.1 = .ok (.memory s) → scanIn (st.content p) n = some s ∧ r.2.opened = st.opened ∧
    r.2.signals = st.signals ∧ r.2.errors = st.errors) ∧
  (∀ σ, r.1 = .ok (.lazy σ) → σ = ⟨st.next, p, n⟩ ∧ σ ∈ r.2.signals ∧
    ∃ s, scanIn (st.content p) n = some s)

theorem load_cases (complete : S → Bool) {st : FileSession P S} (hi : FileSessionInv st) (p : P) (n : ℤ)
    (lazy : Bool) : LoadOutcome st p n (st.load complete p n lazy) := by
  have htriv : ∀ e : Err, LoadOutcome st p n (.error e, st) := fun e =>
    ⟨hi, rfl, fun _ h => h, fun s h => (by cases h), fun σ h => (by cases h)⟩
  unfold FileSession.load
  split
  · rename_i f _
    by_cases hk : f.isKikuchipy = false
    · rw [if_pos hk]; exact htriv _
    rw [if_neg hk]
    cases hopen : st.openFile p .r with
    | error e => exact htriv _
    | ok st1 =>
      obtain ⟨⟨m, h1⟩, h2, h3, h4, h5, _⟩ := openFile_ok hopen
      have h5 := h5 (by simp)
      have herr : ∀ e : Err, LoadOutcome st p n (.error e, st1.leftOpen p st.next) := fun e =>
        ⟨inv_opened hi p m h1 h2 (Or.inr ⟨h3, by simp [FileSession.leftOpen, h4]⟩), h5,
          fun σ h => (by simpa [FileSession.leftOpen, h3] using h), fun s h => (by cases h),
          fun σ h => (by cases h)⟩
      simp only
      cases hs : scanIn (st.content p) n with
      | none => exact herr _
      | some s =>
        simp only
        by_cases hc : complete s = false
        · rw [if_pos hc]; exact herr _
        rw [if_neg hc]
        cases lazy with
        | true =>
          refine ⟨inv_opened hi p m h1 h2 (Or.inl ⟨n, by simp [h3], h4⟩), h5, ?_, ?_, ?_⟩
          · intro σ h
            simp [h3, h]
          · intro s h
            simp at h
          · intro σ h
            simp only [if_true, Except.ok.injEq, Loaded.lazy.injEq] at h
            exact ⟨h.symm, by simp [← h], s, hs⟩
        | false =>
          have hop : (st1.closeFile p st.next).opened = st.opened := by
            simp only [FileSession.closeFile, h1]
            exact closed_again hi p m
          refine ⟨inv_same hi hop (by simp [FileSession.closeFile, h2]) h3 h4, h5, ?_, ?_, ?_⟩
          · intro σ h
            simpa [FileSession.closeFile, h3] using h
          · intro s' h
            simp only [Bool.false_eq_true, if_false, Except.ok.injEq, Loaded.memory.injEq] at h
            exact ⟨by rw [hs, h], hop, h3, h4⟩
          · intro σ h
            simp at h
  · exact htriv _

theorem closeHandle_some {o : Option (SharedMode × List ℕ)} {h k : ℕ} {m hs} (ho : o = some (m, hs))
    (hk : k ∈ hs) (hne : k ≠ h) : ∃ m' hs', closeHandle o h = some (m', hs') ∧ k ∈ hs' := by
  subst ho
  have hmem : k ∈ hs.filter (· ≠ h) := by
    rw [List.mem_filter]
    exact ⟨hk, by simpa using hne⟩
  refine ⟨m, hs.filter (· ≠ h), ?_, hmem⟩
  simp only [closeHandle]
  rw [if_neg]
  intro h0
  rw [h0] at hmem
  cases hmem

omit [DecidableEq P] in
/-- Closing the handle of a signal or exception which is no longer in use. -/
theorem inv_forget {st : FileSession P S} (hi : FileSessionInv st) (h : ℕ) : FileSessionInv (st.forget h) := by
  refine ⟨?_, ?_, ?_⟩
  · intro σ hσ
    simp only [FileSession.forget, List.mem_filter, ne_eq, decide_not, Bool.not_eq_eq_eq_not, Bool.not_true,
      decide_eq_false_iff_not] at hσ
    obtain ⟨m, hs, h1, h2⟩ := hi.signals σ hσ.1
    exact closeHandle_some h1 h2 hσ.2
  · intro e he
    simp only [FileSession.forget, List.mem_filter, ne_eq, decide_not, Bool.not_eq_eq_eq_not, Bool.not_true,
      decide_eq_false_iff_not] at he
    obtain ⟨m, hs, h1, h2⟩ := hi.errors e he.1
    exact closeHandle_some h1 h2 he.2
  · intro p m hs hp
    simp only [FileSession.forget] at hp
    cases ho : st.opened p with
    | none => rw [ho] at hp; cases hp
    | some x =>
      obtain ⟨m', hs'⟩ := x
      rw [ho] at hp
      simp only [closeHandle] at hp
      split_ifs at hp with h0
      simp only [Option.some.injEq, Prod.mk.injEq] at hp
      rw [← hp.2]
      refine ⟨h0, ?_⟩
      intro k hk
      rw [List.mem_filter] at hk
      obtain ⟨h2, h3⟩ := (hi.handles p m' hs' ho).2 k hk.1
      have hkh : k ≠ h := by simpa using hk.2
      refine ⟨h2, ?_⟩
      rcases h3 with ⟨σ, h4, h5, h6⟩ | h4
      · refine Or.inl ⟨σ, ?_, h5, h6⟩
        simp only [FileSession.forget, List.mem_filter]
        exact ⟨h4, by simpa [h5] using hkh⟩
      · refine Or.inr ?_
        simp only [FileSession.forget, List.mem_filter]
        exact ⟨h4, by simpa using hkh⟩

theorem inv_step (parseInt : List Char → Option ℤ) (complete : S → Bool) {st : FileSession P S}
    (hi : FileSessionInv st) (e : SessionEvent P S) : FileSessionInv (st.step parseInt complete e) := by
  cases e with
  | save c =>
    rcases save_cases parseInt hi c with ⟨_, h⟩ | ⟨_, h, _⟩
    · simp only [FileSession.step, h]; exact hi
    · exact h
  | load p n lazy => exact (load_cases complete hi p n lazy).1
  | forget h => exact inv_forget hi h

theorem inv_run (parseInt : List Char → Option ℤ) (complete : S → Bool) {st : FileSession P S}
    (hi : FileSessionInv st) (events : List (SessionEvent P S)) :
    FileSessionInv (st.run parseInt complete events) := by
  induction events generalizing st with
  | nil => exact hi
  | cons e es ih => exact ih (inv_step parseInt complete hi e)

theorem inv_reached {parseInt : List Char → Option ℤ} {complete : S → Bool} {st : FileSession P S}
    (h : Reached parseInt complete st) : FileSessionInv st := by
  obtain ⟨content, events, rfl⟩ := h
  refine inv_run parseInt complete ⟨?_, ?_, ?_⟩ events
  · intro σ h; simp [newSession] at h
  · intro σ h; simp [newSession] at h
  · intro p m hs h; simp [newSession] at h

/-! ### Lazy signals -/

theorem find_append {l : List (ℤ × S)} {k : ℤ} {s : S} (x : List (ℤ × S))
    (h : (l.find? fun q => q.1 = k).map Prod.snd = some s) :
    ((l ++ x).find? fun q => q.1 = k).map Prod.snd = some s := by
  rw [List.find?_append]
  cases hf : l.find? fun q => q.1 = k with
  | none => rw [hf] at h; cases h
  | some q => rw [hf] at h; simpa using h

omit [DecidableEq P] in
/-- A scan in a file stays when another one is added or the addition stops. -/
theorem scanIn_kept (parseInt : List Char → Option ℤ) (old : FileContent S) (c : WriterCall P S) (k : ℤ)
    (s : S) (h : scanIn (some old) k = some s) :
    scanIn (some (h5Write parseInt (some old) true c.number c.scan c.answers).2) k = some s ∧
    ∀ stop, (h5Write parseInt (some old) true c.number c.scan c.answers).1 = .ok () →
      scanIn (some (stoppedContent true
        (h5Write parseInt (some old) true c.number c.scan c.answers).2 stop)) k = some s := by
  rcases C39_add_scan_never_collides (parseInt := parseInt) old c.number c.scan c.answers with
    ⟨_, f, n, h2, _, h4⟩ | ⟨⟨e, h1⟩, h2⟩
  · subst h2
    rw [h4]
    refine ⟨find_append _ h, ?_⟩
    intro stop _
    simp only [stoppedContent, List.dropLast_concat, scanIn]
    exact find_append _ h
  · rw [h2]
    refine ⟨h, ?_⟩
    intro stop h3
    rw [h1] at h3
    cases h3

/-- A lazy signal in use gives the same patterns after any event but its deletion. -/
theorem lazy_step (parseInt : List Char → Option ℤ) (complete : S → Bool) {st : FileSession P S}
    (hi : FileSessionInv st) (σ : LazyScan P) (hσ : σ ∈ st.signals) (s : S)
    (hs : scanIn (st.content σ.path) σ.number = some s) (e : SessionEvent P S)
    (he : e ≠ .forget σ.handle) :
    σ ∈ (st.step parseInt complete e).signals ∧
      scanIn ((st.step parseInt complete e).content σ.path) σ.number = some s := by
  cases e with
  | save c =>
    rcases save_cases parseInt hi c with ⟨_, h⟩ | ⟨_, _, h1, h2, h3⟩
    · simp only [FileSession.step, h]; exact ⟨hσ, hs⟩
    · refine ⟨h1 σ hσ, ?_⟩
      simp only [FileSession.step]
      by_cases hp : σ.path = c.path
      · obtain ⟨m, hs', h4, h5⟩ := hi.signals σ hσ
        obtain ⟨_, old, full, h6, h7, h8⟩ := h3 (by rw [← hp, h4]; rfl)
        rw [hp, h6] at hs
        have hk := scanIn_kept parseInt old c σ.number s hs
        rw [h7] at hk
        rw [hp]
        rcases h8 with h8 | ⟨stop, h9, h8⟩ <;> rw [h8]
        · exact hk.1
        · exact hk.2 stop h9
      · rw [h2 _ hp]
        exact hs
  | load p n lazy =>
    obtain ⟨_, h1, h2, _⟩ := load_cases complete hi p n lazy
    simp only [FileSession.step]
    exact ⟨h2 σ hσ, by rw [h1]; exact hs⟩
  | forget h =>
    simp only [FileSession.step, FileSession.forget, List.mem_filter, ne_eq, decide_not,
      Bool.not_eq_eq_eq_not, Bool.not_true, decide_eq_false_iff_not]
    exact ⟨⟨hσ, fun h' => he (by rw [h'])⟩, hs⟩

theorem lazy_run (parseInt : List Char → Option ℤ) (complete : S → Bool) {st : FileSession P S}
    (hi : FileSessionInv st) (σ : LazyScan P) (hσ : σ ∈ st.signals) (s : S)
    (hs : scanIn (st.content σ.path) σ.number = some s) (events : List (SessionEvent P S))
    (he : SignalKept σ events) :
    σ ∈ (st.run parseInt complete events).signals ∧
      scanIn ((st.run parseInt complete events).content σ.path) σ.number = some s := by
  induction events generalizing st with
  | nil => exact ⟨hσ, hs⟩
  | cons e es ih =>
    obtain ⟨h1, h2⟩ := lazy_step parseInt complete hi σ hσ s hs e
      (fun h => he σ.handle (by rw [h]; exact List.mem_cons_self ..) rfl)
    exact ih (inv_step parseInt complete hi e) h1 h2 fun h hm => he h (List.mem_cons_of_mem _ hm)

/-- C131.  A lazily loaded signal gives the patterns which were in the file when it was loaded, after
everything that is saved to that file or others, loaded, refused and interrupted, as long as it is in
use. -/
theorem C131_lazy_kept (parseInt : List Char → Option ℤ) (complete : S → Bool) (st st' : FileSession P S)
    (hr : Reached parseInt complete st) (p : P) (n : ℤ) (lazy : Bool) (σ : LazyScan P)
    (hl : st.load complete p n lazy = (.ok (.lazy σ), st')) (events : List (SessionEvent P S))
    (he : SignalKept σ events) :
    ∃ s, scanIn (st.content p) n = some s ∧
      (st'.run parseInt complete events).compute σ = .ok s := by
  obtain ⟨h1, h2, _, _, h3⟩ := load_cases complete (inv_reached hr) p n lazy
  rw [hl] at h1 h2 h3
  obtain ⟨rfl, h4, s, h5⟩ := h3 σ rfl
  refine ⟨s, h5, ?_⟩
  obtain ⟨h6, h7⟩ := lazy_run parseInt complete h1 _ h4 s (by rw [h2]; exact h5) events he
  obtain ⟨m, hs, h8, h9⟩ := (inv_run parseInt complete h1 events).signals _ h6
  unfold FileSession.compute
  rw [h8]
  simp only [h9, if_true]
  rw [h7]

/-- C131.  A file of which a lazy signal is in use is not overwritten: the call raises, and nothing is
changed. In particular a lazy signal can not destroy its own patterns. -/
theorem C131_no_overwrite (parseInt : List Char → Option ℤ) (complete : S → Bool) (st : FileSession P S)
    (hr : Reached parseInt complete st) (σ : LazyScan P) (hσ : σ ∈ st.signals) (c : WriterCall P S)
    (hp : c.path = σ.path) (ha : c.addScan = false) :
    st.save parseInt c = (.error .ioError, st) := by
  obtain ⟨m, hs, h1, _⟩ := (inv_reached hr).signals σ hσ
  unfold FileSession.save
  simp only [ha, Bool.and_false, Bool.false_eq_true, if_false, FileSession.openFile, hp, h1]

/-! ### Files -/

omit [DecidableEq P] in
theorem unused_closed {st : FileSession P S} (hi : FileSessionInv st) (p : P) (hu : Unused st p) :
    st.opened p = none := by
  cases ho : st.opened p with
  | none => rfl
  | some x =>
    obtain ⟨m, hs⟩ := x
    obtain ⟨h1, h2⟩ := hi.handles p m hs ho
    obtain ⟨h, hh⟩ := List.exists_mem_of_ne_nil _ h1
    rcases (h2 h hh).2 with ⟨σ, h3, _, h5⟩ | h3
    · exact absurd h5 (hu.1 σ h3)
    · exact absurd rfl (hu.2 _ h3)

/-- C131.  A call which succeeds leaves no file open which was not open before, but for lazy
signals. -/
theorem C131_closed_partial (parseInt : List Char → Option ℤ) (complete : S → Bool) (st : FileSession P S)
    (hr : Reached parseInt complete st) :
    (∀ c, (st.save parseInt c).1 = .ok () → (st.save parseInt c).2.opened = st.opened) ∧
    (∀ p n lazy s, (st.load complete p n lazy).1 = .ok (.memory s) →
      scanIn (st.content p) n = some s ∧ (st.load complete p n lazy).2.opened = st.opened) := by
  refine ⟨?_, ?_⟩
  · intro c h
    rcases save_cases parseInt (inv_reached hr) c with ⟨⟨e, h1⟩, _⟩ | ⟨h1, _⟩
    · rw [h] at h1; cases h1
    · exact (h1 h).1
  · intro p n lazy s h
    obtain ⟨_, _, _, h1, _⟩ := load_cases complete (inv_reached hr) p n lazy
    exact ⟨(h1 s h).1, (h1 s h).2.1⟩

/-- C131.  After any history, a file of which neither a lazy signal nor an exception is in use can be
overwritten, and what was saved can be loaded at once, whether lazily or not; other files are not
changed. -/
theorem C131_usable (parseInt : List Char → Option ℤ) (complete : S → Bool) (st : FileSession P S)
    (hr : Reached parseInt complete st) (c : WriterCall P S) (hu : Unused st c.path)
    (ha : c.addScan = false) (hs : c.stop = none) (hc : complete c.scan = true) :
    ∃ st', st.save parseInt c = (.ok (), st') ∧ (∀ q, q ≠ c.path → st'.content q = st.content q) ∧
      (st'.load complete c.path c.number false).1 = .ok (.memory c.scan) ∧
      ∃ σ st'', st'.load complete c.path c.number true = (.ok (.lazy σ), st'') ∧
        st''.compute σ = .ok c.scan := by
  have hi := inv_reached hr
  have hcl := unused_closed hi c.path hu
  have hsave : ∃ st', st.save parseInt c = (.ok (), st') ∧
      st'.content c.path = some (.h5 ⟨true, [(c.number, c.scan)]⟩) ∧
      ∀ q, q ≠ c.path → st'.content q = st.content q := by
    refine ⟨_, Prod.ext ?_ rfl, ?_, ?_⟩
    · simp only [FileSession.save, ha, Bool.and_false, Bool.false_eq_true, if_false, FileSession.openFile, hcl,
        h5Write, hs]
    · simp only [FileSession.save, ha, Bool.and_false, Bool.false_eq_true, if_false, FileSession.openFile, hcl,
        h5Write, hs, FileSession.closeFile, FileSession.written, putAt_same]
    · intro q hq
      simp only [FileSession.save, ha, Bool.and_false, Bool.false_eq_true, if_false, FileSession.openFile, hcl,
        h5Write, hs, FileSession.closeFile, FileSession.written, putAt_other _ _ hq]
  obtain ⟨st', h1, h2, h3⟩ := hsave
  refine ⟨st', h1, h3, ?_, ?_⟩
  · simp [FileSession.load, h2, FileSession.openFile, scanIn, hc]
  · refine ⟨⟨st'.next, c.path, c.number⟩, _, Prod.ext ?_ rfl, ?_⟩
    · simp [FileSession.load, h2, FileSession.openFile, scanIn, hc]
    · obtain ⟨m', hs', h4, h5⟩ := new_addHandle (st'.opened c.path) .read st'.next
      simp [FileSession.load, h2, FileSession.openFile, scanIn, hc, FileSession.compute, putAt_same, h4, h5]

/-- C131.  After any history, a scan can be added, under a number which is not used, to a file of
which neither a lazy signal nor an exception is in use; all scans in the file are kept. -/
theorem C131_add (parseInt : List Char → Option ℤ) (complete : S → Bool) (st : FileSession P S)
    (hr : Reached parseInt complete st) (c : WriterCall P S) (hu : Unused st c.path)
    (ha : c.addScan = true) (hs : c.stop = none) (f : H5File S)
    (hf : st.content c.path = some (.h5 f)) (hk : f.isKikuchipy = true) (hne : f.scans ≠ [])
    (hn : ∀ q ∈ f.scans, q.1 ≠ c.number) :
    ∃ st', st.save parseInt c = (.ok (), st') ∧
      st'.content c.path = some (.h5 ⟨true, f.scans ++ [(c.number, c.scan)]⟩) ∧
      st'.opened = st.opened := by
  have hi := inv_reached hr
  have hcl := unused_closed hi c.path hu
  have hmem : c.number ∉ f.scans.map Prod.fst := by
    intro h
    obtain ⟨q, hq, hq2⟩ := List.mem_map.1 h
    exact hn q hq hq2
  have hv : getValidScanNumber parseInt (f.scans.map Prod.fst) c.number c.answers =
      (.ok c.number, c.answers) := C39_requested_number (parseInt := parseInt) _ _ hmem _
  have hw : h5Write parseInt (some (.h5 f)) true c.number c.scan c.answers =
      (.ok (), .h5 ⟨true, f.scans ++ [(c.number, c.scan)]⟩) := by
    simp only [h5Write, hk, Bool.true_eq_false, hne, or_self, if_false, hv, if_neg hmem]
  have hok : (st.save parseInt c).1 = .ok () := by
    simp [FileSession.save, ha, hf, FileSession.openFile, hcl, hw, hs]
  refine ⟨_, Prod.ext hok rfl, ?_, (C131_closed_partial parseInt complete st hr).1 c hok⟩
  simp [FileSession.save, ha, hf, FileSession.openFile, hcl, hw, hs, FileSession.closeFile, FileSession.written,
    putAt_same]

/-- False in general: the file is closed after a call which is not lazy.  After loading a scan which
the file does not have, which raises, the file can neither be overwritten nor added to. -/
theorem C131_load_violated (parseInt : List Char → Option ℤ) (complete : S → Bool) (p : P) (s t : S) :
    let st : FileSession P S := newSession fun _ => some (.h5 ⟨true, [(1, s)]⟩)
    let st' := (st.load complete p 2 false).2
    (∃ e, (st.load complete p 2 false).1 = .error e) ∧ st'.signals = [] ∧
    (∀ addScan n answers, st'.save parseInt ⟨p, addScan, n, t, answers, none⟩ =
      (.error .ioError, st')) := by
  refine ⟨⟨.ioError, ?_⟩, ?_, ?_⟩
  · simp [FileSession.load, newSession, FileSession.openFile, scanIn]
  · simp [FileSession.load, newSession, FileSession.openFile, scanIn, FileSession.leftOpen]
  · intro addScan n answers
    cases addScan <;>
      simp [FileSession.load, newSession, FileSession.openFile, scanIn, FileSession.leftOpen, FileSession.save, putAt_same,
        addHandle]

/-- False in general: the file is closed after writing.  After a scan was not added, as its number is
in the file and no other number is entered, the file can not be overwritten. -/
theorem C131_save_violated (parseInt : List Char → Option ℤ) (p : P) (s t : S) :
    let st : FileSession P S := newSession fun _ => some (.h5 ⟨true, [(1, s)]⟩)
    let st' := (st.save parseInt ⟨p, true, 1, t, [], none⟩).2
    (∃ e, (st.save parseInt ⟨p, true, 1, t, [], none⟩).1 = .error e) ∧ st'.signals = [] ∧
    (∀ n answers, st'.save parseInt ⟨p, false, n, t, answers, none⟩ = (.error .ioError, st')) := by
  refine ⟨⟨.eofError, ?_⟩, ?_, ?_⟩
  · simp [newSession, FileSession.openFile, FileSession.save, h5Write, getValidScanNumber, getInputInt]
  · simp [newSession, FileSession.openFile, FileSession.save, h5Write, getValidScanNumber, getInputInt,
      FileSession.leftOpen, FileSession.written]
  · intro n answers
    simp [newSession, FileSession.openFile, FileSession.save, h5Write, getValidScanNumber, getInputInt,
      FileSession.leftOpen, FileSession.written, putAt_same, addHandle]

/-- A session: a lazy signal is loaded, overwriting the file is refused, a missing scan is asked for,
then everything is forgotten and the file is overwritten. The patterns are the first ones until
then. -/
example :
    let st : FileSession String ℕ := newSession fun p => if p = "a.h5" then some (.h5 ⟨true, [(1, 10)]⟩) else none
    let st1 := st.run (fun _ => none) (fun _ => true) [.load "a.h5" 1 true,
      .save ⟨"a.h5", false, 1, 20, [], none⟩, .load "a.h5" 3 false]
    st1.compute ⟨0, "a.h5", 1⟩ = .ok 10 ∧ st1.errors = [(1, "a.h5")] ∧
    (st1.run (fun _ => none) (fun _ => true) [.forget 0, .forget 1,
      .save ⟨"a.h5", false, 1, 20, [], none⟩]).content "a.h5" = some (.h5 ⟨true, [(1, 20)]⟩) := by
  refine ⟨rfl, rfl, rfl⟩

/-- The hypotheses of `C131_usable` are met after a session with errors which are forgotten. -/
example : ∃ st : FileSession String ℕ, Reached (fun _ => none) (fun _ => true) st ∧ Unused st "a.h5" ∧
    st.next = 2 :=
  ⟨_, ⟨fun p => if p = "a.h5" then some (.h5 ⟨true, [(1, 10)]⟩) else none,
    [.load "a.h5" 1 true, .load "a.h5" 3 false, .forget 0, .forget 1], rfl⟩,
    ⟨fun σ h => absurd (show σ ∈ [] from h) List.not_mem_nil,
      fun e h => absurd (show e ∈ [] from h) List.not_mem_nil⟩, rfl⟩

end Kp
