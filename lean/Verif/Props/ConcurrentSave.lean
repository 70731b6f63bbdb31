import Verif.Model.ConcurrentSave
import Mathlib.Data.List.Basic
import Mathlib.Data.List.Induction
import Mathlib.Data.List.Nodup

/-!
C108: processes which save to the same h5ebsd file at the same time.
-/

namespace Kp

variable {S : Type} (parseInt : List Char → Option ℤ) (calls : ℕ → SaveCall S)

/-! ### One process at a time -/

theorem move_procs (g : SharedFile S) (i : ℕ) (p : SaveState) : (g.move i p).procs i = p := by
  simp [SharedFile.move]

theorem step_done {i : ℕ} {g : SharedFile S} {o : Except Err Bool} (h : g.procs i = .done o) :
    stepSave parseInt calls i g = g := by
  unfold stepSave
  rw [h]

theorem move_move (g : SharedFile S) (i : ℕ) (p q : SaveState) : (g.move i p).move i q = g.move i q := by
  unfold SharedFile.move
  congr 1
  funext j
  by_cases h : j = i <;> simp [h]

/-- C108. A process which is alone behaves as in the model of saving without steps. -/
theorem C108_alone (i : ℕ) (file : Option (FileContent S)) {navDim : ℕ} (hnav : navDim ≤ 2) :
    let g := runSaves parseInt calls [i, i, i, i, i, i] (startSaves file)
    let c := calls i
    let r := saveWith parseInt .h5ebsd navDim file c.overwrite c.addScan c.scanNumber c.scan c.events
    g.procs i = .done r.outcome ∧ g.file = r.file ∧ g.lock = none := by
  intro g c r
  have hg : g = stepSave parseInt calls i (stepSave parseInt calls i (stepSave parseInt calls i
    (stepSave parseInt calls i (stepSave parseInt calls i (stepSave parseInt calls i
      (startSaves file)))))) := rfl
  have hdone : ∀ (o : Except Err Bool), stepSave parseInt calls i ((startSaves file).move i (.done o)) =
      (startSaves file).move i (.done o) := fun o => step_done _ _ (move_procs _ _ _)
  have hr : r = saveWith parseInt .h5ebsd navDim file c.overwrite c.addScan c.scanNumber c.scan
    c.events := rfl
  unfold saveWith at hr
  rw [if_neg (by omega)] at hr
  have h1 : stepSave parseInt calls i (startSaves file) =
      match decideAddScan .h5ebsd file.isSome c.overwrite c.addScan c.events with
      | (.error e, _) => (startSaves file).move i (.done (.error e))
      | (.ok (ow, addKw, ev), _) => (startSaves file).move i (.asked file.isSome ow addKw ev) := rfl
  rcases hd : decideAddScan .h5ebsd file.isSome c.overwrite c.addScan c.events with ⟨e | ⟨ow, addKw, ev⟩, log⟩
  · rw [hd] at h1 hr
    rw [hg, h1, hr]
    simp only [hdone]
    exact ⟨move_procs _ _ _, rfl, rfl⟩
  rw [hd] at h1 hr
  simp only at h1 hr
  have h2 : stepSave parseInt calls i ((startSaves file).move i (.asked file.isSome ow addKw ev)) =
      match decideWrite file.isSome ow ev with
      | (.error e, _) => (startSaves file).move i (.done (.error e))
      | (.ok (false, _), _) => (startSaves file).move i (.done (.ok false))
      | (.ok (true, ev), _) => (startSaves file).move i (.decided (addKw.getD false) ev) := by
    unfold stepSave
    rw [move_procs]
    have e : (if ow = PyTri.none then
        ((startSaves file).move i (SaveState.asked file.isSome ow addKw ev)).file.isSome
        else file.isSome) = file.isSome := by split_ifs <;> rfl
    simp only [e, move_move]
    rcases decideWrite file.isSome ow ev with ⟨e | ⟨b, ev'⟩, log'⟩
    · rfl
    · cases b <;> rfl
  rcases hw : decideWrite file.isSome ow ev with ⟨e | ⟨b, ev'⟩, log'⟩
  · rw [hw] at h2 hr
    rw [hg, h1, h2, hr]
    simp only [hdone]
    exact ⟨move_procs _ _ _, rfl, rfl⟩
  rw [hw] at h2 hr
  cases b
  · rw [hg, h1, h2, hr]
    simp only [hdone]
    exact ⟨move_procs _ _ _, rfl, rfl⟩
  simp only at h2 hr
  have h3 : stepSave parseInt calls i ((startSaves file).move i (.decided (addKw.getD false) ev')) =
      (startSaves file).move i (.opening (addKw.getD false && file.isSome) ev') := by
    unfold stepSave
    rw [move_procs]
    simp only [move_move]
    rfl
  generalize addKw.getD false = a at *
  have hop : ∀ (F : Option (FileContent S)) (b : Bool), stepSave parseInt calls i
      ((startSaves F).move i (.opening b ev')) = ⟨if b then F else some (.h5 ⟨false, []⟩), some i,
          ((startSaves F).move i (.opened b ev')).procs⟩ := by
    intro F b
    unfold stepSave
    rw [move_procs]
    simp only [move_move]
    rfl
  have fresh : ∀ (F : Option (FileContent S)), stepSave parseInt calls i (stepSave parseInt calls i
      (stepSave parseInt calls i ((startSaves F).move i (.opening false ev')))) =
        ⟨some (.h5 ⟨true, [(c.scanNumber, c.scan)]⟩), none,
          fun j => if j = i then .done (.ok true) else .start⟩ := by
    intro F
    have e : stepSave parseInt calls i ⟨some (.h5 ⟨false, []⟩), some i,
          ((startSaves F).move i (.opened false ev')).procs⟩ =
        ⟨some (.h5 ⟨false, []⟩), some i,
          fun j => if j = i then .writing false c.scanNumber else .start⟩ := by
      unfold stepSave
      rw [move_procs]
      unfold SharedFile.move
      simp only
      rw [if_neg (by simp)]
      congr 1
      funext j
      by_cases h : j = i <;> simp [h, startSaves, c]
    rw [hop]
    rw [if_neg (by simp), e]
    unfold stepSave
    simp only [if_pos]
    unfold SharedFile.move
    congr 1
    funext j
    by_cases h : j = i <;> simp [h]
  have fin0 : ∀ (F : Option (FileContent S)), r.outcome = .ok true →
      r.file = some (.h5 ⟨true, [(c.scanNumber, c.scan)]⟩) →
      stepSave parseInt calls i (stepSave parseInt calls i (stepSave parseInt calls i
        ((startSaves F).move i (.opening false ev')))) = g →
      g.procs i = .done r.outcome ∧ g.file = r.file ∧ g.lock = none := by
    intro F ho hf he
    rw [← he, fresh F, ho, hf]
    exact ⟨by simp, rfl, rfl⟩
  rw [h1, h2, h3] at hg
  cases a
  · refine fin0 file ?_ ?_ hg.symm <;> rw [hr] <;> rcases file with _ | (f | s | b) <;> rfl
  cases file with
  | none => refine fin0 none ?_ ?_ hg.symm <;> rw [hr] <;> rfl
  | some F =>
    have hfail : ∀ e, stepSave parseInt calls i
        (stepSave parseInt calls i ((startSaves (some F)).move i (.opening true ev'))) =
        (startSaves (some F)).move i (.done (.error e)) → r.outcome = .error e → r.file = some F →
        g.procs i = .done r.outcome ∧ g.file = r.file ∧ g.lock = none := by
      intro e he ho hf
      have : g = (startSaves (some F)).move i (.done (.error e)) := by
        rw [hg]
        simp only [Option.isSome_some, Bool.and_self]
        rw [he, hdone]
      rw [this, ho, hf]
      exact ⟨move_procs _ _ _, rfl, rfl⟩
    cases F with
    | nordif s =>
      refine hfail .ioError ?_ (by rw [hr]; rfl) (by rw [hr]; rfl)
      rw [hop]
      unfold stepSave
      rw [move_procs]
      unfold SharedFile.move
      simp only [if_true]
      congr 1
      funext j
      by_cases h : j = i <;> simp [h]
    | other bs =>
      refine hfail .ioError ?_ (by rw [hr]; rfl) (by rw [hr]; rfl)
      rw [hop]
      unfold stepSave
      rw [move_procs]
      unfold SharedFile.move
      simp only [if_true]
      congr 1
      funext j
      by_cases h : j = i <;> simp [h]
    | h5 f =>
      have ho : stepSave parseInt calls i
          (stepSave parseInt calls i ((startSaves (some (.h5 f))).move i (.opening true ev'))) =
          if f.isKikuchipy = false ∨ f.scans = [] then
            (startSaves (some (.h5 f))).move i (.done (.error .ioError))
          else match (getValidScanNumber parseInt (f.scans.map Prod.fst) c.scanNumber ev').1 with
            | .error e => (startSaves (some (.h5 f))).move i (.done (.error e))
            | .ok n =>
              if n ∈ f.scans.map Prod.fst then
                (startSaves (some (.h5 f))).move i (.done (.error .valueError))
              else { (startSaves (some (.h5 f))).move i (.writing true n) with lock := some i } := by
        have e : ∀ p l, SharedFile.mk (some (.h5 f)) l ((SharedFile.mk (some (.h5 f)) (some i)
            ((startSaves (some (.h5 f))).move i (.opened true ev')).procs).move i p).procs =
            { (startSaves (some (.h5 f))).move i p with lock := l } := by
          intro p l
          unfold SharedFile.move
          congr 1
          funext j
          by_cases h : j = i <;> simp [h]
        rw [hop]
        unfold stepSave
        rw [move_procs]
        simp only [if_true]
        split_ifs with hk
        · exact e _ _
        · rcases (getValidScanNumber parseInt (f.scans.map Prod.fst) (calls i).scanNumber ev').1 with e' | n
          · exact e _ _
          · simp only
            split_ifs
            · exact e _ _
            · exact e _ _
      simp only [h5Write] at hr
      by_cases hk : f.isKikuchipy = false ∨ f.scans = []
      · rw [if_pos hk] at ho hr
        exact hfail _ ho (by rw [hr]) (by rw [hr])
      rw [if_neg hk] at ho hr
      rcases hn : (getValidScanNumber parseInt (f.scans.map Prod.fst) c.scanNumber ev').1 with e | n
      · rw [hn] at ho hr
        exact hfail _ ho (by rw [hr]) (by rw [hr])
      rw [hn] at ho hr
      simp only at ho hr
      by_cases hm : n ∈ f.scans.map Prod.fst
      · rw [if_pos hm] at ho hr
        exact hfail _ ho (by rw [hr]) (by rw [hr])
      rw [if_neg hm] at ho hr
      have hlast : g = ⟨some (.h5 { f with scans := f.scans ++ [(n, c.scan)] }), none,
          fun j => if j = i then .done (.ok true) else .start⟩ := by
        rw [hg]
        simp only [Option.isSome_some, Bool.and_self]
        rw [ho]
        unfold stepSave
        simp only [SharedFile.move, startSaves, if_pos]
        congr 1
        funext j
        by_cases h : j = i <;> simp [h]
      rw [hlast, hr]
      exact ⟨by simp, rfl, rfl⟩

/-! ### The file is open in one process at a time -/

theorem move_other (g : SharedFile S) {i j : ℕ} (p : SaveState) (h : j ≠ i) :
    (g.move i p).procs j = g.procs j := by
  simp [SharedFile.move, h]

/-- The process has the file open. -/
def SaveState.HasOpen : SaveState → Prop
  | .opened _ _ => True
  | .writing _ _ => True
  | _ => False

/-- What a step may do: leave the file alone, open it, keep or close it, or nothing. -/
theorem step_cases (i : ℕ) (g : SharedFile S) :
    (∃ p, stepSave parseInt calls i g = g.move i p ∧ (p.HasOpen ↔ (g.procs i).HasOpen)) ∨
    (∃ p F, stepSave parseInt calls i g = ⟨F, some i, (g.move i p).procs⟩ ∧
      g.lock = none ∧ p.HasOpen) ∨
    (∃ p F, (g.procs i).HasOpen ∧
      stepSave parseInt calls i g = ⟨F, none, (g.move i p).procs⟩ ∧ ¬ p.HasOpen) ∨
    stepSave parseInt calls i g = g := by
  unfold stepSave
  rcases hp : g.procs i with _ | ⟨isFile, ow, addKw, ev⟩ | ⟨addKw, ev⟩ | ⟨a, ev⟩ | ⟨a, ev⟩ | ⟨a, n⟩ | o
  · refine .inl ?_
    dsimp only
    split
    · exact ⟨_, rfl, Iff.rfl⟩
    · exact ⟨_, rfl, Iff.rfl⟩
  · refine .inl ?_
    dsimp only
    split
    · exact ⟨_, rfl, Iff.rfl⟩
    · exact ⟨_, rfl, Iff.rfl⟩
    · exact ⟨_, rfl, Iff.rfl⟩
  · exact .inl ⟨_, rfl, Iff.rfl⟩
  · dsimp only
    by_cases hl : g.lock.isSome
    · rw [if_pos hl]
      exact .inl ⟨_, rfl, Iff.rfl⟩
    · have hl' : g.lock = none := by simpa using hl
      rw [if_neg hl]
      exact .inr (.inl ⟨_, _, rfl, hl', trivial⟩)
  · dsimp only
    cases a
    · exact .inl ⟨_, rfl, Iff.rfl⟩
    · rw [if_pos rfl]
      split
      · split
        · exact .inr (.inr (.inl ⟨_, _, trivial, rfl, id⟩))
        · split
          · exact .inr (.inr (.inl ⟨_, _, trivial, rfl, id⟩))
          · split
            · exact .inr (.inr (.inl ⟨_, _, trivial, rfl, id⟩))
            · exact .inl ⟨_, rfl, Iff.rfl⟩
      · exact .inr (.inr (.inl ⟨_, _, trivial, rfl, id⟩))
  · exact .inr (.inr (.inl ⟨_, _, trivial, rfl, id⟩))
  · exact .inr (.inr (.inr rfl))

/-- C108. For any number of processes, calls and order of their steps: the file is open to write in at
most one process, only its steps and opening the file while nobody has it open change the file, and
opening it while another process has it open is an error. -/
theorem C108_exclusive (file : Option (FileContent S)) (schedule : List ℕ) (i : ℕ) :
    let g := runSaves parseInt calls schedule (startSaves file)
    ((g.procs i).HasOpen ↔ g.lock = some i) ∧
    ((stepSave parseInt calls i g).file ≠ g.file →
      g.lock = some i ∨ g.lock = none ∧ ∃ a ev, g.procs i = .opening a ev) ∧
    (∀ j a ev, (g.procs j).HasOpen → g.procs i = .opening a ev →
      stepSave parseInt calls i g = g.move i (.done (.error .ioError))) := by
  have key : ∀ (l : List ℕ) (g : SharedFile S),
      (∀ i, (g.procs i).HasOpen ↔ g.lock = some i) →
      ∀ i, ((runSaves parseInt calls l g).procs i).HasOpen ↔
        (runSaves parseInt calls l g).lock = some i := by
    intro l
    induction l with
    | nil => intro g h; exact h
    | cons k l ih =>
      intro g h
      refine ih _ fun j => ?_
      change ((stepSave parseInt calls k g).procs j).HasOpen ↔
        (stepSave parseInt calls k g).lock = some j
      rcases step_cases parseInt calls k g with ⟨p, e, hp⟩ | ⟨p, F, e, hl, hp⟩ | ⟨p, F, hk, e, hp⟩ | e
      · rw [e]
        by_cases hj : j = k
        · subst hj
          rw [move_procs, hp]
          exact h j
        · rw [move_other _ _ hj]
          exact h j
      · rw [e]
        by_cases hj : j = k
        · subst hj
          change ((g.move j p).procs j).HasOpen ↔ some j = some j
          rw [move_procs]
          exact ⟨fun _ => rfl, fun _ => hp⟩
        · have hno : ¬ (g.procs j).HasOpen := fun hw => by
            have := (h j).mp hw
            rw [hl] at this
            cases this
          change ((g.move k p).procs j).HasOpen ↔ some k = some j
          rw [move_other _ _ hj]
          exact ⟨fun hw => absurd hw hno, fun hc => absurd (Option.some.inj hc).symm hj⟩
      · rw [e]
        have hlock : g.lock = some k := (h k).mp hk
        change ((g.move k p).procs j).HasOpen ↔ none = some j
        by_cases hj : j = k
        · subst hj
          rw [move_procs]
          exact ⟨fun hw => absurd hw hp, fun hc => by cases hc⟩
        · rw [move_other _ _ hj]
          refine ⟨fun hw => ?_, fun hc => by cases hc⟩
          have := (h j).mp hw
          rw [hlock] at this
          exact absurd (Option.some.inj this).symm hj
      · rw [e]
        exact h j
  intro g
  have inv : ∀ i, (g.procs i).HasOpen ↔ g.lock = some i :=
    key schedule (startSaves file) fun i => ⟨fun h => h.elim, fun h => by cases h⟩
  refine ⟨inv i, fun hne => ?_, fun j a ev hj hi => ?_⟩
  · by_cases ho : (g.procs i).HasOpen
    · exact .inl ((inv i).mp ho)
    rcases step_cases parseInt calls i g with ⟨p, e, hp⟩ | ⟨p, F, e, hl, hp⟩ | ⟨p, F, hk, e, hp⟩ | e
    · rw [e] at hne
      exact absurd rfl hne
    · refine .inr ⟨hl, ?_⟩
      rcases hq : g.procs i with _ | ⟨isFile, ow, addKw, ev⟩ | ⟨addKw, ev⟩ | ⟨a, ev⟩ | ⟨a, ev⟩ | ⟨a, n⟩ | o
      · exfalso
        apply hne
        unfold stepSave
        rw [hq]
        dsimp only
        split <;> rfl
      · exfalso
        apply hne
        unfold stepSave
        rw [hq]
        dsimp only
        split <;> rfl
      · exfalso
        apply hne
        unfold stepSave
        rw [hq]
        rfl
      · exact ⟨a, ev, rfl⟩
      · rw [hq] at ho
        exact absurd trivial ho
      · rw [hq] at ho
        exact absurd trivial ho
      · exact absurd (by rw [step_done parseInt calls hq]) hne
    · exact absurd hk ho
    · rw [e] at hne
      exact absurd rfl hne
  · have hl := (inv j).mp hj
    unfold stepSave
    rw [hi]
    dsimp only
    rw [if_pos (by rw [hl]; rfl)]

/-! ### Adding scans to an existing file -/

/-- The call adds its scan to an existing file. -/
def SaveCall.Adds (c : SaveCall S) : Prop := c.addScan = some true ∧ c.overwrite ≠ .true

/-- The call does not touch an existing file. -/
def SaveCall.Declines (c : SaveCall S) : Prop := c.addScan = some false ∧ c.overwrite = .false

/-- The states of a process which adds its scan or declines. -/
def AddState (c : SaveCall S) (f : H5File S) (owners : List (ℕ × ℤ)) : SaveState → Prop
  | .start => True
  | .asked isFile ow addKw _ => isFile = true ∧
      ((ow = .true ∧ addKw = some true ∧ c.Adds) ∨ (ow = .false ∧ addKw = some false))
  | .decided a _ => a = true ∧ c.Adds
  | .opening a _ => a = true ∧ c.Adds
  | .opened a _ => a = true ∧ c.Adds
  | .writing a n => a = true ∧ c.Adds ∧ n ∉ f.scans.map Prod.fst ∧ n ∉ owners.map Prod.snd
  | .done o => o = .ok true → c.Adds

/-- What holds in every state when calls add scans to a file or decline to touch it. -/
structure AddInv (f : H5File S) (g : SharedFile S) (owners : List (ℕ × ℤ)) : Prop where
  file : g.file = some (.h5 ⟨true, f.scans ++ owners.map fun o => (o.2, (calls o.1).scan)⟩)
  nodup : (owners.map Prod.fst).Nodup
  finished : ∀ i, g.procs i = .done (.ok true) ↔ i ∈ owners.map Prod.fst
  fresh : ∀ l₁ o l₂, owners = l₁ ++ o :: l₂ → o.2 ∉ f.scans.map Prod.fst ∧ o.2 ∉ l₁.map Prod.snd
  lock : ∀ i, (g.procs i).HasOpen → g.lock = some i
  state : ∀ i, AddState (calls i) f owners (g.procs i)

theorem numbers_eq (f : H5File S) (owners : List (ℕ × ℤ)) :
    (f.scans ++ owners.map fun o => (o.2, (calls o.1).scan)).map Prod.fst =
      f.scans.map Prod.fst ++ owners.map Prod.snd := by
  rw [List.map_append, List.map_map]
  rfl

/-- Moving on without touching the file. -/
theorem AddInv.move {f : H5File S} {g : SharedFile S} {owners : List (ℕ × ℤ)}
    (h : AddInv calls f g owners) {i : ℕ} {p : SaveState} {l : Option ℕ}
    (hd : p ≠ .done (.ok true)) (hnot : g.procs i ≠ .done (.ok true))
    (hs : AddState (calls i) f owners p)
    (hl : ∀ j, ((g.move i p).procs j).HasOpen → l = some j) :
    AddInv calls f ⟨g.file, l, (g.move i p).procs⟩ owners where
  file := h.file
  nodup := h.nodup
  fresh := h.fresh
  lock := hl
  finished := by
    intro j
    change (g.move i p).procs j = _ ↔ _
    by_cases hj : j = i
    · subst hj
      rw [move_procs]
      exact ⟨fun hc => absurd hc hd, fun hc => absurd ((h.finished j).mpr hc) hnot⟩
    · rw [move_other _ _ hj]
      exact h.finished j
  state := by
    intro j
    change AddState (calls j) f owners ((g.move i p).procs j)
    by_cases hj : j = i
    · subst hj
      rw [move_procs]
      exact hs
    · rw [move_other _ _ hj]
      exact h.state j

/-- Nobody else has it open. -/
theorem AddInv.others {f : H5File S} {g : SharedFile S} {owners : List (ℕ × ℤ)}
    (h : AddInv calls f g owners) {i : ℕ} (p : SaveState)
    (hl : g.lock = none ∨ g.lock = some i) (j : ℕ) (hj : ((g.move i p).procs j).HasOpen) : j = i := by
  by_contra hne
  rw [move_other _ _ hne] at hj
  have := h.lock j hj
  rcases hl with hl | hl
  · rw [hl] at this
    cases this
  · rw [hl] at this
    exact hne (Option.some.inj this).symm

theorem AddInv.keep {f : H5File S} {g : SharedFile S} {owners : List (ℕ × ℤ)}
    (h : AddInv calls f g owners) {i : ℕ} {p : SaveState}
    (hd : p ≠ .done (.ok true)) (hnot : g.procs i ≠ .done (.ok true))
    (hs : AddState (calls i) f owners p) (ho : p.HasOpen → (g.procs i).HasOpen) :
    AddInv calls f (g.move i p) owners := by
  refine h.move calls hd hnot hs fun j hj => ?_
  by_cases hji : j = i
  · subst hji
    rw [move_procs] at hj
    exact h.lock j (ho hj)
  · rw [move_other _ _ hji] at hj
    exact h.lock j hj

theorem AddInv.step {f : H5File S} (hf : f.scans ≠ []) {g : SharedFile S} {owners : List (ℕ × ℤ)}
    (h : AddInv calls f g owners) (i : ℕ) (hc : (calls i).Adds ∨ (calls i).Declines) :
    ∃ owners', AddInv calls f (stepSave parseInt calls i g) owners' ∧ owners <+: owners' := by
  have hsome : g.file.isSome = true := by rw [h.file]; rfl
  have hst := h.state i
  rcases hp : g.procs i with _ | ⟨isFile, ow, addKw, ev⟩ | ⟨addKw, ev⟩ | ⟨a, ev⟩ | ⟨a, ev⟩ | ⟨a, n⟩ | o
  · refine ⟨owners, ?_, List.prefix_rfl⟩
    have e : stepSave parseInt calls i g =
        match decideAddScan .h5ebsd g.file.isSome (calls i).overwrite (calls i).addScan (calls i).events with
        | (.error e, _) => g.move i (.done (.error e))
        | (.ok (ow, addKw, ev), _) => g.move i (.asked g.file.isSome ow addKw ev) := by
      unfold stepSave
      rw [hp]
      rfl
    rw [e, hsome]
    rcases hc with ⟨ha, ho⟩ | ⟨ha, ho⟩
    · have : decideAddScan .h5ebsd true (calls i).overwrite (calls i).addScan (calls i).events =
          (.ok (.true, some true, (calls i).events), []) := by
        unfold decideAddScan
        rw [if_pos ⟨rfl, ho, rfl⟩, ha]
        rfl
      rw [this]
      exact h.keep calls (by simp) (by rw [hp]; simp) ⟨rfl, .inl ⟨rfl, rfl, ha, ho⟩⟩ False.elim
    · have : decideAddScan .h5ebsd true (calls i).overwrite (calls i).addScan (calls i).events =
          (.ok (.false, some false, (calls i).events), []) := by
        unfold decideAddScan
        rw [if_pos ⟨rfl, by rw [ho]; simp, rfl⟩, ha, ho]
        rfl
      rw [this]
      exact h.keep calls (by simp) (by rw [hp]; simp) ⟨rfl, .inr ⟨rfl, rfl⟩⟩ False.elim
  · refine ⟨owners, ?_, List.prefix_rfl⟩
    rw [hp] at hst
    obtain ⟨rfl, ⟨rfl, rfl, hadd⟩ | ⟨rfl, rfl⟩⟩ := hst
    · have e : stepSave parseInt calls i g = g.move i (.decided true ev) := by
        unfold stepSave
        rw [hp]
        rfl
      rw [e]
      exact h.keep calls (by simp) (by rw [hp]; simp) ⟨rfl, hadd⟩ False.elim
    · have e : stepSave parseInt calls i g = g.move i (.done (.ok false)) := by
        unfold stepSave
        rw [hp]
        rfl
      rw [e]
      exact h.keep calls (by simp) (by rw [hp]; simp) (fun hc => by simp at hc) False.elim
  · refine ⟨owners, ?_, List.prefix_rfl⟩
    rw [hp] at hst
    obtain ⟨rfl, hadd⟩ := hst
    have e : stepSave parseInt calls i g = g.move i (.opening true ev) := by
      unfold stepSave
      rw [hp, hsome]
      rfl
    rw [e]
    exact h.keep calls (by simp) (by rw [hp]; simp) ⟨rfl, hadd⟩ False.elim
  · refine ⟨owners, ?_, List.prefix_rfl⟩
    rw [hp] at hst
    obtain ⟨rfl, hadd⟩ := hst
    unfold stepSave
    rw [hp]
    dsimp only
    by_cases hl : g.lock.isSome
    · rw [if_pos hl]
      exact h.keep calls (by simp) (by rw [hp]; simp) (fun hc => by simp at hc) False.elim
    rw [if_neg hl, if_pos rfl]
    have hl' : g.lock = none := by simpa using hl
    refine h.move calls (by simp) (by rw [hp]; simp) ⟨rfl, hadd⟩ fun j hj => ?_
    rw [h.others calls _ (.inl hl') j hj]
  · refine ⟨owners, ?_, List.prefix_rfl⟩
    rw [hp] at hst
    obtain ⟨rfl, hadd⟩ := hst
    have hlock := h.lock i (by rw [hp]; trivial)
    have fail : ∀ e, AddInv calls f ⟨g.file, none, (g.move i (.done (.error e))).procs⟩ owners := by
      intro e
      refine h.move calls (by simp) (by rw [hp]; simp) (fun hc => by simp at hc) fun j hj => ?_
      have := h.others calls _ (.inr hlock) j hj
      subst this
      rw [move_procs] at hj
      exact hj.elim
    unfold stepSave
    rw [hp]
    dsimp only
    rw [if_pos rfl]
    have hfile := h.file
    revert fail
    rw [hfile]
    intro fail
    dsimp only
    rw [if_neg (by simp [hf])]
    split
    · rw [← hfile] at fail
      exact fail _
    · rename_i n hn
      split
      · rw [← hfile] at fail
        exact fail _
      · rename_i hm
        rw [numbers_eq, List.mem_append] at hm
        push Not at hm
        exact h.keep calls (by simp) (by rw [hp]; simp) ⟨rfl, hadd, hm.1, hm.2⟩
          (fun _ => by rw [hp]; trivial)
  · rw [hp] at hst
    obtain ⟨rfl, hadd, hn1, hn2⟩ := hst
    have hlock := h.lock i (by rw [hp]; trivial)
    refine ⟨owners ++ [(i, n)], ?_, List.prefix_append _ _⟩
    have e : stepSave parseInt calls i g = ⟨some (.h5 ⟨true,
        f.scans ++ (owners ++ [(i, n)]).map fun o => (o.2, (calls o.1).scan)⟩), none,
        (g.move i (.done (.ok true))).procs⟩ := by
      unfold stepSave
      rw [hp, h.file]
      simp
    have hi : i ∉ owners.map Prod.fst := fun hc => by
      have := (h.finished i).mpr hc
      rw [hp] at this
      cases this
    rw [e]
    exact
      { file := rfl
        nodup := by
          rw [List.map_append, List.nodup_append]
          refine ⟨h.nodup, by simp, ?_⟩
          intro a ha b hb
          simp only [List.map_cons, List.map_nil, List.mem_singleton] at hb
          rintro rfl
          exact hi (hb ▸ ha)
        finished := by
          intro j
          change (g.move i (.done (.ok true))).procs j = _ ↔ _
          by_cases hj : j = i
          · subst hj
            rw [move_procs]
            simp
          · rw [move_other _ _ hj, h.finished j]
            simp [hj]
        fresh := by
          intro l₁ o l₂ he
          rcases List.eq_nil_or_concat l₂ with rfl | ⟨l, b, rfl⟩
          · have h1 := List.append_inj' he (by simp)
            obtain ⟨rfl, h2⟩ := h1
            have : (i, n) = o := by simpa using h2
            subst this
            exact ⟨hn1, hn2⟩
          · have h1 : owners ++ [(i, n)] = (l₁ ++ o :: l) ++ [b] := by
              rw [he]
              simp
            have h2 := List.append_inj' h1 (by simp)
            exact h.fresh l₁ o l h2.1
        lock := by
          intro j hj
          have := h.others calls _ (.inr hlock) j hj
          subst this
          change ((g.move j (.done (.ok true))).procs j).HasOpen at hj
          rw [move_procs] at hj
          exact hj.elim
        state := by
          intro j
          change AddState (calls j) f (owners ++ [(i, n)]) ((g.move i (.done (.ok true))).procs j)
          by_cases hj : j = i
          · subst hj
            rw [move_procs]
            exact fun _ => hadd
          · rw [move_other _ _ hj]
            have hs := h.state j
            rcases hq : g.procs j with _ | ⟨isFile, ow, addKw, ev⟩ | ⟨addKw, ev⟩ | ⟨a, ev⟩ | ⟨a, ev⟩ | ⟨a, m⟩ | o
            all_goals rw [hq] at hs
            · trivial
            · exact hs
            · exact hs
            · exact hs
            · exact hs
            · have := h.lock j (by rw [hq]; trivial)
              rw [hlock] at this
              exact absurd (Option.some.inj this).symm hj
            · exact hs }
  · refine ⟨owners, ?_, List.prefix_rfl⟩
    rw [step_done parseInt calls hp]
    exact h

/-- C108, part. Any number of processes which add scans to an existing file with scans from kikuchipy, or decline to
touch it, in any order of their steps: what was in the file stays, and exactly the scans of the
processes which report success are added, in the order in which they finish, each under a number that
was not in use. Missing (and false): the file does not exist at first, see below. -/
theorem C108_add_partial (f : H5File S) (hk : f.isKikuchipy = true) (hf : f.scans ≠ [])
    (hc : ∀ i, (calls i).Adds ∨ (calls i).Declines) (schedule : List ℕ) :
    let g := runSaves parseInt calls schedule (startSaves (some (.h5 f)))
    ∃ owners : List (ℕ × ℤ),
      g.file = some (.h5 ⟨true, f.scans ++ owners.map fun o => (o.2, (calls o.1).scan)⟩) ∧
      (owners.map Prod.fst).Nodup ∧
      (∀ i, g.procs i = .done (.ok true) ↔ i ∈ owners.map Prod.fst) ∧
      (∀ i ∈ owners.map Prod.fst, (calls i).Adds) ∧
      ((f.scans.map Prod.fst).Nodup → (f.scans.map Prod.fst ++ owners.map Prod.snd).Nodup) := by
  have key : ∀ (l : List ℕ) (g : SharedFile S) (owners : List (ℕ × ℤ)), AddInv calls f g owners →
      ∃ owners', AddInv calls f (runSaves parseInt calls l g) owners' := by
    intro l
    induction l with
    | nil => intro g owners h; exact ⟨owners, h⟩
    | cons k l ih =>
      intro g owners h
      obtain ⟨o', h', -⟩ := h.step parseInt calls hf k (hc k)
      exact ih _ o' h'
  have init : AddInv calls f (startSaves (some (.h5 f))) [] :=
    { file := by rw [List.map_nil, List.append_nil, ← hk]; rfl
      nodup := by simp
      finished := fun i => ⟨fun h => SaveState.noConfusion h, fun h => by simp at h⟩
      fresh := fun l₁ o l₂ h => by simp at h
      lock := fun i h => h.elim
      state := fun i => trivial }
  obtain ⟨owners, h⟩ := key schedule _ [] init
  refine ⟨owners, h.file, h.nodup, h.finished, ?_, ?_⟩
  · intro i hi
    have hs := h.state i
    rw [(h.finished i).mpr hi] at hs
    exact hs rfl
  · intro hn
    have hall : ∀ l, l <+: owners → (f.scans.map Prod.fst ++ l.map Prod.snd).Nodup := by
      intro l
      induction l using List.reverseRecOn with
      | nil => intro _; simpa using hn
      | append_singleton l o ih =>
        intro hl
        obtain ⟨t, ht⟩ := hl
        have h1 := h.fresh l o t (by rw [← ht]; simp)
        have h2 := ih ⟨o :: t, by rw [← ht]; simp⟩
        rw [List.map_append, ← List.append_assoc, List.nodup_append]
        refine ⟨h2, by simp, ?_⟩
        intro a ha b hb
        simp only [List.map_cons, List.map_nil, List.mem_singleton] at hb
        subst hb
        rintro rfl
        rcases List.mem_append.mp ha with h3 | h3
        · exact h1.1 h3
        · exact h1.2 h3
    exact hall owners List.prefix_rfl

/-- Two processes, each adding its scan. -/
def twoAdds : ℕ → SaveCall Char
  | 0 => ⟨.none, some true, 2, 'a', []⟩
  | 1 => ⟨.none, some true, 3, 'b', []⟩
  | _ => ⟨.false, some false, 1, 'c', []⟩

example : ∀ i, (twoAdds i).Adds ∨ (twoAdds i).Declines := by
  intro i
  match i with
  | 0 => exact .inl ⟨rfl, by decide⟩
  | 1 => exact .inl ⟨rfl, by decide⟩
  | _ + 2 => exact .inr ⟨rfl, rfl⟩

set_option maxHeartbeats 2000000 in
/-- Their steps taken in turn, so that both want to open the file: both scans are in the file if the
second opens it after the first has closed it. -/
example :
    let g := runSaves parseInt twoAdds [0, 1, 0, 1, 0, 0, 0, 0, 1, 1, 1, 1]
      (startSaves (some (.h5 ⟨true, [(1, 'z')]⟩)))
    g.procs 0 = .done (.ok true) ∧ g.procs 1 = .done (.ok true) ∧
      g.file = some (.h5 ⟨true, [(1, 'z'), (2, 'a'), (3, 'b')]⟩) := by
  refine ⟨rfl, rfl, rfl⟩

/-- Opening the file a step earlier is an error, which the caller sees. -/
example :
    let g := runSaves parseInt twoAdds [0, 1, 0, 1, 0, 1, 0, 1, 0, 0]
      (startSaves (some (.h5 ⟨true, [(1, 'z')]⟩)))
    g.procs 0 = .done (.ok true) ∧ g.procs 1 = .done (.error .ioError) ∧
      g.file = some (.h5 ⟨true, [(1, 'z'), (2, 'a')]⟩) := by
  refine ⟨rfl, rfl, rfl⟩

/-! ### What is lost -/

/-- C108 is false for a file that does not exist at first: two processes with `add_scan=True` look for
the file before either makes it. Both report success, without any question, and only the scan of
one is in the file. -/
theorem C108_new_file_violated (a b : SaveCall S) (ha : a.addScan = some true ∧ a.overwrite = .none)
    (hb : b.addScan = some true ∧ b.overwrite = .none) :
    ∃ schedule : List ℕ,
      let g := runSaves parseInt (fun i => if i = 0 then a else b) schedule (startSaves none)
      g.procs 0 = .done (.ok true) ∧ g.procs 1 = .done (.ok true) ∧
        g.file = some (.h5 ⟨true, [(b.scanNumber, b.scan)]⟩) := by
  obtain ⟨ow, ad, n, s, ev⟩ := a
  obtain ⟨ow', ad', n', s', ev'⟩ := b
  obtain ⟨rfl, rfl⟩ := ha
  obtain ⟨rfl, rfl⟩ := hb
  exact ⟨[0, 0, 0, 1, 1, 1, 0, 0, 0, 1, 1, 1], rfl, rfl, rfl⟩

/-- C108: `overwrite=False` does not keep a file that another process makes after the first look: it
is replaced without any question. -/
theorem C108_overwrite_false_violated (a b : SaveCall S)
    (ha : a.overwrite = .false) (hb : b.overwrite = .none) :
    ∃ before after : List ℕ,
      let calls := fun i => if i = 0 then a else b
      let g := runSaves parseInt calls before (startSaves none)
      let g' := runSaves parseInt calls after g
      g.file = some (.h5 ⟨true, [(b.scanNumber, b.scan)]⟩) ∧ g.procs 1 = .done (.ok true) ∧
      (∀ i ∈ after, i = 0) ∧ g'.procs 0 = .done (.ok true) ∧
        g'.file = some (.h5 ⟨true, [(a.scanNumber, a.scan)]⟩) := by
  obtain ⟨ow, ad, n, s, ev⟩ := a
  obtain ⟨ow', ad', n', s', ev'⟩ := b
  obtain rfl : ow = .false := ha
  obtain rfl : ow' = .none := hb
  exact ⟨[0, 0, 1, 1, 1, 1, 1, 1], [0, 0, 0, 0], rfl, rfl, by simp, rfl, rfl⟩

end Kp
