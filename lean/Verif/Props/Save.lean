import Verif.Model.Save
import Mathlib.Tactic.Common

/-
C37: saving never destroys a file without consent. C38: saving honours the requested format.
C39: adding a scan never collides. C65: `add_scan=True` keeps existing scans.
-/

namespace Kp

/-- The file `new` is the file `old` with one more scan, under a number not used in `old`. -/
def Spec.scanAdded {S : Type*} (old new : FileContent S) (s : S) : Prop :=
  ∃ f n, old = .h5 f ∧ (∀ p ∈ f.scans, p.1 ≠ n) ∧
    new = .h5 { f with scans := f.scans ++ [(n, s)] }

variable {S : Type*} (parseInt : List Char → Option ℤ)

/-- C39: whatever the user answers, adding a scan to an existing file either adds it under a
number that is not used in the file, all other scans being unchanged, or raises an error and
leaves the file as it was. -/
theorem C39_add_scan_never_collides (c : FileContent S) (scanNumber : ℤ) (s : S)
    (ev : List InputEvent) :
    ((h5Write parseInt (some c) true scanNumber s ev).1 = .ok () ∧
      Spec.scanAdded c (h5Write parseInt (some c) true scanNumber s ev).2 s) ∨
    ((∃ e, (h5Write parseInt (some c) true scanNumber s ev).1 = .error e) ∧
      (h5Write parseInt (some c) true scanNumber s ev).2 = c) := by
  cases c with
  | nordif _ => exact .inr ⟨⟨_, rfl⟩, rfl⟩
  | other _ => exact .inr ⟨⟨_, rfl⟩, rfl⟩
  | h5 f =>
    unfold h5Write
    simp only
    split
    · exact .inr ⟨⟨_, rfl⟩, rfl⟩
    split
    · exact .inr ⟨⟨_, rfl⟩, rfl⟩
    split
    · exact .inr ⟨⟨_, rfl⟩, rfl⟩
    · rename_i n _ hn
      refine .inl ⟨rfl, f, n, rfl, fun p hp h => hn ?_, rfl⟩
      exact List.mem_map.2 ⟨p, hp, h⟩

/-- C39: a requested number that is not used is used, without asking. -/
theorem C39_requested_number (nos : List ℤ) (n : ℤ) (h : n ∉ nos) (ev : List InputEvent) :
    getValidScanNumber parseInt nos n ev = (.ok n, ev) := by
  induction nos with
  | nil => rfl
  | cons i is ih =>
    rw [List.mem_cons, not_or] at h
    unfold getValidScanNumber
    rw [if_neg fun e => h.1 e.symm]
    exact ih h.2

/-- C39: if the requested number is used, the first valid number entered by the user is used if
it is not in the file, and entering the same number again raises an error. -/
theorem C39_entered_number (nos : List ℤ) (n m : ℤ) (h : n ∈ nos) (hm : m ∉ nos) (t : List Char)
    (ht : parseInt t = some m) (ev : List InputEvent) :
    getValidScanNumber parseInt nos n (.text t :: ev) = (.ok m, ev) := by
  induction nos with
  | nil => simp at h
  | cons i is ih =>
    rw [List.mem_cons, not_or] at hm
    unfold getValidScanNumber
    by_cases hi : i = n
    · rw [if_pos hi]
      simp only [getInputInt, ht]
      rw [if_neg hm.1]
      exact C39_requested_number parseInt is m hm.2 ev
    · rw [if_neg hi]
      exact ih (by simpa [Ne.symm hi] using h) hm.2

/-- The prompt for another scan number accepts a number that is used in the file, which makes the
call fail afterwards (`C39_add_scan_never_collides`) instead of asking again. -/
theorem C39_prompt_accepts_used_number (s : S) :
    ∃ (nos : List ℤ) (n : ℤ) (t : List Char), ∀ parseInt : List Char → Option ℤ,
      parseInt t = some 1 →
      (getValidScanNumber parseInt nos n [.text t]).1 = .ok 1 ∧ (1 : ℤ) ∈ nos ∧
      ∀ s' : S, (h5Write parseInt (some (.h5 ⟨true, nos.map (·, s')⟩)) true n s [.text t]).1 =
        .error .valueError := by
  refine ⟨[1, 2], 2, ['1'], fun p hp => ⟨?_, by simp, fun s' => ?_⟩⟩
  · simp [getValidScanNumber, getInputInt, hp]
  · simp [h5Write, getValidScanNumber, getInputInt, hp]

/-! ### C37 -/

/-- C37: a question is taken to be answered with yes only if the user entered "y" or, at first,
"Y", and every earlier answer was neither yes nor no. -/
theorem C37_yes_means_yes {ev ev' : List InputEvent} (h : getInputBool ev = (.ok true, ev')) :
    ∃ pre t, ev = pre ++ .text t :: ev' ∧ lower t = ['y'] ∧
      ∀ e ∈ pre, ∃ t', e = .text t' ∧ t' ≠ ['y'] ∧ t' ≠ ['n'] := by
  have again : ∀ ev ev', askAgain ev = (.ok true, ev') →
      ∃ pre t, ev = pre ++ .text t :: ev' ∧ lower t = ['y'] ∧
        ∀ e ∈ pre, ∃ t', e = .text t' ∧ t' ≠ ['y'] ∧ t' ≠ ['n'] := by
    intro ev
    induction ev with
    | nil => intro ev' h; simp [askAgain] at h
    | cons e r ih =>
      intro ev' h
      cases e with
      | osError => simp [askAgain] at h
      | text t =>
        unfold askAgain at h
        by_cases h1 : t = ['y']
        · rw [if_pos h1] at h
          simp only [Prod.mk.injEq, true_and] at h
          subst h h1
          exact ⟨[], ['y'], rfl, rfl, by simp⟩
        · rw [if_neg h1] at h
          by_cases h2 : t = ['n']
          · rw [if_pos h2] at h
            simp at h
          · rw [if_neg h2] at h
            obtain ⟨pre, t', h3, h4, h5⟩ := ih ev' h
            refine ⟨.text t :: pre, t', by rw [h3]; rfl, h4, ?_⟩
            intro e he
            rcases List.mem_cons.1 he with rfl | he
            · exact ⟨t, rfl, h1, h2⟩
            · exact h5 e he
  cases ev with
  | nil => simp [getInputBool] at h
  | cons e r =>
    cases e with
    | osError => simp [getInputBool] at h
    | text t =>
      simp only [getInputBool] at h
      by_cases h1 : lower t = ['y']
      · rw [if_pos h1] at h
        simp only [Prod.mk.injEq, true_and] at h
        subst h
        exact ⟨[], t, rfl, h1, by simp⟩
      · rw [if_neg h1] at h
        by_cases h2 : lower t = ['n']
        · rw [if_pos h2] at h
          simp at h
        · rw [if_neg h2] at h
          obtain ⟨pre, t', h3, h4, h5⟩ := again r ev' h
          refine ⟨.text t :: pre, t', by rw [h3]; rfl, h4, ?_⟩
          intro e he
          rcases List.mem_cons.1 he with rfl | he
          · refine ⟨t, rfl, fun h => h1 ?_, fun h => h2 ?_⟩ <;> rw [h] <;> rfl
          · exact h5 e he

/-- C37: the content of an existing file changes only if `overwrite=True` was passed, or the user
answered yes to the question about overwriting, or the user asked for adding a scan (by argument
or answer) to an h5ebsd file and that is all that changed. -/
theorem C37_no_change_without_consent (w : Writer) (navDim : ℕ) (c : FileContent S)
    (overwrite : PyTri) (addScan : Option Bool) (scanNumber : ℤ) (s : S) (ev : List InputEvent) :
    let r := saveWith parseInt w navDim (some c) overwrite addScan scanNumber s ev
    r.file = some c ∨ overwrite = .true ∨ (Question.overwrite, true) ∈ r.log ∨
      (w = .h5ebsd ∧ (addScan = some true ∨ addScan = none ∧ (Question.addScan, true) ∈ r.log) ∧
        ∃ c', r.file = some c' ∧ Spec.scanAdded c c' s) := by
  intro r
  by_cases hr : overwrite = .true
  · exact .inr (.inl hr)
  by_cases hq : (Question.overwrite, true) ∈ r.log
  · exact .inr (.inr (.inl hq))
  have key : r.file = some c ∨ (w = .h5ebsd ∧
      (addScan = some true ∨ addScan = none ∧ (Question.addScan, true) ∈ r.log) ∧
        ∃ c', r.file = some c' ∧ Spec.scanAdded c c' s) := by
    obtain ⟨r', hr'⟩ : ∃ r', r' = r := ⟨_, rfl⟩
    rw [← hr'] at hq ⊢
    simp only [r, saveWith] at hr'
    split at hr'
    · exact .inl (by rw [hr'])
    · have hadd : ∀ ev2 lg, h5Write parseInt (some c) true scanNumber s ev2 = lg →
          lg.2 = c ∨ Spec.scanAdded c lg.2 s := by
        intro ev2 lg h
        subst h
        rcases C39_add_scan_never_collides parseInt c scanNumber s ev2 with ⟨_, h⟩ | ⟨_, h⟩
        · exact .inr h
        · exact .inl h
      cases w with
      | nordif =>
        simp only [decideAddScan, reduceCtorEq, false_and, if_false] at hr'
        cases overwrite with
        | none =>
          simp only [decideWrite, Option.isSome_some, if_true] at hr'
          rcases hb : getInputBool ev with ⟨o, ev'⟩
          rw [hb] at hr'
          rcases o with e | b
          · exact .inl (by rw [hr'])
          · cases b
            · exact .inl (by rw [hr'])
            · exact absurd (by rw [hr']; simp) hq
        | true => exact absurd rfl hr
        | false => exact .inl (by rw [hr']; rfl)
        | other => exact .inl (by rw [hr']; rfl)
      | h5ebsd =>
        simp only [decideAddScan, true_and, Option.isSome_some, and_true] at hr'
        rw [if_pos hr] at hr'
        rcases addScan with _ | b
        · rcases hb : getInputBool ev with ⟨o, ev'⟩
          rw [hb] at hr'
          rcases o with e | b
          · exact .inl (by rw [hr'])
          · cases b
            · simp only [Bool.false_eq_true, if_false] at hr'
              cases overwrite with
              | none =>
                simp only [decideWrite, if_true] at hr'
                rcases hb' : getInputBool ev' with ⟨o, ev''⟩
                rw [hb'] at hr'
                rcases o with e | b
                · exact .inl (by rw [hr'])
                · cases b
                  · exact .inl (by rw [hr'])
                  · refine absurd ?_ hq
                    rw [hr']
                    simp only
                    split <;> simp
              | true => exact absurd rfl hr
              | false => exact .inl (by rw [hr']; rfl)
              | other => exact .inl (by rw [hr']; rfl)
            · simp only [if_true, decideWrite] at hr'
              rcases hw : h5Write parseInt (some c) true scanNumber s ev' with ⟨o, c'⟩
              have := hadd ev' _ hw
              simp only [Option.getD_some, hw] at hr'
              have hf : r'.file = some c' ∧ (Question.addScan, true) ∈ r'.log := by
                rcases o with e | u <;> (rw [hr']; simp)
              rcases this with h | h
              · left
                rw [hf.1]; exact congrArg some h
              · exact .inr ⟨rfl, .inr ⟨rfl, hf.2⟩, c', hf.1, h⟩
        · cases b
          · simp only [Bool.false_eq_true, if_false] at hr'
            cases overwrite with
            | none =>
              simp only [decideWrite, if_true] at hr'
              rcases hb' : getInputBool ev with ⟨o, ev''⟩
              rw [hb'] at hr'
              rcases o with e | b
              · exact .inl (by rw [hr'])
              · cases b
                · exact .inl (by rw [hr'])
                · refine absurd ?_ hq
                  rw [hr']
                  simp only
                  split <;> simp
            | true => exact absurd rfl hr
            | false => exact .inl (by rw [hr']; rfl)
            | other => exact .inl (by rw [hr']; rfl)
          · simp only [if_true, decideWrite] at hr'
            rcases hw : h5Write parseInt (some c) true scanNumber s ev with ⟨o, c'⟩
            have := hadd ev _ hw
            simp only [Option.getD_some, hw] at hr'
            have hf : r'.file = some c' := by rcases o with e | u <;> rw [hr']
            rcases this with h | h
            · left
              rw [hf]; exact congrArg some h
            · exact .inr ⟨rfl, .inl rfl, c', hf, h⟩
  rcases key with h | h
  · exact .inl h
  · exact .inr (.inr (.inr h))

/-- C37: with `overwrite=False`, an existing file is only changed by adding a scan, and the user
is never asked about overwriting. -/
theorem C37_overwrite_false (w : Writer) (navDim : ℕ) (c : FileContent S)
    (addScan : Option Bool) (scanNumber : ℤ) (s : S) (ev : List InputEvent) :
    let r := saveWith parseInt w navDim (some c) .false addScan scanNumber s ev
    r.file = some c ∨ ∃ c', r.file = some c' ∧ Spec.scanAdded c c' s := by
  intro r
  have hlog : (Question.overwrite, true) ∉ r.log := by
    obtain ⟨r', hr'⟩ : ∃ r', r' = r := ⟨_, rfl⟩
    rw [← hr']
    simp only [r, saveWith, decideAddScan] at hr'
    split at hr'
    · rw [hr']; simp
    · split at hr'
      · rename_i hda
        split at hda
        · split at hda
          · cases hda
          · split at hda <;> cases hda
            rw [hr']; simp
        · cases hda
      · rename_i ow addKw ev' log hda
        have hl : (Question.overwrite, true) ∉ log ∧ (ow = .true ∨ ow = .false) := by
          split at hda
          · split at hda
            · rename_i b
              cases b <;> cases hda <;> simp
            · split at hda
              · cases hda
              · rename_i b _ _
                cases b <;> cases hda <;> simp
          · cases hda
            simp
        have hl2 : ∀ o log', decideWrite true ow ev' = (o, log') → log' = [] := by
          intro o log' h
          rcases hl.2 with h' | h' <;> subst h' <;> cases h <;> rfl
        simp only [Option.isSome_some] at hr'
        split at hr'
        · rename_i h
          rw [hr', hl2 _ _ h]
          simpa using hl.1
        · rename_i h
          rw [hr', hl2 _ _ h]
          simpa using hl.1
        · rename_i h
          rw [hl2 _ _ h] at hr'
          cases w with
          | nordif =>
            simp only at hr'
            rw [hr']
            simpa using hl.1
          | h5ebsd =>
            simp only at hr'
            split at hr' <;> (rw [hr']; simpa using hl.1)
  rcases C37_no_change_without_consent parseInt w navDim c .false addScan scanNumber s ev with
    h | h | h | ⟨_, _, h⟩
  · exact .inl h
  · simp at h
  · exact absurd h hlog
  · exact .inr h

/-- C37: a new file is written without questions for every valid `overwrite` argument. -/
theorem C37_new_file (w : Writer) {navDim : ℕ} (hn : navDim ≤ 2) {overwrite : PyTri}
    (ho : overwrite ≠ .other) (addScan : Option Bool) (scanNumber : ℤ) (s : S)
    (ev : List InputEvent) :
    saveWith parseInt w navDim none overwrite addScan scanNumber s ev =
      ⟨.ok true, some (match w with
        | .h5ebsd => .h5 ⟨true, [(scanNumber, s)]⟩
        | .nordif => .nordif s), []⟩ := by
  unfold saveWith
  rw [if_neg (by omega)]
  simp only [decideAddScan, Option.isSome_none, Bool.false_eq_true, and_false, if_false]
  cases overwrite <;> cases w <;> first | rfl | exact absurd rfl ho

/-- C37: with `overwrite=True`, the file is replaced without questions. -/
theorem C37_overwrite_true (w : Writer) {navDim : ℕ} (hn : navDim ≤ 2) (file : Option (FileContent S))
    (addScan : Option Bool) (scanNumber : ℤ) (s : S) (ev : List InputEvent) :
    saveWith parseInt w navDim file .true addScan scanNumber s ev =
      ⟨.ok true, some (match w with
        | .h5ebsd => .h5 ⟨true, [(scanNumber, s)]⟩
        | .nordif => .nordif s), []⟩ := by
  unfold saveWith
  rw [if_neg (by omega)]
  cases w
  · rcases file with _ | (_ | _ | _) <;> rfl
  · rfl

/-- C65: `add_scan=True` keeps the existing scans of the file unless `overwrite=True` is passed
too. -/
theorem C65_add_scan_keeps_scans_partial (w : Writer) (hw : w = .h5ebsd) (navDim : ℕ)
    (f : H5File S) {overwrite : PyTri} (ho : overwrite ≠ .true) (scanNumber : ℤ) (s : S)
    (ev : List InputEvent) :
    ∃ f', (saveWith parseInt w navDim (some (.h5 f)) overwrite (some true) scanNumber s ev).file =
      some (.h5 f') ∧ ∀ p ∈ f.scans, p ∈ f'.scans := by
  subst hw
  unfold saveWith
  split
  · exact ⟨f, rfl, fun p hp => hp⟩
  · simp only [decideAddScan, Option.isSome_some, and_true, ho, ne_eq, not_false_eq_true,
      if_true, decideWrite, Option.getD_some]
    rcases C39_add_scan_never_collides parseInt (.h5 f) scanNumber s ev with
      ⟨h1, f0, n, h2, _, h3⟩ | ⟨⟨e, h1⟩, h2⟩
    · cases h2
      rcases hw : h5Write parseInt (some (.h5 f)) true scanNumber s ev with ⟨o, c'⟩
      rw [hw] at h1 h3
      simp only at h1 h3
      subst h1 h3
      exact ⟨_, rfl, fun p hp => by simp [hp]⟩
    · rcases hw : h5Write parseInt (some (.h5 f)) true scanNumber s ev with ⟨o, c'⟩
      rw [hw] at h1 h2
      simp only at h1 h2
      subst h1 h2
      exact ⟨f, rfl, fun p hp => hp⟩

/-- C65 is false with `overwrite=True`: all scans in the file are lost. -/
theorem C65_not_with_overwrite (f : H5File S) (s : S) (ev : List InputEvent) :
    (saveWith parseInt .h5ebsd 2 (some (.h5 f)) .true (some true) 1 s ev).file =
      some (.h5 ⟨true, [(1, s)]⟩) := rfl

/-! ### C38 -/

theorem splitLastDot_append {stem ext : List Char} (h : '.' ∉ ext) :
    splitLastDot (stem ++ '.' :: ext) = some (stem, '.' :: ext) := by
  have hnone : ∀ l : List Char, '.' ∉ l → splitLastDot l = none := by
    intro l
    induction l with
    | nil => intro _; rfl
    | cons c cs ih =>
      intro hc
      rw [List.mem_cons, not_or] at hc
      unfold splitLastDot
      rw [ih hc.2]
      simp [Ne.symm hc.1]
  induction stem with
  | nil =>
    simp only [List.nil_append]
    unfold splitLastDot
    rw [hnone ext h]
    simp
  | cons c cs ih =>
    simp only [List.cons_append]
    unfold splitLastDot
    rw [ih]

theorem splitLastDot_none {l : List Char} (h : '.' ∉ l) : splitLastDot l = none := by
  induction l with
  | nil => rfl
  | cons c cs ih =>
    rw [List.mem_cons, not_or] at h
    unfold splitLastDot
    rw [ih h.2]
    simp [Ne.symm h.1]

theorem splitext_append {stem ext : List Char} (hs : ∃ c ∈ stem, c ≠ '.') (h : '.' ∉ ext) :
    splitext (stem ++ '.' :: ext) = (stem, '.' :: ext) := by
  have hd : ∀ stem : List Char, (∃ c ∈ stem, c ≠ '.') →
      (stem ++ '.' :: ext).dropWhile (fun c => decide (c = '.')) =
        stem.dropWhile (fun c => decide (c = '.')) ++ '.' :: ext ∧
      (stem ++ '.' :: ext).takeWhile (fun c => decide (c = '.')) =
        stem.takeWhile (fun c => decide (c = '.')) := by
    intro stem
    induction stem with
    | nil => rintro ⟨c, hc, _⟩; simp at hc
    | cons a as ih =>
      rintro ⟨c, hc, hc'⟩
      by_cases ha : a = '.'
      · subst ha
        have := ih ⟨c, by simpa [hc'] using hc, hc'⟩
        simp [this.1, this.2]
      · simp [ha]
  unfold splitext
  rw [(hd stem hs).1, (hd stem hs).2, splitLastDot_append h]
  simp only [List.takeWhile_append_dropWhile]

theorem splitext_no_dot {name : List Char} (h : '.' ∉ name) : splitext name = (name, []) := by
  unfold splitext
  rw [splitLastDot_none fun hc => h ((List.dropWhile_suffix _).mem hc)]

/-- The documented formats by extension. -/
inductive Spec.Format
  | h5ebsd | nordif | hyperspy
  deriving DecidableEq

/-- The format for an extension in lower case, if there is one. -/
def Spec.formatOf (e : List Char) : Option Spec.Format :=
  if e ∈ ["h5".toList, "hdf5".toList, "h5ebsd".toList] then some .h5ebsd
  else if e = "dat".toList then some .nordif
  else if e = "hspy".toList ∨ e = "zspy".toList then some .hyperspy
  else none

/-- The format for an extension (in any case), if there is one. -/
def Spec.format (ext : List Char) : Option Spec.Format := Spec.formatOf (ext.map Char.toLower)

/-- The documented action of saving with a file name. -/
def Spec.action (filename written : List Char) : Option Spec.Format → Except Err SaveAction
  | some .h5ebsd => .ok (.write written .h5ebsd)
  | some .nordif => .ok (.write written .nordif)
  | some .hyperspy => .ok (.hyperspy (some filename))
  | none => .error .valueError

/-- C38: without an extension argument, a given file name decides the format by its suffix, and
the file is written with that name; unknown suffixes raise. -/
theorem C38_suffix_partial {stem ext : List Char} (hs : ∃ c ∈ stem, c ≠ '.') (he : '.' ∉ ext)
    (hne : ext ≠ []) (tmp : Option TmpParameters) (original : Option (List Char)) :
    saveChoice (some (stem ++ '.' :: ext)) none tmp original =
      Spec.action (stem ++ '.' :: ext) (stem ++ '.' :: ext) (Spec.format ext) := by
  have hp : pathSuffix (stem ++ '.' :: ext) = '.' :: ext := by
    unfold pathSuffix
    rw [splitLastDot_append he]
    simp only
    rw [if_neg]
    rintro (h | h)
    · subst h
      obtain ⟨c, hc, _⟩ := hs
      simp at hc
    · cases ext with
      | nil => exact hne rfl
      | cons _ _ => simp at h
  unfold saveChoice
  simp only [hp, List.drop_succ_cons, List.drop_zero, Option.getD_none]
  have hst : saveTarget (stem ++ '.' :: ext) = match writerFor ext with
      | some w => .ok (stem ++ '.' :: ext, w)
      | none => .error .valueError := by
    unfold saveTarget
    rw [splitext_append hs he]
    simp only [List.drop_succ_cons, List.drop_zero, hne, if_false]
    cases writerFor ext <;> rfl
  have hfmt : Spec.format ext = Spec.formatOf (lower ext) := rfl
  by_cases h1 : lower ext = "hspy".toList ∨ lower ext = "zspy".toList
  · rw [if_pos h1]
    have : Spec.format ext = some .hyperspy := by
      rw [hfmt]
      rcases h1 with h | h <;> rw [h] <;> decide +kernel
    rw [this]
    rfl
  · rw [if_neg h1, hst, hfmt]
    unfold writerFor Spec.formatOf
    split_ifs <;> rfl

/-- C38: without an extension argument, a given file name without a dot is written in
kikuchipy's h5ebsd format with the extension "h5". -/
theorem C38_default_partial {name : List Char} (h : '.' ∉ name) (tmp : Option TmpParameters)
    (original : Option (List Char)) :
    saveChoice (some name) none tmp original =
      .ok (.write (name ++ '.' :: "h5".toList) .h5ebsd) := by
  have hp : pathSuffix name = [] := by
    unfold pathSuffix
    rw [splitLastDot_none h]
  unfold saveChoice
  simp only [hp, List.drop_nil, Option.getD_none]
  rw [if_neg (by decide)]
  unfold saveTarget
  rw [splitext_no_dot h]
  simp only [List.drop_nil, if_true]
  rw [show writerFor "h5".toList = some .h5ebsd by decide]

/-- C38 is false: an extension argument of another format than HyperSpy's is ignored. For a file
name without a dot, "dat" gives an h5ebsd file. -/
theorem C38_not_extension {name : List Char} (h : '.' ∉ name) (tmp : Option TmpParameters)
    (original : Option (List Char)) :
    saveChoice (some name) (some "dat".toList) tmp original =
      .ok (.write (name ++ '.' :: "h5".toList) .h5ebsd) := by
  unfold saveChoice
  simp only [Option.getD_some]
  rw [if_neg (by decide)]
  unfold saveTarget
  rw [splitext_no_dot h]
  simp only [List.drop_nil, if_true]
  rw [show writerFor "h5".toList = some .h5ebsd by decide]

/-- C38 is false: saving a signal loaded from a NORDIF file without arguments writes an h5ebsd
file, with another name than the file loaded. -/
theorem C38_not_loaded_extension {name : List Char} (h : '.' ∉ name) (original : Option (List Char)) :
    saveChoice none none (some ⟨name, "dat".toList⟩) original =
      .ok (.write (name ++ '.' :: "h5".toList) .h5ebsd) := by
  unfold saveChoice
  simp only [Option.getD_some]
  rw [if_neg (by decide)]
  unfold saveTarget
  rw [splitext_no_dot h]
  simp only [List.drop_nil, if_true]
  rw [show writerFor "h5".toList = some .h5ebsd by decide]

/-- C38 is false: a signal loaded from a file with a dot in its name can not be saved without
arguments, although its extension is known. -/
theorem C38_not_dotted_name :
    saveChoice none none (some ⟨"scan.1".toList, "h5".toList⟩) none = .error .valueError := by
  decide +kernel

/-! ### Non-vacuity -/

example : (∃ c ∈ "patterns.v2".toList, c ≠ '.') ∧ '.' ∉ "H5".toList ∧
    Spec.format "H5".toList = some .h5ebsd := by decide +kernel

/-- Saving to an existing h5ebsd file with the answers "no" and "Y": the file is replaced. -/
example : saveWith (S := ℕ) (fun _ => none) .h5ebsd 2 (some (.h5 ⟨true, [(1, 10)]⟩)) .none none 1 20
    [.text "no".toList, .text "n".toList, .text "Y".toList] =
    ⟨.ok true, some (.h5 ⟨true, [(1, 20)]⟩), [(.addScan, false), (.overwrite, true)]⟩ := by
  decide +kernel

/-- Adding a scan with a used number and answering with an unused number. -/
example : saveWith (S := ℕ) (fun t => if t = ['3'] then some 3 else none) .h5ebsd 2
    (some (.h5 ⟨true, [(1, 10), (2, 11)]⟩)) .false (some true) 2 20
    [.text "x".toList, .text "3".toList] =
    ⟨.ok true, some (.h5 ⟨true, [(1, 10), (2, 11), (3, 20)]⟩), []⟩ := by
  decide +kernel

end Kp
