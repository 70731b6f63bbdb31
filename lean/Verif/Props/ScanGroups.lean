import Verif.Model.ScanGroups
import Mathlib.Data.Char
import Mathlib.Data.List.Nodup
import Mathlib.Data.List.Perm.Basic
import Mathlib.Data.List.Forall2

/-!
C83: Loading from an h5ebsd file gives the scans asked for.
-/

namespace Kp

/-! ### Specification -/

/-- The file after saving a scan to a new file and adding others, each under its number. -/
def fileAfter {S : Type} (str : ℤ → List Char) (version : List Char) (first : ℤ × S)
    (added : List (ℤ × S)) : TopGroup S :=
  added.foldl (fun f p => addScanTo str f p.1 p.2) (newScanFile str version first.1 first.2)

/-- The file has a group with this name. -/
def HasGroup {S : Type} (file : TopGroup S) (name : List Char) : Prop :=
  ∃ d h s, (name, TopEntry.group d h s) ∈ file

/-- The file has a scan with this name. -/
def HasScan {S : Type} (file : TopGroup S) (name : List Char) (s : S) : Prop :=
  (name, TopEntry.group true true s) ∈ file

/-! ### Lemmas -/

section

variable {S : Type}

theorem mem_scanGroups (file : TopGroup S) (n : List Char) (d h : Bool) (s : S) :
    (n, d, h, s) ∈ scanGroups file ↔ (n, TopEntry.group d h s) ∈ file := by
  rw [scanGroups, List.mem_filterMap]
  constructor
  · rintro ⟨⟨m, e⟩, hm, he⟩
    cases e with
    | dataset v => simp at he
    | group d' h' s' =>
      simp only [Option.some.injEq, Prod.mk.injEq] at he
      obtain ⟨rfl, rfl, rfl, rfl⟩ := he
      exact hm
  · intro hm
    exact ⟨_, hm, rfl⟩

theorem findScan_none (file : TopGroup S) (n : List Char) :
    findScan (scanGroups file) n = none ↔ ¬ HasGroup file n := by
  rw [findScan, Option.map_eq_none_iff, List.find?_eq_none]
  constructor
  · rintro h ⟨d, hh, s, hm⟩
    exact h _ ((mem_scanGroups _ _ _ _ _).mpr hm) (by simp)
  · intro h ⟨m, d, hh, s⟩ hm hc
    simp only [decide_eq_true_eq] at hc
    subst hc
    exact h ⟨d, hh, s, (mem_scanGroups _ _ _ _ _).mp hm⟩

theorem findScan_some (file : TopGroup S) (n : List Char) (g : Bool × Bool × S)
    (h : findScan (scanGroups file) n = some g) : (n, TopEntry.group g.1 g.2.1 g.2.2) ∈ file := by
  rw [findScan, Option.map_eq_some_iff] at h
  obtain ⟨⟨m, d, hh, s⟩, h1, rfl⟩ := h
  have h2 := List.find?_some h1
  simp only [decide_eq_true_eq] at h2
  subst h2
  exact (mem_scanGroups _ _ _ _ _).mp (List.mem_of_find?_eq_some h1)

theorem mapM_readScanGroup (file : TopGroup S) (names : List (List Char)) (scans : List S)
    (h : (names.filterMap (findScan (scanGroups file))).mapM readScanGroup = .ok scans) :
    ∃ found, found.Sublist names ∧ (∀ n ∈ names, HasGroup file n → n ∈ found) ∧
      List.Forall₂ (HasScan file) found scans ∧
      found = names.filter (fun n => (findScan (scanGroups file) n).isSome) := by
  induction names generalizing scans with
  | nil =>
    simp only [List.filterMap_nil, List.mapM_nil, pure, Except.pure, Except.ok.injEq] at h
    subst h
    exact ⟨[], List.Sublist.refl _, by simp, List.Forall₂.nil, rfl⟩
  | cons n names ih =>
    rw [List.filterMap_cons] at h
    cases hf : findScan (scanGroups file) n with
    | none =>
      rw [hf] at h
      obtain ⟨found, h1, h2, h3, h4⟩ := ih scans h
      refine ⟨found, h1.cons _, ?_, h3, ?_⟩
      · intro m hm hg
        rcases List.mem_cons.mp hm with rfl | hm
        · exact absurd hg ((findScan_none file m).mp hf)
        · exact h2 m hm hg
      · rw [List.filter_cons, hf]; simpa using h4
    | some g =>
      rw [hf] at h
      simp only [List.mapM_cons, bind, Except.bind] at h
      rw [readScanGroup] at h
      by_cases hg : (g.1 && g.2.1) = true
      · rw [if_pos hg] at h
        simp only at h
        cases hr : (names.filterMap (findScan (scanGroups file))).mapM readScanGroup with
        | error e => rw [hr] at h; simp at h
        | ok l =>
          rw [hr] at h
          simp only [pure, Except.pure, Except.ok.injEq] at h
          obtain ⟨found, h1, h2, h3, h4⟩ := ih l hr
          refine ⟨n :: found, h1.cons_cons _, ?_, ?_, ?_⟩
          · intro m hm hgm
            rcases List.mem_cons.mp hm with rfl | hm
            · exact List.mem_cons_self
            · exact List.mem_cons_of_mem _ (h2 m hm hgm)
          · rw [← h]
            refine List.Forall₂.cons ?_ h3
            have hs := findScan_some file n g hf
            rw [Bool.and_eq_true] at hg
            rw [hg.1, hg.2] at hs
            exact hs
          · rw [List.filter_cons, hf]; simp [h4]
      · rw [if_neg hg] at h
        simp at h

theorem nameLe_refl (a : List Char) : nameLe a a = true := by
  induction a with
  | nil => rfl
  | cons x a ih => rw [nameLe, if_pos rfl, ih]

theorem nameLe_total (a b : List Char) : nameLe a b = true ∨ nameLe b a = true := by
  induction a generalizing b with
  | nil => exact Or.inl rfl
  | cons x a ih =>
    cases b with
    | nil => exact Or.inr rfl
    | cons y b =>
      rw [nameLe, nameLe]
      by_cases h : x = y
      · rw [if_pos h, if_pos h.symm]; exact ih b
      · rw [if_neg h, if_neg (Ne.symm h), decide_eq_true_eq, decide_eq_true_eq]
        exact lt_or_gt_of_ne h

theorem nameLe_trans {a b c : List Char} (h1 : nameLe a b = true) (h2 : nameLe b c = true) :
    nameLe a c = true := by
  induction a generalizing b c with
  | nil => rw [nameLe]
  | cons x a ih =>
    cases b with
    | nil => rw [nameLe] at h1; simp at h1
    | cons y b =>
      cases c with
      | nil => rw [nameLe] at h2; simp at h2
      | cons z c =>
        rw [nameLe] at h1 h2 ⊢
        by_cases hxy : x = y
        · subst hxy
          rw [if_pos rfl] at h1
          by_cases hxz : x = z
          · rw [if_pos hxz] at h2 ⊢
            exact ih h1 h2
          · rw [if_neg hxz] at h2 ⊢
            exact h2
        · rw [if_neg hxy, decide_eq_true_eq] at h1
          by_cases hyz : y = z
          · subst hyz
            rw [if_neg hxy, decide_eq_true_eq]
            exact h1
          · rw [if_neg hyz, decide_eq_true_eq] at h2
            have h3 := lt_trans h1 h2
            rw [if_neg (ne_of_lt h3), decide_eq_true_eq]
            exact h3

theorem insertEntry_perm (e : List Char × TopEntry S) (f : TopGroup S) :
    (insertEntry e f).Perm (e :: f) := by
  induction f with
  | nil => exact List.Perm.refl _
  | cons x xs ih =>
    rw [insertEntry]
    by_cases h : nameLe e.1 x.1
    · rw [if_pos h]
    · rw [if_neg h]
      exact (List.Perm.cons x ih).trans (List.Perm.swap e x xs)

theorem insertEntry_sorted (e : List Char × TopEntry S) (f : TopGroup S)
    (h : f.Pairwise fun a b => nameLe a.1 b.1 = true) : (insertEntry e f).Pairwise fun a b => nameLe a.1 b.1 = true := by
  induction f with
  | nil => simp [insertEntry]
  | cons x xs ih =>
    rw [insertEntry]
    rw [List.pairwise_cons] at h
    by_cases hx : nameLe e.1 x.1
    · rw [if_pos hx]
      refine List.pairwise_cons.mpr ⟨?_, List.pairwise_cons.mpr h⟩
      intro b hb
      rcases List.mem_cons.mp hb with rfl | hb
      · exact hx
      · exact nameLe_trans hx (h.1 b hb)
    · rw [if_neg hx]
      have hx := (nameLe_total e.1 x.1).resolve_left hx
      refine List.pairwise_cons.mpr ⟨?_, ih h.2⟩
      intro b hb
      rcases List.mem_cons.mp ((insertEntry_perm e xs).mem_iff.mp hb) with rfl | hb
      · exact hx
      · exact h.1 b hb

theorem foldlM_insertEntry (e : List Char × TopEntry S) (f : TopGroup S)
    (he : ∀ acc, manufacturerVersionStep acc e = .ok acc)
    (acc : Option (List Char) × Option (List Char)) :
    (insertEntry e f).foldlM manufacturerVersionStep acc = f.foldlM manufacturerVersionStep acc := by
  induction f generalizing acc with
  | nil =>
    simp only [insertEntry, List.foldlM_cons, List.foldlM_nil, he]
    rfl
  | cons x xs ih =>
    rw [insertEntry]
    by_cases hx : nameLe e.1 x.1
    · rw [if_pos hx, List.foldlM_cons, he]
      rfl
    · rw [if_neg hx, List.foldlM_cons, List.foldlM_cons]
      congr 1
      funext a
      exact ih a

theorem lower_scanName (str : ℤ → List Char) (n : ℤ) :
    lower (scanName str n) = 's' :: 'c' :: 'a' :: 'n' :: ' ' :: lower (str n) := by
  rw [scanName]
  have h : "Scan ".toList = ['S', 'c', 'a', 'n', ' '] := by decide
  rw [h]
  have e1 : Char.toLower 'S' = 's' := by decide
  have e2 : Char.toLower 'c' = 'c' := by decide
  have e3 : Char.toLower 'a' = 'a' := by decide
  have e4 : Char.toLower 'n' = 'n' := by decide
  have e5 : Char.toLower ' ' = ' ' := by decide
  simp only [lower, List.cons_append, List.nil_append, List.map_cons, e1, e2, e3, e4, e5]

theorem scanEntry_neutral (str : ℤ → List Char) (n : ℤ) (s : S)
    (acc : Option (List Char) × Option (List Char)) :
    manufacturerVersionStep acc (scanName str n, TopEntry.group true true s) = .ok acc := by
  have e1 : "manufacturer".toList = 'm' :: "anufacturer".toList := by decide
  have e2 : "version".toList = 'v' :: "ersion".toList := by decide
  have e3 : "format version".toList = 'f' :: "ormat version".toList := by decide
  rw [manufacturerVersionStep, lower_scanName, e1, e2, e3]
  rw [if_neg (by intro h; injection h with h _; exact absurd h (by decide)),
    if_neg (by
      rintro (h | h) <;> (injection h with h _; exact absurd h (by decide)))]

theorem scanName_injective (str : ℤ → List Char) (hs : Function.Injective str) :
    Function.Injective (scanName str) := by
  intro a b h
  rw [scanName, scanName] at h
  exact hs (List.append_cancel_left h)

theorem scanGroups_insert (e : List Char × TopEntry S) (f : TopGroup S) :
    (scanGroups (insertEntry e f)).Perm (scanGroups (e :: f)) :=
  (insertEntry_perm e f).filterMap _

theorem foldlM_two (m k v w : List Char)
    (h1 : manufacturerVersionStep (S := S) (none, none) (m, .dataset k) = .ok (some (lower k), none))
    (h2 : ∀ a, manufacturerVersionStep (S := S) (a, none) (v, .dataset w) = .ok (a, some (lower w))) :
    ([(m, .dataset k), (v, .dataset w)] : TopGroup S).foldlM manufacturerVersionStep (none, none) =
      .ok (some (lower k), some (lower w)) := by
  rw [List.foldlM_cons, h1]
  simp only [bind, Except.bind]
  rw [List.foldlM_cons, h2]
  rfl

theorem step_manufacturer' (acc : Option (List Char) × Option (List Char)) (m k : List Char)
    (e : lower m = "manufacturer".toList) :
    manufacturerVersionStep (S := S) acc (m, .dataset k) = .ok (some (lower k), acc.2) := by
  rw [manufacturerVersionStep]
  simp only
  rw [if_pos e]

theorem step_version' (acc : Option (List Char) × Option (List Char)) (m w : List Char)
    (e1 : lower m ≠ "manufacturer".toList)
    (e2 : lower m = "version".toList ∨ lower m = "format version".toList) :
    manufacturerVersionStep (S := S) acc (m, .dataset w) = .ok (acc.1, some (lower w)) := by
  rw [manufacturerVersionStep]
  simp only
  rw [if_neg e1, if_pos e2]

theorem step_manufacturer (k : List Char) : manufacturerVersionStep (S := S) (none, none)
    ("manufacturer".toList, .dataset k) = .ok (some (lower k), none) :=
  step_manufacturer' _ _ _ (by decide +kernel)

theorem step_version (a : Option (List Char)) (w : List Char) :
    manufacturerVersionStep (S := S) (a, none) ("version".toList, .dataset w) =
      .ok (a, some (lower w)) :=
  step_version' _ _ _ (by decide +kernel) (by decide +kernel)

theorem lower_kikuchipy : lower "kikuchipy".toList = "kikuchipy".toList := by decide +kernel

theorem newScanFile_manufacturer (str : ℤ → List Char) (version : List Char) (n : ℤ) (s : S) :
    (newScanFile str version n s).foldlM manufacturerVersionStep (none, none) =
      .ok (some "kikuchipy".toList, some (lower version)) := by
  rw [newScanFile, foldlM_insertEntry _ _ (scanEntry_neutral str n s),
    foldlM_two _ _ _ _ (step_manufacturer _) (fun a => step_version a _), lower_kikuchipy]

theorem newScanFile_sorted (str : ℤ → List Char) (version : List Char) (n : ℤ) (s : S) :
    (newScanFile str version n s).Pairwise fun a b => nameLe a.1 b.1 = true := by
  rw [newScanFile]
  apply insertEntry_sorted
  have h : nameLe "manufacturer".toList "version".toList = true := by decide +kernel
  refine List.pairwise_cons.mpr ⟨?_, List.pairwise_singleton _ _⟩
  intro b hb
  rw [List.mem_singleton] at hb
  rw [hb]
  exact h

/-- What is in a file after some saves. -/
theorem fileAfter_spec (str : ℤ → List Char) (version : List Char) (first : ℤ × S)
    (added : List (ℤ × S)) :
    manufacturerVersion (fileAfter str version first added) =
      .ok ("kikuchipy".toList, lower version) ∧
    (scanGroups (fileAfter str version first added)).Perm
      ((first :: added).map fun p => (scanName str p.1, true, true, p.2)) ∧
    (fileAfter str version first added).Pairwise fun a b => nameLe a.1 b.1 = true := by
  have base := newScanFile_manufacturer str version first.1 first.2
  have basep : (scanGroups (newScanFile str version first.1 first.2)).Perm
      [(scanName str first.1, true, true, first.2)] := by
    rw [newScanFile]
    exact (scanGroups_insert _ _).trans (by rw [scanGroups]; exact List.Perm.refl _)
  have bases := newScanFile_sorted str version first.1 first.2
  have step : ∀ (added : List (ℤ × S)) (f : TopGroup S) (l : List (ℤ × S)),
      f.foldlM manufacturerVersionStep (none, none) =
        .ok (some "kikuchipy".toList, some (lower version)) →
      (scanGroups f).Perm (l.map fun p => (scanName str p.1, true, true, p.2)) →
      (f.Pairwise fun a b => nameLe a.1 b.1 = true) →
      (added.foldl (fun f p => addScanTo str f p.1 p.2) f).foldlM manufacturerVersionStep
        (none, none) = .ok (some "kikuchipy".toList, some (lower version)) ∧
      (scanGroups (added.foldl (fun f p => addScanTo str f p.1 p.2) f)).Perm
        ((l ++ added).map fun p => (scanName str p.1, true, true, p.2)) ∧
      (added.foldl (fun f p => addScanTo str f p.1 p.2) f).Pairwise fun a b => nameLe a.1 b.1 = true := by
    intro added
    induction added with
    | nil => intro f l h1 h2 h3; simpa using ⟨h1, h2, h3⟩
    | cons p added ih =>
      intro f l h1 h2 h3
      have := ih (addScanTo str f p.1 p.2) (l ++ [p])
        (by rw [addScanTo, foldlM_insertEntry _ _ (scanEntry_neutral str p.1 p.2), h1])
        (by
          rw [addScanTo]
          refine (scanGroups_insert _ _).trans ?_
          rw [List.map_append]
          refine List.Perm.trans ?_ List.perm_append_comm
          exact List.Perm.cons _ h2)
        (by rw [addScanTo]; exact insertEntry_sorted _ _ h3)
      rw [List.append_assoc] at this
      exact this
  obtain ⟨h1, h2, h3⟩ := step added _ [first] base (by simpa using basep) bases
  refine ⟨?_, by simpa [fileAfter] using h2, h3⟩
  rw [manufacturerVersion, fileAfter, h1]
  rfl

theorem checkFile_fileAfter (str : ℤ → List Char) (version : List Char) (first : ℤ × S)
    (added : List (ℤ × S)) :
    checkFile (fileAfter str version first added) "kikuchipy".toList = .ok () := by
  have hp := (fileAfter_spec str version first added).2.1
  rw [checkFile, if_neg, if_pos (by decide +kernel)]
  rw [Bool.not_eq_false, List.any_eq_true]
  exact ⟨_, hp.mem_iff.mpr (List.mem_map.mpr ⟨first, List.mem_cons_self, rfl⟩), rfl⟩

end

/-! ### Scans by name -/

variable {S : Type}

/-- What is read is what was asked for, in that order: every signal is the scan of its name, names
are only left out if the file has no such group, and there is a warning for exactly these. -/
theorem C83_named_scans (file : TopGroup S) (names : List (List Char)) (scans : List S)
    (warned : List (List Char)) (h : loadScans file (some names) = .ok (scans, warned)) :
    ∃ found, found.Sublist names ∧ (∀ n ∈ names, HasGroup file n → n ∈ found) ∧
      List.Forall₂ (HasScan file) found scans ∧ (∀ n, n ∈ warned ↔ n ∈ names ∧ ¬ HasGroup file n) := by
  rw [loadScans] at h
  cases hm : manufacturerVersion file with
  | error e => rw [hm] at h; simp [bind, Except.bind] at h
  | ok mv =>
    rw [hm] at h
    simp only [bind, Except.bind] at h
    cases hc : checkFile file mv.1 with
    | error e => rw [hc] at h; simp at h
    | ok u =>
      rw [hc] at h
      simp only at h
      rw [desiredScanGroups] at h
      by_cases h1 : names.length = 1 ∧ ∃ n ∈ names, findScan (scanGroups file) n = none
      · rw [if_pos h1] at h; simp at h
      · rw [if_neg h1] at h
        simp only at h
        cases hr : (names.filterMap (findScan (scanGroups file))).mapM readScanGroup with
        | error e => rw [hr] at h; simp at h
        | ok l =>
          rw [hr] at h
          simp only [pure, Except.pure, Except.ok.injEq, Prod.mk.injEq] at h
          obtain ⟨rfl, hw⟩ := h
          obtain ⟨found, g1, g2, g3, -⟩ := mapM_readScanGroup file names l hr
          refine ⟨found, g1, g2, g3, ?_⟩
          intro n
          rw [← hw, List.mem_filter, Option.isNone_iff_eq_none, findScan_none]

/-- One name that is not in the file is an error. -/
theorem C83_one_missing (file : TopGroup S) (name : List Char) (h : ¬ HasGroup file name) :
    ∃ e, loadScans file (some [name]) = .error e := by
  rw [loadScans]
  cases manufacturerVersion file with
  | error e => exact ⟨e, rfl⟩
  | ok mv =>
    simp only [bind, Except.bind]
    cases checkFile file mv.1 with
    | error e => exact ⟨e, rfl⟩
    | ok u =>
      simp only
      rw [desiredScanGroups, if_pos ⟨rfl, name, List.mem_cons_self, (findScan_none _ _).mpr h⟩]
      exact ⟨_, rfl⟩

/-- Every file that is read has a known manufacturer and at least one scan. -/
theorem C83_file_checked (file : TopGroup S) (names : Option (List (List Char)))
    (r : List S × List (List Char)) (h : loadScans file names = .ok r) :
    (∃ n v, (n, TopEntry.dataset v) ∈ file ∧ lower n = "manufacturer".toList ∧
      lower v ∈ supportedManufacturers) ∧ ∃ n s, HasScan file n s := by
  rw [loadScans] at h
  cases hm : manufacturerVersion file with
  | error e => rw [hm] at h; simp [bind, Except.bind] at h
  | ok mv =>
    rw [hm] at h
    simp only [bind, Except.bind] at h
    cases hc : checkFile file mv.1 with
    | error e => rw [hc] at h; simp at h
    | ok u =>
      rw [checkFile] at hc
      by_cases ha : (scanGroups file).any (fun g => g.2.1 && g.2.2.1) = false
      · rw [if_pos ha] at hc; simp at hc
      rw [if_neg ha] at hc
      by_cases hs : mv.1 ∈ supportedManufacturers
      · constructor
        · -- the manufacturer comes from a dataset
          have key : ∀ (f : TopGroup S) (acc r : Option (List Char) × Option (List Char)) (m : List Char),
              f.foldlM manufacturerVersionStep acc = .ok r → r.1 = some m → acc.1 ≠ some m →
              ∃ n v, (n, TopEntry.dataset v) ∈ f ∧ lower n = "manufacturer".toList ∧ lower v = m := by
            intro f
            induction f with
            | nil =>
              intro acc r m h1 h2 h3
              simp only [List.foldlM_nil, pure, Except.pure, Except.ok.injEq] at h1
              rw [h1] at h3
              exact absurd h2 h3
            | cons e f ih =>
              intro acc r m h1 h2 h3
              rw [List.foldlM_cons] at h1
              cases hstep : manufacturerVersionStep acc e with
              | error er => rw [hstep] at h1; simp [bind, Except.bind] at h1
              | ok acc' =>
                rw [hstep] at h1
                simp only [bind, Except.bind] at h1
                by_cases hacc : acc'.1 = some m
                · rw [manufacturerVersionStep] at hstep
                  by_cases hname : lower e.1 = "manufacturer".toList
                  · rw [if_pos hname] at hstep
                    obtain ⟨en, ee⟩ := e
                    cases ee with
                    | group d hh s => simp at hstep
                    | dataset v =>
                      simp only [Except.ok.injEq] at hstep
                      rw [← hstep] at hacc
                      simp only [Option.some.injEq] at hacc
                      exact ⟨en, v, List.mem_cons_self, hname, hacc⟩
                  · rw [if_neg hname] at hstep
                    exfalso
                    split at hstep
                    · obtain ⟨en, ee⟩ := e
                      cases ee with
                      | group d hh s => simp at hstep
                      | dataset v =>
                        simp only [Except.ok.injEq] at hstep
                        rw [← hstep] at hacc
                        exact h3 hacc
                    · simp only [Except.ok.injEq] at hstep
                      rw [← hstep] at hacc
                      exact h3 hacc
                · obtain ⟨n, v, g1, g2, g3⟩ := ih acc' r m h1 h2 hacc
                  exact ⟨n, v, List.mem_cons_of_mem _ g1, g2, g3⟩
          rw [manufacturerVersion] at hm
          cases hf : file.foldlM manufacturerVersionStep (none, none) with
          | error e => rw [hf] at hm; simp [bind, Except.bind] at hm
          | ok acc =>
            rw [hf] at hm
            simp only [bind, Except.bind] at hm
            obtain ⟨a1, a2⟩ := acc
            cases a1 with
            | none => simp at hm
            | some m =>
              cases a2 with
              | none => simp at hm
              | some v =>
                simp only [Except.ok.injEq] at hm
                obtain ⟨n, w, g1, g2, g3⟩ := key file _ _ m hf rfl (by simp)
                refine ⟨n, w, g1, g2, ?_⟩
                rw [g3]
                rw [← hm] at hs
                exact hs
        · rw [Bool.not_eq_false, List.any_eq_true] at ha
          obtain ⟨⟨n, d, hh, s⟩, h1, h2⟩ := ha
          rw [Bool.and_eq_true] at h2
          obtain ⟨rfl, rfl⟩ : d = true ∧ hh = true := h2
          exact ⟨n, s, (mem_scanGroups _ _ _ _ _).mp h1⟩
      · rw [if_neg hs] at hc; simp at hc

/-- Several names of which none is in the file give an empty list instead of an error, although the
documentation promises one. -/
theorem C83_missing_violated (str : ℤ → List Char) (version : List Char) (first : ℤ × S)
    (a b : List Char) (ha : ∀ n, a ≠ scanName str n) (hb : ∀ n, b ≠ scanName str n) :
    loadScans (fileAfter str version first []) (some [a, b]) = .ok ([], [a, b]) := by
  obtain ⟨h1, h2, -⟩ := fileAfter_spec str version first []
  rw [loadScans, h1]
  simp only [bind, Except.bind]
  rw [checkFile_fileAfter]
  simp only
  have hn : ∀ c : List Char, (∀ n, c ≠ scanName str n) →
      findScan (scanGroups (fileAfter str version first [])) c = none := by
    intro c hc
    rw [findScan_none]
    rintro ⟨d, h, s, hm⟩
    rw [← mem_scanGroups, h2.mem_iff, List.mem_map] at hm
    obtain ⟨p, -, hp⟩ := hm
    simp only [Prod.mk.injEq] at hp
    exact hc p.1 hp.1.symm
  rw [desiredScanGroups, if_neg (by simp)]
  simp [hn a ha, hn b hb, pure, Except.pure]

/-! ### Scans that were saved -/

/-- Scans saved to a file under different numbers are read again by their numbers, whichever are
asked for and in whichever order, and however often. -/
theorem C83_saved_scans (str : ℤ → List Char) (hstr : Function.Injective str) (version : List Char)
    (first : ℤ × S) (added wanted : List (ℤ × S))
    (hnum : ((first :: added).map Prod.fst).Nodup) (hw : ∀ p ∈ wanted, p ∈ first :: added) :
    loadScans (fileAfter str version first added) (some (wanted.map fun p => scanName str p.1)) =
      .ok (wanted.map Prod.snd, []) := by
  obtain ⟨h1, h2, -⟩ := fileAfter_spec str version first added
  have hfind : ∀ p ∈ first :: added,
      findScan (scanGroups (fileAfter str version first added)) (scanName str p.1) =
        some (true, true, p.2) := by
    intro p hp
    cases hf : findScan (scanGroups (fileAfter str version first added)) (scanName str p.1) with
    | none =>
      rw [findScan_none] at hf
      refine absurd ⟨true, true, p.2, ?_⟩ hf
      rw [← mem_scanGroups, h2.mem_iff, List.mem_map]
      exact ⟨p, hp, rfl⟩
    | some g =>
      have hg := findScan_some _ _ _ hf
      rw [← mem_scanGroups, h2.mem_iff, List.mem_map] at hg
      obtain ⟨q, hq, hqe⟩ := hg
      simp only [Prod.mk.injEq] at hqe
      obtain ⟨hn, hd, hh, hs⟩ := hqe
      have hpq : q.1 = p.1 := scanName_injective str hstr hn
      have : q = p := List.inj_on_of_nodup_map hnum hq hp hpq
      subst this
      obtain ⟨g1, g2, g3⟩ := g
      simp only at hd hh hs
      rw [← hd, ← hh, hs]
  rw [loadScans, h1]
  simp only [bind, Except.bind]
  rw [checkFile_fileAfter]
  simp only
  have hall : ∀ ws : List (ℤ × S), (∀ p ∈ ws, p ∈ first :: added) →
      (ws.map fun p => scanName str p.1).filterMap
        (findScan (scanGroups (fileAfter str version first added))) =
          ws.map (fun p => (true, true, p.2)) ∧
      (ws.map fun p => scanName str p.1).filter (fun n =>
        (findScan (scanGroups (fileAfter str version first added)) n).isNone) = [] ∧
      (ws.map fun p => ((true, true, p.2) : Bool × Bool × S)).mapM readScanGroup =
        .ok (ws.map Prod.snd) := by
    intro ws
    induction ws with
    | nil => intro _; exact ⟨rfl, rfl, rfl⟩
    | cons p ws ih =>
      intro hws
      obtain ⟨i1, i2, i3⟩ := ih fun q hq => hws q (List.mem_cons_of_mem _ hq)
      have hp := hfind p (hws p List.mem_cons_self)
      refine ⟨?_, ?_, ?_⟩
      · rw [List.map_cons, List.filterMap_cons, hp]
        simp only [List.map_cons, i1]
      · rw [List.map_cons, List.filter_cons, hp]
        simpa using i2
      · rw [List.map_cons, List.mapM_cons, i3]
        rfl
  obtain ⟨i1, i2, i3⟩ := hall wanted hw
  rw [desiredScanGroups, if_neg, i1, i2]
  · simp only
    rw [i3]
    rfl
  · rintro ⟨-, n, hn, hne⟩
    rw [List.mem_map] at hn
    obtain ⟨p, hp, rfl⟩ := hn
    rw [hfind p (hw p hp)] at hne
    simp at hne

/-- Without a name, a scan that was saved is read: the one whose name is first in the order of
names. -/
theorem C83_default_partial (str : ℤ → List Char) (version : List Char) (first : ℤ × S)
    (added : List (ℤ × S)) :
    ∃ p ∈ first :: added, loadScans (fileAfter str version first added) none = .ok ([p.2], []) ∧
      ∀ q ∈ first :: added, nameLe (scanName str p.1) (scanName str q.1) = true := by
  obtain ⟨h1, h2, h3⟩ := fileAfter_spec str version first added
  rw [loadScans, h1]
  simp only [bind, Except.bind]
  rw [checkFile_fileAfter]
  simp only
  cases hg : scanGroups (fileAfter str version first added) with
  | nil =>
    rw [hg] at h2
    have := h2.length_eq
    simp at this
  | cons g gs =>
    have hmem : g ∈ scanGroups (fileAfter str version first added) := by
      rw [hg]; exact List.mem_cons_self
    rw [h2.mem_iff, List.mem_map] at hmem
    obtain ⟨p, hp, rfl⟩ := hmem
    refine ⟨p, hp, rfl, ?_⟩
    intro q hq
    have hs : (scanGroups (fileAfter str version first added)).Pairwise fun a b => nameLe a.1 b.1 = true := by
      rw [scanGroups]
      refine List.Pairwise.filterMap _ ?_ h3
      intro a a' haa b hb b' hb'
      obtain ⟨an, ae⟩ := a
      obtain ⟨bn, be⟩ := a'
      cases ae with
      | dataset v => simp at hb
      | group d h s =>
        cases be with
        | dataset v => simp at hb'
        | group d' h' s' =>
          simp only [Option.some.injEq] at hb hb'
          rw [← hb, ← hb']
          exact haa
    have hqm : (scanName str q.1, true, true, q.2) ∈
        scanGroups (fileAfter str version first added) := by
      rw [h2.mem_iff, List.mem_map]
      exact ⟨q, hq, rfl⟩
    rw [hg] at hqm hs
    rcases List.mem_cons.mp hqm with he | hqm
    · rw [← (Prod.mk.inj he).1]; exact nameLe_refl _
    · exact (List.pairwise_cons.mp hs).1 _ hqm

/-- Decimal digits of three numbers. -/
def threeDigits (n : ℤ) : List Char :=
  if n = 1 then ['1'] else if n = 2 then ['2'] else if n = 10 then ['1', '0'] else []

/-- This is neither the scan saved first nor the one with the lowest number: of scans 2 and 10, the
latter is read. A group that is not a scan and is first in the order of names makes the scan in the
file unreadable without a name. -/
theorem C83_default_violated :
    loadScans (fileAfter threeDigits "0.11".toList (2, "second") [(10, "tenth")]) none =
      .ok (["tenth"], []) ∧
    loadScans (insertEntry ("Notes".toList, TopEntry.group false false "")
      (fileAfter threeDigits "0.11".toList (1, "first") [])) none = .error .keyError ∧
    loadScans (insertEntry ("Notes".toList, TopEntry.group false false "")
      (fileAfter threeDigits "0.11".toList (1, "first") [])) (some [scanName threeDigits 1]) =
        .ok (["first"], []) := by
  refine ⟨by decide +kernel, by decide +kernel, by decide +kernel⟩

/-! ### Examples -/

example : loadScans (fileAfter threeDigits "0.11".toList (2, "second") [(10, "tenth"), (1, "first")])
    (some [scanName threeDigits 1, scanName threeDigits 2, "Scan 3".toList]) =
      .ok (["first", "second"], ["Scan 3".toList]) := by decide +kernel

example : loadScans (fileAfter threeDigits "0.11".toList (2, "second") []) (some ["Scan 3".toList]) =
    .error .ioError := by decide +kernel

/-- Different numbers have different texts in Python; the hypothesis is met, for instance, by writing
a number in unary with a sign. -/
example : Function.Injective fun n : ℤ => (if 0 ≤ n then '+' else '-') :: List.replicate n.natAbs '1' := by
  intro a b h
  simp only [List.cons.injEq] at h
  have h2 := congrArg List.length h.2
  simp only [List.length_replicate] at h2
  by_cases ha : 0 ≤ a <;> by_cases hb : 0 ≤ b
  · omega
  · rw [if_pos ha, if_neg hb] at h; exact absurd h.1 (by decide)
  · rw [if_neg ha, if_pos hb] at h; exact absurd h.1 (by decide)
  · omega

end Kp
