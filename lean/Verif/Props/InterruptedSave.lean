import Verif.Lemmas.InterruptedSave
import Verif.Model.Save

/-!
C101: interrupted saves.
-/

set_option linter.unusedSectionVars false

namespace Kp

variable {V : Type}

/-- The loaded scan has all patterns, the whole map and the whole header of the saved signal. -/
def Spec.WholeData (s : ScanSource V) (l : ReadScan V) : Prop :=
  l.patterns = s.patterns ∧ l.xmap = some s.xmap ∧
  ∀ k ∈ ["azimuth_angle", "twist_angle", "binning", "elevation_angle", "n_columns", "n_rows",
    "pattern_width", "pattern_height", "pcx", "pcy", "pcz", "detector_pixel_size", "sample_tilt",
    "static_background", "step_x", "step_y"], l.header.lookup k = some (s.header k)

/-- The loaded scan has what is known of the microscope. -/
def Spec.WholeSem (s : ScanSource V) (l : ReadScan V) : Prop :=
  ∀ k ∈ ["beam_energy", "magnification", "microscope", "working_distance"],
    l.sem.lookup k = some (s.sem k)

theorem lookup_map_key (f : String → List V) (ks : List String) (k : String) (h : k ∈ ks) :
    (ks.map fun k => (k, f k)).lookup k = some (f k) := by
  induction ks with
  | nil => simp at h
  | cons a ks ih =>
    rw [List.map_cons, List.lookup_cons]
    by_cases hk : k = a
    · subst hk; simp
    · rw [beq_false_of_ne hk]
      simp only
      exact ih (by simpa [hk] using h)

theorem group_neutral {S : Type} (str : ℤ → List Char) (n : ℤ) (d h : Bool) (s : S)
    (acc : Option (List Char) × Option (List Char)) :
    manufacturerVersionStep acc (scanName str n, TopEntry.group d h s) = .ok acc := by
  have e1 : "manufacturer".toList = 'm' :: "anufacturer".toList := by decide
  have e2 : "version".toList = 'v' :: "ersion".toList := by decide
  have e3 : "format version".toList = 'f' :: "ormat version".toList := by decide
  rw [manufacturerVersionStep, lower_scanName, e1, e2, e3]
  simp

theorem findScan_insertEntry {S : Type} (nm : List Char) (d h : Bool) (s : S) (f : TopGroup S)
    (hf : ∀ e ∈ f, e.1 ≠ nm) (m : List Char) :
    findScan (scanGroups (insertEntry (nm, .group d h s) f)) m =
      if m = nm then some (d, h, s) else findScan (scanGroups f) m := by
  have base : ∀ g : TopGroup S, (∀ e ∈ g, e.1 ≠ nm) →
      findScan (scanGroups ((nm, .group d h s) :: g)) m =
      if m = nm then some (d, h, s) else findScan (scanGroups g) m := by
    intro g _
    have e1 : scanGroups ((nm, TopEntry.group d h s) :: g) = (nm, d, h, s) :: scanGroups g := rfl
    rw [e1, findScan, List.find?_cons]
    by_cases hm : m = nm
    · subst hm; simp
    · rw [if_neg hm]
      simp only [Ne.symm hm, decide_false]
      rfl
  induction f with
  | nil => exact base [] hf
  | cons x xs ih =>
    rw [insertEntry]
    split
    · exact base _ hf
    · obtain ⟨xn, xe⟩ := x
      have ih' := ih fun e he => hf e (List.mem_cons_of_mem _ he)
      cases xe with
      | dataset v => exact ih'
      | group d' h' s' =>
        have e1 : ∀ g : TopGroup S, scanGroups ((xn, TopEntry.group d' h' s') :: g) =
            (xn, d', h', s') :: scanGroups g := fun _ => rfl
        have hx := hf _ List.mem_cons_self
        rw [e1, e1]
        unfold findScan at *
        rw [List.find?_cons, List.find?_cons]
        by_cases hxm : xn = m
        · subst hxm
          rw [if_neg hx]
          simp
        · simp only [hxm, decide_false]
          exact ih'

/-- The top group of a file to which a scan is added. -/
theorem top_scan (nm : List Char) (t : H5Tree V) (f : TopFile V) :
    TopFile.top (insertItem (nm, .scan t) f) =
      insertEntry (nm, .group (hasPath t ["EBSD", "Data"]) (hasPath t ["EBSD", "Header"]) t) f.top :=
  top_insertItem _ _

theorem top_ne {nm : List Char} {f : TopFile V} (hf : ∀ e ∈ f, e.1 ≠ nm) :
    ∀ e ∈ f.top, e.1 ≠ nm := by
  intro e he
  rw [top_eq, List.mem_map] at he
  obtain ⟨x, hx, rfl⟩ := he
  exact hf x hx

theorem manufacturerVersion_add (str : ℤ → List Char) (n : ℤ) (t : H5Tree V) (f : TopFile V) :
    manufacturerVersion (TopFile.top (insertItem (scanName str n, .scan t) f)) =
      manufacturerVersion f.top := by
  rw [top_scan, manufacturerVersion, manufacturerVersion,
    foldlM_insertEntry _ _ (group_neutral str n _ _ _)]

/-- Loading the scan by its name, after other checks. -/
theorem load_named (str : ℤ → List Char) (n : ℤ) (t : H5Tree V) (f : TopFile V)
    (hf : ∀ e ∈ f, e.1 ≠ scanName str n) :
    loadTopFile (some (insertItem (scanName str n, .scan t) f)) (some [scanName str n]) =
      (do
        let mv ← manufacturerVersion f.top
        checkFile (TopFile.top (insertItem (scanName str n, .scan t) f)) mv.1
        let l ← readTree t
        return [l]) := by
  have hd : desiredScanGroups (scanGroups (TopFile.top (insertItem (scanName str n, .scan t) f)))
      (some [scanName str n]) =
      .ok ([(hasPath t ["EBSD", "Data"], hasPath t ["EBSD", "Header"], t)], []) := by
    have hfind := findScan_insertEntry (scanName str n) (hasPath t ["EBSD", "Data"])
      (hasPath t ["EBSD", "Header"]) t f.top (top_ne hf) (scanName str n)
    rw [if_pos rfl, ← top_scan] at hfind
    rw [desiredScanGroups]
    rw [if_neg]
    · simp [hfind]
    · rintro ⟨-, m, hm, hc⟩
      rw [List.mem_singleton] at hm
      subst hm
      rw [hfind] at hc
      simp at hc
  unfold loadTopFile
  simp only [manufacturerVersion_add, hd]
  cases manufacturerVersion f.top with
  | error e => rfl
  | ok mv =>
    cases checkFile (TopFile.top (insertItem (scanName str n, .scan t) f)) mv.1 with
    | error e => rfl
    | ok u =>
      cases hr : readTree t with
      | error e => simp [bind, Except.bind, hr]
      | ok l => simp [bind, Except.bind, hr, pure, Except.pure]

theorem load_named_ok (str : ℤ → List Char) (n : ℤ) (t : H5Tree V) (f : TopFile V)
    (hf : ∀ e ∈ f, e.1 ≠ scanName str n) (r : List (ReadScan V))
    (h : loadTopFile (some (insertItem (scanName str n, .scan t) f)) (some [scanName str n]) = .ok r) :
    ∃ l, readTree t = .ok l ∧ r = [l] := by
  rw [load_named str n t f hf] at h
  cases hm : manufacturerVersion f.top with
  | error e => rw [hm] at h; simp [bind, Except.bind] at h
  | ok mv =>
    rw [hm] at h
    simp only [bind, Except.bind] at h
    cases hc : checkFile (TopFile.top (insertItem (scanName str n, .scan t) f)) mv.1 with
    | error e => rw [hc] at h; simp at h
    | ok u =>
      rw [hc] at h
      simp only at h
      cases hr : readTree t with
      | error e => rw [hr] at h; simp at h
      | ok l =>
        rw [hr] at h
        simp only [pure, Except.pure, Except.ok.injEq] at h
        exact ⟨l, rfl, h.symm⟩

theorem checkFile_add (str : ℤ → List Char) (n : ℤ) (t : H5Tree V) (f : TopFile V) (m : List Char)
    (h : checkFile f.top m = .ok ()) :
    checkFile (TopFile.top (insertItem (scanName str n, .scan t) f)) m = .ok () := by
  rw [checkFile] at h ⊢
  by_cases h1 : (scanGroups f.top).any (fun g => g.2.1 && g.2.2.1) = false
  · rw [if_pos h1] at h; simp at h
  · rw [if_neg h1] at h
    rw [if_neg, h]
    rw [Bool.not_eq_false, List.any_eq_true] at h1 ⊢
    obtain ⟨g, hg, h2⟩ := h1
    refine ⟨g, ?_, h2⟩
    rw [top_scan, (scanGroups_insert _ _).mem_iff]
    exact List.mem_cons_of_mem _ hg

theorem checkFile_whole (str : ℤ → List Char) (n : ℤ) (t : H5Tree V) (f : TopFile V) (m : List Char)
    (h1 : hasPath t ["EBSD", "Data"] = true) (h2 : hasPath t ["EBSD", "Header"] = true)
    (hm : m ∈ supportedManufacturers) :
    checkFile (TopFile.top (insertItem (scanName str n, .scan t) f)) m = .ok () := by
  rw [checkFile, if_neg, if_pos hm]
  rw [Bool.not_eq_false, List.any_eq_true]
  refine ⟨(scanName str n, true, true, t), ?_, rfl⟩
  rw [top_scan, (scanGroups_insert _ _).mem_iff, h1, h2]
  exact List.mem_cons_self

theorem headFile_manufacturer (version : List Char) :
    manufacturerVersion (TopFile.top (headFile version : TopFile V)) =
      .ok ("kikuchipy".toList, lower version) := by
  have e : TopFile.top (headFile version : TopFile V) =
      [("manufacturer".toList, .dataset "kikuchipy".toList), ("version".toList, .dataset version)] :=
    rfl
  rw [manufacturerVersion, e, foldlM_two _ _ _ _ (step_manufacturer _) (fun a => step_version a _),
    lower_kikuchipy]
  rfl

/-- All steps done in the scan: the paths are there and everything is read. -/
theorem scan_whole (zero : V) (s : ScanSource V) (hx : (s.xmap.map Prod.fst).Nodup) :
    hasPath (treeAfter zero (scanSteps s)) ["EBSD", "Data"] = true ∧
    hasPath (treeAfter zero (scanSteps s)) ["EBSD", "Header"] = true := by
  have hl : (coreSteps s).length < (scanSteps s).length := by
    rw [scanSteps_eq, List.length_append, List.length_cons]; omega
  have h := (treeAfter_take zero s hx (scanSteps s).length).2 hl
  rw [List.take_of_length_le le_rfl] at h
  rw [h, hasPath_append, hasPath_append]
  constructor
  · have : hasPath (coreTree s) ["EBSD", "Data"] = true := by
      unfold hasPath
      rw [List.any_eq_true]
      exact ⟨(["EBSD", "Data"], .group), by simp [coreTree], by simp [List.isPrefixOf]⟩
    rw [this, Bool.true_or]
  · have : hasPath (coreTree s) ["EBSD", "Header"] = true := by
      unfold hasPath
      rw [List.any_eq_true]
      exact ⟨(["EBSD", "Header"], .group), by simp [coreTree], by simp [List.isPrefixOf]⟩
    rw [this, Bool.true_or]

/-- The scan read after all steps is the whole scan. -/
theorem whole_of_all (s : ScanSource V) :
    Spec.WholeData s ⟨s.patterns, some s.xmap, headerKeys.map fun k => (k, s.header k),
      semKeys.map fun k => (k, s.sem k)⟩ ∧
    Spec.WholeSem s ⟨s.patterns, some s.xmap, headerKeys.map fun k => (k, s.header k),
      semKeys.map fun k => (k, s.sem k)⟩ :=
  ⟨⟨rfl, rfl, fun _ hk => lookup_map_key _ _ _ hk⟩, fun _ hk => lookup_map_key _ _ _ hk⟩

theorem saveSteps_length (str : ℤ → List Char) (version : List Char) (add : Bool) (n : ℤ)
    (s : ScanSource V) :
    (saveSteps str version add n s).length = (if add then 0 else 5) + 1 + (scanSteps s).length := by
  unfold saveSteps
  cases add <;> simp <;> omega

/-- **C101**: if saving is not interrupted, the saved signal is loaded as it was, by its name and,
from a new file, without one: to a new file, instead of an old one, or added to a file which can be
loaded. -/
theorem C101_complete (zero : V) (str : ℤ → List Char) (version : List Char)
    (old : Option (TopFile V)) (add : Bool) (n : ℤ) (s : ScanSource V)
    (hx : (s.xmap.map Prod.fst).Nodup) (k : ℕ)
    (hk : (saveSteps str version (add && old.isSome) n s).length ≤ k)
    (hold : add = true → ∀ f, old = some f →
      (∀ e ∈ f, e.1 ≠ scanName str n) ∧ ∃ names r, loadTopFile (some f) names = .ok r) :
    ∃ l, loadTopFile (fileAfterSteps zero str version old false add n s k) (some [scanName str n]) =
        .ok [l] ∧ Spec.WholeData s l ∧ Spec.WholeSem s l ∧
      (add = false ∨ old = none →
        loadTopFile (fileAfterSteps zero str version old false add n s k) none = .ok [l]) := by
  rw [saveSteps_length] at hk
  refine ⟨⟨s.patterns, some s.xmap, headerKeys.map fun k => (k, s.header k),
    semKeys.map fun k => (k, s.sem k)⟩, ?_, (whole_of_all s).1, (whole_of_all s).2, ?_⟩
  · by_cases hb : add = true ∧ old.isSome = true
    · obtain ⟨rfl, ho⟩ := hb
      obtain ⟨f, rfl⟩ := Option.isSome_iff_exists.1 ho
      obtain ⟨hf, names, r, hr⟩ := hold rfl f rfl
      simp only [Option.isSome_some, Bool.and_true, if_true] at hk
      obtain ⟨j, rfl⟩ : ∃ j, k = j + 1 := ⟨k - 1, by omega⟩
      rw [after_add zero str version f n s hf j, List.take_of_length_le (by omega),
        load_named str n _ f hf]
      unfold loadTopFile at hr
      simp only at hr
      cases hm : manufacturerVersion f.top with
      | error e => rw [hm] at hr; simp [bind, Except.bind] at hr
      | ok mv =>
        rw [hm] at hr
        simp only [bind, Except.bind] at hr ⊢
        cases hc : checkFile f.top mv.1 with
        | error e => rw [hc] at hr; simp at hr
        | ok u =>
          rw [checkFile_add str n _ f mv.1 hc]
          simp only
          rw [readTree_all zero s hx]
          rfl
    · have hadd : add = true → old = none := by
        intro ha
        cases old with
        | none => rfl
        | some f => exact absurd ⟨ha, rfl⟩ hb
      have hb' : (add && old.isSome) = false := by
        cases add with
        | false => rfl
        | true => rw [hadd rfl]; rfl
      rw [hb'] at hk
      simp only [Bool.false_eq_true, if_false] at hk
      obtain ⟨j, rfl⟩ : ∃ j, k = j + 6 := ⟨k - 6, by omega⟩
      rw [(after_new zero str version old add hadd n s j).2, List.take_of_length_le (by omega),
        load_named str n _ _ (headFile_ne version str n), headFile_manufacturer]
      simp only [bind, Except.bind]
      rw [checkFile_whole str n _ _ _ (scan_whole zero s hx).1 (scan_whole zero s hx).2
        (by decide)]
      simp only
      rw [readTree_all zero s hx]
      rfl
  · intro hao
    have hadd : add = true → old = none := by
      intro ha
      rcases hao with h | h
      · rw [ha] at h; simp at h
      · exact h
    have hb' : (add && old.isSome) = false := by
      cases add with
      | false => rfl
      | true => rw [hadd rfl]; rfl
    rw [hb'] at hk
    simp only [Bool.false_eq_true, if_false] at hk
    obtain ⟨j, rfl⟩ : ∃ j, k = j + 6 := ⟨k - 6, by omega⟩
    rw [(after_new zero str version old add hadd n s j).2, List.take_of_length_le (by omega)]
    have hperm := scanGroups_insert (scanName str n, TopEntry.group
      (hasPath (treeAfter zero (scanSteps s)) ["EBSD", "Data"])
      (hasPath (treeAfter zero (scanSteps s)) ["EBSD", "Header"]) (treeAfter zero (scanSteps s)))
      (headFile version : TopFile V).top
    rw [← top_scan] at hperm
    have hgroups := List.perm_singleton.1 hperm
    unfold loadTopFile
    simp only [manufacturerVersion_add, headFile_manufacturer]
    simp only [bind, Except.bind]
    rw [checkFile_whole str n _ _ _ (scan_whole zero s hx).1 (scan_whole zero s hx).2
        (by decide), hgroups]
    simp [desiredScanGroups, readTree_all zero s hx, bind, Except.bind, pure, Except.pure]

/-- **C101**: wherever saving a signal to a new file, instead of an old one or next to other scans
stops, loading the scan by its name raises an error or gives all patterns, the whole map and the
whole header. -/
theorem C101_never_half (zero : V) (str : ℤ → List Char) (version : List Char)
    (old : Option (TopFile V)) (add : Bool) (n : ℤ) (s : ScanSource V)
    (hx : (s.xmap.map Prod.fst).Nodup) (k : ℕ) (hk : 1 ≤ k)
    (hold : add = true → ∀ f, old = some f → ∀ e ∈ f, e.1 ≠ scanName str n)
    (r : List (ReadScan V))
    (h : loadTopFile (fileAfterSteps zero str version old false add n s k)
      (some [scanName str n]) = .ok r) :
    ∃ l, r = [l] ∧ Spec.WholeData s l := by
  have key : ∀ (j : ℕ) (f : TopFile V), (∀ e ∈ f, e.1 ≠ scanName str n) →
      loadTopFile (some (insertItem (scanName str n,
        .scan (treeAfter zero ((scanSteps s).take j))) f)) (some [scanName str n]) = .ok r →
      ∃ l, r = [l] ∧ Spec.WholeData s l := by
    intro j f hf hl
    obtain ⟨l, h1, h2⟩ := load_named_ok str n _ f hf r hl
    refine ⟨l, h2, ?_⟩
    obtain ⟨g1, g2⟩ := readTree_after zero s hx j
    by_cases hj : j ≤ (coreSteps s).length
    · rw [g1 hj] at h1; simp at h1
    · obtain ⟨sem, g3⟩ := g2 (by omega)
      rw [g3, Except.ok.injEq] at h1
      subst h1
      exact ⟨rfl, rfl, fun k hk => lookup_map_key _ _ _ hk⟩
  by_cases hb : add = true ∧ old.isSome = true
  · obtain ⟨rfl, ho⟩ := hb
    obtain ⟨f, rfl⟩ := Option.isSome_iff_exists.1 ho
    have hf := hold rfl f rfl
    obtain ⟨j, rfl⟩ : ∃ j, k = j + 1 := ⟨k - 1, by omega⟩
    rw [after_add zero str version f n s hf j] at h
    exact key j f hf h
  · have hadd : add = true → old = none := by
      intro ha
      cases old with
      | none => rfl
      | some f => exact absurd ⟨ha, rfl⟩ hb
    by_cases h5 : k ≤ 5
    · obtain ⟨f, hf1, hf2⟩ := (after_new zero str version old add hadd n s k).1 hk h5
      rw [hf1] at h
      exfalso
      have hg : scanGroups f.top = [] := by
        rw [top_eq, scanGroups, List.filterMap_eq_nil_iff]
        intro e he
        rw [List.mem_map] at he
        obtain ⟨x, hx', rfl⟩ := he
        obtain ⟨v, hv⟩ := hf2 x hx'
        simp [hv, TopItem.entry]
      unfold loadTopFile at h
      simp only at h
      cases hm : manufacturerVersion f.top with
      | error e => rw [hm] at h; simp [bind, Except.bind] at h
      | ok mv =>
        rw [hm] at h
        simp [bind, Except.bind, checkFile, hg] at h
    · obtain ⟨j, rfl⟩ : ∃ j, k = j + 6 := ⟨k - 6, by omega⟩
      rw [(after_new zero str version old add hadd n s j).2] at h
      exact key j _ (headFile_ne version str n) h

/-- **C101**: wherever adding a scan to a file stops, the other scans are loaded by their names as
before. -/
theorem C101_other_scans (zero : V) (str : ℤ → List Char) (version : List Char) (f : TopFile V)
    (openElsewhere : Bool) (n : ℤ) (s : ScanSource V) (hf : ∀ e ∈ f, e.1 ≠ scanName str n)
    (k : ℕ) (names : List (List Char)) (hn : scanName str n ∉ names) (r : List (ReadScan V))
    (h : loadTopFile (some f) (some names) = .ok r) :
    loadTopFile (fileAfterSteps zero str version (some f) openElsewhere true n s k) (some names) =
      .ok r := by
  cases openElsewhere with
  | true => exact h
  | false =>
    cases k with
    | zero => exact h
    | succ j =>
      rw [after_add zero str version f n s hf j]
      generalize treeAfter zero ((scanSteps s).take j) = t
      have hfind : ∀ m ∈ names,
          findScan (scanGroups (TopFile.top (insertItem (scanName str n, .scan t) f))) m =
            findScan (scanGroups f.top) m := by
        intro m hm
        rw [top_scan, findScan_insertEntry _ _ _ _ _ (top_ne hf), if_neg]
        rintro rfl
        exact hn hm
      have hd : desiredScanGroups
          (scanGroups (TopFile.top (insertItem (scanName str n, .scan t) f))) (some names) =
          desiredScanGroups (scanGroups f.top) (some names) := by
        rw [desiredScanGroups, desiredScanGroups]
        have h1 : (∃ m ∈ names, findScan (scanGroups (TopFile.top
              (insertItem (scanName str n, .scan t) f))) m = none) ↔
            ∃ m ∈ names, findScan (scanGroups f.top) m = none := by
          constructor
          · rintro ⟨m, hm, h2⟩; exact ⟨m, hm, by rw [← hfind m hm]; exact h2⟩
          · rintro ⟨m, hm, h2⟩; exact ⟨m, hm, by rw [hfind m hm]; exact h2⟩
        have h2 : names.filterMap (findScan (scanGroups (TopFile.top
            (insertItem (scanName str n, .scan t) f)))) =
            names.filterMap (findScan (scanGroups f.top)) :=
          List.filterMap_congr hfind
        have h3 : (names.filter fun m => (findScan (scanGroups (TopFile.top
            (insertItem (scanName str n, .scan t) f))) m).isNone) =
            names.filter fun m => (findScan (scanGroups f.top) m).isNone :=
          List.filter_congr fun m hm => by rw [hfind m hm]
        rw [h2, h3]
        simp only [h1]
      unfold loadTopFile at h ⊢
      simp only [manufacturerVersion_add, hd] at h ⊢
      cases hm : manufacturerVersion f.top with
      | error e => rw [hm] at h; simp [bind, Except.bind] at h
      | ok mv =>
        rw [hm] at h
        simp only [bind, Except.bind] at h ⊢
        cases hc : checkFile f.top mv.1 with
        | error e => rw [hc] at h; simp at h
        | ok u =>
          rw [hc] at h
          rw [checkFile_add str n t f mv.1 hc]
          exact h

theorem scanGroups_insert_first {S : Type} (e : List Char × TopEntry S) (f : TopGroup S)
    (hs : f.Pairwise fun a b => nameLe a.1 b.1 = true) (g : List Char × Bool × Bool × S)
    (gs : List (List Char × Bool × Bool × S)) (hg : scanGroups f = g :: gs)
    (hle : nameLe e.1 g.1 = false) :
    ∃ gs', scanGroups (insertEntry e f) = g :: gs' := by
  induction f with
  | nil => simp [scanGroups] at hg
  | cons x xs ih =>
    rw [List.pairwise_cons] at hs
    have hgx : nameLe x.1 g.1 = true := by
      have hmem : g ∈ scanGroups (x :: xs) := by rw [hg]; exact List.mem_cons_self
      obtain ⟨gn, gd, gh, gt⟩ := g
      rw [mem_scanGroups] at hmem
      rcases List.mem_cons.1 hmem with h | h
      · rw [← h]; exact nameLe_refl _
      · exact hs.1 _ h
    rw [insertEntry, if_neg]
    · obtain ⟨xn, xe⟩ := x
      cases xe with
      | dataset v =>
        exact ih hs.2 hg
      | group d h t =>
        have e1 : ∀ l : TopGroup S, scanGroups ((xn, TopEntry.group d h t) :: l) =
            (xn, d, h, t) :: scanGroups l := fun _ => rfl
        rw [e1] at hg ⊢
        rw [List.cons.injEq] at hg
        exact ⟨_, by rw [hg.1]⟩
    · intro hc
      have := nameLe_trans hc hgx
      rw [hle] at this
      simp at this

/-- **C101** (partial): without a name, the scan loaded after adding was interrupted is the same as
before if the name of the new scan comes after its name; otherwise see `C101_default_violated`. -/
theorem C101_default_partial (zero : V) (str : ℤ → List Char) (version : List Char) (f : TopFile V)
    (n : ℤ) (s : ScanSource V) (hf : ∀ e ∈ f, e.1 ≠ scanName str n)
    (hsort : f.Pairwise fun a b => nameLe a.1 b.1 = true) (k : ℕ) (r : List (ReadScan V))
    (h : loadTopFile (some f) none = .ok r)
    (hafter : ∀ nm t, (nm, TopItem.scan t) ∈ f → nameLe (scanName str n) nm = false) :
    loadTopFile (fileAfterSteps zero str version (some f) false true n s k) none = .ok r := by
  cases k with
  | zero => exact h
  | succ j =>
    rw [after_add zero str version f n s hf j]
    generalize treeAfter zero ((scanSteps s).take j) = t
    unfold loadTopFile at h ⊢
    simp only [manufacturerVersion_add] at h ⊢
    cases hm : manufacturerVersion f.top with
    | error e => rw [hm] at h; simp [bind, Except.bind] at h
    | ok mv =>
      rw [hm] at h
      simp only [bind, Except.bind] at h ⊢
      cases hc : checkFile f.top mv.1 with
      | error e => rw [hc] at h; simp at h
      | ok u =>
        rw [hc] at h
        rw [checkFile_add str n t f mv.1 hc]
        simp only at h ⊢
        cases hg : scanGroups f.top with
        | nil => rw [hg] at h; simp [desiredScanGroups] at h
        | cons g gs =>
          have hle : nameLe (scanName str n) g.1 = false := by
            have hmem : g ∈ scanGroups f.top := by rw [hg]; exact List.mem_cons_self
            obtain ⟨gn, gd, gh, gt⟩ := g
            rw [mem_scanGroups, top_eq, List.mem_map] at hmem
            obtain ⟨⟨xn, xi⟩, hx, hxe⟩ := hmem
            cases xi with
            | text v => simp [TopItem.entry] at hxe
            | scan t' =>
              rw [Prod.mk.injEq] at hxe
              rw [← hxe.1]
              exact hafter xn t' hx
          have hsort' : f.top.Pairwise fun a b => nameLe a.1 b.1 = true := by
            rw [top_eq, List.pairwise_map]
            exact hsort
          obtain ⟨gs', hgs'⟩ := scanGroups_insert_first (scanName str n, TopEntry.group
            (hasPath t ["EBSD", "Data"]) (hasPath t ["EBSD", "Header"]) t) f.top hsort' g gs hg hle
          rw [top_scan, hgs']
          rw [hg] at h
          exact h

/-- **C101** (violated): saving instead of an old file empties the file first. Whatever was in it,
no other scan can be loaded after the first step, and nothing can be loaded before the header of the
microscope is begun. -/
theorem C101_overwrite_violated (zero : V) (str : ℤ → List Char) (version : List Char)
    (old : Option (TopFile V)) (n : ℤ) (s : ScanSource V) (hx : (s.xmap.map Prod.fst).Nodup)
    (k : ℕ) (hk : 1 ≤ k) :
    (∀ m, m ≠ scanName str n →
      (loadTopFile (fileAfterSteps zero str version old false false n s k) (some [m])).toOption =
        none) ∧
    (k ≤ (saveSteps str version false n s).length - 9 →
      (loadTopFile (fileAfterSteps zero str version old false false n s k) none).toOption = none ∧
      (loadTopFile (fileAfterSteps zero str version old false false n s k)
        (some [scanName str n])).toOption = none) := by
  have hsem : (semSteps s).length = 8 := by simp [semSteps, dictSteps, semKeys]
  have hlen : (scanSteps s).length = (coreSteps s).length + 9 := by
    rw [scanSteps_eq, List.length_append, List.length_cons, hsem]
  by_cases h5 : k ≤ 5
  · obtain ⟨f, hf1, hf2⟩ := (after_new zero str version old false (by simp) n s k).1 hk h5
    rw [hf1]
    have hg : scanGroups f.top = [] := by
      rw [top_eq, scanGroups, List.filterMap_eq_nil_iff]
      intro e he
      rw [List.mem_map] at he
      obtain ⟨x, hx', rfl⟩ := he
      obtain ⟨v, hv⟩ := hf2 x hx'
      simp [hv, TopItem.entry]
    have hall : ∀ names, (loadTopFile (some f) names).toOption = none := by
      intro names
      unfold loadTopFile
      simp only
      cases manufacturerVersion f.top with
      | error e => rfl
      | ok mv => simp [bind, Except.bind, checkFile, hg, Except.toOption]
    exact ⟨fun m _ => hall _, fun _ => ⟨hall _, hall _⟩⟩
  · obtain ⟨j, rfl⟩ : ∃ j, k = j + 6 := ⟨k - 6, by omega⟩
    rw [(after_new zero str version old false (by simp) n s j).2]
    constructor
    · intro m hm
      have hfind : findScan (scanGroups (TopFile.top (insertItem (scanName str n,
          .scan (treeAfter zero ((scanSteps s).take j))) (headFile version)))) m = none := by
        rw [top_scan, findScan_insertEntry _ _ _ _ _ (top_ne (headFile_ne version str n)), if_neg hm]
        rfl
      unfold loadTopFile
      simp only [manufacturerVersion_add, headFile_manufacturer]
      simp only [bind, Except.bind]
      split
      · rfl
      · rw [desiredScanGroups]
        rw [if_pos ⟨rfl, m, List.mem_singleton_self _, hfind⟩]
        rfl
    · intro hkl
      rw [saveSteps_length] at hkl
      simp only [Bool.false_eq_true, if_false] at hkl
      have hr := (readTree_after zero s hx j).1 (by omega)
      constructor
      · have hperm := scanGroups_insert (scanName str n, TopEntry.group
          (hasPath (treeAfter zero ((scanSteps s).take j)) ["EBSD", "Data"])
          (hasPath (treeAfter zero ((scanSteps s).take j)) ["EBSD", "Header"])
          (treeAfter zero ((scanSteps s).take j)))
          (headFile version : TopFile V).top
        rw [← top_scan] at hperm
        have hgroups := List.perm_singleton.1 hperm
        unfold loadTopFile
        simp only [manufacturerVersion_add, headFile_manufacturer]
        simp only [bind, Except.bind]
        split
        · rfl
        · rw [hgroups]
          simp [desiredScanGroups, hr, bind, Except.bind, Except.toOption]
      · rw [load_named str n _ _ (headFile_ne version str n), headFile_manufacturer]
        simp only [bind, Except.bind]
        split
        · rfl
        · rw [hr]
          rfl

theorem getValidScanNumber_taken (parseInt : List Char → Option ℤ) (taken : List ℤ) (n : ℤ)
    (h : n ∈ taken) : getValidScanNumber parseInt taken n [] = (.error .eofError, []) := by
  induction taken with
  | nil => simp at h
  | cons i is ih =>
    rw [getValidScanNumber]
    by_cases hi : i = n
    · rw [if_pos hi, getInputInt]
    · rw [if_neg hi]
      exact ih (by simpa [Ne.symm hi] using h)

theorem mem_insertItem (e : List Char × TopItem V) (f : TopFile V) : e ∈ insertItem e f := by
  induction f with
  | nil => simp [insertItem]
  | cons x xs ih =>
    rw [insertItem]
    split
    · exact List.mem_cons_self
    · exact List.mem_cons_of_mem _ ih

/-- **C101** (violated): an interrupted scan cannot be saved again under its number. Its group stays
in the file, so that another number is asked for, and saving fails where nobody answers. -/
theorem C101_retry_violated (zero : V) (str : ℤ → List Char) (version : List Char) (f : TopFile V)
    (n : ℤ) (s : ScanSource V) (hf : ∀ e ∈ f, e.1 ≠ scanName str n) (k : ℕ) (hk : 1 ≤ k)
    (parseInt : List Char → Option ℤ) :
    ∃ g, fileAfterSteps zero str version (some f) false true n s k = some g ∧
      (∃ t, (scanName str n, TopItem.scan t) ∈ g) ∧
      ∀ numbers : List ℤ, (∀ m, (∃ t, (scanName str m, TopItem.scan t) ∈ g) → m ∈ numbers) →
        getValidScanNumber parseInt numbers n [] = (.error .eofError, []) := by
  obtain ⟨j, rfl⟩ : ∃ j, k = j + 1 := ⟨k - 1, by omega⟩
  refine ⟨_, after_add zero str version f n s hf j, ⟨_, mem_insertItem _ _⟩, ?_⟩
  intro numbers h
  exact getValidScanNumber_taken _ _ _ (h n ⟨_, mem_insertItem _ _⟩)

/-- **C101** (violated): interrupted right after the group of the microscope has been made, a scan is
loaded without an error and without its beam energy, magnification, microscope and working
distance. -/
theorem C101_sem_violated (zero : V) (str : ℤ → List Char) (version : List Char)
    (old : Option (TopFile V)) (n : ℤ) (s : ScanSource V) (hx : (s.xmap.map Prod.fst).Nodup) :
    ∃ l, loadTopFile (fileAfterSteps zero str version old false false n s
        ((saveSteps str version false n s).length - 8)) (some [scanName str n]) = .ok [l] ∧
      Spec.WholeData s l ∧ l.sem = [] := by
  have hsem : (semSteps s).length = 8 := by simp [semSteps, dictSteps, semKeys]
  have hlen : (scanSteps s).length = (coreSteps s).length + 9 := by
    rw [scanSteps_eq, List.length_append, List.length_cons, hsem]
  have hk : (saveSteps str version false n s).length - 8 = (coreSteps s).length + 1 + 6 := by
    rw [saveSteps_length]
    simp only [Bool.false_eq_true, if_false]
    omega
  have ht := (treeAfter_take zero s hx ((coreSteps s).length + 1)).2 (by omega)
  have hz : (coreSteps s).length + 1 - (coreSteps s).length - 1 = 0 := by omega
  rw [hz, List.take_zero, List.foldl_nil] at ht
  have hr := readTree_core s [(["SEM", "Header"], .group)]
    (by simp [IsSem, List.isPrefixOf]) (by simp)
  refine ⟨⟨s.patterns, some s.xmap, headerKeys.map fun k => (k, s.header k), []⟩, ?_,
    ⟨rfl, rfl, fun k hk => lookup_map_key _ _ _ hk⟩, rfl⟩
  rw [hk, (after_new zero str version old false (by simp) n s _).2,
    load_named str n _ _ (headFile_ne version str n), headFile_manufacturer, ht]
  simp only [bind, Except.bind]
  rw [checkFile_whole str n _ _ _ ?_ ?_ (by decide)]
  · simp only
    rw [hr]
    simp [readDict, pure, Except.pure]
  · unfold hasPath
    rw [List.any_eq_true]
    exact ⟨(["EBSD", "Data"], .group), by simp [coreTree], by simp [List.isPrefixOf]⟩
  · unfold hasPath
    rw [List.any_eq_true]
    exact ⟨(["EBSD", "Header"], .group), by simp [coreTree], by simp [List.isPrefixOf]⟩

/-- **C101**: a file which is open elsewhere is left as it is. -/
theorem C101_open_elsewhere (zero : V) (str : ℤ → List Char) (version : List Char)
    (old : Option (TopFile V)) (add : Bool) (n : ℤ) (s : ScanSource V) (k : ℕ) :
    fileAfterSteps zero str version old true add n s k = old := rfl

/-! ### A small scan -/

/-- Two patterns. -/
def smallSource : ScanSource ℕ where
  patterns := [7, 9]
  xmap := [("phase_id", [0, 1]), ("x", [0, 2])]
  header := fun k => [k.length]
  sem := fun k => [k.length + 1]

theorem smallSource_nodup : (smallSource.xmap.map Prod.fst).Nodup := by decide

/-- A file with this scan under the number 2. -/
def smallFile : TopFile ℕ :=
  insertItem (scanName threeDigits 2, .scan (treeAfter 0 (scanSteps smallSource)))
    (headFile "0.11".toList)

theorem smallFile_ne : ∀ e ∈ smallFile, e.1 ≠ scanName threeDigits 10 := by decide +kernel

/-- **C101** (violated): a file whose only scan is the second one is loaded without a name. After
adding a tenth one has been interrupted (here after its first patterns), it is not: the tenth one
comes first. -/
theorem C101_default_violated :
    ((loadTopFile (some smallFile) none).toOption.map (List.map ReadScan.patterns)) =
      some [[7, 9]] ∧
    (loadTopFile (fileAfterSteps 0 threeDigits "0.11".toList (some smallFile) false true 10
      smallSource 4) none).toOption.map (List.map ReadScan.patterns) = none := by
  decide +kernel

/-- The hypotheses of `C101_complete`, `C101_never_half` and `C101_other_scans` are met. -/
example :
    (∀ e ∈ smallFile, e.1 ≠ scanName threeDigits 10) ∧
    (loadTopFile (some smallFile) (some [scanName threeDigits 2])).toOption.map
      (List.map ReadScan.patterns) = some [[7, 9]] ∧
    (loadTopFile (fileAfterSteps 0 threeDigits "0.11".toList (some smallFile) false true 10
      smallSource 100) (some [scanName threeDigits 10])).toOption.map
        (List.map ReadScan.patterns) = some [[7, 9]] := by
  decide +kernel

/-- The hypotheses of `C101_default_partial` are met: a second scan next to the first one. -/
example :
    let f : TopFile ℕ := insertItem (scanName threeDigits 1,
      .scan (treeAfter 0 (scanSteps smallSource))) (headFile "0.11".toList)
    (∀ e ∈ f, e.1 ≠ scanName threeDigits 2) ∧
    (∀ e ∈ f, (match e.2 with | .text _ => false | .scan _ => true) = true →
      nameLe (scanName threeDigits 2) e.1 = false) ∧
    f.Pairwise fun a b => nameLe a.1 b.1 = true := by
  refine ⟨by decide +kernel, by decide +kernel, by decide +kernel⟩

end Kp
