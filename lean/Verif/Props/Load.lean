import Verif.Model.Load
import Verif.Props.Save

/-
C48: the choice of HDF5 reader is unambiguous. C49: every loaded signal knows its file.
-/

namespace Kp

/-- The members of a group. -/
def Spec.members : H5Members → List (List Char × H5Member)
  | .nil => []
  | .cons name m rest => (name, m) :: Spec.members rest

/-- `m` is the member of the group named `k`, in any case and after leading white space; if there
are several, the last one. -/
def Spec.named (g : H5Members) (k : List Char) (m : H5Member) : Prop :=
  ∃ pre name post, Spec.members g = pre ++ (name, m) :: post ∧
    (name.dropWhile Char.isWhitespace).map Char.toLower = k ∧
    ∀ q ∈ post, (q.1.dropWhile Char.isWhitespace).map Char.toLower ≠ k

/-- There is something in the file under the path. -/
def Spec.pathIn : List (List Char) → H5Members → Prop
  | [], _ => False
  | [k], g => ∃ m, Spec.named g k m
  | k :: ks, g => ∃ g', Spec.named g k (.group g') ∧ Spec.pathIn ks g'

/-- The file gives manufacturer `m` (in lower case) in its top group. -/
def Spec.madeBy (g : H5Members) (m : List Char) : Prop :=
  ∃ t, Spec.named g "manufacturer".toList (.dset (.text t)) ∧ t.map Char.toLower = m

/-- All footprints of the reader, and at least one, are in the file. -/
def Spec.footprintsIn (g : H5Members) (p : Plugin) : Prop :=
  p.footprints ≠ [] ∧ ∀ f ∈ p.footprints, Spec.pathIn f g

theorem find?_eq_some : ∀ {g : H5Members} {k : List Char} {m : H5Member},
    g.find? k = some m ↔ Spec.named g k m
  | .nil, k, m => by
    unfold H5Members.find? Spec.named Spec.members
    simp
  | .cons name a rest, k, m => by
    have ih := fun m => @find?_eq_some rest k m
    unfold H5Members.find?
    have hnone : rest.find? k = none ↔
        ∀ q ∈ Spec.members rest, (q.1.dropWhile Char.isWhitespace).map Char.toLower ≠ k := by
      constructor
      · intro h q hq hk
        have : ∃ q ∈ (Spec.members rest).reverse,
            (q.1.dropWhile Char.isWhitespace).map Char.toLower = k := ⟨q, by simpa using hq, hk⟩
        obtain ⟨as, ⟨n, b⟩, bs, h1, h2, h3⟩ : ∃ as b bs, (Spec.members rest).reverse = as ++ b :: bs ∧
            (b.1.dropWhile Char.isWhitespace).map Char.toLower = k ∧
            ∀ q ∈ as, (q.1.dropWhile Char.isWhitespace).map Char.toLower ≠ k := by
          have := List.find?_isSome.2 (by simpa using this : ∃ q, q ∈ (Spec.members rest).reverse ∧
            decide ((q.1.dropWhile Char.isWhitespace).map Char.toLower = k) = true)
          obtain ⟨b, hb⟩ := Option.isSome_iff_exists.1 this
          obtain ⟨h4, as, bs, h5, h6⟩ := List.find?_eq_some_iff_append.1 hb
          exact ⟨as, b, bs, h5, by simpa using h4, fun q hq => by simpa using h6 q hq⟩
        have : Spec.named rest k b := by
          refine ⟨bs.reverse, n, as.reverse, ?_, h2, fun q hq => h3 q (by simpa using hq)⟩
          rw [← List.reverse_reverse (Spec.members rest), h1]
          simp
        rw [← ih, h] at this
        cases this
      · intro h
        rcases hf : rest.find? k with _ | b
        · rfl
        · obtain ⟨pre, n, post, h1, h2, _⟩ := (ih b).1 hf
          exact absurd h2 (h (n, b) (by rw [h1]; simp))
    rcases hf : rest.find? k with _ | b
    · simp only
      have hn := hnone.1 hf
      constructor
      · intro h
        split at h
        · rename_i hk
          cases h
          exact ⟨[], name, Spec.members rest, rfl, hk, hn⟩
        · cases h
      · rintro ⟨pre, n, post, h1, h2, h3⟩
        cases pre with
        | nil =>
          unfold Spec.members at h1
          simp only [List.nil_append, List.cons.injEq, Prod.mk.injEq] at h1
          obtain ⟨⟨rfl, rfl⟩, rfl⟩ := h1
          rw [if_pos]
          exact h2
        | cons p pre =>
          unfold Spec.members at h1
          simp only [List.cons_append, List.cons.injEq] at h1
          exact absurd h2 (hn (n, m) (by rw [h1.2]; simp))
    · simp only [Option.some.injEq]
      have hb := (ih b).1 hf
      constructor
      · rintro rfl
        obtain ⟨pre, n, post, h1, h2, h3⟩ := hb
        exact ⟨(name, a) :: pre, n, post, by unfold Spec.members; rw [h1]; rfl, h2, h3⟩
      · rintro ⟨pre, n, post, h1, h2, h3⟩
        cases pre with
        | nil =>
          unfold Spec.members at h1
          simp only [List.nil_append, List.cons.injEq, Prod.mk.injEq] at h1
          obtain ⟨⟨rfl, rfl⟩, rfl⟩ := h1
          obtain ⟨pre', n', post', h4, h5, _⟩ := hb
          exact absurd h5 (h3 (n', b) (by rw [h4]; simp))
        | cons p pre =>
          unfold Spec.members at h1
          simp only [List.cons_append, List.cons.injEq] at h1
          have := (ih m).2 ⟨pre, n, post, h1.2, h2, h3⟩
          rw [hf] at this
          exact Option.some.inj this

theorem hasPath_iff : ∀ {f : List (List Char)} {g : H5Members} {b : Bool},
    g.hasPath f = .ok b → (b = true ↔ Spec.pathIn f g)
  | [], g, b, h => by unfold H5Members.hasPath at h; cases h
  | [k], g, b, h => by
    unfold H5Members.hasPath at h
    unfold Spec.pathIn
    rcases hf : g.find? k with _ | m
    · rw [hf] at h
      cases h
      simp only [Bool.false_eq_true, false_iff, not_exists]
      intro m hm
      rw [← find?_eq_some, hf] at hm
      cases hm
    · rw [hf] at h
      cases h
      simp only [true_iff]
      exact ⟨m, find?_eq_some.1 hf⟩
  | k :: k' :: ks, g, b, h => by
    unfold H5Members.hasPath at h
    unfold Spec.pathIn
    rcases hf : g.find? k with _ | m
    · rw [hf] at h
      cases h
      simp only [Bool.false_eq_true, false_iff, not_exists, not_and]
      intro m hm
      rw [← find?_eq_some, hf] at hm
      cases hm
    · rw [hf] at h
      cases m with
      | dset v => cases h
      | group g' =>
        simp only at h
        rw [hasPath_iff h]
        constructor
        · intro h'
          exact ⟨g', find?_eq_some.1 hf, h'⟩
        · rintro ⟨g'', h1, h2⟩
          rw [← find?_eq_some, hf] at h1
          cases h1
          exact h2

theorem mapM_hasPath (g : H5Members) : ∀ {l : List (List (List Char))} {r : List Bool},
    l.mapM g.hasPath = .ok r → r.length = l.length ∧
      (r.count true = l.length ↔ ∀ f ∈ l, Spec.pathIn f g) := by
  intro l
  induction l with
  | nil =>
    intro r h
    rw [List.mapM_nil] at h
    cases h
    simp
  | cons f l ih =>
    intro r h
    rw [List.mapM_cons] at h
    rcases hf : g.hasPath f with e | b
    · rw [hf] at h
      cases h
    rw [hf] at h
    rcases hl : l.mapM g.hasPath with e | r'
    · rw [hl] at h
      cases h
    rw [hl] at h
    cases h
    obtain ⟨h1, h2⟩ := ih hl
    have h3 : r'.count true ≤ l.length := h1 ▸ List.count_le_length
    refine ⟨by simp [h1], ?_⟩
    cases b
    · simp only [List.count_cons, List.length_cons]
      constructor
      · intro h
        simp at h
        omega
      · intro h
        have := (hasPath_iff hf).2 (h f (by simp))
        cases this
    · simp only [List.count_cons_self, List.length_cons, Nat.add_right_cancel_iff, h2]
      simp [(hasPath_iff hf).1 rfl]

theorem matches_ok {g : H5Members} {p : Plugin} {b : Bool} (h : p.matches g = .ok b) :
    b = true ↔ Spec.footprintsIn g p := by
  unfold Plugin.matches at h
  rcases hm : p.footprints.mapM g.hasPath with e | r
  · rw [hm] at h
    cases h
  rw [hm] at h
  cases h
  obtain ⟨h1, h2⟩ := mapM_hasPath g hm
  simp only [decide_eq_true_eq, Spec.footprintsIn]
  constructor
  · rintro ⟨h3, h4⟩
    refine ⟨fun h5 => ?_, h2.1 h4⟩
    rw [h5] at h4
    simp at h4
    simp [h4] at h3
  · rintro ⟨h3, h4⟩
    have := h2.2 h4
    refine ⟨?_, this⟩
    rw [this]
    exact List.length_pos_iff.2 h3

theorem filterE_eq {α : Type} {p : α → Except Err Bool} {q : α → Prop} [DecidablePred q] :
    ∀ {l l' : List α}, filterE p l = .ok l' → (∀ a ∈ l, ∀ b, p a = .ok b → (b = true ↔ q a)) →
      l' = l.filter (fun a => decide (q a)) := by
  intro l
  induction l with
  | nil => intro l' h _; cases h; rfl
  | cons a l ih =>
    intro l' h hq
    unfold filterE at h
    split at h
    · cases h
    · rename_i b hb
      split at h
      · cases h
      · rename_i l'' hl
        have h1 := ih hl fun a ha => hq a (by simp [ha])
        have h2 := hq a (by simp) b hb
        cases h
        rw [h1]
        by_cases hqa : q a
        · rw [h2.2 hqa]
          simp [hqa]
        · rw [Bool.eq_false_iff.2 fun h => hqa (h2.1 h)]
          simp [hqa]

theorem eq_singleton_unique {α : Type} {l : List α} {q : α → Bool} {p : α} (h : l.filter q = [p]) :
    p ∈ l ∧ q p = true ∧ ∀ p' ∈ l, q p' = true → p' = p := by
  have hp : p ∈ l.filter q := by rw [h]; simp
  refine ⟨(List.mem_filter.1 hp).1, (List.mem_filter.1 hp).2, fun p' h1 h2 => ?_⟩
  have : p' ∈ l.filter q := List.mem_filter.2 ⟨h1, h2⟩
  rw [h] at this
  simpa using this

/-- C48: the chosen reader reads files with the extension, and it is the only such reader, or
the only such reader for the manufacturer given in the file, or the only such reader whose
footprints are in the file. In any other case the call raises an error. -/
theorem C48_unambiguous {plugins : List Plugin} {ext : List Char} {hdf5 : Option H5Members}
    {p : Plugin} (h : selectReader plugins ext hdf5 = .ok p) :
    p ∈ plugins ∧ ext.map Char.toLower ∈ p.extensions ∧
    ((∀ p' ∈ plugins, ext.map Char.toLower ∈ p'.extensions → p' = p) ∨
     ∃ g, hdf5 = some g ∧
      ((Spec.madeBy g p.manufacturer ∧
          ∀ p' ∈ plugins, ext.map Char.toLower ∈ p'.extensions →
            Spec.madeBy g p'.manufacturer → p' = p) ∨
       (Spec.footprintsIn g p ∧
          ∀ p' ∈ plugins, ext.map Char.toLower ∈ p'.extensions →
            Spec.footprintsIn g p' → p' = p))) := by
  classical
  unfold selectReader at h
  split at h
  · cases h
  · rename_i p' hf
    cases h
    obtain ⟨h1, h2, h3⟩ := eq_singleton_unique hf
    simp only [decide_eq_true_eq] at h2 h3
    exact ⟨h1, h2, .inl h3⟩
  · split at h
    · cases h
    · rename_i g
      split at h
      · cases h
      · cases h
      · rename_i p' hpf
        cases h
        unfold pluginFromFootprints at hpf
        split at hpf
        · cases hpf
        · rename_i man hman
          split at hpf
          · rename_i q hq
            cases hpf
            obtain ⟨h1, h2, h3⟩ := eq_singleton_unique hq
            have hmem := List.mem_filter.1 h1
            simp only [decide_eq_true_eq] at h2 h3 hmem
            refine ⟨hmem.1, hmem.2, .inr ⟨g, rfl, .inl ⟨?_, fun p' hp' he' hm' => ?_⟩⟩⟩
            · unfold H5Members.manufacturer at hman
              split at hman
              · cases hman
                simp at h2
              · rename_i t ht
                cases hman
                simp only [Option.some.injEq] at h2
                exact ⟨t, find?_eq_some.1 ht, h2⟩
              · cases hman
              · cases hman
            · refine h3 p' (List.mem_filter.2 ⟨hp', decide_eq_true he'⟩) ?_
              obtain ⟨t, ht, htm⟩ := hm'
              unfold H5Members.manufacturer at hman
              rw [find?_eq_some.2 ht] at hman
              cases hman
              exact congrArg some htm
          · split at hpf
            · cases hpf
            · rename_i q hq
              cases hpf
              have h4 := filterE_eq (q := Spec.footprintsIn g) hq
                fun a _ b hb => matches_ok hb
              obtain ⟨h1, h2, h3⟩ := eq_singleton_unique h4.symm
              have hmem := List.mem_filter.1 h1
              simp only [decide_eq_true_eq] at h2 h3 hmem
              exact ⟨hmem.1, hmem.2, .inr ⟨g, rfl, .inr ⟨h2, fun p' hp' he' hm' =>
                h3 p' (List.mem_filter.2 ⟨hp', decide_eq_true he'⟩) hm'⟩⟩⟩
            · cases hpf

/-- C48: a file that gives Bruker, EDAX or kikuchipy as the manufacturer is read by the reader of
that manufacturer, whatever else is in the file. -/
theorem C48_manufacturer {ext : List Char}
    (he : lower ext ∈ ["h5".toList, "hdf5".toList, "h5ebsd".toList]) {g : H5Members} :
    (Spec.madeBy g "bruker nano".toList →
      (selectReader kikuchipyPlugins ext (some g)).map Plugin.name = .ok "bruker_h5ebsd") ∧
    (Spec.madeBy g "edax".toList →
      (selectReader kikuchipyPlugins ext (some g)).map Plugin.name = .ok "edax_h5ebsd") ∧
    (Spec.madeBy g "kikuchipy".toList →
      (selectReader kikuchipyPlugins ext (some g)).map Plugin.name = .ok "kikuchipy_h5ebsd") := by
  have key : ∀ m, Spec.madeBy g m → g.manufacturer = .ok (some m) := by
    rintro m ⟨t, h1, h2⟩
    unfold H5Members.manufacturer
    rw [find?_eq_some.2 h1]
    exact congrArg (fun x => Except.ok (some x)) h2
  have main : ∀ e ∈ ["h5".toList, "hdf5".toList, "h5ebsd".toList], ∀ m ∈ ["bruker nano".toList,
      "edax".toList, "kikuchipy".toList], ∃ (p : Plugin) (a b : Plugin) (l : List Plugin),
      kikuchipyPlugins.filter (fun p => decide (e ∈ p.extensions)) = a :: b :: l ∧
      (a :: b :: l).filter (fun p => decide (some m = some p.manufacturer)) = [p] ∧
      p.name = (if m = "bruker nano".toList then "bruker_h5ebsd" else
        if m = "edax".toList then "edax_h5ebsd" else "kikuchipy_h5ebsd") := by
    intro e he m hm
    simp only [List.mem_cons, List.not_mem_nil, or_false] at he hm
    rcases he with rfl | rfl | rfl <;> rcases hm with rfl | rfl | rfl <;>
      exact ⟨_, _, _, _, rfl, rfl, rfl⟩
  have fin : ∀ m ∈ ["bruker nano".toList, "edax".toList, "kikuchipy".toList], Spec.madeBy g m →
      (selectReader kikuchipyPlugins ext (some g)).map Plugin.name =
        .ok (if m = "bruker nano".toList then "bruker_h5ebsd" else
          if m = "edax".toList then "edax_h5ebsd" else "kikuchipy_h5ebsd") := by
    intro m hm hg
    obtain ⟨p, a, b, l, h1, h2, h3⟩ := main _ he m hm
    unfold selectReader
    rw [h1]
    simp only
    unfold pluginFromFootprints
    rw [key m hg]
    simp only [h2]
    rw [← h3]
    rfl
  refine ⟨fun h => ?_, fun h => ?_, fun h => ?_⟩
  · simpa using fin _ (by simp) h
  · exact fin _ (by simp) h
  · exact fin _ (by simp) h

/-! ### C49 -/

variable {D : Type*}

/-- C49: the first signal of a file knows its file. -/
theorem C49_first_signal_partial (cwd dir : D) (n : ℕ) {stem ext : List Char}
    (hs : ∃ c ∈ stem, c ≠ '.') (he : '.' ∉ ext) :
    (loadLoop cwd (n + 1) (some dir) (stem ++ '.' :: ext)).head? = some ⟨dir, stem, ext⟩ := by
  unfold loadLoop
  rw [splitext_append hs he]
  simp only [List.head?_cons, Option.getD_some, Option.some.injEq, LoadedFrom.mk.injEq, true_and]
  rw [List.filter_cons_of_neg (by simp), List.filter_eq_self]
  intro a ha
  simpa using fun h : a = '.' => he (h ▸ ha)

/-- C49 is false: all signals after the first one from a file without further dots in its name get
the current working directory as folder and no extension. -/
theorem C49_not_second_signal (cwd dir : D) (n : ℕ) {stem ext : List Char} (hs : stem ≠ [])
    (hd : '.' ∉ stem) (he : '.' ∉ ext) {i : ℕ} (hi : 1 ≤ i) (hin : i < n) :
    (loadLoop cwd n (some dir) (stem ++ '.' :: ext))[i]? = some ⟨cwd, stem, []⟩ := by
  obtain ⟨c, hc⟩ := List.exists_mem_of_ne_nil stem hs
  have tail : ∀ n i, i < n → (loadLoop cwd n none stem)[i]? = some ⟨cwd, stem, []⟩ := by
    intro n
    induction n with
    | zero => intro i hi; omega
    | succ n ih =>
      intro i hi
      unfold loadLoop
      rw [splitext_no_dot hd]
      cases i with
      | zero => rfl
      | succ i => exact ih i (by omega)
  obtain ⟨n, rfl⟩ : ∃ m, n = m + 1 := ⟨n - 1, by omega⟩
  obtain ⟨i, rfl⟩ : ∃ j, i = j + 1 := ⟨i - 1, by omega⟩
  unfold loadLoop
  rw [splitext_append ⟨c, hc, fun h => hd (h ▸ hc)⟩ he]
  exact tail n i (by omega)

/-! ### Non-vacuity -/

/-- Members from a list. -/
def membersOf : List (String × H5Member) → H5Members
  | [] => .nil
  | (k, m) :: r => .cons k.toList m (membersOf r)

/-- A file from EDAX is read by the EDAX reader. -/
example : (selectReader kikuchipyPlugins "H5".toList (some (membersOf
    [("Manufacturer", .dset (.text "EDAX".toList)), ("Scan 1", .group .nil),
      ("Version", .dset .other)]))).map Plugin.name = .ok "edax_h5ebsd" := by decide +kernel

/-- A master pattern from EMsoft is read by the reader with its footprint. -/
example : (selectReader kikuchipyPlugins "h5".toList (some (membersOf
    [("CrystalData", .group .nil), ("EMData", .group (membersOf [("EBSDmaster", .group .nil)]))])
      )).map Plugin.name = .ok "emsoft_ebsd_master_pattern" := by decide +kernel

/-- A file from an unknown manufacturer matches three readers, so none is chosen. -/
example : (selectReader kikuchipyPlugins "h5".toList (some (membersOf
    [("manufacturer", .dset (.text "me".toList)), ("version", .dset .other)]))).map Plugin.name =
    .error .ioError := by decide +kernel

/-- Three scans from the same file. -/
example : loadLoop "cwd" 3 (some "/data") "patterns.h5".toList =
    [⟨"/data", "patterns".toList, "h5".toList⟩, ⟨"cwd", "patterns".toList, []⟩,
      ⟨"cwd", "patterns".toList, []⟩] := by decide +kernel

end Kp
