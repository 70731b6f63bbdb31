import Verif.Model.H5Dict
import Mathlib.Tactic.Common

/-
C41: dictionaries survive storage in HDF5.
-/

namespace Kp

variable {V : Type}

/-- The value of a key. -/
def Spec.get? : PyDict V → List Char → Option (PyVal V)
  | .nil, _ => none
  | .cons k v rest, k' => if k = k' then some v else Spec.get? rest k'

/-- What is found under a path of keys: a value that is not a dictionary, or the fact that there
is a dictionary. -/
inductive Spec.Entry (V : Type)
  | isDict
  | str (t : List ℕ)
  | scalar (v : V)
  | arr (shape : List ℕ) (data : List V)
  | noneVal
  | pyList
  deriving DecidableEq

/-- The entry for a value itself. -/
def Spec.entry : PyVal V → Spec.Entry V
  | .dict _ => .isDict
  | .str t => .str t
  | .scalar v => .scalar v
  | .arr s d => .arr s d
  | .noneVal => .noneVal
  | .pyList => .pyList

/-- The entry under a path of keys in a value. -/
def Spec.at? : PyVal V → List (List Char) → Option (Spec.Entry V)
  | v, [] => some (Spec.entry v)
  | .dict d, k :: ks => match Spec.get? d k with
    | none => none
    | some v => Spec.at? v ks
  | _, _ :: _ => none

/-- The keys of a dictionary. -/
def Spec.keys : PyDict V → List (List Char)
  | .nil => []
  | .cons k _ rest => k :: Spec.keys rest

mutual
/-- Values that survive: ASCII strings that do not end with a zero character, numbers, arrays of
at least one dimension and length other than one, and dictionaries of such values with distinct
keys without leading white space. -/
def Spec.Storable : PyVal V → Prop
  | .dict d => Spec.StorableDict d
  | .str t => (∀ c ∈ t, c < 128) ∧ t.getLast? ≠ some 0
  | .scalar _ => True
  | .arr shape _ => shape ≠ [] ∧ shape.head? ≠ some 1
  | .noneVal => False
  | .pyList => False

/-- Dictionaries that survive. -/
def Spec.StorableDict : PyDict V → Prop
  | .nil => True
  | .cons k v rest => k ∉ Spec.keys rest ∧ (∀ c, k.head? = some c → c.isWhitespace = false) ∧
      Spec.Storable v ∧ Spec.StorableDict rest
end

/-! ### Lemmas -/

/-- Last member of a name. -/
def H5Grp.last? : H5Grp V → List Char → Option (H5Obj V)
  | .nil, _ => none
  | .cons name o rest, k => match rest.last? k with
    | some o' => some o'
    | none => if name = k then some o else none

theorem last?_eq_none {g : H5Grp V} {k : List Char} (h : g.has k = false) : g.last? k = none := by
  match g with
  | .nil => rfl
  | .cons name o rest =>
    unfold H5Grp.has at h
    simp only [Bool.or_eq_false_iff, decide_eq_false_iff_not] at h
    unfold H5Grp.last?
    rw [last?_eq_none h.2]
    simp [h.1]

theorem has_insert (g : H5Grp V) (k k' : List Char) (o : H5Obj V) :
    (g.insert k o).has k' = (decide (k = k') || g.has k') := by
  match g with
  | .nil => rfl
  | .cons name o' rest =>
    unfold H5Grp.insert
    split
    · rfl
    · unfold H5Grp.has
      rw [has_insert rest k k' o]
      cases decide (name = k') <;> cases decide (k = k') <;> simp

theorem last?_insert {g : H5Grp V} {k : List Char} (h : g.has k = false) (k' : List Char)
    (o : H5Obj V) : (g.insert k o).last? k' = if k = k' then some o else g.last? k' := by
  match g with
  | .nil =>
    unfold H5Grp.insert H5Grp.last?
    simp [H5Grp.last?]
  | .cons name o' rest =>
    have h0 := h
    unfold H5Grp.has at h
    simp only [Bool.or_eq_false_iff, decide_eq_false_iff_not] at h
    unfold H5Grp.insert
    split
    · rw [H5Grp.last?]
      by_cases hk : k = k'
      · subst hk
        rw [last?_eq_none h0]
      · rw [if_neg hk, if_neg hk]
        split <;> simp_all
    · rw [H5Grp.last?, last?_insert h.2 k' o]
      by_cases hk : k = k'
      · subst hk
        simp
      · simp only [if_neg hk]
        rw [H5Grp.last?]

theorem get?_set (d : PyDict V) (k k' : List Char) (v : PyVal V) :
    Spec.get? (d.set k v) k' = if k = k' then some v else Spec.get? d k' := by
  match d with
  | .nil => rfl
  | .cons k0 v0 rest =>
    unfold PyDict.set
    by_cases h0 : k0 = k
    · subst h0
      rw [if_pos rfl]
      unfold Spec.get?
      split <;> rfl
    · rw [if_neg h0]
      unfold Spec.get?
      rw [get?_set rest k k' v]
      by_cases h1 : k0 = k'
      · subst h1
        rw [if_pos rfl, if_neg (fun h => h0 h.symm), if_pos rfl]
      · rw [if_neg h1, if_neg h1]

theorem key_eq {k : List Char} (h : ∀ c, k.head? = some c → c.isWhitespace = false) (o : H5Obj V) :
    o.key k = k := by
  have : k.dropWhile Char.isWhitespace = k := by
    cases k with
    | nil => rfl
    | cons c cs => rw [List.dropWhile_cons_of_neg (by simp [h c rfl])]
  unfold H5Obj.key
  split <;> first | rfl | exact this

/-- No name in the group starts with white space. -/
def NoLead : H5Grp V → Prop
  | .nil => True
  | .cons name _ rest => (∀ c, name.head? = some c → c.isWhitespace = false) ∧ NoLead rest

theorem noLead_insert {g : H5Grp V} (hg : NoLead g) {k : List Char}
    (h : ∀ c, k.head? = some c → c.isWhitespace = false) (o : H5Obj V) : NoLead (g.insert k o) := by
  match g with
  | .nil => exact ⟨h, trivial⟩
  | .cons name o' rest =>
    unfold H5Grp.insert
    split
    · exact ⟨h, hg⟩
    · exact ⟨hg.1, noLead_insert hg.2 h o⟩

theorem get?_readGroup {g : H5Grp V} (hg : NoLead g) (d : PyDict V) (k : List Char) :
    Spec.get? (readGroup g d) k = match g.last? k with
      | some o => some (readVal o)
      | none => Spec.get? d k := by
  match g with
  | .nil =>
    unfold readGroup H5Grp.last?
    rfl
  | .cons name o rest =>
    unfold readGroup
    rw [get?_readGroup hg.2, H5Grp.last?]
    rcases rest.last? k with _ | o'
    · simp only
      rw [get?_set, key_eq hg.1]
      by_cases h : name = k
      · rw [if_pos h, if_pos h]
      · rw [if_neg h, if_neg h]
    · rfl

theorem writeDict_spec : ∀ {d : PyDict V}, Spec.StorableDict d → ∀ {g : H5Grp V}, NoLead g →
    (∀ k ∈ Spec.keys d, g.has k = false) →
    (∀ k v, Spec.get? d k = some v → ∃ o, writeVal v = .ok (some o)) →
    ∃ g', writeDict d g = .ok g' ∧ NoLead g' ∧
      ∀ k, match Spec.get? d k with
        | some v => ∃ o, writeVal v = .ok (some o) ∧ g'.last? k = some o
        | none => g'.last? k = g.last? k := by
  intro d
  match d with
  | .nil =>
    intro _ g hg _ _
    exact ⟨g, by unfold writeDict; rfl, hg, fun k => by simp [Spec.get?]⟩
  | .cons k v rest =>
    intro hd g hg hk hw
    unfold Spec.StorableDict at hd
    obtain ⟨o, ho⟩ := hw k v (by simp [Spec.get?])
    have hkg : g.has k = false := hk k (by simp [Spec.keys])
    have hget : ∀ k' v', Spec.get? rest k' = some v' → k' ∈ Spec.keys rest := by
      intro k' v'
      clear hd hk hw
      induction rest using PyDict.rec (motive_1 := fun _ => True) with
      | nil => simp [Spec.get?]
      | cons k0 v0 r _ ih =>
        unfold Spec.get? Spec.keys
        split
        · rename_i h
          intro _
          simp [h]
        · intro h
          simp [ih h]
      | _ => trivial
    obtain ⟨g', h1, h2, h3⟩ := writeDict_spec hd.2.2.2 (g := g.insert k o)
      (noLead_insert hg hd.2.1 o)
      (fun k' hk' => by
        rw [has_insert, hk k' (by simp [Spec.keys, hk'])]
        simp only [Bool.or_false, decide_eq_false_iff_not]
        rintro rfl
        exact hd.1 hk')
      (fun k' v' h => hw k' v' (by
        unfold Spec.get?
        rw [if_neg]
        · exact h
        · rintro rfl
          exact hd.1 (hget _ _ h)))
    refine ⟨g', ?_, h2, fun k' => ?_⟩
    · unfold writeDict
      rw [ho]
      simp only [hkg, Bool.false_eq_true, if_false]
      exact h1
    · have := h3 k'
      unfold Spec.get?
      by_cases hkk : k = k'
      · subst hkk
        rw [if_pos rfl]
        have hn : Spec.get? rest k = none := by
          rcases h : Spec.get? rest k with _ | v'
          · rfl
          · exact absurd (hget _ _ h) hd.1
        rw [hn, last?_insert hkg, if_pos rfl] at this
        exact ⟨o, ho, this⟩
      · rw [if_neg hkk]
        rcases h : Spec.get? rest k' with _ | v'
        · rw [h, last?_insert hkg, if_neg hkk] at this
          exact this
        · rw [h] at this
          exact this

theorem storable_of_get? {d : PyDict V} (hd : Spec.StorableDict d) {k : List Char} {v : PyVal V}
    (h : Spec.get? d k = some v) : Spec.Storable v := by
  match d with
  | .nil => simp [Spec.get?] at h
  | .cons k0 v0 rest =>
    unfold Spec.StorableDict at hd
    unfold Spec.get? at h
    split at h
    · cases h
      exact hd.2.2.1
    · exact storable_of_get? hd.2.2.2 h

mutual
theorem writeVal_ok : ∀ {v : PyVal V}, Spec.Storable v → ∃ o, writeVal v = .ok (some o)
  | .dict d, h => by
    unfold Spec.Storable at h
    obtain ⟨g, hg, _⟩ := writeDict_spec h (g := .nil) trivial (fun _ _ => rfl)
      (writeVals_ok h)
    exact ⟨.group g, by unfold writeVal; rw [hg]⟩
  | .str t, _ => ⟨_, by unfold writeVal; rfl⟩
  | .scalar v, _ => ⟨_, by unfold writeVal; rfl⟩
  | .arr s d, _ => ⟨_, by unfold writeVal; rfl⟩
  | .noneVal, h => by simp [Spec.Storable] at h
  | .pyList, h => by simp [Spec.Storable] at h

theorem writeVals_ok : ∀ {d : PyDict V}, Spec.StorableDict d → ∀ k v, Spec.get? d k = some v →
    ∃ o, writeVal v = .ok (some o)
  | .nil, _, k, v, h => by simp [Spec.get?] at h
  | .cons k0 v0 rest, hd, k, v, h => by
    unfold Spec.StorableDict at hd
    unfold Spec.get? at h
    split at h
    · cases h
      exact writeVal_ok hd.2.2.1
    · exact writeVals_ok hd.2.2.2 k v h
end

theorem utf8_ascii {t : List ℕ} (h : ∀ c ∈ t, c < 128) : utf8 t = t := by
  induction t with
  | nil => rfl
  | cons c t ih =>
    unfold utf8 at ih ⊢
    rw [List.flatMap_cons, ih fun c hc => h c (by simp [hc])]
    unfold utf8Char
    rw [if_pos (h c (by simp))]
    rfl

theorem stripZeros_eq {t : List ℕ} (h : t.getLast? ≠ some 0) : stripZeros t = t := by
  unfold stripZeros
  rw [List.getLast?_eq_head?_reverse] at h
  cases hr : t.reverse with
  | nil =>
    rw [List.reverse_eq_nil_iff] at hr
    subst hr
    rfl
  | cons a l =>
    rw [hr] at h
    simp only [List.head?_cons, ne_eq, Option.some.injEq] at h
    rw [List.dropWhile_cons_of_neg (by simpa using h), ← hr, List.reverse_reverse]

theorem at?_readVal : ∀ {ks : List (List Char)} {v : PyVal V}, Spec.Storable v →
    ∀ {o}, writeVal v = .ok (some o) → Spec.at? (readVal o) ks = Spec.at? v ks := by
  intro ks
  induction ks with
  | nil =>
    intro v hv o ho
    cases v with
    | dict d =>
      unfold writeVal at ho
      split at ho
      · cases ho
      · cases ho
        simp [readVal, Spec.at?, Spec.entry]
    | str t =>
      unfold writeVal at ho
      cases ho
      unfold Spec.Storable at hv
      simp [readVal, Spec.at?, Spec.entry, utf8_ascii hv.1, List.take_of_length_le,
        stripZeros_eq hv.2]
    | scalar v =>
      unfold writeVal at ho
      cases ho
      simp [readVal, Spec.at?, Spec.entry]
    | arr s d =>
      unfold writeVal at ho
      cases ho
      unfold Spec.Storable at hv
      unfold readVal
      split <;> simp_all
    | noneVal => simp [Spec.Storable] at hv
    | pyList => simp [Spec.Storable] at hv
  | cons k ks ih =>
    intro v hv o ho
    cases v with
    | dict d =>
      unfold Spec.Storable at hv
      obtain ⟨g, hg, h1, h2⟩ := writeDict_spec hv (g := .nil) trivial (fun _ _ => rfl)
        (writeVals_ok hv)
      unfold writeVal at ho
      rw [hg] at ho
      cases ho
      simp only [readVal, Spec.at?]
      rw [get?_readGroup h1]
      have := h2 k
      rcases hk : Spec.get? d k with _ | v
      · rw [hk] at this
        simp only at this
        rw [this]
        simp [H5Grp.last?, Spec.get?]
      · rw [hk] at this
        obtain ⟨o', ho', hl⟩ := this
        rw [hl]
        exact ih (storable_of_get? hv hk) ho'
    | str t =>
      unfold writeVal at ho
      cases ho
      simp [readVal, Spec.at?]
    | scalar v =>
      unfold writeVal at ho
      cases ho
      simp [readVal, Spec.at?]
    | arr s d =>
      unfold writeVal at ho
      cases ho
      unfold Spec.Storable at hv
      unfold readVal
      split <;> simp_all [Spec.at?]
    | noneVal => simp [Spec.Storable] at hv
    | pyList => simp [Spec.Storable] at hv

/-- C41: a dictionary of storable values is written, and read back with the same entries under the
same keys, at every depth. -/
theorem C41_round_trip_partial {d : PyDict V} (hd : Spec.StorableDict d) :
    ∃ g, writeDict d .nil = .ok g ∧
      ∀ ks, Spec.at? (.dict (readGroup g .nil)) ks = Spec.at? (.dict d) ks := by
  obtain ⟨g, hg, _⟩ := writeDict_spec hd (g := .nil) trivial (fun _ _ => rfl) (writeVals_ok hd)
  refine ⟨g, hg, fun ks => ?_⟩
  have := at?_readVal (ks := ks) (v := .dict d) (by unfold Spec.Storable; exact hd) (o := .group g)
    (by unfold writeVal; rw [hg])
  rw [← this]
  simp only [readVal]

/-- Dictionary with the entries of `d` followed by those of `d'`. -/
def Spec.append : PyDict V → PyDict V → PyDict V
  | .nil, d' => d'
  | .cons k v rest, d' => .cons k v (Spec.append rest d')

/-- C41 is false: all entries after a value that can not be written, as `None`, are lost. -/
theorem C41_not_after_none (k : List Char) (d d' : PyDict V) (g : H5Grp V) :
    writeDict (Spec.append d (.cons k .noneVal d')) g = writeDict d g := by
  match d with
  | .nil =>
    unfold Spec.append writeDict writeVal
    rfl
  | .cons k0 v0 rest =>
    unfold Spec.append writeDict
    split
    · rfl
    · rfl
    · split
      · rfl
      · exact C41_not_after_none k rest d' _

/-- C41 is false for strings that are not ASCII: no string of one such character survives. -/
theorem C41_not_ascii (k : List Char) {c : ℕ} (hc : 128 ≤ c) :
    ∃ t, writeDict (V := V) (.cons k (.str [c]) .nil) .nil = .ok (.cons k (.bytes t) .nil) ∧
      readVal (.bytes t : H5Obj V) ≠ .str [c] := by
  refine ⟨(utf8 [c]).take 2, by simp [writeDict, writeVal, H5Grp.has, H5Grp.insert], ?_⟩
  have : ∃ a b, (utf8 [c]).take 2 = [a, b] ∧ b ≠ 0 := by
    unfold utf8 utf8Char
    rw [List.flatMap_cons, if_neg (by omega)]
    split
    · exact ⟨_, _, rfl, by omega⟩
    · split
      · exact ⟨_, _, rfl, by omega⟩
      · exact ⟨_, _, rfl, by omega⟩
  obtain ⟨a, b, h, hb⟩ := this
  rw [h]
  simp [readVal, stripZeros, hb]

/-- C41 is false for arrays of length one: they are read as their item. -/
theorem C41_not_length_one (k : List Char) (v : V) :
    ∃ g, writeDict (.cons k (.arr [1] [v]) .nil) .nil = .ok (.cons k g .nil) ∧
      readVal g = .scalar v :=
  ⟨.arr [1] [v], by simp [writeDict, writeVal, H5Grp.has, H5Grp.insert], by simp [readVal]⟩

/-- C41 is false for arrays of more axes, the first of length one: this axis is lost. -/
theorem C41_not_first_axis_one (k : List Char) (n : ℕ) (s : List ℕ) (data : List V) :
    ∃ g, writeDict (.cons k (.arr (1 :: n :: s) data) .nil) .nil = .ok (.cons k g .nil) ∧
      readVal g = .arr (n :: s) data :=
  ⟨.arr (1 :: n :: s) data, by simp [writeDict, writeVal, H5Grp.has, H5Grp.insert],
    by simp [readVal]⟩

/-- C41 is false for keys that start with white space. -/
theorem C41_not_white_space (v : V) :
    ∃ g, writeDict (.cons " a".toList (.scalar v) .nil) .nil = .ok g ∧
      Spec.get? (readGroup g .nil) " a".toList = none ∧
      Spec.get? (readGroup g .nil) "a".toList = some (.scalar v) := by
  refine ⟨.cons " a".toList (.arr [1] [v]) .nil,
    by simp [writeDict, writeVal, H5Grp.has, H5Grp.insert], ?_, ?_⟩ <;>
  simp [readGroup, H5Obj.key, PyDict.set, Spec.get?, readVal]

/-- C41 is false for lists of Python numbers: the call raises. -/
theorem C41_not_lists (k : List Char) (rest : PyDict V) (g : H5Grp V) :
    writeDict (.cons k .pyList rest) g = .error .attributeError := by
  simp [writeDict, writeVal]

/-! ### Non-vacuity -/

/-- A nested dictionary of storable values. -/
def exampleDict : PyDict ℕ :=
  .cons "n_rows".toList (.scalar 3) (.cons "pcx".toList (.arr [2, 2] [1, 2, 3, 4])
    (.cons "crystal_map".toList (.dict (.cons "name".toList (.str [110, 105]) .nil)) .nil))

example : Spec.StorableDict exampleDict := by
  simp [exampleDict, Spec.StorableDict, Spec.Storable, Spec.keys]

example : Spec.at? (.dict exampleDict) ["crystal_map".toList, "name".toList] =
    some (.str [110, 105]) := by decide +kernel

end Kp
