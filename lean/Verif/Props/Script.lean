import Verif.Spec.Script
import Mathlib.Tactic.SplitIfs
import Mathlib.Tactic.Push
import Mathlib.Data.List.Basic

/-
C149: scripts behave as if every variable and attribute held its own copy, if only objects held at one
place are changed.
-/

namespace Kp
open Spec

variable {V : Type}

/-! ### Objects -/

/-- The contents behind a reference. -/
def behind (heap : List V) (r : Option ℕ) : Option V := r.bind fun i => heap[i]?

/-- References to existing objects. -/
def ScriptState.Valid (st : ScriptState V) : Prop := ∀ p i, st.env p = some i → i < st.heap.length

theorem newObject_behind (heap : List V) (v : Option V) :
    behind (newObject heap v).1 (newObject heap v).2 = v := by
  cases v <;> simp [newObject, behind]

theorem newObject_old (heap : List V) (v : Option V) {r : Option ℕ}
    (hr : ∀ i, r = some i → i < heap.length) :
    behind (newObject heap v).1 r = behind heap r := by
  cases v with
  | none => rfl
  | some v =>
    cases r with
    | none => rfl
    | some i =>
      simp only [newObject, behind, Option.bind_some]
      rw [List.getElem?_append_left (hr i rfl)]

theorem newObject_le (heap : List V) (v : Option V) :
    heap.length ≤ (newObject heap v).1.length := by
  cases v <;> simp [newObject]

theorem newObject_fresh (heap : List V) (v : Option V) {i : ℕ}
    (h : (newObject heap v).2 = some i) : heap.length ≤ i ∧ i < (newObject heap v).1.length := by
  cases v with
  | none => simp [newObject] at h
  | some v =>
    simp only [newObject, Option.some.injEq] at h
    subst h
    simp [newObject]

theorem changeAt_length (st : ScriptState V) (p : Place) (f : V → V) :
    (changeAt st p f).length = st.heap.length := by
  unfold changeAt
  split <;> simp

theorem changeAt_behind (st : ScriptState V) (p : Place) (f : V → V) (r : Option ℕ) :
    behind (changeAt st p f) r =
      if r = st.env p then (behind st.heap r).map f else behind st.heap r := by
  unfold changeAt
  cases hp : st.env p with
  | none =>
    cases r with
    | none => simp [behind]
    | some i => simp
  | some j =>
    cases r with
    | none => simp [behind]
    | some i =>
      simp only [behind, Option.bind_some, List.getElem?_modify, Option.some.injEq]
      by_cases h : j = i
      · subst h; simp
      · rw [if_neg (fun e => h e.symm)]
        simp [h]

theorem view_eq (st : ScriptState V) (p : Place) : st.view p = behind st.heap (st.env p) := rfl

theorem scriptStep_valid {st : ScriptState V} (h : st.Valid) (c : ScriptCall V) :
    (scriptStep st c).Valid := by
  have hv : ∀ {p : Place} {i : ℕ}, st.env p = some i → i < st.heap.length := fun e => h _ _ e
  intro p i
  cases c with
  | create x v =>
    simp only [scriptStep, assignPlace, List.length_append, List.length_singleton]
    split_ifs
    · intro e; cases e; omega
    · intro e; have := hv e; omega
  | share x q =>
    simp only [scriptStep, assignPlace]
    split_ifs <;> exact hv
  | compute x f =>
    simp only [scriptStep, assignPlace, List.length_append, List.length_singleton]
    split_ifs
    · intro e; cases e; omega
    · intro e; have := hv e; omega
  | signal s d b m new =>
    have hx : ∀ (y : Option String) {i : ℕ}, (y.bind fun x => st.env (.var x)) = some i →
        i < st.heap.length := by
      intro y i e
      cases y with
      | none => cases e
      | some x => exact hv e
    simp only [scriptStep, bindSignal, assignPlace]
    cases d with
    | some x =>
      simp only
      split_ifs
      · exact hx m
      · exact hx b
      · exact hv
      · exact hv
    | none =>
      have hle := newObject_le st.heap (some new)
      simp only
      split_ifs
      · intro e; have := hx m e; omega
      · intro e; have := hx b e; omega
      · intro e; exact (newObject_fresh _ _ e).2
      · intro e; have := hv e; omega
  | simulate s d m =>
    have hle := newObject_le st.heap (some m)
    simp only [scriptStep, bindSignal, assignPlace]
    split_ifs
    · intro e; exact (newObject_fresh _ _ e).2
    · intro e; cases e
    · intro e; have := hv e; omega
    · intro e; have := hv e; omega
  | setDet s x =>
    simp only [scriptStep, assignPlace]
    split_ifs <;> exact hv
  | setBg s x =>
    simp only [scriptStep, assignPlace]
    split_ifs <;> exact hv
  | setMap s x =>
    simp only [scriptStep, assignPlace]
    split_ifs <;> exact hv
  | modify q f =>
    simp only [scriptStep, changeAt_length]
    exact hv
  | plain t s =>
    simp only [scriptStep, bindSignal, assignPlace]
    split_ifs <;> exact hv
  | asLazy t s f =>
    have hle := newObject_le st.heap ((st.view (.bg s)).map f)
    simp only [scriptStep, bindSignal, assignPlace]
    split_ifs
    · intro e; have := hv e; omega
    · intro e; exact (newObject_fresh _ _ e).2
    · intro e; have := hv e; omega
    · intro e; have := hv e; omega
  | downsample t s f g =>
    have hle := newObject_le (changeAt st (.det s) f) ((st.view (.bg s)).map g)
    rw [changeAt_length] at hle
    simp only [scriptStep, bindSignal, assignPlace]
    split_ifs
    · intro e; have := hv e; omega
    · intro e; exact (newObject_fresh _ _ e).2
    · intro e; have := hv e; omega
    · intro e; have := hv e; omega
  | downsampled s f g =>
    have hle := newObject_le (changeAt st (.det s) f) ((st.view (.bg s)).map g)
    rw [changeAt_length] at hle
    simp only [scriptStep, assignPlace]
    split_ifs
    · intro e; exact (newObject_fresh _ _ e).2
    · intro e; have := hv e; omega
  | derive t s f g h' =>
    simp only [scriptStep, bindSignal, assignPlace]
    have l1 := newObject_le st.heap ((st.view (.det s)).map f)
    have l2 := newObject_le (newObject st.heap ((st.view (.det s)).map f)).1 ((st.view (.bg s)).bind g)
    have l3 := newObject_le (newObject (newObject st.heap ((st.view (.det s)).map f)).1
      ((st.view (.bg s)).bind g)).1 ((st.view (.xmap s)).bind h')
    split_ifs
    · intro e; exact (newObject_fresh _ _ e).2
    · intro e; have := (newObject_fresh _ _ e).2; omega
    · intro e; have := (newObject_fresh _ _ e).2; omega
    · intro e; have := hv e; omega

theorem scriptStart_valid : (scriptStart : ScriptState V).Valid := fun _ _ h => by cases h

theorem scriptRun_valid : ∀ (cs : List (ScriptCall V)) {st : ScriptState V}, st.Valid →
    (scriptRun st cs).Valid
  | [], _, h => h
  | c :: cs, _, h => scriptRun_valid cs (scriptStep_valid h c)

/-! ### One call -/

theorem withSignal_bind {st : ScriptState V} {heap : List V} {s : String} {d b m : Option ℕ} {p : Place}
    {σ : Place → Option V} {d' b' m' : Option V} (hd : behind heap d = d') (hb : behind heap b = b')
    (hm : behind heap m = m')
    (ho : p ≠ .det s → p ≠ .bg s → p ≠ .xmap s → behind heap (st.env p) = σ p) :
    behind heap (bindSignal st.env s d b m p) = withSignal σ s d' b' m' p := by
  simp only [bindSignal, assignPlace]
  cases p with
  | var x => simpa [withSignal] using ho
  | det x =>
    by_cases h : x = s
    · subst h; simpa [withSignal] using hd
    · simpa [withSignal, h] using ho
  | bg x =>
    by_cases h : x = s
    · subst h; simpa [withSignal] using hb
    · simpa [withSignal, h] using ho
  | xmap x =>
    by_cases h : x = s
    · subst h; simpa [withSignal] using hm
    · simpa [withSignal, h] using ho

theorem withValue_assign {st : ScriptState V} {heap : List V} {p q : Place} {r : Option ℕ}
    {σ : Place → Option V} {v : Option V} (hr : behind heap r = v)
    (ho : p ≠ q → behind heap (st.env p) = σ p) :
    behind heap (assignPlace st.env q r p) = withValue σ q v p := by
  simp only [assignPlace, withValue]
  split_ifs with h
  · exact hr
  · exact ho h

theorem unchanged_elsewhere {st : ScriptState V} {p q : Place} (f : V → V) (h : HeldOnlyAt st p)
    (hq : q ≠ p) : behind (changeAt st p f) (st.env q) = st.view q := by
  rw [changeAt_behind]
  split_ifs with e
  · have := h q hq e
    rw [view_eq, e, this]
    rfl
  · rfl

theorem unchanged_new {st : ScriptState V} (hst : st.Valid) {p q : Place} (f : V → V) (w : Option V)
    (h : HeldOnlyAt st p) (hq : q ≠ p) :
    behind (newObject (changeAt st p f) w).1 (st.env q) = st.view q := by
  rw [newObject_old, unchanged_elsewhere f h hq]
  intro i e
  rw [changeAt_length]
  exact hst _ _ e

theorem changed_new {st : ScriptState V} (hst : st.Valid) (p : Place) (f : V → V) (w : Option V) :
    behind (newObject (changeAt st p f) w).1 (st.env p) = (st.view p).map f := by
  rw [newObject_old, changeAt_behind, if_pos rfl]
  · rfl
  · intro i e
    rw [changeAt_length]
    exact hst _ _ e

/-- C149, one call: what a careful call does is what it does if there are only values. -/
theorem C149_call {st : ScriptState V} (hst : st.Valid) {c : ScriptCall V} (hc : Careful st c) :
    (scriptStep st c).view = callOnValues st.view c := by
  have hv : ∀ {p : Place} {i : ℕ}, st.env p = some i → i < st.heap.length := fun e => hst _ _ e
  have hold : ∀ (w : Option V) (p : Place), behind (newObject st.heap w).1 (st.env p) = st.view p :=
    fun w p => newObject_old _ _ fun i e => hv e
  have happ : ∀ (w : V) (p : Place), behind (st.heap ++ [w]) (st.env p) = st.view p :=
    fun w p => hold (some w) p
  funext p
  cases c with
  | create x v =>
    exact withValue_assign (st := st) (newObject_behind st.heap (some v)) fun _ => happ v p
  | share x q => exact withValue_assign (st := st) rfl fun _ => rfl
  | compute x f =>
    exact withValue_assign (st := st) (newObject_behind st.heap (some _)) fun _ => happ _ p
  | signal s d b m new =>
    cases d with
    | some x =>
      refine withSignal_bind (st := st) rfl ?_ ?_ fun _ _ _ => rfl
      · cases b <;> rfl
      · cases m <;> rfl
    | none =>
      refine withSignal_bind (st := st) (newObject_behind st.heap (some new)) ?_ ?_
        fun _ _ _ => hold (some new) p
      · cases b with
        | none => rfl
        | some x => exact hold (some new) (.var x)
      · cases m with
        | none => rfl
        | some x => exact hold (some new) (.var x)
  | simulate s d m =>
    exact withSignal_bind (st := st) (hold (some m) (.var d)) rfl (newObject_behind st.heap (some m))
      fun _ _ _ => hold (some m) p
  | setDet s x => exact withValue_assign (st := st) rfl fun _ => rfl
  | setBg s x => exact withValue_assign (st := st) rfl fun _ => rfl
  | setMap s x => exact withValue_assign (st := st) rfl fun _ => rfl
  | modify q f =>
    change behind (changeAt st q f) (st.env p) = withValue st.view q ((st.view q).map f) p
    unfold withValue
    split_ifs with h
    · subst h; rw [changeAt_behind, if_pos rfl]; rfl
    · exact unchanged_elsewhere f hc h
  | plain t s => exact withSignal_bind (st := st) rfl rfl rfl fun _ _ _ => rfl
  | asLazy t s f =>
    exact withSignal_bind (st := st) (hold _ _) (newObject_behind _ _) (hold _ _) fun _ _ _ => hold _ p
  | downsample t s f g =>
    obtain ⟨rfl, hc⟩ := hc
    exact withSignal_bind (st := st) (changed_new hst _ _ _) (newObject_behind _ _)
      (unchanged_new hst _ _ hc (by simp)) fun h _ _ => unchanged_new hst _ _ hc h
  | downsampled s f g =>
    change behind (newObject (changeAt st (.det s) f) ((st.view (.bg s)).map g)).1
      (assignPlace st.env (.bg s) _ p) = _
    unfold assignPlace
    split_ifs with h
    · subst h
      rw [newObject_behind]
      simp [callOnValues, withSignal]
    · by_cases h2 : p = .det s
      · subst h2
        rw [changed_new hst]
        simp [callOnValues, withSignal]
      · rw [unchanged_new hst _ _ hc h2]
        cases p with
        | var x => rfl
        | det x => simp only [Place.det.injEq] at h2; simp [callOnValues, withSignal, h2]
        | bg x => simp only [Place.bg.injEq] at h; simp [callOnValues, withSignal, h]
        | xmap x =>
          simp only [callOnValues, withSignal]
          split_ifs with hx
          · rw [hx]
          · rfl
  | derive t s f g h =>
    have hv1 : ∀ (p : Place) (i : ℕ), st.env p = some i →
        i < (newObject st.heap ((st.view (.det s)).map f)).1.length := fun p i e =>
      Nat.lt_of_lt_of_le (hv e) (newObject_le _ _)
    have hv2 : ∀ (p : Place) (i : ℕ), st.env p = some i →
        i < (newObject (newObject st.heap ((st.view (.det s)).map f)).1
          ((st.view (.bg s)).bind g)).1.length := fun p i e =>
      Nat.lt_of_lt_of_le (hv1 p i e) (newObject_le _ _)
    change behind (newObject (newObject (newObject st.heap ((st.view (.det s)).map f)).1
      ((st.view (.bg s)).bind g)).1 ((st.view (.xmap s)).bind h)).1 (bindSignal st.env t _ _ _ p) = _
    refine withSignal_bind (st := st) ?_ ?_ (newObject_behind _ _) fun _ _ _ => ?_
    · rw [newObject_old, newObject_old, newObject_behind]
      · intro i e; exact (newObject_fresh _ _ e).2
      · intro i e; exact Nat.lt_of_lt_of_le (newObject_fresh _ _ e).2 (newObject_le _ _)
    · rw [newObject_old, newObject_behind]
      intro i e; exact (newObject_fresh _ _ e).2
    · rw [newObject_old _ _ (hv2 p), newObject_old _ _ (hv1 p), hold]

/-! ### Scripts -/

theorem careful_run : ∀ (cs : List (ScriptCall V)) {st : ScriptState V}, st.Valid →
    CarefulScript st cs → (scriptRun st cs).view = valueRun st.view cs
  | [], _, _, _ => rfl
  | c :: cs, st, hst, h => by
    have := careful_run cs (scriptStep_valid hst c) h.2
    rw [scriptRun, this, C149_call hst h.1]
    rfl

/-- C149: at the end of every careful script, every variable and attribute shows what it would show
if each held its own copy. -/
theorem C149_as_if_copied (cs : List (ScriptCall V)) (h : CarefulScript scriptStart cs) :
    (scriptRun scriptStart cs).view = valueRun (fun _ => none) cs :=
  careful_run cs scriptStart_valid h

theorem careful_of_no_changes : ∀ (cs : List (ScriptCall V)) (st : ScriptState V),
    (∀ c ∈ cs, ¬ Changes c) → CarefulScript st cs
  | [], _, _ => trivial
  | c :: cs, st, h => by
    refine ⟨?_, careful_of_no_changes cs _ fun c' hc' => h c' (List.mem_cons_of_mem _ hc')⟩
    have := h c List.mem_cons_self
    cases c <;> first | trivial | exact absurd trivial this

/-- C149: so it is for every script without changes of objects and without `downsample`. -/
theorem C149_no_changes (cs : List (ScriptCall V)) (h : ∀ c ∈ cs, ¬ Changes c) :
    (scriptRun scriptStart cs).view = valueRun (fun _ => none) cs :=
  C149_as_if_copied cs (careful_of_no_changes cs _ h)

/-! ### One's own places -/

/-- One's own places hold objects which are held nowhere else. -/
def OwnPlaces (own : Place → Prop) (st : ScriptState V) : Prop := ∀ p, own p → HeldOnlyAt st p

theorem heldOnly_symm {st : ScriptState V} {p q : Place} (h : HeldOnlyAt st p) (hq : q ≠ p)
    (e : st.env p = st.env q) : st.env q = none := by
  rw [← e]; exact h q hq e.symm

theorem follows_careful {own : Place → Prop} {st : ScriptState V} (ho : OwnPlaces own st)
    {c : ScriptCall V} (hc : Follows own c) : Careful st c := by
  cases c <;> first | trivial | exact ho _ hc | exact ⟨hc.1, ho _ hc.2⟩

/-- Assigning a reference to a new object, or one shared between places which are not one's own. -/
theorem own_assign {own : Place → Prop} {env : Place → Option ℕ} {heap heap' : List V}
    (ho : OwnPlaces own (⟨env, heap⟩ : ScriptState V)) (p : Place) (r : Option ℕ)
    (hr : ∀ q, q ≠ p → env q = r → r = none ∨ ¬ own p ∧ ¬ own q) :
    OwnPlaces own (⟨assignPlace env p r, heap'⟩ : ScriptState V) := by
  intro a ha q hq e
  simp only [assignPlace] at e ⊢
  by_cases hap : a = p
  · subst hap
    rw [if_neg hq, if_pos rfl] at e
    rw [if_pos rfl]
    rcases hr q hq e with h | h
    · exact h
    · exact absurd ha h.1
  · rw [if_neg hap] at e ⊢
    by_cases hqp : q = p
    · subst hqp
      rw [if_pos rfl] at e
      rcases hr a hap e.symm with h | h
      · rw [← e]; exact h
      · exact absurd ha h.2
    · rw [if_neg hqp] at e
      exact ho a ha q hq e

theorem bindSignal_det (env : Place → Option ℕ) (s : String) (d b m : Option ℕ) :
    bindSignal env s d b m (.det s) = d := by simp [bindSignal, assignPlace]

theorem bindSignal_bg (env : Place → Option ℕ) (s : String) (d b m : Option ℕ) :
    bindSignal env s d b m (.bg s) = b := by simp [bindSignal, assignPlace]

theorem bindSignal_xmap (env : Place → Option ℕ) (s : String) (d b m : Option ℕ) :
    bindSignal env s d b m (.xmap s) = m := by simp [bindSignal, assignPlace]

theorem bindSignal_other (env : Place → Option ℕ) {s : String} (d b m : Option ℕ) {p : Place}
    (h1 : p ≠ .det s) (h2 : p ≠ .bg s) (h3 : p ≠ .xmap s) : bindSignal env s d b m p = env p := by
  simp [bindSignal, assignPlace, h1, h2, h3]

theorem bindSignal_same (env : Place → Option ℕ) (s : String) (b : Option ℕ) :
    bindSignal env s (env (.det s)) b (env (.xmap s)) = assignPlace env (.bg s) b := by
  funext p
  simp only [bindSignal, assignPlace]
  split_ifs with h1 h2 h3 h4
  · rw [h1] at h2; cases h2
  · rw [h1]
  · rfl
  · rw [h4]
  · rfl

theorem assignPlace_same (env : Place → Option ℕ) (p : Place) : assignPlace env p (env p) = env := by
  funext q
  simp only [assignPlace]
  split_ifs with h
  · rw [h]
  · rfl

/-- A reference is none, or held only at places which are not one's own. -/
def Harmless (own : Place → Prop) (env : Place → Option ℕ) (p : Place) (r : Option ℕ) : Prop :=
  ∀ q, q ≠ p → env q = r → r = none ∨ ¬ own p ∧ ¬ own q

theorem harmless_none (own : Place → Prop) (env : Place → Option ℕ) (p : Place) :
    Harmless own env p none := fun _ _ _ => .inl rfl

theorem harmless_fresh (own : Place → Prop) {st : ScriptState V} (hst : st.Valid) (p : Place)
    {r : Option ℕ} (hr : ∀ i, r = some i → st.heap.length ≤ i) : Harmless own st.env p r := by
  intro q _ e
  cases r with
  | none => exact .inl rfl
  | some i => exact absurd (hst q i e) (Nat.not_lt.2 (hr i rfl))

theorem harmless_shared {own : Place → Prop} {st : ScriptState V} (ho : OwnPlaces own st) {p a : Place}
    (hp : ¬ own p) (ha : ¬ own a) : Harmless own st.env p (st.env a) := by
  intro q _ e
  by_cases hq : own q
  · have hne : a ≠ q := fun h => ha (h ▸ hq)
    exact .inl (e ▸ ho q hq a hne e.symm)
  · exact .inr ⟨hp, hq⟩

theorem own_bind {own : Place → Prop} {env : Place → Option ℕ} {heap heap' : List V}
    (ho : OwnPlaces own (⟨env, heap⟩ : ScriptState V)) {s : String} {d b m : Option ℕ}
    (hd : Harmless own env (.det s) d) (hb : Harmless own env (.bg s) b)
    (hm : Harmless own env (.xmap s) m)
    (hdb : d = b → d = none ∨ ¬ own (.det s) ∧ ¬ own (.bg s))
    (hdm : d = m → d = none ∨ ¬ own (.det s) ∧ ¬ own (.xmap s))
    (hbm : b = m → b = none ∨ ¬ own (.bg s) ∧ ¬ own (.xmap s)) :
    OwnPlaces own (⟨bindSignal env s d b m, heap'⟩ : ScriptState V) := by
  have key : ∀ p q : Place, p ≠ q → bindSignal env s d b m p = bindSignal env s d b m q →
      bindSignal env s d b m p = none ∨ ¬ own p := by
    intro p q hne e
    by_cases p1 : p = .det s
    · subst p1
      rw [bindSignal_det] at e ⊢
      by_cases q2 : q = .bg s
      · subst q2; rw [bindSignal_bg] at e; exact (hdb e).imp id And.left
      · by_cases q3 : q = .xmap s
        · subst q3; rw [bindSignal_xmap] at e; exact (hdm e).imp id And.left
        · rw [bindSignal_other env d b m hne.symm q2 q3] at e
          exact (hd q hne.symm e.symm).imp id And.left
    · by_cases p2 : p = .bg s
      · subst p2
        rw [bindSignal_bg] at e ⊢
        by_cases q1 : q = .det s
        · subst q1; rw [bindSignal_det] at e
          rcases hdb e.symm with h | h
          · exact .inl (e.trans h)
          · exact .inr h.2
        · by_cases q3 : q = .xmap s
          · subst q3; rw [bindSignal_xmap] at e; exact (hbm e).imp id And.left
          · rw [bindSignal_other env d b m q1 hne.symm q3] at e
            exact (hb q hne.symm e.symm).imp id And.left
      · by_cases p3 : p = .xmap s
        · subst p3
          rw [bindSignal_xmap] at e ⊢
          by_cases q1 : q = .det s
          · subst q1; rw [bindSignal_det] at e
            rcases hdm e.symm with h | h
            · exact .inl (e.trans h)
            · exact .inr h.2
          · by_cases q2 : q = .bg s
            · subst q2; rw [bindSignal_bg] at e
              rcases hbm e.symm with h | h
              · exact .inl (e.trans h)
              · exact .inr h.2
            · rw [bindSignal_other env d b m q1 q2 hne.symm] at e
              exact (hm q hne.symm e.symm).imp id And.left
        · rw [bindSignal_other env d b m p1 p2 p3] at e ⊢
          by_cases q1 : q = .det s
          · subst q1; rw [bindSignal_det] at e
            rcases hd p hne e with h | h
            · exact .inl (e.trans h)
            · exact .inr h.2
          · by_cases q2 : q = .bg s
            · subst q2; rw [bindSignal_bg] at e
              rcases hb p hne e with h | h
              · exact .inl (e.trans h)
              · exact .inr h.2
            · by_cases q3 : q = .xmap s
              · subst q3; rw [bindSignal_xmap] at e
                rcases hm p hne e with h | h
                · exact .inl (e.trans h)
                · exact .inr h.2
              · rw [bindSignal_other env d b m q1 q2 q3] at e
                by_cases hp : own p
                · exact .inl (ho p hp q hne.symm e.symm)
                · exact .inr hp
  intro a ha q hq e
  exact (key a q hq.symm e.symm).resolve_right fun h => h ha

theorem own_step {own : Place → Prop} {st : ScriptState V} (hst : st.Valid) (ho : OwnPlaces own st)
    {c : ScriptCall V} (hc : Follows own c) : OwnPlaces own (scriptStep st c) := by
  have hnew : ∀ (heap : List V) (w : Option V), st.heap.length ≤ heap.length →
      ∀ i, (newObject heap w).2 = some i → st.heap.length ≤ i := fun heap w h i e =>
    Nat.le_trans h (newObject_fresh _ _ e).1
  cases c with
  | create x v =>
    exact own_assign (heap := st.heap) ho _ _ (harmless_fresh own hst _ fun i e => by cases e; exact Nat.le_refl _)
  | share x p =>
    exact own_assign (heap := st.heap) ho _ _ (harmless_shared ho hc.1 hc.2)
  | compute x f =>
    exact own_assign (heap := st.heap) ho _ _ (harmless_fresh own hst _ fun i e => by cases e; exact Nat.le_refl _)
  | signal s d b m new =>
    obtain ⟨h1, h2, h3⟩ := hc
    have hopt : ∀ (p : Place) (y : Option String), (∀ x, y = some x → ¬ own (.var x) ∧ ¬ own p) →
        Harmless own st.env p (y.bind fun x => st.env (.var x)) := by
      intro p y hy
      cases y with
      | none => exact harmless_none _ _ _
      | some x => exact harmless_shared ho (hy x rfl).2 (hy x rfl).1
    have hbm : (b.bind fun x => st.env (.var x)) = (m.bind fun x => st.env (.var x)) →
        (b.bind fun x => st.env (.var x)) = none ∨ ¬ own (.bg s) ∧ ¬ own (.xmap s) := by
      intro e
      cases b with
      | none => exact .inl rfl
      | some x =>
        cases m with
        | none => exact .inl e
        | some y => exact .inr ⟨(h2 x rfl).2, (h3 y rfl).2⟩
    cases d with
    | some x =>
      refine own_bind (heap := st.heap) ho (harmless_shared ho (h1 x rfl).2 (h1 x rfl).1) (hopt _ b h2)
        (hopt _ m h3) ?_ ?_ hbm
      · intro e
        cases b with
        | none => exact .inl e
        | some y => exact .inr ⟨(h1 x rfl).2, (h2 y rfl).2⟩
      · intro e
        cases m with
        | none => exact .inl e
        | some y => exact .inr ⟨(h1 x rfl).2, (h3 y rfl).2⟩
    | none =>
      have hno : ∀ y : Option String, some st.heap.length ≠ y.bind fun x => st.env (.var x) := by
        intro y e
        cases y with
        | none => cases e
        | some x => exact absurd (hst (.var x) _ e.symm) (Nat.lt_irrefl _)
      exact own_bind (heap := st.heap) ho
        (harmless_fresh own hst _ fun i e => by cases e; exact Nat.le_refl _) (hopt _ b h2)
        (hopt _ m h3) (fun e => absurd e (hno b)) (fun e => absurd e (hno m)) hbm
  | simulate s d m =>
    refine own_bind (heap := st.heap) ho (harmless_shared ho hc.2 hc.1) (harmless_none _ _ _)
      (harmless_fresh own hst _ fun i e => by cases e; exact Nat.le_refl _) (fun e => .inl e) ?_
      (fun e => .inl rfl)
    intro e
    exact absurd (hst _ _ e) (Nat.lt_irrefl _)
  | setDet s x => exact own_assign (heap := st.heap) ho _ _ (harmless_shared ho hc.2 hc.1)
  | setBg s x => exact own_assign (heap := st.heap) ho _ _ (harmless_shared ho hc.2 hc.1)
  | setMap s x => exact own_assign (heap := st.heap) ho _ _ (harmless_shared ho hc.2 hc.1)
  | modify p f => exact ho
  | plain t s =>
    rcases hc with rfl | ⟨ht, hs⟩
    · have : scriptStep st (.plain t t) = st := by
        simp only [scriptStep, bindSignal_same, assignPlace_same]
      rw [this]; exact ho
    · exact own_bind (heap := st.heap) ho (harmless_shared ho ht.1 hs.1)
        (harmless_shared ho ht.2.1 hs.2.1) (harmless_shared ho ht.2.2 hs.2.2)
        (fun _ => .inr ⟨ht.1, ht.2.1⟩) (fun _ => .inr ⟨ht.1, ht.2.2⟩)
        (fun _ => .inr ⟨ht.2.1, ht.2.2⟩)
  | asLazy t s f =>
    have hb : Harmless own st.env (.bg t) (newObject st.heap ((st.view (.bg s)).map f)).2 :=
      harmless_fresh own hst _ (hnew _ _ (Nat.le_refl _))
    rcases hc with rfl | ⟨ht, hs⟩
    · simp only [scriptStep, bindSignal_same]
      exact own_assign (heap := st.heap) ho _ _ hb
    · exact own_bind (heap := st.heap) ho (harmless_shared ho ht.1 hs.1) hb
        (harmless_shared ho ht.2.2 hs.2.2)
        (fun _ => .inr ⟨ht.1, ht.2.1⟩) (fun _ => .inr ⟨ht.1, ht.2.2⟩)
        (fun _ => .inr ⟨ht.2.1, ht.2.2⟩)
  | downsample t s f g =>
    obtain ⟨rfl, -⟩ := hc
    simp only [scriptStep, bindSignal_same]
    exact own_assign (heap := st.heap) ho _ _
      (harmless_fresh own hst _ (hnew _ _ (by rw [changeAt_length]; exact Nat.le_refl _)))
  | downsampled s f g =>
    exact own_assign (heap := st.heap) ho _ _
      (harmless_fresh own hst _ (hnew _ _ (by rw [changeAt_length]; exact Nat.le_refl _)))
  | derive t s f g h =>
    have l1 := newObject_le st.heap ((st.view (.det s)).map f)
    have l2 := newObject_le (newObject st.heap ((st.view (.det s)).map f)).1 ((st.view (.bg s)).bind g)
    have hdiff : ∀ (a a' : List V) (w w' : Option V), (newObject a w).1.length ≤ a'.length →
        (newObject a w).2 = (newObject a' w').2 → (newObject a w).2 = none := by
      intro a a' w w' hl e
      cases hw : (newObject a w).2 with
      | none => rfl
      | some i =>
        have u1 := (newObject_fresh a w hw).2
        have u2 := (newObject_fresh a' w' (e ▸ hw)).1
        omega
    exact own_bind (heap := st.heap) ho (harmless_fresh own hst _ (hnew _ _ (Nat.le_refl _)))
      (harmless_fresh own hst _ (hnew _ _ l1))
      (harmless_fresh own hst _ (hnew _ _ (Nat.le_trans l1 l2)))
      (fun e => .inl (hdiff _ _ _ _ (Nat.le_refl _) e)) (fun e => .inl (hdiff _ _ _ _ l2 e))
      (fun e => .inl (hdiff _ _ _ _ (Nat.le_refl _) e))

theorem follows_run {own : Place → Prop} : ∀ (cs : List (ScriptCall V)) {st : ScriptState V}, st.Valid →
    OwnPlaces own st → (∀ c ∈ cs, Follows own c) → CarefulScript st cs
  | [], _, _, _, _ => trivial
  | c :: cs, _, hst, ho, h =>
    have hc := h c List.mem_cons_self
    ⟨follows_careful ho hc, follows_run cs (scriptStep_valid hst c) (own_step hst ho hc)
      fun c' hc' => h c' (List.mem_cons_of_mem _ hc')⟩

/-- C149: so it is for every script in which only objects at one's own places are changed and calls
which share objects do not involve these places, which can be checked by reading the script. -/
theorem C149_own_places (own : Place → Prop) (cs : List (ScriptCall V))
    (h : ∀ c ∈ cs, Follows own c) :
    (scriptRun scriptStart cs).view = valueRun (fun _ => none) cs :=
  C149_as_if_copied cs (follows_run cs scriptStart_valid (fun _ _ _ _ _ => rfl) h)

/-! ### Careless calls -/

/-- A call whose changes of a detector or other object are always seen. -/
def Spec.Effective : ScriptCall V → Prop
  | .modify _ f => ∀ v, f v ≠ v
  | .downsample _ _ f _ => ∀ v, f v ≠ v
  | .downsampled _ f _ => ∀ v, f v ≠ v
  | _ => True

/-- A signal which is downsampled has a detector. -/
def Spec.HasDetector (st : ScriptState V) : ScriptCall V → Prop
  | .downsample _ s _ _ => st.view (.det s) ≠ none
  | _ => True

theorem not_heldOnly {st : ScriptState V} (hst : st.Valid) {p : Place} (h : ¬ HeldOnlyAt st p) :
    ∃ q, q ≠ p ∧ st.env q = st.env p ∧ ∃ v, st.view p = some v := by
  unfold HeldOnlyAt at h
  push Not at h
  obtain ⟨q, hq, e, hn⟩ := h
  refine ⟨q, hq, e, ?_⟩
  cases hp : st.env p with
  | none => exact absurd hp hn
  | some i => exact ⟨st.heap[i]'(hst _ _ hp), by simp [ScriptState.view, hp, hst _ _ hp]⟩

/-- C149 (limit): care is needed: after a call which is not careful, something shows another content
than if there were only values. -/
theorem C149_careless_violated {st : ScriptState V} {cs : List (ScriptCall V)}
    (hcs : st = scriptRun scriptStart cs) {c : ScriptCall V} (hc : ¬ Careful st c) (he : Effective c)
    (hd : HasDetector st c)
    (hkind : ∀ s, st.env (.bg s) = st.env (.det s) → st.env (.det s) = none) :
    (scriptStep st c).view ≠ callOnValues st.view c := by
  have hst : st.Valid := hcs ▸ scriptRun_valid cs scriptStart_valid
  have hchg : ∀ (p : Place) (f : V → V) (w : Option V) (q : Place), st.env q = st.env p →
      behind (newObject (changeAt st p f) w).1 (st.env q) = (st.view q).map f := by
    intro p f w q e
    rw [e, changed_new hst, view_eq, view_eq, e]
  cases c with
  | modify p f =>
    obtain ⟨q, hq, e, v, hv⟩ := not_heldOnly hst hc
    intro h
    have h := congrFun h q
    have hvq : st.view q = some v := by rw [view_eq, e]; exact hv
    have h1 : (scriptStep st (.modify p f)).view q = (st.view q).map f := hchg p f none q e
    have h2 : callOnValues st.view (.modify p f) q = st.view q := if_neg hq
    rw [h1, h2, hvq] at h
    exact he v (Option.some.inj h)
  | downsampled s f g =>
    obtain ⟨q, hq, e, v, hv⟩ := not_heldOnly hst hc
    intro h
    have h := congrFun h q
    have hvq : st.view q = some v := by rw [view_eq, e]; exact hv
    have hb : q ≠ .bg s := by
      rintro rfl
      have := hkind s e
      rw [view_eq, this] at hv
      cases hv
    have h1 : (scriptStep st (.downsampled s f g)).view q = (st.view q).map f := by
      change behind (newObject (changeAt st (.det s) f) _).1 (assignPlace st.env (.bg s) _ q) = _
      rw [assignPlace, if_neg hb, hchg _ _ _ _ e]
    have h2 : callOnValues st.view (.downsampled s f g) q = st.view q := by
      cases q with
      | var x => rfl
      | det x => simp only [ne_eq, Place.det.injEq] at hq; simp [callOnValues, withSignal, hq]
      | bg x => simp only [ne_eq, Place.bg.injEq] at hb; simp [callOnValues, withSignal, hb]
      | xmap x =>
        simp only [callOnValues, withSignal]
        split_ifs with hx
        · rw [hx]
        · rfl
    rw [h1, h2, hvq] at h
    exact he v (Option.some.inj h)
  | downsample t s f g =>
    by_cases hts : t = s
    · subst hts
      have hc : ¬ HeldOnlyAt st (.det t) := fun h => hc ⟨rfl, h⟩
      obtain ⟨q, hq, e, v, hv⟩ := not_heldOnly hst hc
      intro h
      have h := congrFun h q
      have hvq : st.view q = some v := by rw [view_eq, e]; exact hv
      have hb : q ≠ .bg t := by
        rintro rfl
        have := hkind t e
        rw [view_eq, this] at hv
        cases hv
      have h1 : (scriptStep st (.downsample t t f g)).view q = (st.view q).map f := by
        change behind (newObject (changeAt st (.det t) f) _).1
          (bindSignal st.env t (st.env (.det t)) _ (st.env (.xmap t)) q) = _
        rw [bindSignal_same, assignPlace, if_neg hb, hchg _ _ _ _ e]
      have h2 : callOnValues st.view (.downsample t t f g) q = st.view q := by
        cases q with
        | var x => rfl
        | det x => simp only [ne_eq, Place.det.injEq] at hq; simp [callOnValues, withSignal, hq]
        | bg x => simp only [ne_eq, Place.bg.injEq] at hb; simp [callOnValues, withSignal, hb]
        | xmap x =>
          simp only [callOnValues, withSignal]
          split_ifs with hx
          · rw [hx]
          · rfl
      rw [h1, h2, hvq] at h
      exact he v (Option.some.inj h)
    · intro h
      have h := congrFun h (.det s)
      have h1 : (scriptStep st (.downsample t s f g)).view (.det s) = (st.view (.det s)).map f := by
        have ho := bindSignal_other st.env (s := t) (p := .det s) (st.env (.det s))
          (newObject (changeAt st (.det s) f) ((st.view (.bg s)).map g)).2 (st.env (.xmap s))
          (by simpa using fun e : s = t => hts e.symm) (by simp) (by simp)
        change behind (newObject (changeAt st (.det s) f) ((st.view (.bg s)).map g)).1
          (bindSignal st.env t (st.env (.det s)) (newObject (changeAt st (.det s) f)
            ((st.view (.bg s)).map g)).2 (st.env (.xmap s)) (.det s)) = _
        rw [ho, hchg _ _ _ _ rfl]
      have h2 : callOnValues st.view (.downsample t s f g) (.det s) = st.view (.det s) := by
        simp only [callOnValues, withSignal]
        exact if_neg fun e => hts e.symm
      rw [h1, h2] at h
      cases hv : st.view (.det s) with
      | none => exact hd hv
      | some v =>
        rw [hv] at h
        exact he v (Option.some.inj h)
  | _ => exact fun _ => hc trivial

/-! ### Examples -/

/-- Detectors as binning factors. A detector is used for a simulation and for a signal, which are then
processed; the signal gets a deep copy, which is downsampled twice. -/
def demoScript : List (ScriptCall ℕ) :=
  [.create "det" 1, .create "xmap" 7, .simulate "sim" "det" 8, .signal "s" (some "det") none (some "xmap") 0,
   .plain "s2" "s", .derive "own" "s2" id some some, .downsampled "own" (2 * ·) id,
   .downsample "own" "own" (2 * ·) id, .compute "det2" (fun σ => (σ (.var "det")).getD 0 + 1),
   .modify (.var "det2") (5 * ·)]

/-- The places of the signal `own` and of the second detector. -/
def demoOwn : Place → Prop := fun p => p = .det "own" ∨ p = .bg "own" ∨ p = .xmap "own" ∨ p = .var "det2"

example : ∀ c ∈ demoScript, Follows demoOwn c := by
  simp [demoScript, Follows, demoOwn, Outside]

example : (scriptRun scriptStart demoScript).view (.det "own") = some 4 ∧
    (scriptRun scriptStart demoScript).view (.det "s") = some 1 ∧
    (scriptRun scriptStart demoScript).view (.det "sim") = some 1 ∧
    (scriptRun scriptStart demoScript).view (.var "det2") = some 10 := by decide

/-- The same detector used for two signals, one of which is downsampled: the other has its detector
changed. -/
example : (scriptRun scriptStart [.create "det" 1, .simulate "a" "det" 7, .simulate "b" "det" 8,
      .downsampled "a" (2 * ·) id]).view (.det "b") = some 2 ∧
    valueRun (fun _ => none) [.create "det" 1, .simulate "a" "det" 7, .simulate "b" "det" 8,
      .downsampled "a" (2 * ·) id] (.det "b") = some 1 := by decide

/-- The state before the careless call. -/
example : let st : ScriptState ℕ := scriptRun scriptStart [.create "det" 1, .simulate "a" "det" 7,
      .simulate "b" "det" 8]
    ¬ Careful st (.downsampled "a" (2 * · + 1) id) ∧
    Effective (.downsampled "a" (2 * · + 1) id : ScriptCall ℕ) := by
  refine ⟨?_, ?_⟩
  · intro h
    have := h (.det "b") (by decide) (by decide)
    revert this
    decide
  · intro v
    simp only
    omega

end Kp
