import Verif.Model.DetectorAttributes
import Mathlib.Data.Rat.Floor
import Mathlib.Tactic.Linarith

/-!
C102: assigning to the attributes of a detector.
-/

namespace Kp

/-! ### Specification -/

/-- `n` is `q` without what is behind the decimal point. -/
def Spec.Truncated (q : ℚ) (n : ℤ) : Prop :=
  (0 ≤ q ∧ (n : ℚ) ≤ q ∧ q < n + 1) ∨ (q < 0 ∧ q ≤ n ∧ (n : ℚ) < q + 1)

/-- An array has as many values as its shape says. -/
def Spec.IsArray (a : NdFloats) : Prop := a.data.length = a.shape.prod

/-- The value of a listener, who keeps the last value told about one attribute. -/
def Spec.lastTold {α : Type} (f : Emission → Option α) (told : List Emission) : Option α :=
  (told.filterMap f).getLast?

/-- A listener who has been told of an attribute knows its value. -/
def Spec.UpToDate (o : Observed) : Prop :=
  (∀ v, Spec.lastTold (fun | .tilt v => some v | _ => none) o.told = some v → v = o.det.tilt) ∧
  (∀ v, Spec.lastTold (fun | .azimuthal v => some v | _ => none) o.told = some v →
    v = o.det.azimuthal) ∧
  (∀ v, Spec.lastTold (fun | .twist v => some v | _ => none) o.told = some v → v = o.det.twist) ∧
  (∀ v, Spec.lastTold (fun | .sampleTilt v => some v | _ => none) o.told = some v →
    v = o.det.sampleTilt) ∧
  (∀ v, Spec.lastTold (fun | .pc v => some v | _ => none) o.told = some v → v = o.det.pc)

/-- The projection centers are an array of at least two dimensions. -/
def Spec.WellShaped (d : DetectorState) : Prop := Spec.IsArray d.pc ∧ 2 ≤ d.pc.shape.length

/-- Arrays in an event are arrays. -/
def Spec.ArraysGiven : DetectorEvent → Prop
  | .assign (.pc (some a)) => Spec.IsArray a
  | .assign (.coordinate _ (some a)) => Spec.IsArray a
  | _ => True

/-! ### Shape -/

theorem pyInt_truncated (q : ℚ) : Spec.Truncated q (pyInt q) := by
  unfold Spec.Truncated pyInt
  by_cases h : 0 ≤ q
  · rw [if_pos h]
    exact Or.inl ⟨h, Int.floor_le q, Int.lt_floor_add_one q⟩
  · rw [if_neg h]
    exact Or.inr ⟨not_le.1 h, Int.le_ceil q, Int.ceil_lt_add_one q⟩

/-- **C102** (partial): a shape is accepted exactly if it has two real numbers, and these are
truncated. -/
theorem C102_shape_partial (d : DetectorState) (v : ShapeValue) :
    (∀ d' e, d.assign (.shape v) = .ok (d', e) → ∃ a b, v = .items [.real a, .real b] ∧
      Spec.Truncated a d'.shape.1 ∧ Spec.Truncated b d'.shape.2 ∧
      d' = { d with shape := d'.shape }) ∧
    (∀ a b, v = .items [.real a, .real b] → ∃ d' e, d.assign (.shape v) = .ok (d', e)) := by
  constructor
  · intro d' e h
    unfold DetectorState.assign at h
    simp only [bind, Except.bind] at h
    cases hp : parseShape v with
    | error e => rw [hp] at h; simp at h
    | ok s =>
      rw [hp] at h
      simp only [pure, Except.pure, Except.ok.injEq, Prod.mk.injEq] at h
      obtain ⟨rfl, rfl⟩ := h
      cases v with
      | notIterable => simp [parseShape] at hp
      | noLen => simp [parseShape] at hp
      | items l =>
        unfold parseShape at hp
        simp only at hp
        by_cases hl : l.length ≠ 2 ∨ AttrValue.other ∈ l
        · rw [if_pos hl] at hp; simp at hp
        · rw [if_neg hl] at hp
          match l, hp with
          | [.real a, .real b], hp =>
            simp only [Except.ok.injEq] at hp
            subst hp
            exact ⟨a, b, rfl, pyInt_truncated a, pyInt_truncated b, rfl⟩
  · rintro a b rfl
    refine ⟨{ d with shape := (pyInt a, pyInt b) }, [], ?_⟩
    rfl

/-- **C102** (violated): a shape must be two integers, but numbers which are not, zero and negative
ones are accepted. -/
theorem C102_shape_violated (d : DetectorState) :
    d.assign (.shape (.items [.real (27 / 10), .real 0])) = .ok ({ d with shape := (2, 0) }, []) ∧
    d.assign (.shape (.items [.real (-1), .real (-5)])) = .ok ({ d with shape := (-1, -5) }, []) := by
  have h1 : pyInt (27 / 10) = 2 := by decide +kernel
  have h2 : pyInt 0 = 0 := by decide +kernel
  have h3 : pyInt (-1) = -1 := by decide +kernel
  have h4 : pyInt (-5) = -5 := by decide +kernel
  unfold DetectorState.assign parseShape
  simp [h1, h2, h3, h4, bind, Except.bind, pure, Except.pure]

/-- **C102** (violated): a binning which is not an integer is accepted: `binning` returns another
value than the one used in the height of the detector. -/
theorem C102_binning_violated (d : DetectorState) :
    ∃ d' e, d.assign (.binning (.real (3 / 2))) = .ok (d', e) ∧ d'.binningInt = 1 ∧
      d'.heightMicrons = d'.shape.1 * d'.pxSize * (3 / 2) := by
  refine ⟨{ d with binning := 3 / 2 }, [], rfl, ?_, rfl⟩
  have h : pyInt (3 / 2) = 1 := by decide +kernel
  exact h

/-! ### Numbers -/

/-- **C102**: a number is stored and every other attribute is left; what is not a real number is
refused. -/
theorem C102_numbers (d : DetectorState) (v : AttrValue) :
    (∀ q, v = .real q →
      d.assign (.sampleTilt v) = .ok ({ d with sampleTilt := q }, [.sampleTilt q]) ∧
      d.assign (.tilt v) = .ok ({ d with tilt := q }, [.tilt q]) ∧
      d.assign (.azimuthal v) = .ok ({ d with azimuthal := q }, [.azimuthal q]) ∧
      d.assign (.twist v) = .ok ({ d with twist := q }, [.twist q]) ∧
      d.assign (.pxSize v) = .ok ({ d with pxSize := q }, []) ∧
      d.assign (.binning v) = .ok ({ d with binning := q }, [])) ∧
    ((∀ q, v ≠ .real q) → ∃ e, d.assign (.sampleTilt v) = .error e ∧ d.assign (.tilt v) = .error e ∧
      d.assign (.azimuthal v) = .error e ∧ d.assign (.twist v) = .error e ∧
      d.assign (.pxSize v) = .error e ∧ d.assign (.binning v) = .error e) := by
  constructor
  · rintro q rfl
    exact ⟨rfl, rfl, rfl, rfl, rfl, rfl⟩
  · intro h
    cases v with
    | real q => exact absurd rfl (h q)
    | complex a b => exact ⟨.typeError, rfl, rfl, rfl, rfl, rfl, rfl⟩
    | other => exact ⟨.valueError, rfl, rfl, rfl, rfl, rfl, rfl⟩

/-! ### Projection centers -/

theorem atleast2d_isArray {a : NdFloats} (h : Spec.IsArray a) :
    Spec.IsArray a.atleast2d ∧ 2 ≤ a.atleast2d.shape.length := by
  obtain ⟨s, l⟩ := a
  unfold Spec.IsArray at *
  match s, h with
  | [], h => simpa [NdFloats.atleast2d] using h
  | [n], h => simpa [NdFloats.atleast2d] using h
  | a :: b :: s, h => exact ⟨h, by simp [NdFloats.atleast2d]⟩

theorem resolveShape_prod {size : ℕ} {dims : List ℤ} {s : List ℕ}
    (h : resolveShape size dims = .ok s) : s.prod = size ∧ s.length = dims.length := by
  unfold resolveShape at h
  simp only at h
  have hsplit : ∀ (l : List ℤ) (u : ℕ),
      (l.map fun d => if d < 0 then u else d.toNat).prod =
        u ^ (l.filter (· < 0)).length * ((l.filter (0 ≤ ·)).map Int.toNat).prod := by
    intro l u
    induction l with
    | nil => simp
    | cons a l ih =>
      by_cases ha : a < 0
      · have : ¬ 0 ≤ a := not_le.2 ha
        simp [ha, this, ih, pow_succ]
        ring
      · have : 0 ≤ a := not_lt.1 ha
        simp [ha, this, ih]
        ring
  by_cases h0 : (dims.filter (· < 0)).length = 0
  · rw [if_pos h0] at h
    by_cases h1 : ((dims.filter (0 ≤ ·)).map Int.toNat).prod = size
    · rw [if_pos h1, Except.ok.injEq] at h
      subst h
      refine ⟨?_, by simp⟩
      have h2 := hsplit dims 0
      rw [h0, pow_zero, one_mul, h1] at h2
      rw [← h2]
      congr 1
      apply List.map_congr_left
      intro a ha
      rw [List.length_eq_zero_iff, List.filter_eq_nil_iff] at h0
      have := h0 a ha
      rw [if_neg (by simpa using this)]
    · rw [if_neg h1] at h; simp at h
  · rw [if_neg h0] at h
    by_cases h1 : (dims.filter (· < 0)).length = 1
    · rw [if_pos h1] at h
      split at h
      · rename_i h2
        rw [Except.ok.injEq] at h
        subst h
        refine ⟨?_, by simp⟩
        rw [hsplit, h1, pow_one]
        exact Nat.div_mul_cancel (Nat.dvd_of_mod_eq_zero h2.2)
      · simp at h
    · rw [if_neg h1] at h; simp at h

theorem setCoordinate_shape {pc v a : NdFloats} {i : ℕ} (h : setCoordinate pc i v = .ok a) :
    a.shape = pc.shape ∧ a.data.length = pc.data.length := by
  unfold setCoordinate at h
  simp only at h
  split at h
  · simp at h
  · split at h
    · simp at h
    · split at h
      · rw [Except.ok.injEq] at h
        subst h
        exact ⟨rfl, by simp⟩
      · simp at h

theorem assign_wellShaped {d d' : DetectorState} {a : Assignment} {e : List Emission}
    (hd : Spec.WellShaped d) (ha : Spec.ArraysGiven (.assign a)) (h : d.assign a = .ok (d', e)) :
    Spec.WellShaped d' := by
  cases a with
  | sampleTilt v =>
    cases v <;> simp [DetectorState.assign, numberOrRaise, bind, Except.bind, pure, Except.pure] at h
    obtain ⟨rfl, -⟩ := h; exact hd
  | tilt v =>
    cases v <;> simp [DetectorState.assign, numberOrRaise, bind, Except.bind, pure, Except.pure] at h
    obtain ⟨rfl, -⟩ := h; exact hd
  | azimuthal v =>
    cases v <;> simp [DetectorState.assign, numberOrRaise, bind, Except.bind, pure, Except.pure] at h
    obtain ⟨rfl, -⟩ := h; exact hd
  | twist v =>
    cases v <;> simp [DetectorState.assign, numberOrRaise, bind, Except.bind, pure, Except.pure] at h
    obtain ⟨rfl, -⟩ := h; exact hd
  | pxSize v =>
    cases v <;> simp [DetectorState.assign, numberOrRaise, bind, Except.bind, pure, Except.pure] at h
    obtain ⟨rfl, -⟩ := h; exact hd
  | binning v =>
    cases v <;> simp [DetectorState.assign, numberOrRaise, bind, Except.bind, pure, Except.pure] at h
    obtain ⟨rfl, -⟩ := h; exact hd
  | shape v =>
    unfold DetectorState.assign at h
    cases hp : parseShape v with
    | error e => simp [hp, bind, Except.bind] at h
    | ok s =>
      simp [hp, bind, Except.bind, pure, Except.pure] at h
      obtain ⟨rfl, -⟩ := h; exact hd
  | pc v =>
    cases v with
    | none => simp [DetectorState.assign] at h
    | some a =>
      simp only [DetectorState.assign, Except.ok.injEq, Prod.mk.injEq] at h
      obtain ⟨rfl, -⟩ := h
      exact atleast2d_isArray ha
  | coordinate i v =>
    cases v with
    | none => simp [DetectorState.assign] at h
    | some a =>
      unfold DetectorState.assign at h
      cases hp : setCoordinate d.pc i a.atleast2d with
      | error e => simp [hp, bind, Except.bind] at h
      | ok s =>
        simp [hp, bind, Except.bind, pure, Except.pure] at h
        obtain ⟨rfl, -⟩ := h
        obtain ⟨h1, h2⟩ := setCoordinate_shape hp
        unfold Spec.WellShaped Spec.IsArray at *
        rw [h1, h2]
        exact hd
  | navigationShape v =>
    cases v with
    | notTuple n =>
      unfold DetectorState.assign at h
      simp only at h
      split at h <;> simp at h
    | tuple dims =>
      unfold DetectorState.assign at h
      simp only at h
      split at h
      · simp at h
      · cases hp : resolveShape d.pc.data.length (dims ++ [3]) with
        | error e => simp [hp, bind, Except.bind] at h
        | ok s =>
          simp [hp, bind, Except.bind, pure, Except.pure] at h
          obtain ⟨rfl, -⟩ := h
          exact atleast2d_isArray (a := ⟨s, d.pc.data⟩) (resolveShape_prod hp).1.symm

/-- **C102**: whatever is assigned, in whatever order, with or without errors, the projection
centers are an array of at least two dimensions. -/
theorem C102_history (o : Observed) (events : List DetectorEvent) (ho : Spec.WellShaped o.det)
    (he : ∀ e ∈ events, Spec.ArraysGiven e) : Spec.WellShaped (o.after events).det := by
  induction events generalizing o with
  | nil => exact ho
  | cons e es ih =>
    unfold Observed.after
    rw [List.foldl_cons]
    refine ih _ ?_ fun e' h' => he e' (List.mem_cons_of_mem _ h')
    have h1 := he e List.mem_cons_self
    cases e with
    | assign a =>
      rw [Observed.step]
      cases h : o.det.assign a with
      | error e => exact ho
      | ok r => exact assign_wellShaped ho h1 h
    | inPlace j v =>
      unfold Observed.step Spec.WellShaped Spec.IsArray at *
      simpa using ho

theorem lastTold_append {α : Type} (f : Emission → Option α) (l e : List Emission) :
    Spec.lastTold f (l ++ e) = (Spec.lastTold f e).or (Spec.lastTold f l) := by
  simp [Spec.lastTold, List.filterMap_append, List.getLast?_append]

theorem assign_upToDate {d d' : DetectorState} {a : Assignment} {e told : List Emission}
    (hd : Spec.UpToDate ⟨d, told⟩) (h : d.assign a = .ok (d', e)) :
    Spec.UpToDate ⟨d', told ++ e⟩ := by
  unfold Spec.UpToDate at hd ⊢
  simp only [lastTold_append] at hd ⊢
  obtain ⟨h1, h2, h3, h4, h5⟩ := hd
  cases a with
  | sampleTilt v =>
    cases v <;> simp [DetectorState.assign, numberOrRaise, bind, Except.bind, pure, Except.pure] at h
    obtain ⟨rfl, rfl⟩ := h
    simp [Spec.lastTold] at *
    exact ⟨h1, h2, h3, h5⟩
  | tilt v =>
    cases v <;> simp [DetectorState.assign, numberOrRaise, bind, Except.bind, pure, Except.pure] at h
    obtain ⟨rfl, rfl⟩ := h
    simp [Spec.lastTold] at *
    exact ⟨h2, h3, h4, h5⟩
  | azimuthal v =>
    cases v <;> simp [DetectorState.assign, numberOrRaise, bind, Except.bind, pure, Except.pure] at h
    obtain ⟨rfl, rfl⟩ := h
    simp [Spec.lastTold] at *
    exact ⟨h1, h3, h4, h5⟩
  | twist v =>
    cases v <;> simp [DetectorState.assign, numberOrRaise, bind, Except.bind, pure, Except.pure] at h
    obtain ⟨rfl, rfl⟩ := h
    simp [Spec.lastTold] at *
    exact ⟨h1, h2, h4, h5⟩
  | pxSize v =>
    cases v <;> simp [DetectorState.assign, numberOrRaise, bind, Except.bind, pure, Except.pure] at h
    obtain ⟨rfl, rfl⟩ := h
    simp [Spec.lastTold] at *
    exact ⟨h1, h2, h3, h4, h5⟩
  | binning v =>
    cases v <;> simp [DetectorState.assign, numberOrRaise, bind, Except.bind, pure, Except.pure] at h
    obtain ⟨rfl, rfl⟩ := h
    simp [Spec.lastTold] at *
    exact ⟨h1, h2, h3, h4, h5⟩
  | shape v =>
    unfold DetectorState.assign at h
    cases hp : parseShape v with
    | error e => simp [hp, bind, Except.bind] at h
    | ok s =>
      simp [hp, bind, Except.bind, pure, Except.pure] at h
      obtain ⟨rfl, rfl⟩ := h
      simp [Spec.lastTold] at *
      exact ⟨h1, h2, h3, h4, h5⟩
  | pc v =>
    cases v with
    | none => simp [DetectorState.assign] at h
    | some a =>
      simp only [DetectorState.assign, Except.ok.injEq, Prod.mk.injEq] at h
      obtain ⟨rfl, rfl⟩ := h
      simp [Spec.lastTold] at *
      exact ⟨h1, h2, h3, h4⟩
  | coordinate i v =>
    cases v with
    | none => simp [DetectorState.assign] at h
    | some a =>
      unfold DetectorState.assign at h
      cases hp : setCoordinate d.pc i a.atleast2d with
      | error e => simp [hp, bind, Except.bind] at h
      | ok s =>
        simp [hp, bind, Except.bind, pure, Except.pure] at h
        obtain ⟨rfl, rfl⟩ := h
        simp [Spec.lastTold] at *
        exact ⟨h1, h2, h3, h4⟩
  | navigationShape v =>
    cases v with
    | notTuple n =>
      unfold DetectorState.assign at h
      simp only at h
      split at h <;> simp at h
    | tuple dims =>
      unfold DetectorState.assign at h
      simp only at h
      split at h
      · simp at h
      · cases hp : resolveShape d.pc.data.length (dims ++ [3]) with
        | error e => simp [hp, bind, Except.bind] at h
        | ok s =>
          simp [hp, bind, Except.bind, pure, Except.pure] at h
          obtain ⟨rfl, rfl⟩ := h
          simp [Spec.lastTold] at *
          exact ⟨h1, h2, h3, h4⟩

/-- **C102** (partial): whatever is assigned, in whatever order, with or without errors, a listener
knows the current value of every angle and of the projection centers it has been told of. Changes
within the array of projection centers are left out, see `C102_in_place_violated`. -/
theorem C102_listeners_partial (o : Observed) (assignments : List Assignment)
    (ho : Spec.UpToDate o) : Spec.UpToDate (o.after (assignments.map .assign)) := by
  induction assignments generalizing o with
  | nil => exact ho
  | cons a as ih =>
    unfold Observed.after
    rw [List.map_cons, List.foldl_cons]
    apply ih
    unfold Observed.step
    simp only
    cases h : o.det.assign a with
    | error e => exact ho
    | ok r => exact assign_upToDate ho h

/-- **C102**: an angle or projection center that is assigned is told to listeners. -/
theorem C102_told (o : Observed) (a : Assignment) (d : DetectorState) (e : List Emission)
    (h : o.det.assign a = .ok (d, e)) :
    (d.tilt ≠ o.det.tilt → .tilt d.tilt ∈ e) ∧
    (d.azimuthal ≠ o.det.azimuthal → .azimuthal d.azimuthal ∈ e) ∧
    (d.twist ≠ o.det.twist → .twist d.twist ∈ e) ∧
    (d.sampleTilt ≠ o.det.sampleTilt → .sampleTilt d.sampleTilt ∈ e) ∧
    (d.pc ≠ o.det.pc → .pc d.pc ∈ e) := by
  cases a with
  | sampleTilt v =>
    cases v <;> simp [DetectorState.assign, numberOrRaise, bind, Except.bind, pure, Except.pure] at h
    obtain ⟨rfl, rfl⟩ := h
    simp
  | tilt v =>
    cases v <;> simp [DetectorState.assign, numberOrRaise, bind, Except.bind, pure, Except.pure] at h
    obtain ⟨rfl, rfl⟩ := h
    simp
  | azimuthal v =>
    cases v <;> simp [DetectorState.assign, numberOrRaise, bind, Except.bind, pure, Except.pure] at h
    obtain ⟨rfl, rfl⟩ := h
    simp
  | twist v =>
    cases v <;> simp [DetectorState.assign, numberOrRaise, bind, Except.bind, pure, Except.pure] at h
    obtain ⟨rfl, rfl⟩ := h
    simp
  | pxSize v =>
    cases v <;> simp [DetectorState.assign, numberOrRaise, bind, Except.bind, pure, Except.pure] at h
    obtain ⟨rfl, rfl⟩ := h
    simp
  | binning v =>
    cases v <;> simp [DetectorState.assign, numberOrRaise, bind, Except.bind, pure, Except.pure] at h
    obtain ⟨rfl, rfl⟩ := h
    simp
  | shape v =>
    unfold DetectorState.assign at h
    cases hp : parseShape v with
    | error e => simp [hp, bind, Except.bind] at h
    | ok s =>
      simp [hp, bind, Except.bind, pure, Except.pure] at h
      obtain ⟨rfl, rfl⟩ := h
      simp
  | pc v =>
    cases v with
    | none => simp [DetectorState.assign] at h
    | some a =>
      simp only [DetectorState.assign, Except.ok.injEq, Prod.mk.injEq] at h
      obtain ⟨rfl, rfl⟩ := h
      simp
  | coordinate i v =>
    cases v with
    | none => simp [DetectorState.assign] at h
    | some a =>
      unfold DetectorState.assign at h
      cases hp : setCoordinate o.det.pc i a.atleast2d with
      | error e => simp [hp, bind, Except.bind] at h
      | ok s =>
        simp [hp, bind, Except.bind, pure, Except.pure] at h
        obtain ⟨rfl, rfl⟩ := h
        simp
  | navigationShape v =>
    cases v with
    | notTuple n =>
      unfold DetectorState.assign at h
      simp only at h
      split at h <;> simp at h
    | tuple dims =>
      unfold DetectorState.assign at h
      simp only at h
      split at h
      · simp at h
      · cases hp : resolveShape o.det.pc.data.length (dims ++ [3]) with
        | error e => simp [hp, bind, Except.bind] at h
        | ok s =>
          simp [hp, bind, Except.bind, pure, Except.pure] at h
          obtain ⟨rfl, rfl⟩ := h
          simp

/-! ### Coordinates -/

theorem broadcastIndex_self (s : List ℕ) : ∀ i, i < s.prod → broadcastIndex s s i = i := by
  induction s with
  | nil => intro i hi; simp at hi; subst hi; rfl
  | cons a s ih =>
    intro i hi
    rw [List.prod_cons] at hi
    have hs : 0 < s.prod := by
      rcases Nat.eq_zero_or_pos s.prod with h | h
      · rw [h] at hi; simp at hi
      · exact h
    rw [broadcastIndex, ih _ (Nat.mod_lt _ hs)]
    have : (if a = 1 then 0 else i / s.prod) = i / s.prod := by
      by_cases ha : a = 1
      · rw [if_pos ha, Nat.div_eq_of_lt]
        rw [ha, one_mul] at hi
        exact hi
      · rw [if_neg ha]
    rw [this]
    exact Nat.div_add_mod' i s.prod

theorem broadcastIndex_ones (t : List ℕ) : ∀ i, broadcastIndex t (List.replicate t.length 1) i = 0 := by
  induction t with
  | nil => intro i; rfl
  | cons a t ih =>
    intro i
    rw [List.length_cons, List.replicate_succ, broadcastIndex, if_pos rfl, ih]
    simp

theorem shape_eq {s : List ℕ} (h : 2 ≤ s.length) : s = s.dropLast ++ [s.getLast?.getD 0] := by
  have hne : s ≠ [] := by rintro rfl; simp at h
  rw [List.getLast?_eq_getLast_of_ne_nil hne, Option.getD_some, List.dropLast_append_getLast]

/-- Setting a coordinate to values which fit. -/
theorem coordinate_set (d : DetectorState) (hd : Spec.WellShaped d) (i : Fin 3)
    (h3 : d.pc.shape.getLast? = some 3) (v s : NdFloats) (al : List ℕ)
    (hs : setCoordinate d.pc i v = .ok s)
    (hal : alignShape d.navigationShape.length v.shape = some al) :
    ({ d with pc := s } : DetectorState).coordinate i = .ok
      ((List.range d.navigationShape.prod).map fun j =>
        v.data.getD (broadcastIndex d.navigationShape al j) 0) ∧
    ∀ k : Fin 3, k ≠ i → ({ d with pc := s } : DetectorState).coordinate k = d.coordinate k := by
  obtain ⟨hd1, hd2⟩ := hd
  have hlen : d.pc.data.length = d.pc.shape.dropLast.prod * 3 := by
    have e1 := shape_eq hd2
    rw [h3, Option.getD_some] at e1
    unfold Spec.IsArray at hd1
    rw [hd1, e1]
    simp
  unfold setCoordinate at hs
  unfold DetectorState.navigationShape at hal
  simp only [h3, Option.getD_some, hal] at hs
  rw [if_neg (by have := i.2; omega)] at hs
  split at hs
  · rw [Except.ok.injEq] at hs
    subst hs
    constructor
    · unfold DetectorState.coordinate DetectorState.navigationShape
      simp only [h3, Option.getD_some]
      rw [if_pos i.2]
      congr 1
      apply List.map_congr_left
      intro j hj
      rw [List.mem_range] at hj
      have hi := i.2
      have hlt : j * 3 + (i : ℕ) < d.pc.data.length := by rw [hlen]; omega
      rw [List.getD_eq_getElem?_getD, List.getElem?_map, List.getElem?_range hlt, Option.map_some,
        Option.getD_some]
      have e1 : (j * 3 + (i : ℕ)) % 3 = i := by omega
      have e2 : (j * 3 + (i : ℕ)) / 3 = j := by omega
      rw [if_pos e1, e2]
    · intro k hk
      unfold DetectorState.coordinate DetectorState.navigationShape
      simp only [h3, Option.getD_some]
      rw [if_pos k.2, if_pos k.2]
      congr 1
      apply List.map_congr_left
      intro j hj
      rw [List.mem_range] at hj
      have hk2 := k.2
      have hlt : j * 3 + (k : ℕ) < d.pc.data.length := by rw [hlen]; omega
      rw [List.getD_eq_getElem?_getD, List.getElem?_map, List.getElem?_range hlt, Option.map_some,
        Option.getD_some]
      have e1 : (j * 3 + (k : ℕ)) % 3 = k := by omega
      rw [if_neg]
      rw [e1]
      intro hc
      exact hk (Fin.ext hc)
  · simp at hs

theorem align_self {nav : List ℕ} (h : 1 ≤ nav.length) (l : List ℚ) :
    alignShape nav.length (NdFloats.atleast2d ⟨nav, l⟩).shape = some nav := by
  match nav, h with
  | [n], _ => simp [NdFloats.atleast2d, alignShape]
  | a :: b :: s, _ => simp [NdFloats.atleast2d, alignShape]

theorem align_one {n : ℕ} (h : 1 ≤ n) (l : List ℚ) :
    alignShape n (NdFloats.atleast2d ⟨[], l⟩).shape = some (List.replicate n 1) := by
  match n, h with
  | 1, _ => simp [NdFloats.atleast2d, alignShape]
  | n + 2, _ =>
    have e1 : (NdFloats.atleast2d ⟨[], l⟩).shape = [1, 1] := rfl
    rw [e1, alignShape, if_pos (by simp)]
    simp [List.replicate_succ']

/-- **C102**: values for all sample positions assigned to a coordinate of the projection centers are
returned, one number is the coordinate of all of them, and the other two coordinates stay. -/
theorem C102_coordinates (d : DetectorState) (hd : Spec.WellShaped d)
    (h3 : d.pc.shape.getLast? = some 3) (i : Fin 3) :
    (∀ l : List ℚ, l.length = d.navigationShape.prod →
      ∃ d' e, d.assign (.coordinate i (some ⟨d.navigationShape, l⟩)) = .ok (d', e) ∧
        d'.coordinate i = .ok l ∧ (∀ k : Fin 3, k ≠ i → d'.coordinate k = d.coordinate k) ∧
        d'.navigationShape = d.navigationShape ∧ d' = { d with pc := d'.pc }) ∧
    (∀ q : ℚ, ∃ d' e, d.assign (.coordinate i (some ⟨[], [q]⟩)) = .ok (d', e) ∧
        d'.coordinate i = .ok (List.replicate d.navigationShape.prod q) ∧
        (∀ k : Fin 3, k ≠ i → d'.coordinate k = d.coordinate k) ∧
        d'.navigationShape = d.navigationShape ∧ d' = { d with pc := d'.pc }) := by
  have hnav : 1 ≤ d.navigationShape.length := by
    unfold DetectorState.navigationShape
    rw [List.length_dropLast]
    have := hd.2
    omega
  have key : ∀ (a : NdFloats) (al : List ℕ),
      alignShape d.navigationShape.length a.atleast2d.shape = some al →
      (al.zip d.navigationShape).all (fun p => p.1 = 1 ∨ p.1 = p.2) = true →
      ∃ s, setCoordinate d.pc i a.atleast2d = .ok s ∧ s.shape = d.pc.shape := by
    intro a al hal hcompat
    unfold setCoordinate
    unfold DetectorState.navigationShape at hal hcompat
    simp only [h3, Option.getD_some, hal]
    rw [if_neg (by have := i.2; omega), if_pos hcompat]
    exact ⟨_, rfl, rfl⟩
  constructor
  · intro l hl
    have hal := align_self hnav l
    obtain ⟨s, hs, hsh⟩ := key ⟨d.navigationShape, l⟩ _ hal (by
      rw [List.all_eq_true]
      intro p hp
      have : p.1 = p.2 := by
        rw [List.mem_iff_getElem] at hp
        obtain ⟨n, hn, rfl⟩ := hp
        simp
      simp [this])
    obtain ⟨c1, c2⟩ := coordinate_set d hd i h3 _ s _ hs hal
    refine ⟨{ d with pc := s }, [.pc s], ?_, ?_, c2, ?_, rfl⟩
    · simp [DetectorState.assign, hs, bind, Except.bind, pure, Except.pure]
    · rw [c1]
      congr 1
      apply List.ext_getElem
      · simp [hl]
      · intro n h1 h2
        simp only [List.getElem_map, List.getElem_range]
        rw [broadcastIndex_self _ _ (by rw [← hl]; exact h2)]
        have : (NdFloats.atleast2d ⟨d.navigationShape, l⟩).data = l := by
          unfold NdFloats.atleast2d
          split <;> rfl
        rw [this, List.getD_eq_getElem?_getD, List.getElem?_eq_getElem h2, Option.getD_some]
    · unfold DetectorState.navigationShape
      rw [hsh]
  · intro q
    have hal := align_one hnav [q]
    obtain ⟨s, hs, hsh⟩ := key ⟨[], [q]⟩ _ hal (by
      rw [List.all_eq_true]
      intro p hp
      have : p.1 = 1 := List.eq_of_mem_replicate (List.of_mem_zip hp).1
      simp [this])
    obtain ⟨c1, c2⟩ := coordinate_set d hd i h3 _ s _ hs hal
    refine ⟨{ d with pc := s }, [.pc s], ?_, ?_, c2, ?_, rfl⟩
    · simp [DetectorState.assign, hs, bind, Except.bind, pure, Except.pure]
    · rw [c1]
      congr 1
      apply List.ext_getElem
      · simp
      · intro n h1 h2
        simp only [List.getElem_map, List.getElem_range, List.getElem_replicate]
        rw [broadcastIndex_ones]
        rfl
    · unfold DetectorState.navigationShape
      rw [hsh]

/-- **C102** (partial): a new navigation shape of one or two sizes, where one may be negative and
stand for what is left, arranges the same projection centers in the same order. See
`C102_navigation_shape_violated`. -/
theorem C102_navigation_shape_partial (d d' : DetectorState) (e : List Emission) (dims : List ℤ)
    (hd : Spec.WellShaped d) (h3 : d.pc.shape.getLast? = some 3) (hdims : dims ≠ [])
    (h : d.assign (.navigationShape (.tuple dims)) = .ok (d', e)) :
    d'.navigationShape.length = dims.length ∧
    d'.navigationShape.prod = d.navigationShape.prod ∧
    (∀ (n : ℕ) (k : ℤ), dims[n]? = some k → 0 ≤ k → d'.navigationShape[n]? = some k.toNat) ∧
    (∀ k : Fin 3, d'.coordinate k = d.coordinate k) ∧ d' = { d with pc := d'.pc } ∧
    Spec.WellShaped d' := by
  have hws := assign_wellShaped (a := .navigationShape (.tuple dims)) hd trivial h
  unfold DetectorState.assign at h
  simp only at h
  split at h
  · simp at h
  · cases hp : resolveShape d.pc.data.length (dims ++ [3]) with
    | error e => simp [hp, bind, Except.bind] at h
    | ok s =>
      simp [hp, bind, Except.bind, pure, Except.pure] at h
      obtain ⟨rfl, -⟩ := h
      obtain ⟨hp1, hp2⟩ := resolveShape_prod hp
      have hsget : ∀ (n : ℕ) (k : ℤ), (dims ++ [3])[n]? = some k → 0 ≤ k →
          s[n]? = some k.toNat := by
        intro n k hn hk
        unfold resolveShape at hp
        simp only at hp
        split at hp
        · split at hp
          · rw [Except.ok.injEq] at hp
            subst hp
            rw [List.getElem?_map, hn]; rfl
          · simp at hp
        · split at hp
          · split at hp
            · rw [Except.ok.injEq] at hp
              subst hp
              rw [List.getElem?_map, hn, Option.map_some, if_neg (not_lt.2 hk)]
            · simp at hp
          · simp at hp
      have hslen : 2 ≤ s.length := by
        rw [hp2, List.length_append, List.length_singleton]
        have := List.length_pos_iff.2 hdims
        omega
      have hat : (NdFloats.atleast2d ⟨s, d.pc.data⟩) = ⟨s, d.pc.data⟩ := by
        match s, hslen with
        | a :: b :: s, _ => rfl
      have hslast : s.getLast? = some 3 := by
        rw [List.getLast?_eq_getElem?, hp2]
        have := hsget dims.length 3 (by simp) (by norm_num)
        simpa using this
      have hlen : d.pc.data.length = d.pc.shape.dropLast.prod * 3 := by
        have e1 := shape_eq hd.2
        rw [h3, Option.getD_some] at e1
        have hd1 := hd.1
        unfold Spec.IsArray at hd1
        rw [hd1, e1]
        simp
      have hprod : s.dropLast.prod = d.pc.shape.dropLast.prod := by
        have e1 := shape_eq hslen
        rw [hslast, Option.getD_some] at e1
        rw [e1, List.prod_append, List.prod_singleton, hlen] at hp1
        simp at hp1
        exact hp1
      refine ⟨?_, ?_, ?_, ?_, rfl, hws⟩
      · unfold DetectorState.navigationShape
        simp only [hat]
        rw [List.length_dropLast, hp2]
        simp
      · unfold DetectorState.navigationShape
        simp only [hat]
        exact hprod
      · intro n k hn hk
        unfold DetectorState.navigationShape
        simp only [hat]
        have hlt : n < dims.length := by
          by_contra hc
          rw [List.getElem?_eq_none (not_lt.1 hc)] at hn
          simp at hn
        have := hsget n k (by rw [List.getElem?_append_left hlt]; exact hn) hk
        rw [List.getElem?_dropLast, if_pos]
        · exact this
        · rw [hp2]; simp; exact hlt
      · intro k
        unfold DetectorState.coordinate DetectorState.navigationShape
        simp only [hat, hslast, h3, hprod]

/-- A detector with six projection centers. -/
def sixPcs : DetectorState where
  shape := (60, 60)
  pxSize := 70
  binning := 8
  tilt := 5
  azimuthal := 0
  twist := 0
  sampleTilt := 70
  pc := ⟨[2, 3, 3], (List.range 18).map fun i => (i : ℚ) / 20⟩

/-- **C102**: a navigation shape of more than two sizes, and values for a coordinate the projection
centers do not have, are refused. -/
theorem C102_refused (d : DetectorState) :
    (∀ dims : List ℤ, 2 < dims.length →
      d.assign (.navigationShape (.tuple dims)) = .error .valueError) ∧
    (∀ len : ℕ, 2 < len → d.assign (.navigationShape (.notTuple len)) = .error .valueError) ∧
    (∀ (i : Fin 3) (c : ℕ) (a : NdFloats), d.pc.shape.getLast? = some c → c ≤ i →
      d.assign (.coordinate i (some a)) = .error .indexError) := by
  refine ⟨fun dims h => ?_, fun len h => ?_, fun i c a hc h => ?_⟩
  · simp [DetectorState.assign, h]
  · simp [DetectorState.assign, h]
  · simp only [DetectorState.assign, setCoordinate, hc, Option.getD_some]
    rw [if_pos h]
    rfl

/-- Projection centers with two coordinates. -/
example : ({ sixPcs with pc := ⟨[1, 2], [1, 2]⟩ } : DetectorState).pc.shape.getLast? = some 2 := rfl

/-- **C102** (violated): no navigation dimension becomes one, and a list is refused although it holds
valid sizes. -/
theorem C102_navigation_shape_violated (d : DetectorState) (x y z : ℚ)
    (hd : d.pc = ⟨[1, 3], [x, y, z]⟩) :
    (∃ d' e, d.assign (.navigationShape (.tuple [])) = .ok (d', e) ∧ d'.navigationShape = [1]) ∧
    d.assign (.navigationShape (.notTuple 1)) = .error .typeError := by
  constructor
  · refine ⟨{ d with pc := ⟨[1, 3], [x, y, z]⟩ }, [.pc ⟨[1, 3], [x, y, z]⟩, .pc ⟨[1, 3], [x, y, z]⟩],
      ?_, rfl⟩
    unfold DetectorState.assign
    rw [hd]
    rfl
  · rfl

/-- **C102** (violated): projection centers with two coordinates are accepted; the third one is an
`IndexError` later and `pc_flattened` a `ValueError`. -/
theorem C102_pc_violated (d : DetectorState) :
    ∃ d' e, d.assign (.pc (some ⟨[2], [1 / 2, 1 / 2]⟩)) = .ok (d', e) ∧
      d'.coordinate 2 = .error .indexError ∧ d'.pcFlattened = .error .valueError := by
  refine ⟨{ d with pc := ⟨[1, 2], [1 / 2, 1 / 2]⟩ }, [.pc ⟨[1, 2], [1 / 2, 1 / 2]⟩], rfl, ?_, ?_⟩
  · simp [DetectorState.coordinate]
  · simp [DetectorState.pcFlattened]

/-- **C102** (violated): `pc` is the detector's own array. A change in it changes the detector, and
listeners are not told. -/
theorem C102_in_place_violated (d : DetectorState) (x y z v : ℚ) (hv : v ≠ x) :
    let a : NdFloats := ⟨[3], [x, y, z]⟩
    let o := Observed.after ⟨d, []⟩ [.assign (.pc (some a)), .inPlace 0 v]
    o.det.coordinate 0 = .ok [v] ∧ ¬ Spec.UpToDate o := by
  intro a o
  refine ⟨rfl, ?_⟩
  rintro ⟨-, -, -, -, h⟩
  have := h ⟨[1, 3], [x, y, z]⟩ rfl
  have h2 : o.det.pc = ⟨[1, 3], [v, y, z]⟩ := rfl
  rw [h2, NdFloats.mk.injEq] at this
  simp only [List.cons.injEq, true_and, and_true] at this
  exact hv this.symm

/-! ### Examples -/

/-- The hypotheses of the theorems above are met, and a list of assignments, some of which raise. -/
example : Spec.WellShaped sixPcs ∧ sixPcs.pc.shape.getLast? = some 3 ∧ Spec.UpToDate ⟨sixPcs, []⟩ ∧
    (sixPcs.assign (.navigationShape (.tuple [3, -1]))).toOption.map (·.1.navigationShape) =
      some [3, 2] ∧
    (sixPcs.assign (.navigationShape (.tuple [4, -1]))).toOption = none ∧
    (sixPcs.assign (.coordinate 1 (some ⟨[3], [1, 2, 3]⟩))).toOption.bind
      (fun r => (r.1.coordinate 1).toOption) = some [1, 2, 3, 1, 2, 3] ∧
    (Observed.after ⟨sixPcs, []⟩ [.assign (.tilt .other), .assign (.tilt (.real 3)),
      .assign (.tilt (.complex 1 1)), .assign (.binning (.real 2))]).told = [.tilt 3] := by
  refine ⟨⟨by unfold Spec.IsArray; decide +kernel, by decide +kernel⟩, by decide +kernel,
    by simp [Spec.UpToDate, Spec.lastTold], by decide +kernel, by decide +kernel, by decide +kernel,
    by decide +kernel⟩

end Kp
