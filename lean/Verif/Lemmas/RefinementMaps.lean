import Verif.Model.RefinementMaps
import Verif.Lemmas.DictionaryIndexing

namespace Kp

section
variable {α β γ : Type*}

@[simp] theorem selectMask_nil (l : List α) : selectMask [] l = [] := by simp [selectMask]

@[simp] theorem selectMask_nil' (m : List Bool) : selectMask m ([] : List α) = [] := by
  simp [selectMask]

@[simp] theorem selectMask_cons_true (m : List Bool) (a : α) (l : List α) :
    selectMask (true :: m) (a :: l) = a :: selectMask m l := by simp [selectMask]

@[simp] theorem selectMask_cons_false (m : List Bool) (a : α) (l : List α) :
    selectMask (false :: m) (a :: l) = selectMask m l := by simp [selectMask]

theorem selectMask_length {m : List Bool} {l : List α} (h : m.length = l.length) :
    (selectMask m l).length = m.count true := by
  induction m generalizing l with
  | nil => simp
  | cons b m ih =>
    cases l with
    | nil => simp at h
    | cons a l =>
      simp only [List.length_cons, Nat.add_right_cancel_iff] at h
      cases b <;> simp [ih h]

theorem selectMask_zipWith (f : α → β → γ) {m : List Bool} {a : List α} {b : List β}
    (ha : m.length = a.length) (hb : m.length = b.length) :
    selectMask m (List.zipWith f a b) = List.zipWith f (selectMask m a) (selectMask m b) := by
  induction m generalizing a b with
  | nil => simp
  | cons x m ih =>
    cases a with
    | nil => simp at ha
    | cons a as =>
      cases b with
      | nil => simp at hb
      | cons b bs =>
        simp only [List.length_cons, Nat.add_right_cancel_iff] at ha hb
        cases x <;> simp [ih ha hb]

theorem selectMask_map (f : α → β) (m : List Bool) (l : List α) :
    selectMask m (l.map f) = (selectMask m l).map f := by
  induction m generalizing l with
  | nil => simp
  | cons b m ih => cases l <;> cases b <;> simp [ih]

theorem selectMask_replicate {m : List Bool} {n : ℕ} (h : m.length = n) (c : α) :
    selectMask m (List.replicate n c) = List.replicate (m.count true) c := by
  subst h
  induction m with
  | nil => simp
  | cons b m ih => cases b <;> simp [List.replicate_succ, ih]

theorem selectMask_all {m : List Bool} {l : List α} (h : m.length = l.length)
    (hall : m.all id = true) : selectMask m l = l := by
  induction m generalizing l with
  | nil => simp [List.length_eq_zero_iff.1 h.symm]
  | cons b m ih =>
    cases l with
    | nil => simp at h
    | cons a l =>
      simp only [List.length_cons, Nat.add_right_cancel_iff] at h
      simp only [List.all_cons, id_eq, Bool.and_eq_true] at hall
      obtain ⟨rfl, hall⟩ := hall
      rw [selectMask_cons_true, ih h hall]

/-- Selecting from a selection. -/
theorem selectMask_selectMask {keep m : List Bool} {l : List α} (hk : keep.length = m.length)
    (hl : m.length = l.length) (hsub : ∀ i : ℕ, m[i]? = some true → keep[i]? = some true) :
    selectMask (selectMask keep m) (selectMask keep l) = selectMask m l := by
  induction m generalizing keep l with
  | nil =>
    simp only [selectMask_nil', selectMask_nil]
  | cons b m ih =>
    cases keep with
    | nil => simp at hk
    | cons k keep =>
      cases l with
      | nil => simp at hl
      | cons a l =>
        simp only [List.length_cons, Nat.add_right_cancel_iff] at hk hl
        have ih' := ih hk hl (fun i hi => by simpa using hsub (i + 1) (by simpa using hi))
        cases k with
        | true => cases b <;> simp [ih']
        | false =>
          have hb : b = false := by
            have := hsub 0
            cases b <;> simp_all
          subst hb
          simp [ih']

/-- Values outside the mask are kept. -/
theorem scatterMask_of_false (old : List α) (mask : List Bool) (vals : List α)
    (h : old.length = mask.length) (i : ℕ) (hm : mask[i]? = some false) :
    (scatterMask old mask vals)[i]? = old[i]? := by
  induction mask generalizing old vals i with
  | nil => simp at hm
  | cons m ms ih =>
    cases old with
    | nil => simp at h
    | cons o os =>
      simp only [List.length_cons, Nat.add_right_cancel_iff] at h
      cases i with
      | zero =>
        simp at hm
        subst hm
        simp [scatterMask]
      | succ i =>
        simp at hm
        cases m <;> cases vals <;> simp [scatterMask, ih _ _ h i hm]

/-- Values of the selection of another array are put in the places they come from. -/
theorem scatterMask_selectMask (old : List α) (mask : List Bool) (l : List α)
    (h : old.length = mask.length) (hl : l.length = mask.length) (i : ℕ)
    (hm : mask[i]? = some true) :
    (scatterMask old mask (selectMask mask l))[i]? = l[i]? := by
  have hi : i < mask.length := (List.getElem?_eq_some_iff.1 hm).1
  have ha : l[i]? = some l[i] := List.getElem?_eq_getElem (by omega)
  have := scatterMask_select old mask l id h hl i _ hm ha
  rw [List.map_id] at this
  rw [this, ha]
  rfl

theorem scatterMask_replicate_getElem (old : List α) (mask : List Bool) (c : α)
    (h : old.length = mask.length) (i : ℕ) (hm : mask[i]? = some true) :
    (scatterMask old mask (List.replicate (mask.count true) c))[i]? = some c := by
  rw [← selectMask_replicate rfl c, scatterMask_selectMask _ _ _ h (by simp) i hm]
  have hi : i < mask.length := (List.getElem?_eq_some_iff.1 hm).1
  rw [List.getElem?_eq_getElem (by simpa using hi)]
  simp

/-- The position of a selected element. -/
theorem selectMask_getElem {mask : List Bool} {l : List α} (hl : mask.length = l.length) (i : ℕ)
    (hm : mask[i]? = some true) :
    (selectMask mask l)[(mask.take i).count true]? = l[i]? := by
  induction mask generalizing l i with
  | nil => simp at hm
  | cons m ms ih =>
    cases l with
    | nil => simp at hl
    | cons a l =>
      simp only [List.length_cons, Nat.add_right_cancel_iff] at hl
      cases i with
      | zero =>
        simp at hm
        subst hm
        simp
      | succ i =>
        simp only [List.getElem?_cons_succ] at hm
        cases m <;> simp [ih hl i hm]

theorem refineChunk_append {P R C V : Type*} (solve : P → R → C → V) {p p' : List P}
    {r r' : List R} {c c' : List C} (h1 : p.length = r.length) (h2 : r.length = c.length) :
    refineChunk solve (p ++ p') (r ++ r') (c ++ c') =
      refineChunk solve p r c ++ refineChunk solve p' r' c' := by
  unfold refineChunk
  rw [List.zipWith_append (by omega), List.zipWith_append (by simp; omega)]

/-- Chunks do not matter. -/
theorem refineBlocks_eq {P R C V : Type*} (solve : P → R → C → V) (chunks : List ℕ) {ps : List P}
    {rs : List R} {cs : List C} (h1 : ps.length = rs.length) (h2 : rs.length = cs.length)
    (h : chunks.sum = ps.length) :
    refineBlocks solve chunks ps rs cs = refineChunk solve ps rs cs := by
  induction chunks generalizing ps rs cs with
  | nil =>
    simp only [List.sum_nil] at h
    have hp := List.length_eq_zero_iff.1 h.symm
    subst hp
    simp [refineBlocks, splitChunks, refineChunk]
  | cons k chunks ih =>
    simp only [List.sum_cons] at h
    have := ih (ps := ps.drop k) (rs := rs.drop k) (cs := cs.drop k) (by simp [h1])
      (by simp [h2]) (by simp; omega)
    unfold refineBlocks at this ⊢
    simp only [splitChunks, List.zipWith_cons_cons, List.flatten_cons, this]
    rw [← refineChunk_append solve (by simp [h1]) (by simp [h2])]
    simp only [List.take_append_drop]

theorem zipWith_and_getElem {a b : List Bool} (i : ℕ) :
    (List.zipWith (· && ·) a b)[i]? = some true ↔ a[i]? = some true ∧ b[i]? = some true := by
  rw [List.getElem?_zipWith]
  rcases a[i]? with _ | x <;> rcases b[i]? with _ | y <;> simp

end

end Kp
