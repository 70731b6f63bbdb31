/-
Lemmas for C52: separation is an invariant of modifications.
-/
import Verif.Spec.Aliasing
import Mathlib.Tactic.TypeStar

namespace Kp

variable {D B X : Type}

/-- No object is shared. -/
def AttrRefs.Sep (a b : AttrRefs) : Prop :=
  a.det ≠ b.det ∧ (∀ r, a.bg = some r → b.bg ≠ some r) ∧ ∀ r, a.xmap = some r → b.xmap ≠ some r

theorem AttrRefs.Sep.symm {a b : AttrRefs} (h : a.Sep b) : b.Sep a :=
  ⟨fun e => h.1 e.symm, fun r e e' => h.2.1 r e' e, fun r e e' => h.2.2 r e' e⟩

theorem getElem?_modify_self {α : Type} (l : List α) (i : ℕ) (f : α → α) :
    (l.modify i f)[i]? = l[i]?.map f := by
  rw [List.getElem?_modify]; simp

theorem getElem?_modify_ne {α : Type} (l : List α) (i j : ℕ) (f : α → α) (h : i ≠ j) :
    (l.modify i f)[j]? = l[j]? := by
  rw [List.getElem?_modify]; simp [h]

theorem attrStep_own (h : AttrHeap D B X) (a : AttrRefs) (s : AttrStep D B X) :
    readAttrs (attrStep h a s).1 (attrStep h a s).2 = viewStep (readAttrs h a) s := by
  cases s with
  | setDet d => simp [attrStep, readAttrs, viewStep]
  | mutDet f => simp [attrStep, readAttrs, viewStep]
  | setBg b => simp [attrStep, readAttrs, viewStep]
  | mutBg f =>
    cases hb : a.bg with
    | none => simp [attrStep, readAttrs, viewStep, hb]
    | some r => simp [attrStep, readAttrs, viewStep, hb]
  | setMap x => simp [attrStep, readAttrs, viewStep]
  | mutMap f =>
    cases hb : a.xmap with
    | none => simp [attrStep, readAttrs, viewStep, hb]
    | some r => simp [attrStep, readAttrs, viewStep, hb]

/-- The heap changes of one step seen from references it does not concern. -/
theorem attrStep_other (h : AttrHeap D B X) (a b : AttrRefs) (s : AttrStep D B X)
    (hb : b.Valid h) (hs : a.Sep b) :
    readAttrs (attrStep h a s).1 b = readAttrs h b := by
  obtain ⟨v1, v2, v3⟩ := hb
  obtain ⟨s1, s2, s3⟩ := hs
  cases s with
  | setDet d => simp [attrStep, readAttrs, List.getElem?_append_left v1]
  | mutDet f => simp [attrStep, readAttrs, getElem?_modify_ne _ _ _ _ s1]
  | setBg c =>
    cases hb : b.bg with
    | none => simp [attrStep, readAttrs, hb]
    | some r => simp [attrStep, readAttrs, hb, List.getElem?_append_left (v2 r hb)]
  | mutBg f =>
    cases ha : a.bg with
    | none => simp [attrStep, ha]
    | some q =>
      cases hb : b.bg with
      | none => simp [attrStep, readAttrs, ha, hb]
      | some r =>
        have : q ≠ r := fun e => s2 q ha (by rw [hb, e])
        simp [attrStep, readAttrs, ha, hb, getElem?_modify_ne _ _ _ _ this]
  | setMap x =>
    cases hb : b.xmap with
    | none => simp [attrStep, readAttrs, hb]
    | some r => simp [attrStep, readAttrs, hb, List.getElem?_append_left (v3 r hb)]
  | mutMap f =>
    cases ha : a.xmap with
    | none => simp [attrStep, ha]
    | some q =>
      cases hb : b.xmap with
      | none => simp [attrStep, readAttrs, ha, hb]
      | some r =>
        have : q ≠ r := fun e => s3 q ha (by rw [hb, e])
        simp [attrStep, readAttrs, ha, hb, getElem?_modify_ne _ _ _ _ this]

theorem attrStep_heap_le (h : AttrHeap D B X) (a : AttrRefs) (s : AttrStep D B X) :
    h.dets.length ≤ (attrStep h a s).1.dets.length ∧
    h.bgs.length ≤ (attrStep h a s).1.bgs.length ∧
    h.maps.length ≤ (attrStep h a s).1.maps.length := by
  cases s with
  | setDet d => simp [attrStep]
  | mutDet f => simp [attrStep]
  | setBg b => simp [attrStep]
  | mutBg f => cases hb : a.bg <;> simp [attrStep, hb]
  | setMap x => simp [attrStep]
  | mutMap f => cases hb : a.xmap <;> simp [attrStep, hb]

theorem AttrRefs.Valid.mono {h h' : AttrHeap D B X} {a : AttrRefs} (v : a.Valid h)
    (hl : h.dets.length ≤ h'.dets.length ∧ h.bgs.length ≤ h'.bgs.length ∧
      h.maps.length ≤ h'.maps.length) : a.Valid h' :=
  ⟨Nat.lt_of_lt_of_le v.1 hl.1, fun r e => Nat.lt_of_lt_of_le (v.2.1 r e) hl.2.1,
    fun r e => Nat.lt_of_lt_of_le (v.2.2 r e) hl.2.2⟩

/-- After a step, the acting signal stays valid and separate from every valid signal it was
separate from. -/
theorem attrStep_sep (h : AttrHeap D B X) (a b : AttrRefs) (s : AttrStep D B X)
    (ha : a.Valid h) (hb : b.Valid h) (hs : a.Sep b) :
    (attrStep h a s).2.Valid (attrStep h a s).1 ∧ (attrStep h a s).2.Sep b := by
  obtain ⟨v1, v2, v3⟩ := ha
  obtain ⟨w1, w2, w3⟩ := hb
  obtain ⟨s1, s2, s3⟩ := hs
  cases s with
  | setDet d =>
    refine ⟨⟨by simp [attrStep], v2, v3⟩, ?_, s2, s3⟩
    simp only [attrStep]; omega
  | mutDet f => exact ⟨⟨by simpa [attrStep] using v1, v2, v3⟩, s1, s2, s3⟩
  | setBg c =>
    refine ⟨⟨v1, by simp [attrStep], v3⟩, s1, ?_, s3⟩
    intro r e e'
    simp only [attrStep, Option.some.injEq] at e
    have := w2 r e'
    omega
  | mutBg f =>
    cases hq : a.bg with
    | none =>
      have : attrStep h a (.mutBg f) = (h, a) := by simp [attrStep, hq]
      rw [this]
      exact ⟨⟨v1, v2, v3⟩, s1, s2, s3⟩
    | some q =>
      have : attrStep h a (.mutBg f) = ({ h with bgs := h.bgs.modify q f }, a) := by
        simp [attrStep, hq]
      rw [this]
      exact ⟨⟨v1, by simpa using v2, v3⟩, s1, s2, s3⟩
  | setMap c =>
    refine ⟨⟨v1, v2, by simp [attrStep]⟩, s1, s2, ?_⟩
    intro r e e'
    simp only [attrStep, Option.some.injEq] at e
    have := w3 r e'
    omega
  | mutMap f =>
    cases hq : a.xmap with
    | none =>
      have : attrStep h a (.mutMap f) = (h, a) := by simp [attrStep, hq]
      rw [this]
      exact ⟨⟨v1, v2, v3⟩, s1, s2, s3⟩
    | some q =>
      have : attrStep h a (.mutMap f) = ({ h with maps := h.maps.modify q f }, a) := by
        simp [attrStep, hq]
      rw [this]
      exact ⟨⟨v1, v2, by simpa using v3⟩, s1, s2, s3⟩

/-- Separate signals are independent. -/
theorem independent_of_sep (h : AttrHeap D B X) (a b : AttrRefs) (ha : a.Valid h)
    (hb : b.Valid h) (hs : a.Sep b) : Independent h a b := by
  intro ss
  induction ss generalizing h a b with
  | nil => exact ⟨rfl, rfl⟩
  | cons p ss ih =>
    obtain ⟨w, s⟩ := p
    cases w with
    | false =>
      have hv := attrStep_sep h a b s ha hb hs
      have := ih (attrStep h a s).1 (attrStep h a s).2 b hv.1
        (hb.mono (attrStep_heap_le h a s)) hv.2
      rw [attrStep_own, attrStep_other h a b s hb hs] at this
      simpa [attrRun, ownSteps] using this
    | true =>
      have hv := attrStep_sep h b a s hb ha hs.symm
      have := ih (attrStep h b s).1 a (attrStep h b s).2
        (ha.mono (attrStep_heap_le h b s)) hv.1 hv.2.symm
      rw [attrStep_own, attrStep_other h b a s ha hs.symm] at this
      simpa [attrRun, ownSteps] using this

theorem newAttrs_spec (h : AttrHeap D B X) (a : AttrRefs) (ha : a.Valid h) (d : D)
    (b : Option B) (x : Option X) :
    readAttrs (newAttrs h d b x).1 a = readAttrs h a ∧
    readAttrs (newAttrs h d b x).1 (newAttrs h d b x).2 = ⟨some d, b, x⟩ ∧
    a.Valid (newAttrs h d b x).1 ∧
    (newAttrs h d b x).2.Valid (newAttrs h d b x).1 ∧ a.Sep (newAttrs h d b x).2 := by
  obtain ⟨v1, v2, v3⟩ := ha
  have g1 : (h.dets ++ [d])[a.det]? = h.dets[a.det]? := List.getElem?_append_left v1
  have g2 : ∀ c, (a.bg.bind fun r => (h.bgs ++ [c])[r]?) = a.bg.bind fun r => h.bgs[r]? := by
    intro c
    cases hb : a.bg with
    | none => rfl
    | some r => exact List.getElem?_append_left (v2 r hb)
  have g3 : ∀ c, (a.xmap.bind fun r => (h.maps ++ [c])[r]?) =
      a.xmap.bind fun r => h.maps[r]? := by
    intro c
    cases hb : a.xmap with
    | none => rfl
    | some r => exact List.getElem?_append_left (v3 r hb)
  cases b <;> cases x <;>
    simp [newAttrs, newDet, newBg, newMap, readAttrs, AttrRefs.Valid, AttrRefs.Sep, g1, g2, g3] <;>
    grind

end Kp
