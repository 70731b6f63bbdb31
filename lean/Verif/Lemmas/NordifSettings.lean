import Verif.Model.NordifSettings
import Mathlib.Tactic.Linarith

/-! Lemmas about texts in NORDIF setting files. -/

namespace Kp

theorem hasInfix_iff (t s : Text) : hasInfix t s = true ↔ t <:+: s := by
  induction s with
  | nil => rw [hasInfix, List.isEmpty_iff, List.infix_nil]
  | cons c s ih =>
    rw [hasInfix, Bool.or_eq_true, ih, List.isPrefixOf_iff_prefix, List.infix_cons_iff]

theorem beforeLast_none (u s : Text) (c : Char) (h : c ∉ s) : beforeLast (c :: u) s = none := by
  induction s with
  | nil => rfl
  | cons d s ih =>
    rw [beforeLast, ih fun hm => h (List.mem_cons_of_mem _ hm)]
    have : (c :: u).isPrefixOf (d :: s) = false := by
      rw [List.isPrefixOf_cons_cons]
      have : c ≠ d := fun e => h (by rw [e]; exact List.mem_cons_self)
      simp [this]
    simp [this]

theorem beforeLast_append (suf v s t : Text) (h : beforeLast suf s = some t) :
    beforeLast suf (v ++ s) = some (v ++ t) := by
  induction v with
  | nil => exact h
  | cons c v ih => rw [List.cons_append, beforeLast, ih]; rfl

theorem beforeLast_value (u v unit : Text) (c : Char) (hu : u <+: unit) (hc : c ∉ unit) :
    beforeLast (c :: u) (v ++ c :: unit) = some v := by
  have : beforeLast (c :: u) (c :: unit) = some [] := by
    rw [beforeLast, beforeLast_none u unit c hc]
    have : (c :: u).isPrefixOf (c :: unit) = true := by
      rw [List.isPrefixOf_iff_prefix]
      exact List.cons_prefix_cons.mpr ⟨rfl, hu⟩
    simp [this]
  have := beforeLast_append (c :: u) v _ _ this
  rwa [List.append_nil] at this

theorem searchBetween_key (key suf s t : Text) (h : beforeLast suf s = some t) (hk : key ≠ []) :
    searchBetween key suf (key ++ s) = some t := by
  cases key with
  | nil => exact absurd rfl hk
  | cons c key =>
    rw [List.cons_append, searchBetween]
    have hp : (c :: key).isPrefixOf (c :: (key ++ s)) = true := by
      rw [List.isPrefixOf_iff_prefix]; exact ⟨s, rfl⟩
    have hd : (c :: (key ++ s)).drop (c :: key).length = s := by
      have : c :: (key ++ s) = (c :: key) ++ s := rfl
      rw [this, List.drop_left]
    rw [hp, if_pos rfl, hd, h]

theorem beforeLast_infix (suf s t : Text) (h : beforeLast suf s = some t) : t ++ suf <+: s := by
  induction s generalizing t with
  | nil =>
    rw [beforeLast] at h
    split_ifs at h with he
    simp only [Option.some.injEq] at h
    rw [List.isEmpty_iff] at he
    rw [← h, he]; simp
  | cons c s ih =>
    rw [beforeLast] at h
    cases hb : beforeLast suf s with
    | some t' =>
      rw [hb] at h
      simp only [Option.some.injEq] at h
      rw [← h, List.cons_append]
      exact List.cons_prefix_cons.mpr ⟨rfl, ih t' hb⟩
    | none =>
      rw [hb] at h
      simp only at h
      split_ifs at h with hp
      simp only [Option.some.injEq] at h
      rw [← h, List.nil_append]
      exact List.isPrefixOf_iff_prefix.mp hp

theorem searchBetween_infix (key suf s t : Text) (h : searchBetween key suf s = some t) :
    key ++ t ++ suf <:+: s := by
  induction s with
  | nil =>
    rw [searchBetween] at h
    split_ifs at h with he
    rw [List.isEmpty_iff] at he
    have := beforeLast_infix suf [] t h
    rw [he, List.nil_append]
    exact this.isInfix
  | cons c s ih =>
    rw [searchBetween] at h
    by_cases hp : key.isPrefixOf (c :: s) = true
    · rw [if_pos hp] at h
      cases hb : beforeLast suf ((c :: s).drop key.length) with
      | some t' =>
        rw [hb] at h
        simp only [Option.some.injEq] at h
        subst h
        obtain ⟨r, hr⟩ := List.isPrefixOf_iff_prefix.mp hp
        obtain ⟨r', hr'⟩ := beforeLast_infix suf _ t' hb
        have hd : (c :: s).drop key.length = r := by rw [← hr, List.drop_left]
        rw [hd] at hr'
        refine List.IsPrefix.isInfix ⟨r', ?_⟩
        rw [← hr, ← hr']
        simp
      | none => rw [hb] at h; exact List.infix_cons (ih h)
    · rw [if_neg hp] at h; exact List.infix_cons (ih h)

theorem blockLine_foldl (title : Text) (post : List Text) (k : ℕ) (b : ℤ)
    (h : ∀ l ∈ post, ¬ title <:+: l) :
    (post.zipIdx k).foldl (fun b l => if hasInfix title l.1 then (l.2 : ℤ) else b) b = b := by
  induction post generalizing k with
  | nil => rfl
  | cons l post ih =>
    have : ¬ (hasInfix title l = true) := fun e =>
      h l List.mem_cons_self ((hasInfix_iff _ _).mp e)
    rw [List.zipIdx_cons, List.foldl_cons, if_neg this]
    exact ih (k + 1) fun x hx => h x (List.mem_cons_of_mem _ hx)

theorem blockLine_eq (title : Text) (pre post : List Text) (l : Text) (hl : title <:+: l)
    (h : ∀ x ∈ post, ¬ title <:+: x) : blockLine title (pre ++ l :: post) = pre.length := by
  rw [blockLine, List.zipIdx_append, List.foldl_append, List.zipIdx_cons, List.foldl_cons,
    if_pos ((hasInfix_iff _ _).mpr hl), blockLine_foldl title post _ _ h]
  simp

theorem splitOnX_ne (a : Text) (h : 'x' ∉ a) : splitOnX a = [a] := by
  induction a with
  | nil => rfl
  | cons c a ih =>
    rw [splitOnX, if_neg (fun e => h (by rw [e]; exact List.mem_cons_self)),
      ih fun hm => h (List.mem_cons_of_mem _ hm)]

theorem splitOnX_two (a b : Text) (ha : 'x' ∉ a) (hb : 'x' ∉ b) :
    splitOnX (a ++ 'x' :: b) = [a, b] := by
  induction a with
  | nil => rw [List.nil_append, splitOnX, if_pos rfl, splitOnX_ne b hb]
  | cons c a ih =>
    rw [List.cons_append, splitOnX, if_neg (fun e => ha (by rw [e]; exact List.mem_cons_self)),
      ih fun hm => ha (List.mem_cons_of_mem _ hm)]

theorem splitOnComma_ne (a : Text) (h : ',' ∉ a) : splitOnComma a = [a] := by
  induction a with
  | nil => rfl
  | cons c a ih =>
    rw [splitOnComma, if_neg (fun e => h (by rw [e]; exact List.mem_cons_self)),
      ih fun hm => h (List.mem_cons_of_mem _ hm)]

theorem splitOnComma_two (a b : Text) (ha : ',' ∉ a) (hb : ',' ∉ b) :
    splitOnComma (a ++ ',' :: b) = [a, b] := by
  induction a with
  | nil => rw [List.nil_append, splitOnComma, if_pos rfl, splitOnComma_ne b hb]
  | cons c a ih =>
    rw [List.cons_append, splitOnComma, if_neg (fun e => ha (by rw [e]; exact List.mem_cons_self)),
      ih fun hm => ha (List.mem_cons_of_mem _ hm)]

end Kp
