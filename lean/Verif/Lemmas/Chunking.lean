/-
Lemmas on chunks.
-/
import Verif.Model.Chunking
import Mathlib.Data.List.Basic
import Mathlib.Algebra.BigOperators.Group.List.Basic
import Mathlib.Algebra.Order.Ring.Nat
import Mathlib.Tactic.Linarith
import Mathlib.Tactic.Ring

namespace Kp

theorem blockDims_sum (n c : ℕ) : (blockDims n c).sum = n := by
  unfold blockDims
  split
  · simp_all
  · have := Nat.div_add_mod n c
    split
    · simp [List.sum_replicate]
      rw [mul_comm]; omega
    · simp [List.sum_replicate]
      rw [mul_comm]; omega

theorem blockDims_pos {n c : ℕ} (hn : 0 < n) (hc : 0 < c) : ∀ x ∈ blockDims n c, 0 < x := by
  unfold blockDims
  rw [if_neg (by omega)]
  intro x hx
  rcases List.mem_append.1 hx with h | h
  · rw [List.eq_of_mem_replicate h]; exact hc
  · split at h
    · simp at h
    · simp at h; omega

theorem blockDims_le {n c : ℕ} (hc : 0 < c) : ∀ x ∈ blockDims n c, x ≤ c := by
  unfold blockDims
  split
  · simp
  · intro x hx
    rcases List.mem_append.1 hx with h | h
    · rw [List.eq_of_mem_replicate h]
    · split at h
      · simp at h
      · simp at h; have := Nat.mod_lt n hc; omega

/-- All chunks but the last are of the full size. -/
theorem blockDims_dropLast {n c : ℕ} (hn : 0 < n) :
    ∀ x ∈ (blockDims n c).dropLast, x = c := by
  unfold blockDims
  rw [if_neg (by omega)]
  intro x hx
  split at hx
  · rw [List.append_nil] at hx
    exact List.eq_of_mem_replicate (List.dropLast_subset _ hx)
  · rw [List.dropLast_concat] at hx
    exact List.eq_of_mem_replicate hx

/-- A successful loop gives a result for each element, in order. -/
theorem mapM_ok_get {α β : Type} {f : α → Except Err β} : ∀ {l : List α} {r : List β},
    l.mapM f = .ok r → r.length = l.length ∧
      ∀ (i : ℕ) (a : α), l[i]? = some a → ∃ b, r[i]? = some b ∧ f a = .ok b
  | [], r, h => by
    simp only [List.mapM_nil] at h
    cases h
    simp
  | a :: l, r, h => by
    rw [List.mapM_cons] at h
    cases ha : f a with
    | error e => rw [ha] at h; cases h
    | ok b =>
      rw [ha] at h
      cases hl : l.mapM f with
      | error e => rw [hl] at h; cases h
      | ok bs =>
        rw [hl] at h
        cases h
        obtain ⟨h1, h2⟩ := mapM_ok_get hl
        refine ⟨by simp [h1], ?_⟩
        intro i a' hi
        cases i with
        | zero => simp at hi; subst hi; exact ⟨b, by simp, ha⟩
        | succ i => simp at hi; simpa using h2 i a' hi

theorem mapM_exists_ok {α β : Type} {f : α → Except Err β} : ∀ {l : List α},
    (∀ a ∈ l, ∃ b, f a = .ok b) → ∃ r, l.mapM f = .ok r
  | [], _ => ⟨[], rfl⟩
  | a :: l, h => by
    obtain ⟨b, hb⟩ := h a (List.mem_cons_self ..)
    obtain ⟨r, hr⟩ := mapM_exists_ok (l := l) fun x hx => h x (List.mem_cons_of_mem _ hx)
    exact ⟨b :: r, by rw [List.mapM_cons, hb, hr]; rfl⟩

theorem ceilDiv_spec {a b : ℕ} (hb : 0 < b) : a ≤ ceilDiv a b * b ∧ ceilDiv a b * b < a + b := by
  unfold ceilDiv
  have h1 := Nat.div_add_mod (a + b - 1) b
  have h2 := Nat.mod_lt (a + b - 1) hb
  rw [mul_comm] at h1
  constructor <;> omega

theorem ceilDiv_pos {a b : ℕ} (ha : 0 < a) (hb : 0 < b) : 0 < ceilDiv a b := by
  have := (ceilDiv_spec (a := a) hb).1
  rcases Nat.eq_zero_or_pos (ceilDiv a b) with h | h
  · rw [h] at this; omega
  · exact h

/-- The loop ends, with sizes adding up to less than the limit, each at most the given one. -/
theorem halveSizes_some {s : ℕ} (hs : 0 < s) : ∀ (fuel f l : ℕ), f + l < fuel →
    ∃ f' l', halveSizes s fuel f l = some (f', l') ∧ f' + l' < s ∧ f' ≤ f ∧ l' ≤ l
  | 0, f, l, h => by omega
  | fuel + 1, f, l, h => by
    by_cases h1 : f + l < s
    · exact ⟨f, l, by simp [halveSizes, h1], h1, le_rfl, le_rfl⟩
    · by_cases h2 : l ≤ f
      · obtain ⟨f', l', e, g1, g2, g3⟩ := halveSizes_some hs fuel (f / 2) l (by omega)
        exact ⟨f', l', by simp [halveSizes, h1, h2, e], g1, by omega, g3⟩
      · obtain ⟨f', l', e, g1, g2, g3⟩ := halveSizes_some hs fuel f (l / 2) (by omega)
        exact ⟨f', l', by simp [halveSizes, h1, h2, e], g1, g2, by omega⟩

/-- With a limit of at least four bytes no size is halved to zero. -/
theorem halveSizes_pos {s : ℕ} (hs : 4 ≤ s) : ∀ (fuel f l f' l' : ℕ), 0 < f → 0 < l →
    halveSizes s fuel f l = some (f', l') → 0 < f' ∧ 0 < l'
  | 0, _, _, _, _, _, _, h => by simp [halveSizes] at h
  | fuel + 1, f, l, f', l', hf, hl, h => by
    unfold halveSizes at h
    split at h
    · cases h; exact ⟨hf, hl⟩
    · split at h
      · exact halveSizes_pos hs fuel _ _ _ _ (by omega) hl h
      · exact halveSizes_pos hs fuel _ _ _ _ hf (by omega) h

/-- A size which is halved stays at least a fourth of the limit (rounded down). -/
theorem halveSizes_large {s : ℕ} : ∀ (fuel f l f' l' : ℕ),
    halveSizes s fuel f l = some (f', l') → (f' = f ∨ s / 4 ≤ f') ∧ (l' = l ∨ s / 4 ≤ l')
  | 0, _, _, _, _, h => by simp [halveSizes] at h
  | fuel + 1, f, l, f', l', h => by
    unfold halveSizes at h
    split at h
    · cases h; exact ⟨Or.inl rfl, Or.inl rfl⟩
    · split at h
      · have := halveSizes_large fuel _ _ _ _ h
        omega
      · have := halveSizes_large fuel _ _ _ _ h
        omega

/-- Splitting `n` rows of `w` bytes in `ceil(n w / z)` parts gives parts of at most `z`
bytes. -/
theorem rows_le {n w z : ℕ} (hz : 0 < z) : n / ceilDiv (n * w) z * w ≤ z := by
  rcases Nat.eq_zero_or_pos (n * w) with h0 | hpos
  · rcases Nat.mul_eq_zero.1 h0 with h | h
    · subst h; simp
    · subst h; simp
  · have hk := ceilDiv_pos hpos hz
    have h1 := (ceilDiv_spec (a := n * w) hz).1
    have h2 : n / ceilDiv (n * w) z * ceilDiv (n * w) z ≤ n := Nat.div_mul_le_self _ _
    by_contra hlt
    push Not at hlt
    have h3 : n / ceilDiv (n * w) z * ceilDiv (n * w) z * w ≤ n * w := Nat.mul_le_mul_right w h2
    have h4 : z * ceilDiv (n * w) z < n / ceilDiv (n * w) z * w * ceilDiv (n * w) z :=
      Nat.mul_lt_mul_of_pos_right hlt hk
    have h5 : n / ceilDiv (n * w) z * w * ceilDiv (n * w) z =
        n / ceilDiv (n * w) z * ceilDiv (n * w) z * w := by ring
    rw [h5, mul_comm] at h4
    omega

theorem rows_pos {n w z : ℕ} (hn : 0 < n) (hw : 0 < w) (hwz : w ≤ z) :
    0 < n / ceilDiv (n * w) z := by
  have hz : 0 < z := by omega
  have hk := ceilDiv_pos (Nat.mul_pos hn hw) hz
  apply Nat.div_pos _ hk
  have h2 := (ceilDiv_spec (a := n * w) hz).2
  by_contra hlt
  push Not at hlt
  have h3 : (n + 1) * z ≤ ceilDiv (n * w) z * z := Nat.mul_le_mul_right z hlt
  have h4 : n * w ≤ n * z := Nat.mul_le_mul_left n hwz
  have h5 : (n + 1) * z = n * z + z := by ring
  omega

end Kp
