import Verif.Spec.Detector
import Mathlib.Data.List.Forall2

namespace Kp

/-- Lower-casing hits a fixed point of lower-casing exactly at its two (three for `k`)
preimages. -/
theorem pyLower_eq_iff (c l : Char) (hl : ¬ (l.val ≥ 'A'.val ∧ l.val ≤ 'Z'.val)) (hk : l ≠ '\u212A') :
    pyLower c = l ↔ Spec.SameLetter c l := by
  unfold Spec.SameLetter pyLower
  by_cases h : c = '\u212A'
  · subst h
    simp only [if_true]
    constructor
    · intro h; right; right; exact ⟨h.symm, trivial⟩
    · rintro (h | h | h)
      · exact absurd h.symm hk
      · exfalso
        unfold Char.toUpper at h
        split at h
        · have := congrArg Char.val h
          simp at this
          rename_i hh
          have h1 := hh.1
          have h2 := hh.2
          simp [UInt32.le_iff_toNat_le] at h1 h2
          have := congrArg UInt32.toNat this
          simp at this
          omega
        · exact absurd h.symm hk
      · exact h.1.symm
  · simp only [h, if_false, and_false, or_false]
    have key : ∀ a b : Char, a = b ↔ a.val.toNat = b.val.toNat := by
      intro a b
      rw [Char.ext_iff, UInt32.toNat_inj]
    rw [key, key, key]
    unfold Char.toLower Char.toUpper
    simp only [ge_iff_le, UInt32.le_iff_toNat_le] at hl ⊢
    have e1 : ('A'.val).toNat = 65 := rfl
    have e2 : ('Z'.val).toNat = 90 := rfl
    have e3 : ('a'.val).toNat = 97 := rfl
    have e4 : ('z'.val).toNat = 122 := rfl
    rw [e1, e2] at hl
    simp only [e1, e2, e3, e4]
    have hc := c.val.toNat_lt
    split <;> split <;> rename_i h1 h2 <;> simp [UInt32.toNat_add, - Char.toNat_val] <;> omega

theorem map_pyLower_eq_iff (s t : String)
    (ht : ∀ l ∈ t.toList, ¬ (l.val ≥ 'A'.val ∧ l.val ≤ 'Z'.val) ∧ l ≠ '\u212A') :
    t.toList = s.toList.map pyLower ↔ Spec.Spells s t := by
  unfold Spec.Spells
  generalize s.toList = a at *
  generalize t.toList = b at *
  induction b generalizing a with
  | nil =>
    cases a <;> simp
  | cons l b ih =>
    cases a with
    | nil => simp
    | cons c a =>
      have h1 := ht l (by simp)
      have := ih a (fun l hl => ht l (by simp [hl]))
      simp only [List.map_cons, List.cons.injEq, List.forall₂_cons, this]
      rw [eq_comm, pyLower_eq_iff c l h1.1 h1.2]

end Kp
