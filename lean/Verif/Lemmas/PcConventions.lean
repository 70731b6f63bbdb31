import Verif.Lemmas.Strings
import Mathlib.Tactic.FinCases

namespace Kp
open Spec

/-- The model's convention of a documented vendor convention. -/
def kind : Vendor → Conv
  | .bruker => .bruker
  | .tsl => .tsl
  | .oxford => .oxford
  | .emsoft4 => .emsoft
  | .emsoft5 => .emsoft

theorem aliasMatch_iff (s t : String)
    (ht : t ∈ ["bruker", "tsl", "edax", "amatek", "oxford", "aztec", "emsoft", "emsoft4", "emsoft5"]) :
    (t.toList == s.toList.map pyLower) = true ↔ Spells s t := by
  rw [beq_iff_eq]
  apply map_pyLower_eq_iff
  simp only [List.mem_cons, List.not_mem_nil, or_false] at ht
  rcases ht with rfl | rfl | rfl | rfl | rfl | rfl | rfl | rfl | rfl <;> decide

theorem spells_inj {s t t' : String}
    (ht : t ∈ ["bruker", "tsl", "edax", "amatek", "oxford", "aztec", "emsoft", "emsoft4", "emsoft5"])
    (ht' : t' ∈ ["bruker", "tsl", "edax", "amatek", "oxford", "aztec", "emsoft", "emsoft4", "emsoft5"])
    (h : Spells s t) (h' : Spells s t') : t = t' := by
  rw [← aliasMatch_iff s t ht, beq_iff_eq] at h
  rw [← aliasMatch_iff s t' ht', beq_iff_eq] at h'
  exact String.toList_inj.mp (h.trans h'.symm)

theorem names_sub (v : Vendor) : ∀ t ∈ names v,
    t ∈ ["bruker", "tsl", "edax", "amatek", "oxford", "aztec", "emsoft", "emsoft4", "emsoft5"] := by
  cases v <;> decide

theorem getConv_of_denotes {s : String} {v : Vendor} (h : Denotes s v) :
    getPcConventionOrRaise s = .ok (kind v) := by
  obtain ⟨t, ht, hs⟩ := h
  have hm := (aliasMatch_iff s t (names_sub v t ht)).2 hs
  rw [beq_iff_eq] at hm
  unfold getPcConventionOrRaise
  rw [← hm]
  cases v <;> simp only [names, List.mem_cons, List.not_mem_nil, or_false] at ht
  all_goals (try rcases ht with rfl | rfl | rfl) <;> decide

theorem denotes_of_getConv {s : String} {c : Conv} (h : getPcConventionOrRaise s = .ok c) :
    ∃ v, Denotes s v := by
  unfold getPcConventionOrRaise at h
  simp only at h
  split at h
  · rename_i kv hkv
    have h1 := List.find?_some hkv
    have h2 := List.mem_of_find?_eq_some hkv
    simp only [List.any_eq_true] at h1
    obtain ⟨a, ha, hb⟩ := h1
    have hmem : ∃ v, a ∈ names v := by
      simp only [pcConventionsAliases, List.mem_cons, List.not_mem_nil, or_false] at h2
      rcases h2 with rfl | rfl | rfl | rfl <;>
        simp only [List.mem_cons, List.not_mem_nil, or_false] at ha
      · exact ⟨.bruker, by simp [names, ha]⟩
      · refine ⟨.tsl, ?_⟩
        simp only [names, List.mem_cons, List.not_mem_nil, or_false]; tauto
      · refine ⟨.oxford, ?_⟩
        simp only [names, List.mem_cons, List.not_mem_nil, or_false]; tauto
      · rcases ha with rfl | rfl | rfl
        · exact ⟨.emsoft5, by simp [names]⟩
        · exact ⟨.emsoft4, by simp [names]⟩
        · exact ⟨.emsoft5, by simp [names]⟩
    obtain ⟨v, hv⟩ := hmem
    exact ⟨v, a, hv, (aliasMatch_iff s a (names_sub v a hv)).1 hb⟩
  · cases h

theorem spells_getLast {s t : String} {l : Char} (h : Spells s t)
    (hl : t.toList.getLast? = some l) : ∃ c, s.toList.getLast? = some c ∧ SameLetter c l := by
  unfold Spells at h
  generalize s.toList = a at *
  generalize t.toList = b at *
  induction h with
  | nil => simp at hl
  | cons h0 h ih =>
    rename_i x y xs ys
    cases h with
    | nil => exact ⟨x, by simp, by simp at hl; rw [← hl]; exact h0⟩
    | cons h1 h2 =>
      obtain ⟨c, hc, hcl⟩ := ih (by simpa [List.getLast?_cons_cons] using hl)
      exact ⟨c, by simpa [List.getLast?_cons_cons] using hc, hcl⟩

theorem emsoftVersion_of_spells {s : String} :
    (Spells s "emsoft4" → emsoftVersion s = 4) ∧ (Spells s "emsoft5" → emsoftVersion s = 5) ∧
    (Spells s "emsoft" → emsoftVersion s = 5) := by
  unfold emsoftVersion
  refine ⟨fun h => ?_, fun h => ?_, fun h => ?_⟩
  · obtain ⟨c, hc, hl⟩ := spells_getLast h (l := '4') (by decide)
    rw [hc]
    rcases hl with rfl | rfl | ⟨hl, -⟩
    · decide
    · decide
    · exact absurd hl (by decide)
  · obtain ⟨c, hc, hl⟩ := spells_getLast h (l := '5') (by decide)
    rw [hc]
    rcases hl with rfl | rfl | ⟨hl, -⟩
    · decide
    · decide
    · exact absurd hl (by decide)
  · obtain ⟨c, hc, hl⟩ := spells_getLast h (l := 't') (by decide)
    rw [hc]
    rcases hl with rfl | rfl | ⟨hl, -⟩
    · decide
    · decide
    · exact absurd hl (by decide)

theorem emsoftVersion_of_denotes {s : String} :
    (Denotes s .emsoft4 → emsoftVersion s = 4) ∧ (Denotes s .emsoft5 → emsoftVersion s = 5) := by
  refine ⟨?_, ?_⟩
  · rintro ⟨t, ht, hs⟩
    simp only [names, List.mem_cons, List.not_mem_nil, or_false] at ht
    subst ht
    exact emsoftVersion_of_spells.1 hs
  · rintro ⟨t, ht, hs⟩
    simp only [names, List.mem_cons, List.not_mem_nil, or_false] at ht
    rcases ht with rfl | rfl
    · exact emsoftVersion_of_spells.2.2 hs
    · exact emsoftVersion_of_spells.2.1 hs

end Kp
