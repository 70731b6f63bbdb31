/-
Lemmas on Python argument binding.
-/
import Verif.Model.Forwarding
import Mathlib.Data.List.Nodup
import Mathlib.Data.List.Lookmap
import Mathlib.Tactic.TypeStar

namespace Kp

theorem lookup_zip_map {U : Type} (d : PyArg U) : ∀ (names : List String)
    (vals : List (PyArg U)), names.Nodup → vals.length = names.length →
    (names.map fun n => ((names.zip vals).lookup n).getD d) = vals
  | [], [], _, _ => rfl
  | [], _ :: _, _, h => by simp at h
  | _ :: _, [], _, h => by simp at h
  | n :: ns, v :: vs, hn, hl => by
    have hn' := List.nodup_cons.1 hn
    have ih := lookup_zip_map d ns vs hn'.2 (by simpa using hl)
    simp only [List.map_cons, List.zip_cons_cons, List.cons.injEq]
    constructor
    · simp [List.lookup]
    · conv => rhs; rw [← ih]
      apply List.map_congr_left
      intro m hm
      have : (m == n) = false := by
        simp only [beq_eq_false_iff_ne]
        rintro rfl
        exact hn'.1 hm
      simp [List.lookup, this]

theorem map_bodyVar {U : Type} (ps : Params U) (vals : List (PyArg U))
    (hn : (ps.map Prod.fst).Nodup) (hl : vals.length = ps.length) :
    ((ps.map Prod.fst).map (bodyVar ps vals)) = vals :=
  lookup_zip_map .none _ _ hn (by simpa using hl)

theorem bindCall_length {U : Type} {ps : Params U} {pos : List (PyArg U)}
    {kw : List (String × PyArg U)} {vals : List (PyArg U)}
    (h : bindCall ps pos kw = .ok vals) : vals.length = ps.length := by
  unfold bindCall at h
  split at h
  · simp at h
  · split at h
    · simp at h
    · split at h
      · simp at h
      · cases h
        simp
        omega

theorem bindCall_pos {U : Type} (ps : Params U) (vals : List (PyArg U))
    (hl : vals.length = ps.length) : bindCall ps vals [] = .ok vals := by
  unfold bindCall
  rw [if_neg (by omega), if_neg (by simp), if_neg (by simp), List.drop_of_length_le (by omega)]
  simp

theorem lookup_map_pair {U : Type} (f : String → PyArg U) (n : String) :
    ∀ names : List String, n ∈ names →
    (names.map fun k => (k, f k)).lookup n = some (f n)
  | [], h => by simp at h
  | m :: ms, h => by
    by_cases e : n = m
    · subst e; simp
    · have hb : (n == m) = false := by simpa using e
      simp only [List.map_cons, List.lookup, hb]
      exact lookup_map_pair f n ms (by simpa [e] using h)

theorem bindCall_kw {U : Type} (ps : Params U) (f : String → PyArg U)
    (hn : (ps.map Prod.fst).Nodup) :
    bindCall ps [] ((ps.map Prod.fst).map fun n => (n, f n)) =
      .ok ((ps.map Prod.fst).map f) := by
  unfold bindCall
  rw [if_neg (by simp), if_neg (by simp), if_neg]
  · simp only [List.length_nil, List.drop_zero, List.nil_append, List.map_map]
    congr 1
    apply List.map_congr_left
    intro p hp
    have := lookup_map_pair f p.1 (ps.map Prod.fst) (List.mem_map_of_mem hp)
    simp only [List.map_map] at this
    simp [this]
  · simp only [List.map_map, not_not]
    simpa [Function.comp_def] using hn

/-- Forwarding every parameter positionally in the declared order is faithful. -/
theorem forwardCall_pos {U : Type} (ps : Params U) (fw : Forward)
    (hn : (ps.map Prod.fst).Nodup) (hp : fw.pos = ps.map Prod.fst) (hk : fw.kw = [])
    (pos : List (PyArg U)) (kw : List (String × PyArg U)) :
    forwardCall ps ps fw pos kw = bindCall ps pos kw := by
  unfold forwardCall
  cases h : bindCall ps pos kw with
  | error e => rfl
  | ok vals =>
    have hl := bindCall_length h
    change bindCall ps _ _ = _
    rw [hp, hk, map_bodyVar ps vals hn hl]
    exact bindCall_pos ps vals hl

/-- Forwarding every parameter by keyword of the same name is faithful. -/
theorem forwardCall_kw {U : Type} (ps : Params U) (fw : Forward)
    (hn : (ps.map Prod.fst).Nodup) (hp : fw.pos = [])
    (hk : fw.kw = (ps.map Prod.fst).map fun n => (n, n))
    (pos : List (PyArg U)) (kw : List (String × PyArg U)) :
    forwardCall ps ps fw pos kw = bindCall ps pos kw := by
  unfold forwardCall
  cases h : bindCall ps pos kw with
  | error e => rfl
  | ok vals =>
    have hl := bindCall_length h
    change bindCall ps _ _ = _
    rw [hp, hk]
    have := bindCall_kw ps (bodyVar ps vals) hn
    rw [map_bodyVar ps vals hn hl] at this
    simpa [Function.comp_def] using this

end Kp
