import Verif.Model.DataCache
import Mathlib.Tactic.IntervalCases
import Mathlib.Data.List.Nodup
import Mathlib.Tactic.Linarith

/-! Lemmas about the data cache. -/

namespace Kp

variable {B H : Type}

theorem find_filter_ne (l : List (CachePath × B)) (p q : CachePath) :
    (l.filter fun f => f.1 != p).find? (fun f => f.1 == q) =
      if q = p then none else l.find? fun f => f.1 == q := by
  induction l with
  | nil => simp
  | cons f l ih =>
    rw [List.filter_cons]
    by_cases hf : f.1 = p
    · have : (f.1 != p) = false := by simp [hf]
      rw [this]
      simp only [Bool.false_eq_true, if_false]
      rw [ih]
      by_cases hq : q = p
      · rw [if_pos hq, if_pos hq]
      · rw [if_neg hq, if_neg hq, List.find?_cons]
        have : (f.1 == q) = false := by
          rw [beq_eq_false_iff_ne]; rw [hf]; exact fun e => hq e.symm
        rw [this]
    · have : (f.1 != p) = true := by simp [hf]
      rw [this, if_pos rfl, List.find?_cons, ih]
      by_cases hfq : f.1 = q
      · have h1 : (f.1 == q) = true := by simp [hfq]
        have h2 : q ≠ p := fun e => hf (hfq.trans e)
        simp [List.find?_cons, h1, h2]
      · have h1 : (f.1 == q) = false := by simp [hfq]
        rw [h1, List.find?_cons, h1]

theorem read_remove (w : CacheWorld B) (p q : CachePath) :
    (w.remove p).read q = if q = p then none else w.read q := by
  simp only [CacheWorld.read, CacheWorld.remove, find_filter_ne]
  split_ifs <;> rfl

theorem read_write (w : CacheWorld B) (p q : CachePath) (b : B) :
    (w.write p b).read q = if q = p then some b else w.read q := by
  rw [CacheWorld.write]
  simp only [CacheWorld.read, List.find?_cons]
  by_cases h : q = p
  · have : (p == q) = true := by simp [h]
    simp [h]
  · have : (p == q) = false := by rw [beq_eq_false_iff_ne]; exact fun e => h e.symm
    rw [this, if_neg h]
    have := read_remove w p q
    rw [if_neg h] at this
    exact this

theorem write_requests (w : CacheWorld B) (p : CachePath) (b : B) :
    (w.write p b).requests = w.requests := rfl

theorem mem_of_read (w : CacheWorld B) (p : CachePath) (b : B) (h : w.read p = some b) :
    (p, b) ∈ w.files := by
  rw [CacheWorld.read, Option.map_eq_some_iff] at h
  obtain ⟨f, hf, rfl⟩ := h
  have h1 := List.find?_some hf
  have h2 := List.mem_of_find?_eq_some hf
  have : f.1 = p := by simpa using h1
  rw [← this]
  exact h2

variable [DecidableEq H]

/-- What a successful `Pooch.fetch()` leaves. -/
theorem poochFetch_ok (env : FetchEnv B H) (w w' : CacheWorld B) (p : CachePath) (a : FetchAction)
    (h : poochFetch env w p = (.ok a, w')) :
    (∃ b, w'.read p = some b ∧ env.hashes p = some (env.md5 b)) ∧
      (∀ q, q ≠ p → w'.read q = w.read q) ∧
      (a = .fetch → w' = w) ∧
      (a = .fetch ↔ ∃ b, w.read p = some b ∧ env.hashes p = some (env.md5 b)) := by
  rw [poochFetch] at h
  cases hh : env.hashes p with
  | none => rw [hh] at h; simp at h
  | some k =>
    rw [hh] at h
    simp only at h
    by_cases hr : (w.read p).map env.md5 = some k
    · rw [if_pos hr] at h
      obtain ⟨h1, h2⟩ := Prod.mk.inj h
      simp only [Except.ok.injEq] at h1
      subst h1 h2
      rw [Option.map_eq_some_iff] at hr
      obtain ⟨b, hb, hk⟩ := hr
      refine ⟨⟨b, hb, by rw [hk]⟩, fun _ _ => rfl, fun _ => rfl, ?_⟩
      exact ⟨fun _ => ⟨b, hb, by rw [hk]⟩, fun _ => rfl⟩
    · rw [if_neg hr] at h
      cases hn : env.net ((env.urls p).getD ("/".intercalate p)) with
      | none => rw [hn] at h; simp at h
      | some b =>
        rw [hn] at h
        simp only at h
        by_cases hb : env.md5 b = k
        · rw [if_pos hb] at h
          obtain ⟨h1, h2⟩ := Prod.mk.inj h
          simp only [Except.ok.injEq] at h1
          subst h1 h2
          refine ⟨⟨b, by rw [read_write, if_pos rfl], by rw [hb]⟩, ?_, ?_, ?_⟩
          · intro q hq
            rw [read_write, if_neg hq]
            rfl
          · intro e; simp at e
          · constructor
            · intro e; simp at e
            · rintro ⟨b', hb', hk'⟩
              exact absurd (by rw [hb', Option.map_some]; exact hk'.symm) hr
        · rw [if_neg hb] at h; simp at h

/-- A failed `Pooch.fetch()` leaves all files alone. -/
theorem poochFetch_error (env : FetchEnv B H) (w w' : CacheWorld B) (p : CachePath) (e : String)
    (h : poochFetch env w p = (.error e, w')) : w'.files = w.files := by
  rw [poochFetch] at h
  cases hh : env.hashes p with
  | none => rw [hh] at h; simp at h; rw [← h.2]
  | some k =>
    rw [hh] at h
    simp only at h
    by_cases hr : (w.read p).map env.md5 = some k
    · rw [if_pos hr] at h; simp at h
    · rw [if_neg hr] at h
      cases hn : env.net ((env.urls p).getD ("/".intercalate p)) with
      | none => rw [hn] at h; simp at h; rw [← h.2]
      | some b =>
        rw [hn] at h
        simp only at h
        by_cases hb : env.md5 b = k
        · rw [if_pos hb] at h; simp at h
        · rw [if_neg hb] at h; simp at h; rw [← h.2]

/-- `Pooch.fetch()` of a file with the registered hash does nothing. -/
theorem poochFetch_present (env : FetchEnv B H) (w : CacheWorld B) (p : CachePath) (b : B)
    (hb : w.read p = some b) (hh : env.hashes p = some (env.md5 b)) :
    poochFetch env w p = (.ok .fetch, w) := by
  rw [poochFetch, hh]
  simp only
  rw [if_pos (by rw [hb]; rfl)]

/-- `Pooch.fetch()` succeeds from any state if the right file is on offer. -/
theorem poochFetch_download (env : FetchEnv B H) (w : CacheWorld B) (p : CachePath) (b : B)
    (hn : env.net ((env.urls p).getD ("/".intercalate p)) = some b)
    (hh : env.hashes p = some (env.md5 b)) : ∃ a w', poochFetch env w p = (.ok a, w') := by
  rw [poochFetch, hh]
  simp only
  by_cases hr : (w.read p).map env.md5 = some (env.md5 b)
  · rw [if_pos hr]; exact ⟨_, _, rfl⟩
  · rw [if_neg hr, hn]
    simp

/-- `Pooch.fetch()` of a file that is not there downloads what is on offer. -/
theorem poochFetch_missing (env : FetchEnv B H) (w : CacheWorld B) (p : CachePath) (b : B)
    (hn : env.net ((env.urls p).getD ("/".intercalate p)) = some b)
    (hh : env.hashes p = some (env.md5 b)) (hm : w.read p = none) :
    ∃ w', poochFetch env w p = (.ok .download, w') ∧ w'.read p = some b ∧
      ∀ q, q ≠ p → w'.read q = w.read q := by
  refine ⟨CacheWorld.write ⟨w.files, w.requests ++ [(env.urls p).getD ("/".intercalate p)]⟩ p b,
    ?_, ?_, ?_⟩
  · rw [poochFetch, hh]
    simp only
    rw [if_neg (by rw [hm]; simp), hn]
    simp
  · rw [read_write, if_pos rfl]
  · intro q hq
    rw [read_write, if_neg hq]
    rfl

omit [DecidableEq H] in
/-- Files written by unpacking. -/
theorem read_extract (dir : CachePath) (l : List (CachePath × B)) (w : CacheWorld B)
    (hl : (l.map fun m => m.1).Nodup) (q : CachePath) :
    (l.foldl (fun w m => w.write (dir ++ m.1) m.2) w).read q =
      match l.find? fun m => dir ++ m.1 == q with
      | some m => some m.2
      | none => w.read q := by
  induction l generalizing w with
  | nil => rfl
  | cons m l ih =>
    rw [List.map_cons, List.nodup_cons] at hl
    rw [List.foldl_cons, ih _ hl.2, List.find?_cons]
    by_cases h : dir ++ m.1 = q
    · have h1 : (dir ++ m.1 == q) = true := by simp [h]
      rw [h1]
      have : l.find? (fun m => dir ++ m.1 == q) = none := by
        rw [List.find?_eq_none]
        intro x hx hxq
        have e : dir ++ x.1 = q := by simpa using hxq
        rw [← h] at e
        have := List.append_cancel_left e
        exact hl.1 (by rw [← this]; exact List.mem_map_of_mem hx)
      rw [this]
      simp only
      rw [read_write, if_pos h.symm]
    · have h1 : (dir ++ m.1 == q) = false := by simp [h]
      rw [h1]
      cases hf : l.find? (fun m => dir ++ m.1 == q) with
      | some x => rfl
      | none =>
        simp only
        rw [read_write, if_neg (fun e => h e.symm)]

omit [DecidableEq H] in
theorem read_extract_of_mem (dir : CachePath) (l : List (CachePath × B)) (w : CacheWorld B)
    (hl : (l.map fun m => m.1).Nodup) (m : CachePath × B) (hm : m ∈ l) :
    (l.foldl (fun w m => w.write (dir ++ m.1) m.2) w).read (dir ++ m.1) = some m.2 := by
  rw [read_extract dir l w hl]
  cases hf : l.find? (fun x => dir ++ x.1 == dir ++ m.1) with
  | none =>
    rw [List.find?_eq_none] at hf
    exact absurd (by simp) (hf m hm)
  | some x =>
    have h1 := List.find?_some hf
    have h2 := List.mem_of_find?_eq_some hf
    have e : x.1 = m.1 := by simpa using h1
    have : x = m := List.inj_on_of_nodup_map hl h2 hm e
    rw [this]

omit [DecidableEq H] in
theorem unzip_other (env : FetchEnv B H) (w : CacheWorld B) (dir : CachePath) (archive : B)
    (a : FetchAction) (q : CachePath) (hq : ¬ dir <+: q) :
    (unzip env w dir archive a).read q = w.read q := by
  rw [unzip]
  split_ifs
  · rename_i hcond
    clear hcond
    generalize env.members archive = l
    induction l generalizing w with
    | nil => rfl
    | cons m l ih =>
      rw [List.foldl_cons, ih, read_write, if_neg]
      rintro rfl
      exact hq (List.prefix_append _ _)
  · rfl

end Kp
