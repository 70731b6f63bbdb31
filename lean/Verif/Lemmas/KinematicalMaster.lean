import Verif.Model.KinematicalMaster
import Mathlib.Algebra.BigOperators.Fin
import Mathlib.Algebra.Order.BigOperators.Group.Finset
import Mathlib.Algebra.BigOperators.Group.List.Lemmas
import Mathlib.Tactic.Linarith
import Mathlib.Tactic.Ring
import Mathlib.Tactic.FieldSimp
import Mathlib.Tactic.Positivity

/-! Lemmas about the kinematical master pattern and the threads that calculate it. -/

namespace Kp

noncomputable section

/-- What a list of additions adds to pixel `j`. -/
def addedTo (l : List (ℕ × ℝ)) (j : ℕ) : ℝ := (l.map fun u => if u.1 = j then u.2 else 0).sum

@[simp] theorem addedTo_nil (j : ℕ) : addedTo [] j = 0 := rfl

theorem addedTo_cons (u : ℕ × ℝ) (l : List (ℕ × ℝ)) (j : ℕ) :
    addedTo (u :: l) j = (if u.1 = j then u.2 else 0) + addedTo l j := by
  simp [addedTo]

theorem addedTo_append (l m : List (ℕ × ℝ)) (j : ℕ) :
    addedTo (l ++ m) j = addedTo l j + addedTo m j := by
  simp [addedTo]

theorem addedTo_flatten (l : List (List (ℕ × ℝ))) (j : ℕ) :
    addedTo l.flatten j = (l.map fun m => addedTo m j).sum := by
  induction l with
  | nil => rfl
  | cons m l ih => simp [addedTo_append, ih]

theorem addedTo_nonneg (l : List (ℕ × ℝ)) (h : ∀ u ∈ l, 0 ≤ u.2) (j : ℕ) : 0 ≤ addedTo l j := by
  induction l with
  | nil => simp
  | cons u l ih =>
    rw [addedTo_cons]
    have := ih fun v hv => h v (List.mem_cons_of_mem _ hv)
    have := h u List.mem_cons_self
    split_ifs <;> linarith

theorem addedTo_zero (l : List (ℕ × ℝ)) (j : ℕ) (h : ∀ u ∈ l, u.1 ≠ j) : addedTo l j = 0 := by
  induction l with
  | nil => simp
  | cons u l ih =>
    rw [addedTo_cons, if_neg (h u List.mem_cons_self),
      ih fun v hv => h v (List.mem_cons_of_mem _ hv), add_zero]

theorem foldl_addAt (l : List (ℕ × ℝ)) (mem : ℕ → ℝ) (j : ℕ) :
    l.foldl addAt mem j = mem j + addedTo l j := by
  induction l generalizing mem with
  | nil => simp
  | cons u l ih =>
    rw [List.foldl_cons, ih, addedTo_cons, addAt, Function.update_apply]
    by_cases h : j = u.1
    · subst h; simp; ring
    · rw [if_neg h, if_neg (Ne.symm h)]; ring

theorem getPatternSeq_eq (updates : List (List (ℕ × ℝ))) (j : ℕ) :
    getPatternSeq updates j = (updates.map fun m => addedTo m j).sum := by
  rw [getPatternSeq, foldl_addAt, addedTo_flatten, zero_add]

/-! ### Reflectors -/

theorem addedTo_zipIdx (f : V3 ℝ → Option ℝ) (dirs : List (V3 ℝ)) (k j : ℕ) (hk : k ≤ j)
    (hj : j - k < dirs.length) :
    addedTo ((dirs.zipIdx k).filterMap fun v => (f v.1).map fun a => (v.2, a)) j =
      (f dirs[j - k]).getD 0 := by
  induction dirs generalizing k with
  | nil => simp at hj
  | cons v dirs ih =>
    rw [List.zipIdx_cons, List.filterMap_cons]
    rcases Nat.eq_or_lt_of_le hk with h | h
    · subst h
      have hrest : addedTo ((dirs.zipIdx (k + 1)).filterMap fun v => (f v.1).map fun a => (v.2, a)) k
          = 0 := by
        apply addedTo_zero
        intro u hu
        rw [List.mem_filterMap] at hu
        obtain ⟨w, hw, hwu⟩ := hu
        have := List.le_snd_of_mem_zipIdx hw
        rw [Option.map_eq_some_iff] at hwu
        obtain ⟨a, -, rfl⟩ := hwu
        simp only
        omega
      cases hf : f v with
      | none => simp [hf, hrest]
      | some a => simp [hf, addedTo_cons, hrest]
    · have e : j - k = (j - (k + 1)) + 1 := by omega
      have hj' : j - (k + 1) < dirs.length := by simp at hj; omega
      have := ih (k + 1) h hj'
      simp only [e, List.getElem_cons_succ]
      cases hf : f v with
      | none => simpa [hf] using this
      | some a =>
        simp only [Option.map_some, addedTo_cons]
        rw [if_neg (by omega), zero_add, this]

theorem addedTo_reflectorUpdates (i : ℝ) (r : KinReflector) (dirs : List (V3 ℝ)) (j : ℕ)
    (hj : j < dirs.length) :
    addedTo (reflectorUpdates i r dirs) j = (bandUpdate i r.theta (r.normal.dot dirs[j])).getD 0 :=
  addedTo_zipIdx (fun v => bandUpdate i r.theta (r.normal.dot v)) dirs 0 j (Nat.zero_le _) hj

theorem bandUpdate_eq (i theta d : ℝ) (ht : 0 ≤ theta) (ht' : theta ≤ Real.pi / 2) (hd : |d| ≤ 1) :
    (bandUpdate i theta d).getD 0 =
      if |d| ≤ 1 / 10 ^ 7 then i / 2 else if 0 ≤ d ∧ d ≤ Real.sin theta then i else 0 := by
  rw [bandUpdate]
  by_cases h : |d| ≤ 1 / 10 ^ 7
  · rw [if_pos h, if_pos h]; simp; ring
  · rw [if_neg h, if_neg h]
    have hiff : (Real.arccos d ≤ Real.pi / 2 ∧ Real.pi / 2 - theta ≤ Real.arccos d) ↔
        (0 ≤ d ∧ d ≤ Real.sin theta) := by
      rw [Real.arccos_le_pi_div_two, Real.arccos, sub_le_sub_iff_left,
        Real.arcsin_le_iff_le_sin (abs_le.mp hd) ⟨by linarith, ht'⟩]
    by_cases hb : 0 ≤ d ∧ d ≤ Real.sin theta
    · rw [if_pos (hiff.mpr hb), if_pos hb]; rfl
    · rw [if_neg (fun h => hb (hiff.mp h)), if_neg hb]; rfl

/-- The plane seen from the other side. -/
def KinReflector.opposite (r : KinReflector) : KinReflector :=
  { r with normal := ⟨-r.normal.x, -r.normal.y, -r.normal.z⟩ }

theorem opposite_dot (r : KinReflector) (v : V3 ℝ) :
    r.opposite.normal.dot v = -(r.normal.dot v) := by
  simp only [KinReflector.opposite, V3.dot]; ring

theorem band_pair (i theta d : ℝ) (ht : 0 ≤ theta) (ht' : theta ≤ Real.pi / 2)
    (hs : 1 / 10 ^ 7 ≤ Real.sin theta) (hd : |d| ≤ 1) :
    (bandUpdate i theta d).getD 0 + (bandUpdate i theta (-d)).getD 0 =
      if |d| ≤ Real.sin theta then i else 0 := by
  rw [bandUpdate_eq i theta d ht ht' hd, bandUpdate_eq i theta (-d) ht ht' (by rwa [abs_neg]),
    abs_neg]
  by_cases h : |d| ≤ 1 / 10 ^ 7
  · rw [if_pos h, if_pos h, if_pos (le_trans h hs)]; ring
  · rw [if_neg h, if_neg h]
    have h0 : 0 < |d| := lt_trans (by positivity) (not_le.mp h)
    rcases le_total 0 d with hp | hn
    · have hd0 : 0 < d := by rwa [abs_of_nonneg hp] at h0
      rw [abs_of_nonneg hp, if_neg (c := 0 ≤ -d ∧ -d ≤ Real.sin theta) (by
        rintro ⟨h1, -⟩; linarith), add_zero]
      by_cases hb : d ≤ Real.sin theta
      · rw [if_pos ⟨hp, hb⟩, if_pos hb]
      · rw [if_neg (fun h => hb h.2), if_neg hb]
    · have hd0 : d < 0 := by rw [abs_of_nonpos hn] at h0; linarith
      rw [abs_of_nonpos hn, if_neg (c := 0 ≤ d ∧ d ≤ Real.sin theta) (by
        rintro ⟨h1, -⟩; linarith), zero_add]
      by_cases hb : -d ≤ Real.sin theta
      · rw [if_pos ⟨by linarith, hb⟩, if_pos hb]
      · rw [if_neg (fun h => hb h.2), if_neg hb]

/-! ### Directions -/

theorem gridCoordinate_eq (h k : ℕ) (hh : 1 ≤ h) : gridCoordinate h k = ((k : ℝ) - h) / h := by
  have : (h : ℝ) ≠ 0 := by exact_mod_cast (by omega : h ≠ 0)
  rw [gridCoordinate]; field_simp; ring

theorem stereoVector_unit (pole x y : ℝ) (hp : pole * pole = 1) :
    (stereoVector pole x y).dot (stereoVector pole x y) = 1 := by
  have h : (1 + x ^ 2 + y ^ 2) ≠ 0 := by positivity
  simp only [stereoVector, V3.dot]
  field_simp
  linear_combination (1 - x ^ 2 - y ^ 2) ^ 2 * hp

theorem abs_dot_le_one (a b : V3 ℝ) (ha : a.dot a = 1) (hb : b.dot b = 1) : |a.dot b| ≤ 1 := by
  rw [abs_le]
  simp only [V3.dot] at *
  constructor
  · nlinarith [sq_nonneg (a.x + b.x), sq_nonneg (a.y + b.y), sq_nonneg (a.z + b.z)]
  · nlinarith [sq_nonneg (a.x - b.x), sq_nonneg (a.y - b.y), sq_nonneg (a.z - b.z)]

theorem hemisphereDirections_length (h : ℕ) (pole : ℝ) :
    (hemisphereDirections h pole).length = (2 * h + 1) * (2 * h + 1) := by
  simp [hemisphereDirections]

theorem pixel_lt (h r c : ℕ) (hr : r ≤ 2 * h) (hc : c ≤ 2 * h) :
    r * (2 * h + 1) + c < (2 * h + 1) * (2 * h + 1) := by
  nlinarith

theorem hemisphereDirections_getElem (h : ℕ) (pole : ℝ) (r c : ℕ) (hc : c ≤ 2 * h)
    (hlt : r * (2 * h + 1) + c < (hemisphereDirections h pole).length) :
    (hemisphereDirections h pole)[r * (2 * h + 1) + c] =
      stereoVector pole (gridCoordinate h c) (gridCoordinate h r) := by
  have e1 : (r * (2 * h + 1) + c) % (2 * h + 1) = c := by
    rw [Nat.add_comm, Nat.add_mul_mod_self_right, Nat.mod_eq_of_lt (by omega)]
  have e2 : (r * (2 * h + 1) + c) / (2 * h + 1) = r := by
    rw [Nat.add_comm, Nat.add_mul_div_right _ _ (by omega), Nat.div_eq_of_lt (by omega), zero_add]
  simp [hemisphereDirections, e1, e2]

theorem kinImage_getElem (h : ℕ) (pole : ℝ) (intensity : KinReflector → ℝ)
    (refl : List KinReflector) (r c : ℕ) (hr : r ≤ 2 * h) (hc : c ≤ 2 * h) :
    (kinImage h pole intensity refl)[r * (2 * h + 1) + c]? =
      some (refl.map fun k => (bandUpdate (intensity k) k.theta
        (k.normal.dot (stereoVector pole (gridCoordinate h c) (gridCoordinate h r)))).getD 0).sum := by
  have hlt := pixel_lt h r c hr hc
  rw [kinImage, List.getElem?_map, List.getElem?_range hlt, Option.map_some, getPatternSeq_eq,
    kinUpdates, List.map_map]
  congr 2
  apply List.map_congr_left
  intro k _
  rw [Function.comp_apply, addedTo_reflectorUpdates _ _ _ _ (by
    rw [hemisphereDirections_length]; exact hlt), hemisphereDirections_getElem _ _ _ _ hc]

/-! ### Threads -/

/-- What all threads are still to add to pixel `j`. -/
def KinState.pending {n : ℕ} (s : KinState n) (j : ℕ) : ℝ :=
  ∑ i, addedTo (s.threads i).todo j

theorem sum_update_todo {n : ℕ} (f : Fin n → KinThread) (i : Fin n) (t : KinThread) (j : ℕ) :
    ∑ k, addedTo (Function.update f i t k).todo j =
      ∑ k, addedTo (f k).todo j - addedTo (f i).todo j + addedTo t.todo j := by
  have h1 : ∑ k, addedTo (Function.update f i t k).todo j =
      ∑ k ∈ Finset.univ.erase i, addedTo (f k).todo j + addedTo t.todo j := by
    rw [← Finset.sum_erase_add _ _ (Finset.mem_univ i), Function.update_self]
    congr 1
    apply Finset.sum_congr rfl
    intro k hk
    rw [Function.update_of_ne (Finset.ne_of_mem_erase hk)]
  rw [h1, ← Finset.sum_erase_add _ _ (Finset.mem_univ i)]
  ring

/-- Every additions list holds no negative values. -/
def KinState.Nonneg {n : ℕ} (s : KinState n) : Prop := ∀ i, ∀ u ∈ (s.threads i).todo, 0 ≤ u.2

/-- The array, and what threads have read, are below a bound minus what is still to be added. -/
structure KinBelow {n : ℕ} (s : KinState n) (j : ℕ) (b : ℝ) : Prop where
  mem : s.mem j + s.pending j ≤ b
  reg : ∀ i u l r, s.threads i = ⟨u :: l, some r⟩ → u.1 = j → r + s.pending j ≤ b

theorem nonneg_step {n : ℕ} (s t : KinState n) (st : KinStep s t) (hs : s.Nonneg) : t.Nonneg := by
  cases st with
  | read i u l h =>
    intro k v hv
    by_cases e : k = i
    · subst e
      simp only [Function.update_self] at hv
      exact hs k v (by rw [h]; exact hv)
    · simp only [Function.update_of_ne e] at hv
      exact hs k v hv
  | write i u l r h =>
    intro k v hv
    by_cases e : k = i
    · subst e
      simp only [Function.update_self] at hv
      exact hs k v (by rw [h]; exact List.mem_cons_of_mem _ hv)
    · simp only [Function.update_of_ne e] at hv
      exact hs k v hv

theorem below_step {n : ℕ} (s t : KinState n) (j : ℕ) (b : ℝ) (st : KinStep s t) (hn : s.Nonneg)
    (hs : KinBelow s j b) : KinBelow t j b := by
  cases st with
  | read i u l h =>
    have hp : KinState.pending
        ⟨s.mem, Function.update s.threads i ⟨u :: l, some (s.mem u.1)⟩⟩ j = s.pending j := by
      simp only [KinState.pending, sum_update_todo, h]; ring
    refine ⟨by rw [hp]; exact hs.mem, ?_⟩
    intro k v m r hk hv
    rw [hp]
    by_cases e : k = i
    · subst e
      simp only [Function.update_self, KinThread.mk.injEq, List.cons.injEq, Option.some.injEq] at hk
      obtain ⟨⟨rfl, -⟩, rfl⟩ := hk
      rw [hv]
      exact hs.mem
    · simp only [Function.update_of_ne e] at hk
      exact hs.reg k v m r hk hv
  | write i u l r h =>
    have hu : 0 ≤ u.2 := hn i u (by rw [h]; exact List.mem_cons_self)
    have hp : KinState.pending ⟨Function.update s.mem u.1 (r + u.2),
        Function.update s.threads i ⟨l, none⟩⟩ j = s.pending j - if u.1 = j then u.2 else 0 := by
      simp only [KinState.pending, sum_update_todo, h, addedTo_cons]; ring
    have hle : KinState.pending ⟨Function.update s.mem u.1 (r + u.2),
        Function.update s.threads i ⟨l, none⟩⟩ j ≤ s.pending j := by
      rw [hp]; split_ifs <;> linarith
    refine ⟨?_, ?_⟩
    · by_cases e : u.1 = j
      · have := hs.reg i u l r h e
        rw [hp, if_pos e, ← e]
        simp only [Function.update_self]
        rw [e]
        linarith
      · rw [hp, if_neg e]
        simp only [Function.update_of_ne (Ne.symm e)]
        have := hs.mem
        linarith
    · intro k v m r' hk hv
      by_cases e : k = i
      · subst e
        simp at hk
      · simp only [Function.update_of_ne e] at hk
        have := hs.reg k v m r' hk hv
        linarith

theorem below_run {n : ℕ} (s t : KinState n) (j : ℕ) (b : ℝ) (st : KinRun s t) (hn : s.Nonneg)
    (hs : KinBelow s j b) : t.Nonneg ∧ KinBelow t j b := by
  induction st with
  | refl => exact ⟨hn, hs⟩
  | tail t u _ st ih => exact ⟨nonneg_step t u st ih.1, below_step t u j b st ih.1 ih.2⟩

theorem pending_done {n : ℕ} (s : KinState n) (h : s.Done) (j : ℕ) : s.pending j = 0 := by
  apply Finset.sum_eq_zero
  intro i _
  rw [h i, addedTo_nil]

/-- The array and what threads have read are not negative. -/
structure KinAbove {n : ℕ} (s : KinState n) : Prop where
  todo : s.Nonneg
  mem : ∀ j, 0 ≤ s.mem j
  reg : ∀ i u l r, s.threads i = ⟨u :: l, some r⟩ → 0 ≤ r

theorem above_step {n : ℕ} (s t : KinState n) (st : KinStep s t) (hs : KinAbove s) : KinAbove t := by
  refine ⟨nonneg_step s t st hs.todo, ?_, ?_⟩
  · cases st with
    | read i u l h => exact hs.mem
    | write i u l r h =>
      intro j
      have h1 := hs.reg i u l r h
      have h2 := hs.todo i u (by rw [h]; exact List.mem_cons_self)
      simp only [Function.update_apply]
      split_ifs
      · linarith
      · exact hs.mem j
  · cases st with
    | read i u l h =>
      intro k v m r hk
      by_cases e : k = i
      · subst e
        simp only [Function.update_self, KinThread.mk.injEq, Option.some.injEq] at hk
        rw [← hk.2]
        exact hs.mem _
      · simp only [Function.update_of_ne e] at hk
        exact hs.reg k v m r hk
    | write i u l r h =>
      intro k v m r' hk
      by_cases e : k = i
      · subst e
        simp at hk
      · simp only [Function.update_of_ne e] at hk
        exact hs.reg k v m r' hk

theorem above_run {n : ℕ} (s t : KinState n) (st : KinRun s t) (hs : KinAbove s) : KinAbove t := by
  induction st with
  | refl => exact hs
  | tail t u _ st ih => exact above_step t u st ih

/-- Only thread `i` has additions to pixel `j`, and it sees its own ones. -/
structure KinOwned {n : ℕ} (s : KinState n) (i : Fin n) (j : ℕ) (b : ℝ) : Prop where
  mem : s.mem j + addedTo (s.threads i).todo j = b
  reg : ∀ u l r, s.threads i = ⟨u :: l, some r⟩ → u.1 = j → r = s.mem j
  other : ∀ k, k ≠ i → ∀ u ∈ (s.threads k).todo, u.1 ≠ j

theorem owned_step {n : ℕ} (s t : KinState n) (i : Fin n) (j : ℕ) (b : ℝ) (st : KinStep s t)
    (hs : KinOwned s i j b) : KinOwned t i j b := by
  cases st with
  | read k u l h =>
    by_cases e : k = i
    · subst e
      refine ⟨?_, ?_, ?_⟩
      · have := hs.mem
        simp only [Function.update_self]
        rw [h] at this
        exact this
      · intro v m r hk hv
        simp only [Function.update_self, KinThread.mk.injEq, List.cons.injEq,
          Option.some.injEq] at hk
        obtain ⟨⟨rfl, -⟩, rfl⟩ := hk
        rw [hv]
      · intro k' hk' v hv
        simp only [Function.update_of_ne hk'] at hv
        exact hs.other k' hk' v hv
    · refine ⟨?_, ?_, ?_⟩
      · simp only [Function.update_of_ne (Ne.symm e)]
        exact hs.mem
      · intro v m r hk hv
        simp only [Function.update_of_ne (Ne.symm e)] at hk
        exact hs.reg v m r hk hv
      · intro k' hk' v hv
        by_cases e' : k' = k
        · subst e'
          simp only [Function.update_self] at hv
          exact hs.other k' hk' v (by rw [h]; exact hv)
        · simp only [Function.update_of_ne e'] at hv
          exact hs.other k' hk' v hv
  | write k u l r h =>
    by_cases e : k = i
    · subst e
      have hm := hs.mem
      rw [h] at hm
      simp only [addedTo_cons] at hm
      refine ⟨?_, ?_, ?_⟩
      · simp only [Function.update_self]
        by_cases e : u.1 = j
        · have hr := hs.reg u l r h e
          rw [if_pos e] at hm
          rw [← e]
          simp only [Function.update_self]
          rw [e]
          linarith
        · rw [if_neg e] at hm
          simp only [Function.update_of_ne (Ne.symm e)]
          linarith
      · intro v m r' hk
        simp at hk
      · intro k' hk' v hv
        simp only [Function.update_of_ne hk'] at hv
        exact hs.other k' hk' v hv
    · have hu : u.1 ≠ j := hs.other k e u (by rw [h]; exact List.mem_cons_self)
      refine ⟨?_, ?_, ?_⟩
      · simp only [Function.update_of_ne (Ne.symm e), Function.update_of_ne (Ne.symm hu)]
        exact hs.mem
      · intro v m r' hk hv
        simp only [Function.update_of_ne (Ne.symm e)] at hk
        simp only [Function.update_of_ne (Ne.symm hu)]
        exact hs.reg v m r' hk hv
      · intro k' hk' v hv
        by_cases e' : k' = k
        · subst e'
          simp only [Function.update_self] at hv
          exact hs.other k' hk' v (by rw [h]; exact List.mem_cons_of_mem _ hv)
        · simp only [Function.update_of_ne e'] at hv
          exact hs.other k' hk' v hv

theorem owned_run {n : ℕ} (s t : KinState n) (i : Fin n) (j : ℕ) (b : ℝ) (st : KinRun s t)
    (hs : KinOwned s i j b) : KinOwned t i j b := by
  induction st with
  | refl => exact hs
  | tail t u _ st ih => exact owned_step t u i j b st ih

/-! ### Existence of runs -/

theorem KinRun.trans {n : ℕ} {s t u : KinState n} (h1 : KinRun s t) (h2 : KinRun t u) :
    KinRun s u := by
  induction h2 with
  | refl => exact h1
  | tail a b _ st ih => exact KinRun.tail _ _ _ ih st

/-- A thread can make its first additions on its own. -/
theorem run_one {n : ℕ} (p : List (ℕ × ℝ)) (q : List (ℕ × ℝ)) (i : Fin n) (s : KinState n)
    (h : s.threads i = ⟨p ++ q, none⟩) :
    ∃ mem, KinRun s ⟨mem, Function.update s.threads i ⟨q, none⟩⟩ ∧
      mem = p.foldl addAt s.mem := by
  induction p generalizing s with
  | nil =>
    refine ⟨s.mem, ?_, rfl⟩
    have : Function.update s.threads i ⟨q, none⟩ = s.threads := by
      rw [← show s.threads i = ⟨q, none⟩ from h, Function.update_eq_self]
    rw [this]
    exact KinRun.refl s
  | cons u p ih =>
    have s1 := KinStep.read s i u (p ++ q) h
    have s2 := KinStep.write
      ⟨s.mem, Function.update s.threads i ⟨u :: (p ++ q), some (s.mem u.1)⟩⟩ i u (p ++ q)
      (s.mem u.1) (by simp)
    simp only [Function.update_idem] at s2
    obtain ⟨mem, hr, hm⟩ := ih
      ⟨Function.update s.mem u.1 (s.mem u.1 + u.2), Function.update s.threads i ⟨p ++ q, none⟩⟩
      (by simp)
    simp only [Function.update_idem] at hr
    exact ⟨mem, ((KinRun.tail _ _ _ (KinRun.tail _ _ _ (KinRun.refl s) s1) s2)).trans hr, hm⟩

theorem finish_thread {n : ℕ} (i : Fin n) (s : KinState n) :
    ∃ t, KinRun s t ∧ (t.threads i).todo = [] ∧ ∀ k, k ≠ i → t.threads k = s.threads k := by
  rcases hth : s.threads i with ⟨l, _ | r⟩
  · obtain ⟨mem, hr, -⟩ := run_one l [] i s (by rw [hth, List.append_nil])
    exact ⟨_, hr, by simp, fun k hk => by simp [Function.update_of_ne hk]⟩
  · cases l with
    | nil => exact ⟨s, KinRun.refl s, by rw [hth], fun _ _ => rfl⟩
    | cons u l =>
      have s1 := KinStep.write s i u l r hth
      obtain ⟨mem, hr, -⟩ := run_one l [] i
        ⟨Function.update s.mem u.1 (r + u.2), Function.update s.threads i ⟨l, none⟩⟩ (by simp)
      refine ⟨_, (KinRun.tail _ _ _ (KinRun.refl s) s1).trans hr, by simp, ?_⟩
      intro k hk
      simp [Function.update_of_ne hk]

theorem finish {n : ℕ} (s : KinState n) : ∃ t, KinRun s t ∧ t.Done := by
  have key : ∀ (A : Finset (Fin n)), ∃ t, KinRun s t ∧ ∀ i ∈ A, (t.threads i).todo = [] := by
    intro A
    induction A using Finset.induction_on with
    | empty => exact ⟨s, KinRun.refl s, by simp⟩
    | insert i A hi ih =>
      obtain ⟨t, hr, ht⟩ := ih
      obtain ⟨u, hu, hui, huk⟩ := finish_thread i t
      refine ⟨u, hr.trans hu, ?_⟩
      intro k hk
      by_cases e : k = i
      · rw [e]; exact hui
      · rw [huk k e]
        exact ht k (Finset.mem_of_mem_insert_of_ne hk e)
  obtain ⟨t, hr, ht⟩ := key Finset.univ
  exact ⟨t, hr, fun i => ht i (Finset.mem_univ i)⟩

/-- Two threads with additions to the same pixel may lose one of them. -/
theorem race {n : ℕ} (work : Fin n → List (ℕ × ℝ)) (h0 : ∀ i, ∀ u ∈ work i, 0 ≤ u.2)
    (i k : Fin n) (hik : i ≠ k) (j : ℕ) (a b : ℝ) (hi : (j, a) ∈ work i) (hk : (j, b) ∈ work k) :
    ∃ t, KinRun (kinStart work) t ∧ t.Done ∧ t.mem j ≤ ∑ m, addedTo (work m) j - a := by
  obtain ⟨p, q, hpq⟩ := List.append_of_mem hi
  obtain ⟨p', q', hpq'⟩ := List.append_of_mem hk
  have hki : k ≠ i := Ne.symm hik
  obtain ⟨m1, r1, -⟩ := run_one p ((j, a) :: q) i (kinStart work) (by simp [kinStart, hpq])
  obtain ⟨m2, r2, -⟩ := run_one p' ((j, b) :: q') k
    ⟨m1, Function.update (kinStart work).threads i ⟨(j, a) :: q, none⟩⟩
    (by simp [Function.update_of_ne hki, kinStart, hpq'])
  -- bound before the race
  have hn0 : (kinStart work).Nonneg := h0
  have hb0 : KinBelow (kinStart work) j (∑ m, addedTo (work m) j) := by
    refine ⟨by simp [kinStart, KinState.pending], ?_⟩
    intro i u l r h
    simp [kinStart] at h
  have hb2 := below_run _ _ j _ (r1.trans r2) hn0 hb0
  set s2 : KinState n := ⟨m2, Function.update
    (Function.update (kinStart work).threads i ⟨(j, a) :: q, none⟩) k ⟨(j, b) :: q', none⟩⟩
    with hs2
  have t2i : s2.threads i = ⟨(j, a) :: q, none⟩ := by simp [hs2, Function.update_of_ne hik]
  have t2k : s2.threads k = ⟨(j, b) :: q', none⟩ := by simp [hs2]
  -- both read
  have st3 := KinStep.read s2 k (j, b) q' t2k
  set s3 : KinState n := ⟨s2.mem, Function.update s2.threads k ⟨(j, b) :: q', some (s2.mem j)⟩⟩
    with hs3
  have t3i : s3.threads i = ⟨(j, a) :: q, none⟩ := by
    simp [hs3, Function.update_of_ne hik, t2i]
  have t3k : s3.threads k = ⟨(j, b) :: q', some (s2.mem j)⟩ := by simp [hs3]
  obtain ⟨m4, r4, hm4⟩ := run_one [(j, a)] q i s3 t3i
  set s4 : KinState n := ⟨m4, Function.update s3.threads i ⟨q, none⟩⟩ with hs4
  have t4k : s4.threads k = ⟨(j, b) :: q', some (s2.mem j)⟩ := by
    simp [hs4, Function.update_of_ne hki, t3k]
  have st5 := KinStep.write s4 k (j, b) q' (s2.mem j) t4k
  set s5 : KinState n := ⟨Function.update s4.mem j (s2.mem j + b),
    Function.update s4.threads k ⟨q', none⟩⟩ with hs5
  have run5 : KinRun s2 s5 :=
    KinRun.tail _ _ _ ((KinRun.tail _ _ _ (KinRun.refl s2) st3).trans r4) st5
  have hn5 : s5.Nonneg := (below_run _ _ j _ run5 hb2.1 hb2.2).1
  have hb5 := (below_run _ _ j _ run5 hb2.1 hb2.2).2
  have hpend : s5.pending j = s2.pending j - a - b := by
    simp only [KinState.pending, hs5, hs4, hs3, sum_update_todo, Function.update_of_ne hik,
      Function.update_of_ne hki, Function.update_self, t2i, t2k, addedTo_cons]
    simp only [if_true]
    ring
  have hnone : ∀ m, (s5.threads m).reg = none := by
    intro m
    by_cases e1 : m = k
    · subst e1; simp [hs5]
    · by_cases e2 : m = i
      · subst e2; simp [hs5, hs4, Function.update_of_ne e1]
      · simp [hs5, hs4, hs3, hs2, Function.update_of_ne e1, Function.update_of_ne e2, kinStart]
  have hbelow : KinBelow s5 j (∑ m, addedTo (work m) j - a) := by
    refine ⟨?_, ?_⟩
    · rw [hpend]
      have := hb2.2.mem
      simp only [hs5, Function.update_self]
      linarith
    · intro m u l r h
      have := hnone m
      rw [h] at this
      simp at this
  obtain ⟨t, rt, hd⟩ := finish s5
  have hfin := (below_run _ _ j _ rt hn5 hbelow).2.mem
  rw [pending_done t hd, add_zero] at hfin
  exact ⟨t, ((r1.trans r2).trans run5).trans rt, hd, hfin⟩

end

end Kp
