import Verif.Model.Mask

namespace Kp

theorem filter_range_split (mask : ℕ → Bool) {m n : ℕ} (h : m < n) (hm : mask m = true) :
    ∃ rest, (List.range n).filter mask = (List.range m).filter mask ++ m :: rest := by
  obtain ⟨k, rfl⟩ : ∃ k, n = m + (k + 1) := ⟨n - m - 1, by omega⟩
  rw [List.range_add, List.filter_append, List.range_succ_eq_map, List.map_cons, Nat.add_zero,
    List.filter_cons, if_pos hm]
  exact ⟨_, rfl⟩

/-- The selected row `m` is at position `rank m` of the selection. -/
theorem boolSel_rank {α : Type*} {mask : ℕ → Bool} {m n : ℕ} (h : m < n) (hm : mask m = true)
    (a : ℕ → α) : (boolSel mask n a)[rank mask m]? = some (a m) := by
  obtain ⟨rest, hr⟩ := filter_range_split mask h hm
  unfold boolSel rank
  rw [hr, List.map_append, List.getElem?_append_right (by simp)]
  simp

theorem boolSel_length {α : Type*} (mask : ℕ → Bool) (n : ℕ) (a : ℕ → α) :
    (boolSel mask n a).length = rank mask n := by
  simp [boolSel, rank]

theorem rank_le {mask : ℕ → Bool} {m n : ℕ} (h : m ≤ n) : rank mask m ≤ rank mask n := by
  obtain ⟨k, rfl⟩ := Nat.exists_eq_add_of_le h
  unfold rank
  rw [List.range_add, List.filter_append, List.length_append]
  omega

theorem rank_lt {mask : ℕ → Bool} {m n : ℕ} (h : m < n) (hm : mask m = true) :
    rank mask m < rank mask n := by
  obtain ⟨rest, hr⟩ := filter_range_split mask h hm
  unfold rank
  rw [hr]
  simp

theorem rank_true (m : ℕ) : rank (fun _ => true) m = m := by
  simp [rank]

theorem boolSet_of_not {α : Type*} {mask : ℕ → Bool} {n m : ℕ} (old : ℕ → α) (vals : List α)
    (h : ¬ mask m = true) : boolSet mask n old vals m = old m := by
  unfold boolSet
  rw [if_neg (fun hh => h hh.2)]

/-- Assigning a selection of another array with the same mask copies the rows. -/
theorem boolSet_boolSel {α : Type*} {mask : ℕ → Bool} {n m : ℕ} (old a : ℕ → α) (h : m < n)
    (hm : mask m = true) : boolSet mask n old (boolSel mask n a) m = a m := by
  unfold boolSet
  rw [if_pos ⟨h, hm⟩, List.getD_eq_getElem?_getD, boolSel_rank h hm, Option.getD_some]

/-- The rank in a selected mask. -/
theorem rank_sel {keep mask : ℕ → Bool} {m n : ℕ} (h : m < n) (hk : keep m = true)
    (hsub : ∀ j < n, mask j = true → keep j = true) :
    rank (fun j => (boolSel keep n mask).getD j false) (rank keep m) = rank mask m := by
  obtain ⟨rest, hr⟩ := filter_range_split keep h hk
  have h1 : (List.range (rank keep m)).filter (fun j => (boolSel keep n mask).getD j false) =
      (List.range (rank keep m)).filter
        (fun j => (((List.range m).filter keep).map mask).getD j false) := by
    refine List.filter_congr fun j hj => ?_
    rw [List.mem_range] at hj
    unfold boolSel
    rw [hr, List.map_append, List.getD_eq_getElem?_getD, List.getD_eq_getElem?_getD,
      List.getElem?_append_left]
    simpa [rank] using hj
  unfold rank at h1 ⊢
  rw [h1]
  have h2 : ∀ l : List ℕ,
      ((List.range l.length).filter (fun j => (l.map mask).getD j false)).length =
        (l.filter mask).length := by
    intro l
    induction l with
    | nil => simp
    | cons x l ih =>
      rw [List.length_cons, List.range_succ_eq_map, List.filter_cons, List.filter_map,
        List.filter_cons]
      have : (fun j => (List.map mask (x :: l)).getD j false) ∘ Nat.succ =
          fun j => (List.map mask l).getD j false := by
        funext j
        simp
      rw [this]
      by_cases hx : mask x = true
      · simp only [List.map_cons, List.getD_cons_zero, hx, if_true, List.length_cons,
          List.length_map, ih]
      · simp only [List.map_cons, List.getD_cons_zero, hx]
        simpa using ih
  rw [h2, List.filter_filter]
  congr 1
  refine List.filter_congr fun j hj => ?_
  rw [List.mem_range] at hj
  by_cases hx : mask j = true
  · simp [hx, hsub j (by omega) hx]
  · simp [hx]

/-- Copying selected rows of an array which only has the rows of `keep`. -/
theorem boolSet_sub {α : Type*} {keep mask : ℕ → Bool} {m n size : ℕ} (old a : ℕ → α) (h : m < n)
    (hm : mask m = true) (hsub : ∀ j < n, mask j = true → keep j = true)
    (hsize : size = rank keep n) :
    boolSet mask n old
      (boolSel (fun j => (boolSel keep n mask).getD j false) size a) m = a (rank keep m) := by
  have hk := hsub m h hm
  unfold boolSet
  rw [if_pos ⟨h, hm⟩, List.getD_eq_getElem?_getD, ← rank_sel h hk hsub, boolSel_rank]
  · rfl
  · rw [hsize]
    exact rank_lt h hk
  · rw [List.getD_eq_getElem?_getD, boolSel_rank h hk]
    exact hm

end Kp
