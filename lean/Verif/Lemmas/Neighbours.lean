import Verif.Spec.Neighbours
import Verif.Lemmas.Rescale
import Mathlib.Tactic.Ring
import Mathlib.Tactic.FieldSimp
import Mathlib.Tactic.Linarith

set_option linter.unusedSectionVars false

namespace Kp

theorem chunkBounds_mem (cs : List ℕ) (off i : ℕ) (h0 : off ≤ i) (h1 : i < off + cs.sum) :
    (chunkBounds cs off i).1 ≤ i ∧ i < (chunkBounds cs off i).2 := by
  induction cs generalizing off with
  | nil => simp at h1; omega
  | cons c cs ih =>
    unfold chunkBounds
    split
    · exact ⟨h0, ‹_›⟩
    · rw [List.sum_cons] at h1
      exact ih (off + c) (by omega) (by omega)

/-- Membership in the extended chunk. -/
theorem overlapBounds_spec (cs : List ℕ) (n d i : ℕ) (hn : cs.sum = n) (hi : i < n) :
    (overlapBounds cs n d i).1 ≤ i - d ∧ (overlapBounds cs n d i).1 ≤ i ∧
      i < (overlapBounds cs n d i).2 ∧ (overlapBounds cs n d i).2 ≤ n ∧
      min (i + d + 1) n ≤ (overlapBounds cs n d i).2 := by
  have := chunkBounds_mem cs 0 i (by omega) (by omega)
  unfold overlapBounds
  dsimp only
  omega

/-- One chunk covering the axis. -/
theorem overlapBounds_single (cs : List ℕ) (n d i : ℕ) (hn : ∃ c rest, cs = c :: rest ∧ n ≤ c)
    (hi : i < n) : overlapBounds cs n d i = (0, n) := by
  obtain ⟨c, rest, rfl, hc⟩ := hn
  unfold overlapBounds chunkBounds
  rw [if_pos (by omega)]
  simp
  omega

theorem foldl_max_mem (l : List ℕ) (a : ℕ) : l.foldl max a = a ∨ l.foldl max a ∈ l := by
  induction l generalizing a with
  | nil => simp
  | cons x l ih =>
    rw [List.foldl_cons]
    rcases ih (max a x) with h | h
    · rw [h]
      rcases max_choice a x with h' | h' <;> rw [h'] <;> simp
    · right; simp [h]

theorem chunkBounds_whole (cs : List ℕ) (n off i : ℕ) (hm : n ∈ cs) (hs : cs.sum = n)
    (h0 : off ≤ i) (h1 : i < off + n) : chunkBounds cs off i = (off, off + n) := by
  induction cs with
  | nil => simp at hm
  | cons c cs ih =>
    rw [List.sum_cons] at hs
    unfold chunkBounds
    rcases List.mem_cons.1 hm with rfl | hm2
    · rw [if_pos h1]
    · have : n ≤ cs.sum := List.le_sum_of_mem hm2
      have hc : c = 0 := by omega
      subst hc
      rw [if_neg (by omega), add_zero]
      exact ih hm2 (by omega)

theorem atZ_sub {V : Type*} (a : Img V) (r0 r1 c0 c1 i j : ℕ) (p q : ℤ) (h1 : r0 ≤ i) (h2 : c0 ≤ j)
    (hr1 : r1 ≤ a.rows) (hc1 : c1 ≤ a.cols)
    (hr : 0 ≤ (i : ℤ) + p → (i : ℤ) + p < a.rows → (r0 : ℤ) ≤ i + p ∧ (i : ℤ) + p < r1)
    (hc : 0 ≤ (j : ℤ) + q → (j : ℤ) + q < a.cols → (c0 : ℤ) ≤ j + q ∧ (j : ℤ) + q < c1) :
    atZ (subImg a r0 r1 c0 c1) (((i - r0 : ℕ) : ℤ) + p) (((j - c0 : ℕ) : ℤ) + q) =
      atZ a ((i : ℤ) + p) ((j : ℤ) + q) := by
  unfold atZ subImg
  simp only
  by_cases h : 0 ≤ (i : ℤ) + p ∧ (i : ℤ) + p < a.rows ∧ 0 ≤ (j : ℤ) + q ∧ (j : ℤ) + q < a.cols
  · have hr' := hr h.1 h.2.1
    have hc' := hc h.2.2.1 h.2.2.2
    rw [if_pos h, if_pos (by omega)]
    congr 2 <;> omega
  · rw [if_neg h, if_neg]
    omega

section
variable {K : Type*} [Field K] [LinearOrder K] [FloorRing K]

theorem correlateConst_sub {V : Type*} (a : Img V) (f : V → K) (w : Img K) (r0 r1 c0 c1 i j : ℕ)
    (h1 : r0 ≤ i) (h2 : c0 ≤ j) (hr1 : r1 ≤ a.rows) (hc1 : c1 ≤ a.cols)
    (hr : ∀ k : ℤ, 0 ≤ k → k < w.rows → 0 ≤ (i : ℤ) + k - (w.rows / 2 : ℕ) →
      (i : ℤ) + k - (w.rows / 2 : ℕ) < a.rows →
      (r0 : ℤ) ≤ i + k - (w.rows / 2 : ℕ) ∧ (i : ℤ) + k - (w.rows / 2 : ℕ) < r1)
    (hc : ∀ k : ℤ, 0 ≤ k → k < w.cols → 0 ≤ (j : ℤ) + k - (w.cols / 2 : ℕ) →
      (j : ℤ) + k - (w.cols / 2 : ℕ) < a.cols →
      (c0 : ℤ) ≤ j + k - (w.cols / 2 : ℕ) ∧ (j : ℤ) + k - (w.cols / 2 : ℕ) < c1) :
    correlateConst (subImg a r0 r1 c0 c1) f w (i - r0) (j - c0) = correlateConst a f w i j := by
  unfold correlateConst
  refine Finset.sum_congr rfl fun k hk => Finset.sum_congr rfl fun l hl => ?_
  rw [Finset.mem_range] at hk hl
  rw [add_sub_assoc, add_sub_assoc, atZ_sub a r0 r1 c0 c1 i j _ _ h1 h2 hr1 hc1, add_sub_assoc,
    add_sub_assoc]
  · intro a1 a2
    have := hr k (by omega) (by omega) (by omega) (by omega)
    omega
  · intro a1 a2
    have := hc l (by omega) (by omega) (by omega) (by omega)
    omega

theorem correlateConst_eq {V : Type*} (a : Img V) (f : V → K) (w : Img K) (r c : ℕ) :
    correlateConst a f w r c =
      Spec.neighbourSum a.rows a.cols w (fun y x => f (a.val y x)) r c := by
  unfold correlateConst Spec.neighbourSum atZ
  refine Finset.sum_congr rfl fun i _ => Finset.sum_congr rfl fun j _ => ?_
  simp only
  split <;> simp

end

section
variable {K : Type*} [Field K] [LinearOrder K] [IsStrictOrderedRing K]

theorem listMin_scale {a : K} (ha : 0 ≤ a) (l : List K) :
    listMin (l.map (a * ·)) = a * listMin l := by
  induction l with
  | nil => simp [listMin]
  | cons x l ih =>
    cases l with
    | nil => simp [listMin]
    | cons y l =>
      simp only [List.map_cons, listMin] at ih ⊢
      rw [ih, mul_min_of_nonneg _ _ ha]

theorem listMax_scale {a : K} (ha : 0 ≤ a) (l : List K) :
    listMax (l.map (a * ·)) = a * listMax l := by
  induction l with
  | nil => simp [listMax]
  | cons x l ih =>
    cases l with
    | nil => simp [listMax]
    | cons y l =>
      simp only [List.map_cons, listMax] at ih ⊢
      rw [ih, mul_max_of_nonneg _ _ ha]

/-- Rescaling to the full range does not see a positive factor. -/
theorem rescale_scale {a : K} (ha : 0 < a) (l : List K) (omin omax : K) :
    rescaleWithMinMax (l.map (a * ·)) (listMin (l.map (a * ·))) (listMax (l.map (a * ·))) omin
      omax = rescaleWithMinMax l (listMin l) (listMax l) omin omax := by
  rw [listMin_scale ha.le, listMax_scale ha.le]
  unfold rescaleWithMinMax
  rw [List.map_map]
  refine List.map_congr_left fun x _ => ?_
  simp only [Function.comp, rescalePixel]
  rw [← mul_sub, ← mul_sub, mul_div_mul_left _ _ ha.ne']

end

/-! ### Dot products -/

section
variable {V K : Type*}

theorem filter_range_map {α β : Type*} (l : List α) (d : α) (P : α → Bool) (F : α → β) :
    ((List.range l.length).filter (fun k => P (l.getD k d))).map (fun k => F (l.getD k d)) =
      (l.filter P).map F := by
  have h : l = (List.range l.length).map (fun k => l.getD k d) := by
    apply List.ext_getElem
    · simp
    · intro i h1 h2
      simp [List.getElem?_eq_getElem h1]
  conv_rhs => rw [h]
  rw [List.filter_map, List.map_map]
  rfl

theorem flatPositions_eq (rows cols : ℕ) (hc : 0 < cols) :
    flatPositions rows cols =
      (List.range (rows * cols)).map (fun k => (k / cols, k % cols)) := by
  induction rows with
  | zero => simp [flatPositions]
  | succ n ih =>
    have h1 : flatPositions (n + 1) cols =
        flatPositions n cols ++ (List.range cols).map (fun j => (n, j)) := by
      simp [flatPositions, List.range_succ]
    rw [h1, ih, Nat.succ_mul, List.range_add, List.map_append, List.map_map]
    congr 1
    refine List.map_congr_left fun j hj => ?_
    rw [List.mem_range] at hj
    simp only [Function.comp]
    rw [Nat.mul_comm n cols, Nat.mul_add_div hc, Nat.div_eq_of_lt hj, Nat.mul_add_mod,
      Nat.mod_eq_of_lt hj, add_zero]

theorem mem_truthy {w : Img Bool} {k : ℕ} :
    k ∈ truthyIndices w ↔ k < w.rows * w.cols ∧ w.val (k / w.cols) (k % w.cols) = true := by
  simp [truthyIndices]

/-- The flat index of the window origin. -/
theorem origin_div {n m : ℕ} (hm : 0 < m) :
    (n / 2 * m + m / 2) / m = n / 2 ∧ (n / 2 * m + m / 2) % m = m / 2 := by
  have h : m / 2 < m := by omega
  rw [Nat.mul_comm, Nat.mul_add_div hm, Nat.div_eq_of_lt h, Nat.mul_add_mod, Nat.mod_eq_of_lt h]
  exact ⟨rfl, rfl⟩

theorem centerIndex_ok {w : Img Bool} {center : ℕ} (h : centerIndex w = .ok center) :
    (w.rows / 2 * w.cols + w.cols / 2) ∈ truthyIndices w ∧
      (truthyIndices w)[center]? = some (w.rows / 2 * w.cols + w.cols / 2) ∧ 0 < w.cols := by
  unfold centerIndex at h
  simp only at h
  split at h
  · rename_i hm
    cases h
    refine ⟨hm, ?_, ?_⟩
    · rw [List.getElem?_eq_getElem (List.idxOf_lt_length_of_mem hm), List.getElem_idxOf]
    · have := (mem_truthy.1 hm).1
      rcases Nat.eq_zero_or_pos w.cols with h0 | h0
      · rw [h0] at this; simp at this
      · exact h0
  · cases h

theorem patternAtFlat_eq (a : Img V) (y x : ℤ) (hx : 0 ≤ x) (hx' : x < a.cols) :
    patternAtFlat a (y * a.cols + x) = a.val y.toNat x.toNat := by
  unfold patternAtFlat
  have hc : (0 : ℤ) < a.cols := by omega
  have h1 : (y * a.cols + x) / (a.cols : ℤ) = y := by
    rw [Int.add_comm, Int.add_mul_ediv_right _ _ hc.ne', Int.ediv_eq_zero_of_lt hx hx', zero_add]
  have h2 : (y * a.cols + x) % (a.cols : ℤ) = x := by
    rw [Int.add_comm, Int.add_mul_emod_self_right, Int.emod_eq_of_lt hx hx']
  rw [h1, h2]

theorem flat_inj {m : ℕ} {y x y' x' : ℤ} (hx : 0 ≤ x) (hx1 : x < m) (hy : 0 ≤ x') (hy1 : x' < m)
    (h : y * m + x = y' * m + x') : y = y' ∧ x = x' := by
  have hm : (0 : ℤ) < m := by omega
  have h1 : (y * m + x) / (m : ℤ) = y := by
    rw [Int.add_comm, Int.add_mul_ediv_right _ _ hm.ne', Int.ediv_eq_zero_of_lt hx hx1, zero_add]
  have h2 : (y' * m + x') / (m : ℤ) = y' := by
    rw [Int.add_comm, Int.add_mul_ediv_right _ _ hm.ne', Int.ediv_eq_zero_of_lt hy hy1, zero_add]
  have h3 : y = y' := by rw [← h1, ← h2, h]
  subst h3
  exact ⟨rfl, by omega⟩

/-- Index of the map point under window coefficient `k`. -/
def flatUnder (rows cols : ℕ) (w : Img Bool) (r c k : ℕ) : ℤ :=
  let y : ℤ := (r : ℤ) + (k / w.cols : ℕ) - (w.rows / 2 : ℕ)
  let x : ℤ := (c : ℤ) + (k % w.cols : ℕ) - (w.cols / 2 : ℕ)
  if 0 ≤ y ∧ y < rows ∧ 0 ≤ x ∧ x < cols then y * cols + x else -1

theorem filterIndices_eq (rows cols : ℕ) (w : Img Bool) (r c : ℕ) :
    filterIndices rows cols w r c = (truthyIndices w).map (flatUnder rows cols w r c) := rfl

theorem flatUnder_origin {rows cols : ℕ} {w : Img Bool} {r c : ℕ} (hw : 0 < w.cols)
    (hr : r < rows) (hc : c < cols) :
    flatUnder rows cols w r c (w.rows / 2 * w.cols + w.cols / 2) = (r : ℤ) * cols + c := by
  unfold flatUnder
  rw [(origin_div hw).1, (origin_div hw).2]
  simp only
  rw [if_pos (by omega)]
  have h1 : (r : ℤ) + (w.rows / 2 : ℕ) - (w.rows / 2 : ℕ) = r := by omega
  have h2 : (c : ℤ) + (w.cols / 2 : ℕ) - (w.cols / 2 : ℕ) = c := by omega
  rw [h1, h2]

/-- What a window coefficient contributes. -/
theorem flatUnder_neighbour {w : Img Bool} {a : Img V} {r c k : ℕ} (dp : V → V → K)
    (hw : 0 < w.cols) (hc : c < a.cols)
    (hk : w.val (k / w.cols) (k % w.cols) = true) :
    (flatUnder a.rows a.cols w r c k = -1 ∧
        Spec.neighbourDot dp a w r c (k / w.cols) (k % w.cols) = none) ∨
      (flatUnder a.rows a.cols w r c k ≠ -1 ∧
        (flatUnder a.rows a.cols w r c k = (r : ℤ) * a.cols + c ↔
          k = w.rows / 2 * w.cols + w.cols / 2) ∧
        Spec.neighbourDot dp a w r c (k / w.cols) (k % w.cols) =
          some (dp (patternAtFlat a (flatUnder a.rows a.cols w r c k)) (a.val r c))) := by
  unfold flatUnder Spec.neighbourDot
  simp only [hk, true_and]
  by_cases h : 0 ≤ (r : ℤ) + (k / w.cols : ℕ) - (w.rows / 2 : ℕ) ∧
      (r : ℤ) + (k / w.cols : ℕ) - (w.rows / 2 : ℕ) < a.rows ∧
      0 ≤ (c : ℤ) + (k % w.cols : ℕ) - (w.cols / 2 : ℕ) ∧
      (c : ℤ) + (k % w.cols : ℕ) - (w.cols / 2 : ℕ) < a.cols
  · right
    simp only [h, and_self, if_true]
    refine ⟨?_, ⟨?_, ?_⟩, ?_⟩
    · have : 0 ≤ ((r : ℤ) + (k / w.cols : ℕ) - (w.rows / 2 : ℕ)) * (a.cols : ℤ) :=
        mul_nonneg h.1 (by omega)
      omega
    · intro he
      have := flat_inj h.2.2.1 h.2.2.2 (by omega) (by omega) he
      have h1 : k / w.cols = w.rows / 2 := by omega
      have h2 : k % w.cols = w.cols / 2 := by omega
      rw [← h1, ← h2, Nat.mul_comm]
      exact (Nat.div_add_mod k w.cols).symm
    · rintro rfl
      rw [(origin_div hw).1, (origin_div hw).2]
      congr 1
      · congr 1; omega
      · omega
    · rw [patternAtFlat_eq a _ _ h.2.2.1 h.2.2.2]
  · left
    simp only [h, if_false, and_self]

theorem neighbourIdx_eq {rows cols : ℕ} {w : Img Bool} {r c : ℕ} {p : ℤ} {β : Type*}
    (F : ℕ → β) :
    (neighbourIdx (filterIndices rows cols w r c) p).map
        (fun n => F ((truthyIndices w).getD n 0)) =
      ((truthyIndices w).filter (fun k => decide (flatUnder rows cols w r c k ≠ p) &&
        decide (flatUnder rows cols w r c k ≠ -1))).map F := by
  rw [← filter_range_map (truthyIndices w) 0]
  unfold neighbourIdx
  rw [filterIndices_eq, List.length_map]
  congr 1
  refine List.filter_congr fun n hn => ?_
  rw [List.mem_range] at hn
  simp [List.getD_eq_getElem?_getD, List.getElem?_eq_getElem hn]

theorem patIdx_eq {w : Img Bool} {center : ℕ} (h : centerIndex w = .ok center) {rows cols r c : ℕ}
    (hr : r < rows) (hc : c < cols) :
    (filterIndices rows cols w r c).getD center (-1) = (r : ℤ) * cols + c := by
  obtain ⟨_, h2, h3⟩ := centerIndex_ok h
  rw [filterIndices_eq, List.getD_eq_getElem?_getD, List.getElem?_map, h2]
  simp only [Option.map_some, Option.getD_some]
  exact flatUnder_origin h3 hr hc

theorem patternAtFlat_self (a : Img V) {r c : ℕ} (hc : c < a.cols) :
    patternAtFlat a ((r : ℤ) * a.cols + c) = a.val r c := by
  rw [patternAtFlat_eq a _ _ (by omega) (by omega)]
  simp

theorem filter_map_eq_filterMap {α β : Type*} (l : List α) (P : α → Bool) (F : α → β)
    (G : α → Option β) (h : ∀ x ∈ l, G x = if P x = true then some (F x) else none) :
    (l.filter P).map F = l.filterMap G := by
  induction l with
  | nil => rfl
  | cons x l ih =>
    have hx := h x (by simp)
    have ih := ih (fun y hy => h y (by simp [hy]))
    rw [List.filter_cons, List.filterMap_cons, hx]
    split <;> simp [ih]

/-- The dot products of one map point are those of the specification. -/
theorem neighbourDots_eq {w : Img Bool} {center : ℕ} (h : centerIndex w = .ok center) (a : Img V)
    (dp : V → V → K) {r c : ℕ} (hr : r < a.rows) (hc : c < a.cols) :
    neighbourDots dp a (filterIndices a.rows a.cols w r c) center =
      (List.range (w.rows * w.cols)).filterMap (fun k =>
        if k = w.rows / 2 * w.cols + w.cols / 2 then none
        else Spec.neighbourDot dp a w r c (k / w.cols) (k % w.cols)) := by
  obtain ⟨_, _, h3⟩ := centerIndex_ok h
  unfold neighbourDots
  simp only
  rw [patIdx_eq h hr hc, patternAtFlat_self a hc]
  have h4 := neighbourIdx_eq (rows := a.rows) (cols := a.cols) (w := w) (r := r) (c := c)
    (p := (r : ℤ) * a.cols + c)
    (fun k => dp (patternAtFlat a (flatUnder a.rows a.cols w r c k)) (a.val r c))
  have h5 : (neighbourIdx (filterIndices a.rows a.cols w r c) ((r : ℤ) * a.cols + c)).map
      (fun k => dp (patternAtFlat a ((filterIndices a.rows a.cols w r c).getD k (-1)))
        (a.val r c)) =
      (neighbourIdx (filterIndices a.rows a.cols w r c) ((r : ℤ) * a.cols + c)).map
      (fun n => dp (patternAtFlat a (flatUnder a.rows a.cols w r c ((truthyIndices w).getD n 0)))
        (a.val r c)) := by
    refine List.map_congr_left fun n hn => ?_
    unfold neighbourIdx at hn
    rw [List.mem_filter, List.mem_range] at hn
    have hl : n < (truthyIndices w).length := by
      simpa [filterIndices_eq] using hn.1
    simp [filterIndices_eq, List.getD_eq_getElem?_getD, List.getElem?_eq_getElem hl]
  rw [h5, h4]
  unfold truthyIndices
  rw [List.filter_filter]
  apply filter_map_eq_filterMap
  intro k _
  by_cases hk : w.val (k / w.cols) (k % w.cols) = true
  · rcases flatUnder_neighbour dp h3 hc hk with ⟨h6, h7⟩ | ⟨h6, h7, h8⟩
    · rw [h6, h7]; simp
    · rw [h8]
      by_cases ho : k = w.rows / 2 * w.cols + w.cols / 2
      · simp only [if_pos ho]
        rw [if_neg]
        simp [h7.2 ho]
      · rw [if_neg ho, if_pos]
        have : flatUnder a.rows a.cols w r c k ≠ (r : ℤ) * a.cols + c := fun e => ho (h7.1 e)
        simp [h6, this, hk]
  · have : Spec.neighbourDot dp a w r c (k / w.cols) (k % w.cols) = none := by
      unfold Spec.neighbourDot
      simp [hk]
    rw [this]
    simp [hk]

theorem fold_miss {α β : Type*} (l : List (α × β)) (key : α → ℕ) (init : ℕ → Option β) (k : ℕ)
    (h : ∀ x ∈ l, key x.1 ≠ k) :
    l.foldl (fun out x => fun k => if k = key x.1 then some x.2 else out k) init k = init k := by
  induction l generalizing init with
  | nil => rfl
  | cons x l ih =>
    rw [List.foldl_cons, ih _ (fun y hy => h y (by simp [hy])),
      if_neg (fun e => h x (by simp) e.symm)]

theorem fold_hit {α β : Type*} (l : List (α × β)) (key : α → ℕ) (init : ℕ → Option β) (k : ℕ)
    (b : β) (hex : ∃ x ∈ l, key x.1 = k) (h : ∀ x ∈ l, key x.1 = k → x.2 = b) :
    l.foldl (fun out x => fun k => if k = key x.1 then some x.2 else out k) init k = some b := by
  induction l generalizing init with
  | nil => obtain ⟨x, hx, _⟩ := hex; simp at hx
  | cons x l ih =>
    rw [List.foldl_cons]
    by_cases hl : ∃ y ∈ l, key y.1 = k
    · exact ih _ hl (fun y hy => h y (by simp [hy]))
    · rw [fold_miss _ _ _ _ (fun y hy e => hl ⟨y, hy, e⟩)]
      obtain ⟨y, hy, hk⟩ := hex
      rcases List.mem_cons.1 hy with rfl | hy
      · rw [if_pos hk.symm, h y (by simp) hk]
      · exact absurd ⟨y, hy, hk⟩ hl

theorem zip_map_right {α β : Type*} (l : List α) (f : α → β) :
    l.zip (l.map f) = l.map (fun x => (x, f x)) := by
  induction l with
  | nil => rfl
  | cons x l ih => simp [ih]

theorem truthy_nodup (w : Img Bool) : (truthyIndices w).Nodup :=
  List.Nodup.filter _ List.nodup_range

/-- The matrices of one chunk are those of the specification. -/
theorem dpMatricesChunk_eq {w : Img Bool} {center : ℕ} (h : centerIndex w = .ok center)
    (a : Img V) (dp : V → V → K) {r c k : ℕ} (hr : r < a.rows) (hc : c < a.cols)
    (hk : k < w.rows * w.cols) :
    (dpMatricesChunk dp w center a).val r c k =
      Spec.neighbourDot dp a w r c (k / w.cols) (k % w.cols) := by
  obtain ⟨h1, h2, h3⟩ := centerIndex_ok h
  unfold dpMatricesChunk
  simp only
  have ho : (truthyIndices w).getD center 0 = w.rows / 2 * w.cols + w.cols / 2 := by
    rw [List.getD_eq_getElem?_getD, h2]; rfl
  rw [ho, patIdx_eq h hr hc]
  unfold neighbourDots
  simp only
  rw [patIdx_eq h hr hc, patternAtFlat_self a hc, zip_map_right]
  obtain ⟨nb, hnb⟩ : ∃ nb, nb = neighbourIdx (filterIndices a.rows a.cols w r c)
    ((r : ℤ) * a.cols + c) := ⟨_, rfl⟩
  rw [← hnb]
  -- members of nb
  have hmem : ∀ n, n ∈ nb ↔ ∃ hn : n < (truthyIndices w).length,
      flatUnder a.rows a.cols w r c (truthyIndices w)[n] ≠ (r : ℤ) * a.cols + c ∧
      flatUnder a.rows a.cols w r c (truthyIndices w)[n] ≠ -1 := by
    intro n
    rw [hnb]
    unfold neighbourIdx
    rw [List.mem_filter, List.mem_range, filterIndices_eq, List.length_map]
    constructor
    · rintro ⟨hn, hh⟩
      refine ⟨hn, ?_⟩
      simpa [List.getD_eq_getElem?_getD, List.getElem?_eq_getElem hn] using hh
    · rintro ⟨hn, hh⟩
      refine ⟨hn, ?_⟩
      simpa [List.getD_eq_getElem?_getD, List.getElem?_eq_getElem hn] using hh
  have hfi : ∀ n, (hn : n < (truthyIndices w).length) →
      (filterIndices a.rows a.cols w r c).getD n (-1) =
        flatUnder a.rows a.cols w r c (truthyIndices w)[n] := by
    intro n hn
    simp [filterIndices_eq, List.getD_eq_getElem?_getD, List.getElem?_eq_getElem hn]
  have hkey : ∀ n, (hn : n < (truthyIndices w).length) →
      (truthyIndices w).getD n 0 = (truthyIndices w)[n] := by
    intro n hn
    simp [List.getD_eq_getElem?_getD, List.getElem?_eq_getElem hn]
  by_cases hw : w.val (k / w.cols) (k % w.cols) = true
  · have hkt : k ∈ truthyIndices w := mem_truthy.2 ⟨hk, hw⟩
    obtain ⟨n0, hn0, hn0k⟩ := List.mem_iff_getElem.1 hkt
    rcases flatUnder_neighbour dp h3 hc hw with ⟨h6, h7⟩ | ⟨h6, h7, h8⟩
    · rw [h7, fold_miss _ (fun n => (truthyIndices w).getD n 0), if_neg]
      · rintro rfl
        rw [flatUnder_origin h3 hr hc] at h6
        have : (0 : ℤ) ≤ (r : ℤ) * a.cols := by positivity
        omega
      · rintro x hx
        rw [List.mem_map] at hx
        obtain ⟨n, hn, rfl⟩ := hx
        obtain ⟨hn, _, hh⟩ := (hmem n).1 hn
        simp only
        rw [hkey n hn]
        rintro rfl
        exact hh h6
    · rw [h8]
      by_cases hko : k = w.rows / 2 * w.cols + w.cols / 2
      · rw [fold_miss _ (fun n => (truthyIndices w).getD n 0), if_pos hko, h7.2 hko, patternAtFlat_self a hc]
        rintro x hx
        rw [List.mem_map] at hx
        obtain ⟨n, hn, rfl⟩ := hx
        obtain ⟨hn, hh, _⟩ := (hmem n).1 hn
        simp only
        rw [hkey n hn]
        rintro rfl
        exact hh (h7.2 hko)
      · apply fold_hit _ (fun n => (truthyIndices w).getD n 0)
        · refine ⟨_, List.mem_map.2 ⟨n0, (hmem n0).2 ⟨hn0, ?_, ?_⟩, rfl⟩, ?_⟩
          · rw [hn0k]; exact fun e => hko (h7.1 e)
          · rw [hn0k]; exact h6
          · simp only
            rw [hkey n0 hn0, hn0k]
        · rintro x hx
          rw [List.mem_map] at hx
          obtain ⟨n, hn, rfl⟩ := hx
          obtain ⟨hn, hh, _⟩ := (hmem n).1 hn
          simp only
          rw [hkey n hn, hfi n hn]
          rintro rfl
          rfl
  · have hsp : Spec.neighbourDot dp a w r c (k / w.cols) (k % w.cols) = none := by
      unfold Spec.neighbourDot
      simp [hw]
    rw [hsp, fold_miss _ (fun n => (truthyIndices w).getD n 0), if_neg]
    · rintro rfl
      exact hw (mem_truthy.1 h1).2
    · rintro x hx
      rw [List.mem_map] at hx
      obtain ⟨n, hn, rfl⟩ := hx
      obtain ⟨hn, _, _⟩ := (hmem n).1 hn
      simp only
      rw [hkey n hn]
      rintro rfl
      exact hw (mem_truthy.1 (List.getElem_mem hn)).2

/-- Extended chunk of the map large enough for the window. -/
theorem neighbourDot_sub (dp : V → V → K) (a : Img V) (w : Img Bool) (r0 r1 c0 c1 i j p q : ℕ)
    (h1 : r0 ≤ i) (h2 : c0 ≤ j) (hr1 : r1 ≤ a.rows) (hc1 : c1 ≤ a.cols)
    (hr : 0 ≤ (i : ℤ) + p - (w.rows / 2 : ℕ) → (i : ℤ) + p - (w.rows / 2 : ℕ) < a.rows →
      (r0 : ℤ) ≤ i + p - (w.rows / 2 : ℕ) ∧ (i : ℤ) + p - (w.rows / 2 : ℕ) < r1)
    (hc : 0 ≤ (j : ℤ) + q - (w.cols / 2 : ℕ) → (j : ℤ) + q - (w.cols / 2 : ℕ) < a.cols →
      (c0 : ℤ) ≤ j + q - (w.cols / 2 : ℕ) ∧ (j : ℤ) + q - (w.cols / 2 : ℕ) < c1) :
    Spec.neighbourDot dp (subImg a r0 r1 c0 c1) w (i - r0) (j - c0) p q =
      Spec.neighbourDot dp a w i j p q := by
  unfold Spec.neighbourDot
  simp only [subImg]
  have e1 : ((i - r0 : ℕ) : ℤ) + p - (w.rows / 2 : ℕ) =
    (i : ℤ) + p - (w.rows / 2 : ℕ) - r0 := by omega
  have e2 : ((j - c0 : ℕ) : ℤ) + q - (w.cols / 2 : ℕ) =
    (j : ℤ) + q - (w.cols / 2 : ℕ) - c0 := by omega
  rw [e1, e2]
  obtain ⟨y, hy⟩ : ∃ y : ℤ, y = (i : ℤ) + p - (w.rows / 2 : ℕ) := ⟨_, rfl⟩
  obtain ⟨x, hx⟩ : ∃ x : ℤ, x = (j : ℤ) + q - (w.cols / 2 : ℕ) := ⟨_, rfl⟩
  rw [← hy] at hr ⊢
  rw [← hx] at hc ⊢
  have e3 : r0 + (i - r0) = i := by omega
  have e4 : c0 + (j - c0) = j := by omega
  rw [e3, e4]
  by_cases h : w.val p q = true ∧ 0 ≤ y ∧ y < a.rows ∧ 0 ≤ x ∧ x < a.cols
  · have hr' := hr h.2.1 h.2.2.1
    have hc' := hc h.2.2.2.1 h.2.2.2.2
    rw [if_pos h]
    refine (if_pos ⟨h.1, by omega, by omega, by omega, by omega⟩).trans ?_
    have e5 : r0 + (y - r0).toNat = y.toNat := by omega
    have e6 : c0 + (x - c0).toNat = x.toNat := by omega
    rw [e5, e6]
  · rw [if_neg h]
    refine if_neg ?_
    rintro ⟨h0, b1, b2, b3, b4⟩
    exact h ⟨h0, by omega, by omega, by omega, by omega⟩

end

end Kp
