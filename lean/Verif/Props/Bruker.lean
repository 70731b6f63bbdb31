import Verif.Model.Bruker
import Verif.Props.EbsdDirectory
import Mathlib.Algebra.Order.Ring.Rat
import Mathlib.Data.List.NodupEquivFin
import Mathlib.Tactic.Ring

/-
C46: Non-rectangular Bruker regions of interest are rejected, and in a rectangle every pattern is at
its own map position.
C70: Projection centers read from Bruker files are those of the patterns at the same map position.
-/

namespace Kp

/-- The positions are those of a full rectangle, each once. -/
structure Spec.FullRectangle (iy ix : List ℕ) (y0 x0 ny nx : ℕ) : Prop where
  length : iy.length = ix.length
  nodup : (iy.zip ix).Nodup
  rows : 0 < ny
  columns : 0 < nx
  mem : ∀ y x, (y, x) ∈ iy.zip ix ↔ (y0 ≤ y ∧ y < y0 + ny) ∧ x0 ≤ x ∧ x < x0 + nx

theorem foldl_max_spec : ∀ (l : List ℕ) (a : ℕ), (l.foldl max a = a ∨ l.foldl max a ∈ l)
    ∧ a ≤ l.foldl max a ∧ ∀ b ∈ l, b ≤ l.foldl max a
  | [], a => by simp
  | c :: l, a => by
    obtain ⟨h1, h2, h3⟩ := foldl_max_spec l (max a c)
    simp only [List.foldl_cons]
    refine ⟨?_, by omega, ?_⟩
    · rcases h1 with h | h
      · rw [h]
        rcases max_choice a c with e | e
        · left; exact e
        · right; rw [e]; exact List.mem_cons_self
      · right; exact List.mem_cons_of_mem _ h
    · intro b hb
      rcases List.mem_cons.mp hb with rfl | hb
      · omega
      · exact h3 b hb

theorem foldl_min_spec : ∀ (l : List ℕ) (a : ℕ), (l.foldl min a = a ∨ l.foldl min a ∈ l)
    ∧ l.foldl min a ≤ a ∧ ∀ b ∈ l, l.foldl min a ≤ b
  | [], a => by simp
  | c :: l, a => by
    obtain ⟨h1, h2, h3⟩ := foldl_min_spec l (min a c)
    simp only [List.foldl_cons]
    refine ⟨?_, by omega, ?_⟩
    · rcases h1 with h | h
      · rw [h]
        rcases min_choice a c with e | e
        · left; exact e
        · right; rw [e]; exact List.mem_cons_self
      · right; exact List.mem_cons_of_mem _ h
    · intro b hb
      rcases List.mem_cons.mp hb with rfl | hb
      · omega
      · exact h3 b hb

/-- Largest and smallest value of a list whose values are an interval. -/
theorem max_min_interval {l : List ℕ} {a n : ℕ} (hn : 0 < n) (h : ∀ v, v ∈ l ↔ a ≤ v ∧ v < a + n) :
    listMinN l = a ∧ listMaxN l - listMinN l + 1 = n := by
  have ha : a ∈ l := (h a).mpr ⟨le_refl _, by omega⟩
  have hz : a + n - 1 ∈ l := (h _).mpr ⟨by omega, by omega⟩
  have hmin : listMinN l = a := by
    match l, h, ha with
    | b :: l, h, ha =>
      obtain ⟨h1, h2, h3⟩ := foldl_min_spec l b
      change l.foldl min b = a
      have hm : l.foldl min b ∈ b :: l := by
        rcases h1 with e | e
        · rw [e]; exact List.mem_cons_self
        · exact List.mem_cons_of_mem _ e
      have hge := ((h _).mp hm).1
      rcases List.mem_cons.mp ha with rfl | ha
      · omega
      · have := h3 a ha; omega
  have hmax : listMaxN l = a + n - 1 := by
    obtain ⟨h1, h2, h3⟩ := foldl_max_spec l 0
    unfold listMaxN
    have := h3 _ hz
    rcases h1 with e | e
    · omega
    · have := (h _).mp e; omega
  exact ⟨hmin, by omega⟩

/-- A strictly increasing list whose values are an interval. -/
theorem consecutive_interval : ∀ {l : List ℕ} {a n : ℕ}, l.Pairwise (· < ·) →
    (∀ v, v ∈ l ↔ a ≤ v ∧ v < a + n) → consecutive l = true
  | [], _, _, _, _ => rfl
  | [_], _, _, _, _ => rfl
  | x :: y :: l, a, n, hs, h => by
    rw [List.pairwise_cons] at hs
    have hx := (h x).mp List.mem_cons_self
    have hy := (h y).mp (by simp)
    have hxy := hs.1 y List.mem_cons_self
    have hxa : x = a := by
      have ha : a ∈ x :: y :: l := (h a).mpr ⟨le_refl _, by omega⟩
      rcases List.mem_cons.mp ha with e | e
      · exact e.symm
      · have := hs.1 a e; omega
    simp only [consecutive, Bool.and_eq_true, decide_eq_true_eq]
    constructor
    · have hm : x + 1 ∈ x :: y :: l := (h _).mpr ⟨by omega, by omega⟩
      rcases List.mem_cons.mp hm with e | e
      · omega
      · rcases List.mem_cons.mp e with e | e
        · exact e.symm
        · have := (List.pairwise_cons.mp hs.2).1 _ e; omega
    · apply consecutive_interval (a := a + 1) (n := n - 1) hs.2
      intro v
      constructor
      · intro hv
        have h1 := hs.1 v hv
        have h2 := (h v).mp (List.mem_cons_of_mem _ hv)
        omega
      · intro hv
        have hm : v ∈ x :: y :: l := (h v).mpr ⟨by omega, by omega⟩
        rcases List.mem_cons.mp hm with e | e
        · omega
        · exact e

theorem allSame_of {l : List ℕ} {c : ℕ} (hne : l ≠ []) (h : ∀ v ∈ l, v = c) : allSame l = true := by
  match l, hne with
  | a :: l, _ =>
    simp only [allSame, List.all_eq_true, beq_iff_eq]
    intro v hv
    rw [h v (List.mem_cons_of_mem _ hv), h a List.mem_cons_self]

theorem count_fst : ∀ (iy ix : List ℕ), iy.length = ix.length → ∀ y,
    iy.count y = ((iy.zip ix).filter fun p => p.1 = y).length
  | [], [], _, y => rfl
  | [], _ :: _, h, _ => by simp at h
  | _ :: _, [], h, _ => by simp at h
  | a :: iy, b :: ix, h, y => by
    rw [List.count_cons, count_fst iy ix (by simpa using h) y, List.zip_cons_cons, List.filter_cons]
    by_cases e : a = y
    · simp [e]
    · simp [e]

theorem count_snd : ∀ (iy ix : List ℕ), iy.length = ix.length → ∀ x,
    ix.count x = ((iy.zip ix).filter fun p => p.2 = x).length
  | [], [], _, x => rfl
  | [], _ :: _, h, _ => by simp at h
  | _ :: _, [], h, _ => by simp at h
  | a :: iy, b :: ix, h, x => by
    rw [List.count_cons, count_snd iy ix (by simpa using h) x, List.zip_cons_cons, List.filter_cons]
    by_cases e : b = x
    · simp [e]
    · simp [e]

theorem filter_card {iy ix : List ℕ} {y0 x0 ny nx : ℕ}
    (h : Spec.FullRectangle iy ix y0 x0 ny nx) :
    (∀ y, y0 ≤ y → y < y0 + ny → iy.count y = nx)
    ∧ ∀ x, x0 ≤ x → x < x0 + nx → ix.count x = ny := by
  constructor
  · intro y h1 h2
    rw [count_fst iy ix h.length]
    rw [← List.toFinset_card_of_nodup (h.nodup.filter _)]
    have : ((iy.zip ix).filter fun p => p.1 = y).toFinset
        = (Finset.range nx).image fun j => (y, x0 + j) := by
      ext ⟨a, b⟩
      simp only [List.mem_toFinset, List.mem_filter, decide_eq_true_eq, Finset.mem_image,
        Finset.mem_range, Prod.mk.injEq, h.mem]
      constructor
      · rintro ⟨⟨⟨_, _⟩, h3, h4⟩, rfl⟩
        exact ⟨b - x0, by omega, rfl, by omega⟩
      · rintro ⟨j, hj, rfl, rfl⟩
        exact ⟨⟨⟨h1, h2⟩, by omega, by omega⟩, rfl⟩
    rw [this, Finset.card_image_of_injective, Finset.card_range]
    intro a b hab
    simp only [Prod.mk.injEq] at hab
    omega
  · intro x h1 h2
    rw [count_snd iy ix h.length]
    rw [← List.toFinset_card_of_nodup (h.nodup.filter _)]
    have : ((iy.zip ix).filter fun p => p.2 = x).toFinset
        = (Finset.range ny).image fun i => (y0 + i, x) := by
      ext ⟨a, b⟩
      simp only [List.mem_toFinset, List.mem_filter, decide_eq_true_eq, Finset.mem_image,
        Finset.mem_range, Prod.mk.injEq, h.mem]
      constructor
      · rintro ⟨⟨⟨h3, h4⟩, _, _⟩, rfl⟩
        exact ⟨a - y0, by omega, by omega, rfl⟩
      · rintro ⟨j, hj, rfl, rfl⟩
        exact ⟨⟨⟨by omega, by omega⟩, h1, h2⟩, rfl⟩
    rw [this, Finset.card_image_of_injective, Finset.card_range]
    intro a b hab
    simp only [Prod.mk.injEq] at hab
    omega

theorem mem_zip_fst {iy ix : List ℕ} (hl : iy.length = ix.length) {y : ℕ} :
    y ∈ iy ↔ ∃ x, (y, x) ∈ iy.zip ix := by
  constructor
  · intro hy
    have : y ∈ (iy.zip ix).map Prod.fst := by rw [List.map_fst_zip (by omega)]; exact hy
    obtain ⟨p, hp, rfl⟩ := List.mem_map.mp this
    exact ⟨p.2, hp⟩
  · rintro ⟨x, h⟩; exact (List.of_mem_zip h).1

theorem mem_zip_snd {iy ix : List ℕ} (hl : iy.length = ix.length) {x : ℕ} :
    x ∈ ix ↔ ∃ y, (y, x) ∈ iy.zip ix := by
  constructor
  · intro hx
    have : x ∈ (iy.zip ix).map Prod.snd := by rw [List.map_snd_zip (by omega)]; exact hx
    obtain ⟨p, hp, rfl⟩ := List.mem_map.mp this
    exact ⟨p.1, hp⟩
  · rintro ⟨y, h⟩; exact (List.of_mem_zip h).2

/-- A full rectangle is recognised, with its size. -/
theorem brukerRoi_full {iy ix : List ℕ} {y0 x0 ny nx : ℕ}
    (h : Spec.FullRectangle iy ix y0 x0 ny nx) :
    brukerRoi iy ix = .ok (ny, nx, true) ∧ listMinN iy = y0 ∧ listMinN ix = x0 := by
  have hY : ∀ v, v ∈ iy ↔ y0 ≤ v ∧ v < y0 + ny := by
    intro v
    rw [mem_zip_fst h.length]
    constructor
    · rintro ⟨x, hx⟩; exact ((h.mem v x).mp hx).1
    · intro hv
      exact ⟨x0, (h.mem v x0).mpr ⟨hv, le_refl _, by have := h.columns; omega⟩⟩
  have hX : ∀ v, v ∈ ix ↔ x0 ≤ v ∧ v < x0 + nx := by
    intro v
    rw [mem_zip_snd h.length]
    constructor
    · rintro ⟨y, hy⟩; exact ((h.mem y v).mp hy).2
    · intro hv
      exact ⟨y0, (h.mem y0 v).mpr ⟨⟨le_refl _, by have := h.rows; omega⟩, hv⟩⟩
  obtain ⟨my, sy⟩ := max_min_interval h.rows hY
  obtain ⟨mx, sx⟩ := max_min_interval h.columns hX
  obtain ⟨cy, cx⟩ := filter_card h
  refine ⟨?_, my, mx⟩
  have hne : iy ≠ [] := List.ne_nil_of_mem ((hY y0).mpr ⟨le_refl _, by have := h.rows; omega⟩)
  have hney : sortedSet iy ≠ [] := List.ne_nil_of_mem
    (sortedSet_mem.mpr ((hY y0).mpr ⟨le_refl _, by have := h.rows; omega⟩))
  have hnex : sortedSet ix ≠ [] := List.ne_nil_of_mem
    (sortedSet_mem.mpr ((hX x0).mpr ⟨le_refl _, by have := h.columns; omega⟩))
  unfold brukerRoi
  rw [if_neg hne]
  simp only [sy, sx]
  have e1 : consecutive (sortedSet iy) = true :=
    consecutive_interval (sortedSet_sorted iy) fun v => by rw [sortedSet_mem]; exact hY v
  have e2 : consecutive (sortedSet ix) = true :=
    consecutive_interval (sortedSet_sorted ix) fun v => by rw [sortedSet_mem]; exact hX v
  have e3 : allSame ((sortedSet iy).map fun v => iy.count v) = true := by
    apply allSame_of (c := nx) (by simpa using hney)
    intro v hv
    obtain ⟨y, hy, rfl⟩ := List.mem_map.mp hv
    rw [sortedSet_mem, hY] at hy
    exact cy y hy.1 hy.2
  have e4 : allSame ((sortedSet ix).map fun v => ix.count v) = true := by
    apply allSame_of (c := ny) (by simpa using hnex)
    intro v hv
    obtain ⟨x, hx, rfl⟩ := List.mem_map.mp hv
    rw [sortedSet_mem, hX] at hx
    exact cx x hx.1 hx.2
  simp [e1, e2, e3, e4]

theorem takeIdx_ok {P : Type} {pats : List P} : ∀ {ks : List ℕ}, (∀ k ∈ ks, k < pats.length) →
    ∃ l, takeIdx pats ks = .ok l ∧ l.map some = ks.map (pats[·]?)
  | [], _ => ⟨[], rfl, rfl⟩
  | k :: ks, h => by
    obtain ⟨l, h1, h2⟩ := takeIdx_ok fun j hj => h j (List.mem_cons_of_mem _ hj)
    have hk := h k List.mem_cons_self
    refine ⟨pats[k] :: l, ?_, ?_⟩
    · simp only [takeIdx, h1, List.getElem?_eq_getElem hk]
    · simp only [List.map_cons, h2, List.getElem?_eq_getElem hk]

/-- Sorting a permutation of 0, 1, ...: the value at position `p` is at index `argsort[p]`. -/
theorem argsortNat_perm {keys : List ℕ} (h : keys.Perm (List.range keys.length)) :
    (argsortNat keys).map (fun k => keys.getD k 0) = List.range keys.length
    ∧ (argsortNat keys).Perm (List.range keys.length) := by
  have hp : (argsortNat keys).Perm (List.range keys.length) := List.perm_insertionSort _ _
  refine ⟨?_, hp⟩
  have h1 : (argsortNat keys).map (fun k => keys.getD k 0)
      = ((List.range keys.length).map (fun k => keys.getD k 0)).insertionSort (· ≤ ·) :=
    List.map_insertionSort (fun a b => keys.getD a 0 ≤ keys.getD b 0) (fun a b : ℕ => a ≤ b)
      (fun k => keys.getD k 0) (List.range keys.length) (fun a _ b _ => Iff.rfl)
  have h2 : (List.range keys.length).map (fun k => keys.getD k 0) = keys := by
    apply List.ext_getElem
    · simp
    · intro i _ h2
      simp [List.getD_eq_getElem?_getD, List.getElem?_eq_getElem h2]
  rw [h1, h2]
  apply List.Perm.eq_of_pairwise (le := (· ≤ ·)) (fun a b _ _ => Nat.le_antisymm)
    (List.pairwise_insertionSort _ _)
  · exact List.pairwise_le_range
  · exact (List.perm_insertionSort _ _).trans h

variable {K P : Type}

/-- C46 (partial): the patterns of a full rectangle, stored in any order, are returned at their own
map positions.  Missing: everything else is rejected (see below). -/
theorem C46_positions_partial (zero : P) {iy ix : List ℕ} {y0 x0 ny nx : ℕ}
    (h : Spec.FullRectangle iy ix y0 x0 ny nx) {pats : List P} (hp : pats.length = iy.length)
    {pcs : List (PC K)} (hpc : pcs.length ≤ 1 ∨ pcs.length = pats.length) :
    ∃ s, brukerRead zero iy ix pats pcs = .ok s ∧ s.ny = ny ∧ s.nx = nx ∧ s.padded = false
      ∧ s.patterns.length = ny * nx
      ∧ ∀ (k y x : ℕ), iy[k]? = some y → ix[k]? = some x →
          y0 ≤ y ∧ y < y0 + ny ∧ x0 ≤ x ∧ x < x0 + nx
          ∧ s.patterns[(y - y0) * nx + (x - x0)]? = pats[k]? ∧ (pats[k]?).isSome := by
  obtain ⟨hroi, my, mx⟩ := brukerRoi_full h
  have hlen := h.length
  -- keys
  obtain ⟨keys, hkeys⟩ : ∃ l, l = List.zipWith (fun y x => (y - y0) * nx + (x - x0)) iy ix :=
    ⟨_, rfl⟩
  have hkeys' : keys = (iy.zip ix).map fun p => (p.1 - y0) * nx + (p.2 - x0) := by
    rw [hkeys, List.zip, List.map_zipWith]
  have hklen : keys.length = iy.length := by rw [hkeys]; simp [hlen]
  have hnd : keys.Nodup := by
    rw [hkeys', List.nodup_map_iff_inj_on h.nodup]
    rintro ⟨a, b⟩ ha ⟨c, d⟩ hc hac
    have h1 := (h.mem a b).mp ha
    have h2 := (h.mem c d).mp hc
    simp only at hac
    obtain ⟨e1, e2⟩ := row_col_inj (n := nx) (by omega) (by omega) hac
    simp only [Prod.mk.injEq]
    omega
  have hkmem : ∀ v, v ∈ keys ↔ v < ny * nx := by
    intro v
    rw [hkeys', List.mem_map]
    constructor
    · rintro ⟨⟨a, b⟩, ha, rfl⟩
      have h1 := (h.mem a b).mp ha
      simp only
      calc (a - y0) * nx + (b - x0) < (a - y0) * nx + nx := by omega
        _ = (a - y0 + 1) * nx := by ring
        _ ≤ ny * nx := Nat.mul_le_mul_right _ (by omega)
    · intro hv
      have hq : v / nx < ny := Nat.div_lt_of_lt_mul (by rw [Nat.mul_comm]; exact hv)
      have hr : v % nx < nx := Nat.mod_lt _ h.columns
      have hq0 : 0 ≤ v / nx := Nat.zero_le _
      generalize hA : v / nx = A at hq hq0
      generalize hB : v % nx = B at hr
      refine ⟨(y0 + A, x0 + B), (h.mem _ _).mpr ⟨⟨by omega, by omega⟩, by omega, by omega⟩, ?_⟩
      simp only [Nat.add_sub_cancel_left]
      rw [Nat.mul_comm, ← hA, ← hB]; exact Nat.div_add_mod v nx
  have hkperm0 : keys.Perm (List.range (ny * nx)) := by
    rw [List.perm_ext_iff_of_nodup hnd List.nodup_range]
    intro a; rw [hkmem, List.mem_range]
  have hcard : keys.length = ny * nx := by rw [hkperm0.length_eq, List.length_range]
  have hkperm : keys.Perm (List.range keys.length) := by rw [hcard]; exact hkperm0
  obtain ⟨ha1, ha2⟩ := argsortNat_perm hkperm
  obtain ⟨l, hl1, hl2⟩ := takeIdx_ok (pats := pats) (ks := argsortNat keys) fun k hk => by
    have := List.mem_range.mp (ha2.mem_iff.mp hk); omega
  have hllen : l.length = ny * nx := by
    have := congrArg List.length hl2
    simp only [List.length_map] at this
    rw [this, ha2.length_eq, List.length_range, hcard]
  refine ⟨⟨ny, nx, false, l, pcs⟩, ?_, rfl, rfl, rfl, hllen, ?_⟩
  · unfold brukerRead
    simp only [hroi, my, mx, ← hkeys, hl1, if_true, hllen]
    rw [if_neg (by omega)]
  · intro k y x hy hx
    have hk : k < iy.length := (List.getElem?_eq_some_iff.mp hy).1
    have hz : (iy.zip ix)[k]? = some (y, x) := by
      rw [List.getElem?_zip_eq_some]; exact ⟨hy, hx⟩
    have hm : (y, x) ∈ iy.zip ix := List.mem_of_getElem? hz
    have hb := (h.mem y x).mp hm
    refine ⟨hb.1.1, hb.1.2, hb.2.1, hb.2.2, ?_, ?_⟩
    · -- the index at this place is k
      have hkey : keys[k]? = some ((y - y0) * nx + (x - x0)) := by
        rw [hkeys', List.getElem?_map, hz]; rfl
      set v := (y - y0) * nx + (x - x0) with hv
      have hvlt : v < keys.length := by
        rw [hcard, ← hkmem]; exact List.mem_of_getElem? hkey
      have hal : (argsortNat keys).length = keys.length := by
        rw [ha2.length_eq, List.length_range]
      have hav : ∃ j, (argsortNat keys)[v]? = some j :=
        ⟨_, List.getElem?_eq_getElem (by omega)⟩
      obtain ⟨j, hj⟩ := hav
      have hjl : j < keys.length := List.mem_range.mp (ha2.mem_iff.mp (List.mem_of_getElem? hj))
      have hkj : keys[j]? = some v := by
        have := congrArg (fun l => l[v]?) ha1
        simp only [List.getElem?_map, hj, Option.map_some, List.getElem?_range hvlt,
          Option.some.injEq] at this
        rw [List.getD_eq_getElem?_getD, List.getElem?_eq_getElem hjl, Option.getD_some] at this
        rw [List.getElem?_eq_getElem hjl, this]
      have hjk : j = k := by
        have e1 := (List.getElem?_eq_some_iff.mp hkj)
        have e2 := (List.getElem?_eq_some_iff.mp hkey)
        exact (List.Nodup.getElem_inj_iff hnd).mp (e1.2.trans e2.2.symm)
      have := congrArg (fun l => l[v]?) hl2
      simp only [List.getElem?_map, hj, Option.map_some, hjk] at this
      show l[v]? = _
      have hvl : v < l.length := by omega
      rw [List.getElem?_eq_getElem hvl] at this ⊢
      simpa using this
    · rw [List.getElem?_eq_getElem (by omega)]; rfl

theorem allSame_eq {l : List ℕ} (h : allSame l = true) : ∀ a ∈ l, ∀ b ∈ l, a = b := by
  match l, h with
  | c :: l, h =>
    simp only [allSame, List.all_eq_true, beq_iff_eq] at h
    have key : ∀ a ∈ c :: l, a = c := fun a ha => by
      rcases List.mem_cons.mp ha with e | e
      · exact e
      · exact h a e
    intro a ha b hb
    rw [key a ha, key b hb]

theorem consecutive_gap : ∀ {l : List ℕ}, l.Pairwise (· < ·) → consecutive l = true →
    ∀ {a b v : ℕ}, a ∈ l → b ∈ l → a ≤ v → v ≤ b → v ∈ l
  | [], _, _, a, b, v, ha, _, _, _ => by simp at ha
  | [x], _, _, a, b, v, ha, hb, h1, h2 => by
    simp only [List.mem_singleton] at ha hb ⊢; omega
  | x :: y :: l, hs, hc, a, b, v, ha, hb, h1, h2 => by
    simp only [consecutive, Bool.and_eq_true, decide_eq_true_eq] at hc
    rw [List.pairwise_cons] at hs
    by_cases hvx : v = x
    · rw [hvx]; exact List.mem_cons_self
    · apply List.mem_cons_of_mem
      have hxa : x ≤ a := by
        rcases List.mem_cons.mp ha with e | e
        · omega
        · have := hs.1 a e; omega
      have hb' : b ∈ y :: l := by
        rcases List.mem_cons.mp hb with e | e
        · omega
        · exact e
      exact consecutive_gap hs.2 hc.2 (a := y) List.mem_cons_self hb' (by omega) h2

/-- C46 (partial): regions in which a row or column between others has no pattern, or two rows or
two columns have different numbers of patterns, are rejected. -/
theorem C46_rejects_partial (zero : P) {iy ix : List ℕ} {pats : List P} {pcs : List (PC K)}
    (h : (∃ a ∈ iy, ∃ b ∈ iy, ∃ v, a ≤ v ∧ v ≤ b ∧ v ∉ iy)
      ∨ (∃ a ∈ ix, ∃ b ∈ ix, ∃ v, a ≤ v ∧ v ≤ b ∧ v ∉ ix)
      ∨ (∃ a ∈ iy, ∃ b ∈ iy, iy.count a ≠ iy.count b)
      ∨ (∃ a ∈ ix, ∃ b ∈ ix, ix.count a ≠ ix.count b)) :
    brukerRead zero iy ix pats pcs = .error .valueError := by
  unfold brukerRead brukerRoi
  by_cases hne : iy = []
  · simp [hne]
  · rw [if_neg hne]
    simp only
    rw [if_neg]
    intro hr
    simp only [Bool.and_eq_true] at hr
    obtain ⟨⟨⟨h1, h2⟩, h3⟩, h4⟩ := hr
    rcases h with ⟨a, ha, b, hb, v, hav, hvb, hv⟩ | ⟨a, ha, b, hb, v, hav, hvb, hv⟩
      | ⟨a, ha, b, hb, hab⟩ | ⟨a, ha, b, hb, hab⟩
    · exact hv (sortedSet_mem.mp (consecutive_gap (sortedSet_sorted iy) h1 (sortedSet_mem.mpr ha)
        (sortedSet_mem.mpr hb) hav hvb))
    · exact hv (sortedSet_mem.mp (consecutive_gap (sortedSet_sorted ix) h2 (sortedSet_mem.mpr ha)
        (sortedSet_mem.mpr hb) hav hvb))
    · exact hab (allSame_eq h3 _ (List.mem_map_of_mem (f := fun v => iy.count v) (sortedSet_mem.mpr ha))
        _ (List.mem_map_of_mem (f := fun v => iy.count v) (sortedSet_mem.mpr hb)))
    · exact hab (allSame_eq h4 _ (List.mem_map_of_mem (f := fun v => ix.count v) (sortedSet_mem.mpr ha))
        _ (List.mem_map_of_mem (f := fun v => ix.count v) (sortedSet_mem.mpr hb)))

/-- The code does not satisfy C46: three rows and columns without the diagonal are accepted, the six
patterns fill the first two rows (several in wrong positions) and the last row is zero. -/
theorem C46_not_without_diagonal :
    brukerRead (K := ℚ) 0 [0, 0, 1, 1, 2, 2] [1, 2, 0, 2, 0, 1] [1, 2, 10, 12, 20, 21] []
      = .ok ⟨3, 3, true, [1, 2, 10, 12, 20, 21, 0, 0, 0], []⟩ := by decide +kernel

/-- The code does not satisfy C70: projection centers are not put in map order.  They keep the order
in the file, whereas patterns are put in map order (C46). -/
theorem C70_not_reordered (zero : P) {iy ix : List ℕ} {pats : List P} {pcs : List (PC K)}
    {s : BrukerScan K P} (hs : brukerRead zero iy ix pats pcs = .ok s) : s.pc = pcs := by
  unfold brukerRead at hs
  split at hs
  · cases hs
  · split at hs
    · simp only at hs
      split at hs
      · cases hs
      · split at hs
        · cases hs
        · split at hs
          · injection hs with hs; subst hs; rfl
          · split at hs
            · injection hs with hs; subst hs; rfl
            · cases hs
    · cases hs

/-- A concrete case: two patterns in a row, stored in the opposite order.  The pattern in the first
column, `"a"`, is in the file with the PC (2, 2, 2) but is returned with (1, 1, 1). -/
theorem C70_not_example :
    brukerRead (K := ℚ) "" [0, 0] [1, 0] ["b", "a"] [⟨1, 1, 1⟩, ⟨2, 2, 2⟩]
      = .ok ⟨1, 2, false, ["a", "b"], [⟨1, 1, 1⟩, ⟨2, 2, 2⟩]⟩ := by decide +kernel

/-- C70 (partial): when the file is in map order, PCs and patterns both keep this order. -/
theorem C70_map_order_partial (zero : P) {iy ix : List ℕ} {y0 x0 ny nx : ℕ}
    (h : Spec.FullRectangle iy ix y0 x0 ny nx) {pats : List P} (hp : pats.length = iy.length)
    {pcs : List (PC K)} (hpc : pcs.length = pats.length)
    (hord : ∀ (k y x : ℕ), iy[k]? = some y → ix[k]? = some x → k = (y - y0) * nx + (x - x0)) :
    ∃ s, brukerRead zero iy ix pats pcs = .ok s
      ∧ ∀ (k y x : ℕ), iy[k]? = some y → ix[k]? = some x →
          s.patterns[(y - y0) * nx + (x - x0)]? = pats[k]?
          ∧ s.pc[(y - y0) * nx + (x - x0)]? = pcs[k]? := by
  obtain ⟨s, h1, _, _, _, _, h6⟩ := C46_positions_partial zero h hp (pcs := pcs) (Or.inr hpc)
  refine ⟨s, h1, fun k y x hy hx => ⟨(h6 k y x hy hx).2.2.2.2.1, ?_⟩⟩
  rw [C70_not_reordered zero h1, ← hord k y x hy hx]

/-- The hypotheses are met: two rows and three columns, in another order. -/
example : Spec.FullRectangle [5, 6, 5, 6, 6, 5] [9, 8, 8, 7, 9, 7] 5 7 2 3 := by
  refine ⟨by decide, by decide, by decide, by decide, ?_⟩
  intro y x
  simp only [List.zip_cons_cons, List.zip_nil_right, List.mem_cons, Prod.mk.injEq, List.not_mem_nil,
    or_false]
  omega

example : brukerRead (K := ℚ) 0 [5, 6, 5, 6, 6, 5] [9, 8, 8, 7, 9, 7] [59, 68, 58, 67, 69, 57] []
    = .ok ⟨2, 3, false, [57, 58, 59, 67, 68, 69], []⟩ := by decide +kernel

example : brukerRead (K := ℚ) 0 [0, 0, 1] [0, 1, 0] [1, 2, 3] [] = .error .valueError := by
  decide +kernel

end Kp
