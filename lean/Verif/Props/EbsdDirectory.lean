import Verif.Model.EbsdDirectory
import Mathlib.Data.Finset.Prod
import Mathlib.Data.Finset.Card
import Mathlib.Tactic.Ring

/-
C43: Patterns in a directory are assembled in map order.
-/

namespace Kp

/-- Number of distinct values in the list smaller than `v`: the row or column of the pattern with
coordinate `v`. -/
def Spec.rank (l : List ℕ) (v : ℕ) : ℕ := (l.toFinset.filter (· < v)).card

/-- Coordinates are complete: for each column and each row with a pattern there is a pattern in
that column and row. -/
def Spec.Complete (coords : List (ℕ × ℕ)) : Prop :=
  ∀ a ∈ coords, ∀ b ∈ coords, (a.1, b.2) ∈ coords

theorem sortedSet_mem {l : List ℕ} {v : ℕ} : v ∈ sortedSet l ↔ v ∈ l := by
  simp [sortedSet]

theorem sortedSet_nodup (l : List ℕ) : (sortedSet l).Nodup :=
  (List.perm_insertionSort _ _).nodup_iff.mpr (List.nodup_dedup l)

theorem sortedSet_length (l : List ℕ) : (sortedSet l).length = l.toFinset.card :=
  List.length_insertionSort _ _

theorem sortedSet_sorted (l : List ℕ) : (sortedSet l).Pairwise (· < ·) := by
  have h1 : (sortedSet l).Pairwise (· ≤ ·) := List.pairwise_insertionSort _ _
  exact (h1.and (sortedSet_nodup l)).imp fun h => lt_of_le_of_ne h.1 h.2

/-- Index in a strictly increasing list: number of smaller values. -/
theorem idxOf_sorted : ∀ {l : List ℕ}, l.Pairwise (· < ·) → ∀ {v : ℕ}, v ∈ l →
    l.idxOf v = (l.toFinset.filter (· < v)).card
  | [], _, v, hv => by simp at hv
  | a :: l, hs, v, hv => by
    rw [List.pairwise_cons] at hs
    have hal : a ∉ l := fun h => absurd (hs.1 a h) (by omega)
    by_cases hav : a = v
    · subst hav
      rw [List.idxOf_cons_self]
      symm
      rw [Finset.card_eq_zero, Finset.filter_eq_empty_iff]
      intro b hb
      simp only [List.mem_toFinset, List.mem_cons] at hb
      rcases hb with rfl | hb
      · omega
      · have := hs.1 b hb; omega
    · have hvl : v ∈ l := by
        rcases List.mem_cons.mp hv with h | h
        · exact absurd h.symm hav
        · exact h
      rw [List.idxOf_cons_ne _ hav, idxOf_sorted hs.2 hvl, List.toFinset_cons,
        Finset.filter_insert, if_pos (hs.1 v hvl), Finset.card_insert_of_notMem]
      simp [hal]

theorem idxOf_sortedSet {l : List ℕ} {v : ℕ} (hv : v ∈ l) :
    (sortedSet l).idxOf v = Spec.rank l v := by
  rw [idxOf_sorted (sortedSet_sorted l) (sortedSet_mem.mpr hv)]
  unfold Spec.rank
  congr 2
  ext a
  simp [sortedSet_mem]

theorem readCoords_ok {search : String → Option (ℕ × ℕ)} : ∀ {fns : List String}
    {coords : List (ℕ × ℕ)}, readCoords search fns = .ok coords →
    fns.map search = coords.map some
  | [], coords, h => by
    simp only [readCoords] at h
    injection h with h; subst h; rfl
  | fn :: fns, coords, h => by
    simp only [readCoords] at h
    split at h
    · cases h
    · rename_i xy hxy
      split at h
      · cases h
      · rename_i l hl
        injection h with h; subst h
        simp [hxy, readCoords_ok hl]

theorem readCoords_of_map {search : String → Option (ℕ × ℕ)} : ∀ {fns : List String}
    {coords : List (ℕ × ℕ)}, fns.map search = coords.map some → readCoords search fns = .ok coords
  | [], [], _ => rfl
  | [], _ :: _, h => by simp at h
  | _ :: _, [], h => by simp at h
  | fn :: fns, c :: coords, h => by
    simp only [List.map_cons, List.cons.injEq] at h
    simp only [readCoords, h.1, readCoords_of_map h.2]

theorem foldl_set_length {P V : Type} (pos : V → ℕ) (val : V → P) : ∀ (items : List V)
    (init : List P), (items.foldl (fun acc it => acc.set (pos it) (val it)) init).length = init.length
  | [], _ => rfl
  | it :: items, init => by
    rw [List.foldl_cons, foldl_set_length pos val items, List.length_set]

/-- A value is kept if no later one goes to the same place. -/
theorem foldl_set_other {P V : Type} (pos : V → ℕ) (val : V → P) (k : ℕ) : ∀ (items : List V)
    (init : List P), (∀ it ∈ items, pos it ≠ k) →
    (items.foldl (fun acc it => acc.set (pos it) (val it)) init)[k]? = init[k]?
  | [], _, _ => rfl
  | it :: items, init, h => by
    rw [List.foldl_cons, foldl_set_other pos val k items _ fun x hx => h x (List.mem_cons_of_mem _ hx),
      List.getElem?_set_ne (h it List.mem_cons_self)]

/-- With distinct places every value is found at its place. -/
theorem foldl_set_get {P V : Type} (pos : V → ℕ) (val : V → P) : ∀ (items : List V)
    (init : List P), (items.map pos).Nodup → (∀ it ∈ items, pos it < init.length) →
    ∀ it ∈ items, (items.foldl (fun acc it => acc.set (pos it) (val it)) init)[pos it]?
      = some (val it)
  | [], _, _, _, it, h => by simp at h
  | a :: items, init, hn, hl, it, h => by
    simp only [List.map_cons, List.nodup_cons] at hn
    rw [List.foldl_cons]
    rcases List.mem_cons.mp h with rfl | h
    · rw [foldl_set_other pos val]
      · rw [List.getElem?_set_self (hl _ List.mem_cons_self)]
      · intro x hx he
        exact hn.1 (List.mem_map.mpr ⟨x, hx, he⟩)
    · exact foldl_set_get pos val items _ hn.2
        (fun x hx => by rw [List.length_set]; exact hl x (List.mem_cons_of_mem _ hx)) it h

theorem allSome_of {P : Type} : ∀ {l : List (Option P)}, (∀ k < l.length, ∃ p, l[k]? = some (some p)) →
    ∃ d, allSome l = some d ∧ l = d.map some
  | [], _ => ⟨[], rfl, rfl⟩
  | o :: l, h => by
    obtain ⟨p, hp⟩ := h 0 (by simp)
    simp only [List.getElem?_cons_zero, Option.some.injEq] at hp
    subst hp
    obtain ⟨d, hd, hl⟩ := allSome_of (l := l) fun k hk => by
      have := h (k + 1) (by simpa using hk)
      simpa using this
    exact ⟨p :: d, by simp [allSome, hd], by simp [← hl]⟩

theorem allSome_length {P : Type} : ∀ {l : List (Option P)} {d : List P}, allSome l = some d →
    l = d.map some
  | [], d, h => by simp only [allSome, Option.some.injEq] at h; subst h; rfl
  | none :: l, d, h => by simp [allSome] at h
  | some p :: l, d, h => by
    simp only [allSome, Option.map_eq_some_iff] at h
    obtain ⟨d', hd', rfl⟩ := h
    simp [allSome_length hd']

theorem row_col_inj {n i j i' j' : ℕ} (hj : j < n) (hj' : j' < n) (h : i * n + j = i' * n + j') :
    i = i' ∧ j = j' := by
  have h1 : (i * n + j) / n = i := by
    rw [Nat.mul_comm, Nat.mul_add_div (by omega), Nat.div_eq_of_lt hj, Nat.add_zero]
  have h2 : (i' * n + j') / n = i' := by
    rw [Nat.mul_comm, Nat.mul_add_div (by omega), Nat.div_eq_of_lt hj', Nat.add_zero]
  rw [h] at h1
  have : i = i' := by omega
  subst this
  exact ⟨rfl, by omega⟩

theorem complete_card {coords : List (ℕ × ℕ)} (hn : coords.Nodup) (hc : Spec.Complete coords) :
    coords.length = (coords.map Prod.snd).toFinset.card * (coords.map Prod.fst).toFinset.card := by
  rw [← List.toFinset_card_of_nodup hn, Nat.mul_comm, ← Finset.card_product]
  congr 1
  ext ⟨x, y⟩
  simp only [List.mem_toFinset, Finset.mem_product, List.mem_map, Prod.exists, exists_and_right,
    exists_eq_right]
  constructor
  · intro h; exact ⟨⟨y, h⟩, ⟨x, h⟩⟩
  · rintro ⟨⟨y', h⟩, ⟨x', h'⟩⟩
    exact hc _ h _ h'

variable {R P : Type} {search : R → String → Option (ℕ × ℕ)}

/-- C43 (partial): if the chosen expression finds coordinates in every file name, and these are
distinct and complete, the signal has as many rows and columns as there are distinct coordinates,
every file's pattern is in the row and column given by the order of its coordinates, every position
has exactly one file, and there is no warning. -/
theorem C43_map_order_partial {given : Option R} {defaults : List R} {files : List (String × P)} {r : R}
    {first : String × P} (hf : files.head? = some first)
    (hr : chooseRegex search given defaults first.1 = some r) {coords : List (ℕ × ℕ)}
    (hcoords : files.map (fun f => search r f.1) = coords.map some) (hn : coords.Nodup)
    (hc : Spec.Complete coords) :
    ∃ s, readDirectory search given defaults files = .ok s ∧ s.warned = false
      ∧ s.navShape = [(coords.map Prod.snd).toFinset.card, (coords.map Prod.fst).toFinset.card]
      ∧ s.data.length = files.length
      ∧ (∀ f ∈ files, ∀ x y, search r f.1 = some (x, y) →
          Spec.rank (coords.map Prod.snd) y < (coords.map Prod.snd).toFinset.card
          ∧ Spec.rank (coords.map Prod.fst) x < (coords.map Prod.fst).toFinset.card
          ∧ s.data[Spec.rank (coords.map Prod.snd) y * (coords.map Prod.fst).toFinset.card
              + Spec.rank (coords.map Prod.fst) x]? = some f.2)
      ∧ ∀ k < s.data.length, ∃ f ∈ files, ∃ x y, search r f.1 = some (x, y)
          ∧ k = Spec.rank (coords.map Prod.snd) y * (coords.map Prod.fst).toFinset.card
              + Spec.rank (coords.map Prod.fst) x := by
  match files, hf with
  | f0 :: fs, hf =>
    simp only [List.head?_cons, Option.some.injEq] at hf
    subst hf
    set files := f0 :: fs with hfiles
    have hrc : readCoords (search r) (files.map Prod.fst) = .ok coords :=
      readCoords_of_map (by rw [List.map_map]; exact hcoords)
    have hlen : files.length = coords.length := by
      have := congrArg List.length hcoords
      simpa using this
    have hcard := complete_card hn hc
    set X := coords.map Prod.fst with hX
    set Y := coords.map Prod.snd with hY
    obtain ⟨items, hitems⟩ : ∃ l, l = coords.zip (files.map Prod.snd) := ⟨_, rfl⟩
    have hfst : items.map Prod.fst = coords := by
      rw [hitems, List.map_fst_zip]; simp [hlen]
    have hzip : ∀ (fl : List (String × P)) (cl : List (ℕ × ℕ)),
        fl.map (fun f => search r f.1) = cl.map some →
        (∀ it ∈ cl.zip (fl.map Prod.snd), ∃ f ∈ fl, search r f.1 = some it.1 ∧ f.2 = it.2)
        ∧ ∀ f ∈ fl, ∀ c, search r f.1 = some c → (c, f.2) ∈ cl.zip (fl.map Prod.snd) := by
      intro fl
      induction fl with
      | nil => intro cl h; simp
      | cons f fl ih =>
        intro cl h
        match cl, h with
        | [], h => simp at h
        | c :: cl, h =>
          simp only [List.map_cons, List.cons.injEq] at h
          obtain ⟨i1, i2⟩ := ih cl h.2
          constructor
          · intro it hit
            simp only [List.map_cons, List.zip_cons_cons, List.mem_cons] at hit
            rcases hit with rfl | hit
            · exact ⟨f, List.mem_cons_self, h.1, rfl⟩
            · obtain ⟨g, hg, hh⟩ := i1 it hit
              exact ⟨g, List.mem_cons_of_mem _ hg, hh⟩
          · intro g hg c' hc'
            simp only [List.map_cons, List.zip_cons_cons, List.mem_cons] at hg ⊢
            rcases hg with rfl | hg
            · left
              rw [h.1] at hc'
              simp only [Option.some.injEq] at hc'
              rw [hc']
            · right; exact i2 g hg c' hc'
    obtain ⟨hz1, hz2⟩ := hzip files coords hcoords
    rw [← hitems] at hz1 hz2
    have hmem : ∀ it ∈ items, it.1 ∈ coords := by
      intro it hit; rw [← hfst]; exact List.mem_map_of_mem hit
    have hidx : ∀ c ∈ coords, (sortedSet Y).idxOf c.2 = Spec.rank Y c.2
        ∧ (sortedSet X).idxOf c.1 = Spec.rank X c.1
        ∧ Spec.rank Y c.2 < Y.toFinset.card ∧ Spec.rank X c.1 < X.toFinset.card := by
      intro c hcm
      have h1 : c.2 ∈ Y := List.mem_map_of_mem hcm
      have h2 : c.1 ∈ X := List.mem_map_of_mem hcm
      refine ⟨idxOf_sortedSet h1, idxOf_sortedSet h2, ?_, ?_⟩
      · rw [← idxOf_sortedSet h1, ← sortedSet_length]
        exact List.idxOf_lt_length_of_mem (sortedSet_mem.mpr h1)
      · rw [← idxOf_sortedSet h2, ← sortedSet_length]
        exact List.idxOf_lt_length_of_mem (sortedSet_mem.mpr h2)
    set pos : (ℕ × ℕ) × P → ℕ := fun it =>
      (sortedSet Y).idxOf it.1.2 * (sortedSet X).length + (sortedSet X).idxOf it.1.1 with hpos
    have hposeq : ∀ it ∈ items, pos it
        = Spec.rank Y it.1.2 * X.toFinset.card + Spec.rank X it.1.1 := by
      intro it hit
      obtain ⟨h1, h2, _, _⟩ := hidx _ (hmem it hit)
      simp only [hpos, h1, h2, sortedSet_length]
    have hposlt : ∀ it ∈ items, pos it < Y.toFinset.card * X.toFinset.card := by
      intro it hit
      rw [hposeq it hit]
      obtain ⟨_, _, h3, h4⟩ := hidx _ (hmem it hit)
      calc _ < Spec.rank Y it.1.2 * X.toFinset.card + X.toFinset.card := by omega
        _ = (Spec.rank Y it.1.2 + 1) * X.toFinset.card := by ring
        _ ≤ _ := Nat.mul_le_mul_right _ h3
    have hposnd : (items.map pos).Nodup := by
      have hnd : (items.map Prod.fst).Nodup := by rw [hfst]; exact hn
      rw [List.nodup_map_iff_inj_on (List.Nodup.of_map _ hnd)]
      intro a ha b hb hab
      have hinj := List.inj_on_of_nodup_map hnd ha hb
      apply hinj
      rw [hposeq a ha, hposeq b hb] at hab
      obtain ⟨ea1, ea2, _, la⟩ := hidx _ (hmem a ha)
      obtain ⟨eb1, eb2, _, lb⟩ := hidx _ (hmem b hb)
      obtain ⟨h1, h2⟩ := row_col_inj la lb hab
      have m1 : a.1.2 ∈ sortedSet Y := sortedSet_mem.mpr (List.mem_map_of_mem (hmem a ha))
      have m2 : a.1.1 ∈ sortedSet X := sortedSet_mem.mpr (List.mem_map_of_mem (hmem a ha))
      have e1 : a.1.2 = b.1.2 := List.idxOf_inj m1 |>.mp (by rw [ea1, eb1, h1])
      have e2 : a.1.1 = b.1.1 := List.idxOf_inj m2 |>.mp (by rw [ea2, eb2, h2])
      exact Prod.ext e2 e1
    set out := placeAll (sortedSet X) (sortedSet Y) items
      (List.replicate (Y.toFinset.card * X.toFinset.card) none) with hout
    have houtlen : out.length = Y.toFinset.card * X.toFinset.card := by
      have := foldl_set_length pos (fun it => some it.2) items
        (List.replicate (Y.toFinset.card * X.toFinset.card) none)
      rw [List.length_replicate] at this
      exact this
    have hget : ∀ it ∈ items, out[pos it]? = some (some it.2) :=
      foldl_set_get pos (fun it => some it.2) items _ hposnd
        (fun it hit => by rw [List.length_replicate]; exact hposlt it hit)
    -- every position is the position of an item
    have hitemlen : items.length = Y.toFinset.card * X.toFinset.card := by
      have := congrArg List.length hfst
      rw [List.length_map] at this
      rw [this]; exact hcard
    have hsurj : ∀ k < Y.toFinset.card * X.toFinset.card, ∃ it ∈ items, pos it = k := by
      intro k hk
      have hsub : (items.map pos).toFinset ⊆ Finset.range (Y.toFinset.card * X.toFinset.card) := by
        intro p hp
        simp only [List.mem_toFinset, List.mem_map] at hp
        obtain ⟨it, hit, rfl⟩ := hp
        exact Finset.mem_range.mpr (hposlt it hit)
      have heq := Finset.eq_of_subset_of_card_le hsub (by
        rw [List.toFinset_card_of_nodup hposnd, List.length_map, hitemlen, Finset.card_range])
      have : k ∈ (items.map pos).toFinset := by rw [heq]; exact Finset.mem_range.mpr hk
      simpa [List.mem_toFinset, List.mem_map] using this
    obtain ⟨d, hd, hod⟩ := allSome_of (l := out) fun k hk => by
      obtain ⟨it, hit, rfl⟩ := hsurj k (houtlen ▸ hk)
      exact ⟨_, hget it hit⟩
    have hdlen : d.length = Y.toFinset.card * X.toFinset.card := by
      rw [← houtlen, hod, List.length_map]
    have hdget : ∀ it ∈ items, d[pos it]? = some it.2 := by
      intro it hit
      have := hget it hit
      rw [hod, List.getElem?_map] at this
      simpa using this
    refine ⟨⟨false, [Y.toFinset.card, X.toFinset.card], d⟩, ?_, rfl, rfl, ?_, ?_, ?_⟩
    · rw [hfiles]
      simp only [readDirectory]
      rw [← hfiles, hr]
      simp only [hrc]
      rw [← hX, ← hY, sortedSet_length, sortedSet_length, if_neg (by rw [hlen]; simpa using hcard),
        ← hitems, ← hout, hd]
    · show d.length = _
      rw [hdlen, hlen]; exact hcard.symm
    · intro f hfm x y hxy
      have hit := hz2 f hfm (x, y) hxy
      obtain ⟨_, _, h3, h4⟩ := hidx _ (hmem _ hit)
      refine ⟨h3, h4, ?_⟩
      have := hdget _ hit
      rw [hposeq _ hit] at this
      exact this
    · intro k hk
      obtain ⟨it, hit, hpk⟩ := hsurj k (hdlen ▸ hk)
      obtain ⟨f, hfm, hs, _⟩ := hz1 it hit
      refine ⟨f, hfm, it.1.1, it.1.2, hs, ?_⟩
      rw [← hpk, hposeq it hit]

/-- C43: a number of files other than the product of the numbers of distinct coordinates gives a
one-dimensional signal, in the order of the listing, and a warning. -/
theorem C43_fallback_count {given : Option R} {defaults : List R} {files : List (String × P)} {r : R}
    {first : String × P} (hf : files.head? = some first)
    (hr : chooseRegex search given defaults first.1 = some r) {coords : List (ℕ × ℕ)}
    (hcoords : files.map (fun f => search r f.1) = coords.map some)
    (hne : files.length ≠ (coords.map Prod.snd).toFinset.card * (coords.map Prod.fst).toFinset.card) :
    readDirectory search given defaults files
      = .ok ⟨true, [files.length], files.map Prod.snd⟩ := by
  match files, hf with
  | f0 :: fs, hf =>
    simp only [List.head?_cons, Option.some.injEq] at hf
    subst hf
    have hrc : readCoords (search r) ((f0 :: fs).map Prod.fst) = .ok coords :=
      readCoords_of_map (by rw [List.map_map]; exact hcoords)
    simp only [readDirectory]
    rw [hr]
    simp only [hrc]
    rw [sortedSet_length, sortedSet_length, if_pos hne]

/-- C43: so does a first file in whose name no default expression finds coordinates. -/
theorem C43_fallback_no_coordinates {defaults : List R} {files : List (String × P)}
    {first : String × P} (hf : files.head? = some first)
    (hr : ∀ r ∈ defaults, search r first.1 = none) :
    readDirectory search none defaults files
      = .ok ⟨true, [files.length], files.map Prod.snd⟩ := by
  match files, hf with
  | f0 :: fs, hf =>
    simp only [List.head?_cons, Option.some.injEq] at hf
    subst hf
    have : chooseRegex search none defaults f0.1 = none := by
      simp only [chooseRegex, List.find?_eq_none]
      intro r hm
      simp [hr r hm]
    simp only [readDirectory, this]

/-- C43: the order in which the files are listed does not matter when the coordinates are distinct
and complete (and the same expression is chosen). -/
theorem C43_listing_order {given : Option R} {defaults : List R} {files files' : List (String × P)}
    {r : R} {first first' : String × P} (hf : files.head? = some first)
    (hf' : files'.head? = some first')
    (hr : chooseRegex search given defaults first.1 = some r)
    (hr' : chooseRegex search given defaults first'.1 = some r) (hperm : files.Perm files')
    {coords : List (ℕ × ℕ)} (hcoords : files.map (fun f => search r f.1) = coords.map some)
    (hn : coords.Nodup) (hc : Spec.Complete coords) :
    readDirectory search given defaults files = readDirectory search given defaults files' := by
  obtain ⟨coords', hc', hp⟩ : ∃ coords', files'.map (fun f => search r f.1) = coords'.map some
      ∧ coords.Perm coords' := by
    have hh : (coords.map some).Perm (files'.map (fun f => search r f.1)) := by
      rw [← hcoords]; exact hperm.map _
    refine ⟨(files'.map (fun f => search r f.1)).filterMap id, ?_, ?_⟩
    · have hall : ∀ o ∈ files'.map (fun f => search r f.1), o.isSome := by
        intro o ho
        have := hh.mem_iff.mpr ho
        simp only [List.mem_map] at this
        obtain ⟨c, _, rfl⟩ := this
        rfl
      generalize files'.map (fun f => search r f.1) = l at hall
      clear hh
      induction l with
      | nil => rfl
      | cons o l ih =>
        have := hall o List.mem_cons_self
        obtain ⟨c, rfl⟩ := Option.isSome_iff_exists.mp this
        have ih' := ih fun o ho => hall o (List.mem_cons_of_mem _ ho)
        change some c :: l = some c :: List.map some (List.filterMap id l)
        rw [← ih']
    · have := hh.filterMap id
      have e : (coords.map some).filterMap id = coords := by
        rw [List.filterMap_map]; simp
      rw [e] at this
      exact this
  have hn' : coords'.Nodup := hp.nodup_iff.mp hn
  have hcc' : Spec.Complete coords' := fun a ha b hb =>
    hp.mem_iff.mp (hc a (hp.mem_iff.mpr ha) b (hp.mem_iff.mpr hb))
  obtain ⟨s, h1, h2, h3, h4, h5, h6⟩ := C43_map_order_partial hf hr hcoords hn hc
  obtain ⟨s', h1', h2', h3', h4', h5', h6'⟩ := C43_map_order_partial hf' hr' hc' hn' hcc'
  have hX : (coords.map Prod.fst).toFinset = (coords'.map Prod.fst).toFinset :=
    List.toFinset_eq_of_perm _ _ (hp.map _)
  have hY : (coords.map Prod.snd).toFinset = (coords'.map Prod.snd).toFinset :=
    List.toFinset_eq_of_perm _ _ (hp.map _)
  have hlen : s.data.length = s'.data.length := by rw [h4, h4', hperm.length_eq]
  have hdata : s.data = s'.data := by
    apply List.ext_getElem? 
    intro k
    by_cases hk : k < s.data.length
    · obtain ⟨f, hfm, x, y, hxy, rfl⟩ := h6 k hk
      rw [(h5 f hfm x y hxy).2.2]
      have := (h5' f (hperm.mem_iff.mp hfm) x y hxy).2.2
      unfold Spec.rank at this ⊢
      rw [hX, hY, this]
    · rw [List.getElem?_eq_none (by omega), List.getElem?_eq_none (by omega)]
  rw [h1, h1']
  have : s = s' := by
    cases s; cases s'
    simp only at h2 h3 h2' h3' hdata
    subst hdata; rw [h2, h2', h3, h3', hX, hY]
  rw [this]

/-- Names as the pair of coordinates in them, for the examples: "_x5y10" is (5, 10). -/
def exampleSearch (_ : Unit) (fn : String) : Option (ℕ × ℕ) :=
  match fn with
  | "a_x1y0.tif" => some (1, 0)
  | "b_x0y0.tif" => some (0, 0)
  | "b_x00y0.tif" => some (0, 0)
  | "c_x0y3.tif" => some (0, 3)
  | "d_x1y3.tif" => some (1, 3)
  | _ => none

/-- The code does not satisfy C43: with repeated coordinates and a missing position the number of
files can be right, and reading raises an error instead of giving a one-dimensional signal. -/
theorem C43_not_repeated : readDirectory exampleSearch none [()]
    [("b_x0y0.tif", 1), ("b_x00y0.tif", 2), ("c_x0y3.tif", 3), ("d_x1y3.tif", 4)]
    = .error .valueError := by decide +kernel

/-- The code does not satisfy C43: a file without coordinates in its name raises an error unless
it is listed first.  So the result depends on the order in which files are listed. -/
theorem C43_not_mixed_names {given : Option R} {defaults : List R} {f : String × P}
    {files : List (String × P)} {r : R} (hr : chooseRegex search given defaults f.1 = some r)
    {g : String × P} (hg : g ∈ f :: files) (hnone : search r g.1 = none) :
    readDirectory search given defaults (f :: files) = .error .attributeError := by
  have key : ∀ fns : List String, g.1 ∈ fns → readCoords (search r) fns = .error .attributeError := by
    intro fns
    induction fns with
    | nil => intro h; simp at h
    | cons fn fns ih =>
      intro h
      simp only [readCoords]
      cases hs : search r fn with
      | none => rfl
      | some xy =>
        have : g.1 ∈ fns := by
          rcases List.mem_cons.mp h with h | h
          · rw [← h, hnone] at hs; cases hs
          · exact h
        simp [ih this]
  simp only [readDirectory]
  rw [hr]
  simp only [key _ (List.mem_map_of_mem hg)]

/-- The hypotheses are met: a map with two rows and two columns, listed out of order. -/
example : readDirectory exampleSearch none [()]
    [("a_x1y0.tif", 1), ("d_x1y3.tif", 2), ("c_x0y3.tif", 3), ("b_x0y0.tif", 4)]
    = .ok ⟨false, [2, 2], [4, 1, 3, 2]⟩ := by decide +kernel

example : ([(1, 0), (1, 3), (0, 3), (0, 0)] : List (ℕ × ℕ)).Nodup
    ∧ Spec.Complete [(1, 0), (1, 3), (0, 3), (0, 0)] := by
  constructor
  · decide
  · unfold Spec.Complete; decide

example : readDirectory exampleSearch none [()]
    [("b_x0y0.tif", 4), ("e.tif", 2)] = .error .attributeError
    ∧ readDirectory exampleSearch none [()]
    [("e.tif", 2), ("b_x0y0.tif", 4)] = .ok ⟨true, [2], [2, 4]⟩ := by decide +kernel

end Kp
