import Verif.Model.EmsoftMasterPattern
import Mathlib.Algebra.Order.Ring.Rat
import Mathlib.Tactic.Linarith
import Mathlib.Tactic.Ring
import Mathlib.Tactic.NormNum

/-
C47: Loading a master pattern with an energy range returns exactly the energies in the closed range;
with one energy it returns the closest one.
C71: The axes of a loaded master pattern describe its data.
-/

namespace Kp

set_option linter.unusedSectionVars false

variable {K I : Type*} [Field K] [LinearOrder K] [IsStrictOrderedRing K]

theorem firstTrue_spec : ∀ {l : List Bool} {k : ℕ}, firstTrue l = some k →
    l[k]? = some true ∧ ∀ j < k, l[j]? = some false
  | [], k, h => by simp [firstTrue] at h
  | true :: l, k, h => by
    simp only [firstTrue, Option.some.injEq] at h; subst h
    exact ⟨rfl, fun j hj => by omega⟩
  | false :: l, k, h => by
    simp only [firstTrue, Option.map_eq_some_iff] at h
    obtain ⟨m, hm, rfl⟩ := h
    obtain ⟨h1, h2⟩ := firstTrue_spec hm
    refine ⟨by simpa using h1, fun j hj => ?_⟩
    match j with
    | 0 => rfl
    | j + 1 => simpa using h2 j (by omega)

theorem firstTrue_none : ∀ {l : List Bool}, firstTrue l = none ↔ true ∉ l
  | [] => by simp [firstTrue]
  | true :: l => by simp [firstTrue]
  | false :: l => by simp [firstTrue, firstTrue_none (l := l)]

theorem lastTrue_none : ∀ {l : List Bool}, lastTrue l = none ↔ true ∉ l
  | [] => by simp [lastTrue]
  | b :: l => by
    have := lastTrue_none (l := l)
    unfold lastTrue
    cases h : lastTrue l with
    | some k =>
      rw [h] at this
      simp only [reduceCtorEq, false_iff, not_not] at this ⊢
      exact List.mem_cons_of_mem _ this
    | none =>
      rw [h] at this
      have h2 := this.mp rfl
      cases b <;> simp [h2]

theorem lastTrue_spec : ∀ {l : List Bool} {k : ℕ}, lastTrue l = some k →
    l[k]? = some true ∧ ∀ j, k < j → l[j]? ≠ some true
  | [], k, h => by simp [lastTrue] at h
  | b :: l, k, h => by
    unfold lastTrue at h
    cases hl : lastTrue l with
    | some m =>
      rw [hl] at h
      simp only [Option.some.injEq] at h; subst h
      obtain ⟨h1, h2⟩ := lastTrue_spec hl
      refine ⟨by simpa using h1, fun j hj => ?_⟩
      match j with
      | 0 => omega
      | j + 1 => simpa using h2 j (by omega)
    | none =>
      rw [hl] at h
      have hn := lastTrue_none.mp hl
      cases b
      · simp at h
      · simp only [if_true, Option.some.injEq] at h; subst h
        refine ⟨rfl, fun j hj => ?_⟩
        match j with
        | 0 => omega
        | j + 1 =>
          intro he
          exact hn (List.mem_of_getElem? (by simpa using he))

theorem firstArgmin_spec : ∀ {l : List K}, l ≠ [] → ∃ m, l[firstArgmin l]? = some m
    ∧ (∀ v ∈ l, m ≤ v) ∧ ∀ j v, j < firstArgmin l → l[j]? = some v → m < v
  | [], h => absurd rfl h
  | [a], _ => ⟨a, rfl, by simp, fun j v hj => by simp [firstArgmin] at hj⟩
  | a :: b :: l, _ => by
    obtain ⟨m, h1, h2, h3⟩ := firstArgmin_spec (l := b :: l) (by simp)
    unfold firstArgmin
    simp only [h1]
    by_cases ha : a ≤ m
    · rw [if_pos ha]
      refine ⟨a, rfl, ?_, fun j v hj => by omega⟩
      intro v hv
      rcases List.mem_cons.mp hv with rfl | hv
      · exact le_refl _
      · exact ha.trans (h2 v hv)
    · rw [if_neg ha]
      push Not at ha
      refine ⟨m, by simpa using h1, ?_, ?_⟩
      · intro v hv
        rcases List.mem_cons.mp hv with rfl | hv
        · exact ha.le
        · exact h2 v hv
      · intro j v hj hv
        match j with
        | 0 => simp only [List.getElem?_cons_zero, Option.some.injEq] at hv; rw [← hv]; exact ha
        | j + 1 => exact h3 j v (by omega) (by simpa using hv)

/-- A filter of a list by a property holding exactly for positions in [a, b). -/
theorem filter_eq_slice {α : Type*} (p : α → Bool) : ∀ (l : List α) (a b : ℕ),
    (∀ (i : ℕ) (v : α), l[i]? = some v → (p v = true ↔ a ≤ i ∧ i < b)) → l.filter p = sliceList l a b
  | [], a, b, _ => by simp [sliceList]
  | x :: l, 0, 0, h => by
    have : ∀ v ∈ x :: l, ¬p v = true := by
      intro v hv
      obtain ⟨i, hi⟩ := List.mem_iff_getElem?.mp hv
      rw [h i v hi]; omega
    rw [List.filter_eq_nil_iff.mpr this]; rfl
  | x :: l, 0, b + 1, h => by
    have hx : p x = true := (h 0 x rfl).mpr (by omega)
    have ih := filter_eq_slice p l 0 b fun i v hi => by
      rw [h (i + 1) v (by simpa using hi)]; omega
    rw [List.filter_cons_of_pos hx, ih]; rfl
  | x :: l, a + 1, b, h => by
    have hx : ¬p x = true := by rw [h 0 x rfl]; omega
    have ih := filter_eq_slice p l a (b - 1) fun i v hi => by
      rw [h (i + 1) v (by simpa using hi)]; omega
    rw [List.filter_cons_of_neg hx, ih]
    cases b with
    | zero => simp [sliceList]
    | succ b => simp [sliceList]

/-- The slice for a range, for an increasing energy axis. -/
theorem energySlice_range {energies : List K} (hs : energies.Pairwise (· < ·)) {e0 e1 : K}
    {a b : ℕ} (h : energySlice energies (.range e0 e1) = .ok (a, b)) :
    ∀ (i : ℕ) (v : K), energies[i]? = some v →
      (decide (e0 ≤ v ∧ v ≤ e1) = true ↔ a ≤ i ∧ i < b) := by
  intro i v hv
  simp only [energySlice] at h
  split at h
  · rename_i a' b' h1 h2
    injection h with h
    simp only [Prod.mk.injEq] at h
    obtain ⟨rfl, rfl⟩ := h
    obtain ⟨p1, p2⟩ := firstTrue_spec h1
    obtain ⟨q1, q2⟩ := lastTrue_spec h2
    simp only [List.getElem?_map, Option.map_eq_some_iff, decide_eq_true_eq] at p1 q1
    obtain ⟨va, hva, hva0⟩ := p1
    obtain ⟨vb, hvb, hvb1⟩ := q1
    have mono : ∀ (i j : ℕ) (v w : K), i ≤ j → energies[i]? = some v → energies[j]? = some w →
        v ≤ w := by
      intro i j v w hij hi hj
      rcases Nat.lt_or_eq_of_le hij with hlt | rfl
      · obtain ⟨hil, rfl⟩ := List.getElem?_eq_some_iff.mp hi
        obtain ⟨hjl, rfl⟩ := List.getElem?_eq_some_iff.mp hj
        exact (List.pairwise_iff_getElem.mp hs i j hil hjl hlt).le
      · rw [hi] at hj; injection hj with hj; rw [hj]
    simp only [decide_eq_true_eq]
    constructor
    · rintro ⟨h0, h1⟩
      constructor
      · by_contra hlt
        have := p2 i (by omega)
        simp only [List.getElem?_map, hv, Option.map_some, Option.some.injEq,
          decide_eq_false_iff_not] at this
        exact this h0
      · by_contra hlt
        have := q2 i (by omega)
        simp only [List.getElem?_map, hv, Option.map_some, ne_eq, Option.some.injEq,
          decide_eq_true_eq] at this
        exact this h1
    · rintro ⟨hai, hib⟩
      exact ⟨hva0.trans (mono _ _ _ _ hai hva hv), (mono _ _ _ _ (by omega) hv hvb).trans hvb1⟩
  · cases h

/-- C47, ranges: for an increasing energy axis, the energies and the images (of any dataset along
the energy axis) that are read are exactly those in the closed range, in order. -/
theorem C47_range {energies : List K} (hs : energies.Pairwise (· < ·)) {e0 e1 : K}
    {a b : ℕ} (h : energySlice energies (.range e0 e1) = .ok (a, b))
    {images : List I} (hl : images.length = energies.length) :
    (sliceList energies a b).zip (sliceList images a b)
      = (energies.zip images).filter fun p => decide (e0 ≤ p.1 ∧ p.1 ≤ e1) := by
  rw [filter_eq_slice (fun p : K × I => decide (e0 ≤ p.1 ∧ p.1 ≤ e1)) _ a b]
  · unfold sliceList
    simp only [List.zip, List.take_zipWith, List.drop_zipWith]
  · intro i v hv
    rw [List.getElem?_zip_eq_some] at hv
    exact energySlice_range hs h i v.1 hv.1

/-- C47: a range is refused (`IndexError`) exactly when all energies are below, or all are above
it. -/
theorem C47_range_refused {energies : List K} {e0 e1 : K} :
    energySlice energies (.range e0 e1) = .error .indexError
      ↔ (∀ e ∈ energies, e < e0) ∨ ∀ e ∈ energies, e1 < e := by
  have n1 : firstTrue (energies.map fun e => decide (e0 ≤ e)) = none ↔ ∀ e ∈ energies, e < e0 := by
    rw [firstTrue_none]; simp
  have n2 : lastTrue (energies.map fun e => decide (e ≤ e1)) = none ↔ ∀ e ∈ energies, e1 < e := by
    rw [lastTrue_none]; simp
  rw [← n1, ← n2]
  simp only [energySlice]
  cases h1 : firstTrue (energies.map fun e => decide (e0 ≤ e)) <;>
    cases h2 : lastTrue (energies.map fun e => decide (e ≤ e1)) <;> simp

/-- C47, one energy: one image is read, at an energy which no other energy is closer than. -/
theorem C47_closest {energies : List K} (hne : energies ≠ []) (e : K) :
    ∃ k f, energySlice energies (.one e) = .ok (k, k + 1) ∧ energies[k]? = some f
      ∧ ∀ g ∈ energies, |f - e| ≤ |g - e| := by
  obtain ⟨m, h1, h2, _⟩ := firstArgmin_spec (l := energies.map fun f => |f - e|) (by simpa using hne)
  simp only [List.getElem?_map, Option.map_eq_some_iff] at h1
  obtain ⟨f, hf, rfl⟩ := h1
  refine ⟨_, f, by simp only [energySlice, if_neg hne], hf, fun g hg => ?_⟩
  exact h2 _ (List.mem_map_of_mem (f := fun f => |f - e|) hg)

theorem sliceList_length {α : Type*} (l : List α) (a b : ℕ) (h : b ≤ l.length) :
    (sliceList l a b).length = b - a := by
  simp [sliceList, Nat.min_eq_left h]

theorem sumPositions_length [AddMonoid I] {n : ℕ} : ∀ {l : List (List I)},
    (∀ x ∈ l, x.length = n) → (sumPositions n l).length = n
  | [], _ => by simp [sumPositions]
  | x :: l, h => by
    have ih := sumPositions_length fun y hy => h y (List.mem_cons_of_mem _ hy)
    have hx := h x List.mem_cons_self
    unfold sumPositions at ih ⊢
    simp only [List.foldr_cons, List.length_zipWith, ih, hx, Nat.min_self]

/-- A file with an image for each energy and asymmetric position. -/
structure Spec.EmValid (f : EmFile K I) : Prop where
  spNorth : f.spNorth.length = f.energies.length
  spSouth : f.spSouth.length = f.energies.length
  lpNorth : ∀ l ∈ f.lpNorth, l.length = f.energies.length
  lpSouth : ∀ l ∈ f.lpSouth, l.length = f.energies.length

theorem hemisphereImages_length [AddMonoid I] {flip : I → I} {f : EmFile K I} (hf : Spec.EmValid f)
    (proj : MpProjection) (south : Bool) {a b : ℕ} (hb : b ≤ f.energies.length) :
    (hemisphereImages flip f proj south a b).length = b - a := by
  unfold hemisphereImages
  cases proj with
  | stereographic =>
    cases south
    · simp [sliceList_length _ a b (hf.spNorth ▸ hb)]
    · simp [sliceList_length _ a b (hf.spSouth ▸ hb)]
  | lambert =>
    simp only
    apply sumPositions_length
    intro x hx
    obtain ⟨l, hl, rfl⟩ := List.mem_map.mp hx
    apply sliceList_length
    cases south
    · rw [hf.lpNorth l (by simpa using hl)]; exact hb
    · rw [hf.lpSouth l (by simpa using hl)]; exact hb

/-- Images of the requested hemispheres in the file, indexed by energy. -/
def Spec.hemispheres (hemi : MpHemisphere) : List Bool :=
  match hemi with
  | .upper => [false]
  | .lower => [true]
  | .both => [false, true]

/-- Axes describing data with `h` hemispheres, energies `es` and images of side length `s`: axes of
one entry are dropped, the energy axis starts at the first energy. -/
def Spec.emAxes (h : ℕ) (es : List K) (binSize : K) (s : ℕ) : List (EmAxis K) :=
  (if h = 1 then [] else [⟨h, "hemisphere", 1, 0⟩])
  ++ (if es.length = 1 then [] else [⟨es.length, "energy", binSize, es.headD 0⟩])
  ++ [⟨s, "height", 1, ((((s : ℤ) * -1) / 2 : ℤ) : K)⟩, ⟨s, "width", 1, ((((s : ℤ) * -1) / 2 : ℤ) : K)⟩]

/-- C71 (partial): images are those of the requested hemispheres and energies, and, except for the
Lambert projection with one hemisphere and not exactly one asymmetric position, axes describe the
data.  Missing: the exception (see below). -/
theorem C71_axes_partial [AddMonoid I] {flip : I → I} {f : EmFile K I} (hf : Spec.EmValid f)
    (hnpx : 0 < f.npx) {sel : EnergySelection K} {a b : ℕ}
    (h : energySlice f.energies sel = .ok (a, b)) (hab : a < b) (hb : b ≤ f.energies.length)
    (proj : MpProjection) (hemi : MpHemisphere)
    (hset : proj = .stereographic ∨ hemi = .both ∨ f.lpNorth.length = 1) :
    ∃ m, emRead flip f sel proj hemi = .ok m
      ∧ m.images = ((Spec.hemispheres hemi).map fun s => hemisphereImages flip f proj s a b)
      ∧ m.axes = Spec.emAxes m.images.length (sliceList f.energies a b) f.binSize (2 * f.npx + 1) := by
  have ha : a < f.energies.length := by omega
  have hN := hemisphereImages_length (flip := flip) hf proj false (a := a) hb
  have hS := hemisphereImages_length (flip := flip) hf proj true (a := a) hb
  have hes := sliceList_length f.energies a b hb
  have hhead : (sliceList f.energies a b).headD 0 = f.energies[a] := by
    rw [List.headD_eq_head?_getD, List.head?_eq_getElem?]
    unfold sliceList
    rw [List.getElem?_drop, List.getElem?_take_of_lt (by omega), Nat.add_zero,
      List.getElem?_eq_getElem ha]
    rfl
  have hs1 : (2 * f.npx + 1 ≠ 1) := by omega
  unfold emRead
  simp only [h, List.getElem?_eq_getElem ha]
  refine ⟨_, rfl, by cases hemi <;> rfl, ?_⟩
  unfold Spec.emAxes
  rw [hhead, hes]
  by_cases h1 : b - a = 1
  · have h1' : (b : ℤ) - a = 1 := by omega
    cases hemi <;> cases proj <;>
      simp_all [emDataShape, List.filter_cons]
  · have h1' : ¬(b : ℤ) - a = 1 := by omega
    cases hemi <;> cases proj <;>
      simp_all [emDataShape, List.filter_cons]

theorem sumPositions_get [AddMonoid I] {n i : ℕ} (hi : i < n) : ∀ {l : List (List I)},
    (∀ x ∈ l, x.length = n) → (sumPositions n l)[i]? = some (l.map fun x => x.getD i 0).sum
  | [], _ => by simp [sumPositions, List.getElem?_replicate, hi]
  | x :: l, h => by
    have ih := sumPositions_get hi fun y hy => h y (List.mem_cons_of_mem _ hy)
    have hx := h x List.mem_cons_self
    unfold sumPositions at ih ⊢
    simp only [List.foldr_cons, List.getElem?_zipWith, ih, List.map_cons, List.sum_cons,
      List.getElem?_eq_getElem (by omega : i < x.length), List.getD_eq_getElem?_getD, Option.getD_some]

theorem sliceList_get {α : Type*} (l : List α) {a b i : ℕ} (hi : i < b - a) :
    (sliceList l a b)[i]? = l[a + i]? := by
  unfold sliceList
  rw [List.getElem?_drop, List.getElem?_take_of_lt (by omega)]

/-- C71, images: the stereographic image for an energy is the image in the file at this energy,
flipped. The Lambert image is the sum over asymmetric positions of those in the file. -/
theorem C71_images [AddMonoid I] {flip : I → I} {f : EmFile K I} (hf : Spec.EmValid f) (south : Bool)
    {a b i : ℕ} (hb : b ≤ f.energies.length) (hi : i < b - a) :
    (hemisphereImages flip f .stereographic south a b)[i]?
        = ((if south then f.spSouth else f.spNorth)[a + i]?).map flip
    ∧ (hemisphereImages flip f .lambert south a b)[i]?
        = some (((if south then f.lpSouth else f.lpNorth).map fun l => l.getD (a + i) 0).sum) := by
  constructor
  · simp only [hemisphereImages, List.getElem?_map, sliceList_get _ hi]
  · simp only [hemisphereImages]
    rw [sumPositions_get hi]
    · rw [List.map_map]
      congr 3
      funext l
      simp only [Function.comp_apply, List.getD_eq_getElem?_getD, sliceList_get _ hi]
    · intro x hx
      obtain ⟨l, hl, rfl⟩ := List.mem_map.mp hx
      apply sliceList_length
      cases south
      · rw [hf.lpNorth l (by simpa using hl)]; exact hb
      · rw [hf.lpSouth l (by simpa using hl)]; exact hb

/-- C71, energies: the coordinates of the energy axis are the energies read, when the energy axis in
the file is evenly spaced by the bin size. -/
theorem C71_energy_coordinates {energies : List K} {binSize : K}
    (heven : ∀ (i : ℕ) (v : K), energies[i]? = some v → v = energies.headD 0 + i * binSize)
    {a b : ℕ} (hab : a < b) (hb : b ≤ energies.length) (i : ℕ) (hi : i < b - a) :
    (sliceList energies a b)[i]? = some ((sliceList energies a b).headD 0 + i * binSize) := by
  have ha : a < energies.length := by omega
  have hhead : (sliceList energies a b).headD 0 = energies[a] := by
    rw [List.headD_eq_head?_getD, List.head?_eq_getElem?]
    unfold sliceList
    rw [List.getElem?_drop, List.getElem?_take_of_lt (by omega), Nat.add_zero,
      List.getElem?_eq_getElem ha]
    rfl
  rw [hhead, heven a _ (List.getElem?_eq_getElem ha)]
  unfold sliceList
  rw [List.getElem?_drop, List.getElem?_take_of_lt (by omega),
    List.getElem?_eq_getElem (by omega : a + i < energies.length)]
  rw [heven (a + i) _ (List.getElem?_eq_getElem (by omega))]
  push_cast
  congr 1
  ring

/-- The code does not satisfy C71: for the Lambert projection of one hemisphere of a phase with two
asymmetric positions, the axis of two energies is named "hemisphere", the rows are named "energy",
and the columns are named "height". -/
theorem C71_not_lambert_positions :
    (emRead (K := ℚ) (I := ℚ) id ⟨[10, 11], 1, 1, [1, 2], [3, 4], [[1, 2], [3, 4]], [[5, 6], [7, 8]]⟩
        .all .lambert .upper).toOption
      = some ⟨[[4, 6]], [⟨2, "hemisphere", 1, 0⟩, ⟨3, "energy", 1, 10⟩, ⟨3, "height", 1, -2⟩]⟩ := by
  decide +kernel

/-- The hypotheses of the theorems are met. -/
example : (emRead (K := ℚ) (I := ℚ) id
      ⟨[10, 11, 12], 1, 1, [1, 2, 3], [3, 4, 5], [[1, 2, 3], [3, 4, 5]], [[5, 6, 7], [7, 8, 9]]⟩
        (.range 11 20) .lambert .both).toOption
      = some ⟨[[6, 8], [14, 16]], [⟨2, "hemisphere", 1, 0⟩, ⟨2, "energy", 1, 11⟩,
          ⟨3, "height", 1, -2⟩, ⟨3, "width", 1, -2⟩]⟩ := by
  decide +kernel

example : energySlice (K := ℚ) [10, 11, 12] (.range (21 / 2) 11) = .ok (1, 2) := by decide +kernel
example : energySlice (K := ℚ) [10, 11, 12] (.range (21 / 2) (43 / 4)) = .ok (1, 1) := by
  decide +kernel
example : energySlice (K := ℚ) [10, 11, 12] (.one (23 / 2)) = .ok (1, 2) := by decide +kernel
example : ([10, 11, 12] : List ℚ).Pairwise (· < ·) := by decide +kernel
example : Spec.EmValid (K := ℚ) (I := ℚ)
    ⟨[10, 11], 1, 1, [1, 2], [3, 4], [[1, 2], [3, 4]], [[5, 6], [7, 8]]⟩ :=
  ⟨rfl, rfl, by decide, by decide⟩

end Kp
