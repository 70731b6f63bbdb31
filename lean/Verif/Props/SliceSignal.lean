import Verif.Model.SliceSignal
import Verif.Props.DetectorGeometry
import Mathlib.Algebra.Order.Ring.Rat
import Mathlib.Tactic.Linarith
import Mathlib.Tactic.Ring
import Mathlib.Tactic.NormNum

/-
C50: Slicing a signal keeps detector, background and crystal map consistent.
-/

namespace Kp

set_option linter.unusedSectionVars false

variable {K V X : Type*} [Field K] [LinearOrder K] [IsStrictOrderedRing K]

theorem PySlice.hi_le (s : PySlice) (n : ℕ) (h : ∀ b, s.stop = some b → b < 0 → -(n : ℤ) ≤ b) :
    s.hi n ≤ n := by
  unfold PySlice.hi
  split
  · exact le_refl _
  · rename_i b hb
    split
    · have := h b hb (by assumption); omega
    · omega

/-- Positions of a slice without step: those from start to stop. -/
theorem PySlice.positions_eq {s : PySlice} (hstep : s.step = none ∨ s.step = some 1) {n : ℕ}
    (hhi : s.hi n ≤ n) :
    s.positions n = (List.range (s.hi n - s.lo n)).map (s.lo n + ·) := by
  have hs : s.step.getD 1 = 1 := by rcases hstep with h | h <;> rw [h] <;> rfl
  apply List.Perm.eq_of_pairwise (le := (· < ·))
  · intro a b _ _ h h'; omega
  · exact (List.pairwise_lt_range).filter _
  · rw [List.pairwise_map]; exact (List.pairwise_lt_range).imp (by intro a b h; omega)
  · rw [List.perm_ext_iff_of_nodup]
    · intro a
      simp only [PySlice.positions, hs, Nat.mod_one, and_true, List.mem_filter, List.mem_range,
        decide_eq_true_eq, List.mem_map]
      constructor
      · rintro ⟨h1, h2, h3⟩; exact ⟨a - s.lo n, by omega, by omega⟩
      · rintro ⟨i, hi, rfl⟩; omega
    · exact (List.nodup_range).filter _
    · exact (List.nodup_range).map (by intro a b h; simp only at h; omega)

/-- Slices the code handles: no step, a start inside the axis that is not negative, and a stop after
it; or everything. -/
structure Spec.PlainSlice (s : PySlice) (n : ℕ) : Prop where
  step : s.step = none ∨ s.step = some 1
  start : 0 ≤ s.start.getD 0 ∧ s.start.getD 0 < n
  stop : ∀ b, s.stop = some b → s.start.getD 0 < b
  open_end : s.stop = none → s.start.getD 0 = 0

theorem plain_positions {s : PySlice} {n : ℕ} (h : Spec.PlainSlice s n) :
    s.positions n = (List.range (min (s.stop.getD n) (n : ℤ) - s.start.getD 0).toNat).map
        ((s.start.getD 0).toNat + ·)
    ∧ (s.positions n).length = (min (s.stop.getD n) (n : ℤ) - s.start.getD 0).toNat
    ∧ 0 < min (s.stop.getD n) (n : ℤ) - s.start.getD 0 := by
  obtain ⟨h1, ⟨h2, h2'⟩, h3, h4⟩ := h
  have hlo : s.lo n = (s.start.getD 0).toNat := by
    unfold PySlice.lo
    cases hs : s.start with
    | none => rfl
    | some a =>
      rw [hs] at h2 h2'
      simp only [Option.getD_some] at h2 h2' ⊢
      rw [if_neg (by omega)]; omega
  have hhi : s.hi n = (min (s.stop.getD n) (n : ℤ)).toNat := by
    unfold PySlice.hi
    cases hs : s.stop with
    | none => simp
    | some b =>
      have := h3 b hs
      simp only [Option.getD_some]
      rw [if_neg (by omega)]; omega
  have hpos : 0 < min (s.stop.getD n) (n : ℤ) - s.start.getD 0 := by
    cases hs : s.stop with
    | none => simp only [Option.getD_none]; omega
    | some b => have := h3 b hs; simp only [Option.getD_some]; omega
  have hle : s.hi n ≤ n := by rw [hhi]; omega
  have := PySlice.positions_eq h1 hle
  have hlen : s.hi n - s.lo n = (min (s.stop.getD n) (n : ℤ) - s.start.getD 0).toNat := by
    rw [hhi, hlo]; omega
  rw [hlen, hlo] at this
  refine ⟨this, ?_, hpos⟩
  rw [this]; simp

/-- The entries of a sliced two-dimensional array. -/
theorem takeRows_get {a : List (List V)} {ys xs : List ℕ} {ny nx : ℕ} (hny : a.length = ny)
    (hnx : ∀ r ∈ a, r.length = nx) (hys : ∀ y ∈ ys, y < ny) (hxs : ∀ x ∈ xs, x < nx) :
    (takeRows a ys xs).length = ys.length
    ∧ ∀ (i y : ℕ), ys[i]? = some y → ∃ r r', a[y]? = some r ∧ (takeRows a ys xs)[i]? = some r'
      ∧ r'.length = xs.length ∧ ∀ (j x : ℕ), xs[j]? = some x → r'[j]? = r[x]? ∧ (r[x]?).isSome := by
  have key : ∀ {α β : Type _} (l : List α) (f : α → Option β), (∀ a ∈ l, (f a).isSome) →
      (l.filterMap f).length = l.length ∧ ∀ (i : ℕ) (a : α), l[i]? = some a → (l.filterMap f)[i]? = f a := by
    intro α β l f h
    induction l with
    | nil => simp
    | cons b l ih =>
      obtain ⟨v, hv⟩ := Option.isSome_iff_exists.mp (h b List.mem_cons_self)
      obtain ⟨ih1, ih2⟩ := ih fun c hc => h c (List.mem_cons_of_mem _ hc)
      rw [List.filterMap_cons_some hv]
      refine ⟨by simp [ih1], fun i a hi => ?_⟩
      match i with
      | 0 => simp only [List.getElem?_cons_zero, Option.some.injEq] at hi ⊢; rw [← hi, hv]
      | i + 1 => simpa using ih2 i a (by simpa using hi)
  have k1 := key ys (fun y => (a[y]?).map fun row => xs.filterMap fun x => row[x]?) (by
    intro y hy
    rw [List.getElem?_eq_getElem (by rw [hny]; exact hys y hy)]; rfl)
  refine ⟨k1.1, fun i y hi => ?_⟩
  have hy := hys y (List.mem_of_getElem? hi)
  have hr : a[y]? = some (a[y]'(by omega)) := List.getElem?_eq_getElem _
  have hrl := hnx _ (List.getElem_mem (by omega : y < a.length))
  have k2 := key xs (fun x => (a[y]'(by omega))[x]?) (by
    intro x hx
    rw [List.getElem?_eq_getElem (by rw [hrl]; exact hxs x hx)]; rfl)
  refine ⟨_, _, hr, (k1.2 i y hi).trans (by rw [hr]; rfl), k2.1, fun j x hj => ⟨k2.2 j x hj, ?_⟩⟩
  rw [List.getElem?_eq_getElem (by rw [hrl]; exact hxs x (List.mem_of_getElem? hj))]; rfl

/-- C50 (partial), signal slices: for slices with start not negative, stop after start (or
everything), and no step, the detector has the shape of the sliced patterns, its pixels have the
gnomonic coordinates of the same pixels before slicing, and the background has the intensities of
the same pixels.  Missing: open-ended, negative and stepped slices, see below. -/
theorem C50_isig_partial {a : SignalAttrs K V X} {sig : ℕ × ℕ} {sy sx : PySlice}
    (hd : a.detector.nrows = sig.1 ∧ a.detector.ncols = sig.2)
    (hy : Spec.PlainSlice sy sig.1) (hx : Spec.PlainSlice sx sig.2) :
    (isigAttrs a sig sy sx).detector.nrows = (sy.positions sig.1).length
    ∧ (isigAttrs a sig sy sx).detector.ncols = (sx.positions sig.2).length
    ∧ (isigAttrs a sig sy sx).detector.pc.length = a.detector.pc.length
    ∧ (∀ (k i j y x : ℕ) (p p' : PC K), a.detector.pc[k]? = some p →
        (isigAttrs a sig sy sx).detector.pc[k]? = some p' → p.z ≠ 0 →
        (sy.positions sig.1)[i]? = some y → (sx.positions sig.2)[j]? = some x →
        (isigAttrs a sig sy sx).detector.toGnomonic p' ((i : K), (j : K))
          = a.detector.toGnomonic p ((y : K), (x : K)))
    ∧ (∀ bg, a.background = some bg → bg.length = sig.1 → (∀ r ∈ bg, r.length = sig.2) →
        ∃ bg', (isigAttrs a sig sy sx).background = some bg'
          ∧ bg'.length = (sy.positions sig.1).length
          ∧ ∀ (i y : ℕ), (sy.positions sig.1)[i]? = some y → ∃ r r', bg[y]? = some r
            ∧ bg'[i]? = some r' ∧ r'.length = (sx.positions sig.2).length
            ∧ ∀ (j x : ℕ), (sx.positions sig.2)[j]? = some x → r'[j]? = r[x]? ∧ (r[x]?).isSome) := by
  obtain ⟨py, ly, by'⟩ := plain_positions hy
  obtain ⟨px, lx, bx'⟩ := plain_positions hx
  obtain ⟨hd1, hd2⟩ := hd
  -- the extent is accepted
  have hstopY : min (sy.stop.getD ((sy.positions sig.1).length : ℤ)) (sig.1 : ℤ)
      = min (sy.stop.getD (sig.1 : ℤ)) (sig.1 : ℤ) := by
    cases hs : sy.stop with
    | none =>
      have h0 := hy.open_end hs
      rw [hs] at ly
      simp only [Option.getD_none] at ly ⊢
      rw [ly, h0]; simp
    | some b => rfl
  have hstopX : min (sx.stop.getD ((sx.positions sig.2).length : ℤ)) (sig.2 : ℤ)
      = min (sx.stop.getD (sig.2 : ℤ)) (sig.2 : ℤ) := by
    cases hs : sx.stop with
    | none =>
      have h0 := hx.open_end hs
      rw [hs] at lx
      simp only [Option.getD_none] at lx ⊢
      rw [lx, h0]; simp
    | some b => rfl
  have hmy : max (sy.start.getD 0) 0 = sy.start.getD 0 := max_eq_left hy.start.1
  have hmx : max (sx.start.getD 0) 0 = sx.start.getD 0 := max_eq_left hx.start.1
  obtain ⟨d', hd', hr, hc, hl⟩ : ∃ d', a.detector.crop (sliceExtent sy sx
      ((sy.positions sig.1).length, (sx.positions sig.2).length)) = .ok d'
      ∧ d'.nrows = (sy.positions sig.1).length ∧ d'.ncols = (sx.positions sig.2).length
      ∧ d'.pc.length = a.detector.pc.length := by
    unfold Detector.crop
    simp only [sliceExtent, cropExtent, hd1, hd2, hstopY, hstopX, hmy, hmx]
    rw [if_neg (by omega)]
    exact ⟨_, rfl, ly.symm, lx.symm, by simp⟩
  have hdet : (isigAttrs a sig sy sx).detector = d' := by
    simp only [isigAttrs, sliceSigDetector, hd']
  refine ⟨by rw [hdet, hr], by rw [hdet, hc], by rw [hdet, hl], ?_, ?_⟩
  · intro k i j y x p p' hp hp' hz hi hj
    rw [hdet] at hp' ⊢
    have hsplit : sliceExtent sy sx ((sy.positions sig.1).length, (sx.positions sig.2).length)
        = (sy.start.getD 0, sy.stop.getD ((sy.positions sig.1).length : ℤ), sx.start.getD 0,
          sx.stop.getD ((sx.positions sig.2).length : ℤ)) := rfl
    rw [hsplit] at hd'
    rw [C05_crop_keeps_gnomonic _ _ _ _ _ _ hd' k p p' hp hp' hz, hmy, hmx]
    rw [py] at hi
    rw [px] at hj
    simp only [List.getElem?_map, Option.map_eq_some_iff] at hi hj
    obtain ⟨i', hi', rfl⟩ := hi
    obtain ⟨j', hj', rfl⟩ := hj
    obtain ⟨h1, h1'⟩ := List.getElem?_eq_some_iff.mp hi'
    obtain ⟨h2, h2'⟩ := List.getElem?_eq_some_iff.mp hj'
    rw [List.getElem_range] at h1' h2'
    subst h1' h2'
    have cY : (((sy.start.getD 0).toNat : ℕ) : K) = ((sy.start.getD 0 : ℤ) : K) := by
      have : (((sy.start.getD 0).toNat : ℕ) : ℤ) = sy.start.getD 0 := Int.toNat_of_nonneg hy.start.1
      exact_mod_cast congrArg (Int.cast : ℤ → K) this
    have cX : (((sx.start.getD 0).toNat : ℕ) : K) = ((sx.start.getD 0 : ℤ) : K) := by
      have : (((sx.start.getD 0).toNat : ℕ) : ℤ) = sx.start.getD 0 := Int.toNat_of_nonneg hx.start.1
      exact_mod_cast congrArg (Int.cast : ℤ → K) this
    push_cast
    rw [cY, cX, add_comm, add_comm (j : K)]
  · intro bg hbg hb1 hb2
    refine ⟨takeRows bg (sy.positions sig.1) (sx.positions sig.2),
      by simp only [isigAttrs, hbg, Option.map_some], ?_⟩
    refine takeRows_get hb1 hb2 ?_ ?_ <;>
    · intro v hv
      have := (List.mem_filter.mp hv).1
      exact List.mem_range.mp this

/-- The code does not satisfy C50: with a start after zero and an open end, the detector does not
have the shape of the sliced patterns. -/
theorem C50_not_open_end {a : SignalAttrs K V X} {sig : ℕ × ℕ}
    (hd : a.detector.nrows = sig.1 ∧ a.detector.ncols = sig.2) (hx : 0 < sig.2) {m : ℕ} (hm : 0 < m)
    (hm2 : 2 * m < sig.1) :
    ((PySlice.mk (some m) none none).positions sig.1).length = sig.1 - m
    ∧ (isigAttrs a sig ⟨some m, none, none⟩ ⟨none, none, none⟩).detector.nrows = sig.1 - 2 * m := by
  have h1 : (PySlice.mk (some m) none none).positions sig.1
      = (List.range (sig.1 - m)).map (m + ·) := by
    have := PySlice.positions_eq (s := ⟨some m, none, none⟩) (Or.inl rfl) (n := sig.1) (le_refl _)
    rw [this]
    have : (PySlice.mk (some (m : ℤ)) none none).lo sig.1 = m := by
      simp only [PySlice.lo]; rw [if_neg (by omega)]; omega
    rw [this]; rfl
  have h2 : (PySlice.mk none none none).positions sig.2 = List.range sig.2 := by
    have := PySlice.positions_eq (s := ⟨none, none, none⟩) (Or.inl rfl) (n := sig.2) (le_refl _)
    rw [this]; simp [PySlice.lo, PySlice.hi]
  refine ⟨by rw [h1]; simp, ?_⟩
  simp only [isigAttrs, h1, h2, List.length_map, List.length_range, sliceSigDetector, sliceExtent,
    Option.getD_some, Option.getD_none]
  have : ∃ d', a.detector.crop ((m : ℤ), ((sig.1 - m : ℕ) : ℤ), 0, (sig.2 : ℤ)) = .ok d'
      ∧ d'.nrows = sig.1 - 2 * m := by
    unfold Detector.crop
    simp only [cropExtent, hd.1, hd.2]
    rw [if_neg (by omega)]
    exact ⟨_, rfl, by simp only; omega⟩
  obtain ⟨d', e1, e2⟩ := this
  rw [e1]; exact e2

/-- The code does not satisfy C50: with a negative start, the patterns are the last rows, but the
detector is the one of the first rows. -/
theorem C50_not_negative_start {a : SignalAttrs K V X} {sig : ℕ × ℕ}
    (hd : a.detector.nrows = sig.1 ∧ a.detector.ncols = sig.2) (hx : 0 < sig.2) {m : ℕ} (hm : 0 < m)
    (hm2 : m < sig.1) (k : ℕ) (p p' : PC K) (hp : a.detector.pc[k]? = some p)
    (hp' : (isigAttrs a sig ⟨some (-m), none, none⟩ ⟨none, none, none⟩).detector.pc[k]? = some p')
    (hz : p.z ≠ 0) (y x : K) :
    (PySlice.mk (some (-m)) none none).positions sig.1 = (List.range m).map (sig.1 - m + ·)
    ∧ (isigAttrs a sig ⟨some (-m), none, none⟩ ⟨none, none, none⟩).detector.toGnomonic p' (y, x)
        = a.detector.toGnomonic p (y, x) := by
  have h1 : (PySlice.mk (some (-(m : ℤ))) none none).positions sig.1
      = (List.range m).map (sig.1 - m + ·) := by
    have := PySlice.positions_eq (s := ⟨some (-(m : ℤ)), none, none⟩) (Or.inl rfl) (n := sig.1)
      (le_refl _)
    rw [this]
    have e : (PySlice.mk (some (-(m : ℤ))) none none).lo sig.1 = sig.1 - m := by
      simp only [PySlice.lo]; rw [if_pos (by omega)]; omega
    have e' : (PySlice.mk (some (-(m : ℤ))) none none).hi sig.1 = sig.1 := rfl
    rw [e, e']
    have : sig.1 - (sig.1 - m) = m := by omega
    rw [this]
  have h2 : (PySlice.mk none none none).positions sig.2 = List.range sig.2 := by
    have := PySlice.positions_eq (s := ⟨none, none, none⟩) (Or.inl rfl) (n := sig.2) (le_refl _)
    rw [this]; simp [PySlice.lo, PySlice.hi]
  refine ⟨h1, ?_⟩
  obtain ⟨d', e1⟩ : ∃ d', a.detector.crop (-(m : ℤ), (m : ℤ), 0, (sig.2 : ℤ)) = .ok d' := by
    unfold Detector.crop
    simp only [cropExtent, hd.1, hd.2]
    rw [if_neg (by omega)]
    exact ⟨_, rfl⟩
  have hdet : (isigAttrs a sig ⟨some (-m), none, none⟩ ⟨none, none, none⟩).detector = d' := by
    simp only [isigAttrs, h1, h2, List.length_map, List.length_range, sliceSigDetector, sliceExtent,
      Option.getD_some, Option.getD_none, e1]
  rw [hdet] at hp' ⊢
  rw [C05_crop_keeps_gnomonic _ _ _ _ _ _ e1 k p p' hp hp' hz]
  have : max (-(m : ℤ)) 0 = 0 := by omega
  simp [this]

/-- The code does not satisfy C50: with a negative stop, PCs are replaced by (0.5, 0.5, 0.5) and the
twist by zero. -/
theorem C50_not_negative_stop {a : SignalAttrs K V X} {sig : ℕ × ℕ} (sx : PySlice) {m : ℕ}
    (hm : 0 < m) :
    (isigAttrs a sig ⟨none, some (-m), none⟩ sx).detector.pc = [⟨1 / 2, 1 / 2, 1 / 2⟩]
    ∧ (isigAttrs a sig ⟨none, some (-m), none⟩ sx).detector.twist = 0 := by
  have : ∀ new, a.detector.crop (sliceExtent ⟨none, some (-(m : ℤ)), none⟩ sx new)
      = .error .valueError := by
    intro new
    have e : (cropExtent a.detector.nrows a.detector.ncols (sliceExtent
        ⟨none, some (-(m : ℤ)), none⟩ sx new)).2.1 - (cropExtent a.detector.nrows a.detector.ncols
        (sliceExtent ⟨none, some (-(m : ℤ)), none⟩ sx new)).1 ≤ 0 := by
      simp only [sliceExtent, cropExtent, Option.getD_some, Option.getD_none]
      omega
    unfold Detector.crop
    exact if_pos (Or.inl e)
  simp [isigAttrs, sliceSigDetector, this]

/-! ### Navigation -/

theorem takeMap_row {A : Type*} {nx : ℕ} {l : List A} {y : ℕ} : ∀ {xs : List ℕ},
    (∀ x ∈ xs, y * nx + x < l.length) →
    (xs.filterMap fun x => l[y * nx + x]?).map some = xs.map fun x => l[y * nx + x]?
  | [], _ => rfl
  | x :: xs, h => by
    have ih := takeMap_row (l := l) (nx := nx) (y := y) fun z hz => h z (List.mem_cons_of_mem _ hz)
    have hx := h x List.mem_cons_self
    rw [List.filterMap_cons_some (f := fun x => l[y * nx + x]?) (b := l[y * nx + x])
      (List.getElem?_eq_getElem hx), List.map_cons, List.map_cons, ih, List.getElem?_eq_getElem hx]

/-- Points selected by rows and columns. -/
theorem takeMap_eq {A : Type*} {ny nx : ℕ} {l : List A} (hl : l.length = ny * nx) {xs : List ℕ}
    (hxs : ∀ x ∈ xs, x < nx) : ∀ {ys : List ℕ}, (∀ y ∈ ys, y < ny) →
    (takeMap nx l ys xs).map some = ys.flatMap fun y => xs.map fun x => l[y * nx + x]?
  | [], _ => rfl
  | y :: ys, h => by
    have ih := takeMap_eq hl hxs (ys := ys) fun z hz => h z (List.mem_cons_of_mem _ hz)
    have hy := h y List.mem_cons_self
    unfold takeMap at ih ⊢
    rw [List.flatMap_cons, List.flatMap_cons, List.map_append, ih, takeMap_row]
    intro x hx
    have := hxs x hx
    have h2 : (y + 1) * nx ≤ ny * nx := Nat.mul_le_mul_right _ (by omega)
    have h3 : (y + 1) * nx = y * nx + nx := by ring
    omega

theorem positions_lt {s : PySlice} {n : ℕ} : ∀ v ∈ s.positions n, v < n := fun v hv =>
  List.mem_range.mp (List.mem_filter.mp hv).1

theorem takeMap_length {A : Type*} {ny nx : ℕ} {l : List A} (hl : l.length = ny * nx)
    {ys xs : List ℕ} (hxs : ∀ x ∈ xs, x < nx) (hys : ∀ y ∈ ys, y < ny) :
    (takeMap nx l ys xs).length = ys.length * xs.length := by
  have := congrArg List.length (takeMap_eq hl hxs hys)
  rw [List.length_map] at this
  rw [this]
  clear this hys
  induction ys with
  | nil => simp
  | cons y ys ih => rw [List.flatMap_cons, List.length_append, ih, List.length_map, List.length_cons]; ring

/-- Sliced positions without step span their number. -/
theorem spanOf_positions {s : PySlice} (hstep : s.step = none ∨ s.step = some 1) {n : ℕ}
    (hhi : s.hi n ≤ n) (hne : s.positions n ≠ []) : spanOf (s.positions n) = (s.positions n).length := by
  rw [PySlice.positions_eq hstep hhi] at hne ⊢
  obtain ⟨k, hk⟩ : ∃ k, s.hi n - s.lo n = k + 1 := by
    refine ⟨s.hi n - s.lo n - 1, ?_⟩
    have : s.hi n - s.lo n ≠ 0 := by rintro h0; rw [h0] at hne; simp at hne
    omega
  rw [hk]
  unfold spanOf
  rw [List.length_map, List.length_range]
  have h1 : ((List.range (k + 1)).map (s.lo n + ·)).headD 0 = s.lo n := by
    rw [List.range_succ_eq_map]; simp
  have h2 : ((List.range (k + 1)).map (s.lo n + ·)).getLastD 0 = s.lo n + k := by
    rw [List.range_succ, List.map_append]; simp
  rw [h1, h2]; omega

/-- C50, navigation slices: for slices without step (also open-ended and negative ones) selecting
something, PCs and crystal map points are those of the selected map points, and navigation shape of
the detector and shape of the crystal map are those of the sliced map. -/
theorem C50_inav_partial {a : SignalAttrs K V X} {ny nx : ℕ} {sy sx : PySlice}
    (hnav : a.detector.nav = [ny, nx]) (hpc : a.detector.pc.length = ny * nx)
    (hy : sy.step = none ∨ sy.step = some 1) (hx : sx.step = none ∨ sx.step = some 1)
    (hy' : sy.hi ny ≤ ny) (hx' : sx.hi nx ≤ nx)
    (hyne : sy.positions ny ≠ []) (hxne : sx.positions nx ≠ []) :
    (inavAttrs a (ny, nx) sy sx).detector.nav = [(sy.positions ny).length, (sx.positions nx).length]
    ∧ (inavAttrs a (ny, nx) sy sx).detector.pc.map some
        = ((sy.positions ny).flatMap fun y => (sx.positions nx).map fun x =>
            a.detector.pc[y * nx + x]?)
    ∧ (inavAttrs a (ny, nx) sy sx).detector.nrows = a.detector.nrows
    ∧ (inavAttrs a (ny, nx) sy sx).detector.ncols = a.detector.ncols
    ∧ ∀ m, a.xmap = some m → m.shape = [ny, nx] → m.points.length = ny * nx →
        ∃ m', (inavAttrs a (ny, nx) sy sx).xmap = some m'
          ∧ m'.shape = [(sy.positions ny).length, (sx.positions nx).length]
          ∧ m'.points.map some = (sy.positions ny).flatMap fun y => (sx.positions nx).map fun x =>
              m.points[y * nx + x]? := by
  have hlen := takeMap_length hpc (positions_lt (s := sx)) (positions_lt (s := sy))
  have hne : takeMap nx a.detector.pc (sy.positions ny) (sx.positions nx) ≠ [] := by
    intro h0
    rw [h0, List.length_nil] at hlen
    have h1 := List.length_pos_iff.mpr hyne
    have h2 := List.length_pos_iff.mpr hxne
    have := Nat.mul_pos h1 h2
    omega
  have hdet : (inavAttrs a (ny, nx) sy sx).detector = { a.detector with
      nav := [(sy.positions ny).length, (sx.positions nx).length]
      pc := takeMap nx a.detector.pc (sy.positions ny) (sx.positions nx) } := by
    simp only [inavAttrs, sliceNavDetector, hnav, hne, if_false]
  rw [hdet]
  refine ⟨rfl, takeMap_eq hpc positions_lt positions_lt, rfl, rfl, fun m hm hs hp => ?_⟩
  refine ⟨sliceXmap m (ny, nx) (sy.positions ny) (sx.positions nx),
    by simp only [inavAttrs, hm, Option.map_some], ?_, ?_⟩
  · simp only [sliceXmap, hs, true_and]
    rw [if_pos ⟨hyne, hxne⟩]
    simp only [spanOf_positions hy hy' hyne, spanOf_positions hx hx' hxne]
  · simp only [sliceXmap, hs, true_and]
    rw [if_pos ⟨hyne, hxne⟩]
    exact takeMap_eq hp positions_lt positions_lt

/-- Slices select as in Python: start, start + step, start + 2 step, ..., before stop. -/
theorem C50_positions {s : PySlice} {n k : ℕ} (hk : s.step.getD 1 = k) (v : ℕ) :
    v ∈ s.positions n ↔ ∃ i, v = s.lo n + i * k ∧ v < s.hi n ∧ v < n := by
  unfold PySlice.positions
  rw [hk]
  simp only [List.mem_filter, List.mem_range, decide_eq_true_eq]
  constructor
  · rintro ⟨h1, h2, h3, h4⟩
    obtain ⟨i, hi⟩ := Nat.dvd_of_mod_eq_zero h4
    exact ⟨i, by rw [mul_comm i k, ← hi]; omega, h3, h1⟩
  · rintro ⟨i, rfl, h2, h3⟩
    refine ⟨h3, by omega, h2, ?_⟩
    rw [Nat.add_sub_cancel_left]
    exact Nat.mul_mod_left i k

/-- ... in increasing order. -/
theorem C50_positions_increasing (s : PySlice) (n : ℕ) : (s.positions n).Pairwise (· < ·) :=
  List.Pairwise.filter _ List.pairwise_lt_range

/-- C50, navigation slices with steps: the PCs are those of the selected map points, and the
navigation shape of the detector is that of the sliced map.  (Of the crystal map this is false, see
`C50_not_step`.) -/
theorem C50_inav_step_partial {a : SignalAttrs K V X} {ny nx : ℕ} {sy sx : PySlice}
    (hnav : a.detector.nav = [ny, nx]) (hpc : a.detector.pc.length = ny * nx)
    (hyne : sy.positions ny ≠ []) (hxne : sx.positions nx ≠ []) :
    (inavAttrs a (ny, nx) sy sx).detector.nav = [(sy.positions ny).length, (sx.positions nx).length]
    ∧ (inavAttrs a (ny, nx) sy sx).detector.pc.map some
        = ((sy.positions ny).flatMap fun y => (sx.positions nx).map fun x =>
            a.detector.pc[y * nx + x]?) := by
  have hlen := takeMap_length hpc (positions_lt (s := sx)) (positions_lt (s := sy))
  have hne : takeMap nx a.detector.pc (sy.positions ny) (sx.positions nx) ≠ [] := by
    intro h0
    rw [h0, List.length_nil] at hlen
    have h1 := List.length_pos_iff.mpr hyne
    have h2 := List.length_pos_iff.mpr hxne
    have := Nat.mul_pos h1 h2
    omega
  have hdet : (inavAttrs a (ny, nx) sy sx).detector = { a.detector with
      nav := [(sy.positions ny).length, (sx.positions nx).length]
      pc := takeMap nx a.detector.pc (sy.positions ny) (sx.positions nx) } := by
    simp only [inavAttrs, sliceNavDetector, hnav, hne, if_false]
  rw [hdet]
  exact ⟨rfl, takeMap_eq hpc positions_lt positions_lt⟩

example : (PySlice.mk (some 1) (some 6) (some 2)).positions 8 = [1, 3, 5] := by decide +kernel

/-- A small signal: patterns of 4 × 4 pixels, a map of 1 × 4 points. -/
def exAttrs : SignalAttrs ℚ ℕ ℕ :=
  { detector := ⟨4, 4, 1, 1, 0, 0, 3, 70, [1, 4], [⟨1, 1, 1⟩, ⟨2, 1, 1⟩, ⟨3, 1, 1⟩, ⟨4, 1, 1⟩]⟩
    background := some [[0, 1, 2, 3], [10, 11, 12, 13], [20, 21, 22, 23], [30, 31, 32, 33]]
    xmap := some ⟨[1, 4], [0, 1, 2, 3]⟩ }

/-- The code does not satisfy C50: every second map column gives two points and PCs, but a crystal
map three columns wide. -/
theorem C50_not_step :
    ((inavAttrs exAttrs (1, 4) ⟨none, none, none⟩ ⟨none, none, some 2⟩).detector.nav = [1, 2])
    ∧ (inavAttrs exAttrs (1, 4) ⟨none, none, none⟩ ⟨none, none, some 2⟩).xmap
        = some ⟨[1, 3], [0, 2]⟩ := by decide +kernel

/-- The code does not satisfy C50: every second pattern row up to row four gives two rows, but a
detector with four. -/
theorem C50_not_signal_step :
    ((PySlice.mk (some 0) (some 4) (some 2)).positions 4).length = 2
    ∧ (isigAttrs exAttrs (4, 4) ⟨some 0, some 4, some 2⟩ ⟨none, none, none⟩).detector.nrows = 4 := by
  decide +kernel

/-- The code does not satisfy C50: a detector with one PC loses it when a signal slice is followed by
a navigation slice, since cropping the detector makes its navigation shape (1, 1). -/
theorem C50_not_isig_then_inav :
    let a := { exAttrs with detector := { exAttrs.detector with nav := [1], pc := [⟨1 / 3, 1 / 4, 2⟩] } }
    (inavAttrs (isigAttrs a (4, 4) ⟨some 0, some 4, none⟩ ⟨some 0, some 4, none⟩) (1, 4)
        ⟨none, none, none⟩ ⟨some 1, some 3, none⟩).detector.pc = [⟨1 / 2, 1 / 2, 1 / 2⟩]
    ∧ (inavAttrs a (1, 4) ⟨none, none, none⟩ ⟨some 1, some 3, none⟩).detector.pc
        = [⟨1 / 3, 1 / 4, 2⟩] := by decide +kernel

/-! ### `crop` -/

/-- C50, `crop` with indices: the attributes are those after the same slice. -/
theorem C50_crop_partial [DecidableEq K] (a : SignalAttrs K V X) (sig nav : ℕ × ℕ) (s t : ℤ) :
    (((PySlice.mk (some s) (some t) none).positions sig.1).length ≠ sig.1 →
      cropSigRows a sig (.index s) (.index t)
        = isigAttrs a sig ⟨some s, some t, none⟩ ⟨none, none, none⟩)
    ∧ (((PySlice.mk (some s) (some t) none).positions nav.1).length ≠ nav.1 →
      cropNavRows a nav (.index s) (.index t)
        = .ok (inavAttrs a nav ⟨some s, some t, none⟩ ⟨none, none, none⟩)) := by
  have h2 : (PySlice.mk none none none).positions sig.2 = List.range sig.2 := by
    have := PySlice.positions_eq (s := ⟨none, none, none⟩) (Or.inl rfl) (n := sig.2) (le_refl _)
    rw [this]; simp [PySlice.lo, PySlice.hi]
  constructor
  · intro h
    unfold cropSigRows
    refine (if_neg h).trans ((if_pos ⟨rfl, rfl⟩).trans ?_)
    simp only [isigAttrs, h2, List.length_range, CropArg.toIndex]
  · intro h
    unfold cropNavRows
    exact (if_neg h).trans (if_pos ⟨rfl, rfl⟩)

/-- The code does not satisfy C50: cropping with numbers in units of the axis leaves the background
with its old shape and replaces PCs. -/
theorem C50_not_crop_units :
    (cropSigRows exAttrs (4, 4) (.units 1) (.units 3)).background = exAttrs.background
    ∧ (cropSigRows exAttrs (4, 4) (.units 1) (.units 3)).detector.nrows = 2
    ∧ (cropSigRows exAttrs (4, 4) (.units 1) (.units 3)).detector.pc = [⟨1 / 2, 1 / 2, 1 / 2⟩] := by
  decide +kernel

/-- The code does not satisfy C50: cropping the map with numbers in units of the axis raises
`TypeError` when there is a PC per map point (in the model, of a map of 4 × 1 points), after the data
are cropped. -/
theorem C50_not_crop_navigation_units :
    cropNavRows { exAttrs with detector := { exAttrs.detector with nav := [4, 1] } } (4, 1)
      (.units 1) (.units 3) = .error .typeError := by decide +kernel

/-- The hypotheses are met. -/
example : Spec.PlainSlice ⟨some 1, some 3, none⟩ 4 ∧ Spec.PlainSlice ⟨none, none, none⟩ 4
    ∧ Spec.PlainSlice ⟨none, some 70, none⟩ 4 := by
  refine ⟨⟨Or.inl rfl, by decide, ?_, by decide⟩, ⟨Or.inl rfl, by decide, ?_, by decide⟩,
    ⟨Or.inl rfl, by decide, ?_, by decide⟩⟩ <;>
  · intro b hb; simp only [Option.some.injEq, reduceCtorEq] at hb <;> subst hb <;> decide

example : (isigAttrs exAttrs (4, 4) ⟨some 1, some 3, none⟩ ⟨none, none, none⟩).background
      = some [[10, 11, 12, 13], [20, 21, 22, 23]]
    ∧ (isigAttrs exAttrs (4, 4) ⟨some 1, some 3, none⟩ ⟨none, none, none⟩).detector.nrows = 2 := by
  decide +kernel

example : (PySlice.mk (some (-3)) (some (-1)) none).positions 4 = [1, 2]
    ∧ (PySlice.mk (some (-3)) (some (-1)) none).hi 4 ≤ 4 := by decide +kernel

end Kp
