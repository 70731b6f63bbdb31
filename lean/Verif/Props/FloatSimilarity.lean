import Verif.Spec.FloatSimilarity
import Verif.Lemmas.FloatSimilarity
import Verif.Props.Normalize
import Verif.Props.DictionaryIndexing
import Mathlib.Data.Fin.VecNotation
import Mathlib.Algebra.BigOperators.Fin
import Mathlib.Tactic.FinCases

/-!
C106: similarity scores in floating point arithmetic, whatever the order of summation.
-/

set_option linter.unusedSectionVars false

namespace Kp
open Spec Finset

section
variable {ι : Type*} [Fintype ι]

theorem patternNorm_eq (p : ι → ℝ) : patternNorm p = vlen p := rfl

theorem variation_eq (p : ι → ℝ) : variation p = fun i => p i - mean p := rfl

theorem unitRoundoff_pos (t : MetricType) : 0 < unitRoundoff t := two_zpow_pos _

/-- Rounding to a type the metrics allow. -/
theorem smallError (t : MetricType) {n : ℕ} (h1 : 1 ≤ n) (hn : n * unitRoundoff t ≤ 1 / 64) :
    SmallError t.fl (unitRoundoff t) (2 ^ (t.emin - 1)) n where
  error := binaryRound_abs_error _ _
  u_pos := unitRoundoff_pos t
  η_pos := two_zpow_pos _
  η_le := by
    unfold unitRoundoff
    rw [← zpow_natCast, ← zpow_mul]
    apply zpow_le_zpow_right₀ (by norm_num)
    cases t <;> simp [MetricType.digits, MetricType.emin]
  n_pos := h1
  n_le := hn

theorem nKept_pos {mask : ι → Bool} {p : ι → ℝ} {c : ℝ} (hc : 0 < c)
    (h : c ≤ ∑ i, maskPattern mask p i ^ 2) : 1 ≤ nKept mask := by
  by_contra hn
  have h0 : Fintype.card (Kept mask) = 0 := by
    unfold nKept at hn
    omega
  have := Fintype.card_eq_zero_iff.mp h0
  rw [Finset.univ_eq_empty, Finset.sum_empty] at h
  linarith

theorem nKept_pos' {mask : ι → Bool} {p : ι → ℝ} {c : ℝ} (hc : 0 < c)
    (h : c ≤ patternNorm (variation (maskPattern mask p)) ^ 2) : 1 ≤ nKept mask := by
  by_contra hn
  have h0 : Fintype.card (Kept mask) = 0 := by
    unfold nKept at hn
    omega
  have := Fintype.card_eq_zero_iff.mp h0
  unfold patternNorm at h
  rw [Finset.univ_eq_empty, Finset.sum_empty] at h
  simp at h
  linarith

/-- There is an order for any pixels. -/
theorem exists_order [Nonempty ι] : ∃ s : SumOrder ι, AddsEveryPixelOnce s := by
  have key : ∀ l : List ι, l ≠ [] → ∃ s : SumOrder ι, s.pixels = l := by
    intro l
    induction l with
    | nil => intro h; exact absurd rfl h
    | cons i l ih =>
      intro _
      by_cases hl : l = []
      · exact ⟨.term i, by rw [hl]; rfl⟩
      · obtain ⟨s, hs⟩ := ih hl
        exact ⟨.plus (.term i) s, by rw [SumOrder.pixels, hs]; rfl⟩
  have hne : (Finset.univ : Finset ι).toList ≠ [] := by
    rw [Ne, Finset.toList_eq_nil]
    exact Finset.univ_nonempty.ne_empty
  obtain ⟨s, hs⟩ := key _ hne
  exact ⟨s, by unfold AddsEveryPixelOnce; rw [hs]⟩

theorem sum_kept (mask : ι → Bool) (f : ι → ℝ) :
    ∑ i : Kept mask, f i = ∑ i, if mask i = false then f i else 0 := by
  rw [← Finset.sum_filter]
  exact (Finset.sum_subtype (Finset.univ.filter fun i => mask i = false) (by simp) f).symm

/-! ### Errors of scores -/

/-- C106. The normalized dot product computed in float32 or float64, with the sums in any order, with or
without fused operations, differs from the exact one by at most `3 (n + 3) u` for `n` pixels which are
not masked out, if `n u` is at most 1/64 (up to 512 x 512 pixels in float32) and patterns are not
almost zero. -/
theorem C106_ndp_error (t : MetricType) (mask : ι → Bool) (a b : ι → ℝ)
    (normA normB dot : SumOrder (Kept mask)) (hA : AddsEveryPixelOnce normA)
    (hB : AddsEveryPixelOnce normB) (hD : AddsEveryPixelOnce dot)
    (hn : nKept mask * unitRoundoff t ≤ 1 / 64)
    (ha : unitRoundoff t ≤ ∑ i, maskPattern mask a i ^ 2)
    (hb : unitRoundoff t ≤ ∑ i, maskPattern mask b i ^ 2) :
    |ndpFl t.fl normA normB dot (maskPattern mask a) (maskPattern mask b) - ndp mask a b| ≤
      3 * (nKept mask + 3) * unitRoundoff t :=
  (smallError t (nKept_pos (unitRoundoff_pos t) ha) hn).ndp_error hA hB hD ha hb

/-- Patterns of four pixels, the first masked out, in float32. -/
def fourPixels : Fin 4 → ℝ := ![9, 1, 2, 3]

/-- The mask. -/
def firstMasked : Fin 4 → Bool := ![true, false, false, false]

theorem nKept_firstMasked : nKept firstMasked = 3 := by
  unfold nKept
  decide

theorem unitRoundoff_float32 : unitRoundoff .float32 = 1 / 2 ^ 24 := by
  unfold unitRoundoff MetricType.digits
  norm_num

example : (∃ s : SumOrder (Kept firstMasked), AddsEveryPixelOnce s) ∧
    nKept firstMasked * unitRoundoff .float32 ≤ 1 / 64 ∧
    unitRoundoff .float32 ≤ ∑ i, maskPattern firstMasked fourPixels i ^ 2 := by
  refine ⟨?_, ?_, ?_⟩
  · have : Nonempty (Kept firstMasked) := ⟨1, rfl⟩
    exact exists_order
  · rw [nKept_firstMasked, unitRoundoff_float32]
    norm_num
  · rw [unitRoundoff_float32]
    unfold maskPattern
    rw [sum_kept firstMasked fun i => fourPixels i ^ 2, Fin.sum_univ_four]
    simp only [firstMasked, fourPixels, Matrix.cons_val]
    norm_num

/-- C106. The normalized cross-correlation computed in float32 or float64, with the sums in any order,
differs from the exact one by at most `4 (n + 3) u` times the sum of the flatness of the two patterns,
unless a pattern is so flat that this means nothing. -/
theorem C106_ncc_error (t : MetricType) (mask : ι → Bool) (a b : ι → ℝ)
    (sumA sumB normA normB dot : SumOrder (Kept mask)) (hSA : AddsEveryPixelOnce sumA)
    (hSB : AddsEveryPixelOnce sumB) (hA : AddsEveryPixelOnce normA) (hB : AddsEveryPixelOnce normB)
    (hD : AddsEveryPixelOnce dot) (hn : nKept mask * unitRoundoff t ≤ 1 / 64)
    (ha : 2 * unitRoundoff t ≤ patternNorm (variation (maskPattern mask a)) ^ 2)
    (hb : 2 * unitRoundoff t ≤ patternNorm (variation (maskPattern mask b)) ^ 2)
    (hfa : (nKept mask + 3) * unitRoundoff t * flatness (maskPattern mask a) ≤ 1 / 8)
    (hfb : (nKept mask + 3) * unitRoundoff t * flatness (maskPattern mask b) ≤ 1 / 8) :
    |nccFl t.fl sumA sumB normA normB dot (maskPattern mask a) (maskPattern mask b) -
        ncc mask a b| ≤
      4 * (nKept mask + 3) * unitRoundoff t *
        (flatness (maskPattern mask a) + flatness (maskPattern mask b)) := by
  have hu := unitRoundoff_pos t
  have h1 := nKept_pos' (mul_pos two_pos hu) ha
  have key : ∀ p : Kept mask → ℝ, 2 * unitRoundoff t ≤ patternNorm (variation p) ^ 2 →
      vlen p ≤ flatness p * vlen (fun i => p i - mean p) ∧ 1 ≤ flatness p := by
    intro p hp
    have hpos : 0 < patternNorm (variation p) := by
      rcases (vlen_nonneg (variation p)).lt_or_eq with h | h
      · exact h
      · rw [patternNorm_eq, ← h] at hp; norm_num at hp; linarith
    have e : flatness p * patternNorm (variation p) = patternNorm p := div_mul_cancel₀ _ hpos.ne'
    refine ⟨le_of_eq e.symm, ?_⟩
    rw [flatness, le_div_iff₀ hpos, one_mul]
    exact vlen_center_le p (by exact_mod_cast h1)
  obtain ⟨ra, oa⟩ := key _ ha
  obtain ⟨rb, ob⟩ := key _ hb
  rw [patternNorm_eq, vlen_sq] at ha hb
  exact (smallError t h1 hn).ncc_error hSA hSB hA hB hD ha hb ra rb oa ob hfa hfb

example : 2 * unitRoundoff .float32 ≤ patternNorm (variation (maskPattern firstMasked fourPixels)) ^ 2 ∧
    (nKept firstMasked + 3) * unitRoundoff .float32 * flatness (maskPattern firstMasked fourPixels) ≤
      1 / 8 := by
  have hm : (∑ j, maskPattern firstMasked fourPixels j) / Fintype.card (Kept firstMasked) = 2 := by
    have : Fintype.card (Kept firstMasked) = 3 := nKept_firstMasked
    rw [this]
    unfold maskPattern
    rw [sum_kept firstMasked fun i => fourPixels i, Fin.sum_univ_four]
    simp only [firstMasked, fourPixels, Matrix.cons_val]
    norm_num
  have hv : patternNorm (variation (maskPattern firstMasked fourPixels)) ^ 2 = 2 := by
    rw [patternNorm_eq, vlen_sq]
    unfold variation
    rw [hm]
    unfold maskPattern
    rw [sum_kept firstMasked fun i => (fourPixels i - 2) ^ 2, Fin.sum_univ_four]
    simp only [firstMasked, fourPixels, Matrix.cons_val]
    norm_num
  have hp : patternNorm (maskPattern firstMasked fourPixels) ^ 2 = 14 := by
    rw [patternNorm_eq, vlen_sq]
    unfold maskPattern
    rw [sum_kept firstMasked fun i => fourPixels i ^ 2, Fin.sum_univ_four]
    simp only [firstMasked, fourPixels, Matrix.cons_val]
    norm_num
  constructor
  · rw [hv, unitRoundoff_float32]
    norm_num
  · have hv0 : 1 ≤ patternNorm (variation (maskPattern firstMasked fourPixels)) := by
      have := vlen_nonneg (variation (maskPattern firstMasked fourPixels))
      rw [← patternNorm_eq] at this
      nlinarith
    have hp0 : patternNorm (maskPattern firstMasked fourPixels) ≤ 4 := by nlinarith
    have hf : flatness (maskPattern firstMasked fourPixels) ≤ 4 := by
      unfold flatness
      rw [div_le_iff₀ (by linarith)]
      linarith
    rw [nKept_firstMasked, unitRoundoff_float32]
    push_cast
    linarith

/-- C106. Computed normalized dot products are between minus one and one up to the error, and the one of a
pattern with itself is one up to the error. -/
theorem C106_ndp_bounds_partial (t : MetricType) (mask : ι → Bool) (a b : ι → ℝ)
    (normA normB dot : SumOrder (Kept mask)) (hA : AddsEveryPixelOnce normA)
    (hB : AddsEveryPixelOnce normB) (hD : AddsEveryPixelOnce dot)
    (hn : nKept mask * unitRoundoff t ≤ 1 / 64)
    (ha : unitRoundoff t ≤ ∑ i, maskPattern mask a i ^ 2)
    (hb : unitRoundoff t ≤ ∑ i, maskPattern mask b i ^ 2) :
    |ndpFl t.fl normA normB dot (maskPattern mask a) (maskPattern mask b)| ≤
        1 + 3 * (nKept mask + 3) * unitRoundoff t ∧
      |ndpFl t.fl normA normB dot (maskPattern mask a) (maskPattern mask a) - 1| ≤
        3 * (nKept mask + 3) * unitRoundoff t := by
  have e := C106_ndp_error t mask a b normA normB dot hA hB hD hn ha hb
  have e' := C106_ndp_error t mask a a normA normB dot hA hB hD hn ha ha
  have pos : ∀ p : ι → ℝ, unitRoundoff t ≤ ∑ i, maskPattern mask p i ^ 2 →
      0 < vlen (maskPattern mask p) := fun p hp =>
    Real.sqrt_pos.mpr (lt_of_lt_of_le (unitRoundoff_pos t) hp)
  have h1 : |ndp mask a b| ≤ 1 := by
    have h := dot_abs_le (dirn (maskPattern mask a)) (dirn (maskPattern mask b))
    rwa [vlen_dirn (pos a ha), vlen_dirn (pos b hb), one_mul] at h
  have h2 : ndp mask a a = 1 := by
    have h := vlen_sq (dirn (maskPattern mask a))
    rw [vlen_dirn (pos a ha)] at h
    have h3 : ndp mask a a = ∑ i, dirn (maskPattern mask a) i ^ 2 :=
      Finset.sum_congr rfl fun i _ => (sq _).symm
    rw [h3, ← h, one_pow]
  rw [h2] at e'
  refine ⟨?_, e'⟩
  rw [abs_le] at e h1 ⊢
  constructor <;> linarith [e.1, e.2, h1.1, h1.2]

/-- C106. Whatever the orders of the sums, two computations of a normalized dot product differ by at most
twice the error. -/
theorem C106_ndp_order_partial (t : MetricType) (mask : ι → Bool) (a b : ι → ℝ)
    (normA normB dot normA' normB' dot' : SumOrder (Kept mask)) (hA : AddsEveryPixelOnce normA)
    (hB : AddsEveryPixelOnce normB) (hD : AddsEveryPixelOnce dot) (hA' : AddsEveryPixelOnce normA')
    (hB' : AddsEveryPixelOnce normB') (hD' : AddsEveryPixelOnce dot')
    (hn : nKept mask * unitRoundoff t ≤ 1 / 64)
    (ha : unitRoundoff t ≤ ∑ i, maskPattern mask a i ^ 2)
    (hb : unitRoundoff t ≤ ∑ i, maskPattern mask b i ^ 2) :
    |ndpFl t.fl normA normB dot (maskPattern mask a) (maskPattern mask b) -
        ndpFl t.fl normA' normB' dot' (maskPattern mask a) (maskPattern mask b)| ≤
      6 * (nKept mask + 3) * unitRoundoff t := by
  have e := C106_ndp_error t mask a b normA normB dot hA hB hD hn ha hb
  have e' := C106_ndp_error t mask a b normA' normB' dot' hA' hB' hD' hn ha hb
  rw [abs_le] at e e' ⊢
  constructor <;> linarith [e.1, e.2, e'.1, e'.2]

/-- C106. Scores of patterns without negative pixels are not negative. -/
theorem C106_ndp_nonneg (t : MetricType) (a b : ι → ℝ) (normA normB dot : SumOrder ι)
    (ha : ∀ i, 0 ≤ a i) (hb : ∀ i, 0 ≤ b i) : 0 ≤ ndpFl t.fl normA normB dot a b := by
  have hfl : ∀ x, 0 ≤ x → 0 ≤ t.fl x := fun x hx => binaryRound_nonneg _ _ hx
  have key : ∀ (s : SumOrder ι) (p : ι → ℝ), (∀ i, 0 ≤ p i) → ∀ i, 0 ≤ normalizeFloat t.fl s p i :=
    fun s p hp i => hfl _ (div_nonneg (hp i) (hfl _ (Real.sqrt_nonneg _)))
  exact SumOrder.eval_nonneg hfl (key _ _ ha) (key _ _ hb) dot

/-! ### Sums of integers -/

theorem fl_int (t : MetricType) {z : ℤ} (h : |z| ≤ 2 ^ t.digits) : t.fl z = z := by
  have h' : |((z : ℝ)) * 2 ^ (0 : ℤ)| ≤ 2 ^ ((0 : ℤ) + t.digits) := by
    rw [zpow_zero, mul_one, zero_add, zpow_natCast]
    exact_mod_cast h
  have := binaryRound_format (K := ℝ) (p := t.digits) (emin := t.emin) (m := z) (j := 0)
    (by cases t <;> simp [MetricType.digits]) (by cases t <;> simp [MetricType.emin]) h'
  simpa [MetricType.fl] using this

/-- C106. The sum of integer pixels (and so their rounded mean) is the same in every order, if the sum of
their absolute values is at most `2²⁴` in float32 or `2⁵³` in float64. -/
theorem C106_integer_sum (t : MetricType) (p : ι → ℤ) (hp : ∑ i, |p i| ≤ 2 ^ t.digits)
    (s : SumOrder ι) (hs : AddsEveryPixelOnce s) :
    s.eval t.fl (fun i => (p i : ℝ)) (fun _ => 1) = ((∑ i, p i : ℤ) : ℝ) ∧
      meanFloat t.fl s (fun i => (p i : ℝ)) = t.fl (((∑ i, p i : ℤ) : ℝ) / Fintype.card ι) := by
  have key : ∀ s : SumOrder ι, (s.pixels.map fun i => |p i|).sum ≤ 2 ^ t.digits →
      s.eval t.fl (fun i => (p i : ℝ)) (fun _ => 1) = ((s.pixels.map p).sum : ℤ) ∧
        |(s.pixels.map p).sum| ≤ (s.pixels.map fun i => |p i|).sum := by
    intro s
    have nn : ∀ l : List ι, 0 ≤ (l.map fun i => |p i|).sum := fun l => List.sum_nonneg (by
      intro x hx
      obtain ⟨i, -, rfl⟩ := List.mem_map.mp hx
      exact abs_nonneg _)
    induction s with
    | term i =>
      intro h
      simp only [SumOrder.pixels, SumOrder.eval, List.map_cons, List.map_nil, List.sum_cons,
        List.sum_nil, add_zero, mul_one] at h ⊢
      exact ⟨fl_int t h, le_rfl⟩
    | plus l r ihl ihr =>
      intro h
      simp only [SumOrder.pixels, SumOrder.eval, List.map_append, List.sum_append] at h ⊢
      have h1 := nn l.pixels
      have h2 := nn r.pixels
      obtain ⟨el, al⟩ := ihl (by linarith)
      obtain ⟨er, ar⟩ := ihr (by linarith)
      have ha := (abs_add_le (l.pixels.map p).sum (r.pixels.map p).sum).trans (add_le_add al ar)
      refine ⟨?_, ha⟩
      rw [el, er, ← Int.cast_add]
      exact fl_int t (ha.trans h)
    | fused l i ih =>
      intro h
      simp only [SumOrder.pixels, SumOrder.eval, List.map_append, List.sum_append, List.map_cons,
        List.map_nil, List.sum_cons, List.sum_nil, add_zero, mul_one] at h ⊢
      obtain ⟨el, al⟩ := ih (by linarith [abs_nonneg (p i)])
      have ha := (abs_add_le (l.pixels.map p).sum (p i)).trans (add_le_add al le_rfl)
      refine ⟨?_, ha⟩
      rw [el, ← Int.cast_add]
      exact fl_int t (ha.trans h)
  have hsum : ∀ f : ι → ℤ, (s.pixels.map f).sum = ∑ i, f i := fun f => by
    rw [(List.Perm.map f hs).sum_eq, Finset.sum_map_toList]
  have h := (key s (by rw [hsum]; exact hp)).1
  rw [hsum] at h
  exact ⟨h, by rw [meanFloat, h]⟩

/-! ### The best match -/

/-- C106. If each score that dictionary indexing works with is within `E` of the exact one, then every
pattern it returns has an exact score at most `2 E` below that of each pattern it leaves out, and the
first one at most `2 E` below that of any pattern. In particular, a pattern whose exact score is more
than `2 E` above all others comes first. -/
theorem C106_best_match {argtopk argsort : List ℝ → List ℕ} (hf : IsArgsort argtopk)
    (hg : IsArgsort argsort) (keepN nPer : ℕ) (hk : 0 < keepN) (hn : 0 < nPer)
    (scores exact : List ℝ) (E : ℝ) (hlen : scores.length = exact.length) (hne : exact ≠ [])
    (herr : ∀ (i : ℕ) (s x : ℝ), scores[i]? = some s → exact[i]? = some x → |s - x| ≤ E)
    (hlow : scores.length = nPer ∨ ∀ s ∈ scores, -1 < s) :
    let best := dictionaryIndexing argtopk argsort 1 keepN nPer scores
    (∀ c ∈ best, ∃ x, exact[c.2]? = some x ∧ |c.1 - x| ≤ E ∧
      ∀ (j : ℕ) (y : ℝ), exact[j]? = some y → j ∉ best.map Prod.snd → y ≤ x + 2 * E) ∧
    (∃ c x, best.head? = some c ∧ exact[c.2]? = some x ∧
      (∀ (j : ℕ) (y : ℝ), exact[j]? = some y → y ≤ x + 2 * E) ∧
      ∀ (j : ℕ) (y : ℝ), exact[j]? = some y →
        (∀ (k : ℕ) (z : ℝ), exact[k]? = some z → k ≠ j → z + 2 * E < y) → c.2 = j) := by
  intro best
  have H : IsBest (· ≥ ·) (min keepN scores.length) scores best :=
    C21_global_best_partial hf hg keepN nPer scores hn hlow
  have score_of : ∀ (j : ℕ) (y : ℝ), exact[j]? = some y → ∃ s, scores[j]? = some s ∧ |s - y| ≤ E := by
    intro j y hy
    have hj : j < scores.length := by
      rw [hlen]
      exact (List.getElem?_eq_some_iff.mp hy).1
    exact ⟨_, List.getElem?_eq_getElem hj, herr j _ y (List.getElem?_eq_getElem hj) hy⟩
  have exact_of : ∀ c ∈ best, ∃ x, exact[c.2]? = some x ∧ |c.1 - x| ≤ E := by
    intro c hc
    have h1 := H.own_score c hc
    have hj : c.2 < exact.length := by
      rw [← hlen]
      exact (List.getElem?_eq_some_iff.mp h1).1
    exact ⟨_, List.getElem?_eq_getElem hj, herr _ _ _ h1 (List.getElem?_eq_getElem hj)⟩
  constructor
  · intro c hc
    obtain ⟨x, hx, hxe⟩ := exact_of c hc
    refine ⟨x, hx, hxe, fun j y hy hj => ?_⟩
    obtain ⟨s, hs, hse⟩ := score_of j y hy
    have h2 : c.1 ≥ s := H.optimal j s hs hj c hc
    rw [abs_le] at hxe hse
    linarith [hxe.1, hxe.2, hse.1, hse.2]
  · have hpos : 0 < best.length := by
      rw [H.length, hlen]
      exact lt_min hk (List.length_pos_iff.mpr hne)
    obtain ⟨c, rest, hb⟩ : ∃ c rest, best = c :: rest := by
      cases h : best with
      | nil => rw [h] at hpos; simp at hpos
      | cons c rest => exact ⟨c, rest, rfl⟩
    have hc : c ∈ best := by rw [hb]; exact List.mem_cons_self
    obtain ⟨x, hx, hxe⟩ := exact_of c hc
    have top : ∀ (j : ℕ) (y : ℝ), exact[j]? = some y → y ≤ x + 2 * E := by
      intro j y hy
      obtain ⟨s, hs, hse⟩ := score_of j y hy
      have h2 : c.1 ≥ s := by
        by_cases hj : j ∈ best.map Prod.snd
        · obtain ⟨d, hd, rfl⟩ := List.mem_map.mp hj
          have h3 := H.own_score d hd
          rw [hs] at h3
          obtain rfl := Option.some.inj h3
          have hsort := H.sorted
          rw [hb] at hsort hd
          rcases List.mem_cons.mp hd with rfl | hd
          · exact le_rfl
          · rw [List.map_cons, List.pairwise_cons] at hsort
            exact hsort.1 _ (List.mem_map_of_mem hd)
        · exact H.optimal j s hs hj c hc
      rw [abs_le] at hxe hse
      linarith [hxe.1, hxe.2, hse.1, hse.2]
    refine ⟨c, x, by rw [hb]; rfl, hx, top, fun j y hy hother => ?_⟩
    by_contra hne'
    have h3 := hother c.2 x hx hne'
    have h4 := top j y hy
    linarith

/-- C106. Dictionary indexing with the normalized cross-correlation: the pattern returned first has an exact
score at most `16 (n + 3) u F` below that of any pattern of the dictionary, if no pattern is flatter
than `F`, whatever the order of each sum, the number of patterns per iteration and the way scores are
sorted. -/
theorem C106_ncc_best_match {argtopk argsort : List ℝ → List ℕ} (hf : IsArgsort argtopk)
    (hg : IsArgsort argsort) (keepN nPer : ℕ) (hk : 0 < keepN) (hn : 0 < nPer) (t : MetricType)
    (mask : ι → Bool) (a : ι → ℝ) (dict : List (ι → ℝ)) (scores : List ℝ) (F : ℝ)
    (hne : dict ≠ []) (hlen : scores.length = dict.length)
    (hscores : ∀ (i : ℕ) (s : ℝ) (b : ι → ℝ), scores[i]? = some s → dict[i]? = some b →
      ∃ sumA sumB normA normB dot : SumOrder (Kept mask), AddsEveryPixelOnce sumA ∧
        AddsEveryPixelOnce sumB ∧ AddsEveryPixelOnce normA ∧ AddsEveryPixelOnce normB ∧
        AddsEveryPixelOnce dot ∧
        s = nccFl t.fl sumA sumB normA normB dot (maskPattern mask a) (maskPattern mask b))
    (hpix : nKept mask * unitRoundoff t ≤ 1 / 64)
    (hF : (nKept mask + 3) * unitRoundoff t * F ≤ 1 / 8)
    (hpat : ∀ p, p = a ∨ p ∈ dict →
      2 * unitRoundoff t ≤ patternNorm (variation (maskPattern mask p)) ^ 2 ∧
        flatness (maskPattern mask p) ≤ F)
    (hlow : scores.length = nPer ∨ ∀ s ∈ scores, -1 < s) :
    ∃ c b, (dictionaryIndexing argtopk argsort 1 keepN nPer scores).head? = some c ∧
      dict[c.2]? = some b ∧
      ∀ d ∈ dict, ncc mask a d ≤ ncc mask a b + 16 * (nKept mask + 3) * unitRoundoff t * F := by
  have hu := unitRoundoff_pos t
  have h3 : 0 ≤ ((nKept mask : ℝ) + 3) * unitRoundoff t := by positivity
  have small : ∀ p, p = a ∨ p ∈ dict →
      (nKept mask + 3) * unitRoundoff t * flatness (maskPattern mask p) ≤ 1 / 8 := fun p hp =>
    (mul_le_mul_of_nonneg_left (hpat p hp).2 h3).trans hF
  obtain ⟨-, c, x, hc, hx, htop, -⟩ := C106_best_match hf hg keepN nPer hk hn scores
    (dict.map (ncc mask a)) (8 * (nKept mask + 3) * unitRoundoff t * F) (by simpa using hlen)
    (by simpa using hne) (by
      intro i s x hs hx
      rw [List.getElem?_map, Option.map_eq_some_iff] at hx
      obtain ⟨b, hb, rfl⟩ := hx
      have hmem : b ∈ dict := List.mem_of_getElem? hb
      obtain ⟨sa, sb, na, nb, d, h1, h2, h4, h5, h6, rfl⟩ := hscores i s b hs hb
      refine (C106_ncc_error t mask a b sa sb na nb d h1 h2 h4 h5 h6 hpix (hpat a (.inl rfl)).1
        (hpat b (.inr hmem)).1 (small a (.inl rfl)) (small b (.inr hmem))).trans ?_
      have g := mul_le_mul_of_nonneg_left (add_le_add (hpat a (.inl rfl)).2 (hpat b (.inr hmem)).2) h3
      linarith) hlow
  rw [List.getElem?_map, Option.map_eq_some_iff] at hx
  obtain ⟨b, hb, rfl⟩ := hx
  refine ⟨c, b, hc, hb, fun d hd => ?_⟩
  obtain ⟨j, hj, rfl⟩ := List.mem_iff_getElem.mp hd
  have := htop j (ncc mask a dict[j]) (by rw [List.getElem?_map, List.getElem?_eq_getElem hj]; rfl)
  linarith

/-- Two patterns with exact scores 0.9 and 0.5 and computed scores within 0.1, one pattern per
iteration. -/
example : let scores : List ℝ := [82 / 100, 55 / 100]
    let exact : List ℝ := [9 / 10, 1 / 2]
    scores.length = exact.length ∧ exact ≠ [] ∧
    (∀ (i : ℕ) (s x : ℝ), scores[i]? = some s → exact[i]? = some x → |s - x| ≤ 1 / 10) ∧
    (∀ s ∈ scores, -1 < s) ∧
    (∀ (k : ℕ) (z : ℝ), exact[k]? = some z → k ≠ 0 → z + 2 * (1 / 10) < 9 / 10) := by
  refine ⟨rfl, by simp, ?_, ?_, ?_⟩
  · intro i s x hs hx
    match i with
    | 0 => simp at hs hx; subst hs hx; rw [abs_le]; norm_num
    | 1 => simp at hs hx; subst hs hx; rw [abs_le]; norm_num
    | i + 2 => simp at hs
  · intro s hs
    simp at hs
    rcases hs with rfl | rfl <;> norm_num
  · intro k z hz hk
    match k with
    | 0 => exact absurd rfl hk
    | 1 => simp at hz; subst hz; norm_num
    | k + 2 => simp at hz

/-- A pattern of 8-bit integers with up to 65793 pixels meets the condition for float32. -/
example (p : ι → ℤ) (h0 : ∀ i, 0 ≤ p i) (h1 : ∀ i, p i ≤ 255) (hn : Fintype.card ι ≤ 65793) :
    ∑ i, |p i| ≤ 2 ^ MetricType.float32.digits := by
  have h : ∑ i, |p i| ≤ ∑ _i : ι, (255 : ℤ) :=
    Finset.sum_le_sum fun i _ => by rw [abs_of_nonneg (h0 i)]; exact h1 i
  rw [Finset.sum_const, Finset.card_univ, nsmul_eq_mul] at h
  have : ((Fintype.card ι : ℕ) : ℤ) ≤ 65793 := by exact_mod_cast hn
  have e : (2 : ℤ) ^ MetricType.float32.digits = 16777216 := by norm_num [MetricType.digits]
  rw [e]
  linarith

end

/-! ### What rounding breaks -/

/-- Pixels 0, 1, 2 from left to right. -/
def leftToRight : SumOrder (Fin 3) := .plus (.plus (.term 0) (.term 1)) (.term 2)

/-- The same sum with fused operations. -/
def leftToRightFused : SumOrder (Fin 3) := .fused (.fused (.term 0) 1) 2

/-- Pixels 1, 2, 0 with fused operations. -/
def otherOrderFused : SumOrder (Fin 3) := .fused (.fused (.term 1) 2) 0

/-- Three pixels. -/
def threePixels : Fin 3 → ℝ := ![1, 2, 2]

theorem addsAll : AddsEveryPixelOnce leftToRight ∧ AddsEveryPixelOnce leftToRightFused ∧
    AddsEveryPixelOnce otherOrderFused := by
  have hu : (Finset.univ : Finset (Fin 3)).toList.Perm [0, 1, 2] := by
    rw [List.perm_ext_iff_of_nodup (Finset.nodup_toList _) (by decide)]
    intro i
    fin_cases i <;> simp
  exact ⟨hu.symm, hu.symm, List.Perm.trans (by decide : [1, 2, 0].Perm ([0, 1, 2] : List (Fin 3))) hu.symm⟩

theorem threePixels_norm : normalizeFloat MetricType.float32.fl leftToRight threePixels =
    ![11184811 / 2 ^ 25, 11184811 / 2 ^ 24, 11184811 / 2 ^ 24] := by
  have f : ∀ z : ℤ, |z| ≤ 2 ^ 24 → MetricType.float32.fl z = z := fun z hz => fl_int _ hz
  have f1 : MetricType.float32.fl 1 = 1 := by simpa using f 1 (by norm_num)
  have f3 : MetricType.float32.fl 3 = 3 := by simpa using f 3 (by norm_num)
  have f4 : MetricType.float32.fl 4 = 4 := by simpa using f 4 (by norm_num)
  have f5 : MetricType.float32.fl 5 = 5 := by simpa using f 5 (by norm_num)
  have f9 : MetricType.float32.fl 9 = 9 := by simpa using f 9 (by norm_num)
  have hs : leftToRight.eval MetricType.float32.fl threePixels threePixels = 9 := by
    simp only [leftToRight, SumOrder.eval, threePixels, Matrix.cons_val]
    norm_num [f1, f4, f5, f9]
  have h3 : Real.sqrt 9 = 3 := by
    rw [show (9 : ℝ) = 3 ^ 2 by norm_num]
    exact Real.sqrt_sq (by norm_num)
  have g1 : MetricType.float32.fl (1 / 3) = 11184811 / 2 ^ 25 := by
    have := binaryRound_eq (K := ℝ) (p := 24) (emin := -149) (e := -2) (x := 1 / 3) 11184811
      (by norm_num) (by norm_num) (by norm_num) (by rw [abs_lt]; norm_num)
    rw [MetricType.fl, MetricType.digits, MetricType.emin, this]
    norm_num
  have g2 : MetricType.float32.fl (2 / 3) = 11184811 / 2 ^ 24 := by
    have := binaryRound_eq (K := ℝ) (p := 24) (emin := -149) (e := -1) (x := 2 / 3) 11184811
      (by norm_num) (by norm_num) (by norm_num) (by rw [abs_lt]; norm_num)
    rw [MetricType.fl, MetricType.digits, MetricType.emin, this]
    norm_num
  funext i
  unfold normalizeFloat
  rw [hs, h3, f3]
  fin_cases i
  · exact g1
  · exact g2
  · exact g2

/-- C106, not true. A computed score may exceed one, and depends on the order of the sum: the score of the
pattern (1, 2, 2) with itself in float32 is 1 in one order and more than 1 in another. -/
theorem C106_exact_violated :
    ndpFl MetricType.float32.fl leftToRight leftToRight leftToRightFused threePixels threePixels = 1 ∧
      ndpFl MetricType.float32.fl leftToRight leftToRight otherOrderFused threePixels threePixels =
        1 + 1 / 2 ^ 23 := by
  have r : ∀ {e : ℤ} {x y : ℝ} (m : ℤ), 2 ^ e ≤ x → x < 2 ^ (e + 1) → -149 ≤ e - 24 + 1 →
      |x / 2 ^ (e - 24 + 1) - m| < 1 / 2 → m * 2 ^ (e - 24 + 1) = y → MetricType.float32.fl x = y := by
    intro e x y m h1 h2 h3 h4 h5
    rw [← h5]
    exact binaryRound_eq (p := 24) (emin := -149) m h1 h2 (by simpa using h3) (by simpa using h4)
  unfold ndpFl
  rw [threePixels_norm]
  have p0 : MetricType.float32.fl ((11184811 / 2 ^ 25) * (11184811 / 2 ^ 25)) = 14913082 / 2 ^ 27 :=
    r (e := -4) 14913082 (by norm_num) (by norm_num) (by norm_num) (by rw [abs_lt]; norm_num)
      (by norm_num)
  have p1 : MetricType.float32.fl ((11184811 / 2 ^ 24) * (11184811 / 2 ^ 24)) = 14913082 / 2 ^ 25 :=
    r (e := -2) 14913082 (by norm_num) (by norm_num) (by norm_num) (by rw [abs_lt]; norm_num)
      (by norm_num)
  have s01 : MetricType.float32.fl (14913082 / 2 ^ 27 + (11184811 / 2 ^ 24) * (11184811 / 2 ^ 24)) =
      9320676 / 2 ^ 24 :=
    r (e := -1) 9320676 (by norm_num) (by norm_num) (by norm_num) (by rw [abs_lt]; norm_num)
      (by norm_num)
  have s012 : MetricType.float32.fl (9320676 / 2 ^ 24 + (11184811 / 2 ^ 24) * (11184811 / 2 ^ 24)) = 1 :=
    r (e := 0) 8388608 (by norm_num) (by norm_num) (by norm_num) (by rw [abs_lt]; norm_num)
      (by norm_num)
  have s12 : MetricType.float32.fl (14913082 / 2 ^ 25 + (11184811 / 2 ^ 24) * (11184811 / 2 ^ 24)) =
      14913082 / 2 ^ 24 :=
    r (e := -1) 14913082 (by norm_num) (by norm_num) (by norm_num) (by rw [abs_lt]; norm_num)
      (by norm_num)
  have s120 : MetricType.float32.fl (14913082 / 2 ^ 24 + (11184811 / 2 ^ 25) * (11184811 / 2 ^ 25)) =
      1 + 1 / 2 ^ 23 :=
    r (e := 0) 8388609 (by norm_num) (by norm_num) (by norm_num) (by rw [abs_lt]; norm_num)
      (by norm_num)
  constructor
  · simp only [leftToRightFused, SumOrder.eval, Matrix.cons_val_zero, Matrix.cons_val_one, Matrix.cons_val]
    rw [p0, s01, s012]
  · simp only [otherOrderFused, SumOrder.eval, Matrix.cons_val_zero, Matrix.cons_val_one, Matrix.cons_val]
    rw [p1, s12, s120]

end Kp
