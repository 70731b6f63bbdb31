import Verif.Spec.FloatRefinement
import Verif.Lemmas.FloatRefinement
import Verif.Props.FloatSimilarity

/-!
C110: the score of refinement in floating point arithmetic, whatever the order of summation.
-/

set_option linter.unusedSectionVars false

namespace Kp
open Spec Finset

section
variable {ι : Type*} [Fintype ι]

/-! ### Rounding twice -/

/-- A bound of the relative error of rounding to double and then single precision. -/
noncomputable def twiceRoundoff : ℝ := (1 + 1 / 2 ^ 20) * (1 / 2 ^ 24)

theorem wide_error (wide : MetricType) (x : ℝ) :
    |wide.fl x - x| ≤ twiceRoundoff * |x| + 2 ^ (-149 : ℤ) := by
  have h := binaryRound_abs_error wide.digits wide.emin x
  have hx := abs_nonneg x
  refine h.trans (add_le_add (mul_le_mul_of_nonneg_right ?_ hx) ?_)
  · unfold twiceRoundoff
    cases wide <;> norm_num [MetricType.digits]
  · apply zpow_le_zpow_right₀ (by norm_num)
    cases wide <;> simp [MetricType.emin]

theorem twice_error (wide : MetricType) (x : ℝ) :
    |MetricType.float32.fl (wide.fl x) - x| ≤ twiceRoundoff * |x| + 2 ^ (-149 : ℤ) := by
  cases wide with
  | float32 =>
    have : MetricType.float32.fl (MetricType.float32.fl x) = MetricType.float32.fl x :=
      binaryRound_idem (by norm_num [MetricType.digits]) _ _
    rw [this]
    exact wide_error _ x
  | float64 =>
    set y := MetricType.float64.fl x
    have h1 : |y - x| ≤ 1 / 2 ^ 53 * |x| + 2 ^ (-1075 : ℤ) := by
      have := binaryRound_abs_error 53 (-1074) x
      have e : (2 : ℝ) ^ (-((53 : ℕ) : ℤ)) = 1 / 2 ^ 53 := by norm_num
      rw [e] at this
      exact this
    have h2 : |MetricType.float32.fl y - y| ≤ 1 / 2 ^ 24 * |y| + 2 ^ (-150 : ℤ) := by
      have := binaryRound_abs_error 24 (-149) y
      have e : (2 : ℝ) ^ (-((24 : ℕ) : ℤ)) = 1 / 2 ^ 24 := by norm_num
      rw [e] at this
      exact this
    have h3 : |y| ≤ |x| + |y - x| := by
      have := abs_add_le x (y - x)
      rwa [show x + (y - x) = y by ring] at this
    have h4 : (2 : ℝ) ^ (-1075 : ℤ) ≤ 1 / 4 * 2 ^ (-149 : ℤ) := by
      rw [show (1 / 4 : ℝ) = 2 ^ (-2 : ℤ) by norm_num, ← zpow_add₀ (by norm_num)]
      exact zpow_le_zpow_right₀ (by norm_num) (by norm_num)
    have h5 : (2 : ℝ) ^ (-150 : ℤ) = 1 / 2 * 2 ^ (-149 : ℤ) := by
      rw [show (1 / 2 : ℝ) = 2 ^ (-1 : ℤ) by norm_num, ← zpow_add₀ (by norm_num)]
      norm_num
    have hpos := two_zpow_pos (K := ℝ) (-149)
    have hx := abs_nonneg x
    rw [show MetricType.float32.fl y - x = (MetricType.float32.fl y - y) + (y - x) by ring]
    refine (abs_add_le _ _).trans ?_
    rw [h5] at h2
    generalize (2 : ℝ) ^ (-149 : ℤ) = g at *
    generalize (2 : ℝ) ^ (-1075 : ℤ) = g' at *
    unfold twiceRoundoff
    norm_num at h1 h2 ⊢
    linarith

theorem smallErrorTwice {n : ℕ} (h1 : 1 ≤ n) (hn : n * unitRoundoff .float32 ≤ 1 / 65) :
    SmallError MetricType.float32.fl twiceRoundoff (2 ^ (-149 : ℤ)) n where
  error := wide_error _
  u_pos := by unfold twiceRoundoff; norm_num
  η_pos := two_zpow_pos _
  η_le := by
    have h : ((1 : ℝ) / 2 ^ 24) ^ 4 ≤ twiceRoundoff ^ 4 := by
      apply pow_le_pow_left₀ (by norm_num)
      unfold twiceRoundoff
      norm_num
    refine le_trans ?_ h
    norm_num
  n_pos := h1
  n_le := by
    rw [unitRoundoff_float32] at hn
    unfold twiceRoundoff
    have : (n : ℝ) * ((1 + 1 / 2 ^ 20) * (1 / 2 ^ 24)) = (1 + 1 / 2 ^ 20) * (n * (1 / 2 ^ 24)) := by
      ring
    rw [this]
    linarith

/-! ### Errors of scores -/

theorem correlation_eq (a b : ι → ℝ) :
    correlation a b = ∑ i, dirn (fun i => a i - mean a) i * dirn (fun i => b i - mean b) i := by
  unfold correlation
  rw [Finset.sum_div]
  refine Finset.sum_congr rfl fun i _ => ?_
  rw [patternNorm_eq, patternNorm_eq, variation_eq, variation_eq]
  unfold dirn
  rw [div_mul_div_comm]

theorem patternNorm_variation_pos {p : ι → ℝ} {c : ℝ} (hc : 0 < c)
    (h : c ≤ patternNorm (variation p) ^ 2) : 0 < patternNorm (variation p) := by
  rcases (vlen_nonneg (variation p)).lt_or_eq with h1 | h1
  · exact h1
  · rw [patternNorm_eq, ← h1] at h; norm_num at h; linarith

theorem card_pos_of_variation {p : ι → ℝ} {c : ℝ} (hc : 0 < c)
    (h : c ≤ patternNorm (variation p) ^ 2) : 1 ≤ Fintype.card ι := by
  by_contra hn
  have h0 : Fintype.card ι = 0 := by omega
  have := Fintype.card_eq_zero_iff.mp h0
  unfold patternNorm at h
  rw [Finset.univ_eq_empty, Finset.sum_empty] at h
  simp at h
  linarith

theorem contrast_card_pos {p : ι → ℝ} (h : HasContrast p) : 1 ≤ Fintype.card ι :=
  card_pos_of_variation (by have := unitRoundoff_pos .float32; positivity) h.1

theorem contrast_flatness {p : ι → ℝ} (h : HasContrast p) :
    vlen p ≤ flatness p * vlen (fun i => p i - mean p) ∧ 1 ≤ flatness p := by
  have hpos := patternNorm_variation_pos (by have := unitRoundoff_pos .float32; positivity) h.1
  have e : flatness p * patternNorm (variation p) = patternNorm p := div_mul_cancel₀ _ hpos.ne'
  refine ⟨le_of_eq e.symm, ?_⟩
  rw [flatness, le_div_iff₀ hpos, one_mul]
  exact vlen_center_le p (by exact_mod_cast (contrast_card_pos h))

/-- C110. The score which refinement computes differs from the exact normalized cross-correlation
coefficient by at most `4 (n + 3) 2⁻²⁴` times the sum of the flatness of the two patterns, for `n`
pixels (up to 508 x 508), whatever the orders of the sums and whether the mean is subtracted in single
or double precision. -/
theorem C110_score_error (wide : MetricType) (o : RefinementOrders ι) (ho : AllPixels o)
    (exp sim : ι → ℝ) (hn : Fintype.card ι * unitRoundoff .float32 ≤ 1 / 65) (he : HasContrast exp)
    (hs : HasContrast sim) :
    |refinementScoreFl wide o exp sim - correlation exp sim| ≤ scoreError exp sim := by
  obtain ⟨o1, o2, o3, o4, o5⟩ := ho
  have hn1 : (1 : ℝ) ≤ Fintype.card ι := by exact_mod_cast (contrast_card_pos he)
  have h := smallErrorTwice (contrast_card_pos he) hn
  have hu := h.u_pos
  have hut : unitRoundoff .float32 = 1 / 2 ^ 24 := unitRoundoff_float32
  have hle : twiceRoundoff ≤ 3 / 2 * unitRoundoff .float32 := by
    rw [hut]
    unfold twiceRoundoff
    norm_num
  have heq : twiceRoundoff = (1 + 1 / 2 ^ 20) * unitRoundoff .float32 := by
    rw [hut]
    rfl
  have key : ∀ (s : SumOrder ι) (p : ι → ℝ), AddsEveryPixelOnce s → HasContrast p →
      twiceRoundoff ≤ ∑ i, centerWide wide s p i ^ 2 ∧ 0 < vlen (fun i => p i - mean p) ∧
      vlen (fun i => dirn (centerWide wide s p) i - dirn (fun i => p i - mean p) i) ≤
        24 / 10 * (Fintype.card ι + 3) * twiceRoundoff * flatness p := by
    intro s p hsum hp
    obtain ⟨f1, f2⟩ := contrast_flatness hp
    obtain ⟨c1, c2⟩ := hp
    have c1' : 3 * unitRoundoff .float32 ≤ ∑ i, (p i - mean p) ^ 2 := by
      rw [patternNorm_eq, vlen_sq] at c1
      exact c1
    have e : vlen (fun i => centerWide wide s p i - (p i - mean p)) ≤
        12 / 10 * (Fintype.card ι + 2) * twiceRoundoff * vlen p :=
      h.center_error_of hsum (by linarith) (wide_error wide _) fun _ => twice_error wide _
    refine h.center_dirn e (by linarith) f1 f2 ?_
    rw [heq]
    linarith
  obtain ⟨ga, pa, da⟩ := key o.sumExp exp o1 he
  obtain ⟨gb, pb, db⟩ := key o.sumSim sim o3 hs
  have e := h.quotient_error o2 o4 o5 ga gb
  have e2 := dot_sub_le (dirn (fun i => exp i - mean exp)) (dirn (fun i => sim i - mean sim))
    (dirn (centerWide wide o.sumExp exp)) (dirn (centerWide wide o.sumSim sim))
  have pb' : 0 < vlen (centerWide wide o.sumSim sim) := Real.sqrt_pos.mpr (lt_of_lt_of_le hu gb)
  rw [vlen_dirn pa, vlen_dirn pb', one_mul, mul_one] at e2
  have e3 : refinementScoreFl wide o exp sim - correlation exp sim =
      (refinementScoreFl wide o exp sim -
        ∑ i, dirn (centerWide wide o.sumExp exp) i * dirn (centerWide wide o.sumSim sim) i) +
      (∑ i, dirn (centerWide wide o.sumExp exp) i * dirn (centerWide wide o.sumSim sim) i -
        ∑ i, dirn (fun i => exp i - mean exp) i * dirn (fun i => sim i - mean sim) i) := by
    rw [correlation_eq]
    ring
  rw [e3]
  refine (abs_add_le _ _).trans ?_
  have h1 : |refinementScoreFl wide o exp sim -
      ∑ i, dirn (centerWide wide o.sumExp exp) i * dirn (centerWide wide o.sumSim sim) i| ≤
      3 * (Fintype.card ι + 3) * twiceRoundoff := e
  have fa := (contrast_flatness he).2
  have fb := (contrast_flatness hs).2
  unfold scoreError
  set g : ℝ := (Fintype.card ι + 3) * unitRoundoff .float32 with hg
  have hg0 : 0 ≤ g := by
    have := unitRoundoff_pos .float32
    positivity
  have t1 : ((Fintype.card ι : ℝ) + 3) * twiceRoundoff = (1 + 1 / 2 ^ 20) * g := by
    rw [heq, hg]
    ring
  have g1 : g ≤ g * flatness exp := le_mul_of_one_le_right hg0 fa
  have g2 : g ≤ g * flatness sim := le_mul_of_one_le_right hg0 fb
  have r1 : 3 * ((Fintype.card ι : ℝ) + 3) * twiceRoundoff = 3 * ((1 + 1 / 2 ^ 20) * g) := by
    rw [← t1]
    ring
  have r2 : ∀ f : ℝ, 24 / 10 * ((Fintype.card ι : ℝ) + 3) * twiceRoundoff * f =
      24 / 10 * (1 + 1 / 2 ^ 20) * (g * f) := by
    intro f
    linear_combination 24 / 10 * f * t1
  have r3 : 4 * ((Fintype.card ι : ℝ) + 3) * unitRoundoff .float32 * (flatness exp + flatness sim) =
      4 * (g * flatness exp) + 4 * (g * flatness sim) := by
    rw [hg]
    ring
  rw [r1] at h1
  rw [r2] at da db
  rw [r3]
  linarith

theorem correlation_abs_le {a b : ι → ℝ} (ha : HasContrast a) (hb : HasContrast b) :
    |correlation a b| ≤ 1 := by
  have hu := unitRoundoff_pos .float32
  have pa := patternNorm_variation_pos (by positivity) ha.1
  have pb := patternNorm_variation_pos (by positivity) hb.1
  have h := dot_abs_le (variation a) (variation b)
  unfold correlation
  rw [abs_div, abs_of_pos (mul_pos pa pb), div_le_iff₀ (mul_pos pa pb), one_mul]
  exact h

theorem correlation_self {a : ι → ℝ} (ha : HasContrast a) : correlation a a = 1 := by
  have hu := unitRoundoff_pos .float32
  have pa := patternNorm_variation_pos (by positivity) ha.1
  have h : ∑ i, variation a i * variation a i = patternNorm (variation a) * patternNorm (variation a) := by
    rw [← sq, patternNorm_eq, vlen_sq]
    exact Finset.sum_congr rfl fun i _ => by ring
  unfold correlation
  rw [h]
  exact div_self (mul_pos pa pa).ne'

theorem scoreError_le {a b : ι → ℝ} (ha : HasContrast a) (hb : HasContrast b) :
    0 ≤ scoreError a b ∧ scoreError a b ≤ 8 / 9 := by
  have fa := (contrast_flatness ha).2
  have fb := (contrast_flatness hb).2
  have h1 := ha.2
  have h2 := hb.2
  have hu := unitRoundoff_pos .float32
  unfold scoreError
  constructor
  · positivity
  · linarith

/-- C110. The value which is minimized differs from one minus the exact coefficient by at most the error
of the score and `2⁻⁵¹`. It is thus never below zero, and never above two, by more than this. -/
theorem C110_objective_error_partial (wide : MetricType) (o : RefinementOrders ι) (ho : AllPixels o)
    (exp sim : ι → ℝ) (hn : Fintype.card ι * unitRoundoff .float32 ≤ 1 / 65) (he : HasContrast exp)
    (hs : HasContrast sim) :
    |objectiveFl (refinementScoreFl wide o exp sim) - (1 - correlation exp sim)| ≤
        scoreError exp sim + 1 / 2 ^ 51 ∧
      -(scoreError exp sim + 1 / 2 ^ 51) ≤ objectiveFl (refinementScoreFl wide o exp sim) ∧
      objectiveFl (refinementScoreFl wide o exp sim) ≤ 2 + (scoreError exp sim + 1 / 2 ^ 51) := by
  have e := C110_score_error wide o ho exp sim hn he hs
  obtain ⟨b0, b1⟩ := scoreError_le he hs
  have hc := correlation_abs_le he hs
  set s := refinementScoreFl wide o exp sim
  set x := correlation exp sim
  set E := scoreError exp sim
  have h1 : |1 - s| ≤ 3 := by
    rw [abs_le] at e hc ⊢
    constructor <;> linarith [e.1, e.2, hc.1, hc.2]
  have h2 := binaryRound_abs_error 53 (-1074) (1 - s)
  have e53 : (2 : ℝ) ^ (-((53 : ℕ) : ℤ)) = 1 / 2 ^ 53 := by norm_num
  have e1075 : (2 : ℝ) ^ ((-1074 : ℤ) - 1) ≤ 1 / 2 ^ 53 := by
    rw [← e53]
    exact zpow_le_zpow_right₀ (by norm_num) (by norm_num)
  rw [e53] at h2
  have h3 : |objectiveFl s - (1 - s)| ≤ 1 / 2 ^ 51 := by
    change |binaryRound 53 (-1074) (1 - s) - (1 - s)| ≤ _
    generalize (2 : ℝ) ^ ((-1074 : ℤ) - 1) = g at *
    norm_num at h2 e1075 ⊢
    linarith
  have main : |objectiveFl s - (1 - x)| ≤ E + 1 / 2 ^ 51 := by
    rw [show objectiveFl s - (1 - x) = (objectiveFl s - (1 - s)) + -(s - x) by ring]
    refine (abs_add_le _ _).trans ?_
    rw [abs_neg]
    linarith
  refine ⟨main, ?_, ?_⟩
  · rw [abs_le] at main hc
    linarith [main.1, hc.2]
  · rw [abs_le] at main hc
    linarith [main.2, hc.1]

/-- C110. The score which is reported is the computed score itself, unless this is almost zero. -/
theorem C110_reported_exact (wide : MetricType) (o : RefinementOrders ι) (exp sim : ι → ℝ)
    (h : refinementScoreFl wide o exp sim = 0 ∨
      1 / 2 ^ 27 ≤ |refinementScoreFl wide o exp sim| ∧ |refinementScoreFl wide o exp sim| ≤ 2) :
    reportedScoreFl (objectiveFl (refinementScoreFl wide o exp sim)) =
      refinementScoreFl wide o exp sim := by
  obtain ⟨y, hy⟩ : ∃ y, refinementScoreFl wide o exp sim = MetricType.float32.fl y := ⟨_, rfl⟩
  set s := refinementScoreFl wide o exp sim
  have hs2 : |s| ≤ 2 := by
    rcases h with h | h
    · rw [h]; norm_num
    · exact h.2
  -- a multiple of `2⁻⁵¹`
  obtain ⟨m, hm⟩ : ∃ m : ℤ, s = m * 2 ^ (-51 : ℤ) := by
    rcases h with h | ⟨h, -⟩
    · exact ⟨0, by rw [h]; simp⟩
    · obtain ⟨m, j, -, hm, he⟩ := binaryRound_multiple 24 (-149) y
      have he' : s = m * 2 ^ j := hy.trans he
      rw [← he'] at hm
      have hj : -51 ≤ j := by
        by_contra hc
        push Not at hc
        have h3 : (2 : ℝ) ^ (j + (24 : ℕ)) ≤ 2 ^ (-28 : ℤ) :=
          zpow_le_zpow_right₀ (by norm_num) (by push_cast; omega)
        have := h.trans (hm.trans h3)
        norm_num at this
      refine ⟨m * 2 ^ (j + 51).toNat, ?_⟩
      rw [he']
      push_cast
      rw [mul_assoc, ← zpow_natCast, ← zpow_add₀ (by norm_num), Int.toNat_of_nonneg (by omega)]
      congr 2
      ring
  have r : ∀ (z : ℤ) (x : ℝ), x = z * 2 ^ (-51 : ℤ) → |x| ≤ 4 → MetricType.float64.fl x = x := by
    intro z x hx h4
    rw [hx] at h4 ⊢
    exact binaryRound_format (K := ℝ) (p := 53) (emin := -1074) (m := z) (j := -51) (by norm_num)
      (by norm_num) (by norm_num at h4 ⊢; exact h4)
  have h1 : objectiveFl s = 1 - s := by
    refine r (2 ^ 51 - m) _ ?_ ?_
    · rw [hm]
      push_cast
      norm_num
      ring
    · rw [abs_le] at hs2 ⊢
      constructor <;> linarith [hs2.1, hs2.2]
  unfold reportedScoreFl
  rw [h1, sub_sub_cancel]
  exact r m s hm (by linarith)

/-- C110. Of two simulated patterns whose exact coefficients differ by more than the errors, the one with
the greater coefficient has the lower value. -/
theorem C110_comparison_partial (wide : MetricType) (o o' : RefinementOrders ι) (ho : AllPixels o)
    (ho' : AllPixels o') (exp sim sim' : ι → ℝ)
    (hn : Fintype.card ι * unitRoundoff .float32 ≤ 1 / 65) (he : HasContrast exp)
    (hs : HasContrast sim) (hs' : HasContrast sim')
    (h : correlation exp sim' + scoreError exp sim + scoreError exp sim' + 1 / 2 ^ 50 <
      correlation exp sim) :
    objectiveFl (refinementScoreFl wide o exp sim) <
      objectiveFl (refinementScoreFl wide o' exp sim') := by
  have e := (C110_objective_error_partial wide o ho exp sim hn he hs).1
  have e' := (C110_objective_error_partial wide o' ho' exp sim' hn he hs').1
  rw [abs_le] at e e'
  norm_num at e e' h ⊢
  linarith [e.2, e'.1]

/-- C110. If the value reported by an optimizer is the lowest of those it has seen, then the exact
coefficient of that pattern is at most twice the error below that of any pattern it has tried: nothing
much better was missed because of rounding. The orders of the sums may differ between evaluations. -/
theorem C110_lowest_value_partial (wide : MetricType) (exp : ι → ℝ)
    (tried : List ((ι → ℝ) × RefinementOrders ι)) (best : (ι → ℝ) × RefinementOrders ι) (F : ℝ)
    (hn : Fintype.card ι * unitRoundoff .float32 ≤ 1 / 65) (he : HasContrast exp)
    (hF : flatness exp ≤ F) (htried : ∀ t ∈ tried, AllPixels t.2 ∧ HasContrast t.1 ∧ flatness t.1 ≤ F)
    (hbest : best ∈ tried)
    (hlow : ∀ t ∈ tried, objectiveFl (refinementScoreFl wide best.2 exp best.1) ≤
      objectiveFl (refinementScoreFl wide t.2 exp t.1)) :
    ∀ t ∈ tried, correlation exp t.1 ≤ correlation exp best.1 +
      (16 * (Fintype.card ι + 3) * unitRoundoff .float32 * F + 1 / 2 ^ 50) := by
  intro t ht
  obtain ⟨o1, c1, f1⟩ := htried t ht
  obtain ⟨o2, c2, f2⟩ := htried best hbest
  have e1 := (C110_objective_error_partial wide t.2 o1 exp t.1 hn he c1).1
  have e2 := (C110_objective_error_partial wide best.2 o2 exp best.1 hn he c2).1
  have hl := hlow t ht
  have hg : 0 ≤ ((Fintype.card ι : ℝ) + 3) * unitRoundoff .float32 := by
    have := unitRoundoff_pos .float32
    positivity
  have s1 : scoreError exp t.1 ≤ 8 * (Fintype.card ι + 3) * unitRoundoff .float32 * F := by
    have := mul_le_mul_of_nonneg_left (add_le_add hF f1) hg
    unfold scoreError
    linarith
  have s2 : scoreError exp best.1 ≤ 8 * (Fintype.card ι + 3) * unitRoundoff .float32 * F := by
    have := mul_le_mul_of_nonneg_left (add_le_add hF f2) hg
    unfold scoreError
    linarith
  rw [abs_le] at e1 e2
  norm_num at e1 e2 ⊢
  linarith [e1.1, e1.2, e2.1, e2.2]

/-- C110. Whatever the orders of the sums and the precision in which the mean is subtracted, two scores of
the same patterns differ by at most twice the error. -/
theorem C110_order_partial (wide wide' : MetricType) (o o' : RefinementOrders ι) (ho : AllPixels o)
    (ho' : AllPixels o') (exp sim : ι → ℝ)
    (hn : Fintype.card ι * unitRoundoff .float32 ≤ 1 / 65) (he : HasContrast exp)
    (hs : HasContrast sim) :
    |refinementScoreFl wide o exp sim - refinementScoreFl wide' o' exp sim| ≤
      2 * scoreError exp sim := by
  have e := C110_score_error wide o ho exp sim hn he hs
  have e' := C110_score_error wide' o' ho' exp sim hn he hs
  rw [abs_le] at e e' ⊢
  constructor <;> linarith [e.1, e.2, e'.1, e'.2]

/-- C110. If the simulated pattern equals the experimental one, and the sums for the two are in the same
order, then the score is exactly one and the value exactly zero. -/
theorem C110_identical (wide : MetricType) (sum norm : SumOrder ι) (p : ι → ℝ)
    (hlow : 1 / 2 ^ 60 ≤ (preparePatternFl wide sum norm p).2) :
    refinementScoreFl wide ⟨sum, norm, sum, norm, norm⟩ p p = 1 ∧
      objectiveFl (refinementScoreFl wide ⟨sum, norm, sum, norm, norm⟩ p p) = 0 := by
  have hfl : ∃ y, (preparePatternFl wide sum norm p).2 = binaryRound 24 (-149) y := by
    unfold preparePatternFl
    cases norm with
    | term i => exact ⟨_, rfl⟩
    | plus l r => exact ⟨_, rfl⟩
    | fused l i => exact ⟨_, rfl⟩
  have hscore : refinementScoreFl wide ⟨sum, norm, sum, norm, norm⟩ p p =
      MetricType.float32.fl ((preparePatternFl wide sum norm p).2 / MetricType.float32.fl (Real.sqrt
        (MetricType.float32.fl ((preparePatternFl wide sum norm p).2 *
          (preparePatternFl wide sum norm p).2)))) := rfl
  obtain ⟨y, hy⟩ := hfl
  set N := (preparePatternFl wide sum norm p).2
  have hN0 : 0 < N := lt_of_lt_of_le (by norm_num) hlow
  have h1 : (2 : ℝ) ^ Int.log 2 N ≤ N := by
    have := Int.zpow_log_le_self (b := 2) one_lt_two hN0
    exact_mod_cast this
  have h2 : N < (2 : ℝ) ^ (Int.log 2 N + 1) := by
    have := Int.lt_zpow_succ_log_self (b := 2) one_lt_two N
    exact_mod_cast this
  have h3 : -60 ≤ Int.log 2 N := by
    by_contra hc
    push Not at hc
    have h4 := (Int.lt_zpow_iff_log_lt (R := ℝ) (x := -60) one_lt_two hN0).mpr hc
    norm_num at h4 hlow
    linarith
  have hroot : MetricType.float32.fl (Real.sqrt (MetricType.float32.fl (N * N))) = N :=
    binaryRound_sqrt_sq (p := 24) (emin := -149) (e := Int.log 2 N) (by norm_num) hy h1 h2
      (by push_cast; omega) (by push_cast; omega)
  have f1 : MetricType.float32.fl 1 = 1 := by
    have := fl_int .float32 (z := 1) (by norm_num [MetricType.digits])
    simpa using this
  have f0 : MetricType.float64.fl 0 = 0 := by
    have := fl_int .float64 (z := 0) (by norm_num [MetricType.digits])
    simpa using this
  have hs : refinementScoreFl wide ⟨sum, norm, sum, norm, norm⟩ p p = 1 := by
    rw [hscore, hroot, div_self hN0.ne', f1]
  refine ⟨hs, ?_⟩
  rw [hs, objectiveFl, sub_self, f0]

end

/-! ### A case, and what rounding breaks -/

/-- An experimental pattern of three pixels. -/
def expPixels : Fin 3 → ℝ := ![2151, 3312, 0]

/-- The same pattern with five times the contrast. -/
def simPixels : Fin 3 → ℝ := ![10755, 16560, 0]

/-- All sums from left to right. -/
def allLeftToRight : RefinementOrders (Fin 3) :=
  ⟨leftToRight, leftToRight, leftToRight, leftToRight, leftToRight⟩

theorem variation_expPixels : variation expPixels = ![330, 1491, -1821] := by
  funext i
  unfold variation expPixels
  rw [Fin.sum_univ_three]
  simp only [Matrix.cons_val]
  fin_cases i <;> norm_num

theorem variation_simPixels : variation simPixels = ![1650, 7455, -9105] := by
  funext i
  unfold variation simPixels
  rw [Fin.sum_univ_three]
  simp only [Matrix.cons_val]
  fin_cases i <;> norm_num

theorem contrast_pixels : HasContrast expPixels ∧ HasContrast simPixels := by
  have key : ∀ (p v : Fin 3 → ℝ), variation p = v → (∑ i, p i ^ 2) ≤ 4 * ∑ i, v i ^ 2 →
      1 ≤ ∑ i, v i ^ 2 → HasContrast p := by
    intro p v hv h4 h1
    have hsq : patternNorm (variation p) ^ 2 = ∑ i, v i ^ 2 := by rw [hv, patternNorm_eq, vlen_sq]
    have hpos : 0 < patternNorm (variation p) :=
      patternNorm_variation_pos one_pos (by rw [hsq]; exact h1)
    have hf : flatness p ≤ 2 := by
      unfold flatness
      rw [div_le_iff₀ hpos]
      refine (abs_le.mp (abs_le_of_sq_le_sq ?_ (by positivity))).2
      rw [mul_pow, hsq, patternNorm_eq, vlen_sq]
      linarith
    constructor
    · rw [hsq, unitRoundoff_float32]
      norm_num at h1 ⊢
      linarith
    · rw [unitRoundoff_float32]
      norm_num at hf ⊢
      linarith
  constructor
  · refine key _ _ variation_expPixels ?_ ?_ <;>
      rw [Fin.sum_univ_three] <;> try rw [Fin.sum_univ_three]
    all_goals simp only [expPixels, Matrix.cons_val]
    all_goals norm_num
  · refine key _ _ variation_simPixels ?_ ?_ <;>
      rw [Fin.sum_univ_three] <;> try rw [Fin.sum_univ_three]
    all_goals simp only [simPixels, Matrix.cons_val]
    all_goals norm_num

example : AllPixels allLeftToRight ∧ (Fintype.card (Fin 3) : ℝ) * unitRoundoff .float32 ≤ 1 / 65 ∧
    HasContrast expPixels ∧ HasContrast simPixels := by
  have h := addsAll.1
  refine ⟨⟨h, h, h, h, h⟩, ?_, contrast_pixels⟩
  rw [unitRoundoff_float32]
  norm_num

theorem fl_wide_int (wide : MetricType) {z : ℤ} (h : |z| ≤ 2 ^ 24) : wide.fl z = z := by
  refine fl_int wide (h.trans ?_)
  cases wide <;> norm_num [MetricType.digits]

theorem center_pixels (wide : MetricType) :
    centerWide wide leftToRight expPixels = ![330, 1491, -1821] ∧
      centerWide wide leftToRight simPixels = ![1650, 7455, -9105] := by
  have f : ∀ (t : MetricType) (z : ℤ), |z| ≤ 2 ^ 24 → t.fl z = z := fun t z h => fl_wide_int t h
  have g : ∀ (t : MetricType) (z : ℤ) (x : ℝ), x = z → |z| ≤ 2 ^ 24 → t.fl x = x := by
    rintro t z x rfl h
    exact f t z h
  have r : ∀ a b m : ℤ, |a| ≤ 2 ^ 24 → |b| ≤ 2 ^ 24 → |a + b| ≤ 2 ^ 24 → a + b = 3 * m → |m| ≤ 2 ^ 24 →
      |a - m| ≤ 2 ^ 24 → |b - m| ≤ 2 ^ 24 →
      centerWide wide leftToRight ![(a : ℝ), b, 0] = ![(a : ℝ) - m, b - m, 0 - m] := by
    intro a b m h1 h2 h3 h4 h5 h6 h7
    have hs : leftToRight.eval MetricType.float32.fl ![(a : ℝ), b, 0] (fun _ => 1) = 3 * m := by
      simp only [leftToRight, SumOrder.eval, Matrix.cons_val, mul_one]
      rw [g _ a _ rfl h1, g _ b _ rfl h2, g _ 0 0 (by simp) (by norm_num),
        g _ (a + b) (a + b) (by push_cast; ring) h3, add_zero, g _ (a + b) (a + b) (by push_cast; ring) h3]
      exact_mod_cast h4
    have hm : wide.fl (leftToRight.eval MetricType.float32.fl ![(a : ℝ), b, 0] (fun _ => 1) /
        Fintype.card (Fin 3)) = m := by
      rw [hs]
      have : (3 : ℝ) * m / (Fintype.card (Fin 3) : ℝ) = m := by
        rw [Fintype.card_fin]
        push_cast
        field_simp
      rw [this]
      exact f wide m h5
    funext i
    unfold centerWide
    rw [hm]
    have two : ∀ (z : ℤ) (x : ℝ), x = z → |z| ≤ 2 ^ 24 → MetricType.float32.fl (wide.fl x) = x := by
      intro z x hx hz
      rw [g wide z x hx hz, g _ z x hx hz]
    fin_cases i
    · exact two (a - m) _ (by simp) h6
    · exact two (b - m) _ (by simp) h7
    · exact two (0 - m) _ (by simp) (by simpa using h5)
  constructor
  · have := r 2151 3312 1821 (by norm_num) (by norm_num) (by norm_num) (by norm_num) (by norm_num)
      (by norm_num) (by norm_num)
    norm_num at this
    exact this
  · have := r 10755 16560 9105 (by norm_num) (by norm_num) (by norm_num) (by norm_num) (by norm_num)
      (by norm_num) (by norm_num)
    norm_num at this
    exact this

/-- C110, not true. A computed score may exceed one, so that the value is negative, and it depends on the
contrast of the simulated pattern: the exact coefficient of a pattern of 16-bit integers with itself and
with five times itself is one, and so is the computed score with itself, but the one with five times
itself is `1 + 2⁻²³`. -/
theorem C110_exact_violated (wide : MetricType) :
    correlation expPixels simPixels = 1 ∧
      refinementScoreFl wide allLeftToRight expPixels expPixels = 1 ∧
      refinementScoreFl wide allLeftToRight expPixels simPixels = 1 + 1 / 2 ^ 23 ∧
      objectiveFl (refinementScoreFl wide allLeftToRight expPixels simPixels) < 0 := by
  obtain ⟨ce, cs⟩ := center_pixels wide
  have r : ∀ {e : ℤ} {x y : ℝ} (m : ℤ), 2 ^ e ≤ x → x < 2 ^ (e + 1) → -149 ≤ e - 24 + 1 →
      |x / 2 ^ (e - 24 + 1) - m| < 1 / 2 → m * 2 ^ (e - 24 + 1) = y → MetricType.float32.fl x = y := by
    intro e x y m h1 h2 h3 h4 h5
    rw [← h5]
    exact binaryRound_eq (p := 24) (emin := -149) m h1 h2 (by simpa using h3) (by simpa using h4)
  have gz : ∀ (z : ℤ) (x : ℝ), x = z → |z| ≤ 2 ^ 24 → MetricType.float32.fl x = z := by
    rintro z x rfl h
    exact fl_wide_int _ h
  have ev : ∀ a b : Fin 3 → ℝ, leftToRight.eval MetricType.float32.fl a b =
      MetricType.float32.fl (MetricType.float32.fl (MetricType.float32.fl (a 0 * b 0) +
        MetricType.float32.fl (a 1 * b 1)) + MetricType.float32.fl (a 2 * b 2)) := fun _ _ => rfl
  have hN : leftToRight.eval MetricType.float32.fl ![(330 : ℝ), 1491, -1821] ![330, 1491, -1821] =
      5648022 := by
    rw [ev]
    simp only [Matrix.cons_val]
    rw [gz 108900 (330 * 330) (by norm_num) (by norm_num),
      gz 2223081 (1491 * 1491) (by norm_num) (by norm_num),
      gz 3316041 (-1821 * -1821) (by norm_num) (by norm_num),
      gz 2331981 (((108900 : ℤ) : ℝ) + (2223081 : ℤ)) (by norm_num) (by norm_num),
      gz 5648022 _ (by norm_num) (by norm_num)]
    norm_num
  have hself : refinementScoreFl wide allLeftToRight expPixels expPixels = 1 := by
    refine (C110_identical wide leftToRight leftToRight expPixels ?_).1
    unfold preparePatternFl
    simp only [ce]
    rw [hN]
    norm_num
  have hD : leftToRight.eval MetricType.float32.fl ![(330 : ℝ), 1491, -1821] ![1650, 7455, -9105] =
      28240110 := by
    rw [ev]
    simp only [Matrix.cons_val]
    rw [gz 544500 (330 * 1650) (by norm_num) (by norm_num),
      gz 11115405 (1491 * 7455) (by norm_num) (by norm_num),
      gz 16580205 (-1821 * -9105) (by norm_num) (by norm_num),
      gz 11659905 (((544500 : ℤ) : ℝ) + (11115405 : ℤ)) (by norm_num) (by norm_num)]
    exact r (e := 24) 14120055 (by norm_num) (by norm_num) (by norm_num) (by rw [abs_lt]; norm_num)
      (by norm_num)
  have hS : leftToRight.eval MetricType.float32.fl ![(1650 : ℝ), 7455, -9105] ![1650, 7455, -9105] =
      141200544 := by
    rw [ev]
    simp only [Matrix.cons_val]
    have s1 : MetricType.float32.fl ((7455 : ℝ) * 7455) = 55577024 :=
      r (e := 25) 13894256 (by norm_num) (by norm_num) (by norm_num) (by rw [abs_lt]; norm_num)
        (by norm_num)
    have s2 : MetricType.float32.fl ((-9105 : ℝ) * -9105) = 82901024 :=
      r (e := 26) 10362628 (by norm_num) (by norm_num) (by norm_num) (by rw [abs_lt]; norm_num)
        (by norm_num)
    have s3 : MetricType.float32.fl (((2722500 : ℤ) : ℝ) + 55577024) = 58299524 :=
      r (e := 25) 14574881 (by norm_num) (by norm_num) (by norm_num) (by rw [abs_lt]; norm_num)
        (by norm_num)
    rw [gz 2722500 (1650 * 1650) (by norm_num) (by norm_num), s1, s2, s3]
    exact r (e := 27) 8825034 (by norm_num) (by norm_num) (by norm_num) (by rw [abs_lt]; norm_num)
      (by norm_num)
  have hP : MetricType.float32.fl ((5648022 : ℝ) * 141200544) = 797503754600448 :=
    r (e := 49) 11883732 (by norm_num) (by norm_num) (by norm_num) (by rw [abs_lt]; norm_num)
      (by norm_num)
  have hroot : MetricType.float32.fl (Real.sqrt 797503754600448) = 28240108 := by
    have l1 : (282401089 / 10 : ℝ) ≤ Real.sqrt 797503754600448 :=
      Real.le_sqrt_of_sq_le (by norm_num)
    have l2 : Real.sqrt 797503754600448 ≤ 28240108.98 :=
      Real.sqrt_le_iff.mpr ⟨by norm_num, by norm_num⟩
    refine r (e := 24) 14120054 ?_ ?_ (by norm_num) ?_ (by norm_num)
    · refine le_trans ?_ l1
      norm_num
    · refine lt_of_le_of_lt l2 ?_
      norm_num
    · rw [abs_lt]
      norm_num at l2 ⊢
      constructor <;> linarith
  have hscore : refinementScoreFl wide allLeftToRight expPixels simPixels = 1 + 1 / 2 ^ 23 := by
    unfold refinementScoreFl preparePatternFl nccExpCenteredFl allLeftToRight
    simp only [ce, cs]
    rw [hD, hN, hS, hP, hroot]
    exact r (e := 0) 8388609 (by norm_num) (by norm_num) (by norm_num) (by rw [abs_lt]; norm_num)
      (by norm_num)
  refine ⟨?_, hself, hscore, ?_⟩
  · have h5 : variation simPixels = fun i => 5 * variation expPixels i := by
      rw [variation_simPixels, variation_expPixels]
      funext i
      fin_cases i <;> norm_num
    have hn : patternNorm (variation simPixels) = 5 * patternNorm (variation expPixels) := by
      rw [h5, patternNorm_eq, patternNorm_eq, vlen_smul]
      norm_num
    have hself := correlation_self contrast_pixels.1
    unfold correlation at hself ⊢
    rw [hn, h5]
    simp only [mul_left_comm _ (5 : ℝ)]
    rw [← Finset.mul_sum, mul_div_mul_left _ _ (by norm_num), hself]
  · have e : objectiveFl (refinementScoreFl wide allLeftToRight expPixels simPixels) = -(1 / 2 ^ 23) := by
      rw [hscore, objectiveFl]
      have := binaryRound_format (K := ℝ) (p := 53) (emin := -1074) (m := -1) (j := -23) (by norm_num)
        (by norm_num) (by norm_num)
      norm_num [MetricType.fl, MetricType.digits, MetricType.emin] at this ⊢
      exact this
    rw [e]
    norm_num

/-- The score of the pattern with itself is reported as it is. -/
example (wide : MetricType) :
    1 / 2 ^ 27 ≤ |refinementScoreFl wide allLeftToRight expPixels expPixels| ∧
      |refinementScoreFl wide allLeftToRight expPixels expPixels| ≤ 2 := by
  rw [(C110_exact_violated wide).2.1]
  norm_num

/-- The pattern is told from its negative. -/
example : HasContrast (fun i => -expPixels i) ∧
    correlation expPixels (fun i => -expPixels i) + scoreError expPixels expPixels +
      scoreError expPixels (fun i => -expPixels i) + 1 / 2 ^ 50 < correlation expPixels expPixels := by
  have hv : variation (fun i => -expPixels i) = fun i => -1 * variation expPixels i := by
    funext i
    unfold variation
    rw [Finset.sum_neg_distrib]
    ring
  have hn : patternNorm (variation fun i => -expPixels i) = patternNorm (variation expPixels) := by
    rw [hv, patternNorm_eq, patternNorm_eq, vlen_smul]
    norm_num
  have hp : patternNorm (fun i => -expPixels i) = patternNorm expPixels := by
    unfold patternNorm
    simp only [neg_sq]
  have hf : flatness (fun i => -expPixels i) = flatness expPixels := by
    unfold flatness
    rw [hn, hp]
  have hc : HasContrast (fun i => -expPixels i) := by
    unfold HasContrast
    rw [hn, hf]
    exact contrast_pixels.1
  refine ⟨hc, ?_⟩
  have h1 := correlation_self contrast_pixels.1
  have h2 : correlation expPixels (fun i => -expPixels i) = -1 := by
    have h3 : correlation expPixels (fun i => -expPixels i) = -correlation expPixels expPixels := by
      unfold correlation
      rw [hn, hv, ← neg_div, ← Finset.sum_neg_distrib]
      congr 1
      exact Finset.sum_congr rfl fun i _ => by ring
    rw [h3, h1]
  have h4 := (scoreError_le contrast_pixels.1 contrast_pixels.1).2
  have h5 := (scoreError_le contrast_pixels.1 hc).2
  rw [h1, h2]
  norm_num
  linarith

end Kp
