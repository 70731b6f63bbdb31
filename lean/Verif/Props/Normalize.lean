import Verif.Model.Normalize
import Mathlib.Algebra.Order.BigOperators.Ring.Finset
import Mathlib.Tactic.Ring
import Mathlib.Tactic.FieldSimp
import Mathlib.Tactic.Linarith
import Mathlib.Tactic.Positivity
import Mathlib.Tactic.NormNum
import Mathlib.Tactic.FinCases
import Mathlib.Algebra.BigOperators.Fin

/-
C12, C24: intensity normalization, normalized cross-correlation and normalized dot product.
-/

namespace Kp

open Finset

section
variable {ι : Type*} [Fintype ι]

/-- The pattern is not constant. -/
def NonConst (p : ι → ℝ) : Prop := ∃ i j, p i ≠ p j

/-- Sum of squared deviations from the mean. -/
private noncomputable def energy (p : ι → ℝ) : ℝ := ∑ j, (p j - mean p) ^ 2

private theorem sum_sub_mean [Nonempty ι] (p : ι → ℝ) : ∑ i, (p i - mean p) = 0 := by
  have hc : (Fintype.card ι : ℝ) ≠ 0 := by exact_mod_cast Fintype.card_ne_zero
  rw [sum_sub_distrib, sum_const, card_univ, nsmul_eq_mul]
  unfold mean
  field_simp
  ring

private theorem energy_pos {p : ι → ℝ} (h : NonConst p) : 0 < energy p := by
  obtain ⟨i, j, hij⟩ := h
  have : ∃ k, p k - mean p ≠ 0 := by
    by_contra hcon
    push Not at hcon
    exact hij (by linarith [hcon i, hcon j])
  obtain ⟨k, hk⟩ := this
  exact sum_pos' (fun i _ => sq_nonneg _) ⟨k, mem_univ k, by positivity⟩

private theorem std_eq (p : ι → ℝ) : std p = Real.sqrt (energy p / Fintype.card ι) := rfl

private theorem std_pos {p : ι → ℝ} (h : NonConst p) : 0 < std p := by
  have : Nonempty ι := ⟨h.choose⟩
  have hc : (0 : ℝ) < Fintype.card ι := by exact_mod_cast Fintype.card_pos
  rw [std_eq]
  exact Real.sqrt_pos.2 (div_pos (energy_pos h) hc)

private theorem mean_affine [Nonempty ι] (p : ι → ℝ) (a b : ℝ) :
    mean (fun i => a * p i + b) = a * mean p + b := by
  have hc : (Fintype.card ι : ℝ) ≠ 0 := by exact_mod_cast Fintype.card_ne_zero
  unfold mean
  rw [sum_add_distrib, ← mul_sum, sum_const, card_univ, nsmul_eq_mul]
  field_simp

private theorem energy_affine [Nonempty ι] (p : ι → ℝ) (a b : ℝ) :
    energy (fun i => a * p i + b) = a ^ 2 * energy p := by
  unfold energy
  rw [mean_affine, mul_sum]
  apply sum_congr rfl
  intro i _
  ring

private theorem mean_div_of_centered [Nonempty ι] (p : ι → ℝ) (c : ℝ) :
    mean (fun i => (p i - mean p) / c) = 0 := by
  unfold mean
  rw [← sum_div]
  have := sum_sub_mean p
  unfold mean at this
  rw [this]
  simp

private theorem std_div_of_centered [Nonempty ι] (p : ι → ℝ) (c : ℝ) :
    std (fun i => (p i - mean p) / c) = std p / |c| := by
  unfold std
  rw [mean_div_of_centered]
  have : ∑ i, ((p i - mean p) / c - 0) ^ 2 = (∑ i, (p i - mean p) ^ 2) / c ^ 2 := by
    rw [sum_div]
    apply sum_congr rfl
    intro i _
    rw [sub_zero, div_pow]
  rw [this, div_right_comm, Real.sqrt_div' _ (sq_nonneg c), Real.sqrt_sq_eq_abs]

/-- C12, part.  The normalized pattern has mean 0, and standard deviation `1 / num_std`
(over `sqrt(size)` if requested).  The documentation says the standard deviation is
`num_std`, which is true only for `num_std = 1`, see below. -/
theorem C12_mean_and_std_partial (numStd : ℝ) (p : ι → ℝ) (hn : 0 < numStd) (hp : NonConst p) :
    mean (normalizeIntensity numStd false p) = 0 ∧
    std (normalizeIntensity numStd false p) = 1 / numStd ∧
    mean (normalizeIntensity numStd true p) = 0 ∧
    std (normalizeIntensity numStd true p) = 1 / numStd / Real.sqrt (Fintype.card ι) := by
  have : Nonempty ι := ⟨hp.choose⟩
  have hc : (0 : ℝ) < Fintype.card ι := by exact_mod_cast Fintype.card_pos
  have hs := std_pos hp
  have hsq : 0 < Real.sqrt (Fintype.card ι) := Real.sqrt_pos.2 hc
  have e1 : normalizeIntensity numStd false p = fun i => (p i - mean p) / (numStd * std p) := by
    funext i; simp [normalizeIntensity]
  have e2 : normalizeIntensity numStd true p =
      fun i => (p i - mean p) / (numStd * std p * Real.sqrt (Fintype.card ι)) := by
    funext i; simp [normalizeIntensity]
  refine ⟨?_, ?_, ?_, ?_⟩
  · rw [e1]; exact mean_div_of_centered p _
  · rw [e1, std_div_of_centered, abs_of_pos (by positivity)]
    field_simp
  · rw [e2]; exact mean_div_of_centered p _
  · rw [e2, std_div_of_centered, abs_of_pos (by positivity)]
    field_simp

/-- C12 as stated, for the default `num_std = 1`. -/
theorem C12_mean_and_std_default_partial (p : ι → ℝ) (hp : NonConst p) :
    mean (normalizeIntensity 1 false p) = 0 ∧ std (normalizeIntensity 1 false p) = 1 := by
  obtain ⟨h1, h2, -, -⟩ := C12_mean_and_std_partial 1 p one_pos hp
  exact ⟨h1, by simpa using h2⟩

/-- Negation of C12: for no `num_std` other than 1 is the standard deviation `num_std`. -/
theorem C12_std_is_not_num_std (numStd : ℝ) (p : ι → ℝ) (hn : 0 < numStd) (h1 : numStd ≠ 1)
    (hp : NonConst p) : std (normalizeIntensity numStd false p) ≠ numStd := by
  rw [(C12_mean_and_std_partial numStd p hn hp).2.1]
  intro h
  rw [div_eq_iff hn.ne'] at h
  have : (numStd - 1) * (numStd + 1) = 0 := by linarith
  rcases mul_eq_zero.1 this with h | h
  · exact h1 (by linarith)
  · linarith

/-- C12: the result does not depend on a positive affine change of the intensities. -/
theorem C12_affine_invariant (numStd : ℝ) (d : Bool) (p : ι → ℝ) (a b : ℝ) (ha : 0 < a)
    (hp : NonConst p) :
    normalizeIntensity numStd d (fun i => a * p i + b) = normalizeIntensity numStd d p := by
  have : Nonempty ι := ⟨hp.choose⟩
  have hs := std_pos hp
  have h1 : std (fun i => a * p i + b) = a * std p := by
    rw [std_eq, energy_affine, mul_div_assoc, Real.sqrt_mul (sq_nonneg a), Real.sqrt_sq ha.le,
      ← std_eq]
  funext i
  unfold normalizeIntensity
  rw [h1, mean_affine]
  have e : a * p i + b - (a * mean p + b) = a * (p i - mean p) := by ring
  have e2 : numStd * (a * std p) = a * (numStd * std p) := by ring
  have e3 : a * (numStd * std p) * Real.sqrt (Fintype.card ι) =
      a * (numStd * std p * Real.sqrt (Fintype.card ι)) := by ring
  cases d
  · simp only [Bool.false_eq_true, if_false, e, e2]
    rw [mul_div_mul_left _ _ ha.ne']
  · simp only [if_true, e, e2, e3]
    rw [mul_div_mul_left _ _ ha.ne']

/-! C24 -/

private theorem sum_sq_zeroMeanNormalize {p : ι → ℝ} (h : NonConst p) :
    ∑ i, zeroMeanNormalize p i ^ 2 = 1 := by
  have hE := energy_pos h
  unfold zeroMeanNormalize
  have : ∀ i, ((p i - mean p) / Real.sqrt (∑ j, (p j - mean p) ^ 2)) ^ 2 =
      (p i - mean p) ^ 2 / energy p := by
    intro i
    change _ = _ / (∑ j, (p j - mean p) ^ 2)
    have hE' : 0 ≤ ∑ j, (p j - mean p) ^ 2 := hE.le
    rw [div_pow, Real.sq_sqrt hE']
  simp_rw [this]
  rw [← sum_div]
  exact div_self hE.ne'

private theorem sum_sq_normalizePattern {p : ι → ℝ} (h : ∃ i, p i ≠ 0) :
    ∑ i, normalizePattern p i ^ 2 = 1 := by
  obtain ⟨k, hk⟩ := h
  have hE : 0 < ∑ j, p j ^ 2 := sum_pos' (fun i _ => sq_nonneg _) ⟨k, mem_univ k, by positivity⟩
  unfold normalizePattern
  simp_rw [div_pow, Real.sq_sqrt hE.le]
  rw [← sum_div]
  exact div_self hE.ne'

private theorem dot_bounds {a b : ι → ℝ} (ha : ∑ i, a i ^ 2 = 1) (hb : ∑ i, b i ^ 2 = 1) :
    -1 ≤ dotPatterns a b ∧ dotPatterns a b ≤ 1 := by
  have h := Finset.sum_mul_sq_le_sq_mul_sq univ a b
  rw [ha, hb] at h
  exact ⟨by unfold dotPatterns; nlinarith, by unfold dotPatterns; nlinarith⟩

private theorem dot_eq_one {a b : ι → ℝ} (ha : ∑ i, a i ^ 2 = 1) (hb : ∑ i, b i ^ 2 = 1)
    (h : dotPatterns a b = 1) : a = b := by
  have hz : ∑ i, (a i - b i) ^ 2 = 0 := by
    have : ∀ i, (a i - b i) ^ 2 = a i ^ 2 + b i ^ 2 - 2 * (a i * b i) := by intro i; ring
    simp_rw [this]
    rw [sum_sub_distrib, sum_add_distrib, ← mul_sum, ha, hb]
    unfold dotPatterns at h
    rw [h]; norm_num
  rw [sum_eq_zero_iff_of_nonneg (fun i _ => sq_nonneg _)] at hz
  funext i
  have := hz i (mem_univ i)
  have := pow_eq_zero_iff (two_ne_zero) |>.1 this
  linarith

/-- C24: NCC scores are in [-1, 1], for patterns that are not constant on the kept pixels. -/
theorem C24_ncc_bounds (mask : ι → Bool) (a b : ι → ℝ) (ha : NonConst (maskPattern mask a))
    (hb : NonConst (maskPattern mask b)) : -1 ≤ ncc mask a b ∧ ncc mask a b ≤ 1 :=
  dot_bounds (sum_sq_zeroMeanNormalize ha) (sum_sq_zeroMeanNormalize hb)

/-- C24: the NCC is 1 exactly if one pattern is a positive affine change of the other (on the
kept pixels); in particular of a pattern with itself. -/
theorem C24_ncc_eq_one_iff (mask : ι → Bool) (a b : ι → ℝ) (ha : NonConst (maskPattern mask a))
    (hb : NonConst (maskPattern mask b)) :
    ncc mask a b = 1 ↔ ∃ g o : ℝ, 0 < g ∧ ∀ i, mask i = false → b i = g * a i + o := by
  have hne : Nonempty (Kept mask) := ⟨ha.choose⟩
  have hEa := energy_pos ha
  have hEb := energy_pos hb
  have sa : 0 < Real.sqrt (energy (maskPattern mask a)) := Real.sqrt_pos.2 hEa
  have sb : 0 < Real.sqrt (energy (maskPattern mask b)) := Real.sqrt_pos.2 hEb
  constructor
  · intro h
    have heq := dot_eq_one (sum_sq_zeroMeanNormalize ha) (sum_sq_zeroMeanNormalize hb) h
    refine ⟨Real.sqrt (energy (maskPattern mask b)) / Real.sqrt (energy (maskPattern mask a)),
      mean (maskPattern mask b) -
        Real.sqrt (energy (maskPattern mask b)) / Real.sqrt (energy (maskPattern mask a)) *
        mean (maskPattern mask a), div_pos sb sa, ?_⟩
    intro i hi
    have := congrFun heq ⟨i, hi⟩
    change (a i - mean (maskPattern mask a)) / Real.sqrt (energy (maskPattern mask a)) =
      (b i - mean (maskPattern mask b)) / Real.sqrt (energy (maskPattern mask b)) at this
    field_simp at this ⊢
    linarith
  · rintro ⟨g, o, hg, h⟩
    have hb' : maskPattern mask b = fun i => g * maskPattern mask a i + o := by
      funext i; exact h i.1 i.2
    have hzz : zeroMeanNormalize (maskPattern mask b) = zeroMeanNormalize (maskPattern mask a) := by
      funext i
      change (maskPattern mask b i - mean (maskPattern mask b)) /
        Real.sqrt (energy (maskPattern mask b)) = (maskPattern mask a i -
          mean (maskPattern mask a)) / Real.sqrt (energy (maskPattern mask a))
      rw [hb', energy_affine, mean_affine, Real.sqrt_mul (sq_nonneg g), Real.sqrt_sq hg.le]
      have e : g * maskPattern mask a i + o - (g * mean (maskPattern mask a) + o) =
        g * (maskPattern mask a i - mean (maskPattern mask a)) := by ring
      simp only [e]
      rw [mul_div_mul_left _ _ hg.ne']
    unfold ncc
    rw [hzz]
    have := sum_sq_zeroMeanNormalize ha
    unfold dotPatterns
    rw [← this]
    apply sum_congr rfl
    intro i _; ring

/-- C24: the NCC is unchanged by positive affine intensity changes of either pattern, and by
swapping the patterns; a negative gain changes its sign. -/
theorem C24_ncc_invariances (mask : ι → Bool) (a b : ι → ℝ) (g o : ℝ)
    (ha : NonConst (maskPattern mask a)) :
    ncc mask a b = ncc mask b a ∧
    (0 < g → ncc mask (fun i => g * a i + o) b = ncc mask a b) ∧
    (g < 0 → ncc mask (fun i => g * a i + o) b = -ncc mask a b) := by
  have hne : Nonempty (Kept mask) := ⟨ha.choose⟩
  have key : ∀ i, zeroMeanNormalize (maskPattern mask (fun i => g * a i + o)) i =
      g * (maskPattern mask a i - mean (maskPattern mask a)) /
        (|g| * Real.sqrt (energy (maskPattern mask a))) := by
    intro i
    have hb' : maskPattern mask (fun i => g * a i + o) =
        fun i => g * maskPattern mask a i + o := rfl
    change (maskPattern mask (fun i => g * a i + o) i - mean (maskPattern mask _)) /
        Real.sqrt (energy (maskPattern mask (fun i => g * a i + o))) = _
    rw [hb', energy_affine, mean_affine, Real.sqrt_mul (sq_nonneg g), Real.sqrt_sq_eq_abs]
    have e : g * maskPattern mask a i + o - (g * mean (maskPattern mask a) + o) =
      g * (maskPattern mask a i - mean (maskPattern mask a)) := by ring
    simp only [e]
  refine ⟨?_, ?_, ?_⟩
  · unfold ncc dotPatterns
    apply sum_congr rfl; intro i _; ring
  · intro hg
    unfold ncc dotPatterns
    apply sum_congr rfl
    intro i _
    rw [key, abs_of_pos hg, mul_div_mul_left _ _ hg.ne']
    rfl
  · intro hg
    unfold ncc dotPatterns
    rw [← sum_neg_distrib]
    apply sum_congr rfl
    intro i _
    rw [key, abs_of_neg hg, neg_mul, div_neg, mul_div_mul_left _ _ hg.ne, neg_mul]
    rfl

/-- C24: the NCC used in refinement (experimental pattern centered beforehand, its squared
norm passed on) is the NCC of dictionary indexing. -/
theorem C24_refinement_ncc_agrees (exp sim : ι → ℝ) (he : NonConst exp) :
    nccSingle (fun i => exp i - mean exp) sim (∑ i, (exp i - mean exp) ^ 2) =
      ncc (fun _ => false) exp sim := by
  have hm : ∀ q : ι → ℝ, mean (maskPattern (fun _ => false) q) = mean q := by
    intro q
    unfold mean maskPattern
    congr 1
    · exact Fintype.sum_equiv (Equiv.subtypeUnivEquiv (fun _ => rfl)) _ _ (fun _ => rfl)
    · rw [Fintype.card_congr (Equiv.subtypeUnivEquiv (α := ι) (p := fun _ => false = false)
        (fun _ => rfl))]
  have hs : ∀ f : ι → ℝ, ∑ i : Kept (fun _ : ι => false), f i.1 = ∑ i, f i := by
    intro f
    exact Fintype.sum_equiv (Equiv.subtypeUnivEquiv (fun _ => rfl)) _ _ (fun _ => rfl)
  have hE : 0 ≤ ∑ i, (exp i - mean exp) ^ 2 := (energy_pos he).le
  unfold nccSingle ncc dotPatterns zeroMeanNormalize
  simp only [hm]
  unfold maskPattern
  rw [hs (fun i => (exp i - mean exp) ^ 2), hs (fun i => (sim i - mean sim) ^ 2),
    hs (fun i => (exp i - mean exp) / Real.sqrt (∑ i, (exp i - mean exp) ^ 2) *
      ((sim i - mean sim) / Real.sqrt (∑ i, (sim i - mean sim) ^ 2))),
    Real.sqrt_mul hE, sum_div]
  apply sum_congr rfl
  intro i _
  rw [div_mul_div_comm]

/-- C24: NDP scores are in [-1, 1], and in [0, 1] for non-negative patterns. -/
theorem C24_ndp_bounds (mask : ι → Bool) (a b : ι → ℝ) (ha : ∃ i, mask i = false ∧ a i ≠ 0)
    (hb : ∃ i, mask i = false ∧ b i ≠ 0) :
    (-1 ≤ ndp mask a b ∧ ndp mask a b ≤ 1) ∧
    ((∀ i, 0 ≤ a i) → (∀ i, 0 ≤ b i) → 0 ≤ ndp mask a b) := by
  have ha' : ∃ i, maskPattern mask a i ≠ 0 := ⟨⟨ha.choose, ha.choose_spec.1⟩, ha.choose_spec.2⟩
  have hb' : ∃ i, maskPattern mask b i ≠ 0 := ⟨⟨hb.choose, hb.choose_spec.1⟩, hb.choose_spec.2⟩
  refine ⟨dot_bounds (sum_sq_normalizePattern ha') (sum_sq_normalizePattern hb'), ?_⟩
  intro h1 h2
  apply sum_nonneg
  intro i _
  exact mul_nonneg (div_nonneg (h1 i.1) (Real.sqrt_nonneg _))
    (div_nonneg (h2 i.1) (Real.sqrt_nonneg _))

/-- C24: the NDP is 1 exactly if one pattern is a positive multiple of the other; and it is
unchanged by positive scaling of either pattern and by swapping them. -/
theorem C24_ndp_scaling (mask : ι → Bool) (a b : ι → ℝ) (ha : ∃ i, mask i = false ∧ a i ≠ 0)
    (hb : ∃ i, mask i = false ∧ b i ≠ 0) :
    (ndp mask a b = 1 ↔ ∃ g : ℝ, 0 < g ∧ ∀ i, mask i = false → b i = g * a i) ∧
    ndp mask a b = ndp mask b a ∧
    (∀ g : ℝ, 0 < g → ndp mask (fun i => g * a i) b = ndp mask a b) := by
  have ha' : ∃ i, maskPattern mask a i ≠ 0 := ⟨⟨ha.choose, ha.choose_spec.1⟩, ha.choose_spec.2⟩
  have hb' : ∃ i, maskPattern mask b i ≠ 0 := ⟨⟨hb.choose, hb.choose_spec.1⟩, hb.choose_spec.2⟩
  have pos : ∀ q : Kept mask → ℝ, (∃ i, q i ≠ 0) → 0 < Real.sqrt (∑ j, q j ^ 2) := by
    rintro q ⟨k, hk⟩
    exact Real.sqrt_pos.2 (sum_pos' (fun i _ => sq_nonneg _) ⟨k, mem_univ k, by positivity⟩)
  have scale : ∀ (g : ℝ) (q : Kept mask → ℝ), 0 < g →
      normalizePattern (fun i => g * q i) = normalizePattern q := by
    intro g q hg
    funext i
    unfold normalizePattern
    have : ∑ j, (g * q j) ^ 2 = g ^ 2 * ∑ j, q j ^ 2 := by
      rw [mul_sum]; apply sum_congr rfl; intro i _; ring
    rw [this, Real.sqrt_mul (sq_nonneg g), Real.sqrt_sq hg.le, mul_div_mul_left _ _ hg.ne']
  refine ⟨⟨?_, ?_⟩, ?_, ?_⟩
  · intro h
    have heq := dot_eq_one (sum_sq_normalizePattern ha') (sum_sq_normalizePattern hb') h
    refine ⟨Real.sqrt (∑ j, maskPattern mask b j ^ 2) / Real.sqrt (∑ j, maskPattern mask a j ^ 2),
      div_pos (pos _ hb') (pos _ ha'), ?_⟩
    intro i hi
    have := congrFun heq ⟨i, hi⟩
    unfold normalizePattern at this
    have p1 := pos _ ha'
    have p2 := pos _ hb'
    have e1 : maskPattern mask a ⟨i, hi⟩ = a i := rfl
    have e2 : maskPattern mask b ⟨i, hi⟩ = b i := rfl
    rw [e1, e2] at this
    field_simp at this ⊢
    linarith
  · rintro ⟨g, hg, h⟩
    have hb' : maskPattern mask b = fun i => g * maskPattern mask a i := by
      funext i; exact h i.1 i.2
    unfold ndp
    rw [hb', scale g _ hg]
    have := sum_sq_normalizePattern ha'
    unfold dotPatterns
    rw [← this]
    apply sum_congr rfl
    intro i _; ring
  · unfold ndp dotPatterns
    apply sum_congr rfl; intro i _; ring
  · intro g hg
    unfold ndp
    have : maskPattern mask (fun i => g * a i) = fun i => g * maskPattern mask a i := rfl
    rw [this, scale g _ hg]

end

-- Concrete cases meeting the hypotheses
example : NonConst (![0, 1, 3] : Fin 3 → ℝ) := ⟨0, 1, by simp⟩
example : NonConst (maskPattern (![false, true, false] : Fin 3 → Bool) (![0, 1, 3] : Fin 3 → ℝ)) :=
  ⟨⟨0, rfl⟩, ⟨2, rfl⟩, by simp [maskPattern]⟩
example : ncc (fun _ => false) (![0, 1, 3] : Fin 3 → ℝ) (![1, 3, 7] : Fin 3 → ℝ) = 1 := by
  rw [C24_ncc_eq_one_iff]
  · refine ⟨2, 1, by norm_num, ?_⟩
    intro i _
    fin_cases i <;> norm_num
  · exact ⟨⟨0, rfl⟩, ⟨1, rfl⟩, by simp [maskPattern]⟩
  · exact ⟨⟨0, rfl⟩, ⟨1, rfl⟩, by simp [maskPattern]⟩
example : ∃ i, (![false, true, false] : Fin 3 → Bool) i = false ∧ (![0, 1, 3] : Fin 3 → ℝ) i ≠ 0 :=
  ⟨2, rfl, by simp⟩

end Kp
