import Verif.Spec.FloatMasterPattern
import Verif.Lemmas.FloatSimilarity
import Verif.Props.EmsoftMasterPattern

/-! Sums of non-negative floating point numbers. -/

namespace Kp

local notation "fl" => MetricType.fl MetricType.float32

theorem fl32_mono {x y : ℝ} (h : x ≤ y) : fl x ≤ fl y := binaryRound_mono (by decide) _ h

/-- Addition of two numbers of the type has a small relative error, also when they are tiny. -/
theorem fl32_add_error {x y : ℝ} (hx : fl x = x) (hy : fl y = y) :
    |fl (x + y) - (x + y)| ≤ 1 / 2 ^ 24 * |x + y| := by
  by_cases h : (2 : ℝ) ^ ((-149 : ℤ) + (24 : ℕ) - 1) ≤ |x + y|
  · have := binaryRound_error 24 (-149) h
    have e : (2 : ℝ) ^ (-((24 : ℕ) : ℤ)) = 1 / 2 ^ 24 := by norm_num
    rw [e] at this
    exact this
  · push Not at h
    obtain ⟨m, j, hj, -, em⟩ := binaryRound_multiple 24 (-149) x
    obtain ⟨m', j', hj', -, em'⟩ := binaryRound_multiple 24 (-149) y
    have ex : x = m * 2 ^ j := by rw [← em]; exact hx.symm
    have ey : y = m' * 2 ^ j' := by rw [← em']; exact hy.symm
    obtain ⟨i, rfl⟩ : ∃ i : ℕ, j = -149 + i := ⟨(j + 149).toNat, by omega⟩
    obtain ⟨i', rfl⟩ : ∃ i' : ℕ, j' = -149 + i' := ⟨(j' + 149).toNat, by omega⟩
    have e : x + y = ((m * 2 ^ i + m' * 2 ^ i' : ℤ) : ℝ) * 2 ^ (-149 : ℤ) := by
      rw [ex, ey, zpow_add₀ (by norm_num), zpow_add₀ (by norm_num)]
      push_cast
      rw [zpow_natCast, zpow_natCast]
      ring
    have exact : fl (x + y) = x + y := by
      rw [e]
      refine binaryRound_format (by decide) le_rfl ?_
      rw [← e]
      refine h.le.trans ?_
      exact zpow_le_zpow_right₀ (by norm_num) (by norm_num [MetricType.digits])
    rw [exact, sub_self, abs_zero]
    positivity

/-- A sum of non-negative numbers of the type, in any order: it is a number of the type, at least as
large as each of the numbers, and its relative error is small. -/
theorem sum32_bounds {a : ℕ → ℝ} (s : SumOrder ℕ) (ha : ∀ i ∈ s.pixels, 0 ≤ a i ∧ fl (a i) = a i) :
    fl (s.eval fl a fun _ => 1) = s.eval fl a (fun _ => 1) ∧
    (∀ i ∈ s.pixels, a i ≤ s.eval fl a fun _ => 1) ∧
    0 ≤ (s.pixels.map a).sum ∧
    (1 - 1 / 2 ^ 24) ^ (s.pixels.length - 1) * (s.pixels.map a).sum ≤ s.eval fl a (fun _ => 1) ∧
    s.eval fl a (fun _ => 1) ≤ (1 + 1 / 2 ^ 24) ^ (s.pixels.length - 1) * (s.pixels.map a).sum := by
  have step : ∀ {x y A B : ℝ} {k k' : ℕ}, fl x = x → fl y = y → 0 ≤ A → 0 ≤ B → 1 ≤ k → 1 ≤ k' →
      (1 - 1 / 2 ^ 24) ^ (k - 1) * A ≤ x → x ≤ (1 + 1 / 2 ^ 24) ^ (k - 1) * A →
      (1 - 1 / 2 ^ 24) ^ (k' - 1) * B ≤ y → y ≤ (1 + 1 / 2 ^ 24) ^ (k' - 1) * B →
      fl (fl (x + y)) = fl (x + y) ∧ x ≤ fl (x + y) ∧ y ≤ fl (x + y) ∧
      (1 - 1 / 2 ^ 24) ^ (k + k' - 1) * (A + B) ≤ fl (x + y) ∧
      fl (x + y) ≤ (1 + 1 / 2 ^ 24) ^ (k + k' - 1) * (A + B) := by
    intro x y A B k k' hx hy hA hB hk hk' x1 x2 y1 y2
    obtain ⟨k, rfl⟩ : ∃ i, k = i + 1 := ⟨k - 1, by omega⟩
    obtain ⟨k', rfl⟩ : ∃ i, k' = i + 1 := ⟨k' - 1, by omega⟩
    rw [show k + 1 + (k' + 1) - 1 = k + k' + 1 by omega]
    simp only [Nat.add_sub_cancel] at x1 x2 y1 y2
    set d : ℝ := 1 - 1 / 2 ^ 24 with hd
    set g : ℝ := 1 + 1 / 2 ^ 24 with hg
    have d0 : 0 < d := by rw [hd]; norm_num
    have d1 : d ≤ 1 := by rw [hd]; norm_num
    have g1 : 1 ≤ g := by rw [hg]; norm_num
    have x0 : 0 ≤ x := (mul_nonneg (pow_nonneg d0.le _) hA).trans x1
    have y0 : 0 ≤ y := (mul_nonneg (pow_nonneg d0.le _) hB).trans y1
    have h := fl32_add_error hx hy
    rw [abs_of_nonneg (add_nonneg x0 y0)] at h
    obtain ⟨h1, h2⟩ := abs_le.mp h
    refine ⟨binaryRound_idem (by decide) _ _, ?_, ?_, ?_, ?_⟩
    · conv_lhs => rw [← hx]
      exact fl32_mono (by linarith)
    · conv_lhs => rw [← hy]
      exact fl32_mono (by linarith)
    · have p1 : d ^ (k + k') ≤ d ^ k := pow_le_pow_of_le_one d0.le d1 (by omega)
      have p2 : d ^ (k + k') ≤ d ^ k' := pow_le_pow_of_le_one d0.le d1 (by omega)
      have q1 := (mul_le_mul_of_nonneg_right p1 hA).trans x1
      have q2 := (mul_le_mul_of_nonneg_right p2 hB).trans y1
      have q : d * (d ^ (k + k') * A + d ^ (k + k') * B) ≤ d * (x + y) :=
        mul_le_mul_of_nonneg_left (add_le_add q1 q2) d0.le
      calc d ^ (k + k' + 1) * (A + B) = d * (d ^ (k + k') * A + d ^ (k + k') * B) := by ring
        _ ≤ d * (x + y) := q
        _ ≤ fl (x + y) := by rw [hd]; linarith
    · have p1 : g ^ k ≤ g ^ (k + k') := pow_le_pow_right₀ g1 (by omega)
      have p2 : g ^ k' ≤ g ^ (k + k') := pow_le_pow_right₀ g1 (by omega)
      have q1 := x2.trans (mul_le_mul_of_nonneg_right p1 hA)
      have q2 := y2.trans (mul_le_mul_of_nonneg_right p2 hB)
      have q : g * (x + y) ≤ g * (g ^ (k + k') * A + g ^ (k + k') * B) :=
        mul_le_mul_of_nonneg_left (add_le_add q1 q2) (by linarith)
      calc fl (x + y) ≤ g * (x + y) := by rw [hg]; linarith
        _ ≤ g * (g ^ (k + k') * A + g ^ (k + k') * B) := q
        _ = g ^ (k + k' + 1) * (A + B) := by ring
  induction s with
  | term i =>
    obtain ⟨h0, h1⟩ := ha i (by simp [SumOrder.pixels])
    simp only [SumOrder.eval, SumOrder.pixels, mul_one, h1, List.mem_singleton, forall_eq, le_refl,
      List.map_cons, List.map_nil, List.sum_cons, List.sum_nil, add_zero, List.length_singleton,
      Nat.sub_self, pow_zero, one_mul, h0, and_self]
  | plus l r ihl ihr =>
    obtain ⟨l1, l2, l3, l4, l5⟩ := ihl fun i hi => ha i (by simp [SumOrder.pixels, hi])
    obtain ⟨r1, r2, r3, r4, r5⟩ := ihr fun i hi => ha i (by simp [SumOrder.pixels, hi])
    obtain ⟨s1, s2, s3, s4, s5⟩ := step l1 r1 l3 r3 l.pixels_pos r.pixels_pos l4 l5 r4 r5
    simp only [SumOrder.eval, SumOrder.pixels, List.map_append, List.sum_append, List.length_append]
    refine ⟨s1, ?_, add_nonneg l3 r3, s4, s5⟩
    intro i hi
    rcases List.mem_append.mp hi with hi | hi
    · exact (l2 i hi).trans s2
    · exact (r2 i hi).trans s3
  | fused l j ihl =>
    obtain ⟨l1, l2, l3, l4, l5⟩ := ihl fun i hi => ha i (by simp [SumOrder.pixels, hi])
    obtain ⟨h0, h1⟩ := ha j (by simp [SumOrder.pixels])
    obtain ⟨s1, s2, s3, s4, s5⟩ := step (k' := 1) l1 h1 l3 h0 l.pixels_pos le_rfl l4 l5
      (by simp) (by simp)
    simp only [SumOrder.eval, SumOrder.pixels, List.map_append, List.sum_append, List.length_append,
      mul_one, List.map_cons, List.map_nil, List.sum_cons, List.sum_nil, add_zero,
      List.length_singleton]
    refine ⟨s1, ?_, add_nonneg l3 h0, s4, s5⟩
    intro i hi
    rcases List.mem_append.mp hi with hi | hi
    · exact (l2 i hi).trans s2
    · rw [List.mem_singleton.mp hi]
      exact s3

/-- A sum of one or two numbers of the type is their rounded sum. -/
theorem sum32_two {a : ℕ → ℝ} (s : SumOrder ℕ) (ha : ∀ i ∈ s.pixels, fl (a i) = a i)
    (h : s.pixels.length ≤ 2) : s.eval fl a (fun _ => 1) = fl (s.pixels.map a).sum := by
  match s, ha, h with
  | .term i, ha, _ => simp [SumOrder.eval, SumOrder.pixels]
  | .plus (.term i) (.term j), ha, _ =>
    have hi := ha i (by simp [SumOrder.pixels])
    have hj := ha j (by simp [SumOrder.pixels])
    simp only [SumOrder.eval, SumOrder.pixels, mul_one, hi, hj, List.map_append, List.sum_append,
      List.map_cons, List.map_nil, List.sum_cons, List.sum_nil, add_zero]
  | .fused (.term i) j, ha, _ =>
    have hi := ha i (by simp [SumOrder.pixels])
    simp only [SumOrder.eval, SumOrder.pixels, mul_one, hi, List.map_append, List.sum_append,
      List.map_cons, List.map_nil, List.sum_cons, List.sum_nil, add_zero]
  | .plus (.plus p q) r, _, h =>
    have := p.pixels_pos
    have := q.pixels_pos
    have := r.pixels_pos
    simp only [SumOrder.pixels, List.length_append] at h
    omega
  | .plus (.fused p i) r, _, h =>
    have := p.pixels_pos
    have := r.pixels_pos
    simp only [SumOrder.pixels, List.length_append, List.length_singleton] at h
    omega
  | .plus (.term i) (.plus p q), _, h =>
    have := p.pixels_pos
    have := q.pixels_pos
    simp only [SumOrder.pixels, List.length_append, List.length_singleton] at h
    omega
  | .plus (.term i) (.fused p j), _, h =>
    have := p.pixels_pos
    simp only [SumOrder.pixels, List.length_append, List.length_singleton] at h
    omega
  | .fused (.plus p q) j, _, h =>
    have := p.pixels_pos
    have := q.pixels_pos
    simp only [SumOrder.pixels, List.length_append, List.length_singleton] at h
    omega
  | .fused (.fused p i) j, _, h =>
    have := p.pixels_pos
    simp only [SumOrder.pixels, List.length_append, List.length_singleton] at h
    omega

end Kp
