import Verif.Lemmas.FloatLambert
import Mathlib.Tactic.Positivity

/-
C105: simulating patterns in floating point numbers never reads outside the master pattern.
-/

namespace Kp

/-- A computed direction: its components are floating point numbers, and its length is one up to
rounding errors. -/
structure Spec.FloatDirection (v : V3 ℝ) : Prop where
  float_x : fl64 v.x = v.x
  float_y : fl64 v.y = v.y
  float_z : fl64 v.z = v.z
  unit : |v.x ^ 2 + v.y ^ 2 + v.z ^ 2 - 1| ≤ 1 / 2 ^ 30

/-- The library's `arctan` is accurate to a few units in the last place, where the result is largest:
on the interval from -1 to 1 it is not larger than 45°. -/
def Spec.AccurateArctan (atan : ℝ → ℝ) : Prop :=
  ∀ q, |q| ≤ 1 → |atan q - Real.arctan q| ≤ 1 / 2 ^ 50 * |Real.arctan q|

/-! ### The length of a vector -/

theorem ulp_pos : 0 < ulp := by unfold ulp; positivity

theorem fl64_ge_of_le {a x : ℝ} (h : a ≤ x) (ha : fl64 a = a) : a ≤ fl64 x := by
  rw [← ha]; exact fl64_mono h

theorem fl64_le_of_le {a x : ℝ} (h : x ≤ a) (ha : fl64 a = a) : fl64 x ≤ a := by
  rw [← ha]; exact fl64_mono h

theorem fl64_nat {k : ℕ} (hk : k ≤ 2 ^ 53) : fl64 (k : ℝ) = k := by
  have := fl64_int (m := k) (by
    rw [abs_of_nonneg (by positivity)]
    exact_mod_cast hk)
  exact_mod_cast this

/-- The computed sum of squares is at least the computed square of each component. -/
theorem sumSquaresFl_ge (fused : Bool) (v : V3 ℝ) :
    fl64 (v.x * v.x) ≤ sumSquaresFl fused v ∧ fl64 (v.y * v.y) ≤ sumSquaresFl fused v ∧
      fl64 (v.z * v.z) ≤ sumSquaresFl fused v := by
  have hx : 0 ≤ fl64 (v.x * v.x) := fl64_nonneg (mul_self_nonneg _)
  have hy : 0 ≤ fl64 (v.y * v.y) := fl64_nonneg (mul_self_nonneg _)
  have hz : 0 ≤ fl64 (v.z * v.z) := fl64_nonneg (mul_self_nonneg _)
  unfold sumSquaresFl
  split_ifs
  · have h1 : fl64 (v.x * v.x) ≤ fl64 (v.y * v.y + fl64 (v.x * v.x)) :=
      fl64_ge_of_le (by linarith [mul_self_nonneg v.y]) (fl64_idem _)
    have h2 : fl64 (v.y * v.y) ≤ fl64 (v.y * v.y + fl64 (v.x * v.x)) := fl64_mono (by linarith)
    have h3 : fl64 (v.y * v.y + fl64 (v.x * v.x)) ≤
        fl64 (v.z * v.z + fl64 (v.y * v.y + fl64 (v.x * v.x))) :=
      fl64_ge_of_le (by linarith [mul_self_nonneg v.z]) (fl64_idem _)
    exact ⟨h1.trans h3, h2.trans h3, fl64_mono (by linarith)⟩
  · have h1 : fl64 (v.x * v.x) ≤ fl64 (fl64 (v.x * v.x) + fl64 (v.y * v.y)) :=
      fl64_ge_of_le (by linarith) (fl64_idem _)
    have h2 : fl64 (v.y * v.y) ≤ fl64 (fl64 (v.x * v.x) + fl64 (v.y * v.y)) :=
      fl64_ge_of_le (by linarith) (fl64_idem _)
    have h3 : fl64 (fl64 (v.x * v.x) + fl64 (v.y * v.y)) ≤
        fl64 (fl64 (fl64 (v.x * v.x) + fl64 (v.y * v.y)) + fl64 (v.z * v.z)) :=
      fl64_ge_of_le (by linarith) (fl64_idem _)
    exact ⟨h1.trans h3, h2.trans h3, fl64_ge_of_le (by linarith) (fl64_idem _)⟩

theorem sumSquaresFl_le (fused : Bool) (v : V3 ℝ) (hx : v.x * v.x ≤ 4) (hy : v.y * v.y ≤ 4)
    (hz : v.z * v.z ≤ 4) : sumSquaresFl fused v ≤ 16 := by
  have f4 : fl64 4 = 4 := by simpa using fl64_nat (k := 4) (by norm_num)
  have f8 : fl64 8 = 8 := by simpa using fl64_nat (k := 8) (by norm_num)
  have f16 : fl64 16 = 16 := by simpa using fl64_nat (k := 16) (by norm_num)
  have gx := fl64_le_of_le hx f4
  have gy := fl64_le_of_le hy f4
  have gz := fl64_le_of_le hz f4
  unfold sumSquaresFl
  split_ifs
  · have := fl64_le_of_le (show v.y * v.y + fl64 (v.x * v.x) ≤ 8 by linarith) f8
    exact fl64_le_of_le (by linarith) f16
  · have := fl64_le_of_le (show fl64 (v.x * v.x) + fl64 (v.y * v.y) ≤ 8 by linarith) f8
    exact fl64_le_of_le (by linarith) f16

/-- The computed norm. -/
noncomputable def normFl (fused : Bool) (v : V3 ℝ) : ℝ := fl64 (Real.sqrt (sumSquaresFl fused v))

theorem fl64_half : fl64 (1 / 2) = 1 / 2 := by
  have := fl64_zpow (k := -1) (by norm_num)
  simpa using this

theorem norm_ge {c s : ℝ} (hc : fl64 c = c) (h : 1 / 2 ≤ |c|) (hs : fl64 (c * c) ≤ s) :
    |c| ≤ fl64 (Real.sqrt s) := by
  have e : fl64 |c| = |c| := by rw [← fl64_abs, hc]
  have := fl64_sqrt_sq e h
  rw [abs_mul_abs_self] at this
  rw [← this]
  exact fl64_mono (Real.sqrt_le_sqrt hs)

/-- What is known of the computed norm of a direction: no component is larger. -/
theorem normFl_spec (fused : Bool) {v : V3 ℝ} (h : Spec.FloatDirection v) :
    1 / 2 ≤ normFl fused v ∧ normFl fused v ≤ 4 ∧ |v.x| ≤ normFl fused v ∧ |v.y| ≤ normFl fused v ∧
      |v.z| ≤ normFl fused v := by
  obtain ⟨hx, hy, hz, hu⟩ := h
  rw [abs_le] at hu
  obtain ⟨u1, u2⟩ := hu
  norm_num at u1 u2
  obtain ⟨gx, gy, gz⟩ := sumSquaresFl_ge fused v
  have le := sumSquaresFl_le fused v (by nlinarith) (by nlinarith) (by nlinarith)
  have up : normFl fused v ≤ 4 := by
    refine fl64_le_of_le ?_ (by simpa using fl64_nat (k := 4) (by norm_num))
    rw [Real.sqrt_le_left (by norm_num)]
    linarith
  have big : 1 / 2 ≤ |v.x| ∨ 1 / 2 ≤ |v.y| ∨ 1 / 2 ≤ |v.z| := by
    by_contra hc
    push Not at hc
    obtain ⟨a, b, c⟩ := hc
    rw [abs_lt] at a b c
    nlinarith
  have half : 1 / 2 ≤ normFl fused v := by
    rcases big with b | b | b
    · exact b.trans (norm_ge hx b gx)
    · exact b.trans (norm_ge hy b gy)
    · exact b.trans (norm_ge hz b gz)
  have key : ∀ {c : ℝ}, fl64 c = c → fl64 (c * c) ≤ sumSquaresFl fused v → |c| ≤ normFl fused v := by
    intro c hc hs
    rcases le_or_gt (1 / 2) |c| with b | b
    · exact norm_ge hc b hs
    · linarith
  exact ⟨half, up, key hx gx, key hy gy, key hz gz⟩

/-- The norm of a direction along z is its z component. -/
theorem normFl_tiny (fused : Bool) {v : V3 ℝ} (h : Spec.FloatDirection v) (hx : |v.x| < 2 ^ (-1000 : ℤ))
    (hy : |v.y| < 2 ^ (-1000 : ℤ)) : normFl fused v = |v.z| ∧ |(|v.z| - 1)| ≤ 1 / 2 ^ 29 := by
  obtain ⟨_, _, hz, hu⟩ := h
  have e : (2 : ℝ) ^ (-1000 : ℤ) * 2 ^ (-1000 : ℤ) = 2 ^ (-2000 : ℤ) := by
    rw [← zpow_add₀ (by norm_num)]; norm_num
  have small : ∀ c : ℝ, |c| < 2 ^ (-1000 : ℤ) → c * c < 2 ^ (-2000 : ℤ) := by
    intro c hc
    rw [← abs_mul_abs_self, ← e]
    exact mul_self_lt_mul_self (abs_nonneg _) hc
  have tiny : (2 : ℝ) ^ (-2000 : ℤ) ≤ 2 ^ (-1080 : ℤ) := zpow_le_zpow_right₀ (by norm_num) (by norm_num)
  have tiny2 : (2 : ℝ) ^ (-2000 : ℤ) ≤ 2 ^ (-40 : ℤ) := zpow_le_zpow_right₀ (by norm_num) (by norm_num)
  have sx := small _ hx
  have sy := small _ hy
  have fx := fl64_tiny (mul_self_nonneg v.x) (sx.trans_le tiny)
  have fy := fl64_tiny (mul_self_nonneg v.y) (sy.trans_le tiny)
  have hs : sumSquaresFl fused v = fl64 (v.z * v.z) := by
    unfold sumSquaresFl
    split_ifs
    · rw [fx, add_zero, fy, add_zero]
    · rw [fx, fy, add_zero, fl64_zero, zero_add, fl64_idem]
  have tx := sx.trans_le tiny2
  have ty := sy.trans_le tiny2
  norm_num at tx ty hu
  rw [abs_le] at hu
  have z1 : |(|v.z| - 1)| ≤ 1 / 2 ^ 29 := by
    have hz2 : v.z ^ 2 = |v.z| ^ 2 := (sq_abs _).symm
    have := abs_nonneg v.z
    rw [abs_le]
    constructor
    · by_contra hc
      push Not at hc
      norm_num at hc
      nlinarith
    · by_contra hc
      push Not at hc
      norm_num at hc
      nlinarith
  refine ⟨?_, z1⟩
  unfold normFl
  rw [hs]
  have e2 : fl64 |v.z| = |v.z| := by rw [← fl64_abs, hz]
  have h2 : 1 / 2 ≤ |v.z| := by
    rw [abs_le] at z1
    norm_num at z1
    linarith
  have := fl64_sqrt_sq e2 h2
  rwa [abs_mul_abs_self] at this

/-- A number close to one times its computed reciprocal is computed as one. -/
theorem fl64_mul_recip {z : ℝ} (hz : fl64 z = z) (h : |z - 1| ≤ 1 / 2 ^ 29) :
    fl64 (z * fl64 (1 / z)) = 1 := by
  rw [abs_le] at h
  obtain ⟨h1, h2⟩ := h
  norm_num at h1 h2
  have hz0 : 0 < z := by linarith
  have up : z * fl64 (1 / z) ≤ 1 + ulp := by
    have := fl64_le (x := 1 / z) (by
      rw [le_div_iff₀ hz0]; norm_num; linarith)
    have h3 : z * fl64 (1 / z) ≤ z * (1 / z * (1 + ulp)) := mul_le_mul_of_nonneg_left this hz0.le
    have h4 : z * (1 / z * (1 + ulp)) = 1 + ulp := by field_simp
    linarith
  refine le_antisymm (fl64_above_one up) ?_
  -- it is enough that the product is not further below one than half a unit
  suffices hlo : 1 - ulp / 4 ≤ z * fl64 (1 / z) by
    have : fl64 (1 - ulp / 4) = 1 := by
      have hb := binaryRound_eq (K := ℝ) (p := 53) (emin := -1074) (e := -1) (x := 1 - ulp / 4) (2 ^ 53)
        (by unfold ulp; norm_num) (by unfold ulp; norm_num) (by norm_num)
        (by unfold ulp; norm_num [abs_lt])
      unfold fl64
      rw [hb]
      norm_num
    exact this.symm.le.trans (fl64_mono hlo)
  rcases lt_trichotomy z 1 with hlt | rfl | hgt
  · -- below one: z = 1 - k * ulp
    have hlog : Int.log 2 |z| = -1 := by
      rw [abs_of_pos hz0]
      apply le_antisymm
      · rw [← Int.lt_add_one_iff, ← Int.lt_zpow_iff_log_lt (b := 2) one_lt_two hz0]
        norm_num; linarith
      · rw [← Int.zpow_le_iff_le_log (b := 2) one_lt_two hz0]
        norm_num; linarith
    have hl : lastDigit 53 (-1074) z = -53 := by
      unfold lastDigit; rw [hlog]; norm_num
    obtain ⟨M, hM⟩ : ∃ M : ℤ, z = M * ulp := by
      refine ⟨roundEven (z / 2 ^ (-53 : ℤ)), ?_⟩
      have : fl64 z = roundEven (z / 2 ^ lastDigit 53 (-1074) z) * 2 ^ lastDigit 53 (-1074) z := rfl
      rw [hz, hl] at this
      rw [ulp]
      convert this using 2
      norm_num
    obtain ⟨k, hk⟩ : ∃ k : ℤ, z = 1 - k * ulp := by
      refine ⟨2 ^ 53 - M, ?_⟩
      rw [hM]
      push_cast
      unfold ulp
      ring
    have kpos : 1 ≤ k := by
      have : (0 : ℝ) < k := by
        by_contra hc
        push Not at hc
        have := mul_nonneg (neg_nonneg.mpr hc) ulp_pos.le
        linarith
      exact_mod_cast this
    have kr : (1 : ℝ) ≤ k := by exact_mod_cast kpos
    have kle : (k : ℝ) ≤ 2 ^ 24 := by
      have h5 : (k : ℝ) * ulp ≤ 1 / 2 ^ 29 := by rw [hk] at h1; norm_num; linarith
      unfold ulp at h5
      norm_num at h5 ⊢
      linarith
    -- the reciprocal exceeds 1 + k * ulp by less than a unit
    have hinv : 1 / z = 1 + k * ulp + k ^ 2 * ulp ^ 2 / z := by
      field_simp
      rw [hk]; ring
    have hex0 : 0 < (k : ℝ) ^ 2 * ulp ^ 2 / z := by
      have := ulp_pos
      positivity
    have hex1 : (k : ℝ) ^ 2 * ulp ^ 2 / z < ulp / 2 := by
      rw [div_lt_iff₀ hz0]
      have h6 : (k : ℝ) ^ 2 ≤ 2 ^ 48 := by nlinarith
      have h7 : (k : ℝ) ^ 2 * ulp ^ 2 ≤ 2 ^ 48 * ulp ^ 2 := mul_le_mul_of_nonneg_right h6 (by positivity)
      have h8 : (2 : ℝ) ^ 48 * ulp ^ 2 < ulp / 2 * (1 / 2) := by unfold ulp; norm_num
      have h9 : ulp / 2 * (1 / 2) ≤ ulp / 2 * z :=
        mul_le_mul_of_nonneg_left (by linarith) (by have := ulp_pos; linarith)
      linarith
    have ku : (k : ℝ) * ulp ≤ 1 / 4 := by
      have := mul_le_mul_of_nonneg_right kle ulp_pos.le
      have h10 : (2 : ℝ) ^ 24 * ulp ≤ 1 / 4 := by unfold ulp; norm_num
      linarith
    have hk0 : 0 ≤ (k : ℝ) * ulp := mul_nonneg (by linarith) ulp_pos.le
    have hu8 : ulp ≤ 1 / 8 := by unfold ulp; norm_num
    -- the reciprocal is rounded to the even one of k and k + 1
    rcases Int.even_or_odd k with ⟨q, hq⟩ | ⟨q, hq⟩
    · have hr : fl64 (1 / z) = 1 + k * ulp := by
        have hb := binaryRound_eq (K := ℝ) (p := 53) (emin := -1074) (e := 0) (x := 1 / z) (2 ^ 52 + q)
          (by rw [hinv, zpow_zero]; linarith) (by rw [hinv]; norm_num; linarith) (by norm_num)
          (by
            rw [hinv]
            have : (1 + k * ulp + k ^ 2 * ulp ^ 2 / z) / 2 ^ ((0 : ℤ) - ((53 : ℕ) : ℤ) + 1) -
                ((2 ^ 52 + q : ℤ) : ℝ) = (k ^ 2 * ulp ^ 2 / z) * 2 ^ 52 := by
              rw [hq]; push_cast; unfold ulp; norm_num; ring
            rw [this, abs_of_pos (by positivity)]
            have : ulp / 2 * 2 ^ 52 ≤ 1 / 2 := by unfold ulp; norm_num
            nlinarith)
        unfold fl64
        rw [hb, hq]
        push_cast
        unfold ulp
        norm_num
        ring
      rw [hr, hk]
      have h11 : (1 - (k : ℝ) * ulp) * (1 + k * ulp) = 1 - k ^ 2 * ulp ^ 2 := by ring
      rw [h11]
      have h6 : (k : ℝ) ^ 2 ≤ 2 ^ 48 := by nlinarith
      have h7 : (k : ℝ) ^ 2 * ulp ^ 2 ≤ 2 ^ 48 * ulp ^ 2 := mul_le_mul_of_nonneg_right h6 (by positivity)
      have h8 : (2 : ℝ) ^ 48 * ulp ^ 2 ≤ ulp / 4 := by unfold ulp; norm_num
      linarith
    · have hr : fl64 (1 / z) = 1 + (k + 1) * ulp := by
        have hb := binaryRound_eq (K := ℝ) (p := 53) (emin := -1074) (e := 0) (x := 1 / z) (2 ^ 52 + (q + 1))
          (by rw [hinv, zpow_zero]; linarith) (by rw [hinv]; norm_num; linarith) (by norm_num)
          (by
            rw [hinv]
            have : (1 + k * ulp + k ^ 2 * ulp ^ 2 / z) / 2 ^ ((0 : ℤ) - ((53 : ℕ) : ℤ) + 1) -
                ((2 ^ 52 + (q + 1) : ℤ) : ℝ) = (k ^ 2 * ulp ^ 2 / z) * 2 ^ 52 - 1 / 2 := by
              rw [hq]; push_cast; unfold ulp; norm_num; ring
            rw [this, abs_lt]
            have h12 : ulp / 2 * 2 ^ 52 ≤ 1 / 2 := by unfold ulp; norm_num
            constructor <;> nlinarith)
        unfold fl64
        rw [hb, hq]
        push_cast
        unfold ulp
        norm_num
        ring
      rw [hr, hk]
      have h11 : (1 - (k : ℝ) * ulp) * (1 + (k + 1) * ulp) = 1 + ulp - (k * ulp) * ((k + 1) * ulp) := by
        ring
      rw [h11]
      have h12 : (k : ℝ) * ulp ≤ 1 / 4 := ku
      have h13 : ((k : ℝ) + 1) * ulp ≤ 2 ^ 25 * ulp := by
        apply mul_le_mul_of_nonneg_right _ ulp_pos.le
        norm_num; linarith
      have h14 : (k : ℝ) * ulp ≤ 2 ^ 24 * ulp := mul_le_mul_of_nonneg_right kle ulp_pos.le
      have h15 : (k : ℝ) * ulp * ((k + 1) * ulp) ≤ 2 ^ 24 * ulp * (2 ^ 25 * ulp) :=
        mul_le_mul h14 h13 (mul_nonneg (by linarith) ulp_pos.le) (by have := ulp_pos; positivity)
      have h16 : (2 : ℝ) ^ 24 * ulp * (2 ^ 25 * ulp) ≤ ulp := by unfold ulp; norm_num
      have := ulp_pos
      linarith
  · rw [div_one, fl64_one]
    have := ulp_pos
    linarith
  · -- above one: z = 1 + 2 * k * ulp
    have hlog : Int.log 2 |z| = 0 := by
      rw [abs_of_pos hz0]
      apply le_antisymm
      · rw [← Int.lt_add_one_iff, ← Int.lt_zpow_iff_log_lt (b := 2) one_lt_two hz0]
        norm_num; linarith
      · rw [← Int.zpow_le_iff_le_log (b := 2) one_lt_two hz0]
        norm_num; linarith
    have hl : lastDigit 53 (-1074) z = -52 := by
      unfold lastDigit; rw [hlog]; norm_num
    obtain ⟨M, hM⟩ : ∃ M : ℤ, z = M * (2 * ulp) := by
      refine ⟨roundEven (z / 2 ^ (-52 : ℤ)), ?_⟩
      have : fl64 z = roundEven (z / 2 ^ lastDigit 53 (-1074) z) * 2 ^ lastDigit 53 (-1074) z := rfl
      rw [hz, hl] at this
      rw [ulp]
      convert this using 2
      norm_num
    obtain ⟨k, hk⟩ : ∃ k : ℤ, z = 1 + k * (2 * ulp) := by
      refine ⟨M - 2 ^ 52, ?_⟩
      rw [hM]
      push_cast
      unfold ulp
      ring
    have kpos : 0 < (k : ℝ) := by
      by_contra hc
      push Not at hc
      have := mul_nonneg (neg_nonneg.mpr hc) ulp_pos.le
      linarith
    have kle : (k : ℝ) ≤ 2 ^ 23 := by
      have h5 : (k : ℝ) * (2 * ulp) ≤ 1 / 2 ^ 29 := by rw [hk] at h2; norm_num; linarith
      unfold ulp at h5
      norm_num at h5 ⊢
      linarith
    have hinv : 1 / z = 1 - 2 * k * ulp + 4 * k ^ 2 * ulp ^ 2 / z := by
      field_simp
      rw [hk]; ring
    have hup := ulp_pos
    have hex0 : 0 < 4 * (k : ℝ) ^ 2 * ulp ^ 2 / z := by positivity
    have h6 : (k : ℝ) ^ 2 ≤ 2 ^ 46 := by nlinarith
    have h7 : 4 * (k : ℝ) ^ 2 * ulp ^ 2 ≤ 2 ^ 48 * ulp ^ 2 :=
      mul_le_mul_of_nonneg_right (by linarith) (by positivity)
    have h8 : (2 : ℝ) ^ 48 * ulp ^ 2 < ulp / 4 := by unfold ulp; norm_num
    have hex1 : 4 * (k : ℝ) ^ 2 * ulp ^ 2 / z < ulp / 4 := by
      rw [div_lt_iff₀ hz0]
      nlinarith
    have ku : (k : ℝ) * ulp ≤ 1 / 8 := by
      have := mul_le_mul_of_nonneg_right kle ulp_pos.le
      have h10 : (2 : ℝ) ^ 23 * ulp ≤ 1 / 8 := by unfold ulp; norm_num
      linarith
    have kone : 1 ≤ (k : ℝ) := by
      have : (1 : ℤ) ≤ k := by exact_mod_cast kpos
      exact_mod_cast this
    have ku1 : ulp ≤ k * ulp := by nlinarith
    have hr : fl64 (1 / z) = 1 - 2 * k * ulp := by
      have hb := binaryRound_eq (K := ℝ) (p := 53) (emin := -1074) (e := -1) (x := 1 / z) (2 ^ 53 - 2 * k)
        (by rw [hinv]; norm_num; linarith) (by rw [hinv]; norm_num; linarith) (by norm_num)
        (by
          rw [hinv]
          have : (1 - 2 * k * ulp + 4 * k ^ 2 * ulp ^ 2 / z) / 2 ^ ((-1 : ℤ) - ((53 : ℕ) : ℤ) + 1) -
              ((2 ^ 53 - 2 * k : ℤ) : ℝ) = (4 * k ^ 2 * ulp ^ 2 / z) * 2 ^ 53 := by
            push_cast; unfold ulp; norm_num; ring
          rw [this, abs_of_pos (by positivity)]
          have : ulp / 4 * 2 ^ 53 ≤ 1 / 4 := by unfold ulp; norm_num
          nlinarith)
      unfold fl64
      rw [hb]
      push_cast
      unfold ulp
      norm_num
      ring
    rw [hr, hk]
    have h11 : (1 + (k : ℝ) * (2 * ulp)) * (1 - 2 * k * ulp) = 1 - 4 * k ^ 2 * ulp ^ 2 := by ring
    rw [h11]
    linarith

/-! ### The normalized direction -/

theorem overNormFl_le (recip : Bool) {n x : ℝ} (hn : 1 / 2 ≤ n) (hn4 : n ≤ 4) (hx : |x| ≤ n) :
    |overNormFl recip n x| ≤ 1 := by
  have n0 : 0 < n := by linarith
  unfold overNormFl
  split_ifs
  · rw [fl64_abs]
    apply fl64_above_one
    have h1 : 0 ≤ fl64 (1 / n) := fl64_nonneg (by positivity)
    have h2 := fl64_le (x := 1 / n) (by rw [le_div_iff₀ n0]; norm_num; linarith)
    rw [abs_mul, abs_of_nonneg h1]
    have h3 : |x| * fl64 (1 / n) ≤ n * (1 / n * (1 + ulp)) :=
      mul_le_mul hx h2 h1 n0.le
    have h4 : n * (1 / n * (1 + ulp)) = 1 + ulp := by field_simp
    linarith
  · rw [fl64_abs, abs_div, abs_of_pos n0]
    exact fl64_le_of_le (by rw [div_le_one n0]; exact hx) fl64_one

theorem overNormFl_ne_zero (recip : Bool) {n x : ℝ} (hn : 1 / 2 ≤ n) (hn4 : n ≤ 4)
    (hx : 2 ^ (-1000 : ℤ) ≤ |x|) : overNormFl recip n x ≠ 0 := by
  have n0 : 0 < n := by linarith
  have e : (2 : ℝ) ^ (-1002 : ℤ) = 2 ^ (-1000 : ℤ) * (1 / 4) := by
    rw [show (-1002 : ℤ) = -1000 + -2 by norm_num, zpow_add₀ (by norm_num)]
    norm_num
  have f : fl64 ((2 : ℝ) ^ (-1002 : ℤ)) = 2 ^ (-1002 : ℤ) := fl64_zpow (by norm_num)
  have pos := two_zpow_pos (K := ℝ) (-1002)
  have x0 : 0 < |x| := lt_of_lt_of_le (two_zpow_pos _) hx
  rw [← abs_pos]
  unfold overNormFl
  split_ifs
  · have h1 : 1 / 4 ≤ fl64 (1 / n) := by
      have q : fl64 (1 / 4) = 1 / 4 := by
        have := fl64_zpow (k := -2) (by norm_num)
        norm_num at this ⊢
        exact this
      exact fl64_ge_of_le (one_div_le_one_div_of_le n0 hn4) q
    rw [fl64_abs, abs_mul, abs_of_pos (show 0 < fl64 (1 / n) by linarith)]
    refine pos.trans_le (fl64_ge_of_le ?_ f)
    rw [e]
    exact mul_le_mul hx h1 (by norm_num) x0.le
  · rw [fl64_abs, abs_div, abs_of_pos n0]
    refine pos.trans_le (fl64_ge_of_le ?_ f)
    rw [e, le_div_iff₀ n0]
    have := two_zpow_pos (K := ℝ) (-1000)
    nlinarith

/-- A computed direction is normalized to one with components not larger than one, and to exactly
(0, 0, ±1) if its x and y components vanish. -/
theorem normalizeFl_spec (fused recip : Bool) {v : V3 ℝ} (h : Spec.FloatDirection v) :
    ∃ w, normalizeFl fused recip v = some w ∧ |w.x| ≤ 1 ∧ |w.y| ≤ 1 ∧ |w.z| ≤ 1 ∧
      (w.x = 0 → w.y = 0 → |w.z| = 1) := by
  obtain ⟨h1, h2, hx, hy, hz⟩ := normFl_spec fused h
  refine ⟨⟨overNormFl recip (normFl fused v) v.x, overNormFl recip (normFl fused v) v.y,
    overNormFl recip (normFl fused v) v.z⟩, ?_, overNormFl_le recip h1 h2 hx,
    overNormFl_le recip h1 h2 hy, overNormFl_le recip h1 h2 hz, ?_⟩
  · unfold normalizeFl
    simp only
    rw [show fl64 (Real.sqrt (sumSquaresFl fused v)) = normFl fused v from rfl, if_neg (by linarith)]
  · intro ex ey
    have tx : |v.x| < 2 ^ (-1000 : ℤ) := by
      by_contra hc
      exact overNormFl_ne_zero recip h1 h2 (not_lt.mp hc) ex
    have ty : |v.y| < 2 ^ (-1000 : ℤ) := by
      by_contra hc
      exact overNormFl_ne_zero recip h1 h2 (not_lt.mp hc) ey
    obtain ⟨e, near⟩ := normFl_tiny fused h tx ty
    have z0 : 0 < |v.z| := by linarith
    simp only
    rw [e]
    unfold overNormFl
    split_ifs
    · have f0 : 0 ≤ fl64 (1 / |v.z|) := fl64_nonneg (by positivity)
      rw [fl64_abs, abs_mul, abs_of_nonneg f0]
      exact fl64_mul_recip (by rw [← fl64_abs, h.float_z]) near
    · rw [fl64_abs, abs_div, abs_abs, div_self z0.ne', fl64_one]

/-! ### Constants -/

theorem pi_bounds : 3 < Real.pi ∧ Real.pi < 4 := ⟨Real.pi_gt_three, Real.pi_lt_four⟩

theorem sqrt_mul_le {x c : ℝ} (hx : 0 ≤ x) (hc : 1 ≤ c) : Real.sqrt (x * c) ≤ Real.sqrt x * c := by
  rw [Real.sqrt_mul hx]
  refine mul_le_mul_of_nonneg_left ?_ (Real.sqrt_nonneg _)
  rw [Real.sqrt_le_left (by linarith)]
  nlinarith

theorem le_sqrt_mul {x c : ℝ} (hx : 0 ≤ x) (h0 : 0 ≤ c) (hc : c ≤ 1) :
    Real.sqrt x * c ≤ Real.sqrt (x * c) := by
  rw [Real.sqrt_mul hx]
  refine mul_le_mul_of_nonneg_left ?_ (Real.sqrt_nonneg _)
  apply Real.le_sqrt_of_sq_le
  nlinarith

theorem ulp_small : ulp ≤ 1 / 2 ^ 53 := le_refl _

theorem sqrtPi_bounds : 1 < Real.sqrt Real.pi ∧ Real.sqrt Real.pi < 2 := by
  have := pi_bounds
  constructor
  · rw [Real.lt_sqrt (by norm_num)]; linarith
  · rw [Real.sqrt_lt' (by norm_num)]; linarith

theorem sqrtPiFl_bounds : Real.sqrt Real.pi * (1 - ulp) ^ 2 ≤ sqrtPiFl ∧
    sqrtPiFl ≤ Real.sqrt Real.pi * (1 + ulp) ^ 2 := by
  obtain ⟨p1, p2⟩ := pi_bounds
  have hu := ulp_pos
  have hu1 : ulp ≤ 1 / 4 := by unfold ulp; norm_num
  have n1 : (1 : ℝ) / 2 ^ 100 ≤ Real.pi := by norm_num; linarith
  have lo := le_fl64 n1
  have up := fl64_le n1
  obtain ⟨s1, s2⟩ := sqrtPi_bounds
  have r1 : Real.sqrt Real.pi * (1 - ulp) ≤ Real.sqrt (fl64 Real.pi) :=
    (le_sqrt_mul Real.pi_pos.le (by linarith) (by linarith)).trans (Real.sqrt_le_sqrt lo)
  have r2 : Real.sqrt (fl64 Real.pi) ≤ Real.sqrt Real.pi * (1 + ulp) :=
    (Real.sqrt_le_sqrt up).trans (sqrt_mul_le Real.pi_pos.le (by linarith))
  have n2 : (1 : ℝ) / 2 ^ 100 ≤ Real.sqrt (fl64 Real.pi) := by norm_num; nlinarith
  have lo2 := le_fl64 n2
  have up2 := fl64_le n2
  unfold sqrtPiFl
  constructor
  · rw [pow_two, ← mul_assoc]
    exact (mul_le_mul_of_nonneg_right r1 (by linarith)).trans lo2
  · rw [pow_two, ← mul_assoc]
    exact up2.trans (mul_le_mul_of_nonneg_right r2 (by linarith))

theorem sqrtPiOver2Fl_le : sqrtPiOver2Fl ≤ sqrtPiOver2 * (1 + ulp) ^ 3 ∧ 0 ≤ sqrtPiOver2Fl := by
  obtain ⟨s1, s2⟩ := sqrtPi_bounds
  obtain ⟨lo, up⟩ := sqrtPiFl_bounds
  have hu := ulp_pos
  have hu1 : ulp ≤ 1 / 4 := by unfold ulp; norm_num
  have hlo : 1 / 2 ≤ sqrtPiFl := by nlinarith
  have n1 : (1 : ℝ) / 2 ^ 100 ≤ sqrtPiFl / 2 := by norm_num; linarith
  have := fl64_le n1
  unfold sqrtPiOver2Fl sqrtPiOver2
  refine ⟨this.trans ?_, fl64_nonneg (by linarith)⟩
  have e : Real.sqrt Real.pi / 2 * (1 + ulp) ^ 3 = Real.sqrt Real.pi * (1 + ulp) ^ 2 / 2 * (1 + ulp) := by
    ring
  rw [e]
  exact mul_le_mul_of_nonneg_right (by linarith) (by linarith)

theorem twoOverSqrtPiFl_le : twoOverSqrtPiFl ≤ twoOverSqrtPi * (1 + 4 * ulp) ∧ 0 ≤ twoOverSqrtPiFl := by
  obtain ⟨s1, s2⟩ := sqrtPi_bounds
  obtain ⟨lo, up⟩ := sqrtPiFl_bounds
  have hu := ulp_pos
  have hu1 : ulp ≤ 1 / 32 := by unfold ulp; norm_num
  have hlo : 1 / 2 ≤ sqrtPiFl := by nlinarith
  have hup : sqrtPiFl ≤ 4 := by nlinarith
  have n1 : (1 : ℝ) / 2 ^ 100 ≤ 2 / sqrtPiFl := by
    rw [le_div_iff₀ (by linarith)]; norm_num; linarith
  have := fl64_le n1
  unfold twoOverSqrtPiFl twoOverSqrtPi
  refine ⟨this.trans ?_, fl64_nonneg (by positivity)⟩
  rw [div_mul_eq_mul_div, div_mul_eq_mul_div, div_le_div_iff₀ (by linarith) (by linarith)]
  have h1 : 1 + ulp ≤ (1 + 4 * ulp) * (1 - ulp) ^ 2 := by nlinarith [sq_nonneg ulp, mul_pos hu hu]
  have h2 : (1 + ulp) * Real.sqrt Real.pi ≤ (1 + 4 * ulp) * (Real.sqrt Real.pi * (1 - ulp) ^ 2) := by
    have := mul_le_mul_of_nonneg_right h1 (show 0 ≤ Real.sqrt Real.pi by linarith)
    linarith
  have h3 : (1 + 4 * ulp) * (Real.sqrt Real.pi * (1 - ulp) ^ 2) ≤ (1 + 4 * ulp) * sqrtPiFl :=
    mul_le_mul_of_nonneg_left lo (by linarith)
  linarith

theorem sqrtPiHalf_bounds : 1 < sqrtPiHalf ∧ sqrtPiHalf < 2 := by
  have := pi_bounds
  unfold sqrtPiHalf
  constructor
  · rw [Real.lt_sqrt (by norm_num)]; linarith
  · rw [Real.sqrt_lt' (by norm_num)]; linarith

theorem le_sqrtPiHalfFl : sqrtPiHalf * (1 - 3 * ulp) ≤ sqrtPiHalfFl := by
  obtain ⟨p1, p2⟩ := pi_bounds
  have hu := ulp_pos
  have hu1 : ulp ≤ 1 / 4 := by unfold ulp; norm_num
  have lo := le_fl64 (x := Real.pi) (by norm_num; linarith)
  have n2 : (1 : ℝ) / 2 ^ 100 ≤ fl64 Real.pi / 2 := by norm_num; nlinarith
  have lo2 := le_fl64 n2
  have lo3 : Real.pi / 2 * ((1 - ulp) * (1 - ulp)) ≤ fl64 (fl64 Real.pi / 2) := by
    have := mul_le_mul_of_nonneg_right lo (show 0 ≤ (1 - ulp) / 2 by linarith)
    linarith
  have r1 : sqrtPiHalf * (1 - ulp) ≤ Real.sqrt (fl64 (fl64 Real.pi / 2)) := by
    refine le_trans ?_ (Real.sqrt_le_sqrt lo3)
    unfold sqrtPiHalf
    rw [Real.sqrt_mul (by positivity), Real.sqrt_mul_self (by linarith)]
  obtain ⟨s1, s2⟩ := sqrtPiHalf_bounds
  have n3 : (1 : ℝ) / 2 ^ 100 ≤ Real.sqrt (fl64 (fl64 Real.pi / 2)) := by norm_num; nlinarith
  have lo4 := le_fl64 n3
  unfold sqrtPiHalfFl
  refine le_trans ?_ lo4
  refine le_trans ?_ (mul_le_mul_of_nonneg_right r1 (show 0 ≤ 1 - ulp by linarith))
  rw [mul_assoc]
  exact mul_le_mul_of_nonneg_left (by nlinarith) (by linarith)

/-! ### The projection -/

theorem sqrt_two_bounds : 1 < Real.sqrt 2 ∧ Real.sqrt 2 < 2 := by
  constructor
  · rw [Real.lt_sqrt (by norm_num)]; norm_num
  · rw [Real.sqrt_lt' (by norm_num)]; norm_num

theorem sqrt_two_mul_first : Real.sqrt 2 * sqrtPiOver2 = sqrtPiHalf := by
  unfold sqrtPiOver2 sqrtPiHalf
  rw [Real.sqrt_div Real.pi_pos.le]
  have h2 : Real.sqrt 2 * Real.sqrt 2 = 2 := Real.mul_self_sqrt (by norm_num)
  have := sqrt_two_bounds.1
  field_simp
  rw [sq, h2]

theorem sqrt_two_mul_second : Real.sqrt 2 * twoOverSqrtPi * (Real.pi / 4) = sqrtPiHalf := by
  rw [← sqrt_two_mul_first]
  unfold twoOverSqrtPi sqrtPiOver2
  have := sqrtPi_bounds.1
  field_simp
  rw [Real.sq_sqrt Real.pi_pos.le]
  ring

theorem Spec.AccurateArctan.le {atan : ℝ → ℝ} (h : Spec.AccurateArctan atan) {q : ℝ} (hq : |q| ≤ 1) :
    |atan q| ≤ Real.pi / 4 * (1 + 8 * ulp) := by
  have h1 := h q hq
  have h2 : |Real.arctan q| ≤ Real.pi / 4 := by
    rw [abs_le] at hq ⊢
    rw [← Real.arctan_one]
    constructor
    · rw [← Real.arctan_neg]
      exact Real.arctan_strictMono.monotone hq.1
    · exact Real.arctan_strictMono.monotone hq.2
  have h3 : |atan q| ≤ |Real.arctan q| + |atan q - Real.arctan q| := by
    have := abs_add_le (Real.arctan q) (atan q - Real.arctan q)
    rwa [add_sub_cancel] at this
  have e : (1 : ℝ) / 2 ^ 50 = 8 * ulp := by unfold ulp; norm_num
  rw [e] at h1
  have := ulp_pos
  nlinarith [abs_nonneg (Real.arctan q)]

/-- Both coordinates of a computed projection are at most 16 units above the limit. -/
theorem vector2lambertFl_spec {atan : ℝ → ℝ} (hatan : Spec.AccurateArctan atan) (fused recip : Bool)
    {v : V3 ℝ} (h : Spec.FloatDirection v) :
    ∃ xy, vector2lambertFl atan fused recip v = some xy ∧ |xy.1| ≤ sqrtPiHalf * (1 + 18 * ulp) ∧
      |xy.2| ≤ sqrtPiHalf * (1 + 18 * ulp) := by
  obtain ⟨w, ew, wx, wy, wz, hw⟩ := normalizeFl_spec fused recip h
  have hu := ulp_pos
  have hu1 : ulp ≤ 1 / 2 ^ 50 := by unfold ulp; norm_num
  obtain ⟨t1, t2⟩ := sqrt_two_bounds
  -- the square root is defined
  have a0 : 0 ≤ fl64 (1 - |w.z|) := fl64_nonneg (by linarith)
  have a1 : fl64 (1 - |w.z|) ≤ 1 := fl64_le_of_le (by linarith [abs_nonneg w.z]) fl64_one
  have b0 : 0 ≤ fl64 (2 * fl64 (1 - |w.z|)) := fl64_nonneg (by linarith)
  have b1 : fl64 (2 * fl64 (1 - |w.z|)) ≤ 2 :=
    fl64_le_of_le (by linarith) (by simpa using fl64_nat (k := 2) (by norm_num))
  set sz := fl64 (Real.sqrt (fl64 (2 * fl64 (1 - |w.z|)))) with hsz
  have es : sqrtFl (fl64 (2 * fl64 (1 - |w.z|))) = some sz := by
    unfold sqrtFl; rw [if_neg (not_lt.mpr b0)]
  have sz0 : 0 ≤ sz := fl64_nonneg (Real.sqrt_nonneg _)
  have sz1 : sz ≤ Real.sqrt 2 * (1 + ulp) :=
    (fl64_mono (Real.sqrt_le_sqrt b1)).trans (fl64_le (by norm_num; linarith))
  have sgn : ∀ t : ℝ, |fl64 (Real.sign t * sz)| ≤ Real.sqrt 2 * (1 + ulp) := by
    intro t
    have h1 : |Real.sign t * sz| ≤ sz := by
      rw [abs_mul, abs_of_nonneg sz0]
      have : |Real.sign t| ≤ 1 := by
        rcases Real.sign_apply_eq t with e | e | e <;> rw [e] <;> norm_num
      nlinarith
    rw [fl64_abs]
    have h2 := fl64_mono h1
    rw [hsz, fl64_idem, ← hsz] at h2
    exact h2.trans sz1
  obtain ⟨p1, p2⟩ := sqrtPiHalf_bounds
  -- first coordinate
  have first : ∀ t : ℝ, |fl64 (fl64 (Real.sign t * sz) * sqrtPiOver2Fl)| ≤ sqrtPiHalf * (1 + 18 * ulp) := by
    intro t
    obtain ⟨c1, c0⟩ := sqrtPiOver2Fl_le
    have h1 : |fl64 (Real.sign t * sz) * sqrtPiOver2Fl| ≤ sqrtPiHalf * (1 + ulp) ^ 4 := by
      rw [abs_mul, abs_of_nonneg c0]
      refine (mul_le_mul (sgn t) c1 c0 (by positivity)).trans (le_of_eq ?_)
      rw [← sqrt_two_mul_first]; ring
    have h2 := fl64_bound h1 (by
      have : (1 : ℝ) ≤ (1 + ulp) ^ 4 := one_le_pow₀ (by linarith)
      norm_num
      nlinarith)
    refine h2.trans ?_
    rw [mul_assoc]
    refine mul_le_mul_of_nonneg_left ?_ (by linarith)
    unfold ulp; norm_num
  -- second coordinate
  have second : ∀ t q : ℝ, |q| ≤ 1 →
      |fl64 (fl64 (fl64 (Real.sign t * sz) * twoOverSqrtPiFl) * atan q)| ≤
        sqrtPiHalf * (1 + 18 * ulp) := by
    intro t q hq
    obtain ⟨c1, c0⟩ := twoOverSqrtPiFl_le
    have tw : 1 / 2 ≤ twoOverSqrtPi := by
      have := sqrtPi_bounds
      unfold twoOverSqrtPi
      rw [div_le_div_iff₀ (by norm_num) (by linarith)]
      linarith
    have h1 : |fl64 (Real.sign t * sz) * twoOverSqrtPiFl| ≤
        Real.sqrt 2 * twoOverSqrtPi * ((1 + ulp) * (1 + 4 * ulp)) := by
      rw [abs_mul, abs_of_nonneg c0]
      refine (mul_le_mul (sgn t) c1 c0 (by positivity)).trans (le_of_eq ?_)
      ring
    have hb : 1 / 2 ≤ Real.sqrt 2 * twoOverSqrtPi := by nlinarith
    have hc : 1 ≤ (1 + ulp) * (1 + 4 * ulp) := by nlinarith
    have h2 := fl64_bound h1 (by norm_num; nlinarith)
    have h3 := hatan.le hq
    have h4 : |fl64 (fl64 (Real.sign t * sz) * twoOverSqrtPiFl) * atan q| ≤
        sqrtPiHalf * ((1 + ulp) * (1 + 4 * ulp) * (1 + ulp) * (1 + 8 * ulp)) := by
      rw [abs_mul]
      refine (mul_le_mul h2 h3 (abs_nonneg _) (by positivity)).trans (le_of_eq ?_)
      rw [← sqrt_two_mul_second]; ring
    have hd : 1 ≤ (1 + ulp) * (1 + 4 * ulp) * (1 + ulp) * (1 + 8 * ulp) := by unfold ulp; norm_num
    have h5 := fl64_bound h4 (by norm_num; nlinarith)
    refine h5.trans ?_
    rw [mul_assoc]
    refine mul_le_mul_of_nonneg_left ?_ (by linarith)
    unfold ulp; norm_num
  -- a quotient of two components
  have quot : ∀ a b : ℝ, |a| ≤ |b| → |fl64 (a / b)| ≤ 1 := by
    intro a b hab
    rw [fl64_abs, abs_div]
    exact fl64_le_of_le (div_le_one_of_le₀ hab (abs_nonneg _)) fl64_one
  unfold vector2lambertFl
  rw [ew]
  simp only [Option.bind_eq_bind, Option.bind_some]
  rw [es]
  simp only [Option.bind_some]
  by_cases z1 : |w.z| = 1
  · rw [if_pos z1]
    refine ⟨_, rfl, ?_, ?_⟩ <;> · simp only [abs_zero]; positivity
  rw [if_neg z1]
  by_cases c : |w.y| ≤ |w.x|
  · rw [if_pos c]
    have x0 : w.x ≠ 0 := by
      intro x0
      rw [x0, abs_zero] at c
      exact z1 (hw x0 (abs_nonpos_iff.mp c))
    rw [if_neg x0]
    exact ⟨_, rfl, first _, second _ _ (quot _ _ c)⟩
  · rw [if_neg c]
    exact ⟨_, rfl, second _ _ (quot _ _ (le_of_lt (not_le.mp c))), first _⟩

/-! ### The interpolation -/

/-- The four pixels of the interpolation are in an array of `n x n` pixels. -/
def Spec.InArray (n : ℕ) (p : Interp) : Prop :=
  (0 ≤ p.nii ∧ p.nii < n) ∧ (0 ≤ p.nij ∧ p.nij < n) ∧ (0 ≤ p.niip ∧ p.niip < n) ∧
    (0 ≤ p.nijp ∧ p.nijp < n)

/-- C105 (any evaluation): however the coordinates are computed, the pixels are in the array as long as
the coordinates are not more than half a pixel outside of the master pattern. -/
theorem C105_half_pixel {n : ℕ} (hn : 0 < n) (hn31 : n < 2 ^ 31) {i j : ℝ}
    (hi : |i| ≤ ((n : ℝ) - 1) / 2 + 1 / 2) (hj : |j| ≤ ((n : ℝ) - 1) / 2 + 1 / 2) :
    Spec.InArray n (interpAtFl i j n n (((n : ℝ) - 1) / 2)) := by
  have key : ∀ t : ℝ, |t| ≤ ((n : ℝ) - 1) / 2 + 1 / 2 →
      0 ≤ toInt32 (fl64 (t + ((n : ℝ) - 1) / 2)) ∧ toInt32 (fl64 (t + ((n : ℝ) - 1) / 2)) < n := by
    intro t ht
    rw [abs_le] at ht
    have l1 : -(1 / 2) ≤ fl64 (t + ((n : ℝ) - 1) / 2) :=
      fl64_ge_of_le (by linarith) (by rw [fl64_neg, fl64_half])
    have l2 : fl64 (t + ((n : ℝ) - 1) / 2) ≤ (n : ℝ) - 1 / 2 := by
      refine fl64_le_of_le (by linarith) ?_
      have hn' : (n : ℝ) < 2147483648 := by exact_mod_cast hn31
      have hn1 : (1 : ℝ) ≤ n := by exact_mod_cast hn
      have := fl64_format (m := 2 * n - 1) (j := -1) (by norm_num) (by
        push_cast
        rw [abs_of_nonneg (by norm_num; linarith)]
        norm_num
        linarith)
      push_cast at this
      have e : ((2 : ℝ) * n - 1) * 2 ^ (-1 : ℤ) = n - 1 / 2 := by norm_num; ring
      rwa [e] at this
    generalize fl64 (t + ((n : ℝ) - 1) / 2) = s at l1 l2
    unfold toInt32
    split_ifs with h0
    · refine ⟨Int.floor_nonneg.mpr h0, ?_⟩
      rw [Int.floor_lt]
      push_cast
      linarith
    · push Not at h0
      have : ⌈s⌉ = 0 := by
        rw [Int.ceil_eq_iff]
        constructor
        · push_cast; linarith
        · push_cast; linarith
      rw [this]
      exact ⟨le_refl _, by exact_mod_cast hn⟩
  obtain ⟨a1, a2⟩ := key i hi
  obtain ⟨b1, b2⟩ := key j hj
  unfold Spec.InArray interpAtFl
  simp only
  rw [if_neg (not_lt.mpr a1), if_neg (not_lt.mpr b1)]
  refine ⟨⟨a1, a2⟩, ⟨b1, b2⟩, ?_, ?_⟩ <;> split_ifs <;> omega

/-- A computed coordinate is not more than half a pixel outside. -/
theorem lambert_position {n : ℕ} (hn : 0 < n) (hn31 : n < 2 ^ 31) {t : ℝ}
    (ht : |t| ≤ sqrtPiHalf * (1 + 18 * ulp)) :
    |fl64 (fl64 (((n : ℝ) - 1) / 2 * t) / sqrtPiHalfFl)| ≤ ((n : ℝ) - 1) / 2 + 1 / 2 := by
  have hn1 : (1 : ℝ) ≤ n := by exact_mod_cast hn
  have hn' : (n : ℝ) < 2147483648 := by exact_mod_cast hn31
  obtain ⟨p1, p2⟩ := sqrtPiHalf_bounds
  have hu := ulp_pos
  by_cases h1 : n = 1
  · subst h1
    simp [fl64_zero]
  have hn2 : (2 : ℝ) ≤ n := by
    have : 2 ≤ n := by omega
    exact_mod_cast this
  set s := ((n : ℝ) - 1) / 2 with hs
  have s0 : 1 / 2 ≤ s := by rw [hs]; linarith
  have s1 : s ≤ 2 ^ 30 := by rw [hs]; norm_num; linarith
  have b1 : |s * t| ≤ s * sqrtPiHalf * (1 + 18 * ulp) := by
    rw [abs_mul, abs_of_nonneg (by linarith), mul_assoc]
    exact mul_le_mul_of_nonneg_left ht (by linarith)
  have hsp : 1 / 2 ≤ s * sqrtPiHalf := by nlinarith
  have b2 := fl64_bound b1 (by norm_num; nlinarith)
  have c := le_sqrtPiHalfFl
  have hu1 : ulp ≤ 1 / 2 ^ 50 := by unfold ulp; norm_num
  have c0 : 1 / 2 ≤ sqrtPiHalfFl := by
    norm_num at hu1
    nlinarith
  have b3 : |fl64 (s * t) / sqrtPiHalfFl| ≤ s * (1 + 23 * ulp) := by
    rw [abs_div, abs_of_pos (show 0 < sqrtPiHalfFl by linarith), div_le_iff₀ (by linarith)]
    refine b2.trans ?_
    have d1 : (1 + 18 * ulp) * (1 + ulp) ≤ (1 + 23 * ulp) * (1 - 3 * ulp) := by unfold ulp; norm_num
    have d2 : s * sqrtPiHalf * ((1 + 18 * ulp) * (1 + ulp)) ≤
        s * sqrtPiHalf * ((1 + 23 * ulp) * (1 - 3 * ulp)) :=
      mul_le_mul_of_nonneg_left d1 (by linarith)
    have d3 : s * (1 + 23 * ulp) * (sqrtPiHalf * (1 - 3 * ulp)) ≤ s * (1 + 23 * ulp) * sqrtPiHalfFl :=
      mul_le_mul_of_nonneg_left c (by positivity)
    linarith
  have b4 := fl64_bound b3 (by norm_num; nlinarith)
  refine b4.trans ?_
  have d4 : (1 + 23 * ulp) * (1 + ulp) ≤ 1 + 1 / 2 ^ 40 := by unfold ulp; norm_num
  have d5 : s * ((1 + 23 * ulp) * (1 + ulp)) ≤ s * (1 + 1 / 2 ^ 40) :=
    mul_le_mul_of_nonneg_left d4 (by linarith)
  norm_num at d5 s1
  linarith

/-- The weights of the interpolation: at most a pixel (half a pixel outside) from the first of the
pixels, and adding up to one, up to rounding errors. -/
def Spec.Weights (p : Interp) : Prop :=
  (-(1 / 2) - 1 / 2 ^ 19 ≤ p.di ∧ p.di ≤ 1 + 1 / 2 ^ 19) ∧
    (-(1 / 2) - 1 / 2 ^ 19 ≤ p.dj ∧ p.dj ≤ 1 + 1 / 2 ^ 19) ∧
    |p.di + p.dim - 1| ≤ 1 / 2 ^ 46 ∧ |p.dj + p.djm - 1| ≤ 1 / 2 ^ 46

/-- The interpolation is at pixel coordinates `(y, x)` of the array, up to rounding errors. -/
def Spec.InterpolatesAt (y x : ℝ) (p : Interp) : Prop :=
  |p.nii + p.di - y| ≤ 1 / 2 ^ 20 ∧ |p.nij + p.dj - x| ≤ 1 / 2 ^ 20

theorem fl64_abs_error_le {x b : ℝ} (h : |x| ≤ b) (hb : 1 / 2 ^ 40 ≤ b) : |fl64 x - x| ≤ ulp * b := by
  have hu := ulp_pos
  have key : ∀ y : ℝ, 0 ≤ y → y ≤ b → |fl64 y - y| ≤ ulp * b := by
    intro y h0 h1
    rcases le_total (1 / 2 ^ 100) y with hy | hy
    · exact (fl64_error hy).trans (mul_le_mul_of_nonneg_left h1 ulp_pos.le)
    · have f : fl64 (1 / 2 ^ 100) = 1 / 2 ^ 100 := by
        have := fl64_zpow (k := -100) (by norm_num)
        rwa [show ((2 : ℝ) ^ (-100 : ℤ)) = 1 / 2 ^ 100 by rw [zpow_neg, one_div]; rfl] at this
      have h2 := fl64_le_of_le hy f
      have h3 := fl64_nonneg h0
      have h4 : (1 : ℝ) / 2 ^ 100 ≤ ulp * b := by
        refine le_trans ?_ (mul_le_mul_of_nonneg_left hb hu.le)
        unfold ulp; norm_num
      rw [abs_le]
      constructor <;> linarith
  rcases le_total 0 x with h0 | h0
  · rw [abs_of_nonneg h0] at h
    exact key x h0 h
  · rw [abs_of_nonpos h0] at h
    have := key (-x) (by linarith) h
    rw [fl64_neg, abs_sub_comm] at this
    convert this using 2
    ring

/-- C105 (any evaluation, weights): however the coordinates are computed, the interpolation is at these
coordinates, with weights of pixels next to them. -/
theorem C105_weights {n : ℕ} (hn : 0 < n) (hn31 : n < 2 ^ 31) {i j : ℝ}
    (hi : |i| ≤ ((n : ℝ) - 1) / 2 + 1 / 2) (hj : |j| ≤ ((n : ℝ) - 1) / 2 + 1 / 2) :
    Spec.Weights (interpAtFl i j n n (((n : ℝ) - 1) / 2)) ∧
      Spec.InterpolatesAt (i + ((n : ℝ) - 1) / 2) (j + ((n : ℝ) - 1) / 2)
        (interpAtFl i j n n (((n : ℝ) - 1) / 2)) := by
  have hn' : (n : ℝ) < 2147483648 := by exact_mod_cast hn31
  have hn1 : (1 : ℝ) ≤ n := by exact_mod_cast hn
  obtain ⟨⟨a1, a2⟩, ⟨b1, b2⟩, -, -⟩ := C105_half_pixel hn hn31 hi hj
  set s := ((n : ℝ) - 1) / 2 with hs
  have key : ∀ (t : ℝ) (m : ℤ), |t| ≤ s + 1 / 2 → m = toInt32 (fl64 (t + s)) → 0 ≤ m → m < n →
      |m + fl64 (fl64 (t - m) + s) - (t + s)| ≤ 1 / 2 ^ 20 ∧
      (-(1 / 2) - 1 / 2 ^ 19 ≤ fl64 (fl64 (t - m) + s) ∧
        fl64 (fl64 (t - m) + s) ≤ 1 + 1 / 2 ^ 19) ∧
      |fl64 (fl64 (t - m) + s) + fl64 (1 - fl64 (fl64 (t - m) + s)) - 1| ≤ 1 / 2 ^ 46 := by
    intro t m ht hm h0 h1
    have h0' : (0 : ℝ) ≤ m := by exact_mod_cast h0
    have h1' : (m : ℝ) ≤ n - 1 := by
      have : m ≤ (n : ℤ) - 1 := by omega
      exact_mod_cast this
    have ht' := abs_le.1 ht
    have hts : |t + s| ≤ 2 ^ 32 := by
      rw [abs_le]; constructor <;> norm_num <;> linarith
    have e0 := abs_le.1 (fl64_abs_error_le hts (by norm_num))
    have e1 := abs_le.1 (fl64_abs_error_le (x := t - m) (b := 2 ^ 32)
      (by rw [abs_le]; constructor <;> norm_num <;> linarith) (by norm_num))
    have hu : ulp * 2 ^ 32 = 1 / 2 ^ 21 := by unfold ulp; norm_num
    rw [hu] at e0 e1
    -- the computed position is between -1/2 and one pixel from `m`
    have hpos : -(1 / 2) - 1 / 2 ^ 21 ≤ t + s - m ∧ t + s - m ≤ 1 + 1 / 2 ^ 21 := by
      have hlow : -(1 / 2) ≤ t + s := by linarith
      unfold toInt32 at hm
      split_ifs at hm with hc
      · have f1 := Int.floor_le (fl64 (t + s))
        have f2 := Int.lt_floor_add_one (fl64 (t + s))
        rw [← hm] at f1 f2
        constructor <;> linarith
      · push Not at hc
        have f1 := Int.ceil_lt_add_one (fl64 (t + s))
        rw [← hm] at f1
        have : m = 0 := by
          have : (m : ℝ) < 1 := by linarith
          have : m < 1 := by exact_mod_cast this
          omega
        rw [this]
        push_cast
        constructor <;> linarith
    have hb : |fl64 (t - m) + s| ≤ 2 := by
      rw [abs_le]; constructor <;> norm_num at * <;> linarith
    have e2 := abs_le.1 (fl64_abs_error_le hb (by norm_num))
    have hu2 : ulp * 2 ≤ 1 / 2 ^ 48 := by unfold ulp; norm_num
    have hd : |1 - fl64 (fl64 (t - m) + s)| ≤ 4 := by
      rw [abs_le]; constructor <;> norm_num at * <;> linarith
    have e3 := fl64_abs_error_le hd (by norm_num)
    have hu4 : ulp * 4 ≤ 1 / 2 ^ 46 := by unfold ulp; norm_num
    refine ⟨?_, ?_, ?_⟩
    · rw [abs_le]; constructor <;> norm_num at * <;> linarith
    · constructor <;> norm_num at * <;> linarith
    · refine le_trans (le_of_eq ?_) (e3.trans hu4)
      congr 1
      ring
  unfold interpAtFl at a1 a2 b1 b2
  simp only at a1 a2 b1 b2
  have ha : ¬ toInt32 (fl64 (i + s)) < 0 := by
    intro h
    have hi' := abs_le.1 hi
    have l1 : -(1 / 2) ≤ fl64 (i + s) :=
      fl64_ge_of_le (by linarith) (by rw [fl64_neg, fl64_half])
    unfold toInt32 at h
    split_ifs at h with hc
    · exact absurd (Int.floor_nonneg.2 hc) (by omega)
    · have : ⌈fl64 (i + s)⌉ ≤ -1 := by omega
      rw [Int.ceil_le] at this
      push_cast at this
      linarith
  have hb : ¬ toInt32 (fl64 (j + s)) < 0 := by
    intro h
    have hj' := abs_le.1 hj
    have l1 : -(1 / 2) ≤ fl64 (j + s) :=
      fl64_ge_of_le (by linarith) (by rw [fl64_neg, fl64_half])
    unfold toInt32 at h
    split_ifs at h with hc
    · exact absurd (Int.floor_nonneg.2 hc) (by omega)
    · have : ⌈fl64 (j + s)⌉ ≤ -1 := by omega
      rw [Int.ceil_le] at this
      push_cast at this
      linarith
  rw [if_neg ha] at a1 a2
  rw [if_neg hb] at b1 b2
  obtain ⟨i1, i2, i3⟩ := key i _ hi rfl a1 a2
  obtain ⟨j1, j2, j3⟩ := key j _ hj rfl b1 b2
  unfold Spec.Weights Spec.InterpolatesAt interpAtFl
  simp only
  rw [if_neg ha, if_neg hb]
  exact ⟨⟨i2, j2, i3, j3⟩, i1, j1⟩

/-- C105: in 64-bit floating point numbers, with or without fused additions and multiplication with
the reciprocal of the norm, the interpolation parameters of every computed direction are defined, and
the four pixels they name are in the (square) master pattern, with weights of pixels next to each
other. -/
theorem C105_in_array {atan : ℝ → ℝ} (hatan : Spec.AccurateArctan atan) (fused recip : Bool) {v : V3 ℝ}
    (h : Spec.FloatDirection v) {n : ℕ} (hn : 0 < n) (hn31 : n < 2 ^ 31) :
    ∃ p, lambertInterpFl atan fused recip v n n (((n : ℝ) - 1) / 2) = some p ∧ Spec.InArray n p ∧
      Spec.Weights p := by
  obtain ⟨xy, e, hx, hy⟩ := vector2lambertFl_spec hatan fused recip h
  refine ⟨_, by unfold lambertInterpFl; rw [e]; rfl, ?_⟩
  have hx' := lambert_position hn hn31 hy
  have hy' := lambert_position hn hn31 hx
  exact ⟨C105_half_pixel hn hn31 hx' hy', (C105_weights hn hn31 hx' hy').1⟩

/-! ### The rotation -/

/-- A computed number, the exact one, a bound of the error and a bound of the exact number. -/
def Approx (x' x δ b : ℝ) : Prop := |x' - x| ≤ δ ∧ |x| ≤ b

theorem Approx.add {x' x δ b y' y ε c : ℝ} (h : Approx x' x δ b) (g : Approx y' y ε c) :
    Approx (x' + y') (x + y) (δ + ε) (b + c) := by
  obtain ⟨h1, h2⟩ := h
  obtain ⟨g1, g2⟩ := g
  rw [abs_le] at h1 h2 g1 g2
  constructor <;> rw [abs_le] <;> constructor <;> linarith

theorem Approx.sub {x' x δ b y' y ε c : ℝ} (h : Approx x' x δ b) (g : Approx y' y ε c) :
    Approx (x' - y') (x - y) (δ + ε) (b + c) := by
  obtain ⟨h1, h2⟩ := h
  obtain ⟨g1, g2⟩ := g
  rw [abs_le] at h1 h2 g1 g2
  constructor <;> rw [abs_le] <;> constructor <;> linarith

theorem Approx.mul {x' x δ b y c : ℝ} (h : Approx x' x δ b) (hy : |y| ≤ c) :
    Approx (x' * y) (x * y) (δ * c) (b * c) := by
  obtain ⟨h1, h2⟩ := h
  constructor
  · rw [← sub_mul, abs_mul]
    exact mul_le_mul h1 hy (abs_nonneg _) ((abs_nonneg _).trans h1)
  · rw [abs_mul]
    exact mul_le_mul h2 hy (abs_nonneg _) ((abs_nonneg _).trans h2)

theorem Approx.two {x' x δ b : ℝ} (h : Approx x' x δ b) : Approx (2 * x') (2 * x) (2 * δ) (2 * b) := by
  obtain ⟨h1, h2⟩ := h
  rw [abs_le] at h1 h2
  constructor <;> rw [abs_le] <;> constructor <;> linarith

theorem fl64_abs_error {x : ℝ} (h : |x| ≤ 128) : |fl64 x - x| ≤ 1 / 2 ^ 46 := by
  have key : ∀ y : ℝ, 0 ≤ y → y ≤ 128 → |fl64 y - y| ≤ 1 / 2 ^ 46 := by
    intro y h0 h1
    rcases le_total (1 / 2 ^ 100) y with hy | hy
    · refine (fl64_error hy).trans ?_
      have := mul_le_mul_of_nonneg_left h1 ulp_pos.le
      refine this.trans ?_
      unfold ulp; norm_num
    · have f : fl64 (1 / 2 ^ 100) = 1 / 2 ^ 100 := by
        have := fl64_zpow (k := -100) (by norm_num)
        rwa [show ((2 : ℝ) ^ (-100 : ℤ)) = 1 / 2 ^ 100 by rw [zpow_neg, one_div]; rfl] at this
      have h2 := fl64_le_of_le hy f
      have h3 := fl64_nonneg h0
      norm_num at h2 hy
      norm_num
      rw [abs_le]
      constructor <;> linarith
  rcases le_total 0 x with h0 | h0
  · rw [abs_of_nonneg h0] at h
    exact key x h0 h
  · rw [abs_of_nonpos h0] at h
    have := key (-x) (by linarith) h
    rw [fl64_neg, abs_sub_comm] at this
    convert this using 2
    ring

theorem Approx.fl {x' x δ b : ℝ} (h : Approx x' x δ b) (hb : b + δ ≤ 128) :
    Approx (fl64 x') x (δ + 1 / 2 ^ 46) b := by
  obtain ⟨h1, h2⟩ := h
  refine ⟨?_, h2⟩
  have h3 : |x'| ≤ 128 := by
    rw [abs_le] at h1 h2 ⊢
    constructor <;> linarith
  have h4 := fl64_abs_error h3
  rw [abs_le] at h1 h4 ⊢
  constructor <;> linarith

theorem Approx.prod {x y c : ℝ} (hx : |x| ≤ c) (hy : |y| ≤ c) : Approx (x * y) (x * y) 0 (c * c) := by
  refine ⟨by simp, ?_⟩
  rw [abs_mul]
  exact mul_le_mul hx hy (abs_nonneg _) ((abs_nonneg _).trans hx)

/-- The error of one component of the rotated vector. -/
theorem rotate_component {ac bd bc ad ac' bd' bc' ad' x y z : ℝ}
    (hac : Approx ac' ac (1 / 2 ^ 46) (25 / 16)) (hbd : Approx bd' bd (1 / 2 ^ 46) (25 / 16))
    (hbc : Approx bc' bc (1 / 2 ^ 46) (25 / 16)) (had : Approx ad' ad (1 / 2 ^ 46) (25 / 16))
    (hx : |x| ≤ 5 / 4) (hy : |y| ≤ 5 / 4) (hz : |z| ≤ 5 / 4) {s : ℝ} {s' : ℝ}
    (hs : Approx s' s (7 / 2 ^ 46) (25 / 4)) :
    |fl64 (fl64 (s' * x) + fl64 (2 * fl64 (fl64 (fl64 (ac' + bd') * z) + fl64 (fl64 (bc' - ad') * y)))) -
      (s * x + 2 * ((ac + bd) * z + (bc - ad) * y))| ≤ 1 / 2 ^ 40 := by
  have t1 := (hs.mul hx).fl (by norm_num)
  have t2 := (((hac.add hbd).fl (by norm_num)).mul hz).fl (by norm_num)
  have t3 := (((hbc.sub had).fl (by norm_num)).mul hy).fl (by norm_num)
  have t4 := ((t2.add t3).fl (by norm_num)).two.fl (by norm_num)
  have t5 := ((t1.add t4).fl (by norm_num)).1
  refine t5.trans ?_
  norm_num

/-- C105 (rotation): the rotated vector is computed with an error of at most 2 ^ -40 in every
component. -/
theorem C105_rotation_error {q : Quat} {v : V3 ℝ} (ha : |q.a| ≤ 5 / 4) (hb : |q.b| ≤ 5 / 4)
    (hc : |q.c| ≤ 5 / 4) (hd : |q.d| ≤ 5 / 4) (hx : |v.x| ≤ 5 / 4) (hy : |v.y| ≤ 5 / 4)
    (hz : |v.z| ≤ 5 / 4) :
    |(rotateVectorFl q v).x - (rotateVector q v).x| ≤ 1 / 2 ^ 40 ∧
      |(rotateVectorFl q v).y - (rotateVector q v).y| ≤ 1 / 2 ^ 40 ∧
      |(rotateVectorFl q v).z - (rotateVector q v).z| ≤ 1 / 2 ^ 40 := by
  have pr : ∀ {x y : ℝ}, |x| ≤ 5 / 4 → |y| ≤ 5 / 4 →
      Approx (fl64 (x * y)) (x * y) (1 / 2 ^ 46) (25 / 16) := by
    intro x y h1 h2
    have := (Approx.prod h1 h2).fl (by norm_num)
    rw [zero_add] at this
    rw [show (25 / 16 : ℝ) = 5 / 4 * (5 / 4) by norm_num]
    exact this
  have fin : ∀ {x' x δ b : ℝ}, Approx x' x δ b → δ = 7 / 2 ^ 46 → b = 25 / 4 →
      Approx x' x (7 / 2 ^ 46) (25 / 4) := by
    rintro _ _ _ _ h rfl rfl
    exact h
  unfold rotateVectorFl rotateVector
  simp only [pow_two]
  refine ⟨?_, ?_, ?_⟩
  · exact rotate_component (pr ha hc) (pr hb hd) (pr hb hc)
      (pr ha hd) hx hy hz (fin ((((((pr ha ha).add (pr hb hb)).fl (by norm_num)).sub (pr hc hc)).fl
        (by norm_num)).sub (pr hd hd) |>.fl (by norm_num)) (by norm_num) (by norm_num))
  · exact rotate_component (pr ha hd) (pr hb hc) (pr hc hd)
      (pr ha hb) hy hz hx (fin ((((((pr ha ha).sub (pr hb hb)).fl (by norm_num)).add (pr hc hc)).fl
        (by norm_num)).sub (pr hd hd) |>.fl (by norm_num)) (by norm_num) (by norm_num))
  · exact rotate_component (pr ha hb) (pr hc hd) (pr hb hd)
      (pr ha hc) hz hx hy (fin ((((((pr ha ha).sub (pr hb hb)).fl (by norm_num)).sub (pr hc hc)).fl
        (by norm_num)).add (pr hd hd) |>.fl (by norm_num)) (by norm_num) (by norm_num))

/-- Length one up to rounding errors. -/
def Spec.NearUnit (lengthSq : ℝ) : Prop := |lengthSq - 1| ≤ 1 / 2 ^ 40

/-- C105 (rotation): rotated directions are computed directions, also if the rotation is computed in
another way with an error of at most 2 ^ -40. -/
theorem C105_rotated_any {q : Quat} {v w : V3 ℝ}
    (hq : Spec.NearUnit (q.a ^ 2 + q.b ^ 2 + q.c ^ 2 + q.d ^ 2))
    (hv : Spec.NearUnit (v.x ^ 2 + v.y ^ 2 + v.z ^ 2))
    (fx : fl64 w.x = w.x) (fy : fl64 w.y = w.y) (fz : fl64 w.z = w.z)
    (ex : |w.x - (rotateVector q v).x| ≤ 1 / 2 ^ 40) (ey : |w.y - (rotateVector q v).y| ≤ 1 / 2 ^ 40)
    (ez : |w.z - (rotateVector q v).z| ≤ 1 / 2 ^ 40) : Spec.FloatDirection w := by
  refine ⟨fx, fy, fz, ?_⟩
  have e : (rotateVector q v).x ^ 2 + (rotateVector q v).y ^ 2 + (rotateVector q v).z ^ 2 =
      (q.a ^ 2 + q.b ^ 2 + q.c ^ 2 + q.d ^ 2) ^ 2 * (v.x ^ 2 + v.y ^ 2 + v.z ^ 2) := by
    unfold rotateVector
    simp only
    ring
  generalize q.a ^ 2 + q.b ^ 2 + q.c ^ 2 + q.d ^ 2 = l at *
  generalize v.x ^ 2 + v.y ^ 2 + v.z ^ 2 = m at *
  generalize (rotateVector q v).x = rx at *
  generalize (rotateVector q v).y = ry at *
  generalize (rotateVector q v).z = rz at *
  generalize w.x = x at *
  generalize w.y = y at *
  generalize w.z = z at *
  unfold Spec.NearUnit at hq hv
  norm_num at hq hv ex ey ez
  norm_num
  rw [abs_le] at hq hv
  obtain ⟨q1, q2⟩ := hq
  obtain ⟨v1, v2⟩ := hv
  have l1 : l ^ 2 ≤ 1 + 3 / 1099511627776 := by nlinarith
  have l2 : 1 - 3 / 1099511627776 ≤ l ^ 2 := by nlinarith
  have m1 : l ^ 2 * m ≤ 1 + 5 / 1099511627776 := by nlinarith
  have m2 : 1 - 5 / 1099511627776 ≤ l ^ 2 * m := by nlinarith
  have sq : ∀ {s r : ℝ}, r ^ 2 ≤ 2 → |s - r| ≤ 1 / 1099511627776 →
      |s ^ 2 - r ^ 2| ≤ 4 / 1099511627776 := by
    intro s r hr hs
    have hr2 : |r| ≤ 3 / 2 := by
      rw [abs_le]; constructor <;> nlinarith
    rw [abs_le] at hs hr2 ⊢
    obtain ⟨h1, h2⟩ := hs
    obtain ⟨h3, h4⟩ := hr2
    constructor <;> nlinarith
  have sx := sq (by nlinarith [sq_nonneg ry, sq_nonneg rz]) ex
  have sy := sq (by nlinarith [sq_nonneg rx, sq_nonneg rz]) ey
  have sz := sq (by nlinarith [sq_nonneg ry, sq_nonneg rx]) ez
  rw [abs_le] at sx sy sz ⊢
  constructor <;> linarith

theorem rotateVectorFl_float (q : Quat) (v : V3 ℝ) :
    fl64 (rotateVectorFl q v).x = (rotateVectorFl q v).x ∧
      fl64 (rotateVectorFl q v).y = (rotateVectorFl q v).y ∧
      fl64 (rotateVectorFl q v).z = (rotateVectorFl q v).z := by
  unfold rotateVectorFl
  simp only
  exact ⟨fl64_idem _, fl64_idem _, fl64_idem _⟩

theorem abs_le_of_nearUnit {t s : ℝ} (h : Spec.NearUnit s) (ht : t ^ 2 ≤ s) : |t| ≤ 5 / 4 := by
  have := (abs_le.mp h).2
  norm_num at this
  rw [abs_le]
  constructor <;> nlinarith

/-- C105: however a crystal is oriented, a pattern is simulated from pixels of the master pattern only:
for a rotation and a direction of length one up to rounding errors, the rotated direction's
interpolation parameters are defined and name pixels in the array. -/
theorem C105_rotated_in_array {atan : ℝ → ℝ} (hatan : Spec.AccurateArctan atan) (fused recip : Bool)
    {q : Quat} {dc : V3 ℝ} (hq : Spec.NearUnit (q.a ^ 2 + q.b ^ 2 + q.c ^ 2 + q.d ^ 2))
    (hv : Spec.NearUnit (dc.x ^ 2 + dc.y ^ 2 + dc.z ^ 2)) {n : ℕ} (hn : 0 < n) (hn31 : n < 2 ^ 31) :
    ∃ p, lambertInterpFl atan fused recip (rotateVectorFl q dc) n n (((n : ℝ) - 1) / 2) = some p ∧
      Spec.InArray n p ∧ Spec.Weights p := by
  obtain ⟨ex, ey, ez⟩ := C105_rotation_error (q := q) (v := dc)
    (abs_le_of_nearUnit hq (by linarith [sq_nonneg q.b, sq_nonneg q.c, sq_nonneg q.d]))
    (abs_le_of_nearUnit hq (by linarith [sq_nonneg q.a, sq_nonneg q.c, sq_nonneg q.d]))
    (abs_le_of_nearUnit hq (by linarith [sq_nonneg q.b, sq_nonneg q.a, sq_nonneg q.d]))
    (abs_le_of_nearUnit hq (by linarith [sq_nonneg q.b, sq_nonneg q.c, sq_nonneg q.a]))
    (abs_le_of_nearUnit hv (by linarith [sq_nonneg dc.y, sq_nonneg dc.z]))
    (abs_le_of_nearUnit hv (by linarith [sq_nonneg dc.x, sq_nonneg dc.z]))
    (abs_le_of_nearUnit hv (by linarith [sq_nonneg dc.x, sq_nonneg dc.y]))
  obtain ⟨fx, fy, fz⟩ := rotateVectorFl_float q dc
  exact C105_in_array hatan fused recip (C105_rotated_any hq hv fx fy fz ex ey ez) hn hn31

/-- A rotation and a direction not on any axis. -/
example : ∃ p, lambertInterpFl Real.arctan false false
    (rotateVectorFl ⟨1 / 2, 1 / 2, -1 / 2, 1 / 2⟩ ⟨2 / 3, -1 / 3, 2 / 3⟩) 1001 1001
      (((1001 : ℕ) - 1) / 2) = some p ∧ Spec.InArray 1001 p ∧ Spec.Weights p :=
  C105_rotated_in_array (fun q _ => by rw [sub_self, abs_zero]; positivity) false false
    (by unfold Spec.NearUnit; norm_num) (by unfold Spec.NearUnit; norm_num) (n := 1001) (by norm_num)
    (by norm_num)

/-- A direction along the detector normal. -/
theorem ex_direction : Spec.FloatDirection ⟨0, 0, 1⟩ :=
  ⟨fl64_zero, fl64_zero, fl64_one, by norm_num⟩

/-- And one that is not on an axis: (3 / 8, 1 / 4, 0.89...) rounded to 20 digits. -/
theorem ex_direction_general : ∃ v, Spec.FloatDirection v ∧ v.x ≠ 0 ∧ v.y ≠ 0 ∧ v.z ≠ 0 := by
  refine ⟨⟨((2 ^ 32 * 3 : ℤ) : ℝ) * 2 ^ (-35 : ℤ), ((2 ^ 33 : ℤ) : ℝ) * 2 ^ (-35 : ℤ),
    ((30672201547 : ℤ) : ℝ) * 2 ^ (-35 : ℤ)⟩, ⟨?_, ?_, ?_, ?_⟩, ?_, ?_, ?_⟩
  · exact fl64_format (by norm_num) (by norm_num [abs_of_pos])
  · exact fl64_format (by norm_num) (by norm_num [abs_of_pos])
  · exact fl64_format (by norm_num) (by norm_num [abs_of_pos])
  · norm_num [abs_le]
  all_goals norm_num

theorem ex_arctan : Spec.AccurateArctan Real.arctan := by
  intro q _
  rw [sub_self, abs_zero]
  positivity

example : ∃ v, v.x ≠ 0 ∧ v.y ≠ 0 ∧ v.z ≠ 0 ∧ ∃ p,
    lambertInterpFl Real.arctan true true v 1001 1001 (((1001 : ℕ) - 1) / 2) = some p ∧
      Spec.InArray 1001 p ∧ Spec.Weights p := by
  obtain ⟨v, hv, hx, hy, hz⟩ := ex_direction_general
  exact ⟨v, hx, hy, hz, C105_in_array ex_arctan true true hv (n := 1001) (by norm_num) (by norm_num)⟩

/-- Without the hypothesis on the length this is not so: for (0, 0, 49/64), multiplied with the
reciprocal of its norm, the projection is not a number. -/
theorem C105_length_needed (atan : ℝ → ℝ) (fused : Bool) :
    vector2lambertFl atan fused true ⟨0, 0, 49 / 64⟩ = none := by
  have hz : fl64 (49 / 64) = 49 / 64 := by
    have := fl64_format (m := 49) (j := -6) (by norm_num) (by norm_num [abs_of_pos])
    norm_num at this ⊢
    exact this
  have hs : sumSquaresFl fused ⟨0, 0, 49 / 64⟩ = fl64 (49 / 64 * (49 / 64)) := by
    unfold sumSquaresFl
    split_ifs <;> simp [fl64_zero, fl64_idem]
  have hn : fl64 (Real.sqrt (sumSquaresFl fused ⟨0, 0, 49 / 64⟩)) = 49 / 64 := by
    rw [hs]; exact fl64_sqrt_sq hz (by norm_num)
  have r1 : fl64 (1 / (49 / 64)) = 5882252574524729 / 2 ^ 52 := by
    unfold fl64
    rw [binaryRound_eq (e := 0) 5882252574524729 (by norm_num) (by norm_num) (by norm_num)
      (by norm_num [abs_lt])]
    norm_num
  have r2 : fl64 (49 / 64 * (5882252574524729 / 2 ^ 52)) = 1 - 1 / 2 ^ 53 := by
    unfold fl64
    rw [binaryRound_eq (e := -1) 9007199254740991 (by norm_num) (by norm_num) (by norm_num)
      (by norm_num [abs_lt])]
    norm_num
  have hw : normalizeFl fused true ⟨0, 0, 49 / 64⟩ = some ⟨0, 0, 1 - 1 / 2 ^ 53⟩ := by
    unfold normalizeFl
    simp only
    rw [hn, if_neg (by norm_num)]
    simp only [overNormFl, if_true, zero_mul, fl64_zero, r1, r2]
  unfold vector2lambertFl
  rw [hw]
  simp only [Option.bind_eq_bind, Option.bind_some, abs_zero, le_refl, if_true]
  rw [if_neg (by norm_num [abs_of_pos])]
  cases sqrtFl (fl64 (2 * fl64 (1 - |1 - 1 / 2 ^ 53|))) <;> rfl

end Kp
