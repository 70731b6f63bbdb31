import Verif.Model.FloatRescale
import Verif.Lemmas.Rescale
import Mathlib.Tactic.LinearCombination
import Mathlib.Tactic.Positivity
import Mathlib.Tactic.Ring
import Mathlib.Tactic.Linarith
import Mathlib.Tactic.FieldSimp
import Mathlib.Tactic.NormNum

/-! Binary rounding is a `Rounding`. -/

namespace Kp
set_option linter.unusedSectionVars false
section
variable {K : Type*} [Field K] [LinearOrder K] [IsStrictOrderedRing K] [FloorRing K]

theorem roundEven_bounds (x : K) : ⌊x⌋ ≤ roundEven x ∧ roundEven x ≤ ⌊x⌋ + 1 := by
  unfold roundEven
  split_ifs <;> omega

theorem roundEven_near (x : K) : |(roundEven x : K) - x| ≤ 1 / 2 := by
  have h1 := Int.floor_le x
  have h2 := Int.lt_floor_add_one x
  unfold roundEven
  rw [abs_le]
  split_ifs <;> push_cast <;> constructor <;> linarith

theorem roundEven_int (z : ℤ) : roundEven (z : K) = z := by
  unfold roundEven
  simp

theorem roundEven_mono {x y : K} (h : x ≤ y) : roundEven x ≤ roundEven y := by
  rcases (Int.floor_mono h).lt_or_eq with hl | he
  · have := (roundEven_bounds x).2
    have := (roundEven_bounds y).1
    omega
  · unfold roundEven
    rw [← he]
    split_ifs <;> first | omega | (exfalso; linarith)

theorem roundEven_of_near {x : K} {m : ℤ} (h : |x - m| < 1 / 2) : roundEven x = m := by
  have h1 := roundEven_near x
  rw [abs_lt] at h
  rw [abs_le] at h1
  have a : (roundEven x : K) < m + 1 := by linarith
  have b : (m : K) < roundEven x + 1 := by linarith
  have a' : roundEven x < m + 1 := by exact_mod_cast a
  have b' : m < roundEven x + 1 := by exact_mod_cast b
  omega

theorem roundEven_neg (x : K) : roundEven (-x) = -roundEven x := by
  have h1 := Int.floor_le x
  have h2 := Int.lt_floor_add_one x
  by_cases hx : x = ⌊x⌋
  · rw [hx, ← Int.cast_neg, roundEven_int, roundEven_int]
  have h3 : (⌊x⌋ : K) < x := lt_of_le_of_ne h1 fun h => hx h.symm
  have hf : ⌊-x⌋ = -⌊x⌋ - 1 := by
    rw [Int.floor_eq_iff]
    push_cast
    constructor <;> linarith
  unfold roundEven
  rw [hf]
  push_cast
  split_ifs <;> first | omega | (exfalso; linarith)

theorem two_zpow_pos (k : ℤ) : (0 : K) < 2 ^ k := zpow_pos (by norm_num) k

theorem lastDigit_ge (p : ℕ) (emin : ℤ) (x : K) : emin ≤ lastDigit p emin x := le_max_right _ _

theorem lastDigit_neg (p : ℕ) (emin : ℤ) (x : K) : lastDigit p emin (-x) = lastDigit p emin x := by
  simp [lastDigit]

theorem binaryRound_neg (p : ℕ) (emin : ℤ) (x : K) : binaryRound p emin (-x) = -binaryRound p emin x := by
  unfold binaryRound
  rw [lastDigit_neg, neg_div, roundEven_neg]
  push_cast
  ring

/-- Rounding with a fixed last digit. -/
theorem scaled_mono {k : ℤ} {x y : K} (h : x ≤ y) :
    (roundEven (x / 2 ^ k) : K) * 2 ^ k ≤ (roundEven (y / 2 ^ k) : K) * 2 ^ k := by
  have hk := two_zpow_pos (K := K) k
  have : roundEven (x / 2 ^ k) ≤ roundEven (y / 2 ^ k) :=
    roundEven_mono (div_le_div_of_nonneg_right h hk.le)
  exact mul_le_mul_of_nonneg_right (by exact_mod_cast this) hk.le

theorem scaled_multiple {k j : ℤ} (h : k ≤ j) (m : ℤ) :
    (roundEven ((m : K) * 2 ^ j / 2 ^ k) : K) * 2 ^ k = m * 2 ^ j := by
  obtain ⟨n, rfl⟩ := Int.le.dest h
  have e : (m : K) * 2 ^ (k + (n : ℤ)) / 2 ^ k = ((m * 2 ^ n : ℤ) : K) := by
    rw [zpow_add₀ (by norm_num)]
    have := (two_zpow_pos (K := K) k).ne'
    push_cast
    rw [zpow_natCast]
    field_simp
  rw [e, roundEven_int, zpow_add₀ (by norm_num)]
  push_cast
  rw [zpow_natCast]
  ring

theorem abs_lt_zpow (p : ℕ) (emin : ℤ) (x : K) : |x| < 2 ^ (lastDigit p emin x + p) := by
  have h := Int.lt_zpow_succ_log_self (b := 2) one_lt_two |x|
  refine lt_of_lt_of_le (by exact_mod_cast h) ?_
  apply zpow_le_zpow_right₀ (by norm_num)
  have : Int.log 2 |x| - p + 1 ≤ lastDigit p emin x := le_max_left _ _
  omega

/-- Numbers of the format are not changed. -/
theorem binaryRound_format {p : ℕ} (hp : 1 ≤ p) {emin : ℤ} {m j : ℤ} (hj : emin ≤ j)
    (hm : |(m : K) * 2 ^ j| ≤ 2 ^ (j + p)) :
    binaryRound p emin ((m : K) * 2 ^ j) = m * 2 ^ j := by
  by_cases h0 : (m : K) * 2 ^ j = 0
  · rw [h0]; simp [binaryRound, roundEven]
  have hpos : 0 < |(m : K) * 2 ^ j| := abs_pos.mpr h0
  rcases hm.lt_or_eq with hlt | heq
  · have hlog : Int.log 2 |(m : K) * 2 ^ j| < j + p :=
      (Int.lt_zpow_iff_log_lt one_lt_two hpos).mp (by exact_mod_cast hlt)
    unfold binaryRound
    apply scaled_multiple
    unfold lastDigit
    rw [max_le_iff]
    constructor <;> omega
  · have hlog : Int.log 2 |(m : K) * 2 ^ j| = j + p := by
      rw [heq]
      have := Int.log_zpow (R := K) (b := 2) one_lt_two (j + p)
      exact_mod_cast this
    have hd : lastDigit p emin ((m : K) * 2 ^ j) ≤ j + p := by
      unfold lastDigit
      rw [hlog, max_le_iff]
      constructor <;> omega
    unfold binaryRound
    generalize lastDigit p emin ((m : K) * 2 ^ j) = k at hd
    rcases abs_eq (two_zpow_pos (K := K) (j + p)).le |>.mp heq with h | h
    · rw [h]
      simpa using scaled_multiple (K := K) hd 1
    · rw [h]
      have := scaled_multiple (K := K) hd (-1)
      push_cast at this
      simpa using this

theorem binaryRound_multiple (p : ℕ) (emin : ℤ) (x : K) : ∃ m j : ℤ, emin ≤ j ∧
    |(m : K) * 2 ^ j| ≤ 2 ^ (j + p) ∧ binaryRound p emin x = m * 2 ^ j := by
  refine ⟨_, lastDigit p emin x, lastDigit_ge p emin x, ?_, rfl⟩
  have h := abs_lt_zpow p emin x
  generalize lastDigit p emin x = k at h
  have up : ∀ y : K, y ≤ 2 ^ (k + (p : ℤ)) → (roundEven (y / 2 ^ k) : K) * 2 ^ k ≤ 2 ^ (k + (p : ℤ)) := by
    intro y hy
    have := scaled_mono (k := k) hy
    have e := scaled_multiple (K := K) (k := k) (j := k + p) (by omega) 1
    push_cast at e
    rw [one_mul] at e
    rwa [e] at this
  rw [abs_lt] at h
  rw [abs_le]
  constructor
  · have := up (-x) (by linarith)
    rw [neg_div, roundEven_neg] at this
    push_cast at this
    linarith
  · exact up x h.2.le

theorem binaryRound_idem {p : ℕ} (hp : 1 ≤ p) (emin : ℤ) (x : K) :
    binaryRound p emin (binaryRound p emin x) = binaryRound p emin x := by
  obtain ⟨m, j, hj, hm, he⟩ := binaryRound_multiple p emin x
  rw [he]
  exact binaryRound_format hp hj hm

theorem binaryRound_nonneg (p : ℕ) (emin : ℤ) {x : K} (h : 0 ≤ x) : 0 ≤ binaryRound p emin x := by
  have := scaled_mono (k := lastDigit p emin x) h
  simpa [binaryRound, roundEven] using this

theorem binaryRound_mono_pos {p : ℕ} (hp : 1 ≤ p) (emin : ℤ) {x y : K} (hx : 0 < x) (h : x ≤ y) :
    binaryRound p emin x ≤ binaryRound p emin y := by
  have hy : 0 < y := lt_of_lt_of_le hx h
  have hlog : Int.log 2 |x| ≤ Int.log 2 |y| := by
    rw [abs_of_pos hx, abs_of_pos hy]
    exact Int.log_mono_right hx h
  have hk : lastDigit p emin x ≤ lastDigit p emin y := by
    unfold lastDigit
    exact max_le_max (by omega) le_rfl
  rcases hk.lt_or_eq with hlt | heq
  · -- a power of two is between them
    have hly : lastDigit p emin y = Int.log 2 |y| - p + 1 := by
      have := lastDigit_ge p emin x
      unfold lastDigit at hlt this ⊢
      omega
    have hle : (2 : K) ^ Int.log 2 |y| ≤ y := by
      have := Int.zpow_log_le_self (b := 2) (r := |y|) one_lt_two (by rwa [abs_of_pos hy])
      rw [abs_of_pos hy] at this ⊢
      exact_mod_cast this
    have hge : x ≤ (2 : K) ^ Int.log 2 |y| := by
      have h1 := abs_lt_zpow p emin x
      rw [abs_of_pos hx] at h1
      refine h1.le.trans ?_
      apply zpow_le_zpow_right₀ (by norm_num)
      omega
    have a := scaled_mono (k := lastDigit p emin x) hge
    have b := scaled_mono (k := lastDigit p emin y) hle
    have ea := scaled_multiple (K := K) (k := lastDigit p emin x) (j := Int.log 2 |y|) (by omega) 1
    have eb := scaled_multiple (K := K) (k := lastDigit p emin y) (j := Int.log 2 |y|) (by omega) 1
    push_cast at ea eb
    rw [one_mul] at ea eb
    rw [ea] at a
    rw [eb] at b
    exact a.trans b
  · unfold binaryRound
    rw [heq]
    exact scaled_mono h

theorem binaryRound_mono {p : ℕ} (hp : 1 ≤ p) (emin : ℤ) : Monotone (binaryRound (K := K) p emin) := by
  intro x y h
  rcases lt_or_ge 0 x with hx | hx
  · exact binaryRound_mono_pos hp emin hx h
  rcases lt_or_ge y 0 with hy | hy
  · have := binaryRound_mono_pos hp emin (x := -y) (y := -x) (by linarith) (by linarith)
    rw [binaryRound_neg, binaryRound_neg] at this
    linarith
  · have a := binaryRound_nonneg p emin hy
    have b := binaryRound_nonneg p emin (x := -x) (by linarith)
    rw [binaryRound_neg] at b
    linarith

/-- IEEE 754 rounding (without overflow) is a `Rounding`. -/
def Rounding.binary (p : ℕ) (emin : ℤ) (hp : 1 ≤ p) (he : emin ≤ 0) : Rounding K where
  fl := binaryRound p emin
  mono := binaryRound_mono hp emin
  idem := binaryRound_idem hp emin
  zero := by simp [binaryRound, roundEven]
  one := by
    have := binaryRound_format (K := K) hp (m := 1) (j := 0) he (by
      simp only [Int.cast_one, zpow_zero, mul_one, abs_one, zero_add, zpow_natCast]
      exact one_le_pow₀ (by norm_num))
    simpa using this
  pos := by
    intro a b ha hb hab
    obtain ⟨m, j, hj, _, hm⟩ := binaryRound_multiple p emin a
    obtain ⟨n, i, hi, _, hn⟩ := binaryRound_multiple p emin b
    rw [ha] at hm
    rw [hb] at hn
    obtain ⟨s, rfl⟩ := Int.le.dest hj
    obtain ⟨t, rfl⟩ := Int.le.dest hi
    have hu := two_zpow_pos (K := K) emin
    have e : b - a = ((n * 2 ^ t - m * 2 ^ s : ℤ) : K) * 2 ^ emin := by
      rw [hm, hn, zpow_add₀ (by norm_num), zpow_add₀ (by norm_num)]
      push_cast
      rw [zpow_natCast, zpow_natCast]
      ring
    have hge : (2 : K) ^ emin ≤ b - a := by
      have h0 : 0 < ((n * 2 ^ t - m * 2 ^ s : ℤ) : K) := by
        by_contra hn
        push Not at hn
        have := mul_nonpos_of_nonpos_of_nonneg hn hu.le
        linarith
      have h1 : (1 : ℤ) ≤ n * 2 ^ t - m * 2 ^ s := by
        have : 0 < n * 2 ^ t - m * 2 ^ s := by exact_mod_cast h0
        omega
      have h2 : (1 : K) ≤ ((n * 2 ^ t - m * 2 ^ s : ℤ) : K) := by exact_mod_cast h1
      rw [e]
      exact le_mul_of_one_le_left hu.le h2
    have h1 := binaryRound_format (K := K) hp (emin := emin) (m := 1) (j := emin) le_rfl (by
      rw [Int.cast_one, one_mul, abs_of_pos hu]
      exact zpow_le_zpow_right₀ (by norm_num) (by omega))
    rw [Int.cast_one, one_mul] at h1
    have := binaryRound_mono hp emin hge
    rw [h1] at this
    exact lt_of_lt_of_le hu this

/-- The relative error of rounding numbers which are not too small. -/
theorem binaryRound_error (p : ℕ) (emin : ℤ) {x : K} (h : 2 ^ (emin + p - 1) ≤ |x|) :
    |binaryRound p emin x - x| ≤ 2 ^ (-(p : ℤ)) * |x| := by
  have h0 : 0 < |x| := lt_of_lt_of_le (two_zpow_pos _) h
  have hlog : emin + p - 1 ≤ Int.log 2 |x| := by
    by_contra hc
    push Not at hc
    have := (Int.lt_zpow_iff_log_lt (R := K) one_lt_two h0).mpr hc
    exact absurd h (not_le.mpr (by exact_mod_cast this))
  have hk : lastDigit p emin x = Int.log 2 |x| - p + 1 := by
    unfold lastDigit
    omega
  have hle : (2 : K) ^ Int.log 2 |x| ≤ |x| := by
    have := Int.zpow_log_le_self (b := 2) one_lt_two h0
    exact_mod_cast this
  have hu := two_zpow_pos (K := K) (lastDigit p emin x)
  have near := roundEven_near (x / 2 ^ lastDigit p emin x)
  have e : binaryRound p emin x - x =
      (roundEven (x / 2 ^ lastDigit p emin x) - x / 2 ^ lastDigit p emin x) *
        2 ^ lastDigit p emin x := by
    unfold binaryRound
    field_simp
  rw [e, abs_mul, abs_of_pos hu]
  calc _ ≤ 1 / 2 * 2 ^ lastDigit p emin x := mul_le_mul_of_nonneg_right near hu.le
    _ = 2 ^ (-(p : ℤ)) * 2 ^ Int.log 2 |x| := by
      rw [hk, ← zpow_add₀ (by norm_num), show (1 / 2 : K) = 2 ^ (-1 : ℤ) by norm_num,
        ← zpow_add₀ (by norm_num)]
      congr 1
      ring
    _ ≤ _ := mul_le_mul_of_nonneg_left hle (two_zpow_pos _).le

/-- Rounding of a concrete number. -/
theorem binaryRound_eq {p : ℕ} {emin e : ℤ} {x : K} (m : ℤ) (h1 : 2 ^ e ≤ x) (h2 : x < 2 ^ (e + 1))
    (he : emin ≤ e - p + 1) (hm : |x / 2 ^ (e - p + 1) - m| < 1 / 2) :
    binaryRound p emin x = m * 2 ^ (e - p + 1) := by
  have hx : 0 < x := lt_of_lt_of_le (two_zpow_pos _) h1
  have hlog : Int.log 2 |x| = e := by
    rw [abs_of_pos hx]
    have a := (Int.lt_zpow_iff_log_lt (R := K) (x := e + 1) one_lt_two hx).mp (by exact_mod_cast h2)
    by_contra hne
    have b : Int.log 2 x < e := by omega
    have := (Int.lt_zpow_iff_log_lt (R := K) (x := e) one_lt_two hx).mpr b
    exact absurd h1 (not_le.mpr (by exact_mod_cast this))
  have hk : lastDigit p emin x = e - p + 1 := by
    unfold lastDigit
    rw [hlog]
    omega
  unfold binaryRound
  rw [hk, roundEven_of_near hm]

end
end Kp
