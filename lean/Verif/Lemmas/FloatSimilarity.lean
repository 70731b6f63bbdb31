import Verif.Model.FloatSimilarity
import Verif.Lemmas.FloatRescale
import Mathlib.Analysis.Real.Sqrt
import Mathlib.Algebra.Order.Chebyshev
import Mathlib.Algebra.Order.BigOperators.Ring.Finset
import Mathlib.Tactic.Linarith
import Mathlib.Tactic.FieldSimp
import Mathlib.Tactic.Ring
import Mathlib.Tactic.Positivity
import Mathlib.Tactic.LinearCombination
import Mathlib.Tactic.NormNum

/-! Error analysis of floating point sums, norms and dot products. -/

namespace Kp
open Finset

/-! ### The error of rounding -/

theorem binaryRound_abs_error (p : ℕ) (emin : ℤ) (x : ℝ) :
    |binaryRound p emin x - x| ≤ 2 ^ (-(p : ℤ)) * |x| + 2 ^ (emin - 1) := by
  have hu := two_zpow_pos (K := ℝ) (lastDigit p emin x)
  by_cases h : 2 ^ (emin + p - 1) ≤ |x|
  · have := binaryRound_error p emin h
    have := two_zpow_pos (K := ℝ) (emin - 1)
    linarith
  · push Not at h
    by_cases hx : x = 0
    · subst hx
      have h0 : binaryRound (K := ℝ) p emin 0 = 0 := by
        unfold binaryRound
        rw [zero_div]
        have := roundEven_int (K := ℝ) 0
        rw [Int.cast_zero] at this
        rw [this]
        simp
      rw [h0]
      have := two_zpow_pos (K := ℝ) (emin - 1)
      simp [this.le]
    · have h0 : 0 < |x| := abs_pos.mpr hx
      have hlog : Int.log 2 |x| < emin + p - 1 :=
        (Int.lt_zpow_iff_log_lt (R := ℝ) one_lt_two h0).mp (by exact_mod_cast h)
      have hk : lastDigit p emin x = emin := by
        unfold lastDigit
        omega
      have near := roundEven_near (x / 2 ^ lastDigit p emin x)
      have e : binaryRound p emin x - x =
          (roundEven (x / 2 ^ lastDigit p emin x) - x / 2 ^ lastDigit p emin x) *
            2 ^ lastDigit p emin x := by
        unfold binaryRound
        field_simp
      rw [e, abs_mul, abs_of_pos hu]
      have h1 : |(roundEven (x / 2 ^ lastDigit p emin x) : ℝ) - x / 2 ^ lastDigit p emin x| *
          2 ^ lastDigit p emin x ≤ 1 / 2 * 2 ^ lastDigit p emin x :=
        mul_le_mul_of_nonneg_right near hu.le
      have h2 : (1 / 2 : ℝ) * 2 ^ lastDigit p emin x = 2 ^ (emin - 1) := by
        rw [hk, show (1 / 2 : ℝ) = 2 ^ (-1 : ℤ) by norm_num, ← zpow_add₀ (by norm_num)]
        congr 1
        ring
      have h3 : (0 : ℝ) ≤ 2 ^ (-(p : ℤ)) * |x| := mul_nonneg (two_zpow_pos _).le h0.le
      linarith

/-! ### Powers -/

theorem one_add_pow_le {u : ℝ} (hu : 0 ≤ u) {k : ℕ} (hk : k * u ≤ 1 / 64) :
    (1 + u) ^ k - 1 ≤ 64 / 63 * (k * u) := by
  rcases Nat.eq_zero_or_pos k with rfl | hpos
  · simp
  have hk1 : (1 : ℝ) ≤ k := by exact_mod_cast hpos
  have hu1 : u ≤ 1 / 64 := by nlinarith
  have hb : 1 + (k : ℝ) * (-u) ≤ (1 + -u) ^ k := one_add_mul_le_pow (by linarith) k
  have hm : (1 + u) ^ k * (1 + -u) ^ k ≤ 1 := by
    rw [← mul_pow]
    exact pow_le_one₀ (by nlinarith) (by nlinarith)
  have hp : 0 < (1 + u) ^ k := by positivity
  have h1 : (1 + u) ^ k * (1 - k * u) ≤ 1 :=
    le_trans (mul_le_mul_of_nonneg_left (by linarith) hp.le) hm
  have hku : 0 ≤ (k : ℝ) * u := by positivity
  have h2 : (1 + u) ^ k ≤ 64 / 63 := by nlinarith
  nlinarith

/-! ### Sums -/

section
variable {ι : Type*} {fl : ℝ → ℝ} {u η : ℝ}

theorem SumOrder.pixels_pos (s : SumOrder ι) : 1 ≤ s.pixels.length := by
  cases s with
  | term i => simp [SumOrder.pixels]
  | plus l r =>
    have := l.pixels_pos
    simp only [SumOrder.pixels, List.length_append]
    omega
  | fused l i => simp [SumOrder.pixels]

/-- Error of one rounded addition, given the errors of what is added. -/
theorem add_error (hfl : ∀ x, |fl x - x| ≤ u * |x| + η) (hu : 0 ≤ u) {x y x' y' A B ex ey : ℝ}
    (hx : |x' - x| ≤ ex) (hy : |y' - y| ≤ ey) (hA : |x| ≤ A) (hB : |y| ≤ B) :
    |fl (x' + y') - (x + y)| ≤ (1 + u) * (ex + ey) + u * (A + B) + η := by
  have h := hfl (x' + y')
  have e : fl (x' + y') - (x + y) = (fl (x' + y') - (x' + y')) + ((x' - x) + (y' - y)) := by ring
  have h1 : |x' + y'| ≤ A + B + (ex + ey) := by
    have e : x' + y' = (x + y) + ((x' - x) + (y' - y)) := by ring
    rw [e]
    refine (abs_add_le _ _).trans ?_
    have := abs_add_le x y
    have := abs_add_le (x' - x) (y' - y)
    linarith
  rw [e]
  refine (abs_add_le _ _).trans ?_
  have h2 := abs_add_le (x' - x) (y' - y)
  have h3 := mul_le_mul_of_nonneg_left h1 hu
  linarith

theorem sum_abs_le_abs (l : List ι) (f : ι → ℝ) : |(l.map f).sum| ≤ (l.map fun i => |f i|).sum := by
  induction l with
  | nil => simp
  | cons i l ih =>
    simp only [List.map_cons, List.sum_cons]
    exact (abs_add_le _ _).trans (by linarith)

/-- The error of a sum in any order. -/
theorem SumOrder.eval_error (hfl : ∀ x, |fl x - x| ≤ u * |x| + η) (hu : 0 ≤ u) (hη : 0 ≤ η)
    (a b : ι → ℝ) (s : SumOrder ι) :
    |s.eval fl a b - (s.pixels.map fun i => a i * b i).sum| ≤
      ((1 + u) ^ s.pixels.length - 1) * (s.pixels.map fun i => |a i * b i|).sum +
        (2 * s.pixels.length - 1) * (1 + u) ^ s.pixels.length * η := by
  have hu1 : 1 ≤ 1 + u := by linarith
  have key : ∀ (k₁ k₂ : ℕ) (A B ex ey : ℝ), 1 ≤ k₁ → 1 ≤ k₂ → 0 ≤ A → 0 ≤ B →
      ex ≤ ((1 + u) ^ k₁ - 1) * A + (2 * k₁ - 1) * (1 + u) ^ k₁ * η →
      ey ≤ ((1 + u) ^ k₂ - 1) * B + (2 * k₂ - 1) * (1 + u) ^ k₂ * η →
      (1 + u) * (ex + ey) + u * (A + B) + η ≤
        ((1 + u) ^ (k₁ + k₂) - 1) * (A + B) +
          (2 * ((k₁ + k₂ : ℕ) : ℝ) - 1) * (1 + u) ^ (k₁ + k₂) * η := by
    intro k₁ k₂ A B ex ey h1 h2 hA hB hx hy
    have c1 : (1 + u) ^ (k₁ + 1) ≤ (1 + u) ^ (k₁ + k₂) := pow_le_pow_right₀ hu1 (by omega)
    have c2 : (1 + u) ^ (k₂ + 1) ≤ (1 + u) ^ (k₁ + k₂) := pow_le_pow_right₀ hu1 (by omega)
    have c0 : 1 ≤ (1 + u) ^ (k₁ + k₂) := one_le_pow₀ hu1
    have r1 : (1 : ℝ) ≤ k₁ := by exact_mod_cast h1
    have r2 : (1 : ℝ) ≤ k₂ := by exact_mod_cast h2
    rw [pow_succ] at c1 c2
    push_cast
    set c := (1 + u) ^ (k₁ + k₂)
    set d₁ := (1 + u) ^ k₁
    set d₂ := (1 + u) ^ k₂
    have e1 : (1 + u) * ex ≤ (d₁ * (1 + u) - (1 + u)) * A + (2 * k₁ - 1) * (d₁ * (1 + u)) * η := by
      have := mul_le_mul_of_nonneg_left hx (by linarith : (0 : ℝ) ≤ 1 + u)
      linarith
    have e2 : (1 + u) * ey ≤ (d₂ * (1 + u) - (1 + u)) * B + (2 * k₂ - 1) * (d₂ * (1 + u)) * η := by
      have := mul_le_mul_of_nonneg_left hy (by linarith : (0 : ℝ) ≤ 1 + u)
      linarith
    have f1 := mul_le_mul_of_nonneg_right c1 hA
    have f2 := mul_le_mul_of_nonneg_right c2 hB
    have g1 : (2 * k₁ - 1) * (d₁ * (1 + u)) * η ≤ (2 * k₁ - 1) * c * η :=
      mul_le_mul_of_nonneg_right (mul_le_mul_of_nonneg_left c1 (by linarith)) hη
    have g2 : (2 * k₂ - 1) * (d₂ * (1 + u)) * η ≤ (2 * k₂ - 1) * c * η :=
      mul_le_mul_of_nonneg_right (mul_le_mul_of_nonneg_left c2 (by linarith)) hη
    have g3 : η ≤ c * η := le_mul_of_one_le_left hη c0
    linarith
  have absnn : ∀ l : List ι, 0 ≤ (l.map fun i => |a i * b i|).sum := fun l =>
    List.sum_nonneg (by
      intro x hx
      obtain ⟨i, -, rfl⟩ := List.mem_map.mp hx
      exact abs_nonneg _)
  induction s with
  | term i =>
    simp only [SumOrder.eval, SumOrder.pixels, List.map_cons, List.map_nil, List.sum_cons, List.sum_nil,
      add_zero, List.length_singleton, pow_one, Nat.cast_one]
    have h := hfl (a i * b i)
    have : 0 ≤ u * η := mul_nonneg hu hη
    linarith
  | plus l r ihl ihr =>
    simp only [SumOrder.eval, SumOrder.pixels, List.map_append, List.sum_append, List.length_append]
    exact (add_error hfl hu ihl ihr (sum_abs_le_abs _ _) (sum_abs_le_abs _ _)).trans
      (key _ _ _ _ _ _ l.pixels_pos r.pixels_pos (absnn _) (absnn _) le_rfl le_rfl)
  | fused l i ih =>
    simp only [SumOrder.eval, SumOrder.pixels, List.map_append, List.sum_append, List.length_append,
      List.map_cons, List.map_nil, List.sum_cons, List.sum_nil, add_zero, List.length_singleton]
    refine (add_error (y := a i * b i) (ey := 0) hfl hu ih (by simp) (sum_abs_le_abs _ _) le_rfl).trans
      (key _ 1 _ _ _ _ l.pixels_pos le_rfl (absnn _) (abs_nonneg _) le_rfl ?_)
    rw [pow_one]
    push_cast
    have : 0 ≤ u * |a i * b i| := mul_nonneg hu (abs_nonneg _)
    have : 0 ≤ (1 + u) * η := mul_nonneg (by linarith) hη
    linarith

end

/-! ### Sums over all pixels -/

section
variable {ι : Type*} [Fintype ι] {fl : ℝ → ℝ} {u η : ℝ}

theorem sum_of_perm {s : SumOrder ι} (h : s.pixels.Perm Finset.univ.toList) (f : ι → ℝ) :
    (s.pixels.map f).sum = ∑ i, f i := by
  rw [(h.map f).sum_eq, Finset.sum_map_toList]

theorem length_of_perm {s : SumOrder ι} (h : s.pixels.Perm Finset.univ.toList) :
    s.pixels.length = Fintype.card ι := by
  rw [h.length_eq, Finset.length_toList]
  rfl

/-- What is assumed of rounding and the number of pixels. -/
structure SmallError (fl : ℝ → ℝ) (u η : ℝ) (n : ℕ) : Prop where
  error : ∀ x, |fl x - x| ≤ u * |x| + η
  u_pos : 0 < u
  η_pos : 0 < η
  η_le : η ≤ u ^ 4
  n_pos : 1 ≤ n
  n_le : n * u ≤ 1 / 64

theorem SmallError.u_le {n : ℕ} (h : SmallError fl u η n) : u ≤ 1 / 64 := by
  have := h.n_le
  have h1 : (1 : ℝ) ≤ n := by exact_mod_cast h.n_pos
  have := h.u_pos
  nlinarith

/-- The underflow in a sum is negligible. -/
theorem SmallError.nη_le {n : ℕ} (h : SmallError fl u η n) : n * η ≤ u ^ 3 / 64 := by
  have h1 : (n : ℝ) * η ≤ n * u ^ 4 := mul_le_mul_of_nonneg_left h.η_le (Nat.cast_nonneg n)
  have h2 : n * u * u ^ 3 ≤ 1 / 64 * u ^ 3 :=
    mul_le_mul_of_nonneg_right h.n_le (by have := h.u_pos; positivity)
  linarith [h1, h2, show (n : ℝ) * u ^ 4 = n * u * u ^ 3 by ring]

/-- The error of a sum over all pixels. -/
theorem SmallError.sum_error (h : SmallError fl u η (Fintype.card ι)) {s : SumOrder ι}
    (hs : s.pixels.Perm Finset.univ.toList) (a b : ι → ℝ) :
    |s.eval fl a b - ∑ i, a i * b i| ≤
      64 / 63 * (Fintype.card ι * u) * ∑ i, |a i * b i| + u ^ 3 / 16 := by
  have e := s.eval_error h.error h.u_pos.le h.η_pos.le a b
  rw [sum_of_perm hs, sum_of_perm hs, length_of_perm hs] at e
  have hp := one_add_pow_le h.u_pos.le h.n_le
  have hnn : 0 ≤ ∑ i, |a i * b i| := Finset.sum_nonneg fun i _ => abs_nonneg _
  have h1 := mul_le_mul_of_nonneg_right hp hnn
  have hc : (1 + u) ^ Fintype.card ι ≤ 2 := by
    have := h.n_le
    linarith
  have h2 : (2 * (Fintype.card ι : ℝ) - 1) * (1 + u) ^ Fintype.card ι * η ≤
      2 * Fintype.card ι * 2 * η := by
    apply mul_le_mul_of_nonneg_right _ h.η_pos.le
    have : (1 : ℝ) ≤ Fintype.card ι := by exact_mod_cast h.n_pos
    have hp0 : 0 < (1 + u) ^ Fintype.card ι := by have := h.u_pos; positivity
    nlinarith
  have h3 := h.nη_le
  linarith

/-! ### Euclidean length -/

/-- Length of a pattern as a vector. -/
noncomputable def vlen (a : ι → ℝ) : ℝ := Real.sqrt (∑ i, a i ^ 2)

theorem vlen_nonneg (a : ι → ℝ) : 0 ≤ vlen a := Real.sqrt_nonneg _

theorem vlen_sq (a : ι → ℝ) : vlen a ^ 2 = ∑ i, a i ^ 2 :=
  Real.sq_sqrt (Finset.sum_nonneg fun _ _ => sq_nonneg _)

theorem sum_abs_mul_le (a b : ι → ℝ) : ∑ i, |a i * b i| ≤ vlen a * vlen b := by
  have h := Finset.sum_mul_sq_le_sq_mul_sq Finset.univ (fun i => |a i|) (fun i => |b i|)
  simp only [sq_abs] at h
  rw [← vlen_sq, ← vlen_sq, ← mul_pow] at h
  simp only [abs_mul]
  exact (abs_le.mp (abs_le_of_sq_le_sq h (mul_nonneg (vlen_nonneg a) (vlen_nonneg b)))).2

theorem dot_abs_le (a b : ι → ℝ) : |∑ i, a i * b i| ≤ vlen a * vlen b :=
  (Finset.abs_sum_le_sum_abs _ _).trans (sum_abs_mul_le a b)

theorem vlen_add_le (a b : ι → ℝ) : vlen (fun i => a i + b i) ≤ vlen a + vlen b := by
  apply Real.sqrt_le_iff.mpr
  refine ⟨add_nonneg (vlen_nonneg a) (vlen_nonneg b), ?_⟩
  have h := (abs_le.mp (dot_abs_le a b)).2
  have e : ∑ i, (a i + b i) ^ 2 = vlen a ^ 2 + 2 * ∑ i, a i * b i + vlen b ^ 2 := by
    rw [vlen_sq, vlen_sq, Finset.mul_sum, ← Finset.sum_add_distrib, ← Finset.sum_add_distrib]
    exact Finset.sum_congr rfl fun i _ => by ring
  rw [e]
  linarith [h, show (vlen a + vlen b) ^ 2 = vlen a ^ 2 + 2 * (vlen a * vlen b) + vlen b ^ 2 by ring]

theorem vlen_mono {a b : ι → ℝ} (h : ∀ i, |a i| ≤ |b i|) : vlen a ≤ vlen b :=
  Real.sqrt_le_sqrt (Finset.sum_le_sum fun i _ => sq_le_sq.mpr (h i))

theorem vlen_smul (c : ℝ) (a : ι → ℝ) : vlen (fun i => c * a i) = |c| * vlen a := by
  unfold vlen
  simp only [mul_pow, ← Finset.mul_sum]
  rw [Real.sqrt_mul (sq_nonneg c), Real.sqrt_sq_eq_abs]

theorem vlen_abs (a : ι → ℝ) : vlen (fun i => |a i|) = vlen a := by
  unfold vlen
  simp only [sq_abs]

theorem vlen_const_le (c : ℝ) : vlen (fun _ : ι => c) ≤ Fintype.card ι * |c| := by
  unfold vlen
  rw [Finset.sum_const, nsmul_eq_mul, Finset.card_univ]
  apply Real.sqrt_le_iff.mpr
  refine ⟨by positivity, ?_⟩
  rw [mul_pow, sq_abs]
  apply mul_le_mul_of_nonneg_right _ (sq_nonneg c)
  rcases Nat.eq_zero_or_pos (Fintype.card ι) with h | h
  · simp [h]
  · have : (1 : ℝ) ≤ Fintype.card ι := by exact_mod_cast h
    nlinarith

/-- A difference bounded by a multiple of a pattern and a constant. -/
theorem vlen_of_bound {d a : ι → ℝ} {κ c : ℝ} (hκ : 0 ≤ κ) (hc : 0 ≤ c)
    (h : ∀ i, |d i| ≤ κ * |a i| + c) : vlen d ≤ κ * vlen a + Fintype.card ι * c := by
  have h1 : vlen d ≤ vlen (fun i => κ * |a i| + c) := vlen_mono fun i => by
    rw [abs_of_nonneg (add_nonneg (mul_nonneg hκ (abs_nonneg (a i))) hc)]
    exact h i
  have h2 := vlen_add_le (fun i => κ * |a i|) (fun _ => c)
  rw [vlen_smul, vlen_abs, abs_of_nonneg hκ] at h2
  have h3 := vlen_const_le (ι := ι) c
  rw [abs_of_nonneg hc] at h3
  linarith

/-- The difference of two dot products. -/
theorem dot_sub_le (a b a' b' : ι → ℝ) :
    |∑ i, a' i * b' i - ∑ i, a i * b i| ≤
      vlen (fun i => a' i - a i) * vlen b' + vlen a * vlen (fun i => b' i - b i) := by
  have e : ∑ i, a' i * b' i - ∑ i, a i * b i =
      ∑ i, (a' i - a i) * b' i + ∑ i, a i * (b' i - b i) := by
    rw [← Finset.sum_sub_distrib, ← Finset.sum_add_distrib]
    exact Finset.sum_congr rfl fun i _ => by ring
  rw [e]
  exact (abs_add_le _ _).trans (add_le_add (dot_abs_le _ _) (dot_abs_le _ _))

/-- The direction of a pattern. -/
noncomputable def dirn (a : ι → ℝ) : ι → ℝ := fun i => a i / vlen a

theorem vlen_dirn {a : ι → ℝ} (h : 0 < vlen a) : vlen (dirn a) = 1 := by
  have e : dirn a = fun i => (vlen a)⁻¹ * a i := by
    funext i
    unfold dirn
    rw [div_eq_inv_mul]
  rw [e, vlen_smul, abs_of_pos (inv_pos.mpr h), inv_mul_cancel₀ h.ne']

theorem vlen_le_of_sub (a b : ι → ℝ) : vlen a ≤ vlen b + vlen (fun i => a i - b i) := by
  have h := vlen_add_le b (fun i => a i - b i)
  simpa using h

/-- Directions of patterns which are close to each other. -/
theorem dirn_sub_le {a b : ι → ℝ} (ha : 0 < vlen a) (hb : 0 < vlen b) :
    vlen (fun i => dirn b i - dirn a i) ≤ 2 * vlen (fun i => b i - a i) / vlen a := by
  have e : (fun i => dirn b i - dirn a i) = fun i =>
      (vlen a)⁻¹ * (b i - a i) + (vlen a - vlen b) / vlen a * dirn b i := by
    funext i
    unfold dirn
    field_simp
    ring
  rw [e]
  refine (vlen_add_le _ _).trans ?_
  rw [vlen_smul, vlen_smul, vlen_dirn hb, abs_of_pos (inv_pos.mpr ha), mul_one, abs_div,
    abs_of_pos ha]
  have h1 := vlen_le_of_sub a b
  have h2 := vlen_le_of_sub b a
  have h3 : vlen (fun i => a i - b i) = vlen (fun i => b i - a i) := by
    unfold vlen
    congr 1
    exact Finset.sum_congr rfl fun i _ => by ring
  have h4 : |vlen a - vlen b| ≤ vlen (fun i => b i - a i) := by
    rw [abs_le]
    constructor <;> linarith
  have h5 := div_le_div_of_nonneg_right h4 ha.le
  rw [inv_mul_eq_div]
  have h6 : 2 * vlen (fun i => b i - a i) / vlen a =
      vlen (fun i => b i - a i) / vlen a + vlen (fun i => b i - a i) / vlen a := by ring
  linarith

/-! ### Normalization -/

/-- The error of the rounded length. -/
theorem SmallError.norm_error (h : SmallError fl u η (Fintype.card ι)) {s : SumOrder ι}
    (hs : s.pixels.Perm Finset.univ.toList) {p : ι → ℝ} (hp : u ≤ ∑ i, p i ^ 2) :
    |fl (Real.sqrt (s.eval fl p p)) - vlen p| ≤
      (11 / 20 * (Fintype.card ι * u) + 16 / 10 * u) * vlen p := by
  set n : ℝ := (Fintype.card ι : ℝ)
  have hu := h.u_pos
  have hu64 := h.u_le
  have hn1 : (1 : ℝ) ≤ n := by simp only [n]; exact_mod_cast h.n_pos
  have hnu := h.n_le
  have e := h.sum_error hs p p
  have e1 : ∑ i, p i * p i = vlen p ^ 2 := by
    rw [vlen_sq]
    exact Finset.sum_congr rfl fun i _ => by ring
  have e2 : ∑ i, |p i * p i| = vlen p ^ 2 := by
    rw [← e1]
    exact Finset.sum_congr rfl fun i _ => abs_of_nonneg (mul_self_nonneg _)
  rw [e1, e2] at e
  rw [← vlen_sq] at hp
  set r := vlen p with hr
  have hr0 : 0 ≤ r := vlen_nonneg p
  have hrpos : 0 < r := by
    rcases hr0.lt_or_eq with h1 | h1
    · exact h1
    · rw [← h1] at hp; norm_num at hp; linarith
  have hru : u ≤ r := by
    by_contra hc
    push Not at hc
    nlinarith
  set t := s.eval fl p p
  have hu3 : u ^ 3 / 16 ≤ u / 100 * r ^ 2 := by
    have h1 : u ^ 2 ≤ 1 / 64 * (1 / 64) := by nlinarith
    have : u ^ 3 / 16 ≤ u / 100 * u := by nlinarith
    nlinarith
  -- relative error of the sum of squares
  have hrel : |t - r ^ 2| ≤ (64 / 63 * (n * u) + u / 100) * r ^ 2 := by linarith
  set w := 64 / 63 * (n * u) + u / 100 with hw
  have hw0 : 0 ≤ w := by positivity
  have hw1 : w ≤ 1 / 50 := by linarith
  obtain ⟨l1, l2⟩ := abs_le.mp hrel
  have hr2 : 0 < r ^ 2 := by positivity
  have ht : 0 < t := by nlinarith
  set q := Real.sqrt t
  have hq0 : 0 < q := Real.sqrt_pos.mpr ht
  have hqq : q * q = t := Real.mul_self_sqrt ht.le
  have hq98 : 49 / 50 * r ≤ q := by
    apply Real.le_sqrt_of_sq_le
    nlinarith
  have hq : |q - r| ≤ 51 / 100 * w * r := by
    have hs0 : 0 < q + r := by linarith
    have h1 : |q - r| * (q + r) ≤ w * r ^ 2 := by
      rw [← abs_of_pos hs0, ← abs_mul, show (q - r) * (q + r) = q * q - r ^ 2 by ring, hqq]
      exact hrel
    have h2 : |q - r| * (99 / 50 * r) ≤ w * r ^ 2 :=
      le_trans (mul_le_mul_of_nonneg_left (by linarith) (abs_nonneg _)) h1
    have h3 : |q - r| * (99 / 50) * r ≤ w * r * r := by linarith
    have h4 := le_of_mul_le_mul_right h3 hrpos
    have : 0 ≤ w * r := by positivity
    linarith
  have hf := h.error q
  rw [abs_of_pos hq0] at hf
  have hη : η ≤ u / 100 * r := by
    have h1 := h.η_le
    have h2 : u ^ 4 ≤ u / 100 * u := by
      have : u ^ 2 ≤ 1 / 64 * (1 / 64) := by nlinarith
      nlinarith [mul_pos hu hu]
    nlinarith
  have hq2 : q ≤ 102 / 100 * r := by
    have h1 := (abs_le.mp hq).2
    have : w * r ≤ 1 / 50 * r := mul_le_mul_of_nonneg_right hw1 hr0
    linarith
  have e3 : fl q - r = (fl q - q) + (q - r) := by ring
  rw [e3]
  refine (abs_add_le _ _).trans ?_
  have h5 := mul_le_mul_of_nonneg_left hq2 hu.le
  have h6 : 0 ≤ n * u * r := by positivity
  have h7 : 0 ≤ u * r := by positivity
  rw [hw] at hq
  nlinarith

/-- The error of a normalized pattern. -/
theorem SmallError.normalize_error (h : SmallError fl u η (Fintype.card ι)) {s : SumOrder ι}
    (hs : s.pixels.Perm Finset.univ.toList) {p : ι → ℝ} (hp : u ≤ ∑ i, p i ^ 2) :
    vlen (fun i => normalizeFloat fl s p i - dirn p i) ≤ 6 / 10 * (Fintype.card ι * u) + 3 * u := by
  have hu := h.u_pos
  have hu64 := h.u_le
  have hn1 : (1 : ℝ) ≤ Fintype.card ι := by exact_mod_cast h.n_pos
  have hnu := h.n_le
  have e := h.norm_error hs hp
  have hpos : 0 < vlen p := Real.sqrt_pos.mpr (lt_of_lt_of_le hu hp)
  set n : ℝ := (Fintype.card ι : ℝ)
  set N := fl (Real.sqrt (s.eval fl p p)) with hN
  set r := vlen p
  set κ := 11 / 20 * (n * u) + 16 / 10 * u with hκ
  have hκ0 : 0 ≤ κ := by positivity
  have hκ1 : κ ≤ 4 / 100 := by linarith
  obtain ⟨l1, l2⟩ := abs_le.mp e
  have hN0 : 96 / 100 * r ≤ N := by nlinarith
  have hNpos : 0 < N := by linarith
  have hb : ∀ i, |normalizeFloat fl s p i - dirn p i| ≤ 100 / 96 * (κ + u) * |dirn p i| + η := by
    intro i
    unfold normalizeFloat dirn
    rw [← hN]
    have hf := h.error (p i / N)
    have e1 : fl (p i / N) - p i / r = (fl (p i / N) - p i / N) + p i / r * ((r - N) / N) := by
      field_simp
      ring
    rw [e1]
    refine (abs_add_le _ _).trans ?_
    have e2 : |p i / N| = |p i / r| * (r / N) := by
      rw [abs_div, abs_div, abs_of_pos hNpos, abs_of_pos hpos]
      field_simp
    have hrN : r / N ≤ 100 / 96 := by
      rw [div_le_iff₀ hNpos]
      linarith
    have h3 : |(r - N) / N| ≤ 100 / 96 * κ := by
      rw [abs_div, abs_of_pos hNpos, div_le_iff₀ hNpos, abs_sub_comm]
      refine e.trans ?_
      nlinarith
    rw [e2] at hf
    rw [abs_mul]
    have h4 := mul_le_mul_of_nonneg_left h3 (abs_nonneg (p i / r))
    have h5 := mul_le_mul_of_nonneg_left hrN (mul_nonneg hu.le (abs_nonneg (p i / r)))
    linarith
  have hv := vlen_of_bound (by positivity) h.η_pos.le hb
  rw [vlen_dirn hpos] at hv
  have h3 := h.nη_le
  have hu3 : u ^ 3 / 64 ≤ u / 100 := by
    have : u ^ 2 ≤ 1 := by nlinarith
    nlinarith
  have : 0 ≤ n * u := by positivity
  rw [hκ] at hv
  linarith

/-- The error of the normalized dot product. -/
theorem SmallError.ndp_error (h : SmallError fl u η (Fintype.card ι)) {s t d : SumOrder ι}
    (hs : s.pixels.Perm Finset.univ.toList) (ht : t.pixels.Perm Finset.univ.toList)
    (hd : d.pixels.Perm Finset.univ.toList) {a b : ι → ℝ} (ha : u ≤ ∑ i, a i ^ 2)
    (hb : u ≤ ∑ i, b i ^ 2) :
    |ndpFl fl s t d a b - ∑ i, dirn a i * dirn b i| ≤ 3 * (Fintype.card ι + 3) * u := by
  have hu := h.u_pos
  have hu64 := h.u_le
  have hn1 : (1 : ℝ) ≤ Fintype.card ι := by exact_mod_cast h.n_pos
  have hnu := h.n_le
  have ea := h.normalize_error hs ha
  have eb := h.normalize_error ht hb
  have hapos : 0 < vlen a := Real.sqrt_pos.mpr (lt_of_lt_of_le hu ha)
  have hbpos : 0 < vlen b := Real.sqrt_pos.mpr (lt_of_lt_of_le hu hb)
  set a' := normalizeFloat fl s a
  set b' := normalizeFloat fl t b
  set n : ℝ := (Fintype.card ι : ℝ)
  set ε := 6 / 10 * (n * u) + 3 * u with hε
  have hε0 : 0 ≤ ε := by positivity
  have hε1 : ε ≤ 6 / 100 := by linarith
  have la : vlen a' ≤ 1 + ε := by
    have := vlen_le_of_sub a' (dirn a)
    rw [vlen_dirn hapos] at this
    linarith
  have lb : vlen b' ≤ 1 + ε := by
    have := vlen_le_of_sub b' (dirn b)
    rw [vlen_dirn hbpos] at this
    linarith
  have e1 := h.sum_error hd a' b'
  have e2 := dot_sub_le (dirn a) (dirn b) a' b'
  rw [vlen_dirn hapos, one_mul] at e2
  have hab : vlen a' * vlen b' ≤ (1 + ε) * (1 + ε) :=
    mul_le_mul la lb (vlen_nonneg _) (by linarith)
  have e3 := (sum_abs_mul_le a' b').trans hab
  have e4 : vlen (fun i => a' i - dirn a i) * vlen b' ≤ ε * (1 + ε) :=
    mul_le_mul ea lb (vlen_nonneg _) hε0
  have hee : (1 + ε) * (1 + ε) ≤ 113 / 100 := by nlinarith
  have e5 := mul_le_mul_of_nonneg_left (e3.trans hee) (by positivity : 0 ≤ 64 / 63 * (n * u))
  have e6 : ε * (1 + ε) ≤ 106 / 100 * ε := by nlinarith
  have hu3 : u ^ 3 / 16 ≤ u / 100 := by
    have : u ^ 2 ≤ 1 / 64 * (1 / 64) := by nlinarith
    nlinarith
  have e7 : ndpFl fl s t d a b - ∑ i, dirn a i * dirn b i =
      (d.eval fl a' b' - ∑ i, a' i * b' i) + (∑ i, a' i * b' i - ∑ i, dirn a i * dirn b i) := by
    unfold ndpFl
    ring
  rw [e7]
  refine (abs_add_le _ _).trans ?_
  have : 0 ≤ n * u := by positivity
  linarith

/-! ### Centering -/

theorem sum_abs_le_vlen (p : ι → ℝ) :
    (∑ i, |p i|) ^ 2 ≤ Fintype.card ι * vlen p ^ 2 := by
  have h := Finset.sum_mul_sq_le_sq_mul_sq Finset.univ (fun _ : ι => (1 : ℝ)) (fun i => |p i|)
  simp only [one_mul, sq_abs, one_pow, Finset.sum_const, nsmul_eq_mul, mul_one, Finset.card_univ] at h
  rwa [vlen_sq]

theorem vlen_center_le (p : ι → ℝ) (hn : (0 : ℝ) < Fintype.card ι) :
    vlen (fun i => p i - mean p) ≤ vlen p := by
  apply Real.sqrt_le_sqrt
  have hs1 : ∑ i, p i = Fintype.card ι * mean p := by
    unfold mean
    field_simp
  have e : ∑ i, (p i - mean p) ^ 2 =
      ∑ i, p i ^ 2 - 2 * mean p * ∑ i, p i + Fintype.card ι * mean p ^ 2 := by
    have : (Fintype.card ι : ℝ) * mean p ^ 2 = ∑ _i : ι, mean p ^ 2 := by
      rw [Finset.sum_const, nsmul_eq_mul, Finset.card_univ]
    rw [Finset.mul_sum, ← Finset.sum_sub_distrib, this, ← Finset.sum_add_distrib]
    exact Finset.sum_congr rfl fun i _ => by ring
  rw [e, hs1]
  have : 0 ≤ (Fintype.card ι : ℝ) * mean p ^ 2 := by positivity
  linarith

/-- The error of a centered pattern, from the errors of its mean `m` and of the differences `c'`. -/
theorem SmallError.center_error_of (h : SmallError fl u η (Fintype.card ι)) {s : SumOrder ι}
    (hs : s.pixels.Perm Finset.univ.toList) {p : ι → ℝ} (hp : u ≤ ∑ i, (p i - mean p) ^ 2)
    {m : ℝ} {c' : ι → ℝ}
    (hm' : |m - s.eval fl p (fun _ => 1) / Fintype.card ι| ≤
      u * |s.eval fl p (fun _ => 1) / Fintype.card ι| + η)
    (hc' : ∀ i, |c' i - (p i - m)| ≤ u * |p i - m| + η) :
    vlen (fun i => c' i - (p i - mean p)) ≤
      12 / 10 * (Fintype.card ι + 2) * u * vlen p := by
  have hu := h.u_pos
  have hu64 := h.u_le
  have hn1 : (1 : ℝ) ≤ Fintype.card ι := by exact_mod_cast h.n_pos
  have hnu := h.n_le
  have hη := h.η_pos
  have e := h.sum_error hs p (fun _ => 1)
  simp only [mul_one] at e
  set n : ℝ := (Fintype.card ι : ℝ) with hn
  set M := ∑ i, |p i| with hM
  have hM0 : 0 ≤ M := Finset.sum_nonneg fun i _ => abs_nonneg _
  have hm : |mean p| ≤ M / n := by
    unfold mean
    rw [abs_div, abs_of_pos (by linarith : (0 : ℝ) < Fintype.card ι)]
    exact div_le_div_of_nonneg_right (Finset.abs_sum_le_sum_abs _ _) (by linarith)
  set t := s.eval fl p (fun _ => 1)
  have hnpos : 0 < n := by linarith
  have hmean : mean p = (∑ i, p i) / n := rfl
  have h1 : |t / n - mean p| ≤ 64 / 63 * (n * u) * (M / n) + u ^ 3 / 16 := by
    rw [hmean, ← sub_div, abs_div, abs_of_pos hnpos, div_le_iff₀ hnpos]
    have : u ^ 3 / 16 ≤ u ^ 3 / 16 * n := by
      have : 0 ≤ u ^ 3 / 16 := by positivity
      nlinarith
    have e2 : 64 / 63 * (n * u) * (M / n) * n = 64 / 63 * (n * u) * M := by field_simp
    linarith
  have h2 := hm'
  have hu4 : η ≤ u ^ 3 / 64 := by
    have := h.η_le
    have : u ^ 3 * u ≤ u ^ 3 * (1 / 64) := mul_le_mul_of_nonneg_left hu64 (by positivity)
    linarith [show u ^ 4 = u ^ 3 * u by ring]
  have hMn : 0 ≤ M / n := by positivity
  have h3 : |t / n| ≤ M / n + 64 / 63 * (n * u) * (M / n) + u ^ 3 / 16 := by
    have := abs_add_le (mean p) (t / n - mean p)
    rw [show mean p + (t / n - mean p) = t / n by ring] at this
    linarith
  have hnuM : 64 / 63 * (n * u) * (M / n) ≤ 2 / 100 * (M / n) :=
    mul_le_mul_of_nonneg_right (by linarith) hMn
  have hmf : |m - mean p| ≤
      (64 / 63 * (n * u) + 102 / 100 * u) * (M / n) + u ^ 3 / 10 := by
    have e3 : m - mean p = (m - t / n) + (t / n - mean p) := by ring
    rw [e3]
    refine (abs_add_le _ _).trans ?_
    have h4 : u * |t / n| ≤ u * (102 / 100 * (M / n) + u ^ 3 / 16) :=
      mul_le_mul_of_nonneg_left (by linarith) hu.le
    have h5 : u * u ^ 3 ≤ 1 / 64 * u ^ 3 := mul_le_mul_of_nonneg_right hu64 (by positivity)
    linarith
  set δ := |m - mean p| with hδ
  have hδ0 : 0 ≤ δ := abs_nonneg _
  have hb : ∀ i, |c' i - (p i - mean p)| ≤ u * |p i - mean p| + (65 / 64 * δ + η) := by
    intro i
    have hf := hc' i
    have e4 : c' i - (p i - mean p) =
        (c' i - (p i - m)) + -(m - mean p) := by
      ring
    rw [e4]
    refine (abs_add_le _ _).trans ?_
    rw [abs_neg, ← hδ]
    have h6 : |p i - m| ≤ |p i - mean p| + δ := by
      have := abs_add_le (p i - mean p) (-(m - mean p))
      rw [abs_neg, show p i - mean p + -(m - mean p) = p i - m by ring]
        at this
      exact this
    have h7 := mul_le_mul_of_nonneg_left h6 hu.le
    have h8 : u * δ ≤ 1 / 64 * δ := mul_le_mul_of_nonneg_right hu64 hδ0
    linarith
  -- lengths
  set c : ι → ℝ := fun i => p i - mean p with hc
  have hc2 : u ≤ vlen c ^ 2 := by rw [vlen_sq]; exact hp
  have hcl : vlen c ≤ vlen p := vlen_center_le p hnpos
  have hcu : u ≤ vlen c := by
    by_contra hcon
    push Not at hcon
    have := vlen_nonneg c
    nlinarith
  -- the constant part
  have hcon : vlen (fun _ : ι => 65 / 64 * δ) ≤
      65 / 64 * ((64 / 63 * (n * u) + 102 / 100 * u) * vlen p) + u / 100 * vlen p := by
    have e6 : vlen (fun _ : ι => 65 / 64 * δ) = 65 / 64 * (Real.sqrt n * δ) := by
      unfold vlen
      rw [Finset.sum_const, nsmul_eq_mul, Finset.card_univ, Real.sqrt_mul (by positivity),
        Real.sqrt_sq (by positivity)]
      ring
    have hsq : Real.sqrt n * (M / n) ≤ vlen p := by
      have hs2 := sum_abs_le_vlen p
      rw [← hM, ← hn] at hs2
      have hsn : 0 < Real.sqrt n := Real.sqrt_pos.mpr hnpos
      have hM2 : M ≤ Real.sqrt n * vlen p := by
        refine (abs_le.mp (abs_le_of_sq_le_sq ?_ (mul_nonneg hsn.le (vlen_nonneg p)))).2
        rw [mul_pow, Real.sq_sqrt hnpos.le]
        exact hs2
      have e7 : Real.sqrt n * (M / n) = M / Real.sqrt n := by
        have := Real.mul_self_sqrt hnpos.le
        field_simp
        rw [pow_two, this, mul_comm]
      rw [e7, div_le_iff₀ hsn]
      linarith
    have hsn1 : Real.sqrt n ≤ n := by
      apply Real.sqrt_le_iff.mpr
      exact ⟨hnpos.le, by nlinarith⟩
    have h9 := mul_le_mul_of_nonneg_left hmf (Real.sqrt_nonneg n)
    have h10 : Real.sqrt n * ((64 / 63 * (n * u) + 102 / 100 * u) * (M / n)) ≤
        (64 / 63 * (n * u) + 102 / 100 * u) * vlen p := by
      have : Real.sqrt n * ((64 / 63 * (n * u) + 102 / 100 * u) * (M / n)) =
          (64 / 63 * (n * u) + 102 / 100 * u) * (Real.sqrt n * (M / n)) := by ring
      rw [this]
      exact mul_le_mul_of_nonneg_left hsq (by positivity)
    have hup : 0 ≤ u * vlen p := mul_nonneg hu.le (vlen_nonneg p)
    have h11 : Real.sqrt n * (u ^ 3 / 10) ≤ u / 200 * vlen p := by
      have h12 : Real.sqrt n * (u ^ 3 / 10) ≤ n * (u ^ 3 / 10) :=
        mul_le_mul_of_nonneg_right hsn1 (by positivity)
      have h13 : n * (u ^ 3 / 10) = n * u * (u * u / 10) := by ring
      have h14 : n * u * (u * u / 10) ≤ 1 / 64 * (u * u / 10) :=
        mul_le_mul_of_nonneg_right hnu (by positivity)
      have h15 : u * u ≤ u * vlen p := mul_le_mul_of_nonneg_left (hcu.trans hcl) hu.le
      linarith
    rw [e6]
    linarith
  have hv1 : vlen (fun i => c' i - (p i - mean p)) ≤
      vlen (fun i => u * |c i| + (65 / 64 * δ + η)) := vlen_mono fun i => by
    rw [abs_of_nonneg (a := u * |c i| + (65 / 64 * δ + η)) (by positivity)]
    exact hb i
  have hv2 := vlen_add_le (fun i => u * |c i|) (fun _ => 65 / 64 * δ + η)
  have hv3 := vlen_add_le (fun _ : ι => 65 / 64 * δ) (fun _ => η)
  have hv4 := vlen_const_le (ι := ι) η
  rw [abs_of_pos hη] at hv4
  rw [vlen_smul, vlen_abs, abs_of_pos hu] at hv2
  have hnη := h.nη_le
  have hu2 : u ^ 3 / 64 ≤ u / 100 * vlen p := by
    have h15 : u * u ≤ u * vlen p := mul_le_mul_of_nonneg_left (hcu.trans hcl) hu.le
    have : u ^ 3 ≤ u * u * (1 / 64) := by
      have := mul_le_mul_of_nonneg_left hu64 (mul_nonneg hu.le hu.le)
      linarith [show u ^ 3 = u * u * u by ring]
    have := mul_nonneg hu.le (vlen_nonneg p)
    linarith
  have hucl := mul_le_mul_of_nonneg_left hcl hu.le
  have hnup : 0 ≤ n * u * vlen p := mul_nonneg (by positivity) (vlen_nonneg p)
  have hup : 0 ≤ u * vlen p := mul_nonneg hu.le (vlen_nonneg p)
  linarith

/-- The error of a centered pattern. -/
theorem SmallError.center_error (h : SmallError fl u η (Fintype.card ι)) {s : SumOrder ι}
    (hs : s.pixels.Perm Finset.univ.toList) {p : ι → ℝ} (hp : u ≤ ∑ i, (p i - mean p) ^ 2) :
    vlen (fun i => centerFloat fl s p i - (p i - mean p)) ≤
      12 / 10 * (Fintype.card ι + 2) * u * vlen p :=
  h.center_error_of hs hp (m := meanFloat fl s p) (h.error _) fun _ => h.error _

/-- The direction of a centered pattern `c'`, from its error. -/
theorem SmallError.center_dirn (h : SmallError fl u η (Fintype.card ι)) {p c' : ι → ℝ} {ρ : ℝ}
    (e : vlen (fun i => c' i - (p i - mean p)) ≤ 12 / 10 * (Fintype.card ι + 2) * u * vlen p)
    (hp : 2 * u ≤ ∑ i, (p i - mean p) ^ 2) (hρ : vlen p ≤ ρ * vlen (fun i => p i - mean p))
    (h1 : 1 ≤ ρ) (hsm : (Fintype.card ι + 3) * u * ρ ≤ 1 / 8) :
    u ≤ ∑ i, c' i ^ 2 ∧ 0 < vlen (fun i => p i - mean p) ∧
      vlen (fun i => dirn c' i - dirn (fun i => p i - mean p) i) ≤
        24 / 10 * (Fintype.card ι + 3) * u * ρ := by
  have hu := h.u_pos
  have hn1 : (1 : ℝ) ≤ Fintype.card ι := by exact_mod_cast h.n_pos
  set n : ℝ := (Fintype.card ι : ℝ)
  set c : ι → ℝ := fun i => p i - mean p with hc
  have hc2 : 2 * u ≤ vlen c ^ 2 := by rw [vlen_sq]; exact hp
  have hcpos : 0 < vlen c := by
    rcases (vlen_nonneg c).lt_or_eq with h2 | h2
    · exact h2
    · rw [← h2] at hc2; norm_num at hc2; linarith
  have e1 : vlen (fun i => c' i - c i) ≤ 12 / 10 * (n + 3) * u * ρ * vlen c := by
    have h2 := mul_le_mul_of_nonneg_left hρ (by positivity : 0 ≤ 12 / 10 * (n + 2) * u)
    have h3 : 0 ≤ u * (ρ * vlen c) := by positivity
    have h4 : vlen (fun i => c' i - c i) ≤ 12 / 10 * (n + 2) * u * vlen p := e
    linarith
  have e2 : vlen (fun i => c' i - c i) ≤ 15 / 100 * vlen c := by
    have := mul_le_mul_of_nonneg_right hsm hcpos.le
    linarith
  have e3 : 85 / 100 * vlen c ≤ vlen c' := by
    have h2 := vlen_le_of_sub c c'
    have h3 : vlen (fun i => c i - c' i) = vlen (fun i => c' i - c i) := by
      unfold vlen
      congr 1
      exact Finset.sum_congr rfl fun i _ => by ring
    linarith
  have hc'pos : 0 < vlen c' := by linarith
  refine ⟨?_, hcpos, ?_⟩
  · rw [← vlen_sq]
    have : (85 / 100 * vlen c) * (85 / 100 * vlen c) ≤ vlen c' * vlen c' :=
      mul_le_mul e3 e3 (by positivity) hc'pos.le
    nlinarith
  · refine (dirn_sub_le hcpos hc'pos).trans ?_
    rw [div_le_iff₀ hcpos]
    linarith

/-- The error of the normalized cross-correlation. -/
theorem SmallError.ncc_error (h : SmallError fl u η (Fintype.card ι))
    {sa sb na nb d : SumOrder ι}
    (hsa : sa.pixels.Perm Finset.univ.toList) (hsb : sb.pixels.Perm Finset.univ.toList)
    (hna : na.pixels.Perm Finset.univ.toList) (hnb : nb.pixels.Perm Finset.univ.toList)
    (hd : d.pixels.Perm Finset.univ.toList) {a b : ι → ℝ} {ρa ρb : ℝ}
    (ha : 2 * u ≤ ∑ i, (a i - mean a) ^ 2) (hb : 2 * u ≤ ∑ i, (b i - mean b) ^ 2)
    (hρa : vlen a ≤ ρa * vlen (fun i => a i - mean a))
    (hρb : vlen b ≤ ρb * vlen (fun i => b i - mean b)) (h1a : 1 ≤ ρa) (h1b : 1 ≤ ρb)
    (hsma : (Fintype.card ι + 3) * u * ρa ≤ 1 / 8) (hsmb : (Fintype.card ι + 3) * u * ρb ≤ 1 / 8) :
    |nccFl fl sa sb na nb d a b -
        ∑ i, dirn (fun i => a i - mean a) i * dirn (fun i => b i - mean b) i| ≤
      4 * (Fintype.card ι + 3) * u * (ρa + ρb) := by
  have hu := h.u_pos
  have hn1 : (1 : ℝ) ≤ Fintype.card ι := by exact_mod_cast h.n_pos
  set n : ℝ := (Fintype.card ι : ℝ)
  have main : ∀ (s : SumOrder ι) (p : ι → ℝ) (ρ : ℝ), s.pixels.Perm Finset.univ.toList →
      2 * u ≤ ∑ i, (p i - mean p) ^ 2 → vlen p ≤ ρ * vlen (fun i => p i - mean p) → 1 ≤ ρ →
      (n + 3) * u * ρ ≤ 1 / 8 →
      u ≤ ∑ i, centerFloat fl s p i ^ 2 ∧ 0 < vlen (fun i => p i - mean p) ∧
      vlen (fun i => dirn (centerFloat fl s p) i - dirn (fun i => p i - mean p) i) ≤
        24 / 10 * (n + 3) * u * ρ := by
    intro s p ρ hs hp hρ h1 hsm
    exact h.center_dirn (h.center_error hs (p := p) (by linarith)) hp hρ h1 hsm
  obtain ⟨ga, pa, da⟩ := main sa a ρa hsa ha hρa h1a hsma
  obtain ⟨gb, pb, db⟩ := main sb b ρb hsb hb hρb h1b hsmb
  have e := h.ndp_error hna hnb hd ga gb
  have e2 := dot_sub_le (dirn (fun i => a i - mean a)) (dirn (fun i => b i - mean b))
    (dirn (centerFloat fl sa a)) (dirn (centerFloat fl sb b))
  have pa' : 0 < vlen (centerFloat fl sa a) := Real.sqrt_pos.mpr (lt_of_lt_of_le hu ga)
  have pb' : 0 < vlen (centerFloat fl sb b) := Real.sqrt_pos.mpr (lt_of_lt_of_le hu gb)
  rw [vlen_dirn pa, vlen_dirn pb', one_mul, mul_one] at e2
  have e3 : nccFl fl sa sb na nb d a b -
      ∑ i, dirn (fun i => a i - mean a) i * dirn (fun i => b i - mean b) i =
      (ndpFl fl na nb d (centerFloat fl sa a) (centerFloat fl sb b) -
        ∑ i, dirn (centerFloat fl sa a) i * dirn (centerFloat fl sb b) i) +
      (∑ i, dirn (centerFloat fl sa a) i * dirn (centerFloat fl sb b) i -
        ∑ i, dirn (fun i => a i - mean a) i * dirn (fun i => b i - mean b) i) := by
    unfold nccFl
    ring
  rw [e3]
  refine (abs_add_le _ _).trans ?_
  have g1 : (n + 3) * u ≤ (n + 3) * u * ρa := le_mul_of_one_le_right (by positivity) h1a
  have g2 : (n + 3) * u ≤ (n + 3) * u * ρb := le_mul_of_one_le_right (by positivity) h1b
  have g3 : 0 ≤ (n + 3) * u := by positivity
  change _ ≤ 3 * (n + 3) * u at e
  linarith

/-! ### Scores of patterns which are not negative -/

theorem SumOrder.eval_nonneg {ι : Type*} (hfl : ∀ x, 0 ≤ x → 0 ≤ fl x) {a b : ι → ℝ}
    (ha : ∀ i, 0 ≤ a i) (hb : ∀ i, 0 ≤ b i) (s : SumOrder ι) : 0 ≤ s.eval fl a b := by
  induction s with
  | term i => exact hfl _ (mul_nonneg (ha i) (hb i))
  | plus l r ihl ihr => exact hfl _ (add_nonneg ihl ihr)
  | fused l i ih => exact hfl _ (add_nonneg ih (mul_nonneg (ha i) (hb i)))

end
end Kp
