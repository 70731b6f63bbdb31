import Verif.Model.FloatRefinement
import Verif.Lemmas.FloatSimilarity

/-! Error analysis of the score used in refinement. -/

namespace Kp
open Finset

/-! ### The square root of a rounded square -/

/-- A positive number of the format in terms of its exponent. -/
theorem format_digits {p : ℕ} (hp : 1 ≤ p) {emin e : ℤ} {y x : ℝ} (hx : x = binaryRound p emin y)
    (h1 : 2 ^ e ≤ x) (h2 : x < 2 ^ (e + 1)) :
    ∃ m : ℤ, x = m * 2 ^ (e - p + 1) ∧ m + 1 ≤ (2 : ℤ) ^ p ∧ (2 : ℤ) ^ (p - 1) ≤ m := by
  obtain ⟨m, j, -, hm, he⟩ := binaryRound_multiple p emin y
  rw [← hx] at he
  have hU := two_zpow_pos (K := ℝ) (e - p + 1)
  have key : ∃ m' : ℤ, x = m' * 2 ^ (e - p + 1) := by
    by_cases hj : e - p + 1 ≤ j
    · refine ⟨m * 2 ^ (j - (e - p + 1)).toNat, ?_⟩
      rw [he]
      push_cast
      rw [mul_assoc, ← zpow_natCast, ← zpow_add₀ (by norm_num), Int.toNat_of_nonneg (by omega)]
      congr 2
      ring
    · refine ⟨2 ^ (p - 1), ?_⟩
      have h3 : x ≤ 2 ^ e := by
        rw [← he] at hm
        refine (le_abs_self x).trans (hm.trans ?_)
        exact zpow_le_zpow_right₀ (by norm_num) (by omega)
      rw [le_antisymm h3 h1]
      push_cast
      rw [← zpow_natCast, ← zpow_add₀ (by norm_num)]
      congr 1
      omega
  obtain ⟨m', hm'⟩ := key
  refine ⟨m', hm', ?_, ?_⟩
  · have : (m' : ℝ) * 2 ^ (e - p + 1) < 2 ^ (p : ℤ) * 2 ^ (e - p + 1) := by
      rw [← hm', ← zpow_add₀ (by norm_num)]
      refine lt_of_lt_of_le h2 (le_of_eq ?_)
      congr 1
      ring
    have := lt_of_mul_lt_mul_right this hU.le
    rw [zpow_natCast] at this
    have : m' < 2 ^ p := by exact_mod_cast this
    omega
  · have : (2 : ℝ) ^ ((p : ℤ) - 1) * 2 ^ (e - p + 1) ≤ m' * 2 ^ (e - p + 1) := by
      rw [← hm', ← zpow_add₀ (by norm_num)]
      refine le_trans (le_of_eq ?_) h1
      congr 1
      ring
    have := le_of_mul_le_mul_right this hU
    rw [show (p : ℤ) - 1 = ((p - 1 : ℕ) : ℤ) by omega, zpow_natCast] at this
    exact_mod_cast this

/-- The rounded square root of the rounded square of a number of the format is the number. -/
theorem binaryRound_sqrt_sq {p : ℕ} (hp : 1 ≤ p) {emin e : ℤ} {y x : ℝ}
    (hx : x = binaryRound p emin y) (h1 : 2 ^ e ≤ x) (h2 : x < 2 ^ (e + 1))
    (he : emin + p - 1 ≤ 2 * e) (he' : emin ≤ e - p + 1) :
    binaryRound p emin (Real.sqrt (binaryRound p emin (x * x))) = x := by
  obtain ⟨m, hm, hm1, hm2⟩ := format_digits hp hx h1 h2
  have hU := two_zpow_pos (K := ℝ) (e - p + 1)
  have h2e := two_zpow_pos (K := ℝ) e
  have hx0 : 0 < x := lt_of_lt_of_le h2e h1
  have hsq : (2 : ℝ) ^ (2 * e) ≤ x * x := by
    rw [two_mul, zpow_add₀ (by norm_num)]
    exact mul_le_mul h1 h1 h2e.le hx0.le
  set z := binaryRound p emin (x * x) with hz
  have herr : |z - x * x| ≤ 2 ^ (-(p : ℤ)) * (x * x) := by
    have := binaryRound_error (K := ℝ) p emin (x := x * x) (by
      rw [abs_of_pos (mul_pos hx0 hx0)]
      exact le_trans (zpow_le_zpow_right₀ (by norm_num) he) hsq)
    rwa [abs_of_pos (mul_pos hx0 hx0)] at this
  have hzlow : (2 : ℝ) ^ (2 * e) ≤ z := by
    have h := binaryRound_mono (K := ℝ) hp emin hsq
    have h3 := binaryRound_format (K := ℝ) hp (emin := emin) (m := 1) (j := 2 * e) (by omega) (by
      rw [Int.cast_one, one_mul, abs_of_pos (two_zpow_pos _)]
      exact zpow_le_zpow_right₀ (by norm_num) (by omega))
    rw [Int.cast_one, one_mul] at h3
    rwa [h3] at h
  have hz0 : 0 < z := lt_of_lt_of_le (two_zpow_pos _) hzlow
  set q := Real.sqrt z with hq
  have hqq : q * q = z := Real.mul_self_sqrt hz0.le
  have hq0 : 0 < q := Real.sqrt_pos.mpr hz0
  have hqlow : (2 : ℝ) ^ e ≤ q := by
    apply Real.le_sqrt_of_sq_le
    rw [← zpow_natCast, ← zpow_mul]
    rw [show e * ((2 : ℕ) : ℤ) = 2 * e by push_cast; ring]
    exact hzlow
  set U : ℝ := 2 ^ (e - p + 1) with hUdef
  set P : ℝ := 2 ^ (-(p : ℤ)) with hP
  have hP0 : 0 < P := two_zpow_pos _
  have hPp : P * (2 : ℝ) ^ p = 1 := by
    rw [hP, ← zpow_natCast, ← zpow_add₀ (by norm_num)]
    simp
  have hm1' : (m : ℝ) + 1 ≤ 2 ^ p := by exact_mod_cast hm1
  have hm2' : (2 : ℝ) ^ p ≤ 2 * m := by
    have h3 : (2 : ℝ) ^ (p - 1) ≤ m := by exact_mod_cast hm2
    have h4 : (2 : ℝ) ^ p = 2 * 2 ^ (p - 1) := by
      rw [← pow_succ']
      congr 1
      omega
    linarith
  -- `x / 2ᵖ` is at most one unit in the last place, less a little
  have hPx : P * x ≤ U - P * U := by
    have h3 : P * ((m : ℝ) + 1) ≤ 1 :=
      (mul_le_mul_of_nonneg_left hm1' hP0.le).trans (le_of_eq hPp)
    have h4 := mul_le_mul_of_nonneg_right h3 hU.le
    have h5 : P * ((m : ℝ) + 1) * U = P * x + P * U := by rw [hm]; ring
    linarith
  have hPx2 : U ≤ 2 * (P * x) := by
    have h3 : 1 ≤ P * (2 * m) :=
      (le_of_eq hPp.symm).trans (mul_le_mul_of_nonneg_left hm2' hP0.le)
    have h4 := mul_le_mul_of_nonneg_right h3 hU.le
    have h5 : P * (2 * (m : ℝ)) * U = 2 * (P * x) := by rw [hm]; ring
    linarith
  obtain ⟨l1, l2⟩ := abs_le.mp herr
  have hnear : |q - x| < U / 2 := by
    rw [abs_lt]
    constructor
    · -- from below
      by_contra hc
      push Not at hc
      have h3 : q ≤ x - U / 2 := by linarith
      have h4 : q * q ≤ (x - U / 2) * (x - U / 2) := mul_le_mul h3 h3 hq0.le (by linarith)
      have h5 : P * x * x ≤ (U - P * U) * x := mul_le_mul_of_nonneg_right hPx hx0.le
      have h6 : U * U ≤ 2 * (P * x) * U := mul_le_mul_of_nonneg_right hPx2 hU.le
      have h7 : 0 < U * U := mul_pos hU hU
      nlinarith
    · by_contra hc
      push Not at hc
      have h3 : x + U / 2 ≤ q := by linarith
      have h4 : (x + U / 2) * (x + U / 2) ≤ q * q := mul_le_mul h3 h3 (by positivity) hq0.le
      have h5 : P * x * x ≤ (U - P * U) * x := mul_le_mul_of_nonneg_right hPx hx0.le
      have h6 : 0 < P * U * x := by positivity
      have h7 : 0 < U * U := mul_pos hU hU
      nlinarith
  have hup : q < 2 ^ (e + 1) := by
    have h3 : (2 : ℝ) ^ (e + 1) = 2 ^ p * U := by
      rw [hUdef, ← zpow_natCast, ← zpow_add₀ (by norm_num)]
      congr 1
      ring
    have h4 := mul_le_mul_of_nonneg_right hm1' hU.le
    have h5 := (abs_lt.mp hnear).2
    rw [h3]
    have : x + U = (m + 1) * U := by rw [hm]; ring
    linarith
  have := binaryRound_eq (p := p) (emin := emin) (e := e) (x := q) m hqlow hup he' (by
    rw [← hUdef]
    have e1 : q / U - m = (q - x) / U := by rw [hm]; field_simp
    rw [e1, abs_div, abs_of_pos hU, div_lt_iff₀ hU]
    linarith)
  rw [this, ← hUdef, ← hm]

/-! ### The error of a score of centered patterns -/

section
variable {ι : Type*} [Fintype ι] {fl : ℝ → ℝ} {u η : ℝ}

/-- The error of a sum of squares. -/
theorem SmallError.square_error (h : SmallError fl u η (Fintype.card ι)) {s : SumOrder ι}
    (hs : s.pixels.Perm Finset.univ.toList) {p : ι → ℝ} (hp : u ≤ ∑ i, p i ^ 2) :
    |s.eval fl p p - vlen p ^ 2| ≤ (64 / 63 * (Fintype.card ι * u) + u / 100) * vlen p ^ 2 := by
  have hu := h.u_pos
  have hu64 := h.u_le
  have e := h.sum_error hs p p
  have e1 : ∑ i, p i * p i = vlen p ^ 2 := by
    rw [vlen_sq]
    exact Finset.sum_congr rfl fun i _ => by ring
  have e2 : ∑ i, |p i * p i| = vlen p ^ 2 := by
    rw [← e1]
    exact Finset.sum_congr rfl fun i _ => abs_of_nonneg (mul_self_nonneg _)
  rw [e1, e2] at e
  rw [← vlen_sq] at hp
  have hu3 : u ^ 3 / 16 ≤ u / 100 * vlen p ^ 2 := by
    have h1 : u ^ 2 ≤ 1 / 64 * (1 / 64) := by nlinarith
    have : u ^ 3 / 16 ≤ u / 100 * u := by nlinarith
    nlinarith
  linarith

/-- The error of the rounded product of two lengths `A` and `B`, from the errors of their squares. -/
theorem lengths_error (herr : ∀ x, |fl x - x| ≤ u * |x| + η) (hu : 0 < u) (hu64 : u ≤ 1 / 64)
    (hη4 : η ≤ u ^ 4) {A B N S w : ℝ} (hA : 0 < A) (hB : 0 < B) (ha : u ≤ A ^ 2) (hb : u ≤ B ^ 2)
    (hw0 : 0 ≤ w) (hw1 : w ≤ 1 / 50) (eN : |N - A ^ 2| ≤ w * A ^ 2) (eS : |S - B ^ 2| ≤ w * B ^ 2) :
    |fl (Real.sqrt (fl (N * S))) - A * B| ≤
      (51 / 100 * (202 / 100 * w + 106 / 100 * u) + 104 / 100 * u) * (A * B) := by
  have hR2 : u * u ≤ (A * B) ^ 2 := by
    rw [mul_pow]
    exact mul_le_mul ha hb hu.le (by positivity)
  -- the square of the product of the lengths
  have eP : |N * S - (A * B) ^ 2| ≤ 202 / 100 * w * (A * B) ^ 2 := by
    have e1 : N * S - (A * B) ^ 2 =
        (N - A ^ 2) * (S - B ^ 2) + (N - A ^ 2) * B ^ 2 + A ^ 2 * (S - B ^ 2) := by ring
    have hA2 : 0 ≤ A ^ 2 := by positivity
    have hB2 : 0 ≤ B ^ 2 := by positivity
    have b1 : |(N - A ^ 2) * (S - B ^ 2)| ≤ (w * A ^ 2) * (w * B ^ 2) := by
      rw [abs_mul]
      exact mul_le_mul eN eS (abs_nonneg _) (by positivity)
    have b2 : |(N - A ^ 2) * B ^ 2| ≤ w * A ^ 2 * B ^ 2 := by
      rw [abs_mul, abs_of_nonneg hB2]
      exact mul_le_mul_of_nonneg_right eN hB2
    have b3 : |A ^ 2 * (S - B ^ 2)| ≤ A ^ 2 * (w * B ^ 2) := by
      rw [abs_mul, abs_of_nonneg hA2]
      exact mul_le_mul_of_nonneg_left eS hA2
    have b4 : w * w * (A ^ 2 * B ^ 2) ≤ 1 / 50 * w * (A ^ 2 * B ^ 2) :=
      mul_le_mul_of_nonneg_right (mul_le_mul_of_nonneg_right hw1 hw0) (by positivity)
    rw [e1]
    have c1 := abs_add_le ((N - A ^ 2) * (S - B ^ 2) + (N - A ^ 2) * B ^ 2) (A ^ 2 * (S - B ^ 2))
    have c2 := abs_add_le ((N - A ^ 2) * (S - B ^ 2)) ((N - A ^ 2) * B ^ 2)
    rw [mul_pow]
    linarith
  have hR0 : 0 < A * B := mul_pos hA hB
  generalize A * B = R at *
  have hRu : u ≤ R := by
    by_contra hc
    push Not at hc
    nlinarith
  have hRsq : 0 < R ^ 2 := by positivity
  have hwR : w * R ^ 2 ≤ 1 / 50 * R ^ 2 := mul_le_mul_of_nonneg_right hw1 hRsq.le
  have hu2 : u ^ 2 ≤ 1 / 64 * (1 / 64) := by nlinarith
  obtain ⟨p1, p2⟩ := abs_le.mp eP
  have hP0 : 0 < N * S := by linarith
  have fP := herr (N * S)
  rw [abs_of_pos hP0] at fP
  have hηR2 : η ≤ u / 64 * R ^ 2 := by
    have h1 : u ^ 4 ≤ u / 64 * (u * u) := by
      have : 0 < u * u * u := by positivity
      nlinarith
    have h2 := mul_le_mul_of_nonneg_left hR2 (by positivity : 0 ≤ u / 64)
    linarith
  have hηR : η ≤ u / 100 * R := by
    have h1 : u ^ 4 ≤ u / 100 * u := by nlinarith [mul_pos hu hu]
    have h2 := mul_le_mul_of_nonneg_left hRu (by positivity : 0 ≤ u / 100)
    linarith
  have ePf : |fl (N * S) - R ^ 2| ≤ (202 / 100 * w + 106 / 100 * u) * R ^ 2 := by
    have e1 : fl (N * S) - R ^ 2 = (fl (N * S) - N * S) + (N * S - R ^ 2) := by ring
    rw [e1]
    refine (abs_add_le _ _).trans ?_
    have h1 : u * (N * S) ≤ u * (10404 / 10000 * R ^ 2) :=
      mul_le_mul_of_nonneg_left (by linarith) hu.le
    have : 0 < u * R ^ 2 := by positivity
    linarith
  set v := 202 / 100 * w + 106 / 100 * u with hv
  have hv0 : 0 ≤ v := by positivity
  have hv1 : v ≤ 57 / 1000 := by linarith
  obtain ⟨l1, l2⟩ := abs_le.mp ePf
  have hvR : v * R ^ 2 ≤ 57 / 1000 * R ^ 2 := mul_le_mul_of_nonneg_right hv1 hRsq.le
  have hfP0 : 0 < fl (N * S) := by linarith
  set q := Real.sqrt (fl (N * S)) with hq
  have hq0 : 0 < q := Real.sqrt_pos.mpr hfP0
  have hqq : q * q = fl (N * S) := Real.mul_self_sqrt hfP0.le
  have hq97 : 97 / 100 * R ≤ q := by
    apply Real.le_sqrt_of_sq_le
    nlinarith
  have hqR : |q - R| ≤ 51 / 100 * v * R := by
    have hs0 : 0 < q + R := by linarith
    have h1 : |q - R| * (q + R) ≤ v * R ^ 2 := by
      rw [← abs_of_pos hs0, ← abs_mul, show (q - R) * (q + R) = q * q - R ^ 2 by ring, hqq]
      exact ePf
    have h2 : |q - R| * (197 / 100 * R) ≤ v * R ^ 2 :=
      le_trans (mul_le_mul_of_nonneg_left (by linarith) (abs_nonneg _)) h1
    have h3 : |q - R| * (197 / 100) * R ≤ v * R * R := by linarith
    have h4 := le_of_mul_le_mul_right h3 hR0
    have : 0 ≤ v * R := by positivity
    linarith
  have hvR1 : v * R ≤ 57 / 1000 * R := mul_le_mul_of_nonneg_right hv1 hR0.le
  have hq103 : q ≤ 103 / 100 * R := by
    have h1 := (abs_le.mp hqR).2
    linarith
  have fq := herr q
  rw [abs_of_pos hq0] at fq
  have hQ : |fl q - R| ≤ (51 / 100 * v + 104 / 100 * u) * R := by
    have e1 : fl q - R = (fl q - q) + (q - R) := by ring
    rw [e1]
    refine (abs_add_le _ _).trans ?_
    have h1 := mul_le_mul_of_nonneg_left hq103 hu.le
    linarith
  exact hQ

/-- The error of a score, from the errors of its numerator `D` and its denominator `Q`. -/
theorem ratio_error (herr : ∀ x, |fl x - x| ≤ u * |x| + η) (hu : 0 < u) (hu64 : u ≤ 1 / 64)
    (hη4 : η ≤ u ^ 4) {D Q R x w κ : ℝ} (hR0 : 0 < R) (hx1 : |x| ≤ 1) (hw0 : 0 ≤ w)
    (hw1 : w ≤ 1 / 50) (hκ0 : 0 ≤ κ) (hκ1 : κ ≤ 5 / 100) (eD' : |D - x * R| ≤ w * R)
    (hQ : |Q - R| ≤ κ * R) : |fl (D / Q) - x| ≤ 100 / 95 * (w + κ) + 109 / 100 * u := by
  have hu2 : u ^ 2 ≤ 1 / 64 * (1 / 64) := by nlinarith
  obtain ⟨q1, q2⟩ := abs_le.mp hQ
  have hκR : κ * R ≤ 5 / 100 * R := mul_le_mul_of_nonneg_right hκ1 hR0.le
  have hQ95 : 95 / 100 * R ≤ Q := by linarith
  have hQ0 : 0 < Q := by linarith
  have hq : |D / Q - x| ≤ 100 / 95 * (w + κ) := by
    have e1 : D / Q - x = ((D - x * R) + x * (R - Q)) / Q := by
      field_simp
      ring
    rw [e1, abs_div, abs_of_pos hQ0, div_le_iff₀ hQ0]
    refine (abs_add_le _ _).trans ?_
    have h1 : |x * (R - Q)| ≤ 1 * (κ * R) := by
      rw [abs_mul, abs_sub_comm R Q]
      exact mul_le_mul hx1 hQ (abs_nonneg _) zero_le_one
    have h2 := mul_le_mul_of_nonneg_left hQ95 (by positivity : 0 ≤ 100 / 95 * (w + κ))
    linarith
  have hbound : |D / Q| ≤ 108 / 100 := by
    have h1 := abs_add_le x (D / Q - x)
    rw [show x + (D / Q - x) = D / Q by ring] at h1
    linarith
  have ff := herr (D / Q)
  have e1 : fl (D / Q) - x = (fl (D / Q) - D / Q) + (D / Q - x) := by ring
  rw [e1]
  refine (abs_add_le _ _).trans ?_
  have h1 := mul_le_mul_of_nonneg_left hbound hu.le
  have h2 : η ≤ u / 100 := by
    have h3 : u ^ 2 * u ^ 2 ≤ 1 / 64 * (1 / 64) * u ^ 2 :=
      mul_le_mul_of_nonneg_right hu2 (by positivity)
    have h4 : u * u ≤ 1 / 64 * u := mul_le_mul_of_nonneg_right hu64 hu.le
    linarith [show u ^ 4 = u ^ 2 * u ^ 2 by ring, show u ^ 2 = u * u by ring]
  linarith

/-- The error of the product of two centered patterns divided by the rounded product of their
lengths. -/
theorem SmallError.quotient_error (h : SmallError fl u η (Fintype.card ι)) {s t d : SumOrder ι}
    (hs : s.pixels.Perm Finset.univ.toList) (ht : t.pixels.Perm Finset.univ.toList)
    (hd : d.pixels.Perm Finset.univ.toList) {a b : ι → ℝ} (ha : u ≤ ∑ i, a i ^ 2)
    (hb : u ≤ ∑ i, b i ^ 2) :
    |fl (d.eval fl a b / fl (Real.sqrt (fl (s.eval fl a a * t.eval fl b b)))) -
        ∑ i, dirn a i * dirn b i| ≤ 3 * (Fintype.card ι + 3) * u := by
  have hu := h.u_pos
  have hu64 := h.u_le
  have hn1 : (1 : ℝ) ≤ Fintype.card ι := by exact_mod_cast h.n_pos
  have hnu := h.n_le
  have hη := h.η_pos
  have hη4 := h.η_le
  have eN := h.square_error hs ha
  have eS := h.square_error ht hb
  have eD := h.sum_error hd a b
  have hab := sum_abs_mul_le a b
  rw [← vlen_sq] at ha hb
  have pos : ∀ p : ι → ℝ, u ≤ vlen p ^ 2 → 0 < vlen p := fun p hp => by
    rcases (vlen_nonneg p).lt_or_eq with h1 | h1
    · exact h1
    · rw [← h1] at hp; norm_num at hp; linarith
  have hA := pos a ha
  have hB := pos b hb
  set n : ℝ := (Fintype.card ι : ℝ)
  set N := s.eval fl a a
  set S := t.eval fl b b
  set D := d.eval fl a b
  set w := 64 / 63 * (n * u) + u / 100 with hw
  have hw0 : 0 ≤ w := by positivity
  have hw1 : w ≤ 1 / 50 := by linarith
  have hx1 : |∑ i, dirn a i * dirn b i| ≤ 1 := by
    have := dot_abs_le (dirn a) (dirn b)
    rwa [vlen_dirn hA, vlen_dirn hB, one_mul] at this
  have hxR : ∑ i, a i * b i = (∑ i, dirn a i * dirn b i) * (vlen a * vlen b) := by
    rw [Finset.sum_mul]
    refine Finset.sum_congr rfl fun i _ => ?_
    unfold dirn
    field_simp
  rw [hxR] at eD
  set x := ∑ i, dirn a i * dirn b i
  have hQ := lengths_error h.error hu hu64 hη4 hA hB ha hb hw0 hw1 eN eS
  set R := vlen a * vlen b with hR
  have hR0 : 0 < R := mul_pos hA hB
  have hRu : u ≤ R := by
    have hR2 : u * u ≤ R * R := by
      have := mul_le_mul ha hb hu.le (by positivity)
      linarith [show R * R = vlen a ^ 2 * vlen b ^ 2 by rw [hR]; ring]
    by_contra hc
    push Not at hc
    nlinarith
  have hu2 : u ^ 2 ≤ 1 / 64 * (1 / 64) := by nlinarith
  set κ := 51 / 100 * (202 / 100 * w + 106 / 100 * u) + 104 / 100 * u with hκ
  have hκ0 : 0 ≤ κ := by positivity
  have hκ1 : κ ≤ 5 / 100 := by linarith
  set Q := fl (Real.sqrt (fl (N * S)))
  -- the product of the patterns
  have eD' : |D - x * R| ≤ w * R := by
    have h1 : u ^ 3 / 16 ≤ u / 100 * R := by
      have h1 : u ^ 3 / 16 ≤ u / 100 * u := by nlinarith
      have h2 := mul_le_mul_of_nonneg_left hRu (by positivity : 0 ≤ u / 100)
      linarith
    have h2 := mul_le_mul_of_nonneg_left hab (by positivity : 0 ≤ 64 / 63 * (n * u))
    rw [hw]
    linarith
  have hf := ratio_error h.error hu hu64 hη4 hR0 hx1 hw0 hw1 hκ0 hκ1 eD' hQ
  have hnu0 : 0 ≤ n * u := by positivity
  rw [hκ, hw] at hf
  linarith

end
end Kp
