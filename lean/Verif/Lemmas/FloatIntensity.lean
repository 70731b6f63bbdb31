import Verif.Props.FloatPosition
import Verif.Props.MasterSymmetry
import Verif.Lemmas.FloatSimilarity
import Verif.Lemmas.FloatPc
import Verif.Model.FloatIntensity
import Verif.Spec.FloatIntensity

/-! Interpolated intensities depend on the place with at most the difference of neighbouring pixels. -/

namespace Kp
noncomputable section

/-! ### Along one axis -/

/-- Restricted to the range from 0 to 1. -/
def ramp (t : ℝ) : ℝ := max 0 (min t 1)

theorem ramp_mono {s t : ℝ} (h : s ≤ t) : ramp s ≤ ramp t :=
  max_le_max le_rfl (min_le_min h le_rfl)
theorem ramp_one {t : ℝ} (h : 1 ≤ t) : ramp t = 1 := by
  unfold ramp; rw [min_eq_right h, max_eq_right zero_le_one]
theorem ramp_zero {t : ℝ} (h : t ≤ 0) : ramp t = 0 := by
  unfold ramp; rw [min_eq_left (h.trans zero_le_one), max_eq_left h]
theorem ramp_mid {t : ℝ} (h : 0 ≤ t) (h1 : t ≤ 1) : ramp t = t := by
  unfold ramp; rw [min_eq_left h1, max_eq_right h]

/-- Linear interpolation between values at 0, 1, …, `m`, constant outside. -/
def interp1 (m : ℕ) (f : ℕ → ℝ) (y : ℝ) : ℝ :=
  f 0 + ∑ k ∈ Finset.range m, (f (k + 1) - f k) * ramp (y - k)

theorem interp1_ge {m : ℕ} (f : ℕ → ℝ) {y : ℝ} (h : (m : ℝ) ≤ y) : interp1 m f y = f m := by
  induction m with
  | zero => simp [interp1]
  | succ m ih =>
    push_cast at h
    have := ih (by linarith)
    unfold interp1 at this ⊢
    rw [Finset.sum_range_succ, ← add_assoc, this, ramp_one (by linarith)]
    ring

theorem interp1_le {m : ℕ} (f : ℕ → ℝ) {y : ℝ} (h : y ≤ m) : interp1 (m + 1) f y = interp1 m f y := by
  unfold interp1
  rw [Finset.sum_range_succ, ramp_zero (t := y - m) (by linarith)]
  ring

theorem interp1_drop {m k : ℕ} (f : ℕ → ℝ) {y : ℝ} (hk : k ≤ m) (h : y ≤ k) :
    interp1 m f y = interp1 k f y := by
  induction m with
  | zero => rw [Nat.le_zero.mp hk]
  | succ m ih =>
    rcases Nat.lt_or_ge m k with hc | hc
    · rw [show k = m + 1 by omega]
    · rw [interp1_le f (h.trans (by exact_mod_cast hc)), ih hc]

theorem interp1_cell {m k : ℕ} (f : ℕ → ℝ) {t : ℝ} (hk : k < m) (h0 : 0 ≤ t) (h1 : t ≤ 1) :
    interp1 m f (k + t) = f k * (1 - t) + f (k + 1) * t := by
  rw [interp1_drop f (k := k + 1) hk (by push_cast; linarith)]
  have := interp1_ge (m := k) f (y := k + t) (by linarith)
  unfold interp1 at this ⊢
  rw [Finset.sum_range_succ, ← add_assoc, this, add_sub_cancel_left, ramp_mid h0 h1]
  ring

theorem interp1_neg {m : ℕ} (f : ℕ → ℝ) {y : ℝ} (h : y ≤ 0) : interp1 m f y = f 0 := by
  rw [interp1_drop f (Nat.zero_le m) (by simpa using h)]
  simp [interp1]

theorem sum_ramp (m : ℕ) (y : ℝ) : ∑ k ∈ Finset.range m, ramp (y - k) = max 0 (min y m) := by
  induction m with
  | zero => simp
  | succ m ih =>
    rw [Finset.sum_range_succ, ih]
    push_cast
    have hm : (0 : ℝ) ≤ m := by positivity
    rcases le_total y m with h | h
    · rw [ramp_zero (by linarith), min_eq_left h, min_eq_left (by linarith), add_zero]
    · rw [min_eq_right h, max_eq_right hm]
      rcases le_total y (m + 1) with h2 | h2
      · rw [ramp_mid (by linarith) (by linarith), min_eq_left h2, max_eq_right (by linarith)]
        ring
      · rw [ramp_one (by linarith), min_eq_right h2, max_eq_right (by linarith)]

theorem clamp_lipschitz (m : ℕ) {y y' : ℝ} (h : y ≤ y') :
    max 0 (min y' (m : ℝ)) - max 0 (min y m) ≤ y' - y := by
  have hm : (0 : ℝ) ≤ m := by positivity
  rcases le_total y' m with h1 | h1 <;> rcases le_total y m with h2 | h2 <;>
    rcases le_total y' 0 with h3 | h3 <;> rcases le_total y 0 with h4 | h4 <;>
    simp only [min_eq_left, min_eq_right, max_eq_left, max_eq_right, h1, h2, h3, h4, hm] <;> linarith

theorem interp1_lipschitz_le {m : ℕ} {f : ℕ → ℝ} {D : ℝ} (hD : 0 ≤ D)
    (hf : ∀ k, k < m → |f (k + 1) - f k| ≤ D) {y y' : ℝ} (h : y ≤ y') :
    |interp1 m f y' - interp1 m f y| ≤ D * (y' - y) := by
  have e : interp1 m f y' - interp1 m f y =
      ∑ k ∈ Finset.range m, (f (k + 1) - f k) * (ramp (y' - k) - ramp (y - k)) := by
    unfold interp1
    rw [add_sub_add_left_eq_sub, ← Finset.sum_sub_distrib]
    exact Finset.sum_congr rfl fun k _ => by ring
  rw [e]
  have h1 : ∑ k ∈ Finset.range m, |(f (k + 1) - f k) * (ramp (y' - k) - ramp (y - k))| ≤
      ∑ k ∈ Finset.range m, D * (ramp (y' - k) - ramp (y - k)) := by
    refine Finset.sum_le_sum fun k hk => ?_
    have h0 : 0 ≤ ramp (y' - k) - ramp (y - k) := sub_nonneg.mpr (ramp_mono (by linarith))
    rw [abs_mul, abs_of_nonneg h0]
    exact mul_le_mul_of_nonneg_right (hf k (Finset.mem_range.mp hk)) h0
  refine (Finset.abs_sum_le_sum_abs _ _).trans (h1.trans ?_)
  rw [← Finset.mul_sum, Finset.sum_sub_distrib, sum_ramp, sum_ramp]
  exact mul_le_mul_of_nonneg_left (clamp_lipschitz m h) hD

theorem interp1_lipschitz {m : ℕ} {f : ℕ → ℝ} {D : ℝ} (hD : 0 ≤ D)
    (hf : ∀ k, k < m → |f (k + 1) - f k| ≤ D) (y y' : ℝ) :
    |interp1 m f y' - interp1 m f y| ≤ D * |y' - y| := by
  rcases le_total y y' with h | h
  · rw [abs_of_nonneg (sub_nonneg.mpr h)]
    exact interp1_lipschitz_le hD hf h
  · rw [abs_sub_comm, abs_sub_comm y', abs_of_nonneg (sub_nonneg.mpr h)]
    exact interp1_lipschitz_le hD hf h

/-- Every interpolated value is one between two values. -/
theorem interp1_between (m : ℕ) (y : ℝ) : ∃ k k' : ℕ, ∃ t : ℝ, k ≤ m ∧ k' ≤ m ∧ 0 ≤ t ∧ t < 1 ∧
    (0 ≤ y → y ≤ m → y = k + t ∧ (k' = k + 1 ∨ (k' = k ∧ t = 0))) ∧
    ∀ f : ℕ → ℝ, interp1 m f y = f k * (1 - t) + f k' * t := by
  rcases le_total y 0 with h0 | h0
  · refine ⟨0, 0, 0, by omega, by omega, le_rfl, zero_lt_one, fun h _ => ⟨?_, Or.inr ⟨rfl, rfl⟩⟩, fun f => ?_⟩
    · push_cast; linarith
    · rw [interp1_neg f h0]; ring
  rcases le_or_gt (m : ℝ) y with h1 | h1
  · refine ⟨m, m, 0, le_rfl, le_rfl, le_rfl, zero_lt_one, fun _ h => ⟨by linarith, Or.inr ⟨rfl, rfl⟩⟩, fun f => ?_⟩
    rw [interp1_ge f h1]; ring
  · have hk : ⌊y⌋₊ < m := (Nat.floor_lt h0).mpr h1
    have f1 := Nat.floor_le h0
    have f2 := Nat.lt_floor_add_one y
    refine ⟨⌊y⌋₊, ⌊y⌋₊ + 1, y - ⌊y⌋₊, hk.le, hk, by linarith, by linarith,
      fun _ _ => ⟨by ring, Or.inl rfl⟩, fun f => ?_⟩
    have := interp1_cell f hk (t := y - ⌊y⌋₊) (by linarith) (by linarith)
    rwa [add_sub_cancel] at this

theorem interp1_abs_le {m : ℕ} {f : ℕ → ℝ} {D : ℝ} (hf : ∀ k, k ≤ m → |f k| ≤ D) (y : ℝ) :
    |interp1 m f y| ≤ D := by
  obtain ⟨k, k', t, hk, hk', t0, t1, -, e⟩ := interp1_between m y
  rw [e f]
  have a := abs_le.mp (hf k hk)
  have b := abs_le.mp (hf k' hk')
  rw [abs_le]
  constructor <;> nlinarith

theorem interp1_sub (m : ℕ) (f g : ℕ → ℝ) (y : ℝ) :
    interp1 m f y - interp1 m g y = interp1 m (fun k => f k - g k) y := by
  obtain ⟨k, k', t, -, -, -, -, -, e⟩ := interp1_between m y
  rw [e, e, e]
  ring

theorem interp1_congr {m : ℕ} {f g : ℕ → ℝ} (h : ∀ k, k ≤ m → f k = g k) (y : ℝ) :
    interp1 m f y = interp1 m g y := by
  obtain ⟨k, k', t, hk, hk', -, -, -, e⟩ := interp1_between m y
  rw [e, e, h k hk, h k' hk']

/-- A line through two neighbouring values, also continued outside. -/
theorem line_near {m k k' : ℕ} {f : ℕ → ℝ} {D s t : ℝ} (hD : 0 ≤ D)
    (hf : ∀ k, k < m → |f (k + 1) - f k| ≤ D) (hk : k ≤ m)
    (hk' : (k' = k + 1 ∧ k < m) ∨ (k' = k ∧ k = m)) (hs0 : -t ≤ s) (hs1 : s ≤ 1 + t) (ht : 0 ≤ t) :
    |f k * (1 - s) + f k' * s - interp1 m f (k + s)| ≤ 2 * D * t := by
  have hDt : 0 ≤ D * t := mul_nonneg hD ht
  rcases hk' with ⟨rfl, hlt⟩ | ⟨rfl, rfl⟩
  · have hstep := abs_le.mp (hf k hlt)
    rcases le_or_gt 0 s with h0 | h0
    · rcases le_or_gt s 1 with h1 | h1
      · rw [interp1_cell f hlt h0 h1, sub_self, abs_zero]
        linarith
      · have l := interp1_lipschitz hD hf (k + s) (k + 1)
        rw [interp1_cell f hlt zero_le_one le_rfl, show (k : ℝ) + 1 - (k + s) = -(s - 1) by ring, abs_neg,
          abs_of_pos (a := s - 1) (by linarith)] at l
        have l' := abs_le.mp l
        have b : D * (s - 1) ≤ D * t := mul_le_mul_of_nonneg_left (by linarith) hD
        have e : f k * (1 - s) + f (k + 1) * s = f (k + 1) + (f (k + 1) - f k) * (s - 1) := by ring
        rw [e, abs_le]
        constructor <;> nlinarith
    · have l := interp1_lipschitz hD hf (k + s) (k + 0)
      rw [interp1_cell f hlt le_rfl zero_le_one, show (k : ℝ) + 0 - (k + s) = -s by ring,
        abs_of_pos (a := -s) (by linarith)] at l
      have l' := abs_le.mp l
      have b : D * (-s) ≤ D * t := mul_le_mul_of_nonneg_left (by linarith) hD
      have e : f k * (1 - s) + f (k + 1) * s = f k + (f (k + 1) - f k) * s := by ring
      rw [e, abs_le]
      constructor <;> nlinarith
  · have e : f k' * (1 - s) + f k' * s = f k' := by ring
    rw [e]
    rcases le_or_gt 0 s with h0 | h0
    · rw [interp1_ge f (by linarith), sub_self, abs_zero]
      linarith
    · have l := interp1_lipschitz hD hf (k' + s) k'
      rw [interp1_ge f le_rfl, show (k' : ℝ) - (k' + s) = -s by ring, abs_of_pos (a := -s) (by linarith)] at l
      have b : D * (-s) ≤ D * t := mul_le_mul_of_nonneg_left (by linarith) hD
      linarith

/-! ### Along both axes -/

/-- Interpolation along both axes. -/
def interp2 (m : ℕ) (img : ℕ → ℕ → ℝ) (y x : ℝ) : ℝ := interp1 m (fun r => interp1 m (img r) x) y

section
variable {m : ℕ} {img : ℕ → ℕ → ℝ} {D : ℝ}

theorem interp_step (hr : ∀ r c, r < m → c ≤ m → |img (r + 1) c - img r c| ≤ D) (x : ℝ) {r : ℕ} (h : r < m) :
    |interp1 m (img (r + 1)) x - interp1 m (img r) x| ≤ D := by
  rw [interp1_sub]
  exact interp1_abs_le (fun c hc => hr r c h hc) x

/-- The value computed with four pixels. -/
theorem interp2_near (hD : 0 ≤ D) (hr : ∀ r c, r < m → c ≤ m → |img (r + 1) c - img r c| ≤ D)
    (hc : ∀ r c, r ≤ m → c < m → |img r (c + 1) - img r c| ≤ D) {k k' j j' : ℕ} {s s' t y x : ℝ}
    (hk : k ≤ m) (hk' : (k' = k + 1 ∧ k < m) ∨ (k' = k ∧ k = m))
    (hj : j ≤ m) (hj' : (j' = j + 1 ∧ j < m) ∨ (j' = j ∧ j = m)) (ht : 0 ≤ t)
    (hs0 : -t ≤ s) (hs1 : s ≤ 1 + t) (hs0' : -t ≤ s') (hs1' : s' ≤ 1 + t) (hs2 : -1 ≤ s) (hs3 : s ≤ 2)
    (hy : |k + s - y| ≤ t) (hx : |j + s' - x| ≤ t) :
    |img k j * (1 - s) * (1 - s') + img k' j * s * (1 - s') + img k j' * (1 - s) * s' + img k' j' * s * s' -
      interp2 m img y x| ≤ 12 * D * t := by
  have hDt : 0 ≤ D * t := mul_nonneg hD ht
  have hk'm : k' ≤ m := by omega
  -- along each row
  have row : ∀ r, r ≤ m → |img r j * (1 - s') + img r j' * s' - interp1 m (img r) x| ≤ 3 * D * t := by
    intro r hrm
    have l1 := abs_le.mp (line_near hD (fun c h => hc r c hrm h) hj hj' hs0' hs1' ht)
    have l2 := abs_le.mp ((interp1_lipschitz hD (fun c h => hc r c hrm h) x (j + s')).trans
      (mul_le_mul_of_nonneg_left hx hD))
    rw [abs_le]
    constructor <;> linarith
  have r1 := abs_le.mp (row k hk)
  have r2 := abs_le.mp (row k' hk'm)
  have c1 := abs_le.mp (line_near (f := fun r => interp1 m (img r) x) hD (fun r h => interp_step hr x h) hk hk'
    hs0 hs1 ht)
  have c2 := abs_le.mp ((interp1_lipschitz (f := fun r => interp1 m (img r) x) hD
    (fun r h => interp_step hr x h) y (k + s)).trans (mul_le_mul_of_nonneg_left hy hD))
  set a := img k j * (1 - s') + img k j' * s' - interp1 m (img k) x with ha
  set b := img k' j * (1 - s') + img k' j' * s' - interp1 m (img k') x with hb
  have e : img k j * (1 - s) * (1 - s') + img k' j * s * (1 - s') + img k j' * (1 - s) * s' +
      img k' j' * s * s' = (1 - s) * a + s * b +
        (interp1 m (img k) x * (1 - s) + interp1 m (img k') x * s) := by
    rw [ha, hb]; ring
  have hab : |(1 - s) * a + s * b| ≤ 9 * D * t := by
    have h1 : |1 - s| + |s| ≤ 3 := by
      rcases abs_cases (1 - s) with ⟨e1, _⟩ | ⟨e1, _⟩ <;> rcases abs_cases s with ⟨e2, _⟩ | ⟨e2, _⟩ <;>
        rw [e1, e2] <;> linarith
    calc |(1 - s) * a + s * b| ≤ |1 - s| * |a| + |s| * |b| := by
          rw [← abs_mul, ← abs_mul]; exact abs_add_le _ _
      _ ≤ |1 - s| * (3 * D * t) + |s| * (3 * D * t) :=
          add_le_add (mul_le_mul_of_nonneg_left (abs_le.mpr r1) (abs_nonneg _))
            (mul_le_mul_of_nonneg_left (abs_le.mpr r2) (abs_nonneg _))
      _ = (|1 - s| + |s|) * (3 * D * t) := by ring
      _ ≤ 3 * (3 * D * t) := mul_le_mul_of_nonneg_right h1 (by linarith)
      _ = 9 * D * t := by ring
  rw [e]
  unfold interp2
  have hab' := abs_le.mp hab
  rw [abs_le]
  constructor <;> linarith

theorem interp2_lipschitz (hD : 0 ≤ D) (hr : ∀ r c, r < m → c ≤ m → |img (r + 1) c - img r c| ≤ D)
    (hc : ∀ r c, r ≤ m → c < m → |img r (c + 1) - img r c| ≤ D) (y x y' x' : ℝ) :
    |interp2 m img y' x' - interp2 m img y x| ≤ D * |y' - y| + D * |x' - x| := by
  have h1 := interp1_lipschitz (f := fun r => interp1 m (img r) x') hD (fun r h => interp_step hr x' h) y y'
  have h2 : |interp2 m img y x' - interp2 m img y x| ≤ D * |x' - x| := by
    unfold interp2
    rw [interp1_sub]
    exact interp1_abs_le (fun r hrm => interp1_lipschitz hD (fun c h => hc r c hrm h) x x') y
  have e : interp2 m img y' x' - interp2 m img y x =
      (interp2 m img y' x' - interp2 m img y x') + (interp2 m img y x' - interp2 m img y x) := by ring
  rw [e]
  exact (abs_add_le _ _).trans (add_le_add h1 h2)
end

/-! ### As the mean of all pixels -/

theorem sum_hat_interp1 {n : ℕ} (hn : 0 < n) (f : ℕ → ℝ) {y : ℝ} (h0 : 0 ≤ y) (h1 : y ≤ (n : ℝ) - 1) :
    ∑ r ∈ Finset.range n, f r * Spec.hat (y - r) = interp1 (n - 1) f y := by
  have hm : ((n - 1 : ℕ) : ℝ) = n - 1 := by rw [Nat.cast_sub hn]; simp
  obtain ⟨k, k', t, hk, hk', t0, t1, hy, e⟩ := interp1_between (n - 1) y
  obtain ⟨ey, hc⟩ := hy h0 (by rw [hm]; exact h1)
  rw [e f, ← sum_hat (n := n) (by omega) (by omega) t0 t1 hc f, ey]

theorem bilinearAt_interp2 {n : ℕ} (hn : 0 < n) (img : ℕ → ℕ → ℝ) {y x : ℝ} (hy : 0 ≤ y)
    (hy1 : y ≤ (n : ℝ) - 1) (hx : 0 ≤ x) (hx1 : x ≤ (n : ℝ) - 1) :
    Spec.bilinearAt n img y x = interp2 (n - 1) img y x := by
  unfold Spec.bilinearAt interp2
  rw [← sum_hat_interp1 hn _ hy hy1]
  refine Finset.sum_congr rfl fun r _ => ?_
  rw [← sum_hat_interp1 hn _ hx hx1, Finset.sum_mul]
  exact Finset.sum_congr rfl fun c _ => by ring

theorem interp2_border {n : ℕ} (hn : 0 < n) {u l : Img ℝ} (h : Spec.BordersMeet n u l) {y x : ℝ}
    (hb : y = 0 ∨ y = (n : ℝ) - 1 ∨ x = 0 ∨ x = (n : ℝ) - 1) :
    interp2 (n - 1) u.val y x = interp2 (n - 1) l.val y x := by
  have hm : ((n - 1 : ℕ) : ℝ) = n - 1 := by rw [Nat.cast_sub hn]; simp
  unfold interp2
  rcases hb with rfl | rfl | rfl | rfl
  · rw [interp1_neg _ le_rfl, interp1_neg _ le_rfl]
    exact interp1_congr (fun c hc => h 0 c hn (by omega) (Or.inl rfl)) x
  · rw [← hm, interp1_ge _ le_rfl, interp1_ge _ le_rfl]
    exact interp1_congr (fun c hc => h (n - 1) c (by omega) (by omega) (Or.inr (Or.inl rfl))) x
  · refine interp1_congr (fun r hr => ?_) y
    rw [interp1_neg _ le_rfl, interp1_neg _ le_rfl]
    exact h r 0 (by omega) hn (Or.inr (Or.inr (Or.inl rfl)))
  · refine interp1_congr (fun r hr => ?_) y
    rw [← hm, interp1_ge _ le_rfl, interp1_ge _ le_rfl]
    exact h r (n - 1) (by omega) (by omega) (Or.inr (Or.inr (Or.inr rfl)))

/-! ### Rounding of the intensity -/

theorem factors_near (o : ProductOrder) {v w1 w2 M : ℝ} (hM : 1 ≤ M) (hv : |v| ≤ M) (h1 : |w1| ≤ 2)
    (h2 : |w2| ≤ 2) :
    |(o.factors v w1 w2).1 * (o.factors v w1 w2).2 - v * w1 * w2| ≤ 4 * (ulp * M) ∧
      |(o.factors v w1 w2).1 * (o.factors v w1 w2).2| ≤ 6 * M := by
  have hu := ulp_pos
  have hu1 : ulp ≤ 1 / 2 := by unfold ulp; norm_num
  have huM : ulp * M ≤ 1 / 2 * M := mul_le_mul_of_nonneg_right hu1 (by linarith)
  have b2 : ∀ {w w' : ℝ}, |w| ≤ 2 → |w'| ≤ 2 → |v * w * w'| ≤ 4 * M := by
    intro w w' h h'
    rw [abs_mul, abs_mul]
    have h3 := mul_le_mul hv h (abs_nonneg _) (by linarith)
    have := mul_le_mul h3 h' (abs_nonneg _) (by linarith)
    linarith
  have b3 : ∀ {w w' : ℝ}, |w| ≤ 2 → |w'| ≤ 2 → |fl64 (v * w) * w' - v * w * w'| ≤ 4 * (ulp * M) := by
    intro w w' h h'
    have b1 : |v * w| ≤ 2 * M := by
      rw [abs_mul]
      have := mul_le_mul hv h (abs_nonneg _) (by linarith)
      linarith
    have e1 := fl64_abs_error_le b1 (by norm_num; linarith)
    rw [← sub_mul, abs_mul]
    have := mul_le_mul e1 h' (abs_nonneg _) (by positivity)
    linarith
  have main : |(o.factors v w1 w2).1 * (o.factors v w1 w2).2 - v * w1 * w2| ≤ 4 * (ulp * M) := by
    cases o with
    | written => exact b3 h1 h2
    | exchanged =>
      have := b3 h2 h1
      rwa [show v * w2 * w1 = v * w1 * w2 by ring] at this
    | weightsFirst =>
      have b1 : |w1 * w2| ≤ 4 := by
        rw [abs_mul]
        have := mul_le_mul h1 h2 (abs_nonneg _) (by norm_num)
        linarith
      have e1 := fl64_abs_error_le b1 (by norm_num)
      change |v * fl64 (w1 * w2) - v * w1 * w2| ≤ _
      rw [show v * fl64 (w1 * w2) - v * w1 * w2 = v * (fl64 (w1 * w2) - w1 * w2) by ring, abs_mul]
      have := mul_le_mul hv e1 (abs_nonneg _) (by linarith)
      linarith
  refine ⟨main, ?_⟩
  have b4 := b2 h1 h2
  rw [abs_le] at main b4 ⊢
  constructor <;> linarith

theorem sum4_near {s : SumOrder (Fin 4)} (hs : Spec.AddsEveryPixelOnce s) {a b : Fin 4 → ℝ} {M : ℝ}
    (hM : 1 ≤ M) (hab : ∀ i, |a i * b i| ≤ 6 * M) :
    |s.eval fl64 a b - ∑ i, a i * b i| ≤ 150 * (ulp * M) := by
  have hu := ulp_pos
  have ht0 := tiny_pos
  have ht : ulp * tiny ≤ ulp * M := by
    refine mul_le_mul_of_nonneg_left ?_ hu.le
    have h1 := tiny_le
    norm_num at h1
    linarith
  have e := s.eval_error (fl := fl64) (u := ulp) (η := ulp * tiny)
    (fun x => (fl64_error_tiny x).trans (le_of_eq (by ring))) hu.le (by positivity) a b
  rw [sum_of_perm hs, sum_of_perm hs, length_of_perm hs] at e
  refine e.trans ?_
  have h4 : (1 + ulp) ^ 4 - 1 ≤ 5 * ulp := by unfold ulp; norm_num
  have h5 : (1 + ulp) ^ 4 ≤ 2 := by unfold ulp; norm_num
  have h5' : 0 ≤ (1 + ulp) ^ 4 - 1 := by unfold ulp; norm_num
  have hsum : ∑ i, |a i * b i| ≤ 24 * M := by
    have := Finset.sum_le_sum fun i (_ : i ∈ Finset.univ) => hab i
    refine this.trans (le_of_eq ?_)
    simp
    ring
  have hsum0 : 0 ≤ ∑ i, |a i * b i| := Finset.sum_nonneg fun i _ => abs_nonneg _
  simp only [Fintype.card_fin]
  have t1 := mul_le_mul h4 hsum hsum0 (by positivity)
  have t2 : (1 + ulp) ^ 4 * (ulp * tiny) ≤ 2 * (ulp * M) :=
    mul_le_mul h5 ht (by positivity) (by norm_num)
  have huM : 0 ≤ ulp * M := by positivity
  push_cast
  linarith

theorem masterPixelFl_near {o : PixelOrders} (ho : Spec.AddsEveryPixelOnce o.sum) {img : Img ℝ} {p : Interp}
    {M : ℝ} (hM : 1 ≤ M)
    (v1 : |img.val p.nii.toNat p.nij.toNat| ≤ M) (v2 : |img.val p.niip.toNat p.nij.toNat| ≤ M)
    (v3 : |img.val p.nii.toNat p.nijp.toNat| ≤ M) (v4 : |img.val p.niip.toNat p.nijp.toNat| ≤ M)
    (w1 : |p.di| ≤ 2) (w2 : |p.dim| ≤ 2) (w3 : |p.dj| ≤ 2) (w4 : |p.djm| ≤ 2) :
    |masterPixelFl o img p - (img.val p.nii.toNat p.nij.toNat * p.dim * p.djm +
      img.val p.niip.toNat p.nij.toNat * p.di * p.djm + img.val p.nii.toNat p.nijp.toNat * p.dim * p.dj +
      img.val p.niip.toNat p.nijp.toNat * p.di * p.dj)| ≤ 200 * ulp * M := by
  obtain ⟨a0, b0⟩ := factors_near (o.product 0) hM v1 w2 w4
  obtain ⟨a1, b1⟩ := factors_near (o.product 1) hM v2 w1 w4
  obtain ⟨a2, b2⟩ := factors_near (o.product 2) hM v3 w2 w3
  obtain ⟨a3, b3⟩ := factors_near (o.product 3) hM v4 w1 w3
  have hs := sum4_near ho (a := fun i => ((o.product i).factors (weightedPixels img p i).1
    (weightedPixels img p i).2.1 (weightedPixels img p i).2.2).1)
    (b := fun i => ((o.product i).factors (weightedPixels img p i).1
      (weightedPixels img p i).2.1 (weightedPixels img p i).2.2).2) hM (by
      intro i
      fin_cases i
      · exact b0
      · exact b1
      · exact b2
      · exact b3)
  rw [Fin.sum_univ_four] at hs
  change |masterPixelFl o img p - _| ≤ _ at hs
  rw [abs_le] at a0 a1 a2 a3 hs
  have huM : 0 ≤ ulp * M := mul_nonneg ulp_pos.le (by linarith)
  simp only [weightedPixels, Matrix.cons_val] at hs
  rw [abs_le]
  constructor <;> linarith

/-- Weights that add up to one only up to rounding errors. -/
theorem weights_near {a b c d s s' q q' M : ℝ} (ha : |a| ≤ M) (hb : |b| ≤ M) (hc : |c| ≤ M)
    (hs : |s| ≤ 2) (hs' : |s'| ≤ 2) (hq' : |q'| ≤ 2) (hsq : |s + q - 1| ≤ 1 / 2 ^ 46)
    (hsq' : |s' + q' - 1| ≤ 1 / 2 ^ 46) (h1s : |1 - s| ≤ 2) :
    |a * q * q' + b * s * q' + c * q * s' + d * s * s' -
      (a * (1 - s) * (1 - s') + b * s * (1 - s') + c * (1 - s) * s' + d * s * s')| ≤ M / 2 ^ 42 := by
  have hM : 0 ≤ M := (abs_nonneg _).trans ha
  have e : a * q * q' + b * s * q' + c * q * s' + d * s * s' -
      (a * (1 - s) * (1 - s') + b * s * (1 - s') + c * (1 - s) * s' + d * s * s') =
      a * q' * (s + q - 1) + a * (1 - s) * (s' + q' - 1) + b * s * (s' + q' - 1) +
        c * s' * (s + q - 1) := by ring
  rw [e]
  have bound : ∀ {x w z : ℝ}, |x| ≤ M → |w| ≤ 2 → |z| ≤ 1 / 2 ^ 46 → |x * w * z| ≤ M / 2 ^ 45 := by
    intro x w z hx hw hz
    rw [abs_mul, abs_mul]
    have h1 := mul_le_mul hx hw (abs_nonneg _) hM
    have h2 := mul_le_mul h1 hz (abs_nonneg _) (by linarith)
    refine h2.trans (le_of_eq ?_)
    ring
  have t1 := abs_le.mp (bound ha hq' hsq)
  have t2 := abs_le.mp (bound ha h1s hsq')
  have t3 := abs_le.mp (bound hb hs hsq')
  have t4 := abs_le.mp (bound hc hs' hsq)
  have e8 : M / 2 ^ 42 = 8 * (M / 2 ^ 45) := by ring
  have : 0 ≤ M / 2 ^ 45 := by positivity
  rw [abs_le, e8]
  constructor <;> linarith

/-! ### The pixels used -/

/-- Along one axis: the second pixel is the next one or both are the last one, and the place is not
before the first pixel, unless that is the first of all. -/
def Neighbours (n : ℕ) (k k' : ℤ) (s : ℝ) : Prop :=
  ((k' = k + 1 ∧ k + 1 < n) ∨ (k' = k ∧ k + 1 = n)) ∧ (-(1 / 2 ^ 19) ≤ s ∨ k = 0)

theorem neighbours_axis {n : ℕ} (hn : 0 < n) (hn31 : n < 2 ^ 31) {t : ℝ}
    (ht : |t| ≤ ((n : ℝ) - 1) / 2 + 1 / 2) {m : ℤ} (hm : m = toInt32 (fl64 (t + ((n : ℝ) - 1) / 2)))
    (h0 : 0 ≤ m) (h1 : m < n) :
    Neighbours n m (if (n : ℤ) ≤ m + 1 then m else m + 1)
      (fl64 (fl64 (t - m) + ((n : ℝ) - 1) / 2)) := by
  have hn' : (n : ℝ) < 2147483648 := by exact_mod_cast hn31
  have hn1 : (1 : ℝ) ≤ n := by exact_mod_cast hn
  constructor
  · split_ifs <;> omega
  set s := ((n : ℝ) - 1) / 2 with hs
  have h0' : (0 : ℝ) ≤ m := by exact_mod_cast h0
  have h1' : (m : ℝ) ≤ n - 1 := by
    have : m ≤ (n : ℤ) - 1 := by omega
    exact_mod_cast this
  have ht' := abs_le.1 ht
  have hts : |t + s| ≤ 2 ^ 32 := by
    rw [abs_le]; constructor <;> norm_num <;> linarith
  have e0 := abs_le.1 (fl64_abs_error_le hts (by norm_num))
  have e1 := abs_le.1 (fl64_abs_error_le (x := t - m) (b := 2 ^ 32)
    (by rw [abs_le]; constructor <;> norm_num <;> linarith) (by norm_num))
  have hu : ulp * 2 ^ 32 = 1 / 2 ^ 21 := by unfold ulp; norm_num
  rw [hu] at e0 e1
  unfold toInt32 at hm
  split_ifs at hm with hc
  · left
    have f1 := Int.floor_le (fl64 (t + s))
    have f2 := Int.lt_floor_add_one (fl64 (t + s))
    rw [← hm] at f1 f2
    have hb : |fl64 (t - m) + s| ≤ 2 := by
      rw [abs_le]; constructor <;> norm_num at * <;> linarith
    have e2 := abs_le.1 (fl64_abs_error_le hb (by norm_num))
    have hu2 : ulp * 2 ≤ 1 / 2 ^ 48 := by unfold ulp; norm_num
    norm_num at *
    linarith
  · right
    have : m ≤ 0 := by rw [hm, Int.ceil_le]; push_cast; linarith
    omega

theorem toInt32_in {n : ℕ} {t : ℝ}
    (ht : |t| ≤ ((n : ℝ) - 1) / 2 + 1 / 2) :
    0 ≤ toInt32 (fl64 (t + ((n : ℝ) - 1) / 2)) := by
  rw [abs_le] at ht
  have l1 : -(1 / 2) ≤ fl64 (t + ((n : ℝ) - 1) / 2) :=
    fl64_ge_of_le (by linarith) (by rw [fl64_neg, fl64_half])
  unfold toInt32
  split_ifs with h0
  · exact Int.floor_nonneg.mpr h0
  · have : -1 < ⌈fl64 (t + ((n : ℝ) - 1) / 2)⌉ := by
      rw [Int.lt_ceil]; push_cast; linarith
    omega

theorem interpAtFl_neighbours {n : ℕ} (hn : 0 < n) (hn31 : n < 2 ^ 31) {i j : ℝ}
    (hi : |i| ≤ ((n : ℝ) - 1) / 2 + 1 / 2) (hj : |j| ≤ ((n : ℝ) - 1) / 2 + 1 / 2) {p : Interp}
    (hp : p = interpAtFl i j n n (((n : ℝ) - 1) / 2)) :
    Neighbours n p.nii p.niip p.di ∧ Neighbours n p.nij p.nijp p.dj := by
  have a0 := toInt32_in hi
  have b0 := toInt32_in hj
  have ha := C105_half_pixel hn hn31 hi hj
  rw [hp]
  unfold Spec.InArray interpAtFl at ha
  unfold interpAtFl
  simp only at ha ⊢
  rw [if_neg (not_lt.mpr a0), if_neg (not_lt.mpr b0)] at ha ⊢
  obtain ⟨⟨-, a2⟩, ⟨-, b2⟩, -, -⟩ := ha
  exact ⟨neighbours_axis hn hn31 hi rfl a0 a2, neighbours_axis hn hn31 hj rfl b0 b2⟩

/-- The place of a direction is in the square. -/
theorem square_le {u : V3 ℝ} (h : u.IsUnit) : |Spec.squareCoordinate u.x u.y u.z| ≤ 1 ∧
    |Spec.squareCoordinate u.y u.x u.z| ≤ 1 := by
  obtain ⟨sx, sy⟩ := C28_in_square h
  obtain ⟨c1, _⟩ := sqrtPiHalf_bounds
  rw [vector2lambert_coordinates h] at sx sy
  simp only at sx sy
  rw [lambertCoordinate_eq, abs_mul, abs_of_pos (by linarith)] at sx sy
  change _ ≤ sqrtPiHalf at sx
  change _ ≤ sqrtPiHalf at sy
  exact ⟨by nlinarith, by nlinarith⟩

theorem place_in {u : V3 ℝ} (h : u.IsUnit) {n : ℕ} (hn : 0 < n) :
    (0 ≤ Spec.masterRow n u ∧ Spec.masterRow n u ≤ (n : ℝ) - 1) ∧
      (0 ≤ Spec.masterColumn n u ∧ Spec.masterColumn n u ≤ (n : ℝ) - 1) := by
  obtain ⟨hx, hy⟩ := square_le h
  rw [abs_le] at hx hy
  have hn1 : (1 : ℝ) ≤ n := by exact_mod_cast hn
  unfold Spec.masterRow Spec.masterColumn
  refine ⟨⟨?_, ?_⟩, ?_, ?_⟩ <;> nlinarith

/-- Close to the equator a direction is close to the border. -/
theorem side_near {a b z η : ℝ} (hab : |b| ≤ |a|) (ha : a ≠ 0) (hz : |z| ≤ η) (hη : η ≤ 1) {n : ℕ} (hn : 0 < n) :
    ∃ e : ℝ, (e = 0 ∨ e = (n : ℝ) - 1) ∧
      |e - ((n : ℝ) - 1) * (1 + Spec.squareCoordinate a b z) / 2| ≤ ((n : ℝ) - 1) / 2 * η := by
  have hn1 : (1 : ℝ) ≤ n := by exact_mod_cast hn
  have hz0 := abs_nonneg z
  have r1 : 1 - |z| ≤ Real.sqrt (1 - |z|) := Real.le_sqrt_of_sq_le (by nlinarith)
  have r2 : Real.sqrt (1 - |z|) ≤ 1 := by
    rw [Real.sqrt_le_left zero_le_one]; linarith
  unfold Spec.squareCoordinate
  rw [if_pos hab, mul_one]
  rcases lt_or_gt_of_ne ha with h | h
  · refine ⟨0, Or.inl rfl, ?_⟩
    rw [Real.sign_of_neg h, abs_le]
    constructor <;> nlinarith
  · refine ⟨n - 1, Or.inr rfl, ?_⟩
    rw [Real.sign_of_pos h, abs_le]
    constructor <;> nlinarith

end
end Kp
