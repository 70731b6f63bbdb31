import Verif.Model.Calibration
import Mathlib.Tactic.FieldSimp
import Mathlib.Tactic.Ring
import Mathlib.Tactic.Linarith
import Mathlib.Tactic.NormNum

/-
C10: moving-screen calibration.
-/

namespace Kp

/-- Spec: the features of the "out" pattern are those of the "in" pattern scaled about the
(PCx, PCy) position `c` (in pixels) by the ratio of detector distances
`(L + deltaZ) / L`. -/
def PhysicalPoints (c : ℝ × ℝ) (L deltaZ : ℝ) (pts : List ((ℝ × ℝ) × (ℝ × ℝ))) : Prop :=
  ∀ p ∈ pts, p.2 = (c.1 + (L + deltaZ) / L * (p.1.1 - c.1), c.2 + (L + deltaZ) / L * (p.1.2 - c.2))

/-- Spec: the PC in fractions of the detector: PCx of the width, PCy of the height from
the top (Bruker) or bottom (TSL), and PCz in the unit of `deltaZ` or in fractions of the
detector height if the pixel size is given. -/
noncomputable def truePc (m : MovingScreen) (c : ℝ × ℝ) (L : ℝ) : ℝ × ℝ × ℝ :=
  (c.1 / m.ncols,
   if m.tsl then (m.nrows - c.2) / m.nrows else c.2 / m.nrows,
   match m.pxSize with
   | none => L
   | some px => L / (m.nrows * (px * m.binning)))

theorem mem_pairs {α : Type*} {l : List α} {a b : α} (h : (a, b) ∈ pairs l) : a ∈ l ∧ b ∈ l := by
  induction l with
  | nil => simp [pairs] at h
  | cons x xs ih =>
    simp only [pairs, List.mem_append, List.mem_map, Prod.mk.injEq] at h
    rcases h with ⟨y, hy, rfl, rfl⟩ | h
    · exact ⟨by simp, by simp [hy]⟩
    · exact ⟨by simp [(ih h).1], by simp [(ih h).2]⟩

theorem intersection_scaled (c p q : ℝ × ℝ) (s : ℝ) (r : ℝ × ℝ)
    (h : intersection ((c.1 + s * (p.1 - c.1), c.2 + s * (p.2 - c.2)), p)
      ((c.1 + s * (q.1 - c.1), c.2 + s * (q.2 - c.2)), q) = some r) :
    r = c ∧ p ≠ q ∧ s ≠ 1 := by
  unfold intersection at h
  simp only at h
  split at h
  · cases h
  · rename_i hd
    simp only [det2] at hd
    simp only [Option.some.injEq, det2] at h
    have hne : p ≠ q := by
      rintro rfl
      apply hd; ring
    have hs : s ≠ 1 := by
      rintro rfl
      apply hd; ring
    refine ⟨?_, hne, hs⟩
    rw [← h]
    refine Prod.ext ?_ ?_
    · simp only
      rw [div_eq_iff hd]; ring
    · simp only
      rw [div_eq_iff hd]; ring

theorem lineLength_scaled (c p q : ℝ × ℝ) (s : ℝ) (hs : 0 ≤ s) :
    lineLength (c.1 + s * (p.1 - c.1), c.2 + s * (p.2 - c.2))
      (c.1 + s * (q.1 - c.1), c.2 + s * (q.2 - c.2)) = s * lineLength p q := by
  unfold lineLength
  simp only
  rw [show (c.1 + s * (p.1 - c.1) - (c.1 + s * (q.1 - c.1))) ^ 2 +
      (c.2 + s * (p.2 - c.2) - (c.2 + s * (q.2 - c.2))) ^ 2 =
      s ^ 2 * ((p.1 - q.1) ^ 2 + (p.2 - q.2) ^ 2) by ring]
  rw [Real.sqrt_mul (sq_nonneg s), Real.sqrt_sq hs]

theorem lineLength_pos (p q : ℝ × ℝ) (h : p ≠ q) : 0 < lineLength p q := by
  unfold lineLength
  apply Real.sqrt_pos.2
  by_contra hn
  apply h
  have h1 := sq_nonneg (p.1 - q.1)
  have h2 := sq_nonneg (p.2 - q.2)
  have e1 : (p.1 - q.1) ^ 2 = 0 := by linarith
  have e2 : (p.2 - q.2) ^ 2 = 0 := by linarith
  refine Prod.ext ?_ ?_
  · have := pow_eq_zero_iff (two_ne_zero) |>.1 e1; linarith
  · have := pow_eq_zero_iff (two_ne_zero) |>.1 e2; linarith

/-- C10: every PC estimate made from physically consistent points is the true PC, for every
number and position of points. -/
theorem C10_every_estimate_is_exact (m : MovingScreen) (c : ℝ × ℝ) (L : ℝ) (hL : 0 < L)
    (hd : 0 < m.deltaZ) (hr : m.nrows ≠ 0) (hpts : PhysicalPoints c L m.deltaZ m.points) :
    ∀ e ∈ m.pcAll, e = truePc m c L := by
  intro e he
  unfold MovingScreen.pcAll at he
  rw [List.mem_filterMap] at he
  obtain ⟨⟨a, b⟩, hab, he⟩ := he
  obtain ⟨ha, hb⟩ := mem_pairs hab
  have ha := hpts a ha
  have hb := hpts b hb
  have hr' : (m.nrows : ℝ) ≠ 0 := by exact_mod_cast hr
  obtain ⟨p, po⟩ := a
  obtain ⟨q, qo⟩ := b
  simp only at ha hb
  subst ha hb
  have hs : 0 < (L + m.deltaZ) / L := by positivity
  unfold MovingScreen.estimate at he
  simp only at he
  split at he
  · cases he
  · rename_i r hr2
    obtain ⟨h1, h2, h3⟩ := intersection_scaled c p q _ r hr2
    subst h1
    split at he
    · simp only [Option.some.injEq] at he
      subst he
      have hz : m.deltaZ / (lineLength (r.1 + (L + m.deltaZ) / L * (p.1 - r.1), r.2 + (L + m.deltaZ) / L * (p.2 - r.2))
          (r.1 + (L + m.deltaZ) / L * (q.1 - r.1), r.2 + (L + m.deltaZ) / L * (q.2 - r.2)) / lineLength p q - 1) = L := by
        rw [lineLength_scaled r p q _ hs.le]
        have := (lineLength_pos p q h2).ne'
        have h4 : (L + m.deltaZ) / L * lineLength p q / lineLength p q = (L + m.deltaZ) / L := by
          field_simp
        rw [h4]
        have h5 : (L + m.deltaZ) / L - 1 = m.deltaZ / L := by field_simp; ring
        rw [h5]
        field_simp
      unfold truePc MovingScreen.pczOf
      simp only [hz]
      refine Prod.ext rfl (Prod.ext ?_ ?_)
      · simp only
        split
        · field_simp
        · rfl
      · simp only
        cases m.pxSize with
        | none => rfl
        | some px => simp only [mul_assoc]
    · cases he

/-- C10: the average PC is the true PC as soon as there is at least one estimate. -/
theorem C10_average_pc_is_exact (m : MovingScreen) (c : ℝ × ℝ) (L : ℝ) (hL : 0 < L)
    (hd : 0 < m.deltaZ) (hr : m.nrows ≠ 0) (hpts : PhysicalPoints c L m.deltaZ m.points)
    (hne : m.pcAll ≠ []) : m.pc = truePc m c L := by
  have h := C10_every_estimate_is_exact m c L hL hd hr hpts
  have hrep := List.eq_replicate_of_mem h
  have hlen : (m.pcAll.length : ℝ) ≠ 0 := by
    have := List.length_pos_iff.2 hne
    exact_mod_cast this.ne'
  unfold MovingScreen.pc
  simp only
  generalize m.pcAll.length = n at *
  rw [hrep]
  simp only [List.map_replicate, List.sum_replicate, nsmul_eq_mul, mul_div_cancel_left₀ _ hlen]

/-- Non-vacuity: three points in general position about a PC inside a 60 x 80 detector,
with detector distances 10 and 15, give an estimate. -/
example : ∃ m : MovingScreen, PhysicalPoints (40, 20) 10 m.deltaZ m.points ∧ m.pcAll ≠ [] ∧
    0 < m.deltaZ ∧ m.nrows ≠ 0 ∧ m.points.length = 3 := by
  refine ⟨⟨[((50, 20), (55, 20)), ((40, 30), (40, 35)), ((30, 10), (25, 5))], 60, 80, 5, none, 1, true⟩,
    ?_, ?_, by norm_num, by norm_num, rfl⟩
  · intro p hp
    simp only [List.mem_cons, List.not_mem_nil, or_false] at hp
    rcases hp with rfl | rfl | rfl <;> norm_num
  · unfold MovingScreen.pcAll
    intro h
    rw [List.filterMap_eq_nil_iff] at h
    have := h (((50, 20), (55, 20)), ((40, 30), (40, 35))) (by simp [pairs])
    have hi : intersection ((55, 20), (50, 20)) ((40, 35), (40, 30)) = some (40, 20) := by
      unfold intersection
      simp only
      rw [if_neg (by norm_num [det2])]
      norm_num [det2]
    simp only [MovingScreen.estimate, hi, MovingScreen.within] at this
    rw [if_pos (by norm_num)] at this
    cases this

end Kp
