import Verif.Spec.Continuity
import Verif.Props.MasterSymmetry
import Verif.Props.SelfRefinement
import Verif.Lemmas.RefineExample

/-
C138: simulated patterns and refinement scores are continuous.
-/

namespace Kp
open Spec Filter Topology

/-! ### Limits of directions -/

/-- Vectors converge in each component. -/
structure TendstoV {ι : Type*} (F : Filter ι) (f : ι → V3 ℝ) (v : V3 ℝ) : Prop where
  x : Tendsto (fun k => (f k).x) F (𝓝 v.x)
  y : Tendsto (fun k => (f k).y) F (𝓝 v.y)
  z : Tendsto (fun k => (f k).z) F (𝓝 v.z)

theorem TendstoV.swap {ι : Type*} {F : Filter ι} {f : ι → V3 ℝ} {v : V3 ℝ} (h : TendstoV F f v) :
    TendstoV F (fun k => (f k).swap) v.swap := ⟨h.y, h.x, h.z⟩

theorem norm_ne_zero_of {v : V3 ℝ} (hv : v ≠ ⟨0, 0, 0⟩) :
    Real.sqrt (v.x * v.x + v.y * v.y + v.z * v.z) ≠ 0 := by
  intro h
  have h0 : v.x * v.x + v.y * v.y + v.z * v.z ≤ 0 := Real.sqrt_eq_zero'.1 h
  refine hv ?_
  ext <;> simp only <;> nlinarith [mul_self_nonneg v.x, mul_self_nonneg v.y, mul_self_nonneg v.z]

theorem tendsto_normalize {ι : Type*} {F : Filter ι} {f : ι → V3 ℝ} {v : V3 ℝ} (h : TendstoV F f v)
    (hv : v ≠ ⟨0, 0, 0⟩) : TendstoV F (fun k => normalizeV (f k)) (normalizeV v) := by
  have hn : Tendsto (fun k => Real.sqrt ((f k).x * (f k).x + (f k).y * (f k).y + (f k).z * (f k).z)) F
      (𝓝 (Real.sqrt (v.x * v.x + v.y * v.y + v.z * v.z))) :=
    (((h.x.mul h.x).add (h.y.mul h.y)).add (h.z.mul h.z)).sqrt
  have h0 := norm_ne_zero_of hv
  exact ⟨h.x.div hn h0, h.y.div hn h0, h.z.div hn h0⟩

theorem sign_eq_div (x : ℝ) : Real.sign x = x / |x| := by
  rcases lt_trichotomy x 0 with h | h | h
  · rw [Real.sign_of_neg h, abs_of_neg h, div_neg, div_self h.ne]
  · rw [h]; simp
  · rw [Real.sign_of_pos h, abs_of_pos h, div_self h.ne']

theorem tendsto_fwdX {ι : Type*} {F : Filter ι} {f : ι → V3 ℝ} {v : V3 ℝ} (h : TendstoV F f v)
    (hx : v.x ≠ 0) :
    Tendsto (fun k => (fwdX (f k)).1) F (𝓝 (fwdX v).1) ∧ Tendsto (fun k => (fwdX (f k)).2) F (𝓝 (fwdX v).2) := by
  have hsign : Tendsto (fun k => Real.sign (f k).x) F (𝓝 (Real.sign v.x)) := by
    simp only [sign_eq_div]
    exact h.x.div h.x.abs (abs_ne_zero.2 hx)
  have hsq : Tendsto (fun k => Real.sqrt (2 * (1 - |(f k).z|))) F (𝓝 (Real.sqrt (2 * (1 - |v.z|)))) :=
    ((tendsto_const_nhds.sub h.z.abs).const_mul 2).sqrt
  have hat : Tendsto (fun k => Real.arctan ((f k).y / (f k).x)) F (𝓝 (Real.arctan (v.y / v.x))) :=
    (Real.continuous_arctan.tendsto _).comp (h.y.div h.x hx)
  unfold fwdX
  exact ⟨(hsign.mul hsq).mul_const _, ((hsign.mul hsq).mul_const _).mul hat⟩

/-- How far from the middle of the square a direction is. -/
theorem lam_bound (w : V3 ℝ) : |(lam w).1| ≤ Real.sqrt (2 * (1 - |w.z|)) * sqrtPiOver2 ∧
    |(lam w).2| ≤ Real.sqrt (2 * (1 - |w.z|)) * sqrtPiOver2 := by
  have hp : 0 < Real.sqrt Real.pi := Real.sqrt_pos.2 Real.pi_pos
  have hs : 0 ≤ sqrtPiOver2 := by unfold sqrtPiOver2; positivity
  have ht : 0 ≤ twoOverSqrtPi := by unfold twoOverSqrtPi; positivity
  have hc : twoOverSqrtPi * (Real.pi / 4) = sqrtPiOver2 := by
    have hpi := sqrt_pi_mul_self
    unfold twoOverSqrtPi sqrtPiOver2
    field_simp
    nlinarith
  have hsign : ∀ x : ℝ, |Real.sign x| ≤ 1 := by
    intro x
    rcases Real.sign_apply_eq x with h | h | h <;> rw [h] <;> norm_num
  have key : ∀ v : V3 ℝ, |v.y| ≤ |v.x| → |(fwdX v).1| ≤ Real.sqrt (2 * (1 - |v.z|)) * sqrtPiOver2 ∧
      |(fwdX v).2| ≤ Real.sqrt (2 * (1 - |v.z|)) * sqrtPiOver2 := by
    intro v hv
    have hq := Real.sqrt_nonneg (2 * (1 - |v.z|))
    unfold fwdX
    simp only [abs_mul, abs_of_nonneg hq, abs_of_nonneg hs, abs_of_nonneg ht]
    constructor
    · rw [mul_assoc]
      exact mul_le_of_le_one_left (mul_nonneg hq hs) (hsign _)
    · rw [mul_assoc, mul_assoc, ← hc]
      refine (mul_le_of_le_one_left (by positivity) (hsign _)).trans ?_
      exact mul_le_mul_of_nonneg_left (mul_le_mul_of_nonneg_left (abs_arctan_le hv) ht) hq
  unfold lam
  split
  · simp only [abs_zero]
    exact ⟨by positivity, by positivity⟩
  · split
    · exact key w ‹_›
    · obtain ⟨h1, h2⟩ := key w.swap (by
        change |w.x| ≤ |w.y|
        linarith)
      exact ⟨h2, h1⟩

theorem tendsto_lam {ι : Type*} {F : Filter ι} {f : ι → V3 ℝ} {v : V3 ℝ} (h : TendstoV F f v)
    (hv : v.IsUnit) :
    Tendsto (fun k => (lam (f k)).1) F (𝓝 (lam v).1) ∧ Tendsto (fun k => (lam (f k)).2) F (𝓝 (lam v).2) := by
  by_cases h1 : |v.z| = 1
  · have e : lam v = (0, 0) := by unfold lam; rw [if_pos h1]
    have hb : Tendsto (fun k => Real.sqrt (2 * (1 - |(f k).z|)) * sqrtPiOver2) F (𝓝 0) := by
      have := (((tendsto_const_nhds (x := (1 : ℝ))).sub h.z.abs).const_mul 2).sqrt.mul_const sqrtPiOver2
      rw [h1] at this
      simpa using this
    rw [e]
    exact ⟨squeeze_zero_norm (fun k => (lam_bound (f k)).1) hb,
      squeeze_zero_norm (fun k => (lam_bound (f k)).2) hb⟩
  · have hev : ∀ᶠ k in F, |(f k).z| ≠ 1 := h.z.abs.eventually_ne h1
    have hxy : ¬ (v.x = 0 ∧ v.y = 0) := by
      rintro ⟨hx, hy⟩
      unfold V3.IsUnit at hv
      rw [hx, hy] at hv
      have : |v.z| ^ 2 = 1 := by rw [sq_abs]; linarith
      exact h1 (by nlinarith [abs_nonneg v.z])
    have reduce : ∀ (pr : ℝ × ℝ → ℝ), Tendsto (fun k => pr (if |(f k).y| ≤ |(f k).x| then fwdX (f k)
        else (fwdX (f k).swap).swap)) F (𝓝 (pr (if |v.y| ≤ |v.x| then fwdX v else (fwdX v.swap).swap))) →
        Tendsto (fun k => pr (lam (f k))) F (𝓝 (pr (lam v))) := by
      intro pr hpr
      have e : lam v = if |v.y| ≤ |v.x| then fwdX v else (fwdX v.swap).swap := by
        unfold lam; rw [if_neg h1]
      rw [e]
      refine hpr.congr' (hev.mono fun k hk => ?_)
      beta_reduce
      unfold lam
      rw [if_neg hk]
    rcases lt_trichotomy |v.y| |v.x| with h2 | h2 | h2
    · have hx : v.x ≠ 0 := by
        intro hx
        rw [hx, abs_zero] at h2
        exact absurd (abs_nonneg v.y) (not_le.2 h2)
      obtain ⟨t1, t2⟩ := tendsto_fwdX h hx
      have hev2 : ∀ᶠ k in F, |(f k).y| < |(f k).x| := h.y.abs.eventually_lt h.x.abs h2
      constructor
      · apply reduce Prod.fst
        rw [if_pos h2.le]
        exact t1.congr' (hev2.mono fun k hk => by beta_reduce; rw [if_pos hk.le])
      · apply reduce Prod.snd
        rw [if_pos h2.le]
        exact t2.congr' (hev2.mono fun k hk => by beta_reduce; rw [if_pos hk.le])
    · have hx : v.x ≠ 0 := by
        intro hx
        rw [hx, abs_zero, abs_eq_zero] at h2
        exact hxy ⟨hx, h2⟩
      have hy : v.swap.x ≠ 0 := by
        intro hy
        have hy : v.y = 0 := hy
        rw [hy, abs_zero, eq_comm, abs_eq_zero] at h2
        exact hx h2
      obtain ⟨t1, t2⟩ := tendsto_fwdX h hx
      obtain ⟨s1, s2⟩ := tendsto_fwdX h.swap hy
      rw [fwdX_diag h2] at s1 s2
      constructor
      · apply reduce Prod.fst
        rw [if_pos h2.le]
        refine (Tendsto.if' (p := fun k => |(f k).y| ≤ |(f k).x|) t1 s2).congr fun k => ?_
        split <;> rfl
      · apply reduce Prod.snd
        rw [if_pos h2.le]
        refine (Tendsto.if' (p := fun k => |(f k).y| ≤ |(f k).x|) t2 s1).congr fun k => ?_
        split <;> rfl
    · have hy : v.swap.x ≠ 0 := by
        intro hy
        have hy : v.y = 0 := hy
        rw [hy, abs_zero] at h2
        exact absurd (abs_nonneg v.x) (not_le.2 h2)
      obtain ⟨s1, s2⟩ := tendsto_fwdX h.swap hy
      have hev2 : ∀ᶠ k in F, |(f k).x| < |(f k).y| := h.x.abs.eventually_lt h.y.abs h2
      constructor
      · apply reduce Prod.fst
        rw [if_neg (not_le.2 h2)]
        exact s2.congr' (hev2.mono fun k hk => by beta_reduce; rw [if_neg (not_le.2 hk)]; rfl)
      · apply reduce Prod.snd
        rw [if_neg (not_le.2 h2)]
        exact s1.congr' (hev2.mono fun k hk => by beta_reduce; rw [if_neg (not_le.2 hk)]; rfl)

theorem tendsto_lambert {ι : Type*} {F : Filter ι} {f : ι → V3 ℝ} {v : V3 ℝ} (h : TendstoV F f v)
    (hv : v ≠ ⟨0, 0, 0⟩) :
    Tendsto (fun k => (vector2lambert (f k)).1) F (𝓝 (vector2lambert v).1) ∧
      Tendsto (fun k => (vector2lambert (f k)).2) F (𝓝 (vector2lambert v).2) := by
  simp only [vector2lambert_lam]
  refine tendsto_lam (tendsto_normalize h hv) ?_
  rcases normalizeV_cases v with h1 | h1
  · exact h1
  · exfalso
    have h0 := norm_ne_zero_of hv
    unfold normalizeV at h1
    simp only [V3.mk.injEq, div_eq_zero_iff, h0, or_false] at h1
    exact hv (V3.ext h1.1 h1.2.1 h1.2.2)

/-! ### Limits of intensities -/

theorem tendsto_hat {ι : Type*} {F : Filter ι} {f : ι → ℝ} {t : ℝ} (h : Tendsto f F (𝓝 t)) :
    Tendsto (fun k => hat (f k)) F (𝓝 (hat t)) := by
  unfold hat
  exact tendsto_const_nhds.max (tendsto_const_nhds.sub h.abs)

theorem tendsto_bilinear {ι : Type*} {F : Filter ι} {y x : ι → ℝ} {y0 x0 : ℝ} (hy : Tendsto y F (𝓝 y0))
    (hx : Tendsto x F (𝓝 x0)) (n : ℕ) (img : ℕ → ℕ → ℝ) :
    Tendsto (fun k => bilinearAt n img (y k) (x k)) F (𝓝 (bilinearAt n img y0 x0)) := by
  unfold bilinearAt
  refine tendsto_finsetSum _ fun r _ => tendsto_finsetSum _ fun c _ => ?_
  exact ((tendsto_hat (hy.sub_const _)).mul (tendsto_hat (hx.sub_const _))).const_mul _

theorem tendsto_gridAt {ι : Type*} {F : Filter ι} {x : ι → ℝ} {x0 : ℝ} (h : Tendsto x F (𝓝 x0)) (n : ℕ) :
    Tendsto (fun k => gridAt n (x k)) F (𝓝 (gridAt n x0)) := by
  unfold gridAt
  exact ((h.const_mul _).div_const _).add_const _

theorem tendsto_image {ι : Type*} {F : Filter ι} {f : ι → V3 ℝ} {v : V3 ℝ} (h : TendstoV F f v)
    (hv : v ≠ ⟨0, 0, 0⟩) (n : ℕ) (img : ℕ → ℕ → ℝ) :
    Tendsto (fun k => bilinearAt n img (gridAt n (vector2lambert (f k)).2) (gridAt n (vector2lambert (f k)).1)) F
      (𝓝 (bilinearAt n img (gridAt n (vector2lambert v).2) (gridAt n (vector2lambert v).1))) := by
  obtain ⟨h1, h2⟩ := tendsto_lambert h hv
  exact tendsto_bilinear (tendsto_gridAt h2 n) (tendsto_gridAt h1 n) n img

theorem tendsto_intensity {ι : Type*} {F : Filter ι} {f : ι → V3 ℝ} {v : V3 ℝ} (h : TendstoV F f v)
    (hv : v ≠ ⟨0, 0, 0⟩) {u l : Img ℝ} (hpos : 0 < u.cols) (hsq : u.rows = u.cols) (hb : SameBorder u l) :
    Tendsto (fun k => intensityIn u l (f k)) F (𝓝 (intensityIn u l v)) := by
  simp only [intensityIn_bilinear hpos hsq]
  have tu := tendsto_image h hv u.cols u.val
  have tl := tendsto_image h hv u.cols l.val
  rcases lt_trichotomy v.z 0 with h0 | h0 | h0
  · rw [if_neg (not_le.2 h0)]
    exact tl.congr' ((h.z.eventually_lt_const h0).mono fun k hk => by beta_reduce; rw [if_neg (not_le.2 hk)])
  · rw [if_pos h0.ge]
    have e : bilinearAt u.cols l.val (gridAt u.cols (vector2lambert v).2) (gridAt u.cols (vector2lambert v).1) =
        bilinearAt u.cols u.val (gridAt u.cols (vector2lambert v).2) (gridAt u.cols (vector2lambert v).1) := by
      refine (bilinearAt_border hpos (fun r c hr hc hbd => ?_) (lambert_equator h0 hv _)).symm
      exact hb r c (hsq ▸ hr) hc (by rw [hsq]; exact hbd)
    rw [e] at tl
    refine (Tendsto.if' (p := fun k => 0 ≤ (f k).z) tu tl).congr fun k => ?_
    split <;> rfl
  · rw [if_pos h0.le]
    exact tu.congr' ((h.z.eventually_const_lt h0).mono fun k hk => by beta_reduce; rw [if_pos hk.le])

/-! ### From sequences to distances -/

/-- What holds eventually on every sequence of points which come near holds of all points near enough. -/
theorem near_of_seq {α : Type*} {N : ℝ → α → Prop} {G : α → Prop}
    (h : ∀ f : ℕ → α, (∀ k : ℕ, N (1 / ((k : ℝ) + 1)) (f k)) → ∀ᶠ k in atTop, G (f k)) :
    ∃ δ, 0 < δ ∧ ∀ a, N δ a → G a := by
  by_contra hc
  push Not at hc
  have hk : ∀ k : ℕ, ∃ a, N (1 / ((k : ℝ) + 1)) a ∧ ¬ G a := fun k => hc _ (by positivity)
  choose f hf using hk
  obtain ⟨k, hk⟩ := (h f fun k => (hf k).1).exists
  exact (hf k).2 hk

theorem tendsto_of_near {f : ℕ → ℝ} {x : ℝ} (h : ∀ k : ℕ, |f k - x| < 1 / ((k : ℝ) + 1)) :
    Tendsto f atTop (𝓝 x) := by
  rw [tendsto_iff_norm_sub_tendsto_zero]
  exact squeeze_zero (fun k => norm_nonneg _) (fun k => (h k).le) tendsto_one_div_add_atTop_nhds_zero_nat

theorem tendstoV_of_near {f : ℕ → V3 ℝ} {v : V3 ℝ} (h : ∀ k : ℕ, NearV (1 / ((k : ℝ) + 1)) v (f k)) :
    TendstoV atTop f v :=
  ⟨tendsto_of_near fun k => (h k).1, tendsto_of_near fun k => (h k).2.1, tendsto_of_near fun k => (h k).2.2⟩

theorem eventually_near {ι : Type*} {F : Filter ι} {f : ι → ℝ} {x : ℝ} (h : Tendsto f F (𝓝 x)) {ε : ℝ}
    (hε : 0 < ε) : ∀ᶠ k in F, |f k - x| < ε := by
  have := (Metric.tendsto_nhds.1 h) ε hε
  exact this.mono fun k hk => by rwa [Real.dist_eq] at hk

/-- The direction of a pixel on the border is on the equator. -/
theorem border_equator {x y : ℝ} (hx : |x| ≤ 1) (hy : |y| ≤ 1) (hb : |x| = 1 ∨ |y| = 1) :
    (lambert2vector x y).z = 0 := by
  obtain ⟨hu, hz, hv⟩ := C28_surjective hx hy
  have hs : 0 < sqrtPiHalf := Real.sqrt_pos.2 (by positivity)
  have hc : Real.sqrt 2 * sqrtPiOver2 = sqrtPiHalf := by
    unfold sqrtPiHalf sqrtPiOver2
    rw [Real.sqrt_div Real.pi_pos.le]
    have h2 : Real.sqrt 2 * Real.sqrt 2 = 2 := Real.mul_self_sqrt (by norm_num)
    have h0 : Real.sqrt 2 ≠ 0 := (Real.sqrt_pos.2 (by norm_num)).ne'
    field_simp
    nlinarith
  have hp : 0 < sqrtPiOver2 := by
    unfold sqrtPiOver2
    have := Real.sqrt_pos.2 Real.pi_pos
    positivity
  have hl := lam_bound (lambert2vector x y)
  rw [vector2lambert_lam, normalizeV_isUnit hu] at hv
  rw [hv] at hl
  have e : ∀ t : ℝ, |t| = 1 → |t * Real.sqrt (Real.pi / 2)| = sqrtPiHalf := by
    intro t ht
    rw [abs_mul, ht, one_mul, abs_of_nonneg (Real.sqrt_nonneg _)]
    rfl
  have hle : sqrtPiHalf ≤ Real.sqrt (2 * (1 - |(lambert2vector x y).z|)) * sqrtPiOver2 := by
    rcases hb with hb | hb
    · rw [← e x hb]; exact hl.1
    · rw [← e y hb]; exact hl.2
  rw [← hc] at hle
  have h2 := le_of_mul_le_mul_right hle hp
  rw [abs_of_nonneg hz] at h2
  have h3 := (Real.sqrt_le_sqrt_iff' (by norm_num : (0 : ℝ) < 2)).1 h2
  linarith

/-- C138: the intensity of a (square) master pattern is a continuous function of the direction exactly if its
two hemispheres have the same pixels on the border. -/
theorem C138_intensity_iff {u l : Img ℝ} (hn : 1 < u.cols) (hsq : u.rows = u.cols) :
    ContinuousIntensity u l ↔ SameBorder u l := by
  constructor
  · intro h r c hr hc hb
    rw [hsq] at hr hb
    have hn1 : (1 : ℝ) < u.cols := by exact_mod_cast hn
    have h0 : (u.cols : ℝ) - 1 ≠ 0 := by linarith
    have hbd : ∀ {k : ℕ}, k < u.cols → |2 * (k : ℝ) / ((u.cols : ℝ) - 1) - 1| ≤ 1 := by
      intro k hk
      have hk1 : (k : ℝ) ≤ (u.cols : ℝ) - 1 := by
        have : (k : ℝ) + 1 ≤ u.cols := by exact_mod_cast hk
        linarith
      have h2 : 2 * (k : ℝ) / ((u.cols : ℝ) - 1) ≤ 2 := by
        rw [div_le_iff₀ (by linarith)]; linarith
      have h3 : 0 ≤ 2 * (k : ℝ) / ((u.cols : ℝ) - 1) := div_nonneg (by positivity) (by linarith)
      rw [abs_le]
      constructor <;> linarith
    have hend : ∀ {k : ℕ}, (k = 0 ∨ k = u.cols - 1) → |2 * (k : ℝ) / ((u.cols : ℝ) - 1) - 1| = 1 := by
      rintro k (rfl | rfl)
      · simp
      · rw [Nat.cast_sub hn.le, Nat.cast_one, mul_div_assoc, div_self h0]
        norm_num
    have hz : (lambert2vector (2 * (c : ℝ) / ((u.cols : ℝ) - 1) - 1) (2 * (r : ℝ) / ((u.cols : ℝ) - 1) - 1)).z =
        0 := by
      refine border_equator (hbd hc) (hbd hr) ?_
      rcases hb with hb | hb | hb | hb
      · exact .inr (hend (.inl hb))
      · exact .inr (hend (.inr hb))
      · exact .inl (hend (.inl hb))
      · exact .inl (hend (.inr hb))
    have gu := C29_grid_points hn u u hr hc
    have gl := C29_grid_points hn l l hr hc
    have hu := (C28_surjective (hbd hc) (hbd hr)).1
    generalize lambert2vector (2 * (c : ℝ) / ((u.cols : ℝ) - 1) - 1) (2 * (r : ℝ) / ((u.cols : ℝ) - 1) - 1) = v at *
    have hv : v ≠ ⟨0, 0, 0⟩ := by
      rintro rfl
      simp [V3.IsUnit] at hu
    have hone : rotateVector ⟨1, 0, 0, 0⟩ v = v := by
      unfold rotateVector
      ext <;> simp
    unfold projectPixel at gu gl
    simp only [hone, ite_self] at gu gl
    rw [masterPixel_bilinear (by omega)] at gu gl
    have iu : intensityIn u l v = u.val r c := by
      rw [intensityIn_bilinear (by omega) hsq, if_pos hz.ge]
      exact gu
    let f : ℕ → V3 ℝ := fun k => ⟨v.x, v.y, -(1 / ((k : ℝ) + 1))⟩
    have hf : TendstoV atTop f v := by
      refine ⟨tendsto_const_nhds, tendsto_const_nhds, ?_⟩
      rw [hz]
      simpa [f] using tendsto_one_div_add_atTop_nhds_zero_nat (𝕜 := ℝ) |>.neg
    have t1 : Tendsto (fun k => intensityIn u l (f k)) atTop (𝓝 (l.val r c)) := by
      rw [← gl]
      refine (tendsto_image hf hv u.cols l.val).congr fun k => ?_
      rw [intensityIn_bilinear (by omega) hsq, if_neg]
      rw [not_le]
      change -(1 / ((k : ℝ) + 1)) < 0
      have : (0 : ℝ) < 1 / ((k : ℝ) + 1) := by positivity
      linarith
    have t2 : Tendsto (fun k => intensityIn u l (f k)) atTop (𝓝 (u.val r c)) := by
      rw [← iu, Metric.tendsto_nhds]
      intro ε hε
      obtain ⟨δ, hδ, hd⟩ := h v hv ε hε
      filter_upwards [eventually_near hf.x hδ, eventually_near hf.y hδ, eventually_near hf.z hδ] with k h1 h2 h3
      rw [Real.dist_eq]
      exact hd _ ⟨h1, h2, h3⟩
    exact tendsto_nhds_unique t2 t1
  · intro hb v hv ε hε
    refine near_of_seq fun f hf => ?_
    exact eventually_near (tendsto_intensity (tendstoV_of_near hf) hv (by omega) hsq hb) hε

/-! ### Limits of patterns -/

theorem rotateVector_linear (q : Quat) (v : V3 ℝ) :
    rotateVector q v = ⟨v.x * (rotateVector q ⟨1, 0, 0⟩).x + v.y * (rotateVector q ⟨0, 1, 0⟩).x +
        v.z * (rotateVector q ⟨0, 0, 1⟩).x,
      v.x * (rotateVector q ⟨1, 0, 0⟩).y + v.y * (rotateVector q ⟨0, 1, 0⟩).y +
        v.z * (rotateVector q ⟨0, 0, 1⟩).y,
      v.x * (rotateVector q ⟨1, 0, 0⟩).z + v.y * (rotateVector q ⟨0, 1, 0⟩).z +
        v.z * (rotateVector q ⟨0, 0, 1⟩).z⟩ := by
  simp only [rotateVector, V3.mk.injEq]
  refine ⟨?_, ?_, ?_⟩ <;> ring

/-- Rotations converge on all unit vectors. -/
def TendstoR {ι : Type*} (F : Filter ι) (q : ι → Quat) (q0 : Quat) : Prop :=
  ∀ v : V3 ℝ, v.x ^ 2 + v.y ^ 2 + v.z ^ 2 = 1 → TendstoV F (fun k => rotateVector (q k) v) (rotateVector q0 v)

theorem tendsto_rotate {ι : Type*} {F : Filter ι} {q : ι → Quat} {q0 : Quat} (hq : TendstoR F q q0)
    {f : ι → V3 ℝ} {v : V3 ℝ} (h : TendstoV F f v) :
    TendstoV F (fun k => rotateVector (q k) (f k)) (rotateVector q0 v) := by
  have h1 := hq ⟨1, 0, 0⟩ (by norm_num)
  have h2 := hq ⟨0, 1, 0⟩ (by norm_num)
  have h3 := hq ⟨0, 0, 1⟩ (by norm_num)
  have e : (fun k => rotateVector (q k) (f k)) = fun k => _ := funext fun k => rotateVector_linear (q k) (f k)
  rw [rotateVector_linear q0 v, e]
  exact ⟨((h.x.mul h1.x).add (h.y.mul h2.x)).add (h.z.mul h3.x),
    ((h.x.mul h1.y).add (h.y.mul h2.y)).add (h.z.mul h3.y),
    ((h.x.mul h1.z).add (h.y.mul h2.z)).add (h.z.mul h3.z)⟩

/-- The direction of pixel number `i`. -/
noncomputable def dirAt (nrows ncols : ℕ) (om : M3) (p : PC ℝ) (i : ℕ) : V3 ℝ :=
  let bounds := getGnomonicBounds nrows ncols p.x p.y p.z
  let xScale := (bounds.2.1 - bounds.1) / ncols
  let yScale := (bounds.2.2.2 - bounds.2.2.1) / nrows
  let gx := arange bounds.1 bounds.2.1 xScale
  let gy := arange bounds.2.2.2 bounds.2.2.1 (-yScale)
  normalizeV (om.apply
    ⟨(gx.getD (i % ncols) 0 + xScale / 2) * p.z, (gy.getD (i / ncols) 0 - yScale / 2) * p.z, p.z⟩)

theorem directions_dirAt (g : DetectorData) (p : PC ℝ) :
    g.directionCosines p.x p.y p.z = (maskedIndices g.mask).map (dirAt g.nrows g.ncols g.om p) := rfl

theorem dirAt_eq {nrows ncols : ℕ} (om : M3) {p : PC ℝ} (hz : 0 < p.z) {i : ℕ} (hi : i < nrows * ncols) :
    dirAt nrows ncols om p i = normalizeV (om.apply
      ⟨(((i % ncols : ℕ) : ℝ) + 1 / 2 - p.x * ncols) / nrows, (p.y * nrows - (((i / ncols : ℕ) : ℝ) + 1 / 2)) / nrows,
        p.z⟩) := by
  have hnc : 0 < ncols := Nat.pos_of_ne_zero fun h => by simp [h] at hi
  have hnr : 0 < nrows := Nat.pos_of_ne_zero fun h => by simp [h] at hi
  have hnc' : (ncols : ℝ) ≠ 0 := by exact_mod_cast hnc.ne'
  have hnr' : (nrows : ℝ) ≠ 0 := by exact_mod_cast hnr.ne'
  have hr : i / ncols < nrows := (Nat.div_lt_iff_lt_mul hnc).2 hi
  have hc : i % ncols < ncols := Nat.mod_lt _ hnc
  have hdx : (ncols : ℝ) / nrows * (1 - p.x) / p.z - -((ncols : ℝ) / nrows) * (p.x / p.z) =
      (ncols : ℝ) / nrows / p.z := by field_simp; ring
  have hdy : p.y / p.z - -(1 - p.y) / p.z = 1 / p.z := by field_simp; ring
  have hxne : -((ncols : ℝ) / nrows) * (p.x / p.z) ≠ (ncols : ℝ) / nrows * (1 - p.x) / p.z := by
    intro h
    rw [h, sub_self] at hdx
    exact div_ne_zero (div_ne_zero hnc' hnr') hz.ne' hdx.symm
  have hyne : p.y / p.z ≠ -(1 - p.y) / p.z := by
    intro h
    rw [h, sub_self] at hdy
    exact div_ne_zero one_ne_zero hz.ne' hdy.symm
  have hys : -((p.y / p.z - -(1 - p.y) / p.z) / (nrows : ℝ)) = (-(1 - p.y) / p.z - p.y / p.z) / nrows := by ring
  unfold dirAt getGnomonicBounds
  simp only
  rw [arange_getD hxne hc, hys, arange_getD hyne hr, hdx, hdy]
  congr 2
  ext <;> simp only
  · field_simp
    ring
  · field_simp
    ring

/-- Projection centers converge in each component. -/
structure TendstoP {ι : Type*} (F : Filter ι) (f : ι → PC ℝ) (p : PC ℝ) : Prop where
  x : Tendsto (fun k => (f k).x) F (𝓝 p.x)
  y : Tendsto (fun k => (f k).y) F (𝓝 p.y)
  z : Tendsto (fun k => (f k).z) F (𝓝 p.z)

theorem ray_ne_zero {m : M3} (hm : ProperRotation m) {x y z : ℝ} (hz : 0 < z) :
    m.transpose.apply ⟨x, y, z⟩ ≠ ⟨0, 0, 0⟩ := by
  intro h
  have := hm.transpose_dot ⟨x, y, z⟩
  rw [h] at this
  simp only [V3.dot, mul_zero, add_zero] at this
  nlinarith [mul_self_nonneg x, mul_self_nonneg y, mul_pos hz hz]

theorem normalizeV_ne_zero {v : V3 ℝ} (hv : v ≠ ⟨0, 0, 0⟩) : normalizeV v ≠ ⟨0, 0, 0⟩ := by
  intro h1
  have h0 := norm_ne_zero_of hv
  unfold normalizeV at h1
  simp only [V3.mk.injEq, div_eq_zero_iff, h0, or_false] at h1
  exact hv (V3.ext h1.1 h1.2.1 h1.2.2)

theorem tendsto_dirAt {ι : Type*} {F : Filter ι} {f : ι → PC ℝ} {p : PC ℝ} (h : TendstoP F f p) (hz : 0 < p.z)
    {m : M3} (hm : ProperRotation m) {nrows ncols i : ℕ} (hi : i < nrows * ncols) :
    TendstoV F (fun k => dirAt nrows ncols m.transpose (f k) i) (dirAt nrows ncols m.transpose p i) ∧
      dirAt nrows ncols m.transpose p i ≠ ⟨0, 0, 0⟩ := by
  rw [dirAt_eq _ hz hi]
  have hne := ray_ne_zero hm (x := (((i % ncols : ℕ) : ℝ) + 1 / 2 - p.x * ncols) / nrows)
    (y := (p.y * nrows - (((i / ncols : ℕ) : ℝ) + 1 / 2)) / nrows) hz
  refine ⟨?_, normalizeV_ne_zero hne⟩
  have tx : Tendsto (fun k => (((i % ncols : ℕ) : ℝ) + 1 / 2 - (f k).x * ncols) / nrows) F
      (𝓝 ((((i % ncols : ℕ) : ℝ) + 1 / 2 - p.x * ncols) / nrows)) :=
    (tendsto_const_nhds.sub (h.x.mul_const _)).div_const _
  have ty : Tendsto (fun k => ((f k).y * nrows - (((i / ncols : ℕ) : ℝ) + 1 / 2)) / nrows) F
      (𝓝 ((p.y * nrows - (((i / ncols : ℕ) : ℝ) + 1 / 2)) / nrows)) :=
    ((h.y.mul_const _).sub_const _).div_const _
  have key : TendstoV F (fun k => m.transpose.apply
      ⟨(((i % ncols : ℕ) : ℝ) + 1 / 2 - (f k).x * ncols) / nrows,
        ((f k).y * nrows - (((i / ncols : ℕ) : ℝ) + 1 / 2)) / nrows, (f k).z⟩)
      (m.transpose.apply ⟨(((i % ncols : ℕ) : ℝ) + 1 / 2 - p.x * ncols) / nrows,
        (p.y * nrows - (((i / ncols : ℕ) : ℝ) + 1 / 2)) / nrows, p.z⟩) :=
    ⟨((tx.const_mul _).add (ty.const_mul _)).add (h.z.const_mul _),
      ((tx.const_mul _).add (ty.const_mul _)).add (h.z.const_mul _),
      ((tx.const_mul _).add (ty.const_mul _)).add (h.z.const_mul _)⟩
  have hn := tendsto_normalize key hne
  have hev : ∀ᶠ k in F, dirAt nrows ncols m.transpose (f k) i = normalizeV (m.transpose.apply
      ⟨(((i % ncols : ℕ) : ℝ) + 1 / 2 - (f k).x * ncols) / nrows,
        ((f k).y * nrows - (((i / ncols : ℕ) : ℝ) + 1 / 2)) / nrows, (f k).z⟩) :=
    (h.z.eventually_const_lt hz).mono fun k hk => dirAt_eq _ hk hi
  exact ⟨hn.x.congr' (hev.mono fun k hk => by beta_reduce; rw [hk]),
    hn.y.congr' (hev.mono fun k hk => by beta_reduce; rw [hk]),
    hn.z.congr' (hev.mono fun k hk => by beta_reduce; rw [hk])⟩

/-- Every pixel of simulated patterns converges. -/
theorem tendsto_pixel {ι : Type*} {F : Filter ι} {f : ι → PC ℝ} {p : PC ℝ} (h : TendstoP F f p) (hz : 0 < p.z)
    {q : ι → Quat} {q0 : Quat} (hq : TendstoR F q q0) (hq0 : Spec.lenSq q0 = 1)
    {m : M3} (hm : ProperRotation m) {u l : Img ℝ} (hpos : 0 < u.cols) (hsq : u.rows = u.cols)
    (hb : SameBorder u l) {nrows ncols i : ℕ} (hi : i < nrows * ncols) :
    Tendsto (fun k => intensityIn u l (rotateVector (q k) (dirAt nrows ncols m.transpose (f k) i))) F
      (𝓝 (intensityIn u l (rotateVector q0 (dirAt nrows ncols m.transpose p i)))) := by
  obtain ⟨h1, h2⟩ := tendsto_dirAt h hz hm hi
  exact tendsto_intensity (tendsto_rotate hq h1) (rotate_ne_zero hq0 h2) hpos hsq hb

/-! ### Limits of correlations and of rescaled patterns -/

theorem tendsto_avg {ι : Type*} {F : Filter ι} (is : List ℕ) {g : ι → ℕ → ℝ} {g0 : ℕ → ℝ}
    (h : ∀ i ∈ is, Tendsto (fun k => g k i) F (𝓝 (g0 i))) :
    Tendsto (fun k => Spec.avg (is.map (g k))) F (𝓝 (Spec.avg (is.map g0))) := by
  unfold Spec.avg
  simp only [List.length_map]
  exact (tendsto_list_sum (f := fun i k => g k i) is h).div_const _

theorem sum_dev_pos {l : List ℝ} (h : NotConstant l) : 0 < (l.map fun x => (x - Spec.avg l) ^ 2).sum := by
  obtain ⟨x, hx, y, hy, hne⟩ := h
  by_contra hc
  have h0 : ∀ z ∈ l.map fun x => (x - Spec.avg l) ^ 2, 0 ≤ z := by
    intro z hz
    obtain ⟨w, -, rfl⟩ := List.mem_map.1 hz
    positivity
  have hz : ∀ z ∈ l, z = Spec.avg l := by
    intro z hz
    have h1 := List.single_le_sum h0 _ (List.mem_map_of_mem (f := fun x => (x - Spec.avg l) ^ 2) hz)
    have h2 : (z - Spec.avg l) ^ 2 ≤ 0 := h1.trans (not_lt.1 hc)
    nlinarith [sq_nonneg (z - Spec.avg l)]
  exact hne ((hz x hx).trans (hz y hy).symm)

/-- The correlation with patterns which converge pixel by pixel converges. -/
theorem tendsto_pearson {ι : Type*} {F : Filter ι} (P : List ℝ) (is : List ℕ) {g : ι → ℕ → ℝ} {g0 : ℕ → ℝ}
    (h : ∀ i ∈ is, Tendsto (fun k => g k i) F (𝓝 (g0 i))) (hc : NotConstant (is.map g0)) :
    Tendsto (fun k => Spec.pearson P (is.map (g k))) F (𝓝 (Spec.pearson P (is.map g0))) := by
  have havg := tendsto_avg is h
  have hB := sum_dev_pos hc
  have e : ∀ g : ℕ → ℝ, Spec.pearson P (is.map g) =
      ((P.zip is).map fun p => (p.1 - Spec.avg P) * (g p.2 - Spec.avg (is.map g))).sum /
        Real.sqrt ((P.map fun x => (x - Spec.avg P) ^ 2).sum *
          (is.map fun i => (g i - Spec.avg (is.map g)) ^ 2).sum) := by
    intro g
    unfold Spec.pearson
    rw [List.zip_map_right, List.map_map, List.map_map]
    rfl
  simp only [e]
  rw [List.map_map] at hB
  by_cases hA : (P.map fun x => (x - Spec.avg P) ^ 2).sum = 0
  · simp only [hA, zero_mul, Real.sqrt_zero, div_zero]
    exact tendsto_const_nhds
  have hA' : 0 < (P.map fun x => (x - Spec.avg P) ^ 2).sum := by
    refine lt_of_le_of_ne (List.sum_nonneg fun z hz => ?_) (Ne.symm hA)
    obtain ⟨w, -, rfl⟩ := List.mem_map.1 hz
    positivity
  refine Tendsto.div ?_ ?_ (Real.sqrt_pos.2 (mul_pos hA' hB)).ne'
  · refine tendsto_list_sum (f := fun (p : ℝ × ℕ) k => (p.1 - Spec.avg P) * (g k p.2 - Spec.avg (is.map (g k))))
      (a := fun p => (p.1 - Spec.avg P) * (g0 p.2 - Spec.avg (is.map g0))) _ fun p hp => ?_
    exact ((h p.2 (List.of_mem_zip hp).2).sub havg).const_mul _
  · refine (Real.continuous_sqrt.tendsto _).comp (Tendsto.const_mul _ ?_)
    exact tendsto_list_sum (f := fun i k => (g k i - Spec.avg (is.map (g k))) ^ 2)
      (a := fun i => (g0 i - Spec.avg (is.map g0)) ^ 2) is fun i hi => ((h i hi).sub havg).pow 2

theorem tendsto_listMin {ι : Type*} {F : Filter ι} {g : ι → ℕ → ℝ} {g0 : ℕ → ℝ} : ∀ is : List ℕ,
    (∀ i ∈ is, Tendsto (fun k => g k i) F (𝓝 (g0 i))) →
    Tendsto (fun k => listMin (is.map (g k))) F (𝓝 (listMin (is.map g0)))
  | [], _ => tendsto_const_nhds
  | [a], h => h a (by simp)
  | a :: b :: l, h => (h a (by simp)).min (tendsto_listMin (b :: l) fun i hi => h i (List.mem_cons_of_mem _ hi))

theorem tendsto_listMax {ι : Type*} {F : Filter ι} {g : ι → ℕ → ℝ} {g0 : ℕ → ℝ} : ∀ is : List ℕ,
    (∀ i ∈ is, Tendsto (fun k => g k i) F (𝓝 (g0 i))) →
    Tendsto (fun k => listMax (is.map (g k))) F (𝓝 (listMax (is.map g0)))
  | [], _ => tendsto_const_nhds
  | [a], h => h a (by simp)
  | a :: b :: l, h => (h a (by simp)).max (tendsto_listMax (b :: l) fun i hi => h i (List.mem_cons_of_mem _ hi))

/-! ### Simulated patterns and scores -/

theorem mem_maskedIndices_lt {mask : List Bool} {i : ℕ} (h : i ∈ maskedIndices mask) : i < mask.length := by
  unfold maskedIndices at h
  exact List.mem_range.1 (List.mem_filter.1 h).1

/-- The intensity of pixel number `i` for an orientation and a projection center. -/
noncomputable def pixelAt (a : RefineArgs) (u l : Img ℝ) (q : Quat) (p : PC ℝ) (i : ℕ) : ℝ :=
  intensityIn u l (rotateVector q (dirAt a.det.nrows a.det.ncols a.m.transpose p i))

/-- The numbers of all pixels. -/
def allPixels (a : RefineArgs) : List ℕ := maskedIndices (List.replicate (a.det.nrows * a.det.ncols) true)

theorem project_all (a : RefineArgs) (u l : Img ℝ) (q : Quat) (p : PC ℝ) :
    (pcDirections a.det a.m (List.replicate (a.det.nrows * a.det.ncols) true) p).map
      (projectPixel q u l u.cols u.rows (((u.cols : ℝ) - 1) / 2)) = (allPixels a).map (pixelAt a u l q p) := by
  change ((maskedIndices (List.replicate (a.det.nrows * a.det.ncols) true)).map
    (dirAt a.det.nrows a.det.ncols a.m.transpose p)).map _ = _
  rw [List.map_map]
  rfl

theorem allPixels_lt {a : RefineArgs} {i : ℕ} (h : i ∈ allPixels a) : i < a.det.nrows * a.det.ncols := by
  simpa using mem_maskedIndices_lt h

theorem kept_lt {a : RefineArgs} (hm : ∀ m, a.signalMask = some m → m.length = a.det.nrows * a.det.ncols) {i : ℕ}
    (h : i ∈ maskedIndices a.detectorData.mask) : i < a.det.nrows * a.det.ncols := by
  have h1 := mem_maskedIndices_lt h
  have h2 : a.detectorData.mask.length = a.det.nrows * a.det.ncols := by
    unfold RefineArgs.detectorData patternsForRefinement
    cases hs : a.signalMask with
    | none => simp
    | some m => simpa using hm m hs
  omega

theorem keep_all {a : RefineArgs} (hm : ∀ m, a.signalMask = some m → m.length = a.det.nrows * a.det.ncols)
    (u l : Img ℝ) (q : Quat) (p : PC ℝ) :
    Spec.keep a.signalMask ((allPixels a).map (pixelAt a u l q p)) =
      (maskedIndices a.detectorData.mask).map (pixelAt a u l q p) := by
  rw [← project_all, ← detectorData_directionCosines a hm, directions_dirAt, List.map_map]
  rfl

/-- The rescaling of a whole pattern to the range [-1, 1]. -/
noncomputable def toRange (l : List ℝ) : List ℝ := l.map (rescalePixel (listMin l) (listMax l) (-1) 1)

theorem simulated_float {a : RefineArgs} (hs : a.mp.checkSuitable = .ok ()) {u l : Img ℝ}
    (ha : a.mp.arraysFromEnergy a.energy = some (u, l)) (q : Quat) (p : PC ℝ) :
    IsSimulated a q p (if a.mp.dtype = .float 32 then (allPixels a).map (pixelAt a u l q p)
      else toRange ((allPixels a).map (pixelAt a u l q p))) := by
  unfold IsSimulated
  rw [getPatterns_single a hs ha q p]
  by_cases h : a.mp.dtype = .float 32
  · simp only [h, ne_eq, not_true_eq_false, decide_false, if_true]
    rw [projectPattern_plain, project_all]
  · have h' : DType.float 32 ≠ a.mp.dtype := fun e => h e.symm
    simp only [h, ne_eq, h', not_false_eq_true, decide_true, if_false]
    rw [projectPattern_rescale, project_all]
    rfl

theorem score_iff {a : RefineArgs} (hs : a.mp.checkSuitable = .ok ()) {u l : Img ℝ}
    (ha : a.mp.arraysFromEnergy a.energy = some (u, l))
    (hm : ∀ m, a.signalMask = some m → m.length = a.det.nrows * a.det.ncols) (pattern : List ℝ) (q : Quat)
    (p : PC ℝ) (s : ℝ) : IsScore a pattern q p s ↔ s = Spec.pearson (Spec.keep a.signalMask pattern)
      ((maskedIndices a.detectorData.mask).map (pixelAt a u l q p)) := by
  have hsim := simulated_float hs ha q p
  have key : ∀ sim, IsSimulated a q p sim → Spec.pearson (Spec.keep a.signalMask pattern)
      (Spec.keep a.signalMask sim) = Spec.pearson (Spec.keep a.signalMask pattern)
        ((maskedIndices a.detectorData.mask).map (pixelAt a u l q p)) := by
    intro sim h
    rw [IsSimulated.unique h hsim, ← keep_all hm]
    split
    · rfl
    · unfold toRange
      rw [keep_map, pearson_rescale_right]
      rcases listMin_lt_or_const ((allPixels a).map (pixelAt a u l q p)) with h | h
      · exact .inl h
      · exact .inr fun x hx => h x (mem_of_mem_keep hx)
  constructor
  · rintro ⟨sim, h1, h2⟩
    rw [h2]
    exact key sim h1
  · intro h
    exact ⟨_, hsim, h.trans (key _ hsim).symm⟩

theorem hasContrast_of_map {f : ℝ → ℝ} {l : List ℝ} (h : NotConstant (l.map f)) : NotConstant l := by
  obtain ⟨x, hx, y, hy, hne⟩ := h
  obtain ⟨x', hx', rfl⟩ := List.mem_map.1 hx
  obtain ⟨y', hy', rfl⟩ := List.mem_map.1 hy
  exact ⟨x', hx', y', hy', fun e => hne (by rw [e])⟩

theorem near_pairs {q : Quat} {p : PC ℝ} {G : Quat → PC ℝ → Prop}
    (h : ∀ (f : ℕ → Quat) (g : ℕ → PC ℝ), TendstoR atTop f q → TendstoP atTop g p →
      ∀ᶠ k in atTop, G (f k) (g k)) :
    ∃ δ, 0 < δ ∧ ∀ q' p', NearRotation δ q q' → NearPc δ p p' → G q' p' := by
  obtain ⟨δ, hδ, hd⟩ := near_of_seq (α := Quat × PC ℝ)
    (N := fun δ a => NearRotation δ q a.1 ∧ NearPc δ p a.2) (G := fun a => G a.1 a.2) fun f hf => by
      refine h (fun k => (f k).1) (fun k => (f k).2) (fun v hv => ?_) ⟨?_, ?_, ?_⟩
      · exact tendstoV_of_near fun k => (hf k).1 v hv
      · exact tendsto_of_near fun k => (hf k).2.1
      · exact tendsto_of_near fun k => (hf k).2.2.1
      · exact tendsto_of_near fun k => (hf k).2.2.2
  exact ⟨δ, hδ, fun q' p' h1 h2 => hd (q', p') ⟨h1, h2⟩⟩

/-- C138: patterns simulated with `get_patterns` change little if the orientation and the projection center
change little. The two hemispheres must have the same pixels on the border, and patterns which are rescaled
(since the master pattern is not of 32-bit floats) must not be constant. -/
theorem C138_patterns_partial {a : RefineArgs} (hs : a.mp.checkSuitable = .ok ()) {u l : Img ℝ}
    (ha : a.mp.arraysFromEnergy a.energy = some (u, l)) (hpos : 0 < u.cols) (hsq : u.rows = u.cols)
    (hb : SameBorder u l) (hrot : ProperRotation a.m) {q : Quat} (hq : Spec.lenSq q = 1) {p : PC ℝ} (hz : 0 < p.z)
    {sim : List ℝ} (hsim : IsSimulated a q p sim) (hc : a.mp.dtype = .float 32 ∨ NotConstant sim)
    {ε : ℝ} (hε : 0 < ε) :
    ∃ δ, 0 < δ ∧ ∀ q' p', NearRotation δ q q' → NearPc δ p p' → ∃ sim', IsSimulated a q' p' sim' ∧
      sim'.length = sim.length ∧ ∀ i : ℕ, |sim'.getD i 0 - sim.getD i 0| < ε := by
  refine near_pairs fun f g hf hg => ?_
  have hpix : ∀ i ∈ allPixels a, Tendsto (fun k => pixelAt a u l (f k) (g k) i) atTop (𝓝 (pixelAt a u l q p i)) :=
    fun i hi => tendsto_pixel hg hz hf hq hrot hpos hsq hb (allPixels_lt hi)
  have hsim0 := IsSimulated.unique hsim (simulated_float hs ha q p)
  suffices hev : ∀ᶠ k in atTop, ∀ j ∈ List.range (allPixels a).length,
      |(if a.mp.dtype = .float 32 then (allPixels a).map (pixelAt a u l (f k) (g k))
        else toRange ((allPixels a).map (pixelAt a u l (f k) (g k)))).getD j 0 - sim.getD j 0| < ε by
    refine hev.mono fun k hk => ⟨_, simulated_float hs ha (f k) (g k), ?_, fun i => ?_⟩
    · rw [hsim0]
      split <;> simp [toRange]
    · by_cases hi : i < (allPixels a).length
      · exact hk i (List.mem_range.2 hi)
      · have e1 : sim.getD i 0 = 0 := by
          rw [List.getD_eq_getElem?_getD, List.getElem?_eq_none, Option.getD_none]
          rw [hsim0]
          split <;> simp [toRange] <;> omega
        rw [e1, List.getD_eq_getElem?_getD, List.getElem?_eq_none, Option.getD_none, sub_zero, abs_zero]
        · exact hε
        · split <;> simp [toRange] <;> omega
  have hfin : ∀ js : List ℕ, (∀ j ∈ js, j < (allPixels a).length) → ∀ᶠ k in atTop, ∀ j ∈ js,
      |(if a.mp.dtype = .float 32 then (allPixels a).map (pixelAt a u l (f k) (g k))
        else toRange ((allPixels a).map (pixelAt a u l (f k) (g k)))).getD j 0 - sim.getD j 0| < ε := by
    intro js hjs
    induction js with
    | nil => simp
    | cons j js ih =>
      have h1 : ∀ᶠ k in atTop, |(if a.mp.dtype = .float 32 then (allPixels a).map (pixelAt a u l (f k) (g k))
          else toRange ((allPixels a).map (pixelAt a u l (f k) (g k)))).getD j 0 - sim.getD j 0| < ε := by
        refine eventually_near ?_ hε
        have hj := hjs j (by simp)
        have hget : ∀ h : ℕ → ℝ, ((allPixels a).map h).getD j 0 = h ((allPixels a)[j]) := by
          intro h
          rw [List.getD_eq_getElem?_getD, List.getElem?_map, List.getElem?_eq_getElem hj]
          rfl
        have hmem : (allPixels a)[j] ∈ allPixels a := List.getElem_mem hj
        by_cases hd : a.mp.dtype = .float 32
        · rw [hsim0]
          simp only [hd, if_true, hget]
          exact hpix _ hmem
        · have hc' : NotConstant ((allPixels a).map (pixelAt a u l q p)) := by
            have := hc.resolve_left hd
            rw [hsim0, if_neg hd] at this
            exact hasContrast_of_map this
          have hlt : listMin ((allPixels a).map (pixelAt a u l q p)) <
              listMax ((allPixels a).map (pixelAt a u l q p)) := by
            rcases listMin_lt_or_const ((allPixels a).map (pixelAt a u l q p)) with h | h
            · exact h
            · obtain ⟨x, hx, y, hy, hne⟩ := hc'
              exact absurd ((h x hx).trans (h y hy).symm) hne
          have hget2 : ∀ h : ℕ → ℝ, (toRange ((allPixels a).map h)).getD j 0 =
              rescalePixel (listMin ((allPixels a).map h)) (listMax ((allPixels a).map h)) (-1) 1
                (h ((allPixels a)[j])) := by
            intro h
            unfold toRange
            rw [List.map_map, hget]
            rfl
          rw [hsim0]
          simp only [hd, if_false, hget2]
          have t1 := tendsto_listMin (allPixels a) hpix
          have t2 := tendsto_listMax (allPixels a) hpix
          unfold rescalePixel
          exact ((((hpix _ hmem).sub t1).div (t2.sub t1) (sub_pos.2 hlt).ne').mul_const _).add_const _
      have h2 := ih fun j hj => hjs j (List.mem_cons_of_mem _ hj)
      filter_upwards [h1, h2] with k k1 k2
      intro i hi
      rcases List.mem_cons.1 hi with rfl | hi
      · exact k1
      · exact k2 i hi
  exact hfin _ fun j hj => List.mem_range.1 hj

theorem kept_tendsto {ι : Type*} {F : Filter ι} {a : RefineArgs} {u l : Img ℝ} (hpos : 0 < u.cols)
    (hsq : u.rows = u.cols) (hb : SameBorder u l)
    (hm : ∀ m, a.signalMask = some m → m.length = a.det.nrows * a.det.ncols) (hrot : ProperRotation a.m)
    {q : Quat} (hq : Spec.lenSq q = 1) {p : PC ℝ} (hz : 0 < p.z) (P : List ℝ)
    (hc : NotConstant ((maskedIndices a.detectorData.mask).map (pixelAt a u l q p)))
    {f : ι → Quat} {g : ι → PC ℝ} (hf : TendstoR F f q) (hg : TendstoP F g p) :
    Tendsto (fun k => Spec.pearson P ((maskedIndices a.detectorData.mask).map (pixelAt a u l (f k) (g k)))) F
      (𝓝 (Spec.pearson P ((maskedIndices a.detectorData.mask).map (pixelAt a u l q p)))) :=
  tendsto_pearson P _ (fun _ hi => tendsto_pixel hg hz hf hq hrot hpos hsq hb (kept_lt hm hi)) hc

/-- C138: the correlation of a pattern with the pattern simulated for an orientation and a projection center
changes little if these change little, for any data type of the master pattern and with any signal mask. The
simulated pattern must not be constant in the pixels kept. -/
theorem C138_scores_partial {a : RefineArgs} (hs : a.mp.checkSuitable = .ok ()) {u l : Img ℝ}
    (ha : a.mp.arraysFromEnergy a.energy = some (u, l)) (hpos : 0 < u.cols) (hsq : u.rows = u.cols)
    (hb : SameBorder u l) (hm : ∀ m, a.signalMask = some m → m.length = a.det.nrows * a.det.ncols)
    (hrot : ProperRotation a.m) {q : Quat} (hq : Spec.lenSq q = 1) {p : PC ℝ} (hz : 0 < p.z) {sim : List ℝ}
    (hsim : IsSimulated a q p sim) (hc : NotConstant (Spec.keep a.signalMask sim)) {pattern : List ℝ} {s : ℝ}
    (h : IsScore a pattern q p s) {ε : ℝ} (hε : 0 < ε) :
    ∃ δ, 0 < δ ∧ ∀ q' p', NearRotation δ q q' → NearPc δ p p' →
      ∃ s', IsScore a pattern q' p' s' ∧ |s' - s| < ε := by
  have hc' : NotConstant ((maskedIndices a.detectorData.mask).map (pixelAt a u l q p)) := by
    rw [IsSimulated.unique hsim (simulated_float hs ha q p)] at hc
    rw [← keep_all hm]
    split at hc
    · exact hc
    · unfold toRange at hc
      rw [keep_map] at hc
      exact hasContrast_of_map hc
  rw [score_iff hs ha hm] at h
  subst h
  refine near_pairs fun f g hf hg => ?_
  exact (eventually_near (kept_tendsto hpos hsq hb hm hrot hq hz (Spec.keep a.signalMask pattern) hc' hf hg) hε).mono
    fun k hk => ⟨_, (score_iff hs ha hm pattern _ _ _).2 rfl, hk⟩

/-! ### Euler angles -/

theorem tendsto_rotate_of {ι : Type*} {F : Filter ι} {a b c d : ι → ℝ} {a0 b0 c0 d0 : ℝ}
    (ta : Tendsto a F (𝓝 a0)) (tb : Tendsto b F (𝓝 b0)) (tc : Tendsto c F (𝓝 c0)) (td : Tendsto d F (𝓝 d0))
    (v : V3 ℝ) :
    TendstoV F (fun k => rotateVector ⟨a k, b k, c k, d k⟩ v) (rotateVector ⟨a0, b0, c0, d0⟩ v) := by
  have hp : Tendsto (fun k => (a k, b k, c k, d k)) F (𝓝 (a0, b0, c0, d0)) :=
    ta.prodMk_nhds (tb.prodMk_nhds (tc.prodMk_nhds td))
  obtain ⟨x, y, z⟩ := v
  refine ⟨?_, ?_, ?_⟩
  · have hx : Continuous fun t : ℝ × ℝ × ℝ × ℝ => (rotateVector ⟨t.1, t.2.1, t.2.2.1, t.2.2.2⟩ ⟨x, y, z⟩).x := by
      simp only [rotateVector]
      fun_prop
    have t := (hx.tendsto (a0, b0, c0, d0)).comp hp
    exact t
  · have hx : Continuous fun t : ℝ × ℝ × ℝ × ℝ => (rotateVector ⟨t.1, t.2.1, t.2.2.1, t.2.2.2⟩ ⟨x, y, z⟩).y := by
      simp only [rotateVector]
      fun_prop
    have t := (hx.tendsto (a0, b0, c0, d0)).comp hp
    exact t
  · have hx : Continuous fun t : ℝ × ℝ × ℝ × ℝ => (rotateVector ⟨t.1, t.2.1, t.2.2.1, t.2.2.2⟩ ⟨x, y, z⟩).z := by
      simp only [rotateVector]
      fun_prop
    have t := (hx.tendsto (a0, b0, c0, d0)).comp hp
    exact t

theorem tendsto_euler {ι : Type*} {F : Filter ι} {α β γ : ι → ℝ} {α0 β0 γ0 : ℝ} (h1 : Tendsto α F (𝓝 α0))
    (h2 : Tendsto β F (𝓝 β0)) (h3 : Tendsto γ F (𝓝 γ0)) :
    TendstoR F (fun k => rotationFromEuler (α k) (β k) (γ k)) (rotationFromEuler α0 β0 γ0) := by
  intro v _
  have e : ∀ α β γ : ℝ, rotateVector (rotationFromEuler α β γ) v =
      rotateVector ⟨Real.cos (β / 2) * Real.cos ((α + γ) / 2), -Real.sin (β / 2) * Real.cos ((α - γ) / 2),
        -Real.sin (β / 2) * Real.sin ((α - γ) / 2), -Real.cos (β / 2) * Real.sin ((α + γ) / 2)⟩ v :=
    fun α β γ => sameRotation_positive _ v
  simp only [e]
  have hc : ∀ {f : ι → ℝ} {x : ℝ}, Tendsto f F (𝓝 x) → Tendsto (fun k => Real.cos (f k)) F (𝓝 (Real.cos x)) :=
    fun h => (Real.continuous_cos.tendsto _).comp h
  have hs : ∀ {f : ι → ℝ} {x : ℝ}, Tendsto f F (𝓝 x) → Tendsto (fun k => Real.sin (f k)) F (𝓝 (Real.sin x)) :=
    fun h => (Real.continuous_sin.tendsto _).comp h
  have hb := h2.div_const 2
  have hp := (h1.add h3).div_const 2
  have hd := (h1.sub h3).div_const 2
  exact tendsto_rotate_of ((hc hb).mul (hc hp)) ((hs hb).neg.mul (hc hd)) ((hs hb).neg.mul (hs hd))
    ((hc hb).neg.mul (hs hp)) v

theorem unit_component_le {v : V3 ℝ} (h : v.x ^ 2 + v.y ^ 2 + v.z ^ 2 = 1) : |v.x| ≤ 1 ∧ |v.y| ≤ 1 ∧ |v.z| ≤ 1 := by
  refine ⟨?_, ?_, ?_⟩ <;> rw [abs_le_one_iff_mul_self_le_one] <;>
    nlinarith [sq_nonneg v.x, sq_nonneg v.y, sq_nonneg v.z]

theorem combination_lt {x y z a b c ε : ℝ} (hx : |x| ≤ 1) (hy : |y| ≤ 1) (hz : |z| ≤ 1) (ha : |a| < ε / 3)
    (hb : |b| < ε / 3) (hc : |c| < ε / 3) : |x * a + y * b + z * c| < ε := by
  have h : ∀ {s t : ℝ}, |s| ≤ 1 → |s * t| ≤ |t| := fun {s t} hs => by
    rw [abs_mul]
    exact mul_le_of_le_one_left (abs_nonneg t) hs
  calc |x * a + y * b + z * c| ≤ |x * a| + |y * b| + |z * c| := abs_add_three _ _ _
    _ ≤ |a| + |b| + |c| := by linarith [h hx (t := a), h hy (t := b), h hz (t := c)]
    _ < ε := by linarith

/-- C138: orientations from nearby Euler angles are near, whatever the sign of the quaternion (which is made
positive in its scalar part) and also where angles are not unique. -/
theorem C138_euler (α β γ : ℝ) {ε : ℝ} (hε : 0 < ε) : ∃ δ, 0 < δ ∧ ∀ α' β' γ', |α' - α| < δ → |β' - β| < δ →
    |γ' - γ| < δ → NearRotation ε (rotationFromEuler α β γ) (rotationFromEuler α' β' γ') := by
  obtain ⟨δ, hδ, hd⟩ := near_of_seq (α := ℝ × ℝ × ℝ)
    (N := fun δ t => |t.1 - α| < δ ∧ |t.2.1 - β| < δ ∧ |t.2.2 - γ| < δ)
    (G := fun t => NearRotation ε (rotationFromEuler α β γ) (rotationFromEuler t.1 t.2.1 t.2.2)) fun f hf => by
      have ht := tendsto_euler (tendsto_of_near fun k => (hf k).1) (tendsto_of_near fun k => (hf k).2.1)
        (tendsto_of_near fun k => (hf k).2.2)
      have h3 : (0 : ℝ) < ε / 3 := by positivity
      have hv : ∀ v : V3 ℝ, v.x ^ 2 + v.y ^ 2 + v.z ^ 2 = 1 → ∀ᶠ k in atTop, NearV (ε / 3)
          (rotateVector (rotationFromEuler α β γ) v)
          (rotateVector (rotationFromEuler (f k).1 (f k).2.1 (f k).2.2) v) := by
        intro v hv
        have := ht v hv
        filter_upwards [eventually_near this.x h3, eventually_near this.y h3, eventually_near this.z h3]
          with k k1 k2 k3
        exact ⟨k1, k2, k3⟩
      filter_upwards [hv ⟨1, 0, 0⟩ (by norm_num), hv ⟨0, 1, 0⟩ (by norm_num), hv ⟨0, 0, 1⟩ (by norm_num)]
        with k k1 k2 k3
      intro v hv
      obtain ⟨bx, by', bz⟩ := unit_component_le hv
      rw [rotateVector_linear (rotationFromEuler α β γ) v,
        rotateVector_linear (rotationFromEuler (f k).1 (f k).2.1 (f k).2.2) v]
      refine ⟨?_, ?_, ?_⟩
      · have := combination_lt bx by' bz k1.1 k2.1 k3.1
        convert this using 2
        ring
      · have := combination_lt bx by' bz k1.2.1 k2.2.1 k3.2.1
        convert this using 2
        ring
      · have := combination_lt bx by' bz k1.2.2 k2.2.2 k3.2.2
        convert this using 2
        ring
  exact ⟨δ, hδ, fun α' β' γ' h1 h2 h3 => hd (α', β', γ') ⟨h1, h2, h3⟩⟩

/-! ### The functions optimized in refinement -/

/-- If both hemispheres have the same range, they are prepared for refinement in the same way. -/
theorem refinement_border {mp : MasterPattern} {energy : Option ℝ} {u l : Img ℝ}
    (ha : mp.arraysFromEnergy energy = some (u, l)) (hmp : SameScale mp u l) (hb : SameBorder u l)
    {data : MasterData} (hd : mp.refinementData energy = some data) :
    data.upper.cols = u.cols ∧ data.upper.rows = u.rows ∧ SameBorder data.upper data.lower ∧
      data.npx = u.cols ∧ data.npy = u.rows ∧ data.scale = ((u.cols : ℝ) - 1) / 2 := by
  unfold MasterPattern.refinementData at hd
  rw [ha] at hd
  by_cases h : mp.dtype = .float 32
  · simp only [h, ne_eq, not_true_eq_false, if_false, Option.some.injEq] at hd
    subst hd
    exact ⟨rfl, rfl, hb, rfl, rfl, rfl⟩
  · obtain ⟨h1, h2, -⟩ := hmp.resolve_left h
    simp only [ne_eq, h, not_false_eq_true, if_true, Option.some.injEq] at hd
    subst hd
    refine ⟨rfl, rfl, fun r c hr hc he => ?_, rfl, rfl, rfl⟩
    simp only [Img.rescaleSigned, Img.mapVal]
    rw [h1, h2, hb r c hr hc he]

theorem comparedWith_eq {a : RefineArgs} {data : MasterData} (h1 : data.npx = data.upper.cols)
    (h2 : data.npy = data.upper.rows) (h3 : data.scale = ((data.upper.cols : ℝ) - 1) / 2) (q : Quat) (p : PC ℝ) :
    comparedWith a data q p =
      (maskedIndices a.detectorData.mask).map (pixelAt a data.upper data.lower q p) := by
  unfold comparedWith
  rw [projectPattern_plain, directions_dirAt, List.map_map, h1, h2, h3]
  rfl

/-- C138: the function minimized when refining orientations and projection centers together is continuous
where the simulated pattern is not constant in the pixels kept. The two hemispheres must have the same range
(or be 32-bit floats) as well as the same border. -/
theorem C138_objective_partial {a : RefineArgs} {u l : Img ℝ} (ha : a.mp.arraysFromEnergy a.energy = some (u, l))
    (hmp : SameScale a.mp u l) (hpos : 0 < u.cols) (hsq : u.rows = u.cols) (hb : SameBorder u l)
    (hm : ∀ m, a.signalMask = some m → m.length = a.det.nrows * a.det.ncols) (hrot : ProperRotation a.m)
    {data : MasterData} (hd : a.mp.refinementData a.energy = some data) (pattern : List ℝ) (rescale : Bool)
    {x : List ℝ} (hz : 0 < x.getD 5 0)
    (hc : NotConstant (comparedWith a data (rotationFromEuler (x.getD 0 0) (x.getD 1 0) (x.getD 2 0))
      ⟨x.getD 3 0, x.getD 4 0, x.getD 5 0⟩)) {ε : ℝ} (hε : 0 < ε) :
    ∃ δ, 0 < δ ∧ ∀ y : List ℝ, (∀ i : ℕ, |y.getD i 0 - x.getD i 0| < δ) →
      |objectiveOriPc (preparePattern pattern rescale) data a.detectorData y -
        objectiveOriPc (preparePattern pattern rescale) data a.detectorData x| < ε := by
  obtain ⟨e1, e2, hb', e4, e5, e6⟩ := refinement_border ha hmp hb hd
  rw [← e1] at e4 e6 hpos
  rw [← e2, ← e1] at hsq
  rw [← e2] at e5
  have hobj : ∀ y : List ℝ, objectiveOriPc (preparePattern pattern rescale) data a.detectorData y =
      1 - Spec.pearson pattern (comparedWith a data (rotationFromEuler (y.getD 0 0) (y.getD 1 0) (y.getD 2 0))
        ⟨y.getD 3 0, y.getD 4 0, y.getD 5 0⟩) := by
    intro y
    unfold objectiveOriPc
    simp only [nccExpCentered_eq]
    rfl
  refine near_of_seq (N := fun δ y => ∀ i : ℕ, |List.getD y i 0 - x.getD i 0| < δ) fun f hf => ?_
  have ht : ∀ i : ℕ, Tendsto (fun k => (f k).getD i 0) atTop (𝓝 (x.getD i 0)) :=
    fun i => tendsto_of_near fun k => hf k i
  refine eventually_near ?_ hε
  simp only [hobj, comparedWith_eq e4 e5 e6] at hc ⊢
  exact (kept_tendsto hpos hsq hb' hm hrot (C31_euler_unit _ _ _).1 hz pattern hc
    (tendsto_euler (ht 0) (ht 1) (ht 2)) (g := fun k => ⟨(f k).getD 3 0, (f k).getD 4 0, (f k).getD 5 0⟩)
    ⟨ht 3, ht 4, ht 5⟩).const_sub 1

/-- C138: so are the functions minimized when refining orientations or projection centers only. -/
theorem C138_objective_fixed_partial {a : RefineArgs} {u l : Img ℝ}
    (ha : a.mp.arraysFromEnergy a.energy = some (u, l))
    (hmp : SameScale a.mp u l) (hpos : 0 < u.cols) (hsq : u.rows = u.cols) (hb : SameBorder u l)
    (hm : ∀ m, a.signalMask = some m → m.length = a.det.nrows * a.det.ncols) (hrot : ProperRotation a.m)
    {data : MasterData} (hd : a.mp.refinementData a.energy = some data) (pattern : List ℝ) (rescale : Bool)
    {ε : ℝ} (hε : 0 < ε) :
    (∀ {x : List ℝ} {p : PC ℝ}, 0 < p.z →
      NotConstant (comparedWith a data (rotationFromEuler (x.getD 0 0) (x.getD 1 0) (x.getD 2 0)) p) →
      ∃ δ, 0 < δ ∧ ∀ y : List ℝ, (∀ i : ℕ, |y.getD i 0 - x.getD i 0| < δ) →
        |objectiveOri (preparePattern pattern rescale) (a.detectorData.directionCosines p.x p.y p.z) data y -
          objectiveOri (preparePattern pattern rescale) (a.detectorData.directionCosines p.x p.y p.z) data x| <
            ε) ∧
    ∀ {x : List ℝ} {q : Quat}, 0 < x.getD 2 0 → Spec.lenSq q = 1 →
      NotConstant (comparedWith a data q ⟨x.getD 0 0, x.getD 1 0, x.getD 2 0⟩) →
      ∃ δ, 0 < δ ∧ ∀ y : List ℝ, (∀ i : ℕ, |y.getD i 0 - x.getD i 0| < δ) →
        |objectivePc (preparePattern pattern rescale) q data a.detectorData y -
          objectivePc (preparePattern pattern rescale) q data a.detectorData x| < ε := by
  obtain ⟨e1, e2, hb', e4, e5, e6⟩ := refinement_border ha hmp hb hd
  rw [← e1] at e4 e6 hpos
  rw [← e2, ← e1] at hsq
  rw [← e2] at e5
  constructor
  · intro x p hz hc
    have hobj : ∀ y : List ℝ, objectiveOri (preparePattern pattern rescale)
        (a.detectorData.directionCosines p.x p.y p.z) data y = 1 - Spec.pearson pattern
          (comparedWith a data (rotationFromEuler (y.getD 0 0) (y.getD 1 0) (y.getD 2 0)) p) := by
      intro y
      unfold objectiveOri
      simp only [nccExpCentered_eq]
      rfl
    refine near_of_seq (N := fun δ y => ∀ i : ℕ, |List.getD y i 0 - x.getD i 0| < δ) fun f hf => ?_
    have ht : ∀ i : ℕ, Tendsto (fun k => (f k).getD i 0) atTop (𝓝 (x.getD i 0)) :=
      fun i => tendsto_of_near fun k => hf k i
    refine eventually_near ?_ hε
    simp only [hobj, comparedWith_eq e4 e5 e6] at hc ⊢
    exact (kept_tendsto hpos hsq hb' hm hrot (C31_euler_unit _ _ _).1 hz pattern hc
      (tendsto_euler (ht 0) (ht 1) (ht 2)) (g := fun _ => p)
      ⟨tendsto_const_nhds, tendsto_const_nhds, tendsto_const_nhds⟩).const_sub 1
  · intro x q hz hq hc
    have hobj : ∀ y : List ℝ, objectivePc (preparePattern pattern rescale) q data a.detectorData y =
        1 - Spec.pearson pattern (comparedWith a data q ⟨y.getD 0 0, y.getD 1 0, y.getD 2 0⟩) := by
      intro y
      unfold objectivePc
      simp only [nccExpCentered_eq]
      rfl
    refine near_of_seq (N := fun δ y => ∀ i : ℕ, |List.getD y i 0 - x.getD i 0| < δ) fun f hf => ?_
    have ht : ∀ i : ℕ, Tendsto (fun k => (f k).getD i 0) atTop (𝓝 (x.getD i 0)) :=
      fun i => tendsto_of_near fun k => hf k i
    refine eventually_near ?_ hε
    simp only [hobj, comparedWith_eq e4 e5 e6] at hc ⊢
    exact (kept_tendsto hpos hsq hb' hm hrot hq hz pattern hc (f := fun _ => q)
      (fun v _ => ⟨tendsto_const_nhds, tendsto_const_nhds, tendsto_const_nhds⟩)
      (g := fun k => ⟨(f k).getD 0 0, (f k).getD 1 0, (f k).getD 2 0⟩) ⟨ht 0, ht 1, ht 2⟩).const_sub 1

/-! ### Hemispheres rescaled one by one -/

/-- A master pattern of 8-bit integers whose hemispheres meet: both are 10 on the border, with a dark upper
and a bright lower pole. -/
noncomputable def meetingArgs (dt : DType) : RefineArgs :=
  { brightLowerArgs with mp := { brightLower with
      arrays := [(20, ⟨3, 3, fun r c => if r = 1 ∧ c = 1 then 0 else 10⟩,
        ⟨3, 3, fun r c => if r = 1 ∧ c = 1 then 20 else 10⟩)]
      dtype := dt } }

theorem meetingArgs_valid (dt : DType) : (meetingArgs dt).Valid ⟨3, 3, fun r c => if r = 1 ∧ c = 1 then 0 else 10⟩
    ⟨3, 3, fun r c => if r = 1 ∧ c = 1 then 20 else 10⟩ where
  suitable := rfl
  arrays := rfl
  points := rfl
  mask := by intro m h; simp [meetingArgs, brightLowerArgs] at h
  pcs := rfl
  nav := .inl rfl
  chunks := rfl
  faithful := fun f s b => rfl

theorem meeting_border : SameBorder ⟨3, 3, fun r c => if r = 1 ∧ c = 1 then 0 else 10⟩
    ⟨3, 3, fun r c => if r = 1 ∧ c = 1 then 20 else 10⟩ := by
  intro r c hr hc hb
  simp only at hr hc hb ⊢
  rw [if_neg (by omega), if_neg (by omega)]

theorem meeting_proper (dt : DType) : ProperRotation (meetingArgs dt).m := by
  constructor <;> norm_num [meetingArgs, brightLowerArgs, V3.dot, V3.cross]

/-- The hemispheres after rescaling: they do not meet. -/
noncomputable def meetingUpper : Img ℝ := ⟨3, 3, fun r c => if r = 1 ∧ c = 1 then -1 else 1⟩
/-- See `meetingUpper`. -/
noncomputable def meetingLower : Img ℝ := ⟨3, 3, fun r c => if r = 1 ∧ c = 1 then 1 else -1⟩

theorem meeting_data : (meetingArgs (.uint 8)).mp.refinementData (meetingArgs (.uint 8)).energy =
    some ⟨meetingUpper, meetingLower, 3, 3, 1⟩ := by
  have pu : (⟨3, 3, fun r c => if r = 1 ∧ c = 1 then 0 else 10⟩ : Img ℝ).pixels =
      [10, 10, 10, 10, 0, 10, 10, 10, 10] := by
    simp [Img.pixels, List.range_succ]
  have pl : (⟨3, 3, fun r c => if r = 1 ∧ c = 1 then 20 else 10⟩ : Img ℝ).pixels =
      [10, 10, 10, 10, 20, 10, 10, 10, 10] := by
    simp [Img.pixels, List.range_succ]
  have m1 : listMin ([10, 10, 10, 10, 0, 10, 10, 10, 10] : List ℝ) = 0 := by norm_num [listMin]
  have m2 : listMax ([10, 10, 10, 10, 0, 10, 10, 10, 10] : List ℝ) = 10 := by norm_num [listMax]
  have m3 : listMin ([10, 10, 10, 10, 20, 10, 10, 10, 10] : List ℝ) = 10 := by norm_num [listMin]
  have m4 : listMax ([10, 10, 10, 10, 20, 10, 10, 10, 10] : List ℝ) = 20 := by norm_num [listMax]
  unfold MasterPattern.refinementData
  rw [(meetingArgs_valid (.uint 8)).arrays]
  have hdt : (meetingArgs (.uint 8)).mp.dtype = .uint 8 := rfl
  simp only [hdt, ne_eq, reduceCtorEq, not_false_eq_true, if_true, Img.rescaleSigned, pu, pl, m1,
    m2, m3, m4, Img.mapVal, Option.some.injEq, MasterData.mk.injEq]
  refine ⟨?_, ?_, rfl, rfl, by norm_num⟩
  · unfold meetingUpper
    congr 1
    funext r c
    split <;> norm_num [rescalePixel]
  · unfold meetingLower
    congr 1
    funext r c
    split <;> norm_num [rescalePixel]

/-- The score of refinement with an optimizer which stays where it is. -/
theorem meeting_row (β : ℝ) : ∃ row,
    refineOrientation (meetingArgs (.uint 8)) [[[Real.pi / 2, β, -(Real.pi / 2)]]] [[[0, 0, 0]]] [[[0, 0, 0]]] =
      .ok [some row] ∧ row.x = [Real.pi / 2, β, -(Real.pi / 2)] ∧
    row.score = Spec.pearson [0, 1] [intensityIn meetingUpper meetingLower
        (rotateVector (rotationFromEuler (Real.pi / 2) β (-(Real.pi / 2))) ⟨1, 0, 0⟩),
      intensityIn meetingUpper meetingLower
        (rotateVector (rotationFromEuler (Real.pi / 2) β (-(Real.pi / 2))) ⟨4 / 5, 0, -(3 / 5)⟩)] := by
  have hv := meetingArgs_valid (.uint 8)
  obtain ⟨data, rows, h1, h2, h3, h4⟩ := refineOrientation_rows hv
    (starts := [[[Real.pi / 2, β, -(Real.pi / 2)]]]) (lower := [[[0, 0, 0]]]) (upper := [[[0, 0, 0]]]) rfl rfl rfl
  have h5 := h4 0 [0, 1] ⟨1 / 4, 1 / 2, 4 / 3⟩ [[Real.pi / 2, β, -(Real.pi / 2)]] [[0, 0, 0]] [[0, 0, 0]] rfl rfl
    rfl rfl rfl rfl
  obtain ⟨r, rfl⟩ := List.length_eq_one_iff.1 (show rows.length = 1 from h3)
  have h6 : r = _ := Option.some.inj h5
  have h7 : oriSolver (meetingArgs (.uint 8)).solver (meetingArgs (.uint 8)).nPs (meetingArgs (.uint 8)).rescale data
      (.inr ((meetingArgs (.uint 8)).detectorData, ⟨1 / 4, 1 / 2, 4 / 3⟩))
      (Spec.keep (meetingArgs (.uint 8)).signalMask [0, 1]) [[Real.pi / 2, β, -(Real.pi / 2)]] [[0, 0, 0]]
        [[0, 0, 0]] =
      some ⟨1 - objectiveOri (preparePattern [0, 1] false)
        ((meetingArgs (.uint 8)).detectorData.directionCosines (1 / 4) (1 / 2) (4 / 3)) data
          [Real.pi / 2, β, -(Real.pi / 2)], 1, [Real.pi / 2, β, -(Real.pi / 2)], none⟩ := rfl
  rw [h7] at h6
  subst h6
  refine ⟨_, h2, rfl, ?_⟩
  rw [meeting_data] at h1
  obtain rfl := Option.some.inj h1
  unfold objectiveOri
  simp only [sub_sub_cancel, nccExpCentered_eq]
  rw [projectPattern_plain]
  have e1 := detectorData_directionCosines (meetingArgs (.uint 8)) hv.mask ⟨1 / 4, 1 / 2, 4 / 3⟩
    (projectPixel (rotationFromEuler (([Real.pi / 2, β, -(Real.pi / 2)] : List ℝ).getD 0 0)
      (([Real.pi / 2, β, -(Real.pi / 2)] : List ℝ).getD 1 0) (([Real.pi / 2, β, -(Real.pi / 2)] : List ℝ).getD 2 0))
      meetingUpper meetingLower 3 3 1)
  have e2 : pcDirections (meetingArgs (.uint 8)).det (meetingArgs (.uint 8)).m
      (List.replicate ((meetingArgs (.uint 8)).det.nrows * (meetingArgs (.uint 8)).det.ncols) true)
      ⟨1 / 4, 1 / 2, 4 / 3⟩ = [⟨1, 0, 0⟩, ⟨4 / 5, 0, -(3 / 5)⟩] := brightLower_dcs
  rw [e2] at e1
  rw [e1]
  have e3 : ∀ q v, projectPixel q meetingUpper meetingLower 3 3 1 v =
      intensityIn meetingUpper meetingLower (rotateVector q v) := by
    intro q v
    rw [← projectPixel_intensity]
    have : (((meetingUpper.cols : ℕ) : ℝ) - 1) / 2 = 1 := by norm_num [meetingUpper]
    rw [this]
    rfl
  simp only [List.map_cons, List.map_nil, e3]
  rfl

theorem meeting_values : intensityIn meetingUpper meetingLower ⟨1, 0, 0⟩ = 1 ∧
    intensityIn meetingUpper meetingLower ⟨4 / 5, 0, -(3 / 5)⟩ = 1 - 2 * Real.sqrt (2 / 5) ∧
    intensityIn meetingLower meetingLower ⟨1, 0, 0⟩ = -1 ∧
    intensityIn meetingLower meetingLower ⟨4 / 5, 0, -(3 / 5)⟩ = 1 - 2 * Real.sqrt (2 / 5) := by
  have hU : meetingUpper = ⟨3, 3, fun r c => (fun x => 2 * x - 1) (if r = 1 ∧ c = 1 then 0 else 1)⟩ := by
    unfold meetingUpper
    congr 1
    funext r c
    split <;> norm_num
  have hL : meetingLower = ⟨3, 3, fun r c => (fun x => 1 - 2 * x) (if r = 1 ∧ c = 1 then 0 else 1)⟩ := by
    unfold meetingLower
    congr 1
    funext r c
    split <;> norm_num
  have p1 := project_example 1 1 (fun x => 2 * x - 1) (fun x => 1 - 2 * x)
  have p2 := project_example 1 1 (fun x => 1 - 2 * x) (fun x => 1 - 2 * x)
  rw [← hU, ← hL] at p1
  rw [← hL] at p2
  have e3 : ∀ v, projectPixel (rotationFromEuler 0 0 0) meetingUpper meetingLower 3 3 1 v =
      intensityIn meetingUpper meetingLower v := by
    intro v
    have h := projectPixel_intensity meetingUpper meetingLower (rotationFromEuler 0 0 0) v
    rw [rotate_identity] at h
    have : (((meetingUpper.cols : ℕ) : ℝ) - 1) / 2 = 1 := by norm_num [meetingUpper]
    rw [this] at h
    exact h
  have e4 : ∀ v, projectPixel (rotationFromEuler 0 0 0) meetingLower meetingLower 3 3 1 v =
      intensityIn meetingLower meetingLower v := by
    intro v
    have h := projectPixel_intensity meetingLower meetingLower (rotationFromEuler 0 0 0) v
    rw [rotate_identity] at h
    have : (((meetingLower.cols : ℕ) : ℝ) - 1) / 2 = 1 := by norm_num [meetingLower]
    rw [this] at h
    exact h
  simp only [List.map_cons, List.map_nil, List.cons.injEq, and_true, e3] at p1
  simp only [List.map_cons, List.map_nil, List.cons.injEq, and_true, e4] at p2
  refine ⟨?_, ?_, ?_, ?_⟩
  · rw [p1.1]; norm_num
  · rw [p1.2]; ring
  · rw [p2.1]; norm_num
  · rw [p2.2]; ring

/-- C138 is false in general: unless they are 32-bit floats, the hemispheres of the master pattern are rescaled
to [-1, 1] one by one before refinement, so that hemispheres which meet need not meet any more. The score then
jumps: here it is -1 for one orientation and 1 for orientations as near as one likes. -/
theorem C138_rescaled_violated : ∃ (a : RefineArgs) (u l : Img ℝ), a.Valid u l ∧ ContinuousIntensity u l ∧
    ProperRotation a.m ∧
    (∃ row, refineOrientation a [[[Real.pi / 2, 0, -(Real.pi / 2)]]] [[[0, 0, 0]]] [[[0, 0, 0]]] =
      .ok [some row] ∧ row.x = [Real.pi / 2, 0, -(Real.pi / 2)] ∧ row.score = -1) ∧
    ∀ δ, 0 < δ → ∃ β, |β| < δ ∧ ∃ row,
      refineOrientation a [[[Real.pi / 2, β, -(Real.pi / 2)]]] [[[0, 0, 0]]] [[[0, 0, 0]]] = .ok [some row] ∧
        row.x = [Real.pi / 2, β, -(Real.pi / 2)] ∧ row.score = 1 := by
  obtain ⟨v1, v2, v3, v4⟩ := meeting_values
  have hs := sqrt_two_fifths
  have hid : ∀ v, rotateVector (rotationFromEuler (Real.pi / 2) 0 (-(Real.pi / 2))) v = v := by
    intro v
    have : rotationFromEuler (Real.pi / 2) 0 (-(Real.pi / 2)) = ⟨1, 0, 0, 0⟩ := by
      simp [rotationFromEuler, positiveScalar]
    rw [this]
    simp [rotateVector]
  refine ⟨meetingArgs (.uint 8), _, _, meetingArgs_valid _,
    (C138_intensity_iff (by norm_num) rfl).2 meeting_border, meeting_proper _, ?_, fun δ hδ => ?_⟩
  · obtain ⟨row, h1, h2, h3⟩ := meeting_row 0
    refine ⟨row, h1, h2, ?_⟩
    rw [h3, hid, hid, v1, v2]
    exact pearson_two_gt zero_lt_one (by linarith [hs.1])
  · let f : ℕ → ℝ := fun k => -(1 / ((k : ℝ) + 1))
    have hf : Tendsto f atTop (𝓝 0) := by
      simpa [f] using tendsto_one_div_add_atTop_nhds_zero_nat (𝕜 := ℝ) |>.neg
    have hR := tendsto_euler (F := atTop) (tendsto_const_nhds (x := Real.pi / 2)) hf
      (tendsto_const_nhds (x := -(Real.pi / 2)))
    have t1 := hR ⟨1, 0, 0⟩ (by norm_num)
    have t2 := hR ⟨4 / 5, 0, -(3 / 5)⟩ (by norm_num)
    rw [hid] at t1 t2
    have z1 : ∀ k, (rotateVector (rotationFromEuler (Real.pi / 2) (f k) (-(Real.pi / 2))) ⟨1, 0, 0⟩).z < 0 := by
      intro k
      have e : rotateVector (rotationFromEuler (Real.pi / 2) (f k) (-(Real.pi / 2))) ⟨1, 0, 0⟩ =
        rotateVector ⟨Real.cos (f k / 2) * Real.cos ((Real.pi / 2 + -(Real.pi / 2)) / 2),
          -Real.sin (f k / 2) * Real.cos ((Real.pi / 2 - -(Real.pi / 2)) / 2),
          -Real.sin (f k / 2) * Real.sin ((Real.pi / 2 - -(Real.pi / 2)) / 2),
          -Real.cos (f k / 2) * Real.sin ((Real.pi / 2 + -(Real.pi / 2)) / 2)⟩ ⟨1, 0, 0⟩ :=
        sameRotation_positive _ _
      have e0 : (Real.pi / 2 + -(Real.pi / 2)) / 2 = 0 := by ring
      have e1 : (Real.pi / 2 - -(Real.pi / 2)) / 2 = Real.pi / 2 := by ring
      rw [e, e0, e1]
      simp only [rotateVector, Real.cos_zero, Real.sin_zero, Real.cos_pi_div_two, Real.sin_pi_div_two]
      have hk : 0 < 1 / ((k : ℝ) + 1) := by positivity
      have hk1 : 1 / ((k : ℝ) + 1) ≤ 1 := by
        rw [div_le_one (by positivity)]
        have : (0 : ℝ) ≤ k := by positivity
        linarith
      have e2 : f k / 2 = -(1 / ((k : ℝ) + 1) / 2) := by simp only [f]; ring
      rw [e2, Real.sin_neg, Real.cos_neg]
      have p1 : 0 < Real.sin (1 / ((k : ℝ) + 1) / 2) :=
        Real.sin_pos_of_pos_of_lt_pi (by linarith) (by linarith [Real.pi_gt_three])
      have p2 : 0 < Real.cos (1 / ((k : ℝ) + 1) / 2) :=
        Real.cos_pos_of_mem_Ioo ⟨by linarith [Real.pi_gt_three], by linarith [Real.pi_gt_three]⟩
      have := mul_pos p2 p1
      linarith
    have hlow : ∀ {v : V3 ℝ}, v.z < 0 → intensityIn meetingUpper meetingLower v =
        intensityIn meetingLower meetingLower v := by
      intro v hv
      unfold intensityIn
      rw [if_neg (not_le.2 hv), if_neg (not_le.2 hv)]
      rfl
    have i1 := tendsto_intensity t1 (by simp) (u := meetingLower) (l := meetingLower) (by norm_num [meetingLower]) rfl
      (fun _ _ _ _ _ => rfl)
    have i2 := tendsto_intensity t2 (by simp) (u := meetingLower) (l := meetingLower) (by norm_num [meetingLower]) rfl
      (fun _ _ _ _ _ => rfl)
    rw [v3] at i1
    rw [v4] at i2
    have hz2 : ∀ᶠ k in atTop,
        (rotateVector (rotationFromEuler (Real.pi / 2) (f k) (-(Real.pi / 2))) ⟨4 / 5, 0, -(3 / 5)⟩).z < 0 :=
      t2.z.eventually_lt_const (by norm_num)
    have hlt := i1.eventually_lt i2 (by linarith [hs.2])
    obtain ⟨k, ⟨k1, k2⟩, k3⟩ := ((hlt.and hz2).and (eventually_near hf hδ)).exists
    obtain ⟨row, h1, h2, h3⟩ := meeting_row (f k)
    refine ⟨f k, by simpa using k3, row, h1, h2, ?_⟩
    rw [h3, hlow (z1 k), hlow k2]
    exact pearson_two_lt zero_lt_one k1

/-- The same master pattern with 32-bit floats meets the hypotheses of the theorems above, and the simulated
pattern has contrast. -/
example : (meetingArgs (.float 32)).Valid ⟨3, 3, fun r c => if r = 1 ∧ c = 1 then 0 else 10⟩
      ⟨3, 3, fun r c => if r = 1 ∧ c = 1 then 20 else 10⟩ ∧
    SameScale (meetingArgs (.float 32)).mp ⟨3, 3, fun r c => if r = 1 ∧ c = 1 then 0 else 10⟩
      ⟨3, 3, fun r c => if r = 1 ∧ c = 1 then 20 else 10⟩ ∧
    SameBorder ⟨3, 3, fun r c => if r = 1 ∧ c = 1 then 0 else 10⟩
      ⟨3, 3, fun r c => if r = 1 ∧ c = 1 then 20 else 10⟩ ∧
    ProperRotation (meetingArgs (.float 32)).m ∧
    ∃ x y, x ≠ y ∧ IsSimulated (meetingArgs (.float 32)) (rotationFromEuler 0 0 0) ⟨1 / 4, 1 / 2, 4 / 3⟩ [x, y] ∧
      NotConstant (Spec.keep (meetingArgs (.float 32)).signalMask [x, y]) := by
  have hs := sqrt_two_fifths
  have hv := meetingArgs_valid (.float 32)
  have hL : (⟨3, 3, fun r c => if r = 1 ∧ c = 1 then 20 else 10⟩ : Img ℝ) =
      ⟨3, 3, fun r c => (fun x => 20 - x) (if r = 1 ∧ c = 1 then 0 else 10)⟩ := by
    congr 1
    funext r c
    split <;> norm_num
  have hne : (10 : ℝ) ≠ (20 - 0) * (1 - Real.sqrt (2 / 5)) + (20 - 10) * Real.sqrt (2 / 5) := by
    intro h
    linarith [hs.2]
  have hsim : IsSimulated (meetingArgs (.float 32)) (rotationFromEuler 0 0 0) ⟨1 / 4, 1 / 2, 4 / 3⟩
      [10, (20 - 0) * (1 - Real.sqrt (2 / 5)) + (20 - 10) * Real.sqrt (2 / 5)] := by
    unfold IsSimulated
    rw [getPatterns_single _ hv.suitable hv.arrays]
    have e2 : pcDirections (meetingArgs (.float 32)).det (meetingArgs (.float 32)).m
        (List.replicate ((meetingArgs (.float 32)).det.nrows * (meetingArgs (.float 32)).det.ncols) true)
        ⟨1 / 4, 1 / 2, 4 / 3⟩ = [⟨1, 0, 0⟩, ⟨4 / 5, 0, -(3 / 5)⟩] := brightLower_dcs
    have e4 : decide (DType.float 32 ≠ (meetingArgs (.float 32)).mp.dtype) = false := rfl
    have := project_example 10 10 (fun x => x) (fun x => 20 - x)
    rw [e2, e4, projectPattern_plain, hL]
    have e : (((3 : ℕ) : ℝ) - 1) / 2 = 1 := by norm_num
    have c3 : (((3 : ℕ) : ℤ)) = 3 := rfl
    simp only [e, c3]
    rw [this]
  exact ⟨hv, .inl rfl, meeting_border, meeting_proper _, _, _, hne, hsim, _, by simp [Spec.keep, meetingArgs, brightLowerArgs],
    _, by simp [Spec.keep, meetingArgs, brightLowerArgs], hne⟩

/-- Orientations differ by little: a small rotation about the third axis. -/
example : ∃ δ, 0 < δ ∧ NearRotation (1 / 10) (rotationFromEuler 0 0 0) (rotationFromEuler δ 0 0) := by
  obtain ⟨δ, hδ, h⟩ := C138_euler 0 0 0 (ε := 1 / 10) (by norm_num)
  refine ⟨δ / 2, by positivity, h _ _ _ ?_ (by simpa using hδ) (by simpa using hδ)⟩
  rw [sub_zero, abs_of_pos (by positivity)]
  linarith

end Kp
