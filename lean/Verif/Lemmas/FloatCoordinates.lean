import Verif.Model.FloatCoordinates
import Verif.Spec.FloatCoordinates
import Verif.Lemmas.FloatPc
import Verif.Lemmas.DetectorGeometry

/-! Error analysis of the conversion of detector coordinates, for C155. -/

namespace Kp

/-- Rounding of numbers which are not small. -/
theorem NearBy.fl_rel {k x' x : ℝ} (h : NearBy k 0 x' x) (hx : 1 / 2 ^ 90 ≤ x)
    (hk : k ≤ 1000) : NearBy (k + 2) 0 (fl64 x') x := by
  unfold NearBy at *
  have hx0 : 0 < x := lt_of_lt_of_le (by positivity) hx
  rw [abs_of_pos hx0, add_zero] at h ⊢
  have hu := unit_pos
  have hku : k * ulp ≤ 1 / 2 := by
    have : k * ulp ≤ 1000 * (1 / 2 ^ 53) := by
      have := unit_le
      gcongr
    exact this.trans (by norm_num)
  have h1 := abs_le.mp h
  have h2 : k * ulp * x ≤ 1 / 2 * x := mul_le_mul_of_nonneg_right hku hx0.le
  have hlow : 1 / 2 * x ≤ x' := by linarith
  have hbig : 1 / 2 ^ 100 ≤ x' := by
    refine le_trans ?_ hlow
    refine le_trans ?_ (mul_le_mul_of_nonneg_left hx (by norm_num))
    norm_num
  have h3 := fl64_error hbig
  have h4 : ulp * x' ≤ 2 * ulp * x := by
    have : x' ≤ 2 * x := by linarith
    calc ulp * x' ≤ ulp * (2 * x) := by gcongr
      _ = _ := by ring
  calc |fl64 x' - x| ≤ |fl64 x' - x'| + |x' - x| := abs_sub_le _ _ _
    _ ≤ _ := by linarith

/-- A product with a rounded factor, and a sum. -/
theorem mulAddFl_error (fused : Bool) {m' m x c' c τ e : ℝ} (hm : NearBy 67 0 m' m) (hm0 : 0 < m)
    (hτ : 1 / 2 ^ 90 ≤ τ) (he0 : 0 ≤ e) (he : e ≤ 400) (hc : |c' - c| ≤ e * ulp * τ)
    (hcb : |c| ≤ 2 * τ) :
    |mulAddFl fused m' x c' - (m * x + c)| ≤ (75 + e) * ulp * (|m * x| + τ) := by
  have hu := unit_pos
  have hτ0 : 0 < τ := lt_of_lt_of_le (by positivity) hτ
  have ht : tiny ≤ τ := tiny_le.trans (le_trans (by norm_num) hτ)
  have h1 : NearBy 68 0 (m' * x) (m * x) := by
    have := (NearBy.self 0 x).mul_near hm hm0 le_rfl le_rfl (by norm_num)
    rw [zero_mul, mul_comm x, mul_comm x] at this
    norm_num at this
    exact this
  have h2 : NearBy 68 τ (m' * x) (m * x) := h1.weaken le_rfl (by norm_num) hτ0.le le_rfl
  have h3 : NearBy 70 τ (fl64 (m' * x)) (m * x) := h2.fl_at (by norm_num) ht (by norm_num)
  have h4 : NearBy 70 τ (m' * x) (m * x) := h2.weaken (by norm_num) (by norm_num) le_rfl hτ0.le
  have key : ∀ t', NearBy 70 τ t' (m * x) →
      |fl64 (t' + c') - (m * x + c)| ≤ (75 + e) * ulp * (|m * x| + τ) := by
    intro t' h
    unfold NearBy at h
    set t := m * x
    have hta := abs_nonneg t
    have hs : |t' + c' - (t + c)| ≤ (70 + e) * ulp * (|t| + τ) := by
      have e1 : t' + c' - (t + c) = (t' - t) + (c' - c) := by ring
      rw [e1]
      have h5 : e * ulp * τ ≤ e * ulp * (|t| + τ) := by
        have : 0 ≤ e * ulp := by positivity
        exact mul_le_mul_of_nonneg_left (by linarith) this
      calc _ ≤ |t' - t| + |c' - c| := abs_add_le _ _
        _ ≤ 70 * ulp * (|t| + τ) + e * ulp * (|t| + τ) := by linarith
        _ = _ := by ring
    have hsmall : (70 + e) * ulp ≤ 1 := by
      have : (70 + e) * ulp ≤ 470 * (1 / 2 ^ 53) := by
        have := unit_le
        have : 70 + e ≤ 470 := by linarith
        gcongr
      exact this.trans (by norm_num)
    have hsum : |t + c| ≤ |t| + 2 * τ := (abs_add_le _ _).trans (by linarith)
    have hs' : |t' + c'| ≤ 2 * |t| + 3 * τ := by
      have h6 : |t' + c'| ≤ |t + c| + |t' + c' - (t + c)| := by
        have := abs_add_le (t + c) (t' + c' - (t + c))
        rwa [add_sub_cancel] at this
      have h7 : (70 + e) * ulp * (|t| + τ) ≤ 1 * (|t| + τ) :=
        mul_le_mul_of_nonneg_right hsmall (by linarith)
      linarith
    have h8 := fl64_error_tiny (t' + c')
    have h9 : ulp * (|t' + c'| + tiny) ≤ ulp * (4 * (|t| + τ)) := by
      gcongr
      linarith
    have h10 : 0 ≤ ulp * (|t| + τ) := by positivity
    calc |fl64 (t' + c') - (t + c)| ≤ |fl64 (t' + c') - (t' + c')| + |t' + c' - (t + c)| :=
          abs_sub_le _ _ _
      _ ≤ ulp * (4 * (|t| + τ)) + (70 + e) * ulp * (|t| + τ) := by linarith
      _ = (74 + e) * (ulp * (|t| + τ)) := by ring
      _ ≤ (75 + e) * (ulp * (|t| + τ)) := by gcongr; norm_num
      _ = _ := by ring
  unfold mulAddFl
  split
  · exact key _ h4
  · exact key _ h3

/-- One direction of a screen: `n` pixels, width `W` and first coordinate `lo`, with rounded width
and first coordinate. -/
structure ScreenAxis (n W lo D' lo' : ℝ) : Prop where
  n_ge : 1 ≤ n
  n_le : n ≤ 2 ^ 20
  W_ge : 1 / 2 ^ 40 ≤ W
  W_le : W ≤ 2 ^ 40
  width : |D' - W| ≤ 60 * ulp * W
  first : |lo' - lo| ≤ 30 * ulp * W
  bound : |lo| ≤ 2 * W

section
variable {n W lo D' lo' : ℝ} (h : ScreenAxis n W lo D' lo')
include h

theorem ScreenAxis.pos : 0 < n ∧ 0 < W :=
  ⟨lt_of_lt_of_le one_pos h.n_ge, lt_of_lt_of_le (by positivity) h.W_ge⟩

theorem ScreenAxis.near_width : NearBy 62 0 (fl64 D') W := by
  have h0 : NearBy 60 0 D' W := by
    unfold NearBy
    rw [abs_of_pos h.pos.2, add_zero]
    exact h.width
  have := h0.fl_rel (le_trans (by norm_num) h.W_ge) (by norm_num)
  norm_num at this
  exact this

theorem ScreenAxis.near_n : NearBy 1 0 (fl64 (n - 1 + 1)) n := by
  rw [sub_add_cancel]
  exact nearBy_const (le_trans (by norm_num) h.n_ge)

theorem ScreenAxis.near_pixel :
    NearBy 67 0 (fl64 (fl64 D' / fl64 (n - 1 + 1))) (W / n) := by
  obtain ⟨hn, hW⟩ := h.pos
  have h1 := h.near_width.div_near h.near_n hn (by norm_num) (by norm_num) le_rfl (by norm_num)
    (by norm_num)
  rw [zero_div] at h1
  norm_num at h1
  have h2 := h1.fl_rel (by
    rw [le_div_iff₀ hn]
    calc (1 : ℝ) / 2 ^ 90 * n ≤ 1 / 2 ^ 90 * 2 ^ 20 := by
          have := h.n_le
          gcongr
      _ ≤ 1 / 2 ^ 40 := by norm_num
      _ ≤ W := h.W_ge) (by norm_num)
  norm_num at h2
  simpa using h2

theorem ScreenAxis.near_scale :
    NearBy 67 0 (fl64 (fl64 (n - 1 + 1) / fl64 D')) (n / W) := by
  obtain ⟨hn, hW⟩ := h.pos
  have h1 := h.near_n.div_near h.near_width hW (by norm_num) (by norm_num) le_rfl (by norm_num)
    (by norm_num)
  rw [zero_div] at h1
  norm_num at h1
  have h2 := h1.fl_rel (by
    rw [le_div_iff₀ hW]
    calc (1 : ℝ) / 2 ^ 90 * W ≤ 1 / 2 ^ 90 * 2 ^ 40 := by
          have := h.W_le
          gcongr
      _ ≤ 1 := by norm_num
      _ ≤ n := h.n_ge) (by norm_num)
  norm_num at h2
  simpa using h2

/-- From pixels. -/
theorem ScreenAxis.forward (fused : Bool) (c : ℝ) :
    |mulAddFl fused (fl64 (fl64 D' / fl64 (n - 1 + 1))) c lo' - (W / n * c + lo)|
      ≤ 105 * ulp * (W / n * (n + |c|)) := by
  obtain ⟨hn, hW⟩ := h.pos
  have := mulAddFl_error fused (x := c) h.near_pixel (div_pos hW hn)
    (le_trans (by norm_num) h.W_ge) (by norm_num) (by norm_num) h.first h.bound
  refine this.trans (le_of_eq ?_)
  rw [abs_mul, abs_of_pos (div_pos hW hn)]
  field_simp
  ring

/-- To pixels: `c` is the exact result. -/
theorem ScreenAxis.backward (fused : Bool) (c : ℝ) :
    |mulAddFl fused (fl64 (fl64 (n - 1 + 1) / fl64 D')) (W / n * c + lo)
        (fl64 (-lo' * fl64 (fl64 (n - 1 + 1) / fl64 D'))) - c| ≤ 1200 * ulp * (n + |c|) := by
  obtain ⟨hn, hW⟩ := h.pos
  have hu := unit_pos
  have hs := h.near_scale
  set m' := fl64 (fl64 (n - 1 + 1) / fl64 D') with hm'
  have hlo : NearBy 30 W (-lo') (-lo) := by
    refine NearBy.neg ?_
    unfold NearBy
    refine h.first.trans ?_
    have := abs_nonneg lo
    have h30 : 0 ≤ 30 * ulp := by positivity
    exact mul_le_mul_of_nonneg_left (by linarith) h30
  have hc1 := hlo.mul_near hs (div_pos hn hW) (by norm_num) hW.le (by norm_num)
  rw [mul_div_cancel₀ _ hW.ne'] at hc1
  norm_num at hc1
  have hc2 : NearBy 100 n (fl64 (-lo' * m')) (-(lo * (n / W))) := by
    have : NearBy 98 n (-lo' * m') (-(lo * (n / W))) := by simpa using hc1
    exact this.fl_at (by norm_num) (tiny_le.trans (le_trans (by norm_num) h.n_ge)) (by norm_num)
  have hb : |lo * (n / W)| ≤ 2 * n := by
    rw [abs_mul, abs_of_pos (div_pos hn hW)]
    calc |lo| * (n / W) ≤ 2 * W * (n / W) := by
          have := h.bound
          have := (div_pos hn hW).le
          gcongr
      _ = 2 * n := by field_simp
  have hc3 : |fl64 (-lo' * m') - -(lo * (n / W))| ≤ 300 * ulp * n := by
    unfold NearBy at hc2
    rw [abs_neg] at hc2
    refine hc2.trans ?_
    calc 100 * ulp * (|lo * (n / W)| + n) ≤ 100 * ulp * (2 * n + n) := by gcongr
      _ = _ := by ring
  have h1 := mulAddFl_error fused (x := W / n * c + lo) hs (div_pos hn hW)
    (le_trans (by norm_num) h.n_ge) (by norm_num) (by norm_num) hc3 (by rwa [abs_neg])
  have e1 : n / W * (W / n * c + lo) + -(lo * (n / W)) = c := by
    field_simp
    ring
  have e2 : n / W * (W / n * c + lo) = c + lo * (n / W) := by
    field_simp
  rw [e1, e2] at h1
  refine h1.trans ?_
  have h2 : |c + lo * (n / W)| ≤ |c| + 2 * n := (abs_add_le _ _).trans (by linarith)
  have h3 := abs_nonneg c
  calc (75 + 300) * ulp * (|c + lo * (n / W)| + n) ≤ (75 + 300) * ulp * (|c| + 2 * n + n) := by
        gcongr
    _ ≤ (75 + 300) * ulp * (16 / 5 * (n + |c|)) := by
        gcongr
        linarith
    _ = _ := by ring

/-- From pixels and back. -/
theorem ScreenAxis.round_trip (fused : Bool) (c : ℝ) :
    |mulAddFl fused (fl64 (fl64 (n - 1 + 1) / fl64 D'))
        (mulAddFl fused (fl64 (fl64 D' / fl64 (n - 1 + 1))) c lo')
        (fl64 (-lo' * fl64 (fl64 (n - 1 + 1) / fl64 D'))) - c| ≤ 1400 * ulp * (n + |c|) := by
  obtain ⟨hn, hW⟩ := h.pos
  have hu := unit_pos
  have h1 := h.forward fused c
  set g' := mulAddFl fused (fl64 (fl64 D' / fl64 (n - 1 + 1))) c lo' with hg'
  obtain ⟨b, hb⟩ : ∃ b, b = n / W * (g' - lo) := ⟨_, rfl⟩
  have hgb : W / n * b + lo = g' := by
    rw [hb]
    field_simp
    ring
  have h2 := h.backward fused b
  rw [hgb] at h2
  have h3 : |b - c| ≤ 105 * ulp * (n + |c|) := by
    have e : b - c = n / W * (g' - (W / n * c + lo)) := by
      rw [hb]; field_simp; ring
    rw [e, abs_mul, abs_of_pos (div_pos hn hW)]
    calc n / W * |g' - (W / n * c + lo)| ≤ n / W * (105 * ulp * (W / n * (n + |c|))) := by
          have := (div_pos hn hW).le
          gcongr
      _ = _ := by field_simp
  have hca := abs_nonneg c
  have h4 : |b| ≤ |c| + 105 * ulp * (n + |c|) := by
    have := abs_add_le c (b - c)
    rw [add_sub_cancel] at this
    linarith
  have hsm : 105 * ulp ≤ 1 / 20 := by
    have := unit_le
    calc 105 * ulp ≤ 105 * (1 / 2 ^ 53) := by gcongr
      _ ≤ _ := by norm_num
  have h5 : n + |b| ≤ 21 / 20 * (n + |c|) := by
    have : 105 * ulp * (n + |c|) ≤ 1 / 20 * (n + |c|) :=
      mul_le_mul_of_nonneg_right hsm (by linarith)
    linarith
  have h0 : 0 ≤ ulp * (n + |c|) := by positivity
  calc _ ≤ _ := abs_sub_le _ b _
    _ ≤ 1200 * ulp * (n + |b|) + 105 * ulp * (n + |c|) := by linarith
    _ ≤ 1200 * ulp * (21 / 20 * (n + |c|)) + 105 * ulp * (n + |c|) := by gcongr
    _ = 1365 * (ulp * (n + |c|)) := by ring
    _ ≤ 1400 * (ulp * (n + |c|)) := by gcongr; norm_num
    _ = _ := by ring

/-- To pixels and back: `c` is the exact pixel coordinate. -/
theorem ScreenAxis.round_trip_back (fused : Bool) (c : ℝ) :
    |mulAddFl fused (fl64 (fl64 D' / fl64 (n - 1 + 1)))
        (mulAddFl fused (fl64 (fl64 (n - 1 + 1) / fl64 D')) (W / n * c + lo)
          (fl64 (-lo' * fl64 (fl64 (n - 1 + 1) / fl64 D')))) lo' - (W / n * c + lo)|
      ≤ 1400 * ulp * (W / n * (n + |c|)) := by
  obtain ⟨hn, hW⟩ := h.pos
  have hu := unit_pos
  have h1 := h.backward fused c
  set b := mulAddFl fused (fl64 (fl64 (n - 1 + 1) / fl64 D')) (W / n * c + lo)
          (fl64 (-lo' * fl64 (fl64 (n - 1 + 1) / fl64 D'))) with hb
  have h2 := h.forward fused b
  have hca := abs_nonneg c
  have h4 : |b| ≤ |c| + 1200 * ulp * (n + |c|) := by
    have := abs_add_le c (b - c)
    rw [add_sub_cancel] at this
    linarith
  have hsm : 1200 * ulp ≤ 1 / 20 := by
    have := unit_le
    calc 1200 * ulp ≤ 1200 * (1 / 2 ^ 53) := by gcongr
      _ ≤ _ := by norm_num
  have h5 : n + |b| ≤ 21 / 20 * (n + |c|) := by
    have : 1200 * ulp * (n + |c|) ≤ 1 / 20 * (n + |c|) :=
      mul_le_mul_of_nonneg_right hsm (by linarith)
    linarith
  have h6 : |W / n * b + lo - (W / n * c + lo)| ≤ 1200 * ulp * (W / n * (n + |c|)) := by
    rw [show W / n * b + lo - (W / n * c + lo) = W / n * (b - c) by ring, abs_mul,
      abs_of_pos (div_pos hW hn)]
    calc W / n * |b - c| ≤ W / n * (1200 * ulp * (n + |c|)) := by
          have := (div_pos hW hn).le
          gcongr
      _ = _ := by ring
  have hWn := (div_pos hW hn).le
  have h0 : 0 ≤ ulp * (W / n * (n + |c|)) := by positivity
  calc _ ≤ _ := abs_sub_le _ (W / n * b + lo) _
    _ ≤ 105 * ulp * (W / n * (n + |b|)) + 1200 * ulp * (W / n * (n + |c|)) := by linarith
    _ ≤ 105 * ulp * (W / n * (21 / 20 * (n + |c|))) + 1200 * ulp * (W / n * (n + |c|)) := by gcongr
    _ = (105 * (21 / 20) + 1200) * (ulp * (W / n * (n + |c|))) := by ring
    _ ≤ 1400 * (ulp * (W / n * (n + |c|))) := by gcongr; norm_num
    _ = _ := by ring

end

/-! ### The two directions of a detector -/

section
variable {d : Detector ℝ} {p : PC ℝ} (h : Spec.UsualScreen d.nrows d.ncols p)
include h

theorem usual_cast : (1 : ℝ) ≤ d.nrows ∧ (d.nrows : ℝ) ≤ 2 ^ 20 ∧ (1 : ℝ) ≤ d.ncols ∧
    (d.ncols : ℝ) ≤ 2 ^ 20 := by
  obtain ⟨a, b, c, e, -⟩ := h
  exact ⟨by exact_mod_cast a, by exact_mod_cast b, by exact_mod_cast c, by exact_mod_cast e⟩

theorem usual_z : 0 < p.z ∧ 1 / 2 ^ 20 ≤ 1 / p.z ∧ 1 / p.z ≤ 2 ^ 20 := by
  have h1 := h.z_ge
  have h2 := h.z_le
  have h0 : 0 < p.z := lt_of_lt_of_le (by positivity) h1
  refine ⟨h0, ?_, ?_⟩
  · exact one_div_le_one_div_of_le h0 h2
  · rw [div_le_iff₀ h0]
    rw [div_le_iff₀ (by positivity)] at h1
    linarith

theorem aspect_range : 1 / 2 ^ 20 ≤ (d.ncols : ℝ) / d.nrows ∧ (d.ncols : ℝ) / d.nrows ≤ 2 ^ 20 := by
  obtain ⟨a, b, c, e⟩ := usual_cast h
  have hr : (0 : ℝ) < d.nrows := by linarith
  constructor
  · rw [div_le_div_iff₀ (by positivity) hr]
    linarith
  · rw [div_le_iff₀ hr]
    nlinarith

theorem tiny_le_inv_z : tiny ≤ 1 / p.z :=
  tiny_le.trans (le_trans (by norm_num) (usual_z h).2.1)

theorem quot_near (x : ℝ) : NearBy 2 (1 / p.z) (fl64 (x / p.z)) (x / p.z) :=
  (NearBy.self (1 / p.z) _).fl_at (by norm_num) (tiny_le_inv_z h) (by norm_num)

omit h in
theorem one_sub_near (x : ℝ) : NearBy 2 1 (fl64 (1 - x)) (1 - x) :=
  (NearBy.self 1 _).fl_at (by norm_num) (tiny_le.trans (by norm_num)) (by norm_num)

theorem abs_quot_le {x b : ℝ} (hx : |x| ≤ b) : |x / p.z| ≤ b * (1 / p.z) := by
  obtain ⟨hz, -⟩ := usual_z h
  rw [abs_div, abs_of_pos hz, mul_one_div]
  gcongr

/-- Along the rows of pixels. -/
theorem screenAxis_x : ScreenAxis d.ncols ((d.ncols : ℝ) / d.nrows / p.z)
    (-((d.ncols : ℝ) / d.nrows) * (p.x / p.z)) (d.xMaxFl p - d.xMinFl p) (d.xMinFl p) := by
  obtain ⟨a, b, c, e⟩ := usual_cast h
  obtain ⟨hz, hz1, hz2⟩ := usual_z h
  obtain ⟨ha1, ha2⟩ := aspect_range h
  have hu := unit_pos
  have hasp : NearBy 1 0 d.aspectFl ((d.ncols : ℝ) / d.nrows) :=
    nearBy_const (le_trans (by norm_num) ha1)
  set A := (d.ncols : ℝ) / d.nrows with hA
  have hA0 : 0 < A := lt_of_lt_of_le (by positivity) ha1
  have hWeq : A / p.z = A * (1 / p.z) := by ring
  have hW1 : 1 / 2 ^ 40 ≤ A / p.z := by
    rw [hWeq]
    calc (1 : ℝ) / 2 ^ 40 = 1 / 2 ^ 20 * (1 / 2 ^ 20) := by norm_num
      _ ≤ _ := by gcongr
  have hW0 : 0 < A / p.z := div_pos hA0 hz
  have htW : tiny ≤ A / p.z := tiny_le.trans (le_trans (by norm_num) hW1)
  have hmin : NearBy 6 (A / p.z) (d.xMinFl p) (-A * (p.x / p.z)) := by
    have h1 := (quot_near h p.x).mul_near hasp hA0 (by norm_num) (by positivity) (by norm_num)
    have h2 : NearBy 4 (A / p.z) (-d.aspectFl * fl64 (p.x / p.z)) (-A * (p.x / p.z)) := by
      have := h1.neg
      rw [show (2 + 1 + 1 : ℝ) = 4 by norm_num, show 1 / p.z * A = A / p.z by ring] at this
      rw [neg_mul, neg_mul, mul_comm d.aspectFl, mul_comm A]
      exact this
    exact h2.fl_at (by norm_num) htW (by norm_num)
  have hmax : NearBy 10 (A / p.z) (d.xMaxFl p) (A * (1 - p.x) / p.z) := by
    have h1 := (one_sub_near p.x).mul_near hasp hA0 (by norm_num) (by norm_num) (by norm_num)
    have h2 : NearBy 4 A (d.aspectFl * fl64 (1 - p.x)) (A * (1 - p.x)) := by
      rw [show (2 + 1 + 1 : ℝ) = 4 by norm_num, one_mul] at h1
      rw [mul_comm d.aspectFl, mul_comm A]
      exact h1
    have h3 : NearBy 6 A (fl64 (d.aspectFl * fl64 (1 - p.x))) (A * (1 - p.x)) :=
      h2.fl_at (by norm_num) (tiny_le.trans (le_trans (by norm_num) ha1)) (by norm_num)
    have h4 := h3.div_near (NearBy.self 0 p.z) hz (by norm_num) le_rfl hA0.le (by norm_num)
      (by norm_num)
    rw [show (6 + 0 + 2 : ℝ) = 8 by norm_num] at h4
    exact h4.fl_at (by norm_num) htW (by norm_num)
  have hb : |-A * (p.x / p.z)| ≤ 2 * (A / p.z) := by
    rw [abs_mul, abs_neg, abs_of_pos hA0, hWeq]
    have := abs_quot_le h h.x_le
    calc A * |p.x / p.z| ≤ A * (2 * (1 / p.z)) := by gcongr
      _ = _ := by ring
  have hb' : |A * (1 - p.x) / p.z| ≤ 3 * (A / p.z) := by
    have h1 : |1 - p.x| ≤ 3 := by
      have := abs_sub (1 : ℝ) p.x
      have := h.x_le
      have := abs_le.mp this
      rw [abs_le]
      constructor <;> linarith
    have := abs_quot_le h h1
    rw [mul_div_assoc, abs_mul, abs_of_pos hA0, hWeq]
    calc A * |(1 - p.x) / p.z| ≤ A * (3 * (1 / p.z)) := by gcongr
      _ = _ := by ring
  have emin : |d.xMinFl p - -A * (p.x / p.z)| ≤ 18 * ulp * (A / p.z) := by
    unfold NearBy at hmin
    refine hmin.trans ?_
    calc 6 * ulp * (|-A * (p.x / p.z)| + A / p.z) ≤ 6 * ulp * (2 * (A / p.z) + A / p.z) := by gcongr
      _ = _ := by ring
  have emax : |d.xMaxFl p - A * (1 - p.x) / p.z| ≤ 40 * ulp * (A / p.z) := by
    unfold NearBy at hmax
    refine hmax.trans ?_
    calc 10 * ulp * (|A * (1 - p.x) / p.z| + A / p.z) ≤ 10 * ulp * (3 * (A / p.z) + A / p.z) := by
          gcongr
      _ = _ := by ring
  have hu0 : 0 ≤ ulp * (A / p.z) := by positivity
  refine ⟨c, e, hW1, ?_, ?_, ?_, hb⟩
  · rw [hWeq]
    calc A * (1 / p.z) ≤ 2 ^ 20 * 2 ^ 20 := by
          have := (one_div_pos.mpr hz).le
          gcongr
      _ = 2 ^ 40 := by norm_num
  · have eq : d.xMaxFl p - d.xMinFl p - A / p.z
        = (d.xMaxFl p - A * (1 - p.x) / p.z) - (d.xMinFl p - -A * (p.x / p.z)) := by ring
    rw [eq]
    refine (abs_sub _ _).trans ?_
    linarith
  · linarith

/-- Along the columns of pixels, where the gnomonic coordinate decreases: with its sign changed. -/
theorem screenAxis_y : ScreenAxis d.nrows (1 / p.z) (-(p.y / p.z)) (d.yMaxFl p - d.yMinFl p)
    (-d.yMaxFl p) := by
  obtain ⟨a, b, c, e⟩ := usual_cast h
  obtain ⟨hz, hz1, hz2⟩ := usual_z h
  have hu := unit_pos
  have hW0 : 0 < 1 / p.z := one_div_pos.mpr hz
  have hmax : NearBy 2 (1 / p.z) (d.yMaxFl p) (p.y / p.z) := quot_near h p.y
  have hmin : NearBy 6 (1 / p.z) (d.yMinFl p) (-(1 - p.y) / p.z) := by
    have h4 := (one_sub_near p.y).neg.div_near (NearBy.self 0 p.z) hz (by norm_num) le_rfl
      (by norm_num) (by norm_num) (by norm_num)
    rw [show (2 + 0 + 2 : ℝ) = 4 by norm_num] at h4
    exact h4.fl_at (by norm_num) (tiny_le_inv_z h) (by norm_num)
  have hb := abs_quot_le h h.y_le
  have hb' : |-(1 - p.y) / p.z| ≤ 3 * (1 / p.z) := by
    refine abs_quot_le h ?_
    have := abs_le.mp h.y_le
    rw [abs_le]
    constructor <;> linarith
  have emax : |d.yMaxFl p - p.y / p.z| ≤ 6 * ulp * (1 / p.z) := by
    unfold NearBy at hmax
    refine hmax.trans ?_
    calc 2 * ulp * (|p.y / p.z| + 1 / p.z) ≤ 2 * ulp * (2 * (1 / p.z) + 1 / p.z) := by gcongr
      _ = _ := by ring
  have emin : |d.yMinFl p - -(1 - p.y) / p.z| ≤ 24 * ulp * (1 / p.z) := by
    unfold NearBy at hmin
    refine hmin.trans ?_
    calc 6 * ulp * (|-(1 - p.y) / p.z| + 1 / p.z) ≤ 6 * ulp * (3 * (1 / p.z) + 1 / p.z) := by
          gcongr
      _ = _ := by ring
  have hu0 : 0 ≤ ulp * (1 / p.z) := by positivity
  refine ⟨a, b, le_trans (by norm_num) hz1, hz2.trans (by norm_num), ?_, ?_, ?_⟩
  · have eq : d.yMaxFl p - d.yMinFl p - 1 / p.z
        = (d.yMaxFl p - p.y / p.z) - (d.yMinFl p - -(1 - p.y) / p.z) := by ring
    rw [eq]
    refine (abs_sub _ _).trans ?_
    linarith
  · rw [show -d.yMaxFl p - -(p.y / p.z) = -(d.yMaxFl p - p.y / p.z) by ring, abs_neg]
    linarith
  · rwa [abs_neg]

end

theorem mulAddFl_neg (fused : Bool) (m x c : ℝ) :
    mulAddFl fused (-m) x c = -mulAddFl fused m x (-c) := by
  unfold mulAddFl
  split
  · rw [← fl64_neg]
    congr 1
    ring
  · rw [← fl64_neg]
    congr 1
    rw [neg_mul, fl64_neg]
    ring

theorem mulAddFl_neg' (fused : Bool) (m x c : ℝ) :
    mulAddFl fused (-m) x c = mulAddFl fused m (-x) c := by
  unfold mulAddFl
  rw [neg_mul, mul_neg]

theorem pixToGnFl_my (d : Detector ℝ) (p : PC ℝ) : (d.pixToGnFl p).my =
    -fl64 (fl64 (d.yMaxFl p - d.yMinFl p) / fl64 (((d.nrows : ℝ) - 1) + 1)) := by
  simp only [Detector.pixToGnFl]
  rw [← neg_sub (d.yMaxFl p), fl64_neg, neg_div, fl64_neg]

theorem gnToPixFl_my (d : Detector ℝ) (p : PC ℝ) : (d.gnToPixFl p).my =
    -fl64 (fl64 (((d.nrows : ℝ) - 1) + 1) / fl64 (d.yMaxFl p - d.yMinFl p)) := by
  simp only [Detector.gnToPixFl]
  rw [← neg_sub (d.yMaxFl p), fl64_neg, div_neg, fl64_neg]

theorem gnToPixFl_cy (d : Detector ℝ) (p : PC ℝ) : (d.gnToPixFl p).cy =
    fl64 (- -d.yMaxFl p *
      fl64 (fl64 (((d.nrows : ℝ) - 1) + 1) / fl64 (d.yMaxFl p - d.yMinFl p))) := by
  have := gnToPixFl_my d p
  simp only [Detector.gnToPixFl] at this ⊢
  rw [this]
  congr 1
  ring

theorem toGnomonicFl_fst (fused : Bool) (d : Detector ℝ) (p : PC ℝ) (c : ℝ × ℝ) :
    (d.toGnomonicFl fused p c).1 = -mulAddFl fused
      (fl64 (fl64 (d.yMaxFl p - d.yMinFl p) / fl64 (((d.nrows : ℝ) - 1) + 1))) c.1
      (-d.yMaxFl p) := by
  show mulAddFl fused (d.pixToGnFl p).my c.1 (d.pixToGnFl p).cy = _
  rw [pixToGnFl_my, mulAddFl_neg]
  rfl

theorem toPixelFl_fst (fused : Bool) (d : Detector ℝ) (p : PC ℝ) (c : ℝ × ℝ) :
    (d.toPixelFl fused p c).1 = mulAddFl fused
      (fl64 (fl64 (((d.nrows : ℝ) - 1) + 1) / fl64 (d.yMaxFl p - d.yMinFl p))) (-c.1)
      (fl64 (- -d.yMaxFl p *
        fl64 (fl64 (((d.nrows : ℝ) - 1) + 1) / fl64 (d.yMaxFl p - d.yMinFl p)))) := by
  show mulAddFl fused (d.gnToPixFl p).my c.1 (d.gnToPixFl p).cy = _
  rw [gnToPixFl_my, gnToPixFl_cy, mulAddFl_neg']

theorem ulp_times {k e x : ℝ} (hx : 0 ≤ x) (hk : k * ulp ≤ e) : k * ulp * x ≤ e * x :=
  mul_le_mul_of_nonneg_right hk hx

end Kp
