/-
Lemmas for C116.
-/
import Verif.Spec.PatternOverlay
import Verif.Props.PatternSimulation
import Verif.Props.DirectionCosines
import Verif.Props.GetPatterns
import Mathlib.Tactic.Positivity
import Mathlib.Tactic.NormNum

namespace Kp
open Spec
set_option linter.unusedSectionVars false

theorem toMatrix_apply (q : Quat) (v : V3 ℝ) : q.toMatrix.apply v = rotateVector q v := by
  unfold Quat.toMatrix M3.apply rotateVector V3.dot
  ext <;> simp only <;> ring

/-- Rows times the matrix of a unit quaternion: the inverse rotation. -/
theorem vecMul_toMatrix {q : Quat} (h : lenSq q = 1) (v : V3 ℝ) :
    M3.vecMul (rotateVector q v) q.toMatrix = v := by
  unfold lenSq at h
  have h2 : (q.a ^ 2 + q.b ^ 2 + q.c ^ 2 + q.d ^ 2) ^ 2 = 1 := by rw [h]; norm_num
  unfold M3.vecMul rotateVector Quat.toMatrix
  ext <;> simp only
  · linear_combination v.x * h2
  · linear_combination v.y * h2
  · linear_combination v.z * h2

theorem vecMul_transpose (v : V3 ℝ) (m : M3) : M3.vecMul v m.transpose = m.apply v := by
  unfold M3.vecMul M3.transpose M3.apply V3.dot
  ext <;> simp only <;> ring

theorem vecMul_scaled (t : ℝ) (v : V3 ℝ) (m : M3) :
    M3.vecMul (V3.smul t v) m = V3.smul t (M3.vecMul v m) := by
  unfold M3.vecMul V3.smul
  ext <;> simp only <;> ring

theorem rotateVector_dot_row (q : Quat) (n v : V3 ℝ) :
    (M3.vecMul n q.toMatrix).dot v = n.dot (rotateVector q v) := by
  rw [← toMatrix_apply]
  unfold M3.vecMul M3.apply V3.dot
  simp only
  ring

/-- Directions of pixels are as long as they should be. -/
theorem pixelDirection_dot {nr nc : ℕ} {m : M3} {q : Quat} {p : PC ℝ} {r c : ℕ} {u : V3 ℝ}
    (hq : lenSq q = 1) (h : PixelDirection nr nc m q p r c u) : u.dot u = 1 := by
  obtain ⟨s, hs, rfl, -⟩ := h
  rw [C31_rotate_isometry hq, hs]

/-- The gnomonic coordinates of the centre of a pixel. -/
noncomputable def pixelGn (d : Detector ℝ) (p : PC ℝ) (r c : ℕ) : ℝ × ℝ :=
  ((gnomonic d.nrows d.ncols p ((r : ℝ) + 1 / 2, (c : ℝ) + 1 / 2)).2,
    (gnomonic d.nrows d.ncols p ((r : ℝ) + 1 / 2, (c : ℝ) + 1 / 2)).1)

theorem simToPixel_pixelGn {d : Detector ℝ} {p : PC ℝ} (hr : 2 ≤ d.nrows) (hc : 2 ≤ d.ncols)
    (hz : 0 < p.z) (r c : ℕ) :
    simToPixel d p (pixelGn d p r c) =
      (((c : ℝ) + 1 / 2) * (((d.ncols : ℝ) - 1) / d.ncols),
        ((r : ℝ) + 1 / 2) * (((d.nrows : ℝ) - 1) / d.nrows)) := by
  have hr' : (d.nrows : ℝ) ≠ 0 := by exact_mod_cast (by omega : d.nrows ≠ 0)
  have hc' : (d.ncols : ℝ) ≠ 0 := by exact_mod_cast (by omega : d.ncols ≠ 0)
  have hr1 : (d.nrows : ℝ) - 1 ≠ 0 := by
    have : (2 : ℝ) ≤ d.nrows := by exact_mod_cast hr
    intro h; linarith
  have hc1 : (d.ncols : ℝ) - 1 ≠ 0 := by
    have : (2 : ℝ) ≤ d.ncols := by exact_mod_cast hc
    intro h; linarith
  have hz' := hz.ne'
  have ex : d.xMax p - d.xMin p = d.ncols / (d.nrows * p.z) := by
    simp only [Detector.xMax, Detector.xMin, Detector.aspect]; field_simp; ring
  have ey : d.yMax p - d.yMin p = 1 / p.z := by
    simp only [Detector.yMax, Detector.yMin]; field_simp; ring
  unfold simToPixel pixelGn gnomonic Detector.xScale Detector.yScale
  rw [if_neg (by omega), if_neg (by omega), ex, ey]
  unfold Detector.aspect
  refine Prod.ext ?_ ?_
  · simp only
    field_simp
    ring
  · simp only
    field_simp
    ring

theorem inside_aux {n c : ℕ} (hc : c < n) :
    |((c : ℝ) + 1 / 2) * (((n : ℝ) - 1) / n) - c| < 1 / 2 := by
  have hn : (0 : ℝ) < n := by exact_mod_cast (by omega : 0 < n)
  have hc' : (c : ℝ) + 1 ≤ n := by exact_mod_cast hc
  have h0 : (0 : ℝ) ≤ c := Nat.cast_nonneg c
  have e : ((c : ℝ) + 1 / 2) * (((n : ℝ) - 1) / n) - c = 1 / 2 - ((c : ℝ) + 1 / 2) / n := by
    field_simp; ring
  have h1 : 0 < ((c : ℝ) + 1 / 2) / n := div_pos (by linarith) hn
  have h2 : ((c : ℝ) + 1 / 2) / n < 1 := by rw [div_lt_one hn]; linarith
  rw [e, abs_lt]
  constructor <;> linarith

theorem insidePixel_pixelGn {d : Detector ℝ} {p : PC ℝ} (hr : 2 ≤ d.nrows) (hc : 2 ≤ d.ncols)
    (hz : 0 < p.z) {r c : ℕ} (hrr : r < d.nrows) (hcc : c < d.ncols) :
    InsidePixel r c (simToPixel d p (pixelGn d p r c)).1
      (simToPixel d p (pixelGn d p r c)).2 := by
  rw [simToPixel_pixelGn hr hc hz]
  exact ⟨inside_aux hcc, inside_aux hrr⟩

theorem onDetector_of {d : Detector ℝ} {p : PC ℝ} (hr : d.nrows ≠ 0) (hc : d.ncols ≠ 0)
    (hz : p.z ≠ 0) {y x : ℝ} (h1 : 0 ≤ y) (h2 : y ≤ d.nrows) (h3 : 0 ≤ x) (h4 : x ≤ d.ncols) :
    OnDetector d p (gnomonic d.nrows d.ncols p (y, x)) :=
  ⟨y, x, h1, h2, h3, h4, (toGnomonic_eq_spec d p hr hc hz (y, x)).symm⟩

/-- Pixel centres are closer to the PC than `r_max`, for PCs outside the lower right quadrant. -/
theorem pixelGn_lt_rMaxSq {d : Detector ℝ} {p : PC ℝ} (hz : 0 < p.z)
    (hq : p.x ≤ 1 / 2 ∨ p.y ≤ 1 / 2) {r c : ℕ} (hrr : r < d.nrows) (hcc : c < d.ncols) :
    (pixelGn d p r c).1 ^ 2 + (pixelGn d p r c).2 ^ 2 < d.rMaxSq p := by
  have hr : d.nrows ≠ 0 := by omega
  have hc : d.ncols ≠ 0 := by omega
  have hr' : (0 : ℝ) < d.nrows := by exact_mod_cast Nat.pos_of_ne_zero hr
  have hrr' : (r : ℝ) + 1 ≤ d.nrows := by exact_mod_cast hrr
  have hcc' : (c : ℝ) + 1 ≤ d.ncols := by exact_mod_cast hcc
  have h0 : (0 : ℝ) ≤ c := Nat.cast_nonneg c
  have h0' : (0 : ℝ) ≤ r := Nat.cast_nonneg r
  have hmax := (C07_r_max_is_maximal_partial d p hr hc hz hq).1
  have a1 := hmax _ (onDetector_of hr hc hz.ne' (y := r) (x := c) h0' (by linarith) h0 (by linarith))
  have a2 := hmax _ (onDetector_of hr hc hz.ne' (y := (r : ℝ) + 1) (x := (c : ℝ) + 1)
    (by linarith) (by linarith) (by linarith) (by linarith))
  simp only [gnomonic] at a1 a2
  unfold pixelGn gnomonic
  simp only
  have hD : 0 < p.z * d.nrows := mul_pos hz hr'
  set D := p.z * d.nrows with hDef
  have e : ∀ t : ℝ, t / D = t * D⁻¹ := fun t => div_eq_mul_inv t D
  have hDi : 0 < D⁻¹ := inv_pos.2 hD
  rw [e, e] at a1 a2 ⊢
  nlinarith [mul_pos hDi hDi]

theorem withinBounds_pixelGn {d : Detector ℝ} {p : PC ℝ} (hz : 0 < p.z) {r c : ℕ}
    (hrr : r < d.nrows) (hcc : c < d.ncols) : withinBounds d p (pixelGn d p r c) := by
  have hr : d.nrows ≠ 0 := by omega
  have hc : d.ncols ≠ 0 := by omega
  have hrr' : (r : ℝ) + 1 ≤ d.nrows := by exact_mod_cast hrr
  have hcc' : (c : ℝ) + 1 ≤ d.ncols := by exact_mod_cast hcc
  have h0 : (0 : ℝ) ≤ c := Nat.cast_nonneg c
  have h0' : (0 : ℝ) ≤ r := Nat.cast_nonneg r
  obtain ⟨b1, b2, b3, b4⟩ := onDetector_bounds d p hr hc hz _
    (onDetector_of hr hc hz.ne' (y := (r : ℝ) + 1 / 2) (x := (c : ℝ) + 1 / 2) (by linarith)
      (by linarith) (by linarith) (by linarith))
  have hr1 : (1 : ℝ) ≤ d.nrows := by linarith
  have hc1 : (1 : ℝ) ≤ d.ncols := by linarith
  have hxs : 0 ≤ d.xScale p := by
    unfold Detector.xScale
    split
    · linarith
    · exact div_nonneg (by linarith) (by linarith)
  have hys : 0 ≤ d.yScale p := by
    unfold Detector.yScale
    split
    · linarith
    · exact div_nonneg (by linarith) (by linarith)
  unfold pixelGn
  exact ⟨by simp only; linarith, by simp only; linarith, by simp only; linarith,
    by simp only; linarith⟩

/-- A crystal direction along that of a pixel, in the detector frame. -/
theorem direction_of_pixel {d : Detector ℝ} {m : M3} {q : Quat} {p : PC ℝ} {r c : ℕ} {u w : V3 ℝ}
    (hq : lenSq q = 1) (hu : PixelDirection d.nrows d.ncols m q p r c u) {k : ℝ} (hk : 0 < k)
    (hw : w = V3.smul k u) :
    ∃ t : ℝ, 0 < t ∧ M3.vecMul w (M3.matMul q.toMatrix m.transpose) =
      ⟨t * (pixelGn d p r c).1, t * (pixelGn d p r c).2, t⟩ := by
  obtain ⟨s, -, rfl, t, ht, hs⟩ := hu
  refine ⟨k * t, mul_pos hk ht, ?_⟩
  rw [vecMul_matMul, hw, vecMul_scaled, vecMul_toMatrix hq, vecMul_transpose, M3.apply_smul, hs]
  unfold V3.smul pixelGn
  ext <;> simp only <;> ring

/-- A plane normal in the detector frame and the direction of a pixel. -/
theorem normal_of_pixel {d : Detector ℝ} {m : M3} (hm : ProperRotation m) {q : Quat} {p : PC ℝ}
    {r c : ℕ} {u : V3 ℝ} (hu : PixelDirection d.nrows d.ncols m q p r c u) (n : V3 ℝ) :
    OnTrace (M3.vecMul n (M3.matMul q.toMatrix m.transpose)) (pixelGn d p r c).1
      (pixelGn d p r c).2 ↔ n.dot u = 0 := by
  obtain ⟨s, -, rfl, t, ht, hs⟩ := hu
  rw [vecMul_matMul, vecMul_transpose, ← rotateVector_dot_row q, ← hm.apply_dot, hs]
  unfold OnTrace V3.smul V3.dot pixelGn
  simp only
  constructor
  · intro h
    linear_combination t * h
  · intro h
    have : t * ((m.apply (M3.vecMul n q.toMatrix)).x *
        (gnomonic d.nrows d.ncols p ((r : ℝ) + 1 / 2, (c : ℝ) + 1 / 2)).2 +
      (m.apply (M3.vecMul n q.toMatrix)).y *
        (gnomonic d.nrows d.ncols p ((r : ℝ) + 1 / 2, (c : ℝ) + 1 / 2)).1 +
      (m.apply (M3.vecMul n q.toMatrix)).z * 1) = 0 := by linear_combination h
    exact (mul_eq_zero.1 this).resolve_left ht.ne'

/-- Plane normals keep their length. -/
theorem normal_ne_zero {m : M3} (hm : ProperRotation m) {q : Quat} (hq : lenSq q = 1) {n : V3 ℝ}
    (h : M3.vecMul n (M3.matMul q.toMatrix m.transpose) = ⟨0, 0, 0⟩) : n = ⟨0, 0, 0⟩ := by
  have h1 : (M3.vecMul n q.toMatrix).dot (M3.vecMul n q.toMatrix) = 0 := by
    rw [← hm.apply_dot, ← vecMul_transpose, ← vecMul_matMul, h]
    simp [V3.dot]
  have h2 : (q.a ^ 2 + q.b ^ 2 + q.c ^ 2 + q.d ^ 2) ^ 2 = 1 := by
    unfold lenSq at hq; rw [hq]; norm_num
  have h3 : n.dot n = 0 := by
    unfold V3.dot M3.vecMul Quat.toMatrix at h1
    unfold V3.dot
    simp only at h1
    linear_combination h1 - (n.x ^ 2 + n.y ^ 2 + n.z ^ 2) * h2
  unfold V3.dot at h3
  have i1 : n.x = 0 := by nlinarith [sq_nonneg n.x, sq_nonneg n.y, sq_nonneg n.z]
  have i2 : n.y = 0 := by nlinarith [sq_nonneg n.x, sq_nonneg n.y, sq_nonneg n.z]
  have i3 : n.z = 0 := by nlinarith [sq_nonneg n.x, sq_nonneg n.y, sq_nonneg n.z]
  ext <;> assumption

/-- A point inside the circle on a trace is between the end points. -/
theorem between_ends {n : V3 ℝ} {r : ℝ} {b : BandTrace} (hb : IsTraceOf n r b) {x y : ℝ}
    (hon : OnTrace n x y) (hin : x ^ 2 + y ^ 2 < r ^ 2) (hn : n ≠ ⟨0, 0, 0⟩) :
    ∃ s : ℝ, 0 ≤ s ∧ s ≤ 1 ∧ x = b.x0 + s * (b.x1 - b.x0) ∧ y = b.y0 + s * (b.y1 - b.y0) := by
  obtain ⟨h0, h1, c0, c1, hne⟩ := hb
  unfold OnTrace at h0 h1 hon
  have hL : 0 < (b.x1 - b.x0) ^ 2 + (b.y1 - b.y0) ^ 2 := by
    rcases eq_or_ne b.x0 b.x1 with hx | hx
    · have hy : b.y0 ≠ b.y1 := fun hy => hne (by rw [hx, hy])
      have : 0 < (b.y1 - b.y0) ^ 2 := by
        have := sub_ne_zero.2 hy.symm; positivity
      nlinarith [sq_nonneg (b.x1 - b.x0)]
    · have : 0 < (b.x1 - b.x0) ^ 2 := by
        have := sub_ne_zero.2 hx.symm; positivity
      nlinarith [sq_nonneg (b.y1 - b.y0)]
  have hxy : n.x ≠ 0 ∨ n.y ≠ 0 := by
    by_contra hcon
    push Not at hcon
    obtain ⟨e1, e2⟩ := hcon
    rw [e1, e2] at hon
    exact hn (by ext <;> simp [e1, e2]; linarith)
  -- the two differences are parallel
  have hpar : (x - b.x0) * (b.y1 - b.y0) = (y - b.y0) * (b.x1 - b.x0) := by
    have k1 : n.x * (x - b.x0) + n.y * (y - b.y0) = 0 := by linarith
    have k2 : n.x * (b.x1 - b.x0) + n.y * (b.y1 - b.y0) = 0 := by linarith
    rcases hxy with hx | hy
    · apply mul_left_cancel₀ hx
      linear_combination (b.y1 - b.y0) * k1 - (y - b.y0) * k2
    · apply mul_left_cancel₀ hy
      linear_combination (x - b.x0) * k2 - (b.x1 - b.x0) * k1
  set L := (b.x1 - b.x0) ^ 2 + (b.y1 - b.y0) ^ 2 with hLdef
  set s := ((x - b.x0) * (b.x1 - b.x0) + (y - b.y0) * (b.y1 - b.y0)) / L with hs
  have hsL : s * L = (x - b.x0) * (b.x1 - b.x0) + (y - b.y0) * (b.y1 - b.y0) :=
    div_mul_cancel₀ _ hL.ne'
  have ex : x = b.x0 + s * (b.x1 - b.x0) := by
    apply mul_left_cancel₀ hL.ne'
    linear_combination (-(b.x1 - b.x0)) * hsL + (b.y1 - b.y0) * hpar + (x - b.x0) * hLdef
  have ey : y = b.y0 + s * (b.y1 - b.y0) := by
    apply mul_left_cancel₀ hL.ne'
    linear_combination (-(b.y1 - b.y0)) * hsL - (b.x1 - b.x0) * hpar + (y - b.y0) * hLdef
  have hss : 0 < s * (1 - s) * L := by
    have : x ^ 2 + y ^ 2 = r ^ 2 - s * (1 - s) * L := by
      rw [ex, ey, hLdef]
      linear_combination (1 - s) * c0 + s * c1
    linarith
  have hss' : 0 < s * (1 - s) := by
    rcases lt_or_ge 0 (s * (1 - s)) with h | h
    · exact h
    · nlinarith
  exact ⟨s, by nlinarith, by nlinarith, ex, ey⟩

/-- Conversion to image coordinates keeps points between end points. -/
theorem simToPixel_between (d : Detector ℝ) (p : PC ℝ) {b : BandTrace} {x y s : ℝ}
    (hx : x = b.x0 + s * (b.x1 - b.x0)) (hy : y = b.y0 + s * (b.y1 - b.y0)) :
    (simToPixel d p (x, y)).1 = (simToPixel d p (b.x0, b.y0)).1 +
      s * ((simToPixel d p (b.x1, b.y1)).1 - (simToPixel d p (b.x0, b.y0)).1) ∧
    (simToPixel d p (x, y)).2 = (simToPixel d p (b.x0, b.y0)).2 +
      s * ((simToPixel d p (b.x1, b.y1)).2 - (simToPixel d p (b.x0, b.y0)).2) := by
  subst hx hy
  unfold simToPixel
  constructor <;> simp only <;> ring

/-- Image coordinates tell points apart. -/
theorem simToPixel_inj {d : Detector ℝ} {p : PC ℝ} (hr : 2 ≤ d.nrows) (hc : 2 ≤ d.ncols)
    (hz : 0 < p.z) {g g' : ℝ × ℝ} (h : simToPixel d p g = simToPixel d p g') : g = g' := by
  have hr' : (2 : ℝ) ≤ d.nrows := by exact_mod_cast hr
  have hc' : (2 : ℝ) ≤ d.ncols := by exact_mod_cast hc
  have hx : d.xScale p ≠ 0 := by
    unfold Detector.xScale
    rw [if_neg (by omega)]
    have ex : d.xMax p - d.xMin p = d.ncols / (d.nrows * p.z) := by
      simp only [Detector.xMax, Detector.xMin, Detector.aspect]; field_simp; ring
    rw [ex]
    have : (0 : ℝ) < d.ncols / (d.nrows * p.z) / (d.ncols - 1) :=
      div_pos (div_pos (by linarith) (mul_pos (by linarith) hz)) (by linarith)
    exact this.ne'
  have hy : d.yScale p ≠ 0 := by
    unfold Detector.yScale
    rw [if_neg (by omega)]
    have ey : d.yMax p - d.yMin p = 1 / p.z := by
      simp only [Detector.yMax, Detector.yMin]; field_simp; ring
    rw [ey]
    have : (0 : ℝ) < 1 / p.z / (d.nrows - 1) := div_pos (div_pos one_pos hz) (by linarith)
    exact this.ne'
  unfold simToPixel at h
  obtain ⟨h1, h2⟩ := Prod.mk.inj h
  rw [div_left_inj' hx] at h1
  rw [div_left_inj' hy] at h2
  exact Prod.ext (by linarith) (by linarith)

end Kp
