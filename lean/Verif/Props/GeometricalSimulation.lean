/-
C56: simulated bands and zone axes are where they should be.
-/
import Verif.Model.GeometricalSimulation
import Verif.Props.DetectorGeometry
import Mathlib.Tactic.LinearCombination

namespace Kp
noncomputable section

/-! ### Specification -/

/-- The gnomonic point `(x, y)` is on the trace of the plane with normal `n` in the detector
frame: the direction `(x, y, 1)` is in the plane. -/
def OnTrace (n : V3 ℝ) (x y : ℝ) : Prop := n.x * x + n.y * y + n.z * 1 = 0

/-- The band runs along the trace of the plane with normal `n`, between the two points on the
circle of radius `r` about the PC. -/
def IsTraceOf (n : V3 ℝ) (r : ℝ) (b : BandTrace) : Prop :=
  OnTrace n b.x0 b.y0 ∧ OnTrace n b.x1 b.y1 ∧ b.x0 ^ 2 + b.y0 ^ 2 = r ^ 2 ∧
    b.x1 ^ 2 + b.y1 ^ 2 = r ^ 2 ∧ (b.x0, b.y0) ≠ (b.x1, b.y1)

/-- The matrix keeps scalar products (a rotation). -/
def KeepsDot (m : M3) : Prop := ∀ a b : V3 ℝ, (M3.vecMul a m).dot (M3.vecMul b m) = a.dot b

/-- `base` and `recbase` are bases of dual lattices. -/
def DualBases (base recbase : M3) : Prop :=
  ∀ a b : V3 ℝ, (M3.vecMul a recbase).dot (M3.vecMul b base) = a.dot b

/-! ### Bands -/

theorem bandTrace_some {r : ℝ} {n : V3 ℝ} (hz : 0 ≤ n.z) (hxy : n.x ^ 2 + n.y ^ 2 ≠ 0)
    (hr : 0 < r) (hlt : n.z ^ 2 < r ^ 2 * (n.x ^ 2 + n.y ^ 2)) :
    ∃ b, bandTrace r n = some b ∧ IsTraceOf n r b := by
  have hpos : 0 < n.x ^ 2 + n.y ^ 2 := lt_of_le_of_ne (by positivity) (Ne.symm hxy)
  have hs : Real.sqrt (n.x * n.x + n.y * n.y) = ‖(⟨n.x, n.y⟩ : ℂ)‖ := by
    rw [Complex.norm_def, Complex.normSq_mk]
  set s := ‖(⟨n.x, n.y⟩ : ℂ)‖ with hsdef
  have hs2 : s ^ 2 = n.x ^ 2 + n.y ^ 2 := by
    rw [← hs, Real.sq_sqrt (by nlinarith [sq_nonneg n.x, sq_nonneg n.y])]; ring
  have hs0 : 0 < s := by
    rcases (norm_nonneg (⟨n.x, n.y⟩ : ℂ)).lt_or_eq with h | h
    · exact h
    · exfalso
      rw [← hsdef] at h
      rw [← h] at hs2
      simp at hs2
      exact hxy (by linarith [hs2])
  have hzs : n.z < r * s := by
    apply lt_of_pow_lt_pow_left₀ 2 (by positivity)
    rw [mul_pow, hs2]; exact hlt
  have hh0 : 0 ≤ n.z / s := div_nonneg hz hs0.le
  have hh1 : n.z / s < r := by rw [div_lt_iff₀ hs0]; exact hzs
  set al := Real.arccos (n.z / s / r) with hal
  set ph := Complex.arg ⟨n.x, n.y⟩ with hph
  have hcos : Real.cos al = n.z / s / r := by
    apply Real.cos_arccos
    · have : 0 ≤ n.z / s / r := div_nonneg hh0 hr.le
      linarith
    · rw [div_le_one hr]; exact hh1.le
  have hsinpos : 0 < Real.sin al := by
    rw [hal, Real.sin_arccos]
    apply Real.sqrt_pos.2
    have h1 : n.z / s / r < 1 := by rw [div_lt_one hr]; exact hh1
    have h0 : 0 ≤ n.z / s / r := div_nonneg hh0 hr.le
    nlinarith
  have hx : n.x = s * Real.cos ph := by
    rw [hsdef, hph]
    exact (Complex.norm_mul_cos_arg (⟨n.x, n.y⟩ : ℂ)).symm
  have hy : n.y = s * Real.sin ph := by
    rw [hsdef, hph]
    exact (Complex.norm_mul_sin_arg (⟨n.x, n.y⟩ : ℂ)).symm
  refine ⟨⟨r * Real.cos (ph - Real.pi + al), r * Real.sin (ph - Real.pi + al),
    r * Real.cos (ph - Real.pi - al), r * Real.sin (ph - Real.pi - al)⟩, ?_, ?_, ?_, ?_, ?_, ?_⟩
  · unfold bandTrace
    simp only
    rw [hs, if_neg (not_lt.2 hz), if_neg hs0.ne', if_neg (by rw [abs_of_nonneg hh0]; linarith)]
  · have c1 : Real.cos (ph - Real.pi + al) = -Real.cos (ph + al) := by
      rw [show ph - Real.pi + al = ph + al - Real.pi by ring, Real.cos_sub_pi]
    have s1 : Real.sin (ph - Real.pi + al) = -Real.sin (ph + al) := by
      rw [show ph - Real.pi + al = ph + al - Real.pi by ring, Real.sin_sub_pi]
    have hd : Real.cos ph * Real.cos (ph + al) + Real.sin ph * Real.sin (ph + al) =
        Real.cos al := by
      rw [← Real.cos_sub, show ph - (ph + al) = -al by ring, Real.cos_neg]
    have hz' : n.z = r * s * Real.cos al := by rw [hcos]; field_simp
    unfold OnTrace
    rw [c1, s1, hz', ← hd]
    rw [hx, hy]
    ring
  · have c1 : Real.cos (ph - Real.pi - al) = -Real.cos (ph - al) := by
      rw [show ph - Real.pi - al = ph - al - Real.pi by ring, Real.cos_sub_pi]
    have s1 : Real.sin (ph - Real.pi - al) = -Real.sin (ph - al) := by
      rw [show ph - Real.pi - al = ph - al - Real.pi by ring, Real.sin_sub_pi]
    have hd : Real.cos ph * Real.cos (ph - al) + Real.sin ph * Real.sin (ph - al) =
        Real.cos al := by
      rw [← Real.cos_sub, show ph - (ph - al) = al by ring]
    have hz' : n.z = r * s * Real.cos al := by rw [hcos]; field_simp
    unfold OnTrace
    rw [c1, s1, hz', ← hd]
    rw [hx, hy]
    ring
  · have := Real.cos_sq_add_sin_sq (ph - Real.pi + al)
    simp only [mul_pow]
    linear_combination r ^ 2 * this
  · have := Real.cos_sq_add_sin_sq (ph - Real.pi - al)
    simp only [mul_pow]
    linear_combination r ^ 2 * this
  · intro h
    simp only [Prod.mk.injEq] at h
    obtain ⟨h1, h2⟩ := h
    have h1' := mul_left_cancel₀ hr.ne' h1
    have h2' := mul_left_cancel₀ hr.ne' h2
    rw [Real.cos_add, Real.cos_sub (ph - Real.pi)] at h1'
    rw [Real.sin_add, Real.sin_sub (ph - Real.pi)] at h2'
    have a1 : Real.sin (ph - Real.pi) * Real.sin al = 0 := by linarith
    have a2 : Real.cos (ph - Real.pi) * Real.sin al = 0 := by linarith
    have b1 := (mul_eq_zero.1 a1).resolve_right hsinpos.ne'
    have b2 := (mul_eq_zero.1 a2).resolve_right hsinpos.ne'
    have := Real.cos_sq_add_sin_sq (ph - Real.pi)
    rw [b1, b2] at this
    norm_num at this

/-- When a band is not skipped. -/
theorem bandTrace_ne_none {r : ℝ} {n : V3 ℝ} {b : BandTrace} (h : bandTrace r n = some b) :
    0 ≤ n.z ∧ n.x ^ 2 + n.y ^ 2 ≠ 0 ∧ 0 < r ∧ n.z ^ 2 < r ^ 2 * (n.x ^ 2 + n.y ^ 2) := by
  unfold bandTrace at h
  simp only at h
  split at h
  · cases h
  · rename_i h1
    split at h
    · cases h
    · rename_i h2
      split at h
      · cases h
      · rename_i h3
        push Not at h1 h3
        have hs0 : 0 < Real.sqrt (n.x * n.x + n.y * n.y) :=
          lt_of_le_of_ne (Real.sqrt_nonneg _) (Ne.symm h2)
        have hs2 : Real.sqrt (n.x * n.x + n.y * n.y) ^ 2 = n.x ^ 2 + n.y ^ 2 := by
          rw [Real.sq_sqrt (by nlinarith [sq_nonneg n.x, sq_nonneg n.y])]; ring
        have hr : 0 < r := lt_of_le_of_lt (abs_nonneg _) h3
        refine ⟨h1, ?_, hr, ?_⟩
        · rw [← hs2]; positivity
        · rw [abs_of_nonneg (div_nonneg h1 hs0.le), div_lt_iff₀ hs0] at h3
          rw [← hs2, ← mul_pow]
          exact pow_lt_pow_left₀ h3 h1 (by norm_num)

/-- The plane normals in the detector frame. -/
def normalOf (recbase uO uS : M3) (v : V3 ℝ) : V3 ℝ :=
  M3.vecMul v (M3.matMul recbase (M3.matMul uO uS))

/-- C56: every returned band is the part inside the circle of radius `r_max` of the trace of the
plane of one of the given reflectors, for all reflectors, lattices, orientations and
detectors. -/
theorem C56_bands_are_traces (d : Detector ℝ) (p : PC ℝ) (base recbase uO uS : M3)
    (hkl : List (V3 ℝ)) (b : BandTrace)
    (hb : b ∈ (geometricalSimulation d p base recbase uO uS hkl).1) :
    ∃ v ∈ hkl, IsTraceOf (normalOf recbase uO uS v) (d.rMax p) b := by
  obtain ⟨v, hv, hvb⟩ := List.mem_filterMap.1 hb
  refine ⟨v, hv, ?_⟩
  obtain ⟨h1, h2, h3, h4⟩ := bandTrace_ne_none hvb
  obtain ⟨b', hb', ht⟩ := bandTrace_some h1 h2 h3 h4
  rw [hvb] at hb'
  cases hb'
  exact ht

/-- C56: the band of every reflector whose plane normal does not point away from the detector is
returned if its trace passes inside the circle.  (If both a reflector and its inverse are given,
this is so for one of them.) -/
theorem C56_visible_bands_returned (d : Detector ℝ) (p : PC ℝ) (base recbase uO uS : M3)
    (hkl : List (V3 ℝ)) (v : V3 ℝ) (hv : v ∈ hkl)
    (hz : 0 ≤ (normalOf recbase uO uS v).z) (h0 : normalOf recbase uO uS v ≠ ⟨0, 0, 0⟩) (x y : ℝ)
    (hin : x ^ 2 + y ^ 2 < d.rMax p ^ 2) (hon : OnTrace (normalOf recbase uO uS v) x y) :
    ∃ b ∈ (geometricalSimulation d p base recbase uO uS hkl).1,
      IsTraceOf (normalOf recbase uO uS v) (d.rMax p) b := by
  set n := normalOf recbase uO uS v with hn
  unfold OnTrace at hon
  have hr : 0 < d.rMax p := by
    rcases (Real.sqrt_nonneg (d.rMaxSq p)).lt_or_eq with h | h
    · exact h
    · exfalso
      have : d.rMax p = 0 := h.symm
      rw [this] at hin
      nlinarith [sq_nonneg x, sq_nonneg y]
  have hxy : n.x ^ 2 + n.y ^ 2 ≠ 0 := by
    intro h
    have hx : n.x = 0 := by nlinarith [sq_nonneg n.x, sq_nonneg n.y]
    have hy : n.y = 0 := by nlinarith [sq_nonneg n.x, sq_nonneg n.y]
    apply h0
    rw [hx, hy] at hon
    ext
    · exact hx
    · exact hy
    · simpa using hon
  have hpos : 0 < n.x ^ 2 + n.y ^ 2 := lt_of_le_of_ne (by positivity) (Ne.symm hxy)
  have hlt : n.z ^ 2 < d.rMax p ^ 2 * (n.x ^ 2 + n.y ^ 2) := by
    have e : n.z = -(n.x * x + n.y * y) := by linarith
    have hcs : n.z ^ 2 ≤ (x ^ 2 + y ^ 2) * (n.x ^ 2 + n.y ^ 2) := by
      rw [e]; nlinarith [sq_nonneg (n.x * y - n.y * x)]
    exact lt_of_le_of_lt hcs (mul_lt_mul_of_pos_right hin hpos)
  obtain ⟨b, hb, ht⟩ := bandTrace_some hz hxy hr hlt
  exact ⟨b, List.mem_filterMap.2 ⟨v, hv, hb⟩, ht⟩

/-- C56 fails for reflectors given with one sign only: a reflector whose plane normal points away
from the detector gives no band, although its plane has the same trace as that of its
inverse. -/
theorem C56_one_sided_reflectors_missed (d : Detector ℝ) (p : PC ℝ) (base recbase uO uS : M3)
    (v : V3 ℝ) (hz : (normalOf recbase uO uS v).z < 0) :
    (geometricalSimulation d p base recbase uO uS [v]).1 = [] := by
  have : bandTrace (d.rMax p) (normalOf recbase uO uS v) = none := by
    unfold bandTrace; exact if_pos hz
  change List.filterMap (fun w => bandTrace (d.rMax p) (normalOf recbase uO uS w)) [v] = []
  simp [this]

/-! ### Zone axes -/

theorem zoneAxis_eq_some {r : ℝ} {t : V3 ℝ} {g : ℝ × ℝ} :
    zoneAxis r t = some g ↔ 0 < t.z ∧ g = (t.x / t.z, t.y / t.z) ∧
      Real.sqrt (g.1 * g.1 + g.2 * g.2) < r := by
  unfold zoneAxis
  simp only
  split
  · rename_i h
    constructor
    · intro h'; cases h'
    · rintro ⟨h1, -⟩; linarith
  · rename_i h
    push Not at h
    split
    · rename_i h2
      constructor
      · intro h'; cases h'
      · rintro ⟨-, rfl, h3⟩
        simp only at h3
        linarith
    · rename_i h2
      push Not at h2
      constructor
      · intro h'
        cases h'
        exact ⟨h, rfl, h2⟩
      · rintro ⟨-, rfl, -⟩
        rfl

/-- C56: the zone axes returned are exactly the gnomonic positions of the directions common to
two reflector planes which point towards the detector, are inside the circle of radius `r_max`
and within the detector extended by one pixel. -/
theorem C56_zone_axes (d : Detector ℝ) (p : PC ℝ) (base recbase uO uS : M3)
    (hkl : List (V3 ℝ)) (g : ℝ × ℝ) :
    g ∈ (geometricalSimulation d p base recbase uO uS hkl).2 ↔
      ∃ v ∈ hkl, ∃ w ∈ hkl, v.cross w ≠ ⟨0, 0, 0⟩ ∧
        ∃ t : V3 ℝ, t = M3.vecMul (v.cross w) (M3.matMul base (M3.matMul uO uS)) ∧ 0 < t.z ∧
          g = (t.x / t.z, t.y / t.z) ∧ Real.sqrt (g.1 * g.1 + g.2 * g.2) < d.rMax p ∧
          (d.xMin p - d.xScale p ≤ g.1 ∧ g.1 ≤ d.xMax p + d.xScale p) ∧
          (d.yMin p - d.yScale p ≤ g.2 ∧ g.2 ≤ d.yMax p + d.yScale p) := by
  have : g ∈ (geometricalSimulation d p base recbase uO uS hkl).2 ↔
      (∃ u ∈ zoneAxesFromHkl hkl,
        zoneAxis (d.rMax p) (M3.vecMul u (M3.matMul base (M3.matMul uO uS))) = some g) ∧
        withinBounds d p g := by
    unfold geometricalSimulation bandsAndZoneAxes
    simp only [List.mem_filter, List.mem_filterMap, decide_eq_true_eq]
  rw [this]
  constructor
  · rintro ⟨⟨u, hu, hz⟩, hw⟩
    unfold zoneAxesFromHkl at hu
    simp only [List.mem_filter, List.mem_flatMap, List.mem_map, decide_eq_true_eq] at hu
    obtain ⟨⟨v, hv, w, hw', rfl⟩, hne⟩ := hu
    obtain ⟨h1, h2, h3⟩ := zoneAxis_eq_some.1 hz
    exact ⟨v, hv, w, hw', hne, _, rfl, h1, h2, h3, ⟨hw.1, hw.2.1⟩, hw.2.2⟩
  · rintro ⟨v, hv, w, hw, hne, t, rfl, h1, h2, h3, h4, h5⟩
    refine ⟨⟨v.cross w, ?_, zoneAxis_eq_some.2 ⟨h1, h2, h3⟩⟩, h4.1, h4.2, h5⟩
    unfold zoneAxesFromHkl
    simp only [List.mem_filter, List.mem_flatMap, List.mem_map, decide_eq_true_eq]
    exact ⟨⟨v, hv, w, hw, rfl⟩, hne⟩

theorem vecMul_matMul (v : V3 ℝ) (a b : M3) :
    M3.vecMul v (M3.matMul a b) = M3.vecMul (M3.vecMul v a) b := by
  ext <;> simp only [M3.vecMul, M3.matMul] <;> ring

theorem normal_dot_direction {base recbase uO uS : M3} (hdual : DualBases base recbase)
    (hO : KeepsDot uO) (hS : KeepsDot uS) (v t : V3 ℝ) :
    (normalOf recbase uO uS v).dot (M3.vecMul t (M3.matMul base (M3.matMul uO uS))) =
      v.dot t := by
  unfold normalOf
  rw [vecMul_matMul v, vecMul_matMul t, vecMul_matMul (M3.vecMul v recbase),
    vecMul_matMul (M3.vecMul t base), hS, hO, hdual]

/-- C56: every returned zone axis lies on the traces of (at least) two different planes of the
given reflectors, for every lattice (dual bases) and every rotation of sample and detector. -/
theorem C56_zone_axes_on_bands (d : Detector ℝ) (p : PC ℝ) (base recbase uO uS : M3)
    (hdual : DualBases base recbase) (hO : KeepsDot uO) (hS : KeepsDot uS)
    (hkl : List (V3 ℝ)) (g : ℝ × ℝ)
    (hg : g ∈ (geometricalSimulation d p base recbase uO uS hkl).2) :
    ∃ v ∈ hkl, ∃ w ∈ hkl, v.cross w ≠ ⟨0, 0, 0⟩ ∧
      OnTrace (normalOf recbase uO uS v) g.1 g.2 ∧
      OnTrace (normalOf recbase uO uS w) g.1 g.2 := by
  obtain ⟨v, hv, w, hw, hne, t, ht, hz, hgt, -⟩ := (C56_zone_axes d p base recbase uO uS hkl g).1 hg
  have key : ∀ u : V3 ℝ, u.dot (v.cross w) = 0 → OnTrace (normalOf recbase uO uS u) g.1 g.2 := by
    intro u hu
    have h := normal_dot_direction hdual hO hS u (v.cross w)
    rw [← ht, hu] at h
    unfold V3.dot at h
    unfold OnTrace
    rw [hgt]
    simp only
    have hz' := hz.ne'
    field_simp
    linear_combination h
  refine ⟨v, hv, w, hw, hne, key v ?_, key w ?_⟩
  · simp only [V3.dot, V3.cross]; ring
  · simp only [V3.dot, V3.cross]; ring

/-- C56 is false for zone axes near a detector corner: for EVERY detector with the PC in the
lower right quadrant there is a direction hitting the detector (its corner) which is skipped,
since `r_max` is too small (C07). -/
theorem C56_zone_axis_on_detector_missed (d : Detector ℝ) (p : PC ℝ) (hr : d.nrows ≠ 0)
    (hc : d.ncols ≠ 0) (hz : 0 < p.z) (hx : 1 / 2 < p.x) (hy : 1 / 2 < p.y) :
    ∃ t : V3 ℝ, 0 < t.z ∧ OnDetector d p (t.y / t.z, t.x / t.z) ∧ zoneAxis (d.rMax p) t = none := by
  obtain ⟨g, hg, hlt⟩ := C07_r_max_too_small_in_lower_right_quadrant d p hr hc hz hx hy
  refine ⟨⟨g.2, g.1, 1⟩, one_pos, by simpa using hg, ?_⟩
  unfold zoneAxis
  simp only [div_one]
  rw [if_neg (by norm_num), if_pos]
  unfold Detector.rMax
  apply Real.sqrt_le_sqrt
  nlinarith [hlt.le]

/-- C56 (partial): for PCs outside the lower right quadrant, every direction hitting the detector
(closer than its furthest corner) is kept by both filters. -/
theorem C56_zone_axes_on_detector_kept_partial (d : Detector ℝ) (p : PC ℝ) (hr : d.nrows ≠ 0)
    (hc : d.ncols ≠ 0) (hz : 0 < p.z) (hq : p.x ≤ 1 / 2 ∨ p.y ≤ 1 / 2) (t : V3 ℝ)
    (ht : 0 < t.z) (hon : OnDetector d p (t.y / t.z, t.x / t.z))
    (hne : (t.x / t.z) ^ 2 + (t.y / t.z) ^ 2 ≠ d.rMaxSq p) :
    zoneAxis (d.rMax p) t = some (t.x / t.z, t.y / t.z) ∧
      withinBounds d p (t.x / t.z, t.y / t.z) := by
  have h1 := (C07_r_max_is_maximal_partial d p hr hc hz hq).1 _ hon
  obtain ⟨b1, b2, b3, b4⟩ := onDetector_bounds d p hr hc hz _ hon
  simp only at h1 b1 b2 b3 b4
  have hr1 : (1 : ℝ) ≤ d.nrows := by exact_mod_cast Nat.pos_of_ne_zero hr
  have hc1 : (1 : ℝ) ≤ d.ncols := by exact_mod_cast Nat.pos_of_ne_zero hc
  have hxs : 0 ≤ d.xScale p := by
    unfold Detector.xScale
    split
    · linarith
    · exact div_nonneg (by linarith) (by linarith)
  have hys : 0 ≤ d.yScale p := by
    unfold Detector.yScale
    split
    · linarith
    · exact div_nonneg (by linarith) (by linarith)
  refine ⟨zoneAxis_eq_some.2 ⟨ht, rfl, ?_⟩, by simp only; linarith, by simp only; linarith,
    by simp only; linarith, by simp only; linarith⟩
  unfold Detector.rMax
  simp only
  apply Real.sqrt_lt_sqrt (by nlinarith [sq_nonneg (t.x / t.z), sq_nonneg (t.y / t.z)])
  have : (t.x / t.z) ^ 2 + (t.y / t.z) ^ 2 < d.rMaxSq p :=
    lt_of_le_of_ne (by linarith) hne
  linarith

/-! ### Pixel coordinates -/

/-- C56 (partial): pixel coordinates of bands and zone axes are those of
`detector.to_pixel_coords()` times `(n - 1) / n`, for detectors of two or more rows and columns.
Missing: that they are equal (false, see below). -/
theorem C56_pixel_coordinates_partial (d : Detector ℝ) (p : PC ℝ) (hr : 2 ≤ d.nrows)
    (hc : 2 ≤ d.ncols) (hz : p.z ≠ 0) (g : ℝ × ℝ) :
    simToPixel d p g =
      ((d.toPixel p (g.2, g.1)).2 * (((d.ncols : ℝ) - 1) / d.ncols),
       (d.toPixel p (g.2, g.1)).1 * (((d.nrows : ℝ) - 1) / d.nrows)) := by
  have hr' : (d.nrows : ℝ) ≠ 0 := by exact_mod_cast (by omega : d.nrows ≠ 0)
  have hc' : (d.ncols : ℝ) ≠ 0 := by exact_mod_cast (by omega : d.ncols ≠ 0)
  have hr1 : (d.nrows : ℝ) - 1 ≠ 0 := by
    have : (2 : ℝ) ≤ d.nrows := by exact_mod_cast hr
    intro h; linarith
  have hc1 : (d.ncols : ℝ) - 1 ≠ 0 := by
    have : (2 : ℝ) ≤ d.ncols := by exact_mod_cast hc
    intro h; linarith
  have ex : d.xMax p - d.xMin p = d.ncols / (d.nrows * p.z) := by
    simp only [Detector.xMax, Detector.xMin, Detector.aspect]; field_simp; ring
  have ey : d.yMax p - d.yMin p = 1 / p.z := by
    simp only [Detector.yMax, Detector.yMin]; field_simp; ring
  have ey' : d.yMin p - d.yMax p = -(1 / p.z) := by linarith
  refine Prod.ext ?_ ?_
  · simp only [simToPixel, Detector.toPixel, convertPair, Detector.gnToPix, Detector.xScale]
    rw [if_neg (by omega), ex]
    simp only [Detector.xMin, Detector.aspect]
    field_simp
    ring
  · simp only [simToPixel, Detector.toPixel, convertPair, Detector.gnToPix, Detector.yScale]
    rw [if_neg (by omega), ey, ey']
    simp only [Detector.yMax]
    field_simp
    ring

/-- C56 is false for pixel coordinates: they differ from `detector.to_pixel_coords()` for every
detector of two or more columns and every point but those on its left edge. -/
theorem C56_pixel_coordinates_violated (d : Detector ℝ) (p : PC ℝ) (hr : 2 ≤ d.nrows)
    (hc : 2 ≤ d.ncols) (hz : p.z ≠ 0) (g : ℝ × ℝ) (hg : g.1 ≠ d.xMin p) :
    (simToPixel d p g).1 ≠ (d.toPixel p (g.2, g.1)).2 := by
  rw [C56_pixel_coordinates_partial d p hr hc hz g]
  have hr' : (d.nrows : ℝ) ≠ 0 := by exact_mod_cast (by omega : d.nrows ≠ 0)
  have hc' : (d.ncols : ℝ) ≠ 0 := by exact_mod_cast (by omega : d.ncols ≠ 0)
  have ex : d.xMax p - d.xMin p = d.ncols / (d.nrows * p.z) := by
    simp only [Detector.xMax, Detector.xMin, Detector.aspect]; field_simp; ring
  have e : (d.toPixel p (g.2, g.1)).2 = (g.1 - d.xMin p) * (d.nrows * p.z) := by
    simp only [Detector.toPixel, convertPair, Detector.gnToPix]
    rw [ex]
    field_simp
    ring
  intro h
  simp only at h
  rw [e] at h
  have h1 : (g.1 - d.xMin p) * (d.nrows * p.z) ≠ 0 :=
    mul_ne_zero (sub_ne_zero.2 hg) (mul_ne_zero hr' hz)
  have h2 := mul_left_cancel₀ h1 (h.trans (mul_one _).symm)
  rw [div_eq_one_iff_eq hc'] at h2
  linarith

/-! ### Non-vacuity -/

/-- Identity matrix. -/
def exId : M3 := ⟨⟨1, 0, 0⟩, ⟨0, 1, 0⟩, ⟨0, 0, 1⟩⟩

theorem vecMul_exId (v : V3 ℝ) : M3.vecMul v exId = v := by
  ext <;> simp [M3.vecMul, exId]

/-- The identity keeps scalar products and is dual to itself. -/
example : KeepsDot exId ∧ DualBases exId exId := by
  constructor <;> intro a b <;> simp only [vecMul_exId]

/-- A detector of 4 x 4 pixels with the PC in its middle, half a detector height away: `r_max` is
the square root of 2. -/
def exSimDet : Detector ℝ := ⟨4, 4, 1, 1, 0, 0, 0, 70, [1], [⟨1 / 2, 1 / 2, 1 / 2⟩]⟩

theorem exSimDet_rMaxSq : exSimDet.rMaxSq ⟨1 / 2, 1 / 2, 1 / 2⟩ = 2 := by
  simp only [Detector.rMaxSq, Detector.xMin, Detector.xMax, Detector.yMin, Detector.yMax,
    Detector.aspect, exSimDet]
  norm_num

/-- The bands of (1, 0, 0) and (0, 1, 0) are returned, and their zone axis [0, 0, 1] at the
PC. -/
example :
    (∃ b ∈ (geometricalSimulation exSimDet ⟨1 / 2, 1 / 2, 1 / 2⟩ exId exId exId exId
      [⟨1, 0, 0⟩, ⟨0, 1, 0⟩]).1, IsTraceOf ⟨1, 0, 0⟩ (exSimDet.rMax ⟨1 / 2, 1 / 2, 1 / 2⟩) b) ∧
    (0, 0) ∈ (geometricalSimulation exSimDet ⟨1 / 2, 1 / 2, 1 / 2⟩ exId exId exId exId
      [⟨1, 0, 0⟩, ⟨0, 1, 0⟩]).2 := by
  have hr : exSimDet.rMax ⟨1 / 2, 1 / 2, 1 / 2⟩ ^ 2 = 2 := by
    unfold Detector.rMax
    rw [exSimDet_rMaxSq, Real.sq_sqrt (by norm_num)]
  have hn : normalOf exId exId exId ⟨1, 0, 0⟩ = ⟨1, 0, 0⟩ := by
    unfold normalOf
    simp only [vecMul_matMul, vecMul_exId]
  constructor
  · have := C56_visible_bands_returned exSimDet ⟨1 / 2, 1 / 2, 1 / 2⟩ exId exId exId exId
      [⟨1, 0, 0⟩, ⟨0, 1, 0⟩] ⟨1, 0, 0⟩ (by simp) (by rw [hn]) (by rw [hn]; simp) 0 0
      (by rw [hr]; norm_num) (by rw [hn]; simp [OnTrace])
    rwa [hn] at this
  · rw [C56_zone_axes]
    refine ⟨⟨1, 0, 0⟩, by simp, ⟨0, 1, 0⟩, by simp, by simp [V3.cross], ⟨0, 0, 1⟩, ?_, one_pos,
      by simp, ?_, ?_, ?_⟩
    · simp only [vecMul_matMul, vecMul_exId, V3.cross]; norm_num
    · unfold Detector.rMax
      rw [exSimDet_rMaxSq]
      simp
    · simp only [Detector.xMin, Detector.xMax, Detector.xScale, Detector.aspect, exSimDet]
      norm_num
    · simp only [Detector.yMin, Detector.yMax, Detector.yScale, exSimDet]
      norm_num

end
end Kp
