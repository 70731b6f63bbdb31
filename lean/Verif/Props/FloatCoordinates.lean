import Verif.Lemmas.FloatCoordinates

/-!
# C155: rounding errors do not move pixel and gnomonic coordinates

`to_gnomonic_coords` and `to_pixel_coords` compute in 64-bit floating point numbers. Coordinate
pairs are ordered (y, x). `fused` says whether a product and the sum following it are rounded once
or twice.
-/

namespace Kp
open Spec

variable {d : Detector ℝ} {p : PC ℝ}

/-- The gnomonic coordinates returned for a pixel coordinate, on the screen or outside, are those
of the projection from the projection center, up to 2⁻⁴⁶ of a pixel for every pixel which the
screen and the coordinate are large. -/
theorem C155_to_gnomonic (h : UsualScreen d.nrows d.ncols p) (fused : Bool) (c : ℝ × ℝ) :
    |(d.toGnomonicFl fused p c).1 - (gnomonic d.nrows d.ncols p c).1|
        ≤ 1 / 2 ^ 46 * (pixelGnomonic d.nrows p * (d.nrows + |c.1|)) ∧
    |(d.toGnomonicFl fused p c).2 - (gnomonic d.nrows d.ncols p c).2|
        ≤ 1 / 2 ^ 46 * (pixelGnomonic d.nrows p * (d.ncols + |c.2|)) := by
  have hz := (usual_z h).1
  have hr : (0 : ℝ) < d.nrows := lt_of_lt_of_le one_pos (usual_cast h).1
  have hc : (0 : ℝ) < d.ncols := lt_of_lt_of_le one_pos (usual_cast h).2.2.1
  have hk : 105 * ulp ≤ 1 / 2 ^ 46 := by rw [ulp]; norm_num
  constructor
  · have h1 := (screenAxis_y h).forward fused c.1
    rw [toGnomonicFl_fst, ← abs_neg]
    rw [show pixelGnomonic d.nrows p = 1 / p.z / d.nrows by rw [pixelGnomonic]; field_simp]
    refine le_trans (le_of_eq ?_) (h1.trans (ulp_times (by positivity) hk))
    congr 1
    simp only [gnomonic]
    field_simp
    ring
  · have h1 := (screenAxis_x h).forward fused c.2
    rw [show pixelGnomonic d.nrows p = (d.ncols : ℝ) / d.nrows / p.z / d.ncols by
      rw [pixelGnomonic]; field_simp]
    refine le_trans (le_of_eq ?_) (h1.trans (ulp_times (by positivity) hk))
    congr 1
    simp only [gnomonic, Detector.toGnomonicFl, convertPairFl, Detector.pixToGnFl]
    congr 1
    field_simp
    ring

/-- The pixel coordinates returned for the gnomonic coordinates of a point `c` of the plane of the
screen are those of the point, up to 2⁻⁴² pixel for every pixel which the screen and the
coordinate are large. -/
theorem C155_to_pixel (h : UsualScreen d.nrows d.ncols p) (fused : Bool) (c : ℝ × ℝ) :
    |(d.toPixelFl fused p (gnomonic d.nrows d.ncols p c)).1 - c.1|
        ≤ 1 / 2 ^ 42 * (d.nrows + |c.1|) ∧
    |(d.toPixelFl fused p (gnomonic d.nrows d.ncols p c)).2 - c.2|
        ≤ 1 / 2 ^ 42 * (d.ncols + |c.2|) := by
  have hz := (usual_z h).1
  have hr : (0 : ℝ) < d.nrows := lt_of_lt_of_le one_pos (usual_cast h).1
  have hc : (0 : ℝ) < d.ncols := lt_of_lt_of_le one_pos (usual_cast h).2.2.1
  have hk : 1200 * ulp ≤ 1 / 2 ^ 42 := by rw [ulp]; norm_num
  constructor
  · have h1 := (screenAxis_y h).backward fused c.1
    rw [toPixelFl_fst]
    rw [show -(gnomonic d.nrows d.ncols p c).1 = 1 / p.z / d.nrows * c.1 + -(p.y / p.z) by
      simp only [gnomonic]; field_simp; ring]
    exact h1.trans (ulp_times (by positivity) hk)
  · have h1 := (screenAxis_x h).backward fused c.2
    simp only [Detector.toPixelFl, convertPairFl, Detector.gnToPixFl]
    rw [show (gnomonic d.nrows d.ncols p c).2 = (d.ncols : ℝ) / d.nrows / p.z / d.ncols * c.2
        + -((d.ncols : ℝ) / d.nrows) * (p.x / p.z) by
      simp only [gnomonic]; field_simp; ring]
    exact h1.trans (ulp_times (by positivity) hk)

/-- Every gnomonic coordinate is that of a point of the plane of the screen, so that
`C155_to_pixel` is about every coordinate. -/
theorem C155_to_pixel_all (h : UsualScreen d.nrows d.ncols p) (g : ℝ × ℝ) :
    ∃ c, gnomonic d.nrows d.ncols p c = g := by
  have hz := (usual_z h).1
  have hr : (0 : ℝ) < d.nrows := lt_of_lt_of_le one_pos (usual_cast h).1
  refine ⟨(p.y * d.nrows - g.1 * (p.z * d.nrows), p.x * d.ncols + g.2 * (p.z * d.nrows)), ?_⟩
  refine Prod.ext ?_ ?_ <;> simp only [gnomonic] <;> field_simp <;> ring

/-- Pixel coordinates converted to gnomonic coordinates and back are the same, up to 2⁻⁴² pixel for
every pixel which the screen and the coordinate are large. -/
theorem C155_round_trip (h : UsualScreen d.nrows d.ncols p) (fused : Bool) (c : ℝ × ℝ) :
    |(d.toPixelFl fused p (d.toGnomonicFl fused p c)).1 - c.1| ≤ 1 / 2 ^ 42 * (d.nrows + |c.1|) ∧
    |(d.toPixelFl fused p (d.toGnomonicFl fused p c)).2 - c.2|
        ≤ 1 / 2 ^ 42 * (d.ncols + |c.2|) := by
  have hk : 1400 * ulp ≤ 1 / 2 ^ 42 := by rw [ulp]; norm_num
  constructor
  · have h1 := (screenAxis_y h).round_trip fused c.1
    rw [toPixelFl_fst, toGnomonicFl_fst, neg_neg]
    exact h1.trans (ulp_times (by positivity) hk)
  · have h1 := (screenAxis_x h).round_trip fused c.2
    exact h1.trans (ulp_times (by positivity) hk)

/-- Gnomonic coordinates of a point `c` of the plane of the screen converted to pixel coordinates
and back are the same, up to 2⁻⁴² of a pixel for every pixel which the screen and the coordinate
are large. -/
theorem C155_round_trip_gnomonic (h : UsualScreen d.nrows d.ncols p) (fused : Bool) (c : ℝ × ℝ) :
    |(d.toGnomonicFl fused p (d.toPixelFl fused p (gnomonic d.nrows d.ncols p c))).1
          - (gnomonic d.nrows d.ncols p c).1|
        ≤ 1 / 2 ^ 42 * (pixelGnomonic d.nrows p * (d.nrows + |c.1|)) ∧
    |(d.toGnomonicFl fused p (d.toPixelFl fused p (gnomonic d.nrows d.ncols p c))).2
          - (gnomonic d.nrows d.ncols p c).2|
        ≤ 1 / 2 ^ 42 * (pixelGnomonic d.nrows p * (d.ncols + |c.2|)) := by
  have hz := (usual_z h).1
  have hr : (0 : ℝ) < d.nrows := lt_of_lt_of_le one_pos (usual_cast h).1
  have hc : (0 : ℝ) < d.ncols := lt_of_lt_of_le one_pos (usual_cast h).2.2.1
  have hk : 1400 * ulp ≤ 1 / 2 ^ 42 := by rw [ulp]; norm_num
  constructor
  · have h1 := (screenAxis_y h).round_trip_back fused c.1
    have e : 1 / p.z / d.nrows * c.1 + -(p.y / p.z) = -(gnomonic d.nrows d.ncols p c).1 := by
      simp only [gnomonic]; field_simp; ring
    rw [e] at h1
    rw [toGnomonicFl_fst, toPixelFl_fst, ← abs_neg]
    rw [show pixelGnomonic d.nrows p = 1 / p.z / d.nrows by rw [pixelGnomonic]; field_simp]
    refine le_trans (le_of_eq ?_) (h1.trans (ulp_times (by positivity) hk))
    congr 1
    ring
  · have h1 := (screenAxis_x h).round_trip_back fused c.2
    have e : (d.ncols : ℝ) / d.nrows / p.z / d.ncols * c.2
        + -((d.ncols : ℝ) / d.nrows) * (p.x / p.z) = (gnomonic d.nrows d.ncols p c).2 := by
      simp only [gnomonic]; field_simp; ring
    rw [e] at h1
    rw [show pixelGnomonic d.nrows p = (d.ncols : ℝ) / d.nrows / p.z / d.ncols by
      rw [pixelGnomonic]; field_simp]
    exact h1.trans (ulp_times (by positivity) hk)

theorem round_near {i : ℤ} {x : ℝ} (h : |x - i| < 1 / 2) : round x = i := by
  rw [round_eq, Int.floor_eq_iff]
  have := abs_lt.mp h
  constructor <;> linarith

/-- The pixels of the screen are found again: the pixel nearest to what is returned for the
gnomonic coordinates of a pixel is this pixel. -/
theorem C155_pixels (h : UsualScreen d.nrows d.ncols p) (fused : Bool) (i j : ℕ)
    (hi : i < d.nrows) (hj : j < d.ncols) :
    round (d.toPixelFl fused p (d.toGnomonicFl fused p (i, j))).1 = i ∧
    round (d.toPixelFl fused p (d.toGnomonicFl fused p (i, j))).2 = j := by
  obtain ⟨h1, h2⟩ := C155_round_trip h fused ((i : ℝ), (j : ℝ))
  obtain ⟨-, hr, -, hc⟩ := usual_cast h
  have hi' : (i : ℝ) < d.nrows := by exact_mod_cast hi
  have hj' : (j : ℝ) < d.ncols := by exact_mod_cast hj
  constructor
  · refine round_near (lt_of_le_of_lt (by simpa using h1) ?_)
    have : (d.nrows : ℝ) + i ≤ 2 ^ 21 := by
      rw [show (2 : ℝ) ^ 21 = 2 * 2 ^ 20 by norm_num]; linarith
    norm_num at this ⊢
    linarith
  · refine round_near (lt_of_le_of_lt (by simpa using h2) ?_)
    have : (d.ncols : ℝ) + j ≤ 2 ^ 21 := by
      rw [show (2 : ℝ) ^ 21 = 2 * 2 ^ 20 by norm_num]; linarith
    norm_num at this ⊢
    linarith

/-- The hypothesis is met by a screen of 60 × 80 pixels. -/
example : UsualScreen 60 80 ⟨421 / 1000, 779 / 1000, 505 / 1000⟩ := by
  refine ⟨?_, ?_, ?_, ?_, ?_, ?_, ?_, ?_⟩ <;> norm_num [abs_le]

/-- A pixel of it. -/
example : gnomonic (K := ℚ) 60 80 ⟨1 / 2, 3 / 4, 1 / 2⟩ (15, 60) = (1, 2 / 3) := by
  decide +kernel

end Kp
