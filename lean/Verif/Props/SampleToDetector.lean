import Verif.Model.SampleToDetector
import Mathlib.Tactic.Ring
import Mathlib.Tactic.Linarith
import Mathlib.Tactic.LinearCombination

/-
C08: the sample-to-detector transformation is a proper rotation for all angles.
-/

namespace Kp

/-- Spec: the rows are orthonormal and right-handed (`r0 × r1 = r2`), i.e. the matrix is a
proper rotation. -/
structure ProperRotation (m : M3) : Prop where
  unit0 : m.r0.dot m.r0 = 1
  unit1 : m.r1.dot m.r1 = 1
  unit2 : m.r2.dot m.r2 = 1
  orth01 : m.r0.dot m.r1 = 0
  orth02 : m.r0.dot m.r2 = 0
  orth12 : m.r1.dot m.r2 = 0
  rightHanded : m.r0.cross m.r1 = m.r2

theorem basis0_proper : ProperRotation basis0 := by
  constructor <;> simp [basis0, V3.dot, V3.cross]

theorem normalizeV_of_unit (u : V3 ℝ) (h : u.dot u = 1) : normalizeV u = u := by
  unfold V3.dot at h
  unfold normalizeV
  simp [h]

theorem rodrigues_dot (u v w : V3 ℝ) (a : ℝ) (h : u.dot u = 1) :
    (rodriguesRow u a v).dot (rodriguesRow u a w) = v.dot w := by
  have hcs := Real.sin_sq_add_cos_sq a
  simp only [V3.dot] at h
  simp only [V3.dot, rodriguesRow]
  generalize Real.cos a = c at *
  generalize Real.sin a = s at *
  obtain ⟨ux, uy, uz⟩ := u
  obtain ⟨vx, vy, vz⟩ := v
  obtain ⟨wx, wy, wz⟩ := w
  simp only at *
  grind

theorem rodrigues_cross (u v w : V3 ℝ) (a : ℝ) (h : u.dot u = 1) :
    (rodriguesRow u a v).cross (rodriguesRow u a w) = rodriguesRow u a (v.cross w) := by
  have hcs := Real.sin_sq_add_cos_sq a
  simp only [V3.dot] at h
  simp only [V3.cross, rodriguesRow]
  generalize Real.cos a = c at *
  generalize Real.sin a = s at *
  obtain ⟨ux, uy, uz⟩ := u
  obtain ⟨vx, vy, vz⟩ := v
  obtain ⟨wx, wy, wz⟩ := w
  simp only at *
  ext <;> simp only <;> grind

theorem ProperRotation.row_unit {m : M3} (h : ProperRotation m) (i : Fin 3) :
    (m.row i).dot (m.row i) = 1 := by
  fin_cases i
  · exact h.unit0
  · exact h.unit1
  · exact h.unit2

theorem ProperRotation.rotateAboutRow {m : M3} (h : ProperRotation m) (i : Fin 3) (a : ℝ) :
    ProperRotation (rotateAboutRow m i a) := by
  have hu := h.row_unit i
  unfold Kp.rotateAboutRow
  rw [normalizeV_of_unit _ hu]
  constructor
  all_goals simp only [rodrigues_dot _ _ _ _ hu, rodrigues_cross _ _ _ _ hu]
  · exact h.unit0
  · exact h.unit1
  · exact h.unit2
  · exact h.orth01
  · exact h.orth02
  · exact h.orth12
  · rw [h.rightHanded]

/-- C08: for all sample tilts, detector tilts, azimuthal and twist angles the
sample-to-detector matrix is a proper rotation. -/
theorem C08_sample_to_detector_is_proper_rotation (sigma theta omega gamma : ℝ) :
    ProperRotation (sampleToDetectorMatrix sigma theta omega gamma) := by
  unfold sampleToDetectorMatrix
  simp only [List.foldl_cons, List.foldl_nil]
  exact (((basis0_proper.rotateAboutRow _ _).rotateAboutRow _ _).rotateAboutRow _ _).rotateAboutRow _ _

theorem ProperRotation.apply_dot {m : M3} (h : ProperRotation m) (v w : V3 ℝ) :
    (m.apply v).dot (m.apply w) = v.dot w := by
  obtain ⟨h0, h1, -, h01, -, -, hr⟩ := h
  obtain ⟨⟨a, b, c⟩, ⟨d, e, f⟩, r2⟩ := m
  simp only at hr h0 h1 h01
  subst hr
  obtain ⟨vx, vy, vz⟩ := v
  obtain ⟨wx, wy, wz⟩ := w
  simp only [V3.dot, V3.cross, M3.apply] at *
  have hx : a ^ 2 + d ^ 2 + (b * f - c * e) ^ 2 = 1 := by grind
  have hy : b ^ 2 + e ^ 2 + (c * d - a * f) ^ 2 = 1 := by grind
  have hz : c ^ 2 + f ^ 2 + (a * e - b * d) ^ 2 = 1 := by grind
  have hxy : a * b + d * e + (b * f - c * e) * (c * d - a * f) = 0 := by grind
  have hxz : a * c + d * f + (b * f - c * e) * (a * e - b * d) = 0 := by grind
  have hyz : b * c + e * f + (c * d - a * f) * (a * e - b * d) = 0 := by grind
  linear_combination (vx * wx) * hx + (vy * wy) * hy + (vz * wz) * hz
    + (vx * wy + vy * wx) * hxy + (vx * wz + vz * wx) * hxz + (vy * wz + vz * wy) * hyz

/-- C08: transforming sample vectors to the detector frame keeps all angles and lengths. -/
theorem C08_sample_to_detector_is_isometry (sigma theta omega gamma : ℝ) (v w : V3 ℝ) :
    ((sampleToDetectorMatrix sigma theta omega gamma).apply v).dot
      ((sampleToDetectorMatrix sigma theta omega gamma).apply w) = v.dot w :=
  (C08_sample_to_detector_is_proper_rotation sigma theta omega gamma).apply_dot v w

/-- C08: without azimuthal and twist angles only the difference of the tilts matters: the
detector X axis is the sample Y axis, and the detector Y and Z axes are the sample Z and X
axes rotated about it. -/
theorem C08_only_tilts (sigma theta : ℝ) :
    sampleToDetectorMatrix sigma theta 0 0 =
      ⟨⟨0, 1, 0⟩, ⟨Real.sin (theta - sigma), 0, Real.cos (theta - sigma)⟩,
       ⟨Real.cos (theta - sigma), 0, -Real.sin (theta - sigma)⟩⟩ := by
  have h1 : rotateAboutRow basis0 0 (-sigma) =
      ⟨⟨0, 1, 0⟩, ⟨Real.sin (-sigma), 0, Real.cos (-sigma)⟩,
       ⟨Real.cos (-sigma), 0, -Real.sin (-sigma)⟩⟩ := by
    unfold rotateAboutRow
    rw [normalizeV_of_unit _ (basis0_proper.row_unit 0)]
    simp [basis0, M3.row, rodriguesRow]
  have hp := basis0_proper.rotateAboutRow 0 (-sigma)
  rw [h1] at hp
  have h2 : rotateAboutRow ⟨⟨0, 1, 0⟩, ⟨Real.sin (-sigma), 0, Real.cos (-sigma)⟩,
       ⟨Real.cos (-sigma), 0, -Real.sin (-sigma)⟩⟩ 0 theta =
      ⟨⟨0, 1, 0⟩, ⟨Real.sin (theta - sigma), 0, Real.cos (theta - sigma)⟩,
       ⟨Real.cos (theta - sigma), 0, -Real.sin (theta - sigma)⟩⟩ := by
    unfold rotateAboutRow
    rw [normalizeV_of_unit _ (hp.row_unit 0)]
    simp only [M3.row, rodriguesRow, Real.sin_sub, Real.cos_sub, Real.sin_neg, Real.cos_neg]
    ext <;> simp <;> ring
  have h0 : ∀ (m : M3) (i : Fin 3), rotateAboutRow m i (-0) = m := by
    intro m i
    unfold rotateAboutRow rodriguesRow
    ext <;> simp
  unfold sampleToDetectorMatrix
  simp only [List.foldl_cons, List.foldl_nil]
  rw [h1, h2, h0, h0]

/-- C08: with all angles zero the transformation is the documented permutation of axes. -/
theorem C08_zero_angles (v : V3 ℝ) :
    (sampleToDetectorMatrix 0 0 0 0).apply v = ⟨v.y, v.z, v.x⟩ := by
  rw [C08_only_tilts]
  simp [M3.apply, V3.dot]

theorem ProperRotation.cross_cyc {m : M3} (h : ProperRotation m) :
    m.r1.cross m.r2 = m.r0 ∧ m.r2.cross m.r0 = m.r1 := by
  obtain ⟨h0, h1, -, h01, -, -, hr⟩ := h
  obtain ⟨⟨a, b, c⟩, ⟨d, e, f⟩, r2⟩ := m
  simp only at hr h0 h1 h01
  subst hr
  simp only [V3.dot, V3.cross] at *
  constructor <;> ext <;> simp only <;> grind

/-- The rotation step in terms of detector coordinates: with `(x, y, z)` the coordinates of
a vector before, these are the coordinates after rotating the detector axes about `X`,
`Y` or `Z`. -/
theorem ProperRotation.apply_rotateAboutRow {m : M3} (h : ProperRotation m) (a : ℝ) (v : V3 ℝ) :
    (Kp.rotateAboutRow m 0 a).apply v =
      ⟨(m.apply v).x, (m.apply v).y * Real.cos a + (m.apply v).z * Real.sin a,
       (m.apply v).z * Real.cos a - (m.apply v).y * Real.sin a⟩ ∧
    (Kp.rotateAboutRow m 1 a).apply v =
      ⟨(m.apply v).x * Real.cos a - (m.apply v).z * Real.sin a, (m.apply v).y,
       (m.apply v).z * Real.cos a + (m.apply v).x * Real.sin a⟩ ∧
    (Kp.rotateAboutRow m 2 a).apply v =
      ⟨(m.apply v).x * Real.cos a + (m.apply v).y * Real.sin a,
       (m.apply v).y * Real.cos a - (m.apply v).x * Real.sin a, (m.apply v).z⟩ := by
  obtain ⟨hc1, hc2⟩ := h.cross_cyc
  have hrod : ∀ u w : V3 ℝ, (rodriguesRow u a w).dot v =
      w.dot v * Real.cos a + (u.cross w).dot v * Real.sin a
        + u.dot v * u.dot w * (1 - Real.cos a) := by
    intro u w
    simp only [rodriguesRow, V3.dot, V3.cross]; ring
  have hself : ∀ u : V3 ℝ, (u.cross u).dot v = 0 := by
    intro u; simp only [V3.dot, V3.cross]; ring
  have hneg : ∀ u w : V3 ℝ, (u.cross w).dot v = -((w.cross u).dot v) := by
    intro u w; simp only [V3.dot, V3.cross]; ring
  have hcomm : ∀ u w : V3 ℝ, u.dot w = w.dot u := by
    intro u w; simp only [V3.dot]; ring
  have n0 := normalizeV_of_unit _ (h.row_unit 0)
  have n1 := normalizeV_of_unit _ (h.row_unit 1)
  have n2 := normalizeV_of_unit _ (h.row_unit 2)
  refine ⟨?_, ?_, ?_⟩
  · unfold Kp.rotateAboutRow M3.apply
    simp only [n0, hrod]
    simp only [M3.row, hself, h.rightHanded, h.unit0, h.orth01, h.orth02]
    rw [hneg m.r0 m.r2, hc2]
    ext <;> simp <;> ring
  · unfold Kp.rotateAboutRow M3.apply
    simp only [n1, hrod]
    simp only [M3.row, hself, hc1, h.unit1, h.orth12]
    rw [hneg m.r1 m.r0, h.rightHanded, hcomm m.r1 m.r0, h.orth01]
    ext <;> simp <;> ring
  · unfold Kp.rotateAboutRow M3.apply
    simp only [n2, hrod]
    simp only [M3.row, hself, hc2, h.unit2]
    rw [hneg m.r2 m.r1, hc1, hcomm m.r2 m.r0, h.orth02, hcomm m.r2 m.r1, h.orth12]
    ext <;> simp <;> ring

/-- C08, documented direction of the twist: the detector coordinates of every vector turn
counter-clockwise by `gamma` (X to the right, Y upwards). -/
theorem C08_twist_is_counter_clockwise (sigma theta omega gamma : ℝ) (v : V3 ℝ) :
    let w := (sampleToDetectorMatrix sigma theta omega 0).apply v
    (sampleToDetectorMatrix sigma theta omega gamma).apply v =
      ⟨w.x * Real.cos gamma - w.y * Real.sin gamma,
       w.x * Real.sin gamma + w.y * Real.cos gamma, w.z⟩ := by
  unfold sampleToDetectorMatrix
  simp only [List.foldl_cons, List.foldl_nil]
  have h := ((basis0_proper.rotateAboutRow 0 (-sigma)).rotateAboutRow 0 theta).rotateAboutRow 1 (-omega)
  rw [(h.apply_rotateAboutRow (-gamma) v).2.2, (h.apply_rotateAboutRow (-0) v).2.2]
  ext <;> simp <;> ring

/-- C08, documented direction of the azimuthal angle: features in front of the detector
(`z > 0`) move to the right (`x` grows) for a positive angle. -/
theorem C08_azimuthal_is_to_the_right (sigma theta omega : ℝ) (v : V3 ℝ) :
    let w := (sampleToDetectorMatrix sigma theta 0 0).apply v
    (sampleToDetectorMatrix sigma theta omega 0).apply v =
      ⟨w.x * Real.cos omega + w.z * Real.sin omega, w.y,
       w.z * Real.cos omega - w.x * Real.sin omega⟩ := by
  unfold sampleToDetectorMatrix
  simp only [List.foldl_cons, List.foldl_nil]
  have h := ((basis0_proper.rotateAboutRow 0 (-sigma)).rotateAboutRow 0 theta)
  rw [((h.rotateAboutRow 1 _).apply_rotateAboutRow (-0) v).2.2,
    ((h.rotateAboutRow 1 _).apply_rotateAboutRow (-0) v).2.2,
    (h.apply_rotateAboutRow (-omega) v).2.1, (h.apply_rotateAboutRow (-0) v).2.1]
  ext <;> simp <;> ring

/-- C08, documented direction of the detector tilt: features in front of the detector
(`z > 0`) move upwards (`y` grows) for a positive angle. -/
theorem C08_tilt_is_upwards (sigma theta : ℝ) (v : V3 ℝ) :
    let w := (sampleToDetectorMatrix sigma 0 0 0).apply v
    (sampleToDetectorMatrix sigma theta 0 0).apply v =
      ⟨w.x, w.y * Real.cos theta + w.z * Real.sin theta,
       w.z * Real.cos theta - w.y * Real.sin theta⟩ := by
  simp only [C08_only_tilts, M3.apply, V3.dot]
  ext
  · simp
  · simp [Real.sin_sub, Real.cos_sub]; ring
  · simp [Real.sin_sub, Real.cos_sub]; ring

end Kp
