import Verif.Props.Rotations
import Verif.Props.SampleToDetector
import Verif.Spec.Detector

/-
C30: direction cosines point at pixel centers.
-/

namespace Kp

/-! ### Masks -/

theorem filter_range_length (mask : List Bool) (i : ℕ) (hi : i ≤ mask.length) :
    ((List.range i).filter (fun k => mask.getD k false)).length = (mask.take i).count true := by
  induction i with
  | zero => simp
  | succ i ih =>
    rw [List.range_succ, List.filter_append, List.length_append, ih (by omega),
      List.take_add_one, List.count_append]
    congr 1
    rw [List.getElem?_eq_getElem (by omega)]
    rw [List.filter_singleton, List.getD_eq_getElem?_getD, List.getElem?_eq_getElem (by omega)]
    simp only [Option.getD_some, Option.toList_some]
    cases mask[i] <;> simp

/-- The position in the result of an index that is `True` in the mask. -/
theorem maskedIndices_getElem {mask : List Bool} {i : ℕ} (h : mask[i]? = some true) :
    (maskedIndices mask)[(mask.take i).count true]? = some i := by
  obtain ⟨hi, hv⟩ := List.getElem?_eq_some_iff.1 h
  unfold maskedIndices
  have hsplit : List.range mask.length = List.range i ++
      i :: (List.range (mask.length - i - 1)).map (fun k => i + 1 + k) := by
    have h1 : mask.length = (i + 1) + (mask.length - i - 1) := by omega
    conv_lhs => rw [h1]
    rw [List.range_add, List.range_succ, List.append_assoc]
    rfl
  rw [hsplit, List.filter_append, List.getElem?_append_right (filter_range_length mask i hi.le).le,
    filter_range_length mask i hi.le, Nat.sub_self, List.filter_cons]
  have : mask.getD i false = true := by rw [List.getD_eq_getElem?_getD, h]; rfl
  rw [if_pos this]
  rfl

theorem maskedIndices_length (mask : List Bool) :
    (maskedIndices mask).length = mask.count true := by
  unfold maskedIndices
  rw [filter_range_length mask _ le_rfl, List.take_length]

theorem arange_getD {a b : ℝ} (hab : a ≠ b) {n k : ℕ} (hk : k < n) (d : ℝ) :
    (arange a b ((b - a) / n)).getD k d = a + k * ((b - a) / n) := by
  have hn : (n : ℝ) ≠ 0 := by
    have : n ≠ 0 := by omega
    exact_mod_cast this
  have hba : b - a ≠ 0 := sub_ne_zero.2 (Ne.symm hab)
  have hq : (b - a) / ((b - a) / n) = n := by field_simp
  unfold arange
  rw [hq, List.getD_eq_getElem?_getD, List.getElem?_map]
  simp [List.getElem?_range hk]

/-! ### Directions -/

theorem normalizeV_eq_smul (u : V3 ℝ) :
    normalizeV u = V3.smul (Real.sqrt (u.dot u))⁻¹ u := by
  unfold normalizeV V3.smul V3.dot
  ext <;> simp only <;> rw [div_eq_inv_mul]

theorem ProperRotation.apply_transpose {m : M3} (h : ProperRotation m) (g : V3 ℝ) :
    m.apply (m.transpose.apply g) = g := by
  obtain ⟨h0, h1, h2, h3, h4, h5, _⟩ := h
  unfold V3.dot at h0 h1 h2 h3 h4 h5
  unfold M3.apply M3.transpose V3.dot
  ext <;> simp only
  · linear_combination g.x * h0 + g.y * h3 + g.z * h4
  · linear_combination g.x * h3 + g.y * h1 + g.z * h5
  · linear_combination g.x * h4 + g.y * h5 + g.z * h2

theorem M3.apply_smul (m : M3) (c : ℝ) (v : V3 ℝ) : m.apply (V3.smul c v) = V3.smul c (m.apply v) := by
  unfold M3.apply V3.smul V3.dot
  ext <;> simp only <;> ring

theorem ProperRotation.transpose_dot {m : M3} (h : ProperRotation m) (g : V3 ℝ) :
    (m.transpose.apply g).dot (m.transpose.apply g) = g.dot g := by
  obtain ⟨h0, h1, h2, h3, h4, h5, _⟩ := h
  unfold V3.dot at h0 h1 h2 h3 h4 h5
  unfold M3.apply M3.transpose V3.dot
  simp only
  linear_combination g.x ^ 2 * h0 + g.y ^ 2 * h1 + g.z ^ 2 * h2 + 2 * g.x * g.y * h3 +
    2 * g.x * g.z * h4 + 2 * g.y * g.z * h5

/-- The set of direction cosines for one PC. -/
noncomputable def pcDirections (d : Detector ℝ) (m : M3) (mask : List Bool) (p : PC ℝ) :
    List (V3 ℝ) :=
  directionCosinesFixed (d.gnomonicBounds p) p.z d.nrows d.ncols m.transpose mask

/-- C30: for every PC in front of the detector and every (proper) sample-to-detector rotation
`m`, the direction of each selected pixel `(r, c)` is a unit vector which, in the detector
frame, points along the gnomonic coordinates of the pixel center. The pixels come in row-major
order: the direction of a pixel comes after those of all selected pixels before it, and there
are as many directions as selected pixels. -/
theorem C30_pixel_centers {d : Detector ℝ} {m : M3} (hm : ProperRotation m) {p : PC ℝ}
    (hz : 0 < p.z) (mask : List Bool) :
    (pcDirections d m mask p).length = mask.count true ∧
    ∀ r c, r < d.nrows → c < d.ncols → mask[r * d.ncols + c]? = some true →
      ∃ v, (pcDirections d m mask p)[(mask.take (r * d.ncols + c)).count true]? = some v ∧
        v.x ^ 2 + v.y ^ 2 + v.z ^ 2 = 1 ∧
        ∃ t, 0 < t ∧ m.apply v = V3.smul t
          ⟨(Spec.gnomonic d.nrows d.ncols p ((r : ℝ) + 1 / 2, (c : ℝ) + 1 / 2)).2,
           (Spec.gnomonic d.nrows d.ncols p ((r : ℝ) + 1 / 2, (c : ℝ) + 1 / 2)).1, 1⟩ := by
  refine ⟨?_, ?_⟩
  · unfold pcDirections directionCosinesFixed
    simp only [List.length_map]
    exact maskedIndices_length mask
  · intro r c hr hc hmask
    have hnr : (d.nrows : ℝ) ≠ 0 := by
      have : d.nrows ≠ 0 := by omega
      exact_mod_cast this
    have hnc : (d.ncols : ℝ) ≠ 0 := by
      have : d.ncols ≠ 0 := by omega
      exact_mod_cast this
    unfold pcDirections directionCosinesFixed
    simp only [List.getElem?_map, maskedIndices_getElem hmask, Option.map_some]
    have hdiv : (r * d.ncols + c) / d.ncols = r := by
      rw [Nat.mul_comm, Nat.mul_add_div (by omega), Nat.div_eq_of_lt hc, Nat.add_zero]
    have hmod : (r * d.ncols + c) % d.ncols = c := by
      rw [Nat.mul_comm, Nat.mul_add_mod, Nat.mod_eq_of_lt hc]
    rw [hdiv, hmod]
    refine ⟨_, rfl, ?_⟩
    -- the pixel center
    have hdx : d.xMax p - d.xMin p = d.aspect / p.z := by
      unfold Detector.xMax Detector.xMin; field_simp; ring
    have hdy : d.yMax p - d.yMin p = 1 / p.z := by
      unfold Detector.yMax Detector.yMin; field_simp; ring
    have hasp : d.aspect ≠ 0 := div_ne_zero hnc hnr
    have hxne : d.xMin p ≠ d.xMax p := by
      intro h
      rw [h, sub_self] at hdx
      exact div_ne_zero hasp hz.ne' hdx.symm
    have hyne : d.yMax p ≠ d.yMin p := by
      intro h
      rw [h, sub_self] at hdy
      exact div_ne_zero one_ne_zero hz.ne' hdy.symm
    have hys : -((d.gnomonicBounds p).2.2.2 - (d.gnomonicBounds p).2.2.1) / (d.nrows : ℝ) =
        (d.yMin p - d.yMax p) / d.nrows := by
      unfold Detector.gnomonicBounds
      simp only
      ring
    have hgx : (arange (d.gnomonicBounds p).1 (d.gnomonicBounds p).2.1
        (((d.gnomonicBounds p).2.1 - (d.gnomonicBounds p).1) / d.ncols)).getD c 0 +
        ((d.gnomonicBounds p).2.1 - (d.gnomonicBounds p).1) / d.ncols / 2 =
        (Spec.gnomonic d.nrows d.ncols p ((r : ℝ) + 1 / 2, (c : ℝ) + 1 / 2)).2 := by
      unfold Detector.gnomonicBounds
      simp only
      rw [arange_getD hxne hc, hdx]
      unfold Detector.xMin Spec.gnomonic Detector.aspect
      field_simp
      ring
    have hgy : (arange (d.gnomonicBounds p).2.2.2 (d.gnomonicBounds p).2.2.1
        (-(((d.gnomonicBounds p).2.2.2 - (d.gnomonicBounds p).2.2.1) / d.nrows))).getD r 0 -
        ((d.gnomonicBounds p).2.2.2 - (d.gnomonicBounds p).2.2.1) / d.nrows / 2 =
        (Spec.gnomonic d.nrows d.ncols p ((r : ℝ) + 1 / 2, (c : ℝ) + 1 / 2)).1 := by
      rw [← neg_div, hys]
      unfold Detector.gnomonicBounds
      simp only
      rw [arange_getD hyne hr]
      have : d.yMin p - d.yMax p = -(1 / p.z) := by linarith
      rw [this, hdy]
      unfold Detector.yMax Spec.gnomonic
      field_simp
      ring
    rw [hgx, hgy]
    generalize (Spec.gnomonic d.nrows d.ncols p ((r : ℝ) + 1 / 2, (c : ℝ) + 1 / 2)).2 = x
    generalize (Spec.gnomonic d.nrows d.ncols p ((r : ℝ) + 1 / 2, (c : ℝ) + 1 / 2)).1 = y
    have hg : (⟨x * p.z, y * p.z, p.z⟩ : V3 ℝ) = V3.smul p.z ⟨x, y, 1⟩ := by
      unfold V3.smul
      ext <;> simp only <;> ring
    have hpos : 0 < (m.transpose.apply ⟨x * p.z, y * p.z, p.z⟩).dot
        (m.transpose.apply ⟨x * p.z, y * p.z, p.z⟩) := by
      rw [hm.transpose_dot]
      unfold V3.dot
      simp only
      nlinarith [mul_self_nonneg (x * p.z), mul_self_nonneg (y * p.z), mul_pos hz hz]
    constructor
    · rw [normalizeV_eq_smul]
      generalize hu : m.transpose.apply ⟨x * p.z, y * p.z, p.z⟩ = u at *
      have hsq : Real.sqrt (u.dot u) ^ 2 = u.dot u := Real.sq_sqrt hpos.le
      have hs0 : Real.sqrt (u.dot u) ≠ 0 := (Real.sqrt_pos.2 hpos).ne'
      unfold V3.smul
      simp only
      have : (Real.sqrt (u.dot u))⁻¹ ^ 2 * (u.dot u) = 1 := by
        rw [inv_pow, hsq, inv_mul_cancel₀ hpos.ne']
      rw [← this]
      unfold V3.dot
      ring
    · refine ⟨(Real.sqrt ((m.transpose.apply ⟨x * p.z, y * p.z, p.z⟩).dot
        (m.transpose.apply ⟨x * p.z, y * p.z, p.z⟩)))⁻¹ * p.z,
        mul_pos (inv_pos.2 (Real.sqrt_pos.2 hpos)) hz, ?_⟩
      rw [normalizeV_eq_smul, M3.apply_smul, hm.apply_transpose, hg]
      unfold V3.smul
      ext <;> simp only <;> ring

/-- C30: the direction cosines of a detector are those of its PCs one by one, whether there is
one PC or several. Without a signal mask all pixels are selected. -/
theorem C30_each_pc {d : Detector ℝ} (hlen : d.pc.length = d.nav.prod) (m : M3)
    (mask : Option (List Bool)) :
    directionCosines d m mask =
      d.pc.map (pcDirections d m (mask.getD (List.replicate (d.nrows * d.ncols) true))) := by
  unfold directionCosines
  simp only
  split
  · rename_i h
    rw [h] at hlen
    obtain ⟨p, hp⟩ := List.length_eq_one_iff.1 (by simpa using hlen)
    rw [hp]
    rfl
  · unfold directionCosinesVarying
    simp only [List.length_map, List.map_map]
    have : ∀ {α β : Type} (l : List α) (f : ℕ → β) (g : α → β),
        (∀ i (hi : i < l.length), f i = g l[i]) → (List.range l.length).map f = l.map g := by
      intro α β l f g hfg
      refine List.ext_getElem (by simp) fun i h1 h2 => ?_
      simp only [List.getElem_map, List.getElem_range]
      exact hfg i (by simpa using h1)
    refine this d.pc _ _ fun i hi => ?_
    simp only [Function.comp, List.map_map, pcDirections, directionCosinesFixed,
      List.getD_eq_getElem?_getD, List.getElem?_map, List.getElem?_eq_getElem hi, Option.map_some,
      Option.getD_some]
    refine List.map_congr_left fun j _ => ?_
    simp only [Function.comp]

/-- A detector with two PCs. -/
example : ∃ d : Detector ℝ, d.pc.length = d.nav.prod ∧ d.nav = [2] ∧ ∀ p ∈ d.pc, 0 < p.z := by
  refine ⟨{ nrows := 2, ncols := 3, pxSize := 1, binning := 1, tilt := 0, azimuthal := 0,
            twist := 0, sampleTilt := 70, nav := [2],
            pc := [⟨1 / 2, 1 / 2, 1 / 2⟩, ⟨1 / 2, 1 / 4, 1 / 2⟩] }, rfl, rfl, ?_⟩
  simp

/-- The sample-to-detector matrices of all detectors meet the hypothesis. -/
example (s t o g : ℝ) : ProperRotation (sampleToDetectorMatrix s t o g) :=
  C08_sample_to_detector_is_proper_rotation s t o g

example : maskedIndices [true, false, true, true] = [0, 2, 3] := by decide

end Kp
