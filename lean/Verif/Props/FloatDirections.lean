import Verif.Lemmas.FloatDirections
import Verif.Props.DirectionCosines
import Verif.Props.FloatLambert

/-!
# C156: in floating point arithmetic every pixel of a detector gets its own direction

The compiled function which computes the directions of pixels reads the coordinates of columns and
rows from arrays whose lengths follow from a division of rounded numbers, without checking indices.
`o` says how a pixel's direction is evaluated (order of sums, operations rounded together).
-/

namespace Kp
open Spec

variable {d : Detector ℝ} {p : PC ℝ}

/-- The arrays of coordinates have a value for each column and row, and at most one more. -/
theorem C156_arrays (h : UsualScreen d.nrows d.ncols p) (recip : Bool) :
    (d.ncols ≤ arangeLengthFl recip (d.xMinFl p) (d.xMaxFl p)
        (fl64 (fl64 (d.xMaxFl p - d.xMinFl p) / (d.ncols : ℝ))) ∧
      arangeLengthFl recip (d.xMinFl p) (d.xMaxFl p)
        (fl64 (fl64 (d.xMaxFl p - d.xMinFl p) / (d.ncols : ℝ))) ≤ d.ncols + 1) ∧
    (d.nrows ≤ arangeLengthFl recip (d.yMaxFl p) (d.yMinFl p)
        (-fl64 (fl64 (d.yMaxFl p - d.yMinFl p) / (d.nrows : ℝ))) ∧
      arangeLengthFl recip (d.yMaxFl p) (d.yMinFl p)
        (-fl64 (fl64 (d.yMaxFl p - d.yMinFl p) / (d.nrows : ℝ))) ≤ d.nrows + 1) := by
  refine ⟨(screenAxis_x h).length_ge recip, ?_⟩
  unfold arangeLengthFl
  rw [← neg_sub (d.yMaxFl p), fl64_neg, overNormFl_neg_neg]
  exact (screenAxis_y h).length_ge recip

/-- The position computed for a pixel is that of its center, up to 2⁻⁴⁵ of the width and height of
the screen. -/
theorem C156_position (h : UsualScreen d.nrows d.ncols p) (fused recip : Bool) (r c : ℕ)
    (hr : r < d.nrows) (hc : c < d.ncols) :
    ∃ v, d.pixelPositionFl fused recip p r c = some v ∧
      |v 0 - pixelCenter d.nrows d.ncols p r c 0| ≤ 1 / 2 ^ 45 * ((d.ncols : ℝ) / d.nrows) ∧
      |v 1 - pixelCenter d.nrows d.ncols p r c 1| ≤ 1 / 2 ^ 45 ∧
      v 2 = pixelCenter d.nrows d.ncols p r c 2 :=
  pixelPositionFl_spec h fused recip hr hc

/-- The direction computed for a pixel is the exact direction of its center, turned by the exact
rotation, up to 2⁻³⁹ times one plus the size of the screen relative to its distance; its length is
one up to 2⁻⁵⁰. -/
theorem C156_direction (h : OrdinaryScreen d.nrows d.ncols p) {om R : Fin 3 → Fin 3 → ℝ}
    (hom : RoundedRotation om R) (o : DirectionOrders) (hdot : ∀ i, AddsEveryPixelOnce (o.dot i))
    (hnorm : AddsEveryPixelOnce o.norm) (r c : ℕ) (hr : r < d.nrows) (hc : c < d.ncols) :
    ∃ w, d.pixelDirectionFl o p om r c = some w ∧
      (∀ i, |w i - transformed R (pixelCenter d.nrows d.ncols p r c) i /
          length3 (transformed R (pixelCenter d.nrows d.ncols p r c))|
        ≤ 1 / 2 ^ 39 * (1 + screenAngle d.nrows d.ncols p)) ∧
      |length3 w - 1| ≤ 1 / 2 ^ 50 := by
  obtain ⟨v, ev, hx, hy, hz⟩ := pixelPositionFl_spec h.toUsualScreen o.fused o.recip hr hc
  have hz0 := (usual_z h.toUsualScreen).1
  have hang := h.angle_le
  have hzge := h.z_ge
  set v0 := pixelCenter d.nrows d.ncols p r c with hv0
  have hv2 : v0 2 = p.z := rfl
  set a := (d.ncols : ℝ) / d.nrows with ha
  have ha0 : 0 ≤ a := by positivity
  have hAz : p.z ≤ vlen v0 := by
    have := abs_le_vlen v0 2
    rw [hv2] at this
    exact (le_abs_self _).trans this
  have hA : 1 / 2 ^ 20 ≤ vlen v0 := hzge.trans hAz
  have hA0 : 0 < vlen v0 := lt_of_lt_of_le hz0 hAz
  have hB : 0 ≤ 1 + a := by linarith
  have hv : ∀ i, |v i - v0 i| ≤ 1 / 2 ^ 45 * (1 + a) := by
    intro i
    fin_cases i
    · refine hx.trans ?_
      gcongr
      linarith
    · refine hy.trans ?_
      show (1 : ℝ) / 2 ^ 45 ≤ _
      have : (0 : ℝ) ≤ 1 / 2 ^ 45 * a := by positivity
      linarith
    · show |v 2 - v0 2| ≤ _
      rw [hz, sub_self, abs_zero]
      positivity
  have hlen := Orthogonal.length hom.1 v0
  have hme := fun i => matrix_error hom hdot hB hv hA i
  have hBz : 1 + a = screenAngle d.nrows d.ncols p * p.z := by
    unfold screenAngle
    rw [div_mul_cancel₀ _ hz0.ne']
  set S := screenAngle d.nrows d.ncols p
  have hS0 : 0 ≤ S := by
    have : 0 ≤ S * p.z := hBz ▸ hB
    exact nonneg_of_mul_nonneg_left this hz0
  have hBA : 1 + a ≤ S * vlen v0 := by
    rw [hBz]
    gcongr
  have hde := direction_error (t := transformed R v0)
    (u' := fun i => (o.dot i).eval fl64 (om i) v) hnorm (by rw [hlen]; exact hA) hme (by
      rw [hlen]
      have : S * vlen v0 ≤ 2 ^ 10 * vlen v0 := by gcongr
      norm_num at this ⊢
      linarith)
  rw [hlen] at hde
  refine ⟨_, by
    unfold Detector.pixelDirectionFl
    rw [ev]
    rfl, ?_, hde.2⟩
  intro i
  have h1 := abs_le_vlen (fun i => normalizeFloat fl64 o.norm
    (fun i => (o.dot i).eval fl64 (om i) v) i - dirn (transformed R v0) i) i
  refine (h1.trans hde.1).trans ?_
  have h2 : 6 * (1 / 2 ^ 42 * (vlen v0 + (1 + a))) / vlen v0 ≤ 6 * (1 / 2 ^ 42) * (1 + S) := by
    rw [div_le_iff₀ hA0]
    have : 6 * (1 / 2 ^ 42) * (1 + S) * vlen v0 = 6 * (1 / 2 ^ 42 * (vlen v0 + S * vlen v0)) := by
      ring
    rw [this]
    gcongr
  have h3 : 5 * ulp ≤ 1 / 2 ^ 42 * (1 + S) := by
    unfold ulp
    norm_num
    linarith
  norm_num at h2 h3 ⊢
  linarith

/-- The list of directions has one entry for each pixel in the mask, in the order of pixels: each
pixel in the mask is found at its place, with its direction. -/
theorem C156_mask (h : OrdinaryScreen d.nrows d.ncols p) {om R : Fin 3 → Fin 3 → ℝ}
    (hom : RoundedRotation om R) (o : ℕ → DirectionOrders)
    (hdot : ∀ k i, AddsEveryPixelOnce ((o k).dot i)) (hnorm : ∀ k, AddsEveryPixelOnce (o k).norm)
    (mask : List Bool) :
    (d.directionCosinesFl o p om mask).length = mask.count true ∧
    ∀ r c, r < d.nrows → c < d.ncols → mask[r * d.ncols + c]? = some true →
      ∃ w, (d.directionCosinesFl o p om mask)[(mask.take (r * d.ncols + c)).count true]?
          = some (some w) ∧
        (∀ i, |w i - transformed R (pixelCenter d.nrows d.ncols p r c) i /
            length3 (transformed R (pixelCenter d.nrows d.ncols p r c))|
          ≤ 1 / 2 ^ 39 * (1 + screenAngle d.nrows d.ncols p)) ∧
        |length3 w - 1| ≤ 1 / 2 ^ 50 := by
  constructor
  · unfold Detector.directionCosinesFl
    rw [List.length_map]
    exact maskedIndices_length mask
  · intro r c hr hc hm
    have hdiv : (r * d.ncols + c) / d.ncols = r := by
      rw [Nat.mul_comm, Nat.mul_add_div (by omega), Nat.div_eq_of_lt hc, Nat.add_zero]
    have hmod : (r * d.ncols + c) % d.ncols = c := by
      rw [Nat.mul_comm, Nat.mul_add_mod, Nat.mod_eq_of_lt hc]
    obtain ⟨w, ew, h1, h2⟩ := C156_direction h hom (o (r * d.ncols + c)) (hdot _) (hnorm _) r c hr hc
    refine ⟨w, ?_, h1, h2⟩
    unfold Detector.directionCosinesFl
    rw [List.getElem?_map, maskedIndices_getElem hm, Option.map_some, hdiv, hmod, ew]

/-- From a detector to the master pattern: for every pixel of the screen and every crystal
orientation, the direction is computed, turned into the crystal and projected onto the (square)
master pattern of `n × n` pixels, and the four pixels of the master pattern which are read are in the
array, with weights of pixels next to each other. No index is out of range on the way. -/
theorem C156_simulation (h : OrdinaryScreen d.nrows d.ncols p) {om R : Fin 3 → Fin 3 → ℝ}
    (hom : RoundedRotation om R) (o : DirectionOrders) (hdot : ∀ i, AddsEveryPixelOnce (o.dot i))
    (hnorm : AddsEveryPixelOnce o.norm) (r c : ℕ) (hr : r < d.nrows) (hc : c < d.ncols)
    {atan : ℝ → ℝ} (hatan : AccurateArctan atan) (fused recip : Bool) {q : Quat}
    (hq : NearUnit (q.a ^ 2 + q.b ^ 2 + q.c ^ 2 + q.d ^ 2)) {n : ℕ} (hn : 0 < n)
    (hn31 : n < 2 ^ 31) :
    ∃ w, d.pixelDirectionFl o p om r c = some w ∧
      ∃ i, lambertInterpFl atan fused recip (rotateVectorFl q ⟨w 0, w 1, w 2⟩) n n
          (((n : ℝ) - 1) / 2) = some i ∧ InArray n i ∧ Weights i := by
  obtain ⟨w, ew, -, hl⟩ := C156_direction h hom o hdot hnorm r c hr hc
  refine ⟨w, ew, C105_rotated_in_array hatan fused recip hq ?_ hn hn31⟩
  have e : length3 w ^ 2 = w 0 ^ 2 + w 1 ^ 2 + w 2 ^ 2 := by
    rw [length3_eq, vlen_sq, Fin.sum_univ_three]
  unfold NearUnit
  simp only
  rw [← e]
  have h1 := abs_le.mp hl
  norm_num at h1
  rw [abs_le]
  norm_num
  constructor <;> nlinarith

/-- What directions are compared with is the gnomonic projection: the position of the center of a
pixel is its gnomonic coordinates times the distance of the screen. -/
theorem C156_gnomonic (h : UsualScreen d.nrows d.ncols p) (r c : ℕ) :
    pixelCenter d.nrows d.ncols p r c = ![
      (gnomonic d.nrows d.ncols p ((r : ℝ) + 1 / 2, (c : ℝ) + 1 / 2)).2 * p.z,
      (gnomonic d.nrows d.ncols p ((r : ℝ) + 1 / 2, (c : ℝ) + 1 / 2)).1 * p.z, p.z] := by
  have hz := (usual_z h).1
  have hr : (0 : ℝ) < d.nrows := lt_of_lt_of_le one_pos (usual_cast h).1
  have hc : (0 : ℝ) < d.ncols := lt_of_lt_of_le one_pos (usual_cast h).2.2.1
  have e1 : ((c + 1 / 2 : ℝ) / d.ncols - p.x) * (d.ncols / d.nrows) =
      (gnomonic d.nrows d.ncols p ((r : ℝ) + 1 / 2, (c : ℝ) + 1 / 2)).2 * p.z := by
    simp only [gnomonic]
    field_simp
  have e2 : p.y - (r + 1 / 2 : ℝ) / d.nrows =
      (gnomonic d.nrows d.ncols p ((r : ℝ) + 1 / 2, (c : ℝ) + 1 / 2)).1 * p.z := by
    simp only [gnomonic]
    field_simp
  unfold pixelCenter
  rw [e1, e2]

/-- The hypotheses are met by a screen of 60 × 80 pixels. -/
example : OrdinaryScreen 60 80 ⟨421 / 1000, 779 / 1000, 505 / 1000⟩ := by
  refine ⟨⟨?_, ?_, ?_, ?_, ?_, ?_, ?_, ?_⟩, ?_⟩ <;> norm_num [abs_le, screenAngle]

/-- A rotation about the horizontal axis. -/
noncomputable def exRotation : Fin 3 → Fin 3 → ℝ
  | 0, 0 => 1
  | 1, 1 => 3 / 5
  | 1, 2 => 4 / 5
  | 2, 1 => -4 / 5
  | 2, 2 => 3 / 5
  | _, _ => 0

example : RoundedRotation exRotation exRotation := by
  refine ⟨?_, fun i j => ?_⟩
  · have all : ∀ {P : Fin 3 → Prop}, P 0 → P 1 → P 2 → ∀ j, P j := by
      intro P a b c j
      match j with
      | 0 => exact a
      | 1 => exact b
      | 2 => exact c
    have e00 : exRotation 0 0 = 1 := rfl
    have e01 : exRotation 0 1 = 0 := rfl
    have e02 : exRotation 0 2 = 0 := rfl
    have e10 : exRotation 1 0 = 0 := rfl
    have e11 : exRotation 1 1 = 3 / 5 := rfl
    have e12 : exRotation 1 2 = 4 / 5 := rfl
    have e20 : exRotation 2 0 = 0 := rfl
    have e21 : exRotation 2 1 = -4 / 5 := rfl
    have e22 : exRotation 2 2 = 3 / 5 := rfl
    refine all (all ?_ ?_ ?_) (all ?_ ?_ ?_) (all ?_ ?_ ?_) <;>
      rw [Fin.sum_univ_three] <;>
      simp only [e00, e01, e02, e10, e11, e12, e20, e21, e22] <;> norm_num <;> decide
  · rw [sub_self, abs_zero]
    positivity

/-- The order of the sums as written. -/
example : AddsEveryPixelOnce (.plus (.plus (.term 0) (.term 1)) (.term 2) : SumOrder (Fin 3)) := by
  have hu : (Finset.univ : Finset (Fin 3)).toList.Perm [0, 1, 2] := by
    rw [← Multiset.coe_eq_coe, Finset.coe_toList]
    rfl
  exact hu.symm

/-- The center of a pixel of a screen of 60 × 80 pixels. -/
example : pixelCenter 60 80 ⟨1 / 2, 3 / 4, 1 / 2⟩ 14 59 = ![13 / 40, 61 / 120, 1 / 2] := by
  unfold pixelCenter
  norm_num

end Kp
