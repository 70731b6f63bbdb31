import Verif.Lemmas.FloatIntensity

/-!
# C159: in floating point arithmetic a simulated pixel has the right intensity

The exact intensity (`exactIntensity`) is interpolated at the place of the exact direction, in the
hemisphere of the exact direction; a computed direction may be in another cell of four pixels, or in the
other hemisphere.
-/

namespace Kp
open Spec

/-- Reading an image: with rounded weights and products, not more than `t` pixels from the place. -/
theorem pixel_near {o : PixelOrders} (ho : AddsEveryPixelOnce o.sum) {n : ℕ} (hn : 0 < n) {M D t y x : ℝ} (hM : 1 ≤ M) (hD : 0 ≤ D) {img : Img ℝ}
    (hi : SmoothImage n M D img) {p : Interp} (ha : InArray n p) (hw : Weights p)
    (hni : Neighbours n p.nii p.niip p.di) (hnj : Neighbours n p.nij p.nijp p.dj) (ht : 1 / 2 ^ 19 ≤ t)
    (hr : ReadsAt t y x p) (hy : 0 ≤ y) (hx : 0 ≤ x) :
    |masterPixelFl o img p - interp2 (n - 1) img.val y x| ≤ 12 * D * t + M / 2 ^ 40 := by
  obtain ⟨⟨i0, i1⟩, ⟨j0, j1⟩, ⟨k0, k1⟩, ⟨l0, l1⟩⟩ := ha
  obtain ⟨⟨d0, d1⟩, ⟨e0, e1⟩, ds, es⟩ := hw
  obtain ⟨hr1, hr2⟩ := hr
  have ds' := abs_le.mp ds
  have es' := abs_le.mp es
  have hr1' := abs_le.mp hr1
  have hr2' := abs_le.mp hr2
  norm_num at d0 d1 e0 e1 ds' es' ht
  have wd : |p.di| ≤ 2 := by rw [abs_le]; constructor <;> linarith
  have wdm : |p.dim| ≤ 2 := by rw [abs_le]; constructor <;> linarith
  have we : |p.dj| ≤ 2 := by rw [abs_le]; constructor <;> linarith
  have wem : |p.djm| ≤ 2 := by rw [abs_le]; constructor <;> linarith
  have w1 : |1 - p.di| ≤ 2 := by rw [abs_le]; constructor <;> linarith
  have v1 := hi.bounded p.nii.toNat p.nij.toNat (by omega) (by omega)
  have v2 := hi.bounded p.niip.toNat p.nij.toNat (by omega) (by omega)
  have v3 := hi.bounded p.nii.toNat p.nijp.toNat (by omega) (by omega)
  have v4 := hi.bounded p.niip.toNat p.nijp.toNat (by omega) (by omega)
  have a1 := abs_le.mp (masterPixelFl_near ho hM v1 v2 v3 v4 wd wdm we wem)
  have a2 := abs_le.mp (weights_near (d := img.val p.niip.toNat p.nijp.toNat) v1 v2 v3 wd we wem ds es w1)
  have ci : ((p.nii.toNat : ℕ) : ℝ) = (p.nii : ℝ) := by
    have : ((p.nii.toNat : ℕ) : ℤ) = p.nii := Int.toNat_of_nonneg i0
    exact_mod_cast this
  have cj : ((p.nij.toNat : ℕ) : ℝ) = (p.nij : ℝ) := by
    have : ((p.nij.toNat : ℕ) : ℤ) = p.nij := Int.toNat_of_nonneg j0
    exact_mod_cast this
  have low : ∀ {k : ℤ} {s z : ℝ}, -(1 / 2 ^ 19) ≤ s ∨ k = 0 → -t ≤ k + s - z → 0 ≤ z → -t ≤ s := by
    rintro k s z (h | rfl) h2 h3
    · norm_num at h; linarith
    · push_cast at h2; linarith
  have a3 := abs_le.mp (interp2_near (m := n - 1) (img := img.val) (k := p.nii.toNat) (k' := p.niip.toNat)
    (j := p.nij.toNat) (j' := p.nijp.toNat) (s := p.di) (s' := p.dj) (t := t) (y := y) (x := x) hD
    (fun r c h1 h2 => hi.rows r c (by omega) (by omega))
    (fun r c h1 h2 => hi.columns r c (by omega) (by omega)) (by omega)
    (by rcases hni.1 with h | h <;> omega) (by omega) (by rcases hnj.1 with h | h <;> omega) (by linarith)
    (low hni.2 hr1'.1 hy) (by linarith) (low hnj.2 hr2'.1 hx) (by linarith) (by linarith) (by linarith)
    (by rw [ci]; exact hr1) (by rw [cj]; exact hr2))
  have hu : 200 * ulp * M ≤ M / 2 ^ 42 := by
    have : 200 * ulp ≤ 1 / 2 ^ 42 := by unfold ulp; norm_num
    have := mul_le_mul_of_nonneg_right this (show 0 ≤ M by linarith)
    linarith
  have e4 : M / 2 ^ 40 = 4 * (M / 2 ^ 42) := by ring
  have hM0 : 0 ≤ M / 2 ^ 42 := by positivity
  rw [abs_le, e4]
  constructor <;> linarith

/-- Close to the equator both hemispheres have almost the same intensity. -/
theorem hemispheres_near {n : ℕ} (hn : 0 < n) {M D η : ℝ} (hD : 0 ≤ D) {upper lower : Img ℝ}
    (hup : SmoothImage n M D upper) (hlo : SmoothImage n M D lower) (hb : BordersMeet n upper lower)
    {u : V3 ℝ} (hu : u.IsUnit) (hz : |u.z| ≤ η) (hη : η ≤ 1 / 2) :
    |interp2 (n - 1) upper.val (masterRow n u) (masterColumn n u) -
      interp2 (n - 1) lower.val (masterRow n u) (masterColumn n u)| ≤ D * (n * η) := by
  have hn1 : (1 : ℝ) ≤ n := by exact_mod_cast hn
  have hη0 : 0 ≤ η := (abs_nonneg _).trans hz
  have hxy : u.x ≠ 0 ∨ u.y ≠ 0 := by
    by_contra hc
    push Not at hc
    unfold V3.IsUnit at hu
    rw [hc.1, hc.2] at hu
    have := abs_le.mp hz
    nlinarith
  -- a place on the border
  obtain ⟨yb, xb, hbd, hd⟩ : ∃ yb xb : ℝ, (yb = 0 ∨ yb = (n : ℝ) - 1 ∨ xb = 0 ∨ xb = (n : ℝ) - 1) ∧
      |yb - masterRow n u| + |xb - masterColumn n u| ≤ ((n : ℝ) - 1) / 2 * η := by
    rcases le_total |u.y| |u.x| with h | h
    · have x0 : u.x ≠ 0 := by
        intro h0
        rw [h0, abs_zero] at h
        exact hxy.elim (fun a => a h0) (fun a => a (abs_nonpos_iff.mp h))
      obtain ⟨e, he, h2⟩ := side_near h x0 hz (by linarith) hn
      refine ⟨masterRow n u, e, ?_, ?_⟩
      · rcases he with he | he
        · exact Or.inr (Or.inr (Or.inl he))
        · exact Or.inr (Or.inr (Or.inr he))
      · rw [sub_self, abs_zero, zero_add]
        exact h2
    · have y0 : u.y ≠ 0 := by
        intro h0
        rw [h0, abs_zero] at h
        exact hxy.elim (fun a => a (abs_nonpos_iff.mp h)) (fun a => a h0)
      obtain ⟨e, he, h2⟩ := side_near h y0 hz (by linarith) hn
      refine ⟨e, masterColumn n u, ?_, ?_⟩
      · rcases he with he | he
        · exact Or.inl he
        · exact Or.inr (Or.inl he)
      · rw [sub_self, abs_zero, add_zero]
        exact h2
  have l1 := interp2_lipschitz (m := n - 1) (img := upper.val) hD
    (fun r c h1 h2 => hup.rows r c (by omega) (by omega))
    (fun r c h1 h2 => hup.columns r c (by omega) (by omega)) (masterRow n u) (masterColumn n u) yb xb
  have l2 := interp2_lipschitz (m := n - 1) (img := lower.val) hD
    (fun r c h1 h2 => hlo.rows r c (by omega) (by omega))
    (fun r c h1 h2 => hlo.columns r c (by omega) (by omega)) (masterRow n u) (masterColumn n u) yb xb
  rw [interp2_border hn hb hbd] at l1
  rw [← mul_add] at l1 l2
  have l3 := mul_le_mul_of_nonneg_left hd hD
  have l4 : D * (((n : ℝ) - 1) / 2 * η) ≤ D * (n * η / 2) := mul_le_mul_of_nonneg_left (by nlinarith) hD
  rw [abs_le] at l1 l2 ⊢
  constructor <;> linarith

/-- Whatever the errors of a computed direction are, up to 2⁻²¹ in each component, the intensity of the
pixel is that of the exact direction up to the change of intensities over 13 times the error of the
place (C158), and up to rounding errors of intensities. -/
theorem C159_intensity {o : PixelOrders} (ho : AddsEveryPixelOnce o.sum) {atan : ℝ → ℝ}
    (hatan : AccurateArctan atan) (fused recip : Bool) {q : Quat} {dc u : V3 ℝ} {η : ℝ}
    (hu : u.x ^ 2 + u.y ^ 2 + u.z ^ 2 = 1)
    (hf : FloatDirection (rotateVectorFl q dc)) (hv : ComponentsWithin η (rotateVectorFl q dc) u)
    (hη : η ≤ 1 / 2 ^ 21) {n : ℕ} (hn : 0 < n) (hn31 : n < 2 ^ 31) {M D : ℝ} (hM : 1 ≤ M) (hD : 0 ≤ D)
    {upper lower : Img ℝ} (hup : SmoothImage n M D upper) (hlo : SmoothImage n M D lower)
    (hb : BordersMeet n upper lower) :
    ∃ a, projectPixelFl o atan fused recip q upper lower n n (((n : ℝ) - 1) / 2) dc = some a ∧
      |a - exactIntensity n upper lower u| ≤
        13 * D * (3 * n * Real.sqrt (η + 1 / 2 ^ 46) + 1 / 2 ^ 19) + M / 2 ^ 40 := by
  have h : u.IsUnit := hu
  obtain ⟨p, ep, ha, hr⟩ := C158_position hatan fused recip hu hf hv hη hn hn31
  obtain ⟨xy, e, hx, hy⟩ := vector2lambertFl_spec hatan fused recip hf
  have bi := lambert_position hn hn31 hy
  have bj := lambert_position hn hn31 hx
  have hp : p = interpAtFl (fl64 (fl64 (((n : ℝ) - 1) / 2 * xy.2) / sqrtPiHalfFl))
      (fl64 (fl64 (((n : ℝ) - 1) / 2 * xy.1) / sqrtPiHalfFl)) n n (((n : ℝ) - 1) / 2) := by
    unfold lambertInterpFl at ep
    rw [e] at ep
    exact (Option.some.inj ep).symm
  obtain ⟨hni, hnj⟩ := interpAtFl_neighbours hn hn31 bi bj hp
  have hw : Weights p := by rw [hp]; exact (C105_weights hn hn31 bi bj).1
  have n1 : (1 : ℝ) ≤ n := by exact_mod_cast hn
  have hη0 : 0 ≤ η := (abs_nonneg _).trans hv.1
  set r := Real.sqrt (η + 1 / 2 ^ 46) with hrr
  have r0 : 0 ≤ r := Real.sqrt_nonneg _
  set t := 3 * n * r + 1 / 2 ^ 19 with ht
  have htge : 1 / 2 ^ 19 ≤ t := by
    rw [ht]
    have : 0 ≤ 3 * n * r := by positivity
    linarith
  -- close to the equator
  have hηr : η ≤ r := by
    apply Real.le_sqrt_of_sq_le
    norm_num at hη ⊢
    nlinarith
  have hnη : n * η ≤ t := by
    have h1 : n * η ≤ n * r := mul_le_mul_of_nonneg_left hηr (by linarith)
    have h2 : 0 ≤ n * r := by positivity
    rw [ht]
    norm_num
    linarith
  have hDt := mul_le_mul_of_nonneg_left hnη hD
  have hDt0 : 0 ≤ D * t := le_trans (by positivity) hDt
  obtain ⟨⟨y0, y1⟩, x0, x1⟩ := place_in h hn
  have nu := abs_le.mp (pixel_near ho hn hM hD hup ha hw hni hnj htge hr y0 x0)
  have nl := abs_le.mp (pixel_near ho hn hM hD hlo ha hw hni hnj htge hr y0 x0)
  refine ⟨_, by unfold projectPixelFl; simp only; rw [ep]; rfl, ?_⟩
  unfold exactIntensity
  rw [bilinearAt_interp2 hn _ y0 y1 x0 x1, bilinearAt_interp2 hn _ y0 y1 x0 x1]
  have hvz := abs_le.mp hv.2.2
  have eq : 0 ≤ (rotateVectorFl q dc).z ∧ u.z < 0 ∨ (rotateVectorFl q dc).z < 0 ∧ 0 ≤ u.z →
      |u.z| ≤ η := by
    rintro (⟨h1, h2⟩ | ⟨h1, h2⟩) <;> rw [abs_le] <;> constructor <;> linarith
  have near : |u.z| ≤ η → _ := fun hz =>
    abs_le.mp (hemispheres_near hn hD hup hlo hb h hz (by norm_num at hη; linarith))
  by_cases c1 : 0 ≤ (rotateVectorFl q dc).z <;> by_cases c2 : 0 ≤ u.z
  · rw [if_pos c1, if_pos c2, abs_le]
    constructor <;> linarith
  · rw [if_pos c1, if_neg c2, abs_le]
    have := near (eq (Or.inl ⟨c1, not_le.mp c2⟩))
    constructor <;> linarith
  · rw [if_neg c1, if_pos c2, abs_le]
    have := near (eq (Or.inr ⟨not_le.mp c1, c2⟩))
    constructor <;> linarith
  · rw [if_neg c1, if_neg c2, abs_le]
    constructor <;> linarith

variable {d : Detector ℝ} {p : PC ℝ}

/-- From a detector and a master pattern to intensities: for every pixel of the screen and every
orientation of the crystal, with all directions, the orientation, weights and products rounded, the
intensity is the exact one up to the change of intensities over a fraction 13 · 2⁻¹⁶ (times the root of
one plus the size of the screen relative to its distance) of the width of the master pattern. -/
theorem C159_simulation (h : OrdinaryScreen d.nrows d.ncols p) {om R : Fin 3 → Fin 3 → ℝ}
    (hom : RoundedRotation om R) (o : DirectionOrders) (hdot : ∀ i, AddsEveryPixelOnce (o.dot i))
    (hnorm : AddsEveryPixelOnce o.norm) (r c : ℕ) (hr : r < d.nrows) (hc : c < d.ncols)
    {po : PixelOrders} (hpo : AddsEveryPixelOnce po.sum)
    {atan : ℝ → ℝ} (hatan : AccurateArctan atan) (fused recip : Bool) {q q0 : Quat}
    (hq0 : q0.a ^ 2 + q0.b ^ 2 + q0.c ^ 2 + q0.d ^ 2 = 1) (hq : QuatWithin (1 / 2 ^ 45) q q0) {n : ℕ}
    (hn : 0 < n) (hn31 : n < 2 ^ 31) {M D : ℝ} (hM : 1 ≤ M) (hD : 0 ≤ D) {upper lower : Img ℝ}
    (hup : SmoothImage n M D upper) (hlo : SmoothImage n M D lower) (hb : BordersMeet n upper lower) :
    ∃ w, d.pixelDirectionFl o p om r c = some w ∧
      ∃ a, projectPixelFl po atan fused recip q upper lower n n (((n : ℝ) - 1) / 2) ⟨w 0, w 1, w 2⟩ =
          some a ∧
        |a - exactIntensity n upper lower (exactDirection d.nrows d.ncols p R q0 r c)| ≤
          13 * D * (n / 2 ^ 16 * Real.sqrt (1 + screenAngle d.nrows d.ncols p) + 1 / 2 ^ 19) + M / 2 ^ 40 := by
  obtain ⟨w, ew, hfd, htot, uU, hA0, hA1⟩ := simulated_direction h hom o hdot hnorm r c hr hc hq0 hq
  refine ⟨w, ew, ?_⟩
  obtain ⟨a, ea, hle⟩ := C159_intensity hpo hatan fused recip uU hfd htot (by norm_num; linarith) hn hn31 hM hD
    hup hlo hb
  refine ⟨a, ea, hle.trans ?_⟩
  have := mul_le_mul_of_nonneg_left (simulated_error hA0 n) (show 0 ≤ 13 * D by linarith)
  linarith

theorem exactIntensity_le {n : ℕ} (hn : 0 < n) {M D : ℝ} {upper lower : Img ℝ} (hup : SmoothImage n M D upper)
    (hlo : SmoothImage n M D lower) {u : V3 ℝ} (h : u.IsUnit) : |exactIntensity n upper lower u| ≤ M := by
  obtain ⟨⟨y0, y1⟩, x0, x1⟩ := place_in h hn
  unfold exactIntensity
  rw [bilinearAt_interp2 hn _ y0 y1 x0 x1, bilinearAt_interp2 hn _ y0 y1 x0 x1]
  split_ifs
  · exact interp1_abs_le (fun r hr => interp1_abs_le (fun c hc => hup.bounded r c (by omega) (by omega)) _) _
  · exact interp1_abs_le (fun r hr => interp1_abs_le (fun c hc => hlo.bounded r c (by omega) (by omega)) _) _

theorem metric_fl_error (t : MetricType) (x : ℝ) :
    |t.fl x - x| ≤ unitRoundoff t * |x| + 1 / 2 ^ 100 := by
  have h := binaryRound_abs_error t.digits t.emin x
  refine h.trans (add_le_add le_rfl ?_)
  rw [show (1 : ℝ) / 2 ^ 100 = 2 ^ (-100 : ℤ) by rw [zpow_neg, one_div]; rfl]
  cases t <;> exact zpow_le_zpow_right₀ (by norm_num) (by decide)

/-- The same for patterns of 32-bit or 64-bit floating point numbers, which are not rescaled: the last
rounding adds a relative error of these numbers. -/
theorem C159_pattern (t : MetricType) (h : OrdinaryScreen d.nrows d.ncols p) {om R : Fin 3 → Fin 3 → ℝ}
    (hom : RoundedRotation om R) (o : DirectionOrders) (hdot : ∀ i, AddsEveryPixelOnce (o.dot i))
    (hnorm : AddsEveryPixelOnce o.norm) (r c : ℕ) (hr : r < d.nrows) (hc : c < d.ncols)
    {po : PixelOrders} (hpo : AddsEveryPixelOnce po.sum)
    {atan : ℝ → ℝ} (hatan : AccurateArctan atan) (fused recip : Bool) {q q0 : Quat}
    (hq0 : q0.a ^ 2 + q0.b ^ 2 + q0.c ^ 2 + q0.d ^ 2 = 1) (hq : QuatWithin (1 / 2 ^ 45) q q0) {n : ℕ}
    (hn : 0 < n) (hn31 : n < 2 ^ 31) {M D : ℝ} (hM : 1 ≤ M) (hD : 0 ≤ D) {upper lower : Img ℝ}
    (hup : SmoothImage n M D upper) (hlo : SmoothImage n M D lower) (hb : BordersMeet n upper lower) :
    ∃ w, d.pixelDirectionFl o p om r c = some w ∧
      ∃ a, projectPixelAs t po atan fused recip q upper lower n n (((n : ℝ) - 1) / 2) ⟨w 0, w 1, w 2⟩ =
          some a ∧
        |a - exactIntensity n upper lower (exactDirection d.nrows d.ncols p R q0 r c)| ≤
          14 * D * (n / 2 ^ 16 * Real.sqrt (1 + screenAngle d.nrows d.ncols p) + 1 / 2 ^ 19) + M / 2 ^ 39 +
            unitRoundoff t * M := by
  obtain ⟨w, ew, hfd, htot, uU, hA0, hA1⟩ := simulated_direction h hom o hdot hnorm r c hr hc hq0 hq
  obtain ⟨w', ew', a, ea, hle⟩ := C159_simulation h hom o hdot hnorm r c hr hc hpo hatan fused recip hq0 hq hn
    hn31 hM hD hup hlo hb
  obtain rfl : w = w' := by rw [ew] at ew'; exact Option.some.inj ew'
  refine ⟨w, ew, t.fl a, by unfold projectPixelAs; rw [ea]; rfl, ?_⟩
  have hx := exactIntensity_le hn hup hlo uU
  set x := exactIntensity n upper lower (exactDirection d.nrows d.ncols p R q0 r c)
  set T := n / 2 ^ 16 * Real.sqrt (1 + screenAngle d.nrows d.ncols p) + 1 / 2 ^ 19
  have hT : 0 ≤ D * T := mul_nonneg hD (by positivity)
  have hu0 : 0 ≤ unitRoundoff t := by unfold unitRoundoff; positivity
  have hu : unitRoundoff t ≤ 1 / 2 ^ 20 := by
    unfold unitRoundoff
    rw [show (1 : ℝ) / 2 ^ 20 = 2 ^ (-20 : ℤ) by rw [zpow_neg, one_div]; rfl]
    cases t <;> exact zpow_le_zpow_right₀ (by norm_num) (by decide)
  have ha : |a| ≤ M + (13 * D * T + M / 2 ^ 40) := by
    rw [abs_le] at hx hle ⊢
    constructor <;> linarith
  have e := metric_fl_error t a
  have e1 := mul_le_mul_of_nonneg_left ha hu0
  have e2 : unitRoundoff t * (13 * D * T + M / 2 ^ 40) ≤ 1 / 2 ^ 20 * (13 * D * T + M / 2 ^ 40) :=
    mul_le_mul_of_nonneg_right hu (by
      have : 0 ≤ M / 2 ^ 40 := by positivity
      linarith)
  rw [abs_le] at e hle ⊢
  norm_num at e e2 hle ⊢
  constructor <;> linarith

/-- Intensities increasing along columns and rows, with the same border: the hypotheses are met by
hemispheres which differ. -/
example : ∃ upper lower : Img ℝ, SmoothImage 1001 3000 3 upper ∧ SmoothImage 1001 3000 3 lower ∧
    BordersMeet 1001 upper lower ∧ upper.val 500 500 ≠ lower.val 500 500 ∧
    upper.val 500 501 ≠ upper.val 500 500 := by
  refine ⟨⟨1001, 1001, fun r c => r + 2 * c⟩,
    ⟨1001, 1001, fun r c => r + 2 * c - if r = 500 ∧ c = 500 then (1 / 2 : ℝ) else 0⟩, ?_, ?_, ?_, ?_, ?_⟩
  · have key : ∀ r : ℕ, r < 1001 → (r : ℝ) ≤ 1000 := fun r hr => by
      have : r ≤ 1000 := by omega
      exact_mod_cast this
    refine ⟨fun r c hr hc => ?_, fun r c _ _ => ?_, fun r c _ _ => ?_⟩
    · have := key r hr
      have := key c hc
      rw [abs_of_nonneg (by positivity)]
      simp only
      linarith
    · simp only
      push_cast
      rw [abs_le]
      constructor <;> linarith
    · simp only
      push_cast
      rw [abs_le]
      constructor <;> linarith
  · have key : ∀ r : ℕ, r < 1001 → (r : ℝ) ≤ 1000 := fun r hr => by
      have : r ≤ 1000 := by omega
      exact_mod_cast this
    refine ⟨fun r c hr hc => ?_, fun r c _ _ => ?_, fun r c _ _ => ?_⟩
    · have := key r hr
      have := key c hc
      have : (0 : ℝ) ≤ r := by positivity
      have : (0 : ℝ) ≤ c := by positivity
      simp only
      split_ifs <;> rw [abs_le] <;> constructor <;> linarith
    · simp only
      push_cast
      split_ifs <;> rw [abs_le] <;> constructor <;> linarith
    · simp only
      push_cast
      split_ifs <;> rw [abs_le] <;> constructor <;> linarith
  · intro r c _ _ hb
    simp only
    rw [if_neg (by omega), sub_zero]
  · norm_num
  · norm_num

/-- A rounded direction rotated by an orientation not about any axis meets the hypotheses, and the
theorem says where its intensity is. -/
example {upper lower : Img ℝ} (hup : SmoothImage 1001 3000 3 upper) (hlo : SmoothImage 1001 3000 3 lower)
    (hb : BordersMeet 1001 upper lower) :
    ∃ a, projectPixelFl .asWritten Real.arctan false false ⟨1 / 2, 1 / 2, -1 / 2, 1 / 2⟩ upper lower (1001 : ℕ)
        (1001 : ℕ) (((1001 : ℕ) - 1) / 2) ⟨fl64 (2 / 3), fl64 (1 / 3), fl64 (-2 / 3)⟩ = some a ∧
      |a - exactIntensity 1001 upper lower
          (rotateVector ⟨1 / 2, 1 / 2, -1 / 2, 1 / 2⟩ ⟨2 / 3, 1 / 3, -2 / 3⟩)| ≤
        13 * 3 * (3 * (1001 : ℕ) * Real.sqrt (1 / 2 ^ 39 + 1 / 2 ^ 46) + 1 / 2 ^ 19) + 3000 / 2 ^ 40 := by
  have h1 := fl64_near (x := 2 / 3) (by norm_num [abs_le])
  have h2 := fl64_near (x := 1 / 3) (by norm_num [abs_le])
  have h3 := fl64_near (x := -2 / 3) (by norm_num [abs_le])
  have hw : ComponentsWithin (1 / 2 ^ 50) ⟨fl64 (2 / 3), fl64 (1 / 3), fl64 (-2 / 3)⟩
      ⟨2 / 3, 1 / 3, -2 / 3⟩ := ⟨h1, h2, h3⟩
  have hu : V3.IsUnit ⟨2 / 3, 1 / 3, -2 / 3⟩ := by norm_num [V3.IsUnit]
  have hq : QuatWithin (1 / 2 ^ 45) ⟨1 / 2, 1 / 2, -1 / 2, 1 / 2⟩ ⟨1 / 2, 1 / 2, -1 / 2, 1 / 2⟩ := by
    unfold QuatWithin
    norm_num
  have hq1 : (⟨1 / 2, 1 / 2, -1 / 2, 1 / 2⟩ : Quat).a ^ 2 + (⟨1 / 2, 1 / 2, -1 / 2, 1 / 2⟩ : Quat).b ^ 2 +
      (⟨1 / 2, 1 / 2, -1 / 2, 1 / 2⟩ : Quat).c ^ 2 + (⟨1 / 2, 1 / 2, -1 / 2, 1 / 2⟩ : Quat).d ^ 2 = 1 := by
    norm_num
  have hl : NearUnit (fl64 (2 / 3) ^ 2 + fl64 (1 / 3) ^ 2 + fl64 (-2 / 3) ^ 2) :=
    (lengthSq_error hu hw (by norm_num)).trans (by norm_num)
  rw [abs_le] at h1 h2 h3
  norm_num at h1 h2 h3
  obtain ⟨rx, ry, rz⟩ := C105_rotation_error (q := ⟨1 / 2, 1 / 2, -1 / 2, 1 / 2⟩)
    (v := ⟨fl64 (2 / 3), fl64 (1 / 3), fl64 (-2 / 3)⟩) (by norm_num [abs_le]) (by norm_num [abs_le])
    (by norm_num [abs_le]) (by norm_num [abs_le]) (by norm_num [abs_le]; constructor <;> linarith)
    (by norm_num [abs_le]; constructor <;> linarith) (by norm_num [abs_le]; constructor <;> linarith)
  obtain ⟨fx, fy, fz⟩ := rotateVectorFl_float ⟨1 / 2, 1 / 2, -1 / 2, 1 / 2⟩
    ⟨fl64 (2 / 3), fl64 (1 / 3), fl64 (-2 / 3)⟩
  have hfd := C105_rotated_any (q := ⟨1 / 2, 1 / 2, -1 / 2, 1 / 2⟩)
    (v := ⟨fl64 (2 / 3), fl64 (1 / 3), fl64 (-2 / 3)⟩) (by unfold NearUnit; norm_num) hl fx fy fz rx ry rz
  obtain ⟨tx, ty, tz⟩ := rotateVector_near hq hq1 (by norm_num) hw hu (by norm_num)
  have add : ∀ {x y z : ℝ}, |x - y| ≤ 1 / 2 ^ 40 → |y - z| ≤ 31 * (1 / 2 ^ 45) + 3 * (1 / 2 ^ 50) →
      |x - z| ≤ 1 / 2 ^ 39 := by
    intro x y z h1 h2
    rw [abs_le] at h1 h2 ⊢
    norm_num at h1 h2 ⊢
    constructor <;> linarith
  have ho : AddsEveryPixelOnce PixelOrders.asWritten.sum := by
    unfold AddsEveryPixelOnce
    rw [List.perm_ext_iff_of_nodup (by decide) (Finset.nodup_toList _)]
    intro i
    fin_cases i <;> simp [PixelOrders.asWritten, SumOrder.pixels]
  have ha : AccurateArctan Real.arctan := fun q _ => by rw [sub_self, abs_zero]; positivity
  exact C159_intensity ho ha false false (rotateVector_isUnit hq1 hu) hfd ⟨add rx tx, add ry ty, add rz tz⟩
    (by norm_num) (n := 1001) (by norm_num) (by norm_num) (by norm_num) (by norm_num) hup hlo hb

end Kp
