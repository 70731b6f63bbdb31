import Verif.Lemmas.FitPc

/-
C76: fitting a plane to projection centers in a sample plane gives the projection centers and tilt
of that plane.
-/

namespace Kp
set_option linter.unusedSectionVars false
noncomputable section

theorem mem_inliers_of_zip {α β : Type} (o : Option (List Bool)) (l : List α) (m : List β)
    (hl : l.length = m.length) (ho : (o.map List.length).getD l.length = l.length) (a : α)
    (ha : a ∈ inliers o l) : ∃ b, (a, b) ∈ (inliers o l).zip (inliers o m) := by
  have hlen : (inliers o l).length = (inliers o m).length := by
    cases o with
    | none => simpa [inliers] using hl
    | some o =>
      clear ha ho
      simp only [inliers]
      induction l generalizing m o with
      | nil => cases m with
        | nil => simp
        | cons b m => simp at hl
      | cons a l ih => cases m with
        | nil => simp at hl
        | cons b m => cases o with
          | nil => simp
          | cons c o =>
            have := ih m (by simpa using hl) o
            cases c <;> simp [this]
  obtain ⟨k, hk, rfl⟩ := List.mem_iff_getElem.mp ha
  exact ⟨(inliers o m)[k]'(hlen ▸ hk), List.mem_iff_getElem.mpr ⟨k, by simp [← hlen, hk], by simp⟩⟩

theorem inliers_map {α β : Type} (o : Option (List Bool)) (f : α → β) (l : List α) :
    inliers o (l.map f) = (inliers o l).map f := by
  cases o with
  | none => rfl
  | some o =>
    simp only [inliers]
    induction l generalizing o with
    | nil => simp
    | cons a l ih => cases o with
      | nil => simp
      | cons c o =>
        have := ih o
        cases c <;> simp [this]

theorem inliers_subset {α : Type} (o : Option (List Bool)) (l : List α) (a : α)
    (h : a ∈ inliers o l) : a ∈ l := by
  cases o with
  | none => exact h
  | some o =>
    simp only [inliers, List.mem_filterMap] at h
    obtain ⟨⟨x, c⟩, hx, hc⟩ := h
    cases c <;> simp at hc
    subst hc
    exact (List.of_mem_zip hx).1

/-- C76 (affine fit): if the PCs of a detector which are not outliers are an affine function `B` of
the map position, and three of their positions are not on a line, then `fit_pc` with the affine
transformation, whichever least squares solution it finds, gives exactly the PCs of that function
in all map positions. Outliers have no influence. -/
theorem C76_affine_fit (d : Detector ℝ) (pcIdx mapIdx : List (ℝ × ℝ)) (o : Option (List Bool))
    (lstsq : List ((ℝ × ℝ) × PC ℝ) → AffineFit) (B : AffineFit) (d' : Detector ℝ)
    (hls : IsLeastSquares (lstsq ((inliers o pcIdx).zip (inliers o d.pc)))
      ((inliers o pcIdx).zip (inliers o d.pc)))
    (hB : ∀ x ∈ (inliers o pcIdx).zip (inliers o d.pc), x.2 = B.at x.1)
    (p q r : ℝ × ℝ) (hp : p ∈ inliers o pcIdx) (hq : q ∈ inliers o pcIdx)
    (hr : r ∈ inliers o pcIdx) (hn : NotCollinear p q r)
    (h : d.fitPcAffine pcIdx mapIdx o lstsq = .ok d') :
    d'.pc = mapIdx.map B.at ∧
      { d' with pc := d.pc, nav := d.nav, sampleTilt := d.sampleTilt } = d := by
  unfold Detector.fitPcAffine at h
  split at h
  · exact absurd h (by simp)
  split at h
  · exact absurd h (by simp)
  rename_i h2
  split at h
  · exact absurd h (by simp)
  rename_i h3
  push Not at h2 h3
  rw [← h2] at h3
  have hall := leastSquares_exact _ B _ hls hB
  have key : ∀ s, (lstsq ((inliers o pcIdx).zip (inliers o d.pc))).at s = B.at s := by
    obtain ⟨p', hp'⟩ := mem_inliers_of_zip o pcIdx d.pc h2 h3 p hp
    obtain ⟨q', hq'⟩ := mem_inliers_of_zip o pcIdx d.pc h2 h3 q hq
    obtain ⟨r', hr'⟩ := mem_inliers_of_zip o pcIdx d.pc h2 h3 r hr
    exact affine_unique _ B p q r hn (hall _ hp') (hall _ hq') (hall _ hr')
  simp only at h
  split at h
  · exact absurd h (by simp)
  · injection h with h
    subst h
    exact ⟨List.map_congr_left fun s _ => key s, rfl⟩

/-- The projection center of a map position (row, column) on a sample plane which makes an angle of
`90 - sample tilt + tilt` degrees with the detector: `mean` is the PC in map position `pos`, `dy` and
`dx` are the step sizes, and PCs are fractions of the detector size. -/
def planePc (d : Detector ℝ) (dy dx : ℝ) (mean : PC ℝ) (pos : ℤ × ℤ) (ij : ℕ × ℕ) : PC ℝ :=
  let angle := (90 - d.sampleTilt + d.tilt) * (Real.pi / 180)
  let down := ((ij.1 : ℝ) - pos.1) * dy
  let right := ((ij.2 : ℝ) - pos.2) * dx
  ⟨mean.x - right / (d.ncols * (d.pxSize * d.binning)),
    mean.y - down * Real.cos angle / (d.nrows * (d.pxSize * d.binning)),
    mean.z + down * Real.sin angle / (d.nrows * (d.pxSize * d.binning))⟩

/-- This is the PC `extrapolate_pc` computes with the detector's own geometry. -/
theorem planePc_eq (d : Detector ℝ) (dy dx : ℝ) (mean : PC ℝ) (pos : ℤ × ℤ) (ij : ℕ × ℕ) :
    planePc d dy dx mean pos ij = extrapolatedPc d.nrows d.ncols d.pxSize d.binning
      (Real.cos (deg2radR (90 - d.sampleTilt + d.tilt)))
      (Real.sin (deg2radR (90 - d.sampleTilt + d.tilt))) dy dx mean pos ij.1 ij.2 := by
  simp only [planePc, extrapolatedPc, deg2radR]
  apply PC.ext <;> simp only <;> ring

/-- Map position as real numbers. -/
def posR (ij : ℕ × ℕ) : ℝ × ℝ := (ij.1, ij.2)

/-- A detector with some size, tilted relative to the sample by more than 0 and less than 180
degrees. -/
structure TiltedDetector (d : Detector ℝ) : Prop where
  rows : 0 < d.nrows
  cols : 0 < d.ncols
  px : d.pxSize ≠ 0
  bin : d.binning ≠ 0
  lower : 0 < 90 - d.sampleTilt + d.tilt
  upper : 90 - d.sampleTilt + d.tilt < 180

theorem TiltedDetector.angle {d : Detector ℝ} (h : TiltedDetector d) :
    0 < deg2radR (90 - d.sampleTilt + d.tilt) ∧ deg2radR (90 - d.sampleTilt + d.tilt) < Real.pi := by
  unfold deg2radR
  have hp := Real.pi_pos
  have h1 := h.lower
  have h2 := h.upper
  constructor
  · positivity
  · have : (90 - d.sampleTilt + d.tilt) * (Real.pi / 180) < 180 * (Real.pi / 180) :=
      mul_lt_mul_of_pos_right h2 (by positivity)
    linarith

/-- `planePc` as an affine function. -/
def planeFit (d : Detector ℝ) (dy dx : ℝ) (mean : PC ℝ) (pos : ℤ × ℤ) : AffineFit :=
  let ca := Real.cos (deg2radR (90 - d.sampleTilt + d.tilt))
  let sa := Real.sin (deg2radR (90 - d.sampleTilt + d.tilt))
  let f := d.pxSize * d.binning
  { row := ⟨0, -dy * ca / (f * d.nrows), dy * sa / (f * d.nrows)⟩
    col := ⟨-dx / (f * d.ncols), 0, 0⟩
    const := ⟨mean.x + pos.2 * dx / (f * d.ncols), mean.y + pos.1 * dy * ca / (f * d.nrows),
      mean.z - pos.1 * dy * sa / (f * d.nrows)⟩ }

theorem planeFit_at (d : Detector ℝ) (dy dx : ℝ) (mean : PC ℝ) (pos : ℤ × ℤ) (ij : ℕ × ℕ) :
    (planeFit d dy dx mean pos).at (posR ij) = planePc d dy dx mean pos ij := by
  simp only [planeFit, AffineFit.at, posR, planePc_eq, extrapolatedPc]
  apply PC.ext <;> simp only <;> ring

/-- PCy is a line in PCz of slope `-cot α`. -/
theorem planePc_line (d : Detector ℝ) (hd : TiltedDetector d) (dy dx : ℝ)
    (mean : PC ℝ) (pos : ℤ × ℤ) (ij : ℕ × ℕ) :
    (planePc d dy dx mean pos ij).y =
      (mean.y + Real.cos (deg2radR (90 - d.sampleTilt + d.tilt)) /
        Real.sin (deg2radR (90 - d.sampleTilt + d.tilt)) * mean.z) +
      -(Real.cos (deg2radR (90 - d.sampleTilt + d.tilt)) /
        Real.sin (deg2radR (90 - d.sampleTilt + d.tilt))) * (planePc d dy dx mean pos ij).z := by
  have hs := Real.sin_pos_of_pos_of_lt_pi hd.angle.1 hd.angle.2
  have hr : (d.nrows : ℝ) ≠ 0 := by have := hd.rows; positivity
  have hp := hd.px
  have hb := hd.bin
  simp only [planePc_eq, extrapolatedPc]
  field_simp
  ring

theorem planePc_z_ne (d : Detector ℝ) (hd : TiltedDetector d) (dy dx : ℝ) (hdy : dy ≠ 0)
    (mean : PC ℝ) (pos : ℤ × ℤ) (a b : ℕ × ℕ) (hab : a.1 ≠ b.1) :
    (planePc d dy dx mean pos a).z ≠ (planePc d dy dx mean pos b).z := by
  have hs := Real.sin_pos_of_pos_of_lt_pi hd.angle.1 hd.angle.2
  have hr : (d.nrows : ℝ) ≠ 0 := by have := hd.rows; positivity
  have hp := hd.px
  have hb := hd.bin
  intro h
  simp only [planePc_eq, extrapolatedPc] at h
  have h' : ((pos.1 : ℝ) - a.1) * dy * Real.sin (deg2radR (90 - d.sampleTilt + d.tilt)) /
      (d.pxSize * d.binning * d.nrows) = ((pos.1 : ℝ) - b.1) * dy *
      Real.sin (deg2radR (90 - d.sampleTilt + d.tilt)) / (d.pxSize * d.binning * d.nrows) := by
    linarith
  have hD : d.pxSize * d.binning * (d.nrows : ℝ) ≠ 0 := by simp [hp, hb, hr]
  rw [div_left_inj' hD] at h'
  have h2 := mul_right_cancel₀ (ne_of_gt hs) h'
  have h3 := mul_right_cancel₀ hdy h2
  apply hab
  have : (a.1 : ℝ) = b.1 := by linarith
  exact_mod_cast this

theorem rad2deg_deg2radR (x : ℝ) : rad2deg (deg2radR x) = x := by
  unfold rad2deg deg2radR
  have := Real.pi_ne_zero
  field_simp

/-- What `fit_pc` gives for PCs on a sample plane: the PCs of the plane, and the sample tilt minus
twice the detector tilt. -/
theorem fit_plane_tilt (d : Detector ℝ) (hd : TiltedDetector d) (dy dx : ℝ) (hdy : dy ≠ 0)
    (mean : PC ℝ) (pos : ℤ × ℤ) (pcIdx mapIdx : List (ℕ × ℕ)) (o : Option (List Bool))
    (lstsq : List ((ℝ × ℝ) × PC ℝ) → AffineFit) (hls : IsLeastSquares (lstsq ((inliers o (pcIdx.map posR)).zip (inliers o d.pc)))
      ((inliers o (pcIdx.map posR)).zip (inliers o d.pc)))
    (hlen : pcIdx.length = d.pc.length)
    (hol : (o.map List.length).getD d.pc.length = d.pc.length)
    (hpc : ∀ x ∈ (inliers o pcIdx).zip (inliers o d.pc), x.2 = planePc d dy dx mean pos x.1)
    (p q r : ℕ × ℕ) (hp : p ∈ inliers o pcIdx) (hq : q ∈ inliers o pcIdx)
    (hr : r ∈ inliers o pcIdx) (hn : NotCollinear (posR p) (posR q) (posR r)) :
    ∃ d', d.fitPcAffine (pcIdx.map posR) (mapIdx.map posR) o lstsq = .ok d' ∧
      d'.pc = mapIdx.map (planePc d dy dx mean pos) ∧
      { d' with pc := d.pc, nav := d.nav, sampleTilt := d.sampleTilt } = d ∧
      d'.sampleTilt = d.sampleTilt - 2 * d.tilt := by
  have hin : ∀ l : List (ℕ × ℕ), inliers o (l.map posR) = (inliers o l).map posR := inliers_map o posR
  have hB : ∀ x ∈ (inliers o (pcIdx.map posR)).zip (inliers o d.pc),
      x.2 = (planeFit d dy dx mean pos).at x.1 := by
    intro x hx
    rw [hin, List.zip_map_left] at hx
    obtain ⟨y, hy, rfl⟩ := List.mem_map.mp hx
    simp only [Prod.map, id]
    rw [planeFit_at]
    exact hpc y hy
  have hall := leastSquares_exact _ _ _ hls hB
  have hl' : (pcIdx.map posR).length = d.pc.length := by simpa using hlen
  have hpr : ∀ a ∈ inliers o pcIdx, (lstsq ((inliers o (pcIdx.map posR)).zip (inliers o d.pc))).at
      (posR a) = (planeFit d dy dx mean pos).at (posR a) := by
    intro a ha
    obtain ⟨b, hb⟩ := mem_inliers_of_zip o (pcIdx.map posR) d.pc hl' (by rw [hl']; exact hol) (posR a)
      (by rw [hin]; exact List.mem_map_of_mem ha)
    exact hall _ hb
  have key := affine_unique _ _ (posR p) (posR q) (posR r) hn (hpr p hp) (hpr q hq) (hpr r hr)
  have h1 : d.pc.length ≠ 1 := by
    intro h1
    rw [h1] at hlen
    obtain ⟨a, rfl⟩ := List.length_eq_one_iff.mp hlen
    have : ∀ b ∈ inliers o [a], b = a := by
      intro b hb
      have := inliers_subset o [a] b hb
      simpa using this
    apply hn
    rw [this p hp, this q hq, this r hr]
    ring
  have hfit : ((inliers o (pcIdx.map posR)).map
      (lstsq ((inliers o (pcIdx.map posR)).zip (inliers o d.pc))).at) =
      (inliers o pcIdx).map (planePc d dy dx mean pos) := by
    rw [hin, List.map_map]
    refine List.map_congr_left fun a _ => ?_
    simp only [Function.comp]
    rw [← hin, key, planeFit_at]
  have hz : ¬ ∀ a ∈ (inliers o pcIdx).map fun a => (planePc d dy dx mean pos a).z,
      ∀ b ∈ (inliers o pcIdx).map fun a => (planePc d dy dx mean pos a).z, a = b := by
    intro hz
    have same : ∀ a ∈ inliers o pcIdx, ∀ b ∈ inliers o pcIdx, a.1 = b.1 := by
      intro a ha b hb
      by_contra hne
      exact planePc_z_ne d hd dy dx hdy mean pos a b hne
        (hz _ (List.mem_map_of_mem ha) _ (List.mem_map_of_mem hb))
    apply hn
    simp only [posR]
    rw [same p hp r hr, same q hq r hr]
    ring
  have hreg := linregress_affine (mean.y + Real.cos (deg2radR (90 - d.sampleTilt + d.tilt)) /
        Real.sin (deg2radR (90 - d.sampleTilt + d.tilt)) * mean.z)
      (-(Real.cos (deg2radR (90 - d.sampleTilt + d.tilt)) /
        Real.sin (deg2radR (90 - d.sampleTilt + d.tilt))))
      ((inliers o pcIdx).map fun a => (planePc d dy dx mean pos a).z) hz
  rw [List.map_map] at hreg
  have hy : ((inliers o pcIdx).map fun a => (planePc d dy dx mean pos a).y) =
      (inliers o pcIdx).map ((fun x => mean.y + Real.cos (deg2radR (90 - d.sampleTilt + d.tilt)) /
        Real.sin (deg2radR (90 - d.sampleTilt + d.tilt)) * mean.z +
      -(Real.cos (deg2radR (90 - d.sampleTilt + d.tilt)) /
        Real.sin (deg2radR (90 - d.sampleTilt + d.tilt))) * x) ∘
        fun a => (planePc d dy dx mean pos a).z) :=
    List.map_congr_left fun a _ => planePc_line d hd dy dx mean pos a
  rw [← hy] at hreg
  unfold Detector.fitPcAffine
  rw [if_neg h1, if_neg (by simpa using hl'), if_neg (by simpa using hol)]
  simp only [hfit, List.map_map, Function.comp_def, hreg]
  refine ⟨_, rfl, ?_, rfl, ?_⟩
  · exact List.map_congr_left fun a _ => by rw [key, planeFit_at]
  · simp only [tilt_of_slope _ hd.angle.1 hd.angle.2, rad2deg_deg2radR]
    ring

/-- C76 (map plane): if the PCs of a detector which are not outliers lie on the sample plane the
detector describes, in map positions not all on one line, and the detector is not tilted, then
`fit_pc` returns a detector with the PCs of that plane in all map positions and the same sample
tilt; nothing else is changed. -/
theorem C76_map_plane_partial (d : Detector ℝ) (hd : TiltedDetector d) (htilt : d.tilt = 0)
    (dy dx : ℝ) (hdy : dy ≠ 0) (mean : PC ℝ) (pos : ℤ × ℤ) (pcIdx mapIdx : List (ℕ × ℕ))
    (o : Option (List Bool)) (lstsq : List ((ℝ × ℝ) × PC ℝ) → AffineFit)
    (hls : IsLeastSquares (lstsq ((inliers o (pcIdx.map posR)).zip (inliers o d.pc)))
      ((inliers o (pcIdx.map posR)).zip (inliers o d.pc))) (hlen : pcIdx.length = d.pc.length)
    (hol : (o.map List.length).getD d.pc.length = d.pc.length)
    (hpc : ∀ x ∈ (inliers o pcIdx).zip (inliers o d.pc), x.2 = planePc d dy dx mean pos x.1)
    (p q r : ℕ × ℕ) (hp : p ∈ inliers o pcIdx) (hq : q ∈ inliers o pcIdx)
    (hr : r ∈ inliers o pcIdx) (hn : NotCollinear (posR p) (posR q) (posR r)) :
    d.fitPcAffine (pcIdx.map posR) (mapIdx.map posR) o lstsq =
      .ok { d with nav := [mapIdx.length], pc := mapIdx.map (planePc d dy dx mean pos) } := by
  obtain ⟨d', h, hpc', hrest, hst⟩ := fit_plane_tilt d hd dy dx hdy mean pos pcIdx mapIdx o lstsq hls
    hlen hol hpc p q r hp hq hr hn
  rw [h]
  have hnav : d'.nav = [mapIdx.length] := by
    unfold Detector.fitPcAffine at h
    split at h
    · exact absurd h (by simp)
    split at h
    · exact absurd h (by simp)
    split at h
    · exact absurd h (by simp)
    simp only at h
    split at h
    · exact absurd h (by simp)
    · injection h with h
      subst h
      simp
  rw [htilt] at hst
  obtain ⟨nr, nc, px, bin, tilt, az, tw, st, nav, pc⟩ := d
  obtain ⟨nr', nc', px', bin', tilt', az', tw', st', nav', pc'⟩ := d'
  simp only [Detector.mk.injEq] at hrest ⊢
  simp_all

/-- C76 (violation): with a tilted detector, the sample tilt of the fitted detector is off by twice
the detector tilt: the sign of the detector tilt in `fit_pc` is opposite to the one in
`extrapolate_pc`. -/
theorem C76_detector_tilt_violated (d : Detector ℝ) (hd : TiltedDetector d) (htilt : d.tilt ≠ 0)
    (dy dx : ℝ) (hdy : dy ≠ 0) (mean : PC ℝ) (pos : ℤ × ℤ) (pcIdx mapIdx : List (ℕ × ℕ))
    (o : Option (List Bool)) (lstsq : List ((ℝ × ℝ) × PC ℝ) → AffineFit)
    (hls : IsLeastSquares (lstsq ((inliers o (pcIdx.map posR)).zip (inliers o d.pc)))
      ((inliers o (pcIdx.map posR)).zip (inliers o d.pc))) (hlen : pcIdx.length = d.pc.length)
    (hol : (o.map List.length).getD d.pc.length = d.pc.length)
    (hpc : ∀ x ∈ (inliers o pcIdx).zip (inliers o d.pc), x.2 = planePc d dy dx mean pos x.1)
    (p q r : ℕ × ℕ) (hp : p ∈ inliers o pcIdx) (hq : q ∈ inliers o pcIdx)
    (hr : r ∈ inliers o pcIdx) (hn : NotCollinear (posR p) (posR q) (posR r)) :
    ∃ d', d.fitPcAffine (pcIdx.map posR) (mapIdx.map posR) o lstsq = .ok d' ∧
      d'.sampleTilt = d.sampleTilt - 2 * d.tilt ∧ d'.sampleTilt ≠ d.sampleTilt := by
  obtain ⟨d', h, _, _, hst⟩ := fit_plane_tilt d hd dy dx hdy mean pos pcIdx mapIdx o lstsq hls
    hlen hol hpc p q r hp hq hr hn
  refine ⟨d', h, hst, ?_⟩
  rw [hst]
  intro e
  apply htilt
  linarith

/-- C76 (tilt about the detector x axis): `estimate_xtilt` returns the angle between the detector and
the sample plane if the PCs lie on that plane and not all on one map row. -/
theorem C76_estimate_xtilt (d : Detector ℝ) (hd : TiltedDetector d) (dy dx : ℝ) (hdy : dy ≠ 0)
    (mean : PC ℝ) (pos : ℤ × ℤ) (pcIdx : List (ℕ × ℕ))
    (hpc : d.pc = pcIdx.map (planePc d dy dx mean pos)) (p q : ℕ × ℕ) (hp : p ∈ pcIdx)
    (hq : q ∈ pcIdx) (hpq : p.1 ≠ q.1) :
    d.estimateXtilt = .ok (deg2radR (90 - d.sampleTilt + d.tilt)) := by
  have hz : ¬ ∀ a ∈ pcIdx.map fun a => (planePc d dy dx mean pos a).z,
      ∀ b ∈ pcIdx.map fun a => (planePc d dy dx mean pos a).z, a = b := by
    intro hz
    exact planePc_z_ne d hd dy dx hdy mean pos p q hpq
      (hz _ (List.mem_map_of_mem hp) _ (List.mem_map_of_mem hq))
  have hreg := regressor_affine (mean.y + Real.cos (deg2radR (90 - d.sampleTilt + d.tilt)) /
        Real.sin (deg2radR (90 - d.sampleTilt + d.tilt)) * mean.z)
      (-(Real.cos (deg2radR (90 - d.sampleTilt + d.tilt)) /
        Real.sin (deg2radR (90 - d.sampleTilt + d.tilt))))
      (pcIdx.map fun a => (planePc d dy dx mean pos a).z) hz
  rw [List.map_map] at hreg
  have hy : (pcIdx.map fun a => (planePc d dy dx mean pos a).y) =
      pcIdx.map ((fun x => mean.y + Real.cos (deg2radR (90 - d.sampleTilt + d.tilt)) /
        Real.sin (deg2radR (90 - d.sampleTilt + d.tilt)) * mean.z +
      -(Real.cos (deg2radR (90 - d.sampleTilt + d.tilt)) /
        Real.sin (deg2radR (90 - d.sampleTilt + d.tilt))) * x) ∘
        fun a => (planePc d dy dx mean pos a).z) :=
    List.map_congr_left fun a _ => planePc_line d hd dy dx mean pos a
  rw [← hy] at hreg
  have h1 : d.pc.length ≠ 1 := by
    rw [hpc, List.length_map]
    intro h1
    obtain ⟨a, rfl⟩ := List.length_eq_one_iff.mp h1
    simp only [List.mem_singleton] at hp hq
    exact hpq (by rw [hp, hq])
  unfold Detector.estimateXtilt
  rw [if_neg h1, hpc]
  simp only [List.map_map, Function.comp_def, hreg, tilt_of_slope _ hd.angle.1 hd.angle.2]

/-- Centered points of a sample plane are perpendicular to the normal of the plane. -/
theorem centered_normal (l : List (PC ℝ)) (a b : ℝ) (h : ∀ p ∈ l, p.y = a + b * p.z) :
    ∀ v ∈ centeredPcs l, v.y = b * v.z := by
  intro v hv
  have hl : l ≠ [] := by rintro rfl; simp [centeredPcs] at hv
  have hmean : (pcMean l).y = a + b * (pcMean l).z := by
    have e : l.map PC.y = (l.map PC.z).map fun x => a + b * x := by
      rw [List.map_map]
      exact List.map_congr_left fun p hp => h p hp
    simp only [pcMean]
    rw [e, listMean_affine a b _ (by simpa using hl)]
  have htrim : trimMean (l.map fun p => p.y - (pcMean l).y) =
      b * trimMean (l.map fun p => p.z - (pcMean l).z) := by
    have e : (l.map fun p => p.y - (pcMean l).y) =
        (l.map fun p => p.z - (pcMean l).z).map fun x => b * x := by
      rw [List.map_map]
      refine List.map_congr_left fun p hp => ?_
      simp only [Function.comp]
      rw [h p hp, hmean]
      ring
    rw [e, trimMean_smul]
  simp only [centeredPcs, List.map_map, Function.comp_def, List.mem_map] at hv
  obtain ⟨p, hp, rfl⟩ := hv
  simp only
  rw [htrim, h p hp, hmean]
  ring


/-- A unit vector perpendicular to the steps of a sample plane is its normal, up to sign. -/
theorem plane_normal (n : V3 ℝ) (al : ℝ) (h1 : n.dot n = 1) (hx : n.x = 0)
    (hyz : n.y * Real.cos al = n.z * Real.sin al) :
    n = ⟨0, Real.sin al, Real.cos al⟩ ∨ n = ⟨0, -Real.sin al, -Real.cos al⟩ := by
  obtain ⟨x, y, z⟩ := n
  simp only [V3.dot] at h1 hx hyz
  subst hx
  have hcs := Real.sin_sq_add_cos_sq al
  generalize Real.sin al = s at *
  generalize Real.cos al = c at *
  -- the component `t` along the normal has square one
  have hy : y = (y * s + z * c) * s := by
    linear_combination (-y) * hcs + c * hyz
  have hz : z = (y * s + z * c) * c := by
    linear_combination (-z) * hcs - s * hyz
  generalize y * s + z * c = t at hy hz
  have ht : t ^ 2 = 1 := by
    have : t ^ 2 * (s ^ 2 + c ^ 2) = 1 := by rw [hy, hz] at h1; nlinarith
    rwa [hcs, mul_one] at this
  have : t = 1 ∨ t = -1 := by
    have : (t - 1) * (t + 1) = 0 := by nlinarith
    rcases mul_eq_zero.mp this with h | h
    · left; linarith
    · right; linarith
  rcases this with rfl | rfl
  · left; rw [hy, hz]; simp
  · right; rw [hy, hz]; simp

/-- C76 (tilts about two axes): `estimate_xtilt_ztilt`, whichever singular vector it finds, returns
the angle between the detector and the sample plane, and no tilt about the z axis, if the PCs used
lie on that plane, not all on one line of the map, and the angle is less than 90 degrees. -/
theorem C76_estimate_xtilt_ztilt (d : Detector ℝ) (hd : TiltedDetector d)
    (h90 : d.tilt < d.sampleTilt) (dy dx : ℝ) (hdy : dy ≠ 0) (hdx : dx ≠ 0)
    (mean : PC ℝ) (pos : ℤ × ℤ) (pcIdx : List (ℕ × ℕ)) (o : OutlierArg)
    (hone : d.pc.length ≠ 1)
    (hpc : o.pcs d.pc = pcIdx.map (planePc d dy dx mean pos))
    (svd : List (V3 ℝ) → V3 ℝ) (hsvd : IsLeastDirection (svd (centeredPcs (o.pcs d.pc))) (centeredPcs (o.pcs d.pc)))
    (p q r : ℕ × ℕ) (hp : p ∈ pcIdx) (hq : q ∈ pcIdx) (hr : r ∈ pcIdx)
    (hn : NotCollinear (posR p) (posR q) (posR r)) :
    d.estimateXtiltZtilt o svd = .ok (deg2radR (90 - d.sampleTilt + d.tilt), 0) := by
  obtain ⟨ha0, ha1⟩ := hd.angle
  have ha2 : deg2radR (90 - d.sampleTilt + d.tilt) < Real.pi / 2 := by
    unfold deg2radR
    have hp := Real.pi_pos
    have : (90 - d.sampleTilt + d.tilt) * (Real.pi / 180) < 90 * (Real.pi / 180) :=
      mul_lt_mul_of_pos_right (by linarith) (by positivity)
    linarith
  have hs := Real.sin_pos_of_pos_of_lt_pi ha0 ha1
  have hc : 0 < Real.cos (deg2radR (90 - d.sampleTilt + d.tilt)) :=
    Real.cos_pos_of_mem_Ioo ⟨by linarith, ha2⟩
  have hline : ∀ a ∈ o.pcs d.pc, a.y = (mean.y + Real.cos (deg2radR (90 - d.sampleTilt + d.tilt)) /
        Real.sin (deg2radR (90 - d.sampleTilt + d.tilt)) * mean.z) +
      -(Real.cos (deg2radR (90 - d.sampleTilt + d.tilt)) /
        Real.sin (deg2radR (90 - d.sampleTilt + d.tilt))) * a.z := by
    intro a ha
    rw [hpc] at ha
    obtain ⟨ij, _, rfl⟩ := List.mem_map.mp ha
    exact planePc_line d hd dy dx mean pos ij
  have hcen := centered_normal _ _ _ hline
  obtain ⟨hunit, hmin⟩ := hsvd
  generalize hndef : svd (centeredPcs (o.pcs d.pc)) = n at hunit hmin
  -- the normal of the plane gives zero, so does the least direction
  have hzero : ((centeredPcs (o.pcs d.pc)).map fun v =>
      (V3.dot ⟨0, Real.sin (deg2radR (90 - d.sampleTilt + d.tilt)),
        Real.cos (deg2radR (90 - d.sampleTilt + d.tilt))⟩ v) ^ 2).sum = 0 := by
    apply List.sum_eq_zero
    intro x hx
    obtain ⟨v, hv, rfl⟩ := List.mem_map.mp hx
    have := hcen v hv
    simp only [V3.dot, this]
    field_simp
    ring
  have hle := hmin ⟨0, Real.sin (deg2radR (90 - d.sampleTilt + d.tilt)),
    Real.cos (deg2radR (90 - d.sampleTilt + d.tilt))⟩ (by
      have := Real.sin_sq_add_cos_sq (deg2radR (90 - d.sampleTilt + d.tilt))
      simp only [V3.dot]
      linarith)
  rw [hzero] at hle
  have hperp := sum_nonneg_eq_zero _ (fun x hx => by
    obtain ⟨v, _, rfl⟩ := List.mem_map.mp hx
    positivity) hle
  have hperp' : ∀ v ∈ centeredPcs (o.pcs d.pc), n.dot v = 0 := fun v hv =>
    pow_eq_zero_iff (two_ne_zero) |>.mp (hperp _ (List.mem_map_of_mem hv))
  -- the component along it is an affine function of the map position
  obtain ⟨t, ht⟩ : ∃ t : V3 ℝ, centeredPcs (o.pcs d.pc) =
      (o.pcs d.pc).map fun a => ⟨a.x - t.x, a.y - t.y, a.z - t.z⟩ := by
    refine ⟨⟨(pcMean (o.pcs d.pc)).x + trimMean ((o.pcs d.pc).map fun p => p.x - (pcMean (o.pcs d.pc)).x),
      (pcMean (o.pcs d.pc)).y + trimMean ((o.pcs d.pc).map fun p => p.y - (pcMean (o.pcs d.pc)).y),
      (pcMean (o.pcs d.pc)).z + trimMean ((o.pcs d.pc).map fun p => p.z - (pcMean (o.pcs d.pc)).z)⟩, ?_⟩
    simp only [centeredPcs, List.map_map, Function.comp_def, sub_sub]
  have hpt : ∀ a ∈ pcIdx, n.x * ((planePc d dy dx mean pos a).x - t.x) +
      n.y * ((planePc d dy dx mean pos a).y - t.y) +
      n.z * ((planePc d dy dx mean pos a).z - t.z) = 0 := by
    intro a ha
    have hv : (⟨(planePc d dy dx mean pos a).x - t.x, (planePc d dy dx mean pos a).y - t.y,
        (planePc d dy dx mean pos a).z - t.z⟩ : V3 ℝ) ∈ centeredPcs (o.pcs d.pc) := by
      rw [ht, hpc]
      exact List.mem_map.mpr ⟨_, List.mem_map_of_mem ha, rfl⟩
    exact hperp' _ hv
  have haff := affine_zero
    (n.y * (planeFit d dy dx mean pos).row.y + n.z * (planeFit d dy dx mean pos).row.z)
    (n.x * (planeFit d dy dx mean pos).col.x)
    (n.x * ((planeFit d dy dx mean pos).const.x - t.x) +
      n.y * ((planeFit d dy dx mean pos).const.y - t.y) +
      n.z * ((planeFit d dy dx mean pos).const.z - t.z)) (posR p) (posR q) (posR r) hn
  have hat : ∀ a ∈ pcIdx, (posR a).1 * (n.y * (planeFit d dy dx mean pos).row.y +
      n.z * (planeFit d dy dx mean pos).row.z) + (posR a).2 *
      (n.x * (planeFit d dy dx mean pos).col.x) +
      (n.x * ((planeFit d dy dx mean pos).const.x - t.x) +
      n.y * ((planeFit d dy dx mean pos).const.y - t.y) +
      n.z * ((planeFit d dy dx mean pos).const.z - t.z)) = 0 := by
    intro a ha
    have h := hpt a ha
    rw [← planeFit_at] at h
    simp only [AffineFit.at] at h
    rw [← h]
    simp only [planeFit]
    ring
  have hall := haff (hat p hp) (hat q hq) (hat r hr)
  have h00 := hall (0, 0)
  have h10 := hall (1, 0)
  have h01 := hall (0, 1)
  have hrow : (d.nrows : ℝ) ≠ 0 := by have := hd.rows; positivity
  have hcol : (d.ncols : ℝ) ≠ 0 := by have := hd.cols; positivity
  have hD : d.pxSize * d.binning * (d.nrows : ℝ) ≠ 0 := by simp [hd.px, hd.bin, hrow]
  have hD' : d.pxSize * d.binning * (d.ncols : ℝ) ≠ 0 := by simp [hd.px, hd.bin, hcol]
  simp only [zero_mul, one_mul, zero_add, add_zero] at h00 h10 h01
  rw [h00, add_zero] at h10 h01
  have hnx : n.x = 0 := by
    simp only [planeFit] at h01
    rcases mul_eq_zero.mp h01 with h | h
    · exact h
    · exfalso
      rcases div_eq_zero_iff.mp h with h | h
      · exact hdx (neg_eq_zero.mp h)
      · exact hD' h
  have hnyz : n.y * Real.cos (deg2radR (90 - d.sampleTilt + d.tilt)) =
      n.z * Real.sin (deg2radR (90 - d.sampleTilt + d.tilt)) := by
    simp only [planeFit] at h10
    rw [← mul_div_assoc, ← mul_div_assoc, ← add_div, div_eq_zero_iff] at h10
    rcases h10 with h | h
    · have : dy * (n.y * Real.cos (deg2radR (90 - d.sampleTilt + d.tilt)) -
          n.z * Real.sin (deg2radR (90 - d.sampleTilt + d.tilt))) = 0 := by linarith
      rcases mul_eq_zero.mp this with h | h
      · exact absurd h hdy
      · linarith
    · exact absurd h hD
  have hm : (if n.z < 0 then (⟨-n.x, -n.y, -n.z⟩ : V3 ℝ) else n) =
      ⟨0, Real.sin (deg2radR (90 - d.sampleTilt + d.tilt)),
        Real.cos (deg2radR (90 - d.sampleTilt + d.tilt))⟩ := by
    rcases plane_normal n _ hunit hnx hnyz with h | h
    · rw [h, if_neg (by simpa using hc.le)]
    · rw [h, if_pos (by simpa using hc)]
      simp
  have harg : Complex.arg ⟨0, Real.sin (deg2radR (90 - d.sampleTilt + d.tilt))⟩ = Real.pi / 2 := by
    have e : (⟨0, Real.sin (deg2radR (90 - d.sampleTilt + d.tilt))⟩ : ℂ) =
        (Real.sin (deg2radR (90 - d.sampleTilt + d.tilt)) : ℂ) * Complex.I := by
      apply Complex.ext <;> simp [-Complex.ofReal_sin]
    rw [e, Complex.arg_real_mul _ hs, Complex.arg_I]
  unfold Detector.estimateXtiltZtilt
  rw [if_neg hone, hndef]
  simp only [tiltsFromNormal, hm, harg, sub_self, Real.arccos_cos ha0.le ha1.le]

/-- C76 (violation): outliers given to `estimate_xtilt_ztilt` as a Python list are silently used
like all other PCs. -/
theorem C76_outlier_list_violated (d : Detector ℝ) (l : List Bool) (svd : List (V3 ℝ) → V3 ℝ) :
    d.estimateXtiltZtilt (.list l) svd = d.estimateXtiltZtilt .none svd := rfl

/-! ### Examples -/

/-- A 60 x 60 detector with a sample tilted 70 degrees, with the PCs of three corners of a map and
one failed calibration. -/
def exFit : Detector ℝ :=
  let d : Detector ℝ := ⟨60, 60, 70, 8, 0, 0, 0, 70, [4], []⟩
  { d with pc := [planePc d 1 1 ⟨1/2, 1/4, 1/2⟩ (0, 0) (0, 0), planePc d 1 1 ⟨1/2, 1/4, 1/2⟩ (0, 0) (9, 0),
      planePc d 1 1 ⟨1/2, 1/4, 1/2⟩ (0, 0) (0, 9), ⟨5, 5, 5⟩] }

def exFitIdx : List (ℕ × ℕ) := [(0, 0), (9, 0), (0, 9), (9, 9)]

def exOutlier : List Bool := [false, false, false, true]

theorem exFit_tilted : TiltedDetector exFit := by
  constructor <;> norm_num [exFit]

theorem exFit_plane : ∀ x ∈ (inliers (some exOutlier) exFitIdx).zip (inliers (some exOutlier) exFit.pc),
    x.2 = planePc exFit 1 1 ⟨1/2, 1/4, 1/2⟩ (0, 0) x.1 := by
  intro x hx
  simp only [inliers, exOutlier, exFitIdx, exFit, List.zip_cons_cons, List.zip_nil_right,
    List.filterMap_cons, List.filterMap_nil, Bool.false_eq_true, if_false, if_true,
    List.mem_cons, List.not_mem_nil, or_false] at hx
  rcases hx with rfl | rfl | rfl <;> rfl

theorem exFit_notCollinear : NotCollinear (posR (0, 0)) (posR (9, 0)) (posR (0, 9)) := by
  norm_num [NotCollinear, posR]

/-- A fit without errors is a least squares fit. -/
theorem leastSquares_of_exact (A : AffineFit) (data : List ((ℝ × ℝ) × PC ℝ))
    (h : ∀ x ∈ data, x.2 = A.at x.1) : IsLeastSquares A data := by
  intro B
  have h0 : A.sqErr data = 0 := by
    apply List.sum_eq_zero
    intro x hx
    obtain ⟨v, hv, rfl⟩ := List.mem_map.mp hx
    rw [h v hv, pcSqDist_self]
  rw [h0]
  apply List.sum_nonneg
  intro x hx
  obtain ⟨v, hv, rfl⟩ := List.mem_map.mp hx
  exact pcSqDist_nonneg _ _

theorem exFit_leastSquares : IsLeastSquares (planeFit exFit 1 1 ⟨1/2, 1/4, 1/2⟩ (0, 0))
    ((inliers (some exOutlier) (exFitIdx.map posR)).zip (inliers (some exOutlier) exFit.pc)) := by
  apply leastSquares_of_exact
  intro x hx
  rw [inliers_map, List.zip_map_left] at hx
  obtain ⟨y, hy, rfl⟩ := List.mem_map.mp hx
  simp only [Prod.map, id]
  rw [planeFit_at]
  exact exFit_plane y hy

example : exFit.fitPcAffine (exFitIdx.map posR) ([(0, 0), (5, 5)].map posR) (some exOutlier)
    (fun _ => planeFit exFit 1 1 ⟨1/2, 1/4, 1/2⟩ (0, 0)) =
    .ok { exFit with nav := [2], pc := [(0, 0), (5, 5)].map (planePc exFit 1 1 ⟨1/2, 1/4, 1/2⟩ (0, 0)) } :=
  C76_map_plane_partial exFit exFit_tilted rfl 1 1 one_ne_zero _ _ exFitIdx [(0, 0), (5, 5)] _ _
    exFit_leastSquares rfl rfl exFit_plane (0, 0) (9, 0) (0, 9)
    (by simp [inliers, exOutlier, exFitIdx]) (by simp [inliers, exOutlier, exFitIdx])
    (by simp [inliers, exOutlier, exFitIdx]) exFit_notCollinear

example (d' : Detector ℝ) (h : exFit.fitPcAffine (exFitIdx.map posR) ([(0, 0), (5, 5)].map posR)
    (some exOutlier) (fun _ => planeFit exFit 1 1 ⟨1/2, 1/4, 1/2⟩ (0, 0)) = .ok d') :
    d'.pc = ([(0, 0), (5, 5)].map posR).map (planeFit exFit 1 1 ⟨1/2, 1/4, 1/2⟩ (0, 0)).at :=
  (C76_affine_fit exFit (exFitIdx.map posR) ([(0, 0), (5, 5)].map posR) (some exOutlier)
    (fun _ => planeFit exFit 1 1 ⟨1/2, 1/4, 1/2⟩ (0, 0)) (planeFit exFit 1 1 ⟨1/2, 1/4, 1/2⟩ (0, 0)) d'
    exFit_leastSquares (by
      intro x hx
      rw [inliers_map, List.zip_map_left] at hx
      obtain ⟨y, hy, rfl⟩ := List.mem_map.mp hx
      simp only [Prod.map, id]
      rw [planeFit_at]
      exact exFit_plane y hy) (posR (0, 0)) (posR (9, 0)) (posR (0, 9))
    (by rw [inliers_map]; exact List.mem_map_of_mem (by simp [inliers, exOutlier, exFitIdx]))
    (by rw [inliers_map]; exact List.mem_map_of_mem (by simp [inliers, exOutlier, exFitIdx]))
    (by rw [inliers_map]; exact List.mem_map_of_mem (by simp [inliers, exOutlier, exFitIdx]))
    exFit_notCollinear h).1

/-- The same with the detector tilted by 5 degrees, without outliers. -/
def exFitTilt : Detector ℝ :=
  let d : Detector ℝ := ⟨60, 60, 70, 8, 5, 0, 0, 70, [3], []⟩
  { d with pc := [(0, 0), (9, 0), (0, 9)].map (planePc d 1 1 ⟨1/2, 1/4, 1/2⟩ (0, 0)) }

theorem exFitTilt_tilted : TiltedDetector exFitTilt := by
  constructor <;> norm_num [exFitTilt]

theorem exFitTilt_pc :
    exFitTilt.pc = [(0, 0), (9, 0), (0, 9)].map (planePc exFitTilt 1 1 ⟨1/2, 1/4, 1/2⟩ (0, 0)) := rfl

example : ∃ d', exFitTilt.fitPcAffine ([(0, 0), (9, 0), (0, 9)].map posR) [] none
    (fun _ => planeFit exFitTilt 1 1 ⟨1/2, 1/4, 1/2⟩ (0, 0)) = .ok d' ∧
    d'.sampleTilt = 60 ∧ exFitTilt.sampleTilt = 70 := by
  have hpl : ∀ x ∈ (inliers none [(0, 0), (9, 0), (0, 9)]).zip (inliers none exFitTilt.pc),
      x.2 = planePc exFitTilt 1 1 ⟨1/2, 1/4, 1/2⟩ (0, 0) x.1 := by
    intro x hx
    rw [exFitTilt_pc] at hx
    simp only [inliers, zip_map_self, List.mem_map] at hx
    obtain ⟨a, _, rfl⟩ := hx
    rfl
  obtain ⟨d', h, h2, _⟩ := C76_detector_tilt_violated exFitTilt exFitTilt_tilted (by norm_num [exFitTilt])
    1 1 one_ne_zero ⟨1/2, 1/4, 1/2⟩ (0, 0) [(0, 0), (9, 0), (0, 9)] [] none
    (fun _ => planeFit exFitTilt 1 1 ⟨1/2, 1/4, 1/2⟩ (0, 0))
    (leastSquares_of_exact _ _ (by
      intro x hx
      rw [inliers_map, List.zip_map_left] at hx
      obtain ⟨y, hy, rfl⟩ := List.mem_map.mp hx
      simp only [Prod.map, id]
      rw [planeFit_at]
      exact hpl y hy)) rfl rfl hpl (0, 0) (9, 0) (0, 9) (by simp [inliers]) (by simp [inliers])
    (by simp [inliers]) exFit_notCollinear
  refine ⟨d', h, ?_, ?_⟩
  · rw [h2]; norm_num [exFitTilt]
  · norm_num [exFitTilt]

example : exFitTilt.estimateXtilt = .ok (deg2radR 25) := by
  rw [C76_estimate_xtilt exFitTilt exFitTilt_tilted 1 1 one_ne_zero ⟨1/2, 1/4, 1/2⟩ (0, 0) _ exFitTilt_pc
    (0, 0) (9, 0) (by simp) (by simp) (by simp)]
  norm_num [exFitTilt]

/-- There is a unit vector along which the example's PCs vary least. -/
theorem exFitTilt_least : IsLeastDirection
    ⟨0, Real.sin (deg2radR (90 - exFitTilt.sampleTilt + exFitTilt.tilt)),
      Real.cos (deg2radR (90 - exFitTilt.sampleTilt + exFitTilt.tilt))⟩
    (centeredPcs (OutlierArg.none.pcs exFitTilt.pc)) := by
  have hs := Real.sin_pos_of_pos_of_lt_pi exFitTilt_tilted.angle.1 exFitTilt_tilted.angle.2
  refine ⟨?_, fun m _ => ?_⟩
  · have := Real.sin_sq_add_cos_sq (deg2radR (90 - exFitTilt.sampleTilt + exFitTilt.tilt))
    simp only [V3.dot]
    linarith
  · have hcen := centered_normal (OutlierArg.none.pcs exFitTilt.pc) _ _ (fun a ha => by
      simp only [OutlierArg.pcs, exFitTilt_pc] at ha
      obtain ⟨ij, _, rfl⟩ := List.mem_map.mp ha
      exact planePc_line exFitTilt exFitTilt_tilted 1 1 ⟨1/2, 1/4, 1/2⟩ (0, 0) ij)
    rw [List.sum_eq_zero]
    · apply List.sum_nonneg
      intro x hx
      obtain ⟨v, _, rfl⟩ := List.mem_map.mp hx
      positivity
    · intro x hx
      obtain ⟨v, hv, rfl⟩ := List.mem_map.mp hx
      have := hcen v hv
      simp only [V3.dot, this]
      field_simp
      ring

example : exFitTilt.estimateXtiltZtilt .none (fun _ =>
    ⟨0, Real.sin (deg2radR (90 - exFitTilt.sampleTilt + exFitTilt.tilt)),
      Real.cos (deg2radR (90 - exFitTilt.sampleTilt + exFitTilt.tilt))⟩) =
    .ok (deg2radR (90 - exFitTilt.sampleTilt + exFitTilt.tilt), 0) :=
  C76_estimate_xtilt_ztilt exFitTilt exFitTilt_tilted (by norm_num [exFitTilt]) 1 1 one_ne_zero
    one_ne_zero ⟨1/2, 1/4, 1/2⟩ (0, 0) _ .none (by simp [exFitTilt]) exFitTilt_pc _ exFitTilt_least
    (0, 0) (9, 0) (0, 9) (by simp) (by simp) (by simp) exFit_notCollinear

end
end Kp
