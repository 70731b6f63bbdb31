import Verif.Lemmas.FloatRescale
import Verif.Spec.Rescale
import Mathlib.Data.Rat.Floor
import Mathlib.Algebra.Order.Ring.Pow

/-
C104: rescaling intensities in the arithmetic of the machine.
-/

namespace Kp
set_option linter.unusedSectionVars false
section
variable {K : Type} [Field K] [LinearOrder K] [IsStrictOrderedRing K] [FloorRing K]

/-- The limits are numbers of the formats, and the width of the output range is computed exactly. -/
structure Spec.LimitsInFormat (F : Formats K) (dtype : DType) (imin imax omin omax : K) : Prop where
  inLow : F.sub.fl imin = imin
  inHigh : F.sub.fl imax = imax
  outLow : F.add.fl omin = omin
  outHigh : F.add.fl omax = omax
  width : F.mul.fl (omax - omin) = omax - omin
  lowCast : castFl F dtype omin = omin
  highCast : castFl F dtype omax = omax

theorem castFl_mono (F : Formats K) (d : DType) : Monotone (castFl F d) := by
  cases d with
  | float => exact F.out.mono
  | other => exact F.out.mono
  | uint => exact truncate_mono
  | int => exact truncate_mono

theorem Rounding.nonneg (r : Rounding K) {x : K} (h : 0 ≤ x) : 0 ≤ r.fl x := by
  have := r.mono h
  rwa [r.zero] at this

/-- All evaluations keep the order of pixels. -/
theorem rescalePixelFl_mono (F : Formats K) (e : Evaluation) {imin imax omin omax : K}
    (h1 : F.sub.fl imin = imin) (h2 : F.sub.fl imax = imax) (hi : imin < imax) (ho : omin ≤ omax) :
    Monotone (rescalePixelFl F e imin imax omin omax) := by
  have hd : 0 < F.sub.fl (imax - imin) := F.sub.pos _ _ h1 h2 hi
  have hD : 0 ≤ omax - omin := by linarith
  intro x y hxy
  have hn : F.sub.fl (x - imin) ≤ F.sub.fl (y - imin) := F.sub.mono (by linarith)
  have hr : 0 ≤ F.div.fl (1 / F.sub.fl (imax - imin)) := F.div.nonneg (by positivity)
  cases e <;> simp only [rescalePixelFl]
  · apply F.add.mono
    have := F.mul.mono (mul_le_mul_of_nonneg_right
      (F.div.mono (div_le_div_of_nonneg_right hn hd.le)) hD)
    linarith
  · apply F.add.mono
    have := mul_le_mul_of_nonneg_right (F.div.mono (div_le_div_of_nonneg_right hn hd.le)) hD
    linarith
  · apply F.add.mono
    have := F.mul.mono (mul_le_mul_of_nonneg_right
      (F.div.mono (mul_le_mul_of_nonneg_right hn hr)) hD)
    linarith
  · apply F.add.mono
    have := F.mul.mono (mul_le_mul_of_nonneg_right hn (F.mul.nonneg (mul_nonneg hr hD)))
    linarith

/-- All evaluations take the smallest intensity to the lower limit. -/
theorem rescalePixelFl_min (F : Formats K) (e : Evaluation) {imin imax omin omax : K}
    (h : F.add.fl omin = omin) : rescalePixelFl F e imin imax omin omax imin = omin := by
  cases e <;> simp [rescalePixelFl, F.sub.zero, F.div.zero, F.mul.zero, h]

/-- With a division, the largest intensity is taken to the upper limit. -/
theorem rescalePixelFl_max (F : Formats K) (e : Evaluation) (he : e = .written ∨ e = .fused)
    {imin imax omin omax : K} (h1 : F.sub.fl imin = imin) (h2 : F.sub.fl imax = imax)
    (hi : imin < imax) (h3 : F.add.fl omax = omax) (h4 : F.mul.fl (omax - omin) = omax - omin) :
    rescalePixelFl F e imin imax omin omax imax = omax := by
  have hd : F.sub.fl (imax - imin) ≠ 0 := (F.sub.pos _ _ h1 h2 hi).ne'
  rcases he with rfl | rfl <;> simp [rescalePixelFl, div_self hd, F.div.one, h4, h3]

/-- C104 (with a division): in rounded arithmetic, if the division is a division, the largest and
smallest intensities of the input range are taken exactly to the limits of the output range, results
are within it, and the order of intensities is kept, as in exact arithmetic (C11). -/
theorem C104_division_partial (F : Formats K) (e : Evaluation) (he : e = .written ∨ e = .fused)
    (pattern : List K) (dtypeIn : DType) (dtypeOut : Option DType) (imin imax omin omax : K)
    (hi : imin < imax) (ho : omin ≤ omax)
    (hF : Spec.LimitsInFormat F (dtypeOut.getD dtypeIn) imin imax omin omax) :
    ∃ f, RangeMap imin imax omin omax f ∧
      rescaleIntensityFl F e pattern dtypeIn (some (imin, imax)) (some (omin, omax)) dtypeOut =
        .ok (pattern.map f) := by
  have hmono := rescalePixelFl_mono F e hF.inLow hF.inHigh hi ho
  have hmin := rescalePixelFl_min F e (imin := imin) (imax := imax) (omax := omax) hF.outLow
  have hmax := rescalePixelFl_max F e he hF.inLow hF.inHigh hi hF.outHigh hF.width
  refine ⟨fun x => castFl F (dtypeOut.getD dtypeIn)
    (rescalePixelFl F e imin imax omin omax (clip imin imax x)), ⟨?_, ?_, ?_, ?_⟩, ?_⟩
  · intro x hx
    have : clip imin imax x = imin := by
      unfold clip; rw [max_eq_right hx, min_eq_left hi.le]
    simp only [this, hmin, hF.lowCast]
  · intro x hx
    have : clip imin imax x = imax := by
      unfold clip; rw [max_eq_left (hi.le.trans hx), min_eq_right hx]
    simp only [this, hmax, hF.highCast]
  · intro x
    have hc := clip_within hi.le x
    have a := castFl_mono F (dtypeOut.getD dtypeIn) (hmono hc.1)
    have b := castFl_mono F (dtypeOut.getD dtypeIn) (hmono hc.2)
    rw [hmin, hF.lowCast] at a
    rw [hmax, hF.highCast] at b
    exact ⟨a, b⟩
  · exact (castFl_mono F _).comp (hmono.comp clip_mono)
  · simp [rescaleIntensityFl, List.map_map, Function.comp_def]

/-- C104 (own range, with a division): a pattern which is not constant fills the whole output range
and keeps the order of its pixels. -/
theorem C104_own_range_partial (F : Formats K) (e : Evaluation) (he : e = .written ∨ e = .fused)
    (pattern : List K) (dtypeIn : DType) (dtypeOut : Option DType) (omin omax : K) (x y : K)
    (hx : x ∈ pattern) (hy : y ∈ pattern) (hxy : x ≠ y) (ho : omin ≤ omax)
    (hF : Spec.LimitsInFormat F (dtypeOut.getD dtypeIn) (listMin pattern) (listMax pattern) omin omax) :
    ∃ out, rescaleIntensityFl F e pattern dtypeIn none (some (omin, omax)) dtypeOut = .ok out ∧
      FillsRange omin omax out ∧ OrderKept pattern out := by
  have hi := listMin_lt_listMax hx hy hxy
  have hne : pattern ≠ [] := List.ne_nil_of_mem hx
  have hmono := (castFl_mono F (dtypeOut.getD dtypeIn)).comp
    (rescalePixelFl_mono F e hF.inLow hF.inHigh hi ho)
  have hmin := rescalePixelFl_min F e (imin := listMin pattern) (imax := listMax pattern)
    (omax := omax) hF.outLow
  have hmax := rescalePixelFl_max F e he hF.inLow hF.inHigh hi hF.outHigh hF.width
  refine ⟨_, rfl, ?_, ?_⟩
  · rw [List.map_map]
    refine ⟨List.mem_map.mpr ⟨_, listMin_mem hne, ?_⟩, List.mem_map.mpr ⟨_, listMax_mem hne, ?_⟩, ?_⟩
    · simp only [Function.comp, hmin, hF.lowCast]
    · simp only [Function.comp, hmax, hF.highCast]
    · intro z hz
      obtain ⟨w, hw, rfl⟩ := List.mem_map.mp hz
      have a := hmono (listMin_le w hw)
      have b := hmono (le_listMax w hw)
      simp only [Function.comp, hmin, hF.lowCast] at a
      simp only [Function.comp, hmax, hF.highCast] at b
      exact ⟨a, b⟩
  · rw [List.map_map]
    exact orderKept_map hmono

/-- C104 (order): whatever evaluation the compiler chooses, pixels are mapped by one and the same
function, which keeps their order and takes the smallest to the lower limit. -/
theorem C104_order (F : Formats K) (e : Evaluation)
    (pattern : List K) (dtypeIn : DType) (dtypeOut : Option DType) (omin omax : K) (x y : K)
    (hx : x ∈ pattern) (hy : y ∈ pattern) (hxy : x ≠ y) (ho : omin ≤ omax)
    (hF : Spec.LimitsInFormat F (dtypeOut.getD dtypeIn) (listMin pattern) (listMax pattern) omin omax) :
    ∃ out, rescaleIntensityFl F e pattern dtypeIn none (some (omin, omax)) dtypeOut = .ok out ∧
      omin ∈ out ∧ (∀ z ∈ out, omin ≤ z) ∧ OrderKept pattern out := by
  have hi := listMin_lt_listMax hx hy hxy
  have hne : pattern ≠ [] := List.ne_nil_of_mem hx
  have hmono := (castFl_mono F (dtypeOut.getD dtypeIn)).comp
    (rescalePixelFl_mono F e hF.inLow hF.inHigh hi ho)
  have hmin := rescalePixelFl_min F e (imin := listMin pattern) (imax := listMax pattern)
    (omax := omax) hF.outLow
  refine ⟨_, rfl, ?_, ?_, ?_⟩
  · rw [List.map_map]
    refine List.mem_map.mpr ⟨_, listMin_mem hne, ?_⟩
    simp only [Function.comp, hmin, hF.lowCast]
  · rw [List.map_map]
    intro z hz
    obtain ⟨w, hw, rfl⟩ := List.mem_map.mp hz
    have a := hmono (listMin_le w hw)
    simp only [Function.comp, hmin, hF.lowCast] at a
    exact a
  · rw [List.map_map]
    exact orderKept_map hmono

/-- Rounding has a relative error of at most `u` for numbers of at least `s`. -/
def Spec.Accurate (r : Rounding K) (u s : K) : Prop := ∀ x, s ≤ x → |r.fl x - x| ≤ u * x

theorem Spec.Accurate.bounds {r : Rounding K} {u s : K} (h : Spec.Accurate r u s) {x : K} (hx : s ≤ x) :
    (1 - u) * x ≤ r.fl x ∧ r.fl x ≤ (1 + u) * x := by
  have := h x hx
  rw [abs_le] at this
  constructor <;> linarith

/-- One rounding of a number known up to factors. -/
theorem Spec.Accurate.step {r : Rounding K} {u s : K} (h : Spec.Accurate r u s) (hu0 : 0 ≤ u)
    (hu : u ≤ 1) {x l b : K} (h1 : l ≤ x) (h2 : x ≤ b) (hs : s ≤ x) :
    (1 - u) * l ≤ r.fl x ∧ r.fl x ≤ (1 + u) * b := by
  have := h.bounds hs
  constructor
  · exact (mul_le_mul_of_nonneg_left h1 (by linarith)).trans this.1
  · exact this.2.trans (mul_le_mul_of_nonneg_left h2 (by linarith))

/-- The largest intensity is mapped close to the upper limit, whatever the evaluation. -/
theorem rescalePixelFl_near (F : Formats K) (e : Evaluation) {imin imax D u s : K}
    (h1 : F.sub.fl imin = imin) (h2 : F.sub.fl imax = imax) (hi : imin < imax) (hD : 1 ≤ D)
    (hDm : F.mul.fl D = D) (hDa : F.add.fl D = D)
    (hu0 : 0 ≤ u) (hu : u ≤ 1 / 10) (hs : s ≤ 1 / 2)
    (hsd : s ≤ 1 / (2 * F.sub.fl (imax - imin)))
    (hdiv : Spec.Accurate F.div u s) (hmul : Spec.Accurate F.mul u s) (hadd : Spec.Accurate F.add u s) :
    (1 - u) ^ 4 * D ≤ rescalePixelFl F e imin imax 0 D imax ∧
      rescalePixelFl F e imin imax 0 D imax ≤ (1 + u) ^ 4 * D := by
  have hd : 0 < F.sub.fl (imax - imin) := F.sub.pos _ _ h1 h2 hi
  have hlow : (1 - u) ^ 4 ≤ 1 := pow_le_one₀ (by linarith) (by linarith)
  have hhigh : 1 ≤ (1 + u) ^ 4 := one_le_pow₀ (by linarith)
  have hD0 : 0 ≤ D := by linarith
  have exact1 : rescalePixelFl F e imin imax 0 D imax = D →
      (1 - u) ^ 4 * D ≤ rescalePixelFl F e imin imax 0 D imax ∧
      rescalePixelFl F e imin imax 0 D imax ≤ (1 + u) ^ 4 * D := by
    intro h
    rw [h]
    constructor
    · exact mul_le_of_le_one_left hD0 hlow
    · exact le_mul_of_one_le_left hD0 hhigh
  have hhalf : (1 : K) / 2 ≤ (1 - u) ^ 3 := by
    have : (9 / 10 : K) ^ 3 ≤ (1 - u) ^ 3 := pow_le_pow_left₀ (by norm_num) (by linarith) 3
    linarith [show (1 : K) / 2 ≤ (9 / 10 : K) ^ 3 by norm_num]
  have hhalf2 : (1 : K) / 2 ≤ (1 - u) ^ 2 := by
    have : (9 / 10 : K) ^ 2 ≤ (1 - u) ^ 2 := pow_le_pow_left₀ (by norm_num) (by linarith) 2
    linarith [show (1 : K) / 2 ≤ (9 / 10 : K) ^ 2 by norm_num]
  cases e with
  | written => exact exact1 (rescalePixelFl_max F _ (.inl rfl) h1 h2 hi hDa (by simpa using hDm))
  | fused => exact exact1 (rescalePixelFl_max F _ (.inr rfl) h1 h2 hi hDa (by simpa using hDm))
  | reciprocal =>
    simp only [rescalePixelFl, sub_zero, add_zero]
    generalize F.sub.fl (imax - imin) = d at hd hsd
    have hs1 : s ≤ 1 / d := hsd.trans (one_div_le_one_div_of_le hd (by linarith))
    obtain ⟨a1, b1⟩ := hdiv.bounds hs1
    have a2 : 1 - u ≤ d * F.div.fl (1 / d) := by
      have := mul_le_mul_of_nonneg_left a1 hd.le
      have e : d * ((1 - u) * (1 / d)) = 1 - u := by field_simp
      linarith
    have b2 : d * F.div.fl (1 / d) ≤ 1 + u := by
      have := mul_le_mul_of_nonneg_left b1 hd.le
      have e : d * ((1 + u) * (1 / d)) = 1 + u := by field_simp
      linarith
    obtain ⟨a3, b3⟩ := hdiv.step hu0 (by linarith) a2 b2 (by linarith)
    have a4 : (1 - u) ^ 2 * D ≤ F.div.fl (d * F.div.fl (1 / d)) * D :=
      mul_le_mul_of_nonneg_right (by rw [sq]; exact a3) hD0
    have b4 : F.div.fl (d * F.div.fl (1 / d)) * D ≤ (1 + u) ^ 2 * D :=
      mul_le_mul_of_nonneg_right (by rw [sq]; exact b3) hD0
    have c4 : (1 : K) / 2 ≤ (1 - u) ^ 2 * D := hhalf2.trans (le_mul_of_one_le_right (by positivity) hD)
    obtain ⟨a5, b5⟩ := hmul.step hu0 (by linarith) a4 b4 (by linarith)
    have c5 : (1 : K) / 2 ≤ (1 - u) * ((1 - u) ^ 2 * D) := by
      have e : (1 - u) * ((1 - u) ^ 2 * D) = (1 - u) ^ 3 * D := by ring
      rw [e]
      exact hhalf.trans (le_mul_of_one_le_right (by positivity) hD)
    obtain ⟨a6, b6⟩ := hadd.step hu0 (by linarith) a5 b5 (by linarith)
    constructor
    · refine le_trans (le_of_eq ?_) a6; ring
    · refine b6.trans (le_of_eq ?_); ring
  | folded =>
    simp only [rescalePixelFl, sub_zero, add_zero]
    generalize F.sub.fl (imax - imin) = d at hd hsd
    have hs1 : s ≤ 1 / d := hsd.trans (one_div_le_one_div_of_le hd (by linarith))
    obtain ⟨a1, b1⟩ := hdiv.bounds hs1
    have a2 : (1 - u) * (1 / d) * D ≤ F.div.fl (1 / d) * D := mul_le_mul_of_nonneg_right a1 hD0
    have b2 : F.div.fl (1 / d) * D ≤ (1 + u) * (1 / d) * D := mul_le_mul_of_nonneg_right b1 hD0
    have c2 : s ≤ F.div.fl (1 / d) * D := by
      refine hsd.trans (le_trans ?_ a2)
      have e : 1 / (2 * d) = 1 / 2 * (1 / d) := by field_simp
      rw [e, mul_right_comm]
      apply mul_le_mul_of_nonneg_right _ (by positivity)
      nlinarith
    obtain ⟨a3, b3⟩ := hmul.step hu0 (by linarith) a2 b2 c2
    have a4 : (1 - u) ^ 2 * D ≤ d * F.mul.fl (F.div.fl (1 / d) * D) := by
      have := mul_le_mul_of_nonneg_left a3 hd.le
      have e : d * ((1 - u) * ((1 - u) * (1 / d) * D)) = (1 - u) ^ 2 * D := by field_simp
      linarith
    have b4 : d * F.mul.fl (F.div.fl (1 / d) * D) ≤ (1 + u) ^ 2 * D := by
      have := mul_le_mul_of_nonneg_left b3 hd.le
      have e : d * ((1 + u) * ((1 + u) * (1 / d) * D)) = (1 + u) ^ 2 * D := by field_simp
      linarith
    have c4 : (1 : K) / 2 ≤ (1 - u) ^ 2 * D := hhalf2.trans (le_mul_of_one_le_right (by positivity) hD)
    obtain ⟨a5, b5⟩ := hmul.step hu0 (by linarith) a4 b4 (by linarith)
    have c5 : (1 : K) / 2 ≤ (1 - u) * ((1 - u) ^ 2 * D) := by
      have e : (1 - u) * ((1 - u) ^ 2 * D) = (1 - u) ^ 3 * D := by ring
      rw [e]
      exact hhalf.trans (le_mul_of_one_le_right (by positivity) hD)
    obtain ⟨a6, b6⟩ := hadd.step hu0 (by linarith) a5 b5 (by linarith)
    constructor
    · refine le_trans (le_of_eq ?_) a6; ring
    · refine b6.trans (le_of_eq ?_); ring

/-- C104 (unsigned integers, partial): whatever evaluation the compiler chooses, a pattern rescaled to
the range of an unsigned integer type stays within this range, has its darkest pixels at 0, keeps the
order of its pixels, and its brightest pixels are at the largest integer or one below. -/
theorem C104_one_level_partial (F : Formats K) (e : Evaluation) (bits : ℕ) (hb : 0 < bits)
    (pattern : List K) (dtypeIn : DType) (x y u s : K)
    (hx : x ∈ pattern) (hy : y ∈ pattern) (hxy : x ≠ y)
    (h1 : F.sub.fl (listMin pattern) = listMin pattern)
    (h2 : F.sub.fl (listMax pattern) = listMax pattern)
    (hDm : F.mul.fl (2 ^ bits - 1) = 2 ^ bits - 1) (hDa : F.add.fl (2 ^ bits - 1) = 2 ^ bits - 1)
    (hu0 : 0 ≤ u) (hu : 10 * u * 2 ^ bits ≤ 1) (hs : s ≤ 1 / 2)
    (hsd : s ≤ 1 / (2 * F.sub.fl (listMax pattern - listMin pattern)))
    (hdiv : Spec.Accurate F.div u s) (hmul : Spec.Accurate F.mul u s) (hadd : Spec.Accurate F.add u s) :
    ∃ out, rescaleIntensityFl F e pattern dtypeIn none none (some (.uint bits)) = .ok out ∧
      (∀ z ∈ out, 0 ≤ z ∧ z ≤ 2 ^ bits - 1) ∧ 0 ∈ out ∧
      (2 ^ bits - 1 ∈ out ∨ 2 ^ bits - 2 ∈ out) ∧ OrderKept pattern out := by
  have hi := listMin_lt_listMax hx hy hxy
  have hne : pattern ≠ [] := List.ne_nil_of_mem hx
  have h2b : (2 : K) ≤ 2 ^ bits := by
    calc (2 : K) = 2 ^ 1 := by norm_num
      _ ≤ 2 ^ bits := pow_le_pow_right₀ (by norm_num) hb
  have hD : (1 : K) ≤ 2 ^ bits - 1 := by linarith
  have hu1 : u ≤ 1 / 10 := by nlinarith
  have hmono := (castFl_mono F (.uint bits)).comp
    (rescalePixelFl_mono F e h1 h2 hi (omin := 0) (omax := 2 ^ bits - 1) (by linarith))
  have hmin := rescalePixelFl_min F e (imin := listMin pattern) (imax := listMax pattern)
    (omax := 2 ^ bits - 1) F.add.zero
  obtain ⟨lo, up⟩ := rescalePixelFl_near F e h1 h2 hi hD hDm hDa hu0 hu1 hs hsd hdiv hmul hadd
  -- the brightest pixel
  have b1 : 1 - 4 * u ≤ (1 - u) ^ 4 := by
    have := one_add_mul_le_pow (a := -u) (by linarith) 4
    norm_num at this
    have e : (1 - u) ^ 4 = (1 + -u) ^ 4 := by ring
    rw [e]
    linarith
  have b2 : (1 + u) ^ 4 ≤ 1 + 5 * u := by
    have e : 1 + 5 * u - (1 + u) ^ 4 = u * (1 - 6 * u - 4 * u ^ 2 - u ^ 3) := by ring
    have hu2 : u ^ 2 ≤ 1 / 100 := by nlinarith
    have hu3 : u ^ 3 ≤ 1 / 1000 := by
      calc u ^ 3 ≤ (1 / 10) ^ 3 := pow_le_pow_left₀ hu0 hu1 3
        _ = 1 / 1000 := by norm_num
    have := mul_nonneg hu0 (show 0 ≤ 1 - 6 * u - 4 * u ^ 2 - u ^ 3 by linarith)
    linarith
  set v := rescalePixelFl F e (listMin pattern) (listMax pattern) 0 (2 ^ bits - 1) (listMax pattern)
    with hv
  have low : (2 : K) ^ bits - 2 ≤ v := by
    have := mul_le_mul_of_nonneg_right b1 (show (0 : K) ≤ 2 ^ bits - 1 by linarith)
    nlinarith
  have high : v < (2 : K) ^ bits := by
    have := mul_le_mul_of_nonneg_right b2 (show (0 : K) ≤ 2 ^ bits - 1 by linarith)
    nlinarith
  have hcast : castFl F (.uint bits) v = 2 ^ bits - 1 ∨ castFl F (.uint bits) v = 2 ^ bits - 2 := by
    have hv0 : 0 ≤ v := by linarith
    have fl1 : (2 : ℤ) ^ bits - 2 ≤ ⌊v⌋ := by
      rw [Int.le_floor]
      push_cast
      exact low
    have fl2 : ⌊v⌋ < (2 : ℤ) ^ bits := by
      rw [Int.floor_lt]
      push_cast
      exact high
    simp only [castFl, truncate, if_pos hv0]
    have : ⌊v⌋ = (2 : ℤ) ^ bits - 1 ∨ ⌊v⌋ = (2 : ℤ) ^ bits - 2 := by
      generalize (2 : ℤ) ^ bits = N at *
      omega
    rcases this with h | h <;> rw [h] <;> push_cast
    · exact .inl rfl
    · exact .inr rfl
  have hz0 : castFl F (.uint bits) 0 = 0 := by simp [castFl, truncate]
  refine ⟨(pattern.map (rescalePixelFl F e (listMin pattern) (listMax pattern) 0
    (2 ^ bits - 1))).map (castFl F (.uint bits)), ?_, ?_, ?_, ?_, ?_⟩
  · simp [rescaleIntensityFl, dtypeRange]
  · rw [List.map_map]
    intro z hz
    obtain ⟨w, hw, rfl⟩ := List.mem_map.mp hz
    have a := hmono (listMin_le w hw)
    have b := hmono (le_listMax w hw)
    simp only [Function.comp, hmin, hz0, ← hv] at a b ⊢
    refine ⟨a, b.trans ?_⟩
    rcases hcast with h | h <;> rw [h]
    linarith
  · rw [List.map_map]
    refine List.mem_map.mpr ⟨_, listMin_mem hne, ?_⟩
    simp only [Function.comp, hmin, hz0]
  · rw [List.map_map]
    rcases hcast with h | h
    · exact .inl (List.mem_map.mpr ⟨_, listMax_mem hne, h⟩)
    · exact .inr (List.mem_map.mpr ⟨_, listMax_mem hne, h⟩)
  · rw [List.map_map]
    exact orderKept_map hmono

end

/-! ### Concrete formats -/

/-- Everything in binary64, as for patterns of integers (and output in binary32). -/
def doubleFormats : Formats ℚ where
  sub := .binary 53 (-1074) (by norm_num) (by norm_num)
  div := .binary 53 (-1074) (by norm_num) (by norm_num)
  mul := .binary 53 (-1074) (by norm_num) (by norm_num)
  add := .binary 53 (-1074) (by norm_num) (by norm_num)
  out := .binary 24 (-149) (by norm_num) (by norm_num)

theorem double_nat (n : ℕ) (h : n ≤ 2 ^ 53) : binaryRound 53 (-1074) (n : ℚ) = n := by
  have := binaryRound_format (K := ℚ) (p := 53) (emin := -1074) (m := n) (j := 0) (by norm_num)
    (by norm_num) (by
      simp only [zpow_zero, mul_one, Int.cast_natCast, Nat.abs_cast, zero_add]
      exact_mod_cast h)
  simpa using this

/-- C104 (violation): if the compiler multiplies with the reciprocal of the input range, as
`fastmath=True` allows, a pattern with an intensity range of 49 does not reach the largest intensity
of 8 bit integers: its brightest pixel is 254. As written, it is 255. -/
theorem C104_reciprocal_violated :
    rescaleIntensityFl doubleFormats .reciprocal [0, 49] (.uint 8) none none none = .ok [0, 254] ∧
    rescaleIntensityFl doubleFormats .written [0, 49] (.uint 8) none none none = .ok [0, 255] := by
  have h49 := double_nat 49 (by norm_num)
  have h255 := double_nat 255 (by norm_num)
  have h0 : binaryRound 53 (-1074) (0 : ℚ) = 0 := by simpa using double_nat 0 (by norm_num)
  have h1 : binaryRound 53 (-1074) (1 : ℚ) = 1 := by simpa using double_nat 1 (by norm_num)
  norm_num at h49 h255
  have r1 : binaryRound 53 (-1074) (1 / 49 : ℚ) = 5882252574524729 / 2 ^ 58 := by
    rw [binaryRound_eq (e := -6) 5882252574524729 (by norm_num) (by norm_num) (by norm_num)
      (by norm_num [abs_lt])]
    norm_num
  have r2 : binaryRound 53 (-1074) (49 * (5882252574524729 / 2 ^ 58) : ℚ) = 1 - 1 / 2 ^ 53 := by
    rw [binaryRound_eq (e := -1) 9007199254740991 (by norm_num) (by norm_num) (by norm_num)
      (by norm_num [abs_lt])]
    norm_num
  have r3 : binaryRound 53 (-1074) ((1 - 1 / 2 ^ 53) * 255 : ℚ) = 255 - 1 / 2 ^ 45 := by
    rw [binaryRound_eq (e := 7) 8972014882652159 (by norm_num) (by norm_num) (by norm_num)
      (by norm_num [abs_lt])]
    norm_num
  have r4 : binaryRound 53 (-1074) (255 - 1 / 2 ^ 45 : ℚ) = 255 - 1 / 2 ^ 45 := by
    rw [binaryRound_eq (e := 7) 8972014882652159 (by norm_num) (by norm_num) (by norm_num)
      (by norm_num [abs_lt])]
    norm_num
  have f1 : truncate (255 - 1 / 2 ^ 45 : ℚ) = 254 := by
    have : ⌊(255 - 1 / 2 ^ 45 : ℚ)⌋ = 254 := by
      rw [Int.floor_eq_iff]
      norm_num
    rw [truncate, if_pos (by norm_num), this]
    norm_num
  have f2 : truncate (255 : ℚ) = 255 := by exact_mod_cast truncate_int (K := ℚ) 255
  have f3 : truncate (0 : ℚ) = 0 := by exact_mod_cast truncate_int (K := ℚ) 0
  have hmin : listMin [(0 : ℚ), 49] = 0 := by norm_num [listMin]
  have hmax : listMax [(0 : ℚ), 49] = 49 := by norm_num [listMax]
  have hr : dtypeRange (.uint 8) = some (0, 255) := rfl
  constructor
  · simp only [rescaleIntensityFl, hmin, hmax, Option.getD_none, hr, List.map_cons, List.map_nil,
      rescalePixelFl, doubleFormats, Rounding.binary, castFl, Int.cast_zero, Int.cast_ofNat, sub_zero,
      add_zero, h0, h49, r1, zero_mul, r2, r3, r4, f1, f3]
  · simp only [rescaleIntensityFl, hmin, hmax, Option.getD_none, hr, List.map_cons, List.map_nil,
      rescalePixelFl, doubleFormats, Rounding.binary, castFl, Int.cast_zero, Int.cast_ofNat, sub_zero,
      add_zero, h0, h49, zero_mul, zero_div, div_self (show (49 : ℚ) ≠ 0 by norm_num), h1, one_mul,
      h255, f2, f3]

/-- Rounding to binary64 is accurate to one part in `2 ^ 53`. -/
theorem double_accurate : Spec.Accurate (K := ℚ) (.binary 53 (-1074) (by norm_num) (by norm_num))
    (1 / 2 ^ 53) (1 / 2 ^ 200) := by
  intro x hx
  have hx0 : 0 < x := lt_of_lt_of_le (by positivity) hx
  have := binaryRound_error (K := ℚ) 53 (-1074) (x := x) (by
    rw [abs_of_pos hx0]
    refine le_trans ?_ hx
    rw [show (1 / 2 ^ 200 : ℚ) = 2 ^ (-200 : ℤ) by rw [zpow_neg, one_div]; rfl]
    exact zpow_le_zpow_right₀ (by norm_num) (by norm_num))
  rw [abs_of_pos hx0] at this
  refine this.trans (le_of_eq ?_)
  rw [zpow_neg, one_div]
  rfl

/-- All hypotheses are met by a pattern of 8 bit integers in binary64. -/
example (e : Evaluation) : ∃ out : List ℚ,
    rescaleIntensityFl doubleFormats e [7, 56, 30] (.uint 8) none none (some (.uint 8)) = .ok out ∧
      (∀ z ∈ out, 0 ≤ z ∧ z ≤ 2 ^ 8 - 1) ∧ 0 ∈ out ∧ (2 ^ 8 - 1 ∈ out ∨ 2 ^ 8 - 2 ∈ out) ∧
      OrderKept [7, 56, 30] out := by
  have hmin : listMin [(7 : ℚ), 56, 30] = 7 := by norm_num [listMin]
  have hmax : listMax [(7 : ℚ), 56, 30] = 56 := by norm_num [listMax]
  have h49 := double_nat 49 (by norm_num)
  have h255 := double_nat 255 (by norm_num)
  have h7 := double_nat 7 (by norm_num)
  have h56 := double_nat 56 (by norm_num)
  norm_num at h49 h255 h7 h56
  refine C104_one_level_partial doubleFormats e 8 (by norm_num) [7, 56, 30] (.uint 8) 7 56 (1 / 2 ^ 53)
    (1 / 2 ^ 200) (by simp) (by simp) (by norm_num) ?_ ?_ ?_ ?_ (by positivity) (by norm_num)
    (by norm_num) ?_ double_accurate double_accurate double_accurate
  · rw [hmin]; exact h7
  · rw [hmax]; exact h56
  · have : (2 : ℚ) ^ 8 - 1 = 255 := by norm_num
    rw [this]; exact h255
  · have : (2 : ℚ) ^ 8 - 1 = 255 := by norm_num
    rw [this]; exact h255
  · rw [hmin, hmax]
    have : doubleFormats.sub.fl (56 - 7) = 49 := by
      have e : (56 - 7 : ℚ) = 49 := by norm_num
      rw [e]; exact h49
    rw [this]
    norm_num

theorem ex_limits : Spec.LimitsInFormat doubleFormats (.float 32) (7 : ℚ) 56 (-1) 1 := by
  have h7 := double_nat 7 (by norm_num)
  have h56 := double_nat 56 (by norm_num)
  have h1 := double_nat 1 (by norm_num)
  have h2 := double_nat 2 (by norm_num)
  have hm : binaryRound 53 (-1074) (-1 : ℚ) = -1 := by
    rw [binaryRound_neg]
    norm_num at h1
    rw [h1]
  have o1 : binaryRound 24 (-149) (1 : ℚ) = 1 :=
    (Rounding.binary (K := ℚ) 24 (-149) (by norm_num) (by norm_num)).one
  have o2 : binaryRound 24 (-149) (-1 : ℚ) = -1 := by rw [binaryRound_neg, o1]
  norm_num at h7 h56 h1 h2
  refine ⟨h7, h56, hm, h1, ?_, o2, o1⟩
  have : (1 : ℚ) - -1 = 2 := by norm_num
  rw [this]
  exact h2

/-- And by one rescaled to binary32 in the range from -1 to 1. -/
example : ∃ f, RangeMap (7 : ℚ) 56 (-1) 1 f ∧
    rescaleIntensityFl doubleFormats .written [7, 56, 30, 60] (.uint 8) (some (7, 56)) (some (-1, 1))
      (some (.float 32)) = .ok ([7, 56, 30, 60].map f) :=
  C104_division_partial doubleFormats .written (.inl rfl) _ _ _ _ _ _ _ (by norm_num) (by norm_num)
    ex_limits

example (e : Evaluation) : ∃ out, rescaleIntensityFl doubleFormats e [7, 56, 30] (.uint 8) none
    (some (-1, 1)) (some (.float 32)) = .ok out ∧ -1 ∈ out ∧ (∀ z ∈ out, -1 ≤ z) ∧
    OrderKept [(7 : ℚ), 56, 30] out := by
  have hmin : listMin [(7 : ℚ), 56, 30] = 7 := by norm_num [listMin]
  have hmax : listMax [(7 : ℚ), 56, 30] = 56 := by norm_num [listMax]
  exact C104_order doubleFormats e [7, 56, 30] (.uint 8) (some (.float 32)) (-1) 1 7 56 (by simp)
    (by simp) (by norm_num) (by norm_num) (by rw [hmin, hmax]; exact ex_limits)

/-! ### Signed integers -/

theorem wrapInt_small {bits : ℕ} (hb : 0 < bits) {z : ℤ} (h0 : 0 ≤ z) (h1 : z < 2 ^ (bits - 1)) :
    wrapInt bits z = z := by
  have e : (2 : ℤ) ^ bits = 2 * 2 ^ (bits - 1) := by
    obtain ⟨b, rfl⟩ : ∃ b, bits = b + 1 := ⟨bits - 1, by omega⟩
    rw [Nat.add_sub_cancel, pow_succ]
    ring
  unfold wrapInt
  rw [e]
  generalize (2 : ℤ) ^ (bits - 1) = N at *
  rw [Int.emod_eq_of_lt (by omega) (by omega)]
  omega

theorem foldr_min_le (l : List ℤ) (a : ℤ) : ∀ x ∈ l, l.foldr min a ≤ x := by
  induction l with
  | nil => simp
  | cons b l ih =>
    intro x hx
    rcases List.mem_cons.mp hx with rfl | hx
    · exact min_le_left _ _
    · exact (min_le_right _ _).trans (ih x hx)

theorem le_foldr_max (l : List ℤ) (a : ℤ) : ∀ x ∈ l, x ≤ l.foldr max a := by
  induction l with
  | nil => simp
  | cons b l ih =>
    intro x hx
    rcases List.mem_cons.mp hx with rfl | hx
    · exact le_max_left _ _
    · exact (ih x hx).trans (le_max_right _ _)

/-- C104 (signed integers, partial): a pattern of signed integers is rescaled as if its numbers were
exact if its intensities span less than half of the range of its type. -/
theorem C104_signed_partial {K : Type} [Field K] [LinearOrder K] [IsStrictOrderedRing K] (bits : ℕ)
    (hb : 0 < bits) (pattern : List ℤ) (omin omax : K)
    (hspan : ∀ x ∈ pattern, ∀ y ∈ pattern, x - y < 2 ^ (bits - 1)) :
    ∃ imin imax : ℤ, (∀ x ∈ pattern, imin ≤ x ∧ x ≤ imax) ∧ (pattern ≠ [] → imin ∈ pattern ∧ imax ∈ pattern) ∧
    rescaleSigned bits pattern omin omax =
      pattern.map fun x : ℤ => rescalePixel (imin : K) imax omin omax (x : K) := by
  have hmem : ∀ (f : ℤ → ℤ → ℤ) (hf : ∀ a b, f a b = a ∨ f a b = b) (l : List ℤ) (a : ℤ),
      l.foldr f a = a ∨ l.foldr f a ∈ l := by
    intro f hf l a
    induction l with
    | nil => simp
    | cons b l ih =>
      rcases hf b (l.foldr f a) with h | h
      · right; simp [h]
      · rcases ih with ih | ih
        · left; rw [List.foldr_cons, h, ih]
        · right; rw [List.foldr_cons, h]; exact List.mem_cons_of_mem _ ih
  have hin : ∀ (f : ℤ → ℤ → ℤ) (hf : ∀ a b, f a b = a ∨ f a b = b), pattern ≠ [] →
      pattern.foldr f (pattern.headD 0) ∈ pattern := by
    intro f hf hne
    rcases hmem f hf pattern (pattern.headD 0) with h | h
    · rw [h]
      cases pattern with
      | nil => exact absurd rfl hne
      | cons a l => simp
    · exact h
  refine ⟨pattern.foldr min (pattern.headD 0), pattern.foldr max (pattern.headD 0), fun x hx =>
    ⟨foldr_min_le _ _ x hx, le_foldr_max _ _ x hx⟩, fun hne => ⟨hin _ min_choice hne, hin _ max_choice hne⟩, ?_⟩
  unfold rescaleSigned rescalePixel
  refine List.map_congr_left fun x hx => ?_
  have hne : pattern ≠ [] := List.ne_nil_of_mem hx
  rw [wrapInt_small hb (by have := foldr_min_le pattern (pattern.headD 0) x hx; omega)
    (hspan x hx _ (hin _ min_choice hne))]
  push_cast
  rfl

/-- C104 (violation): a pattern of 16 bit signed integers from -20000 to 20000, rescaled to the range
of floating point numbers from -1 to 1, has its brightest pixel far below -1. -/
theorem C104_signed_violated : rescaleSigned (K := ℚ) 16 [-20000, 0, 20000] (-1) 1 =
    [-1, 0, -2.2768] := by
  decide +kernel

example : rescaleSigned (K := ℚ) 16 [-10000, 0, 10000] (-1) 1 = [-1, 0, 1] := by decide +kernel

end Kp
