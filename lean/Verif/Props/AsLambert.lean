import Verif.Model.AsLambert
import Verif.Props.MasterPattern
import Mathlib.Tactic.FieldSimp
import Mathlib.Tactic.LinearCombination
import Mathlib.Tactic.IntervalCases

/-!
C84: Changing the projection of a master pattern and plotting it on the sphere keep the intensity of
every direction.
-/

namespace Kp

/-! ### Specification -/

/-- The Lambert coordinate of pixel `k` of `n`: equally spaced from -1 to 1. -/
noncomputable def pixelCoordinate (n k : ℕ) : ℝ := 2 * (k : ℝ) / ((n : ℝ) - 1) - 1

/-- Direction of pixel `(r, c)` of a pattern of the upper hemisphere in the Lambert projection. -/
noncomputable def lambertDirection (n r c : ℕ) : V3 ℝ :=
  lambert2vector (pixelCoordinate n c) (pixelCoordinate n r)

/-- The direction mirrored in the equator, of the same pixel of the lower hemisphere. -/
def mirrorV (v : V3 ℝ) : V3 ℝ := ⟨v.x, v.y, -v.z⟩

/-- Interpolation in a stereographic pattern gives the intensity `f` of the direction of each point
of the unit disk. `pole` is -1 for the upper and 1 for the lower hemisphere. -/
def Interpolates (interp : Img ℝ → ℝ × ℝ → ℝ) (p : Img ℝ) (pole : ℝ) (f : V3 ℝ → ℝ) : Prop :=
  ∀ x y : ℝ, x ^ 2 + y ^ 2 ≤ 1 → interp p (y + 1, x + 1) = f (stereoVector pole x y)

/-! ### Lemmas -/

theorem linCoordinate_eq (n k : ℕ) : linCoordinate n k = pixelCoordinate n k := by
  rw [linCoordinate, pixelCoordinate]; ring

theorem pixelCoordinate_abs {n k : ℕ} (hk : k < n) : |pixelCoordinate n k| ≤ 1 := by
  rw [pixelCoordinate]
  rcases Nat.lt_or_ge 1 n with hn | hn
  · have hn1 : (1 : ℝ) < n := by exact_mod_cast hn
    have hk1 : (k : ℝ) ≤ (n : ℝ) - 1 := by
      have : (k : ℝ) + 1 ≤ n := by exact_mod_cast hk
      linarith
    have h2 : 2 * (k : ℝ) / ((n : ℝ) - 1) ≤ 2 := by
      rw [div_le_iff₀ (by linarith)]; linarith
    have h3 : 0 ≤ 2 * (k : ℝ) / ((n : ℝ) - 1) := div_nonneg (by positivity) (by linarith)
    rw [abs_le]
    constructor <;> linarith
  · have : k = 0 := by omega
    subst this
    simp

theorem vector2stereo_disk {v : V3 ℝ} (h : v.IsUnit) (hz : 0 ≤ v.z) :
    (vector2stereo v).1 ^ 2 + (vector2stereo v).2 ^ 2 ≤ 1 := by
  unfold V3.IsUnit at h
  rw [vector2stereo]
  simp only
  have h1 : 0 < 1 + v.z := by linarith
  rw [div_pow, div_pow, ← add_div, div_le_one (by positivity)]
  nlinarith

theorem stereoVector_vector2stereo {v : V3 ℝ} (h : v.IsUnit) (hz : 0 ≤ v.z) :
    stereoVector (-1) (vector2stereo v).1 (vector2stereo v).2 = v := by
  unfold V3.IsUnit at h
  have h1 : (1 + v.z) ≠ 0 := by linarith
  have hs : 1 + (v.x / (1 + v.z)) ^ 2 + (v.y / (1 + v.z)) ^ 2 = 2 / (1 + v.z) := by
    rw [div_pow, div_pow, eq_div_iff h1]
    field_simp
    linear_combination h
  have hd : 1 - (v.x / (1 + v.z)) ^ 2 - (v.y / (1 + v.z)) ^ 2 = 2 * v.z / (1 + v.z) := by
    linear_combination (-1 : ℝ) * hs + (by field_simp : (2 : ℝ) = 2 / (1 + v.z) + 2 * v.z / (1 + v.z))
  rw [stereoVector, vector2stereo]
  simp only
  rw [hs, hd]
  ext
  · simp only; field_simp
  · simp only; field_simp
  · simp only; field_simp

theorem stereoVector_mirror (x y : ℝ) : stereoVector 1 x y = mirrorV (stereoVector (-1) x y) := by
  rw [stereoVector, stereoVector, mirrorV]
  ext
  · rfl
  · rfl
  · simp only; ring

theorem sample_in_disk {n r c : ℕ} (hr : r < n) (hc : c < n) :
    (vector2stereo (lambertDirection n r c)).1 ^ 2 + (vector2stereo (lambertDirection n r c)).2 ^ 2 ≤
      1 := by
  obtain ⟨hu, hz, -⟩ := C28_surjective (pixelCoordinate_abs hc) (pixelCoordinate_abs hr)
  exact vector2stereo_disk hu hz

theorem stereoSample_eq (n r c : ℕ) :
    stereoSample n r c = ((vector2stereo (lambertDirection n r c)).2 + 1,
      (vector2stereo (lambertDirection n r c)).1 + 1) := by
  rw [stereoSample, linCoordinate_eq, linCoordinate_eq]
  rfl

/-! ### Change of projection -/

/-- No coordinate is outside of the pattern that is interpolated. -/
theorem C84_samples_inside {n r c : ℕ} (hr : r < n) (hc : c < n) :
    ¬ SampleOutside (stereoSample n r c) := by
  have h := sample_in_disk hr hc
  rw [stereoSample_eq]
  rintro (h1 | h1 | h1 | h1) <;> simp only at h1 <;>
    nlinarith [sq_nonneg (vector2stereo (lambertDirection n r c)).1,
      sq_nonneg (vector2stereo (lambertDirection n r c)).2]

/-- Exactly square patterns of at least four rows that are not lazy can be changed; a pattern already
in the Lambert projection always can. -/
theorem C84_accepted (interp : Img ℝ → ℝ × ℝ → ℝ) (m : MpSignal) (hp : m.patterns ≠ []) :
    (∃ out, asLambert interp m = .ok out) ↔ m.projection = .lambert ∨
      (m.isLazy = false ∧ m.cols = m.rows ∧ 4 ≤ m.rows) := by
  rw [asLambert]
  by_cases h1 : m.projection = .lambert
  · rw [if_pos h1]; simp [h1]
  rw [if_neg h1]
  cases h2 : m.isLazy with
  | true => simp [h1]
  | false =>
    rw [if_neg (by simp)]
    by_cases h3 : m.cols ≠ m.rows ∨ m.rows < 4
    · rw [if_pos ⟨hp, h3⟩]
      simp only [reduceCtorEq, exists_false, false_iff]
      rintro (h | ⟨-, h4, h5⟩)
      · exact h1 h
      · rcases h3 with h3 | h3
        · exact h3 h4
        · omega
    · rw [if_neg (by tauto), if_neg]
      · push Not at h3
        simp [h3.1, h3.2]
      · rintro ⟨-, r, hr, c, hc, h⟩
        exact C84_samples_inside hr hc h

theorem asLambert_ok (interp : Img ℝ → ℝ × ℝ → ℝ) (m out : MpSignal)
    (h : asLambert interp m = .ok out) (hm : m.projection ≠ .lambert) (hp : m.patterns ≠ []) :
    m.cols = m.rows ∧ out = { m with
      projection := .lambert
      patterns := m.patterns.map fun p =>
        ⟨m.rows, m.cols, fun r c => interp p (stereoSample m.rows r c)⟩ } := by
  rw [asLambert, if_neg hm] at h
  split at h
  · simp at h
  split at h
  · simp at h
  rename_i h3
  split at h
  · simp at h
  · simp only [Except.ok.injEq] at h
    refine ⟨?_, h.symm⟩
    by_contra hc
    exact h3 ⟨hp, Or.inl hc⟩

/-- The result is in the Lambert projection and has the same number and shape of patterns. -/
theorem C84_shape (interp : Img ℝ → ℝ × ℝ → ℝ) (m out : MpSignal)
    (h : asLambert interp m = .ok out) :
    out.projection = .lambert ∧ out.rows = m.rows ∧ out.cols = m.cols ∧
      out.patterns.length = m.patterns.length := by
  rw [asLambert] at h
  split at h
  · rename_i h1
    simp only [Except.ok.injEq] at h
    subst h
    exact ⟨h1, rfl, rfl, rfl⟩
  split at h
  · simp at h
  split at h
  · simp at h
  split at h
  · simp at h
  · simp only [Except.ok.injEq] at h
    subst h
    exact ⟨rfl, rfl, rfl, by simp⟩

/-- Each pixel of each pattern of the upper hemisphere gets the intensity of its direction in the
pattern at the same place. -/
theorem C84_upper (interp : Img ℝ → ℝ × ℝ → ℝ) (m out : MpSignal)
    (h : asLambert interp m = .ok out) (hm : m.projection = .stereographic) (k : ℕ) (p q : Img ℝ)
    (hp : m.patterns[k]? = some p) (hq : out.patterns[k]? = some q) (f : V3 ℝ → ℝ)
    (hf : Interpolates interp p (-1) f) (r c : ℕ) (hr : r < m.rows) (hc : c < m.cols) :
    q.val r c = f (lambertDirection m.rows r c) := by
  obtain ⟨hsq, hout⟩ := asLambert_ok interp m out h (by rw [hm]; decide) (by
    intro h0; rw [h0] at hp; simp at hp)
  rw [hout] at hq
  simp only [List.getElem?_map, hp, Option.map_some, Option.some.injEq] at hq
  rw [← hq]
  simp only
  rw [hsq] at hc
  obtain ⟨hu, hz, -⟩ := C28_surjective (pixelCoordinate_abs hc) (pixelCoordinate_abs hr)
  rw [stereoSample_eq, hf _ _ (sample_in_disk hr hc)]
  exact congrArg f (stereoVector_vector2stereo hu hz)

/-- The same holds for patterns of the lower hemisphere, with directions mirrored in the equator. -/
theorem C84_lower (interp : Img ℝ → ℝ × ℝ → ℝ) (m out : MpSignal)
    (h : asLambert interp m = .ok out) (hm : m.projection = .stereographic) (k : ℕ) (p q : Img ℝ)
    (hp : m.patterns[k]? = some p) (hq : out.patterns[k]? = some q) (f : V3 ℝ → ℝ)
    (hf : Interpolates interp p 1 f) (r c : ℕ) (hr : r < m.rows) (hc : c < m.cols) :
    q.val r c = f (mirrorV (lambertDirection m.rows r c)) :=
  C84_upper interp m out h hm k p q hp hq (fun v => f (mirrorV v))
    (fun x y hxy => by rw [hf x y hxy, stereoVector_mirror]) r c hr hc

/-- Simulating a pattern from the result gives, in the direction of every pixel of both hemispheres,
the intensity of that direction. -/
theorem C84_simulated (interp : Img ℝ → ℝ × ℝ → ℝ) (m out : MpSignal)
    (h : asLambert interp m = .ok out) (hm : m.projection = .stereographic) (i j : ℕ)
    (p p' q q' : Img ℝ) (hp : m.patterns[i]? = some p) (hq : out.patterns[i]? = some q)
    (hp' : m.patterns[j]? = some p') (hq' : out.patterns[j]? = some q') (f : V3 ℝ → ℝ)
    (hf : Interpolates interp p (-1) f) (hf' : Interpolates interp p' 1 f) (hn : 1 < m.rows) (r c : ℕ)
    (hr : r < m.rows) (hc : c < m.cols) :
    projectPixel ⟨1, 0, 0, 0⟩ q q' m.rows m.rows (((m.rows : ℝ) - 1) / 2)
      (lambertDirection m.rows r c) = f (lambertDirection m.rows r c) ∧
    (0 < (lambertDirection m.rows r c).z →
      projectPixel ⟨1, 0, 0, 0⟩ q q' m.rows m.rows (((m.rows : ℝ) - 1) / 2)
        (mirrorV (lambertDirection m.rows r c)) = f (mirrorV (lambertDirection m.rows r c))) := by
  obtain ⟨hsq, -⟩ := asLambert_ok interp m out h (by rw [hm]; decide) (by
    intro h0; rw [h0] at hp; simp at hp)
  have hc' : c < m.rows := by rw [← hsq]; exact hc
  obtain ⟨hu, hz, -⟩ := C28_surjective (pixelCoordinate_abs hc') (pixelCoordinate_abs hr)
  constructor
  · rw [← C84_upper interp m out h hm i p q hp hq f hf r c hr hc]
    exact C29_grid_points hn q q' hr hc'
  · intro hpos
    rw [← C84_lower interp m out h hm j p' q' hp' hq' f hf' r c hr hc]
    have h1 : projectPixel ⟨1, 0, 0, 0⟩ q q' m.rows m.rows (((m.rows : ℝ) - 1) / 2)
        (mirrorV (lambertDirection m.rows r c)) =
        projectPixel ⟨1, 0, 0, 0⟩ q' q' m.rows m.rows (((m.rows : ℝ) - 1) / 2)
        (mirrorV (lambertDirection m.rows r c)) := by
      unfold projectPixel
      simp only [rotateVector_one, mirrorV]
      rw [if_neg (by linarith), ite_self]
    rw [h1]
    exact (C62_mirror q' m.rows m.rows _ hu).trans (C29_grid_points hn q' q' hr hc')

/-! ### Plotting -/

theorem mem_plottedPixels (n : ℕ) (upper : Img ℝ) (p : ℕ × ℕ) :
    p ∈ plottedPixels n upper ↔ p.1 < n ∧ p.2 < n ∧ upper.val p.1 p.2 ≠ 0 := by
  rw [plottedPixels, List.mem_filter, List.mem_flatMap]
  constructor
  · rintro ⟨⟨r, hr, h⟩, hne⟩
    rw [List.mem_map] at h
    obtain ⟨c, hc, rfl⟩ := h
    exact ⟨List.mem_range.mp hr, List.mem_range.mp hc, by simpa using hne⟩
  · rintro ⟨hr, hc, hne⟩
    exact ⟨⟨p.1, List.mem_range.mpr hr, List.mem_map.mpr ⟨p.2, List.mem_range.mpr hc, rfl⟩⟩,
      by simpa using hne⟩

/-- Direction of a pixel in the stereographic projection. -/
noncomputable def stereoDirection (n : ℕ) (pole : ℝ) (r c : ℕ) : V3 ℝ :=
  stereoVector pole (pixelCoordinate n c) (pixelCoordinate n r)

/-- The pixel is in the unit disk, hence shows a direction of its hemisphere. -/
def InDisk (n r c : ℕ) : Prop := pixelCoordinate n c ^ 2 + pixelCoordinate n r ^ 2 ≤ 1

/-- If exactly the pixels outside of the disk are black in the upper pattern, exactly the pixels of
the disk are plotted, each with its intensity at its direction, in both hemispheres. -/
theorem C84_plot_partial (n : ℕ) (upper lower : Img ℝ)
    (hblack : ∀ r < n, ∀ c < n, upper.val r c ≠ 0 ↔ InDisk n r c) (v : V3 ℝ) (a : ℝ) :
    (v, a) ∈ sphericalPoints n (hemispheresOf true upper lower).1 (hemispheresOf true upper lower).2 ↔ ∃ r < n, ∃ c < n, InDisk n r c ∧
      ((v = stereoDirection n (-1) r c ∧ a = upper.val r c) ∨
        (v = stereoDirection n 1 r c ∧ a = lower.val r c)) := by
  rw [hemispheresOf, if_pos rfl, sphericalPoints, List.mem_append, List.mem_map, List.mem_map]
  constructor
  · rintro (⟨p, hp, he⟩ | ⟨p, hp, he⟩) <;>
      rw [mem_plottedPixels] at hp <;> obtain ⟨hr, hc, hne⟩ := hp <;>
      rw [Prod.mk.injEq, linCoordinate_eq, linCoordinate_eq] at he
    · exact ⟨p.1, hr, p.2, hc, (hblack _ hr _ hc).mp hne, Or.inl ⟨he.1.symm, he.2.symm⟩⟩
    · exact ⟨p.1, hr, p.2, hc, (hblack _ hr _ hc).mp hne, Or.inr ⟨he.1.symm, he.2.symm⟩⟩
  · rintro ⟨r, hr, c, hc, hd, ⟨rfl, rfl⟩ | ⟨rfl, rfl⟩⟩
    · refine Or.inl ⟨(r, c), (mem_plottedPixels _ _ _).mpr ⟨hr, hc, (hblack r hr c hc).mpr hd⟩, ?_⟩
      rw [linCoordinate_eq, linCoordinate_eq]; rfl
    · refine Or.inr ⟨(r, c), (mem_plottedPixels _ _ _).mpr ⟨hr, hc, (hblack r hr c hc).mpr hd⟩, ?_⟩
      rw [linCoordinate_eq, linCoordinate_eq]; rfl

/-- A pixel of the disk that is black in the upper pattern is missing in both hemispheres, whatever
its intensity in the lower one. -/
theorem C84_plot_black_violated (lower : Img ℝ) :
    ∀ p ∈ sphericalPoints 3 ⟨3, 3, fun r c => if r = 1 ∧ c = 1 then 0 else 1⟩ lower,
      p.1 ≠ stereoDirection 3 1 1 1 := by
  have hs : stereoDirection 3 1 1 1 = ⟨0, 0, -1⟩ := by
    rw [stereoDirection, stereoVector, pixelCoordinate]
    ext <;> norm_num
  rw [hs]
  intro p hp he
  rw [sphericalPoints, List.mem_append, List.mem_map, List.mem_map] at hp
  rcases hp with ⟨q, hq, rfl⟩ | ⟨q, hq, rfl⟩
  · have h := congrArg V3.z he
    rw [stereoVector] at h
    simp only at h
    set x := linCoordinate 3 q.2
    set y := linCoordinate 3 q.1
    have hpos : 0 < 1 + x ^ 2 + y ^ 2 := by positivity
    rw [div_eq_iff hpos.ne'] at h
    linarith
  · rw [mem_plottedPixels] at hq
    obtain ⟨h1, h2, h3⟩ := hq
    have hx := congrArg V3.x he
    have hy := congrArg V3.y he
    have hz : ∀ k : ℕ, k < 3 → linCoordinate 3 k = 0 → k = 1 := by
      intro k hk h0
      rw [linCoordinate] at h0
      interval_cases k <;> first | rfl | norm_num at h0
    rw [stereoVector] at hx hy
    simp only at hx hy
    set x := linCoordinate 3 q.2 with hxd
    set y := linCoordinate 3 q.1 with hyd
    have hpos : 0 < 1 + x ^ 2 + y ^ 2 := by positivity
    rw [div_eq_iff hpos.ne'] at hx hy
    have e1 := hz q.2 h2 (by linarith)
    have e2 := hz q.1 h1 (by linarith)
    simp [e1, e2] at h3

/-- A pixel outside of the disk that is not black is plotted in the other hemisphere. -/
theorem C84_plot_outside_violated (n : ℕ) (upper lower : Img ℝ) (r c : ℕ) (hr : r < n) (hc : c < n)
    (hd : ¬ InDisk n r c) (hu : upper.val r c ≠ 0) :
    ∃ v, v.z < 0 ∧ (v, upper.val r c) ∈ sphericalPoints n upper lower := by
  refine ⟨stereoVector (-1) (linCoordinate n c) (linCoordinate n r), ?_, ?_⟩
  · rw [InDisk, not_le, ← linCoordinate_eq, ← linCoordinate_eq] at hd
    rw [stereoVector]
    simp only
    apply div_neg_of_neg_of_pos
    · linarith
    · positivity
  · rw [sphericalPoints, List.mem_append]
    left
    rw [List.mem_map]
    exact ⟨(r, c), (mem_plottedPixels _ _ _).mpr ⟨hr, hc, hu⟩, rfl⟩

/-- With one hemisphere, the other is plotted as its mirror image in the equator. This is right for
intensities that are symmetric about the equator. -/
theorem C84_plot_one_hemisphere_partial (n : ℕ) (upper other : Img ℝ) (f : V3 ℝ → ℝ)
    (hf : ∀ v, f (mirrorV v) = f v)
    (hupper : ∀ r < n, ∀ c < n, upper.val r c = f (stereoDirection n (-1) r c)) (v : V3 ℝ) (a : ℝ)
    (h : (v, a) ∈ sphericalPoints n (hemispheresOf false upper other).1
      (hemispheresOf false upper other).2) : a = f v := by
  rw [hemispheresOf, if_neg (by simp)] at h
  simp only at h
  rw [sphericalPoints, List.mem_append, List.mem_map, List.mem_map] at h
  rcases h with ⟨p, hp, he⟩ | ⟨p, hp, he⟩ <;> rw [mem_plottedPixels] at hp <;>
    obtain ⟨h1, h2, -⟩ := hp <;> rw [Prod.mk.injEq, linCoordinate_eq, linCoordinate_eq] at he <;>
    rw [← he.1, ← he.2, hupper _ h1 _ h2]
  · rfl
  · rw [stereoVector_mirror, hf]; rfl

/-- For intensities with inversion symmetry only, as of a centrosymmetric phase, for which one
hemisphere is accepted, this is wrong. -/
theorem C84_plot_one_hemisphere_violated :
    ∃ (f : V3 ℝ → ℝ) (n : ℕ) (upper : Img ℝ), (∀ v : V3 ℝ, f ⟨-v.x, -v.y, -v.z⟩ = f v) ∧
      (∀ r < n, ∀ c < n, upper.val r c = f (stereoDirection n (-1) r c)) ∧
      sphericalAccepted .stereographic false true = true ∧
      ∃ v a, (v, a) ∈ sphericalPoints n (hemispheresOf false upper upper).1
        (hemispheresOf false upper upper).2 ∧ a ≠ f v := by
  refine ⟨fun v => v.x * v.z, 5, ⟨5, 5, fun r c => (stereoDirection 5 (-1) r c).x *
    (stereoDirection 5 (-1) r c).z⟩, ?_, ?_, by decide, ⟨4 / 5, 0, -(3 / 5)⟩, 12 / 25, ?_, ?_⟩
  · intro v; simp only; ring
  · intro r _ c _; rfl
  · have hv : stereoDirection 5 (-1) 2 3 = ⟨4 / 5, 0, 3 / 5⟩ := by
      rw [stereoDirection, stereoVector, pixelCoordinate, pixelCoordinate]
      ext <;> norm_num
    have hval : (stereoDirection 5 (-1) 2 3).x * (stereoDirection 5 (-1) 2 3).z = 12 / 25 := by
      rw [hv]; norm_num
    rw [hemispheresOf, if_neg (by simp)]
    simp only
    rw [sphericalPoints, List.mem_append]
    right
    rw [List.mem_map]
    refine ⟨(2, 3), (mem_plottedPixels _ _ _).mpr ⟨by norm_num, by norm_num, ?_⟩, ?_⟩
    · simp only; rw [hval]; norm_num
    · rw [Prod.mk.injEq]
      refine ⟨?_, hval⟩
      rw [linCoordinate_eq, linCoordinate_eq, stereoVector_mirror]
      change mirrorV (stereoDirection 5 (-1) 2 3) = _
      rw [hv]; rfl
  · norm_num

/-! ### Examples -/

/-- Interpolation that is exact exists: for the intensity `z`, the formula of the height of a point of
the disk. -/
example : Interpolates (fun _ p => (1 - (p.2 - 1) ^ 2 - (p.1 - 1) ^ 2) /
    (1 + (p.2 - 1) ^ 2 + (p.1 - 1) ^ 2)) ⟨5, 5, fun _ _ => 0⟩ (-1) V3.z := by
  intro x y _
  rw [stereoVector]
  simp

/-- A pattern that can be changed. -/
example : ∃ out, asLambert (fun p _ => p.val 0 0) ⟨.stereographic, false, 5, 5, [⟨5, 5, fun _ _ => 1⟩]⟩ =
    .ok out :=
  (C84_accepted _ _ (by simp)).mpr (Or.inr ⟨rfl, rfl, by norm_num⟩)

end Kp
