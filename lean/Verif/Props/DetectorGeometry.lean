import Verif.Lemmas.DetectorGeometry
import Verif.Props.PcConventions

/-
C04-C07: gnomonic coordinates, cropping and `r_max` of `EBSDDetector`.
-/

namespace Kp
open Spec

variable {K : Type*} [Field K] [LinearOrder K] [IsStrictOrderedRing K]

/-! ### C04 -/

/-- C04: pixel -> gnomonic -> pixel and gnomonic -> pixel -> gnomonic are the identity for
every coordinate pair, shape and PC. -/
theorem C04_pixel_gnomonic_inverse (d : Detector K) (p : PC K) (hr : d.nrows ≠ 0)
    (hc : d.ncols ≠ 0) (hz : p.z ≠ 0) (c : K × K) :
    d.toPixel p (d.toGnomonic p c) = c ∧ d.toGnomonic p (d.toPixel p c) = c :=
  ⟨toPixel_toGnomonic d p hr hc hz c, toGnomonic_toPixel d p hr hc hz c⟩

/-- C04: the gnomonic coordinates are the offset from the projection center divided by the
detector distance (similar triangles). -/
theorem C04_gnomonic_is_similar_triangles (d : Detector K) (p : PC K) (hr : d.nrows ≠ 0)
    (hc : d.ncols ≠ 0) (hz : p.z ≠ 0) (c : K × K) :
    d.toGnomonic p c = gnomonic d.nrows d.ncols p c :=
  toGnomonic_eq_spec d p hr hc hz c

/-- C04: the projection center is the gnomonic origin, and the upper left and lower right
detector corners have the gnomonic bounds as coordinates. -/
theorem C04_special_points (d : Detector K) (p : PC K) (hr : d.nrows ≠ 0)
    (hc : d.ncols ≠ 0) (hz : p.z ≠ 0) :
    d.toGnomonic p (p.y * d.nrows, p.x * d.ncols) = (0, 0) ∧
    d.toGnomonic p (0, 0) = (d.yMax p, d.xMin p) ∧
    d.toGnomonic p (d.nrows, d.ncols) = (d.yMin p, d.xMax p) := by
  have hr' : (d.nrows : K) ≠ 0 := by exact_mod_cast hr
  have hc' : (d.ncols : K) ≠ 0 := by exact_mod_cast hc
  simp only [toGnomonic_eq_spec d p hr hc hz, gnomonic, Detector.xMin, Detector.xMax,
    Detector.yMin, Detector.yMax, Detector.aspect]
  refine ⟨by simp, ?_, ?_⟩ <;> refine Prod.ext ?_ ?_ <;> simp <;> field_simp

/-- C04 for whole arrays and all map points: `to_pixel_coords(to_gnomonic_coords(c))`
returns, for every map point `i`, the coordinates given for that map point: `c[i, j]` when
one set of coordinates per map point was given, and `c[j]` when the coordinates are
shared by all map points. -/
theorem C04_array_roundtrip (d : Detector K) (pcAt : List ℕ → PC K) (c : Coords K)
    (hr : d.nrows ≠ 0) (hc : d.ncols ≠ 0) (hz : ∀ i, (pcAt i).z ≠ 0)
    (hdim : c.shape ≠ []) :
    let out := d.toPixelCoords pcAt (d.toGnomonicCoords pcAt c)
    (∀ rest, rest ≠ [] → c.shape = d.nav ++ rest →
        out.shape = c.shape ∧ ∀ i, out.val i = c.val i) ∧
    ((¬ ∃ rest, rest ≠ [] ∧ c.shape = d.nav ++ rest) →
        out.shape = d.nav ++ c.shape ∧
        ∀ i j, i.length = d.nav.length → out.val (i ++ j) = c.val j) := by
  intro out
  have hconv : ∀ s : List ℕ, (s.length ≥ d.nav.length + 1 ∧ s.take d.nav.length = d.nav) ↔
      ∃ rest, rest ≠ [] ∧ s = d.nav ++ rest := by
    intro s
    constructor
    · rintro ⟨h1, h2⟩
      refine ⟨s.drop d.nav.length, ?_, ?_⟩
      · intro h
        have := congrArg List.length h
        simp at this
        omega
      · conv_lhs => rw [← List.take_append_drop d.nav.length s, h2]
    · rintro ⟨rest, h1, rfl⟩
      have := List.length_pos_iff.2 h1
      constructor
      · simp only [List.length_append]; omega
      · simp
  have hrt : ∀ (p : PC K) (x : K × K), p.z ≠ 0 →
      convertPair (d.gnToPix p) (convertPair (d.pixToGn p) x) = x :=
    fun p x h => toPixel_toGnomonic d p hr hc h x
  constructor
  · intro rest hrest hs
    have hcond := (hconv c.shape).2 ⟨rest, hrest, hs⟩
    have h1 : d.toGnomonicCoords pcAt c = { shape := c.shape, val := fun i => convertPair (d.pixToGn (pcAt (i.take d.nav.length))) (c.val i) } := by
      unfold Detector.toGnomonicCoords convertCoordinates
      rw [if_pos hcond]
    have h2 : out = { shape := c.shape, val := fun i => convertPair (d.gnToPix (pcAt (i.take d.nav.length))) (convertPair (d.pixToGn (pcAt (i.take d.nav.length))) (c.val i)) } := by
      show d.toPixelCoords pcAt (d.toGnomonicCoords pcAt c) = _
      rw [h1]
      unfold Detector.toPixelCoords convertCoordinates
      rw [if_pos hcond]
    rw [h2]
    exact ⟨rfl, fun i => hrt _ _ (hz _)⟩
  · intro hn
    have hcond : ¬ _ := fun h => hn ((hconv c.shape).1 h)
    have h1 : d.toGnomonicCoords pcAt c = { shape := d.nav ++ c.shape, val := fun i => convertPair (d.pixToGn (pcAt (i.take d.nav.length))) (c.val (i.drop d.nav.length)) } := by
      unfold Detector.toGnomonicCoords convertCoordinates
      rw [if_neg hcond]
    have h2 : out = { shape := d.nav ++ c.shape, val := fun i => convertPair (d.gnToPix (pcAt (i.take d.nav.length))) (convertPair (d.pixToGn (pcAt (i.take d.nav.length))) (c.val (i.drop d.nav.length))) } := by
      show d.toPixelCoords pcAt (d.toGnomonicCoords pcAt c) = _
      rw [h1]
      unfold Detector.toPixelCoords convertCoordinates
      rw [if_pos ((hconv _).2 ⟨c.shape, hdim, rfl⟩)]
    rw [h2]
    refine ⟨rfl, fun i j hi => ?_⟩
    have hd : (i ++ j).drop d.nav.length = j := by rw [← hi]; simp
    simp only [hd]
    exact hrt _ _ (hz _)

example : exDet.nrows ≠ 0 ∧ exDet.ncols ≠ 0 ∧ (∀ p ∈ exDet.pc, p.z ≠ 0) ∧
    exDet.toGnomonic ⟨1/3, 2/3, 1/2⟩ (10, 20) = (1, -(2/9)) := by
  refine ⟨by decide, by decide, by decide +kernel, by decide +kernel⟩

/-! ### C05 -/

/-- C05: for every map point `k`, pixel `(y, x)` of the cropped detector has the same
gnomonic coordinates as pixel `(y + top, x + left)` of the original detector, where top
and left are the clamped extent limits. -/
theorem C05_crop_keeps_gnomonic (d d' : Detector K) (t b l r : ℤ)
    (h : d.crop (t, b, l, r) = .ok d') (k : ℕ) (p p' : PC K) (hp : d.pc[k]? = some p)
    (hp' : d'.pc[k]? = some p') (hz : p.z ≠ 0) (y x : K) :
    d'.toGnomonic p' (y, x) = d.toGnomonic p (y + (max t 0 : ℤ), x + (max l 0 : ℤ)) := by
  unfold Detector.crop at h
  simp only at h
  split at h
  · cases h
  · rename_i hpos
    simp only [not_or, not_le, cropExtent] at hpos
    obtain ⟨hy, hx⟩ := hpos
    simp only [Except.ok.injEq] at h
    subst h
    simp only [List.getElem?_map, hp, Option.map_some, Option.some.injEq] at hp'
    subst hp'
    have hr : d.nrows ≠ 0 := by omega
    have hc : d.ncols ≠ 0 := by omega
    have hr' : (d.nrows : K) ≠ 0 := by exact_mod_cast hr
    have hc' : (d.ncols : K) ≠ 0 := by exact_mod_cast hc
    simp only [cropExtent]
    generalize hny : min b (d.nrows : ℤ) - max t 0 = ny at *
    generalize hnx : min r (d.ncols : ℤ) - max l 0 = nx at *
    have hny0 : (ny : K) ≠ 0 := by
      have : ny ≠ 0 := by omega
      exact_mod_cast this
    have hnx0 : (nx : K) ≠ 0 := by
      have : nx ≠ 0 := by omega
      exact_mod_cast this
    have hyc : ((ny.toNat : ℕ) : K) = (ny : K) := by
      have : ((ny.toNat : ℕ) : ℤ) = ny := Int.toNat_of_nonneg hy.le
      exact_mod_cast congrArg (Int.cast : ℤ → K) this
    have hxc : ((nx.toNat : ℕ) : K) = (nx : K) := by
      have : ((nx.toNat : ℕ) : ℤ) = nx := Int.toNat_of_nonneg hx.le
      exact_mod_cast congrArg (Int.cast : ℤ → K) this
    rw [toGnomonic_eq_spec _ _ (by simp; omega) (by simp; omega), toGnomonic_eq_spec _ _ hr hc hz]
    · simp only [gnomonic, Detector.cropPc, hyc, hxc]
      refine Prod.ext ?_ ?_ <;> simp only <;> field_simp <;> ring
    · simp only [Detector.cropPc]
      exact div_ne_zero (mul_ne_zero hz hr') hny0

example : (exDet.crop (10, 55, -3, 20)).isOk := by decide +kernel

omit [LinearOrder K] [IsStrictOrderedRing K] in
/-- C05: the pixels of the cropped detector are exactly the original pixels inside the
extent, shifted by the clamped top and left limits. -/
theorem C05_crop_pixels (d d' : Detector K) (t b l r : ℤ)
    (h : d.crop (t, b, l, r) = .ok d') (i j : ℤ) :
    ((0 ≤ i ∧ i < d'.nrows) ∧ (0 ≤ j ∧ j < d'.ncols)) ↔
    ((0 ≤ i + max t 0 ∧ i + max t 0 < d.nrows ∧ t ≤ i + max t 0 ∧ i + max t 0 < b) ∧
     (0 ≤ j + max l 0 ∧ j + max l 0 < d.ncols ∧ l ≤ j + max l 0 ∧ j + max l 0 < r) ∧
     0 ≤ i ∧ 0 ≤ j) := by
  unfold Detector.crop at h
  simp only at h
  split at h
  · cases h
  · rename_i hpos
    simp only [not_or, not_le, cropExtent] at hpos
    simp only [Except.ok.injEq] at h
    subst h
    simp only [cropExtent]
    omega

omit [LinearOrder K] [IsStrictOrderedRing K] in
/-- C05: cropping raises `ValueError` exactly when no detector pixel is inside the
extent. -/
theorem C05_crop_error_iff_empty (d : Detector K) (t b l r : ℤ) :
    d.crop (t, b, l, r) = .error .valueError ↔
      ¬ ∃ i j : ℕ, (i < d.nrows ∧ t ≤ i ∧ (i : ℤ) < b) ∧ (j < d.ncols ∧ l ≤ j ∧ (j : ℤ) < r) := by
  rw [crop_eq]
  constructor
  · intro h
    split at h
    · rename_i hpos
      rintro ⟨i, j, h1, h2⟩
      omega
    · cases h
  · intro h
    rw [if_pos]
    by_contra hpos
    apply h
    refine ⟨(max t 0).toNat, (max l 0).toNat, ?_, ?_⟩ <;> omega

/-- C05: cropping twice is the same as cropping once with the composed extent. -/
theorem C05_crop_crop (d d' : Detector K) (t b l r t' b' l' r' : ℤ)
    (h : d.crop (t, b, l, r) = .ok d') :
    d'.crop (t', b', l', r') =
      d.crop (max t 0 + max t' 0, min (min b d.nrows) (max t 0 + b'),
              max l 0 + max l' 0, min (min r d.ncols) (max l 0 + r')) := by
  rw [crop_eq] at h
  split at h
  · cases h
  · rename_i hpos
    simp only [not_or, not_le] at hpos
    obtain ⟨hy, hx⟩ := hpos
    simp only [Except.ok.injEq] at h
    subst h
    rw [crop_eq, crop_eq]
    simp only
    have e1 : (((min b (d.nrows : ℤ) - max t 0).toNat : ℕ) : ℤ) = min b (d.nrows : ℤ) - max t 0 :=
      Int.toNat_of_nonneg hy.le
    have e2 : (((min r (d.ncols : ℤ) - max l 0).toNat : ℕ) : ℤ) = min r (d.ncols : ℤ) - max l 0 :=
      Int.toNat_of_nonneg hx.le
    have f3 : max (max t 0 + max t' 0) 0 = max t 0 + max t' 0 := by omega
    have f4 : max (max l 0 + max l' 0) 0 = max l 0 + max l' 0 := by omega
    rw [e1, e2, crop_compose_arith _ b t t' b' (Int.natCast_nonneg _),
      crop_compose_arith _ r l l' r' (Int.natCast_nonneg _), f3, f4]
    generalize hny : min b (d.nrows : ℤ) - max t 0 = ny at *
    generalize hnx : min r (d.ncols : ℤ) - max l 0 = nx at *
    generalize hny2 : min b' ny - max t' 0 = ny2 at *
    generalize hnx2 : min r' nx - max l' 0 = nx2 at *
    split
    · rfl
    · rename_i hpos2
      simp only [not_or, not_le] at hpos2
      have hny0 : (ny : K) ≠ 0 := by
        have : ny ≠ 0 := by omega
        exact_mod_cast this
      have hnx0 : (nx : K) ≠ 0 := by
        have : nx ≠ 0 := by omega
        exact_mod_cast this
      have hny20 : (ny2 : K) ≠ 0 := by
        have : ny2 ≠ 0 := by omega
        exact_mod_cast this
      have hnx20 : (nx2 : K) ≠ 0 := by
        have : nx2 ≠ 0 := by omega
        exact_mod_cast this
      have hyc : ((ny.toNat : ℕ) : K) = (ny : K) := by
        exact_mod_cast congrArg (Int.cast : ℤ → K) e1
      have hxc : ((nx.toNat : ℕ) : K) = (nx : K) := by
        exact_mod_cast congrArg (Int.cast : ℤ → K) e2
      have hnav : dstackNav (dstackNav d.nav) = dstackNav d.nav := by
        unfold dstackNav
        split <;> rename_i h1
        · split at h1 <;> simp_all
        · rfl
      simp only [hnav, Except.ok.injEq, Detector.mk.injEq, true_and, List.map_map,
        List.map_inj_left, Function.comp]
      intro p _
      simp only [Detector.cropPc, hyc, hxc]
      ext <;> simp only <;> push_cast <;> field_simp <;> ring

example : (exDet.crop (10, 55, -3, 20)).bind (·.crop (5, 200, 1, 9)) =
    exDet.crop (15, 55, 1, 9) ∧ (exDet.crop (15, 55, 1, 9)).isOk := by
  constructor <;> decide +kernel

/-! ### C06 -/

omit [LinearOrder K] [IsStrictOrderedRing K] in
/-- C06, the part that holds: cropping keeps pixel size, binning, tilt, azimuthal angle and
sample tilt, the number and order of PCs, and the navigation shape of 2D maps.  Missing
from the full property ("everything but shape and PC values is kept"): `twist` is not
kept, and a 1D navigation shape `(n,)` becomes `(1, n)`. -/
theorem C06_crop_keeps_parameters_partial (d d' : Detector K) (e : ℤ × ℤ × ℤ × ℤ)
    (h : d.crop e = .ok d') :
    d'.pxSize = d.pxSize ∧ d'.binning = d.binning ∧ d'.tilt = d.tilt ∧
    d'.azimuthal = d.azimuthal ∧ d'.sampleTilt = d.sampleTilt ∧
    d'.pc.length = d.pc.length ∧ (d.nav.length = 2 → d'.nav = d.nav) := by
  unfold Detector.crop at h
  simp only at h
  split at h
  · cases h
  · simp only [Except.ok.injEq] at h
    subst h
    refine ⟨rfl, rfl, rfl, rfl, rfl, by simp, ?_⟩
    intro h2
    simp only [dstackNav]
    split
    · simp_all
    · rfl

/-- C06 is false of the code: cropping a detector with a twist gives a detector without
(`crop` does not pass `twist` to the constructor). -/
theorem C06_crop_drops_twist :
    ∃ (d d' : Detector ℚ) (e : ℤ × ℤ × ℤ × ℤ), d.crop e = .ok d' ∧ d'.twist ≠ d.twist :=
  ⟨exDet, { exDet with nrows := 45, ncols := 20, twist := 0, nav := [1, 2], pc := [⟨4/3, 2/3, 2/3⟩, ⟨2, 2/45, 1⟩] },
    (10, 55, -3, 20), by decide +kernel, by decide +kernel⟩

/-- C06 is false of the code: the navigation shape `(2,)` becomes `(1, 2)`. -/
theorem C06_crop_changes_1d_navigation_shape :
    ∃ (d d' : Detector ℚ) (e : ℤ × ℤ × ℤ × ℤ), d.crop e = .ok d' ∧ d.nav = [2] ∧
      d'.nav = [1, 2] :=
  ⟨exDet, { exDet with nrows := 45, ncols := 20, twist := 0, nav := [1, 2], pc := [⟨4/3, 2/3, 2/3⟩, ⟨2, 2/45, 1⟩] },
    (10, 55, -3, 20), by decide +kernel, by decide +kernel, by decide +kernel⟩

/-! ### C07 -/

/-- The gnomonic points of the detector area. -/
def OnDetector (d : Detector K) (p : PC K) (g : K × K) : Prop :=
  ∃ y x : K, 0 ≤ y ∧ y ≤ d.nrows ∧ 0 ≤ x ∧ x ≤ d.ncols ∧ g = d.toGnomonic p (y, x)

theorem onDetector_bounds (d : Detector K) (p : PC K) (hr : d.nrows ≠ 0) (hc : d.ncols ≠ 0)
    (hz : 0 < p.z) (g : K × K) (h : OnDetector d p g) :
    d.yMin p ≤ g.1 ∧ g.1 ≤ d.yMax p ∧ d.xMin p ≤ g.2 ∧ g.2 ≤ d.xMax p := by
  obtain ⟨y, x, h1, h2, h3, h4, rfl⟩ := h
  have hr' : (0 : K) < d.nrows := by exact_mod_cast Nat.pos_of_ne_zero hr
  have hc' : (0 : K) < d.ncols := by exact_mod_cast Nat.pos_of_ne_zero hc
  rw [toGnomonic_eq_spec d p hr hc hz.ne']
  simp only [gnomonic, Detector.xMin, Detector.xMax, Detector.yMin, Detector.yMax, Detector.aspect]
  refine ⟨?_, ?_, ?_, ?_⟩
  · rw [div_le_div_iff₀ (by positivity) (by positivity)]; nlinarith
  · rw [div_le_div_iff₀ (by positivity) (by positivity)]; nlinarith
  · rw [show -((d.ncols : K) / d.nrows) * (p.x / p.z) = (-(d.ncols * p.x)) / (p.z * d.nrows) by
      field_simp]
    rw [div_le_div_iff₀ (by positivity) (by positivity)]; nlinarith [mul_pos hz hr']
  · rw [show ((d.ncols : K) / d.nrows) * (1 - p.x) / p.z = (d.ncols * (1 - p.x)) / (p.z * d.nrows) by
      field_simp]
    rw [div_le_div_iff₀ (by positivity) (by positivity)]; nlinarith [mul_pos hz hr']

/-- C07, the part that holds: when the PC is not in the lower right quadrant (PCx > 1/2 and
PCy > 1/2), `r_max` is the distance to the furthest point of the detector: it bounds the
distance of every point and is attained.  Missing: PCs in the lower right quadrant, see
`C07_r_max_too_small_in_lower_right_quadrant`. -/
theorem C07_r_max_is_maximal_partial (d : Detector K) (p : PC K) (hr : d.nrows ≠ 0)
    (hc : d.ncols ≠ 0) (hz : 0 < p.z) (hq : p.x ≤ 1 / 2 ∨ p.y ≤ 1 / 2) :
    (∀ g, OnDetector d p g → g.1 ^ 2 + g.2 ^ 2 ≤ d.rMaxSq p) ∧
    (∃ g, OnDetector d p g ∧ g.1 ^ 2 + g.2 ^ 2 = d.rMaxSq p) := by
  have hr' : (0 : K) < d.nrows := by exact_mod_cast Nat.pos_of_ne_zero hr
  have hc' : (0 : K) < d.ncols := by exact_mod_cast Nat.pos_of_ne_zero hc
  have ha : (0 : K) < d.aspect := div_pos hc' hr'
  constructor
  · intro g hg
    obtain ⟨h1, h2, h3, h4⟩ := onDetector_bounds d p hr hc hz g hg
    have hy := sq_le_max_sq h1 h2
    have hx := sq_le_max_sq h3 h4
    have hll : d.xMin p ^ 2 ≤ d.xMax p ^ 2 ∨ d.yMax p ^ 2 ≤ d.yMin p ^ 2 := by
      rcases hq with hq | hq
      · left
        have : d.xMax p ^ 2 - d.xMin p ^ 2 = d.aspect ^ 2 * (1 - 2 * p.x) / p.z ^ 2 := by
          simp only [Detector.xMax, Detector.xMin]; field_simp; ring
        have h0 : 0 ≤ d.aspect ^ 2 * (1 - 2 * p.x) / p.z ^ 2 := by
          apply div_nonneg _ (by positivity)
          apply mul_nonneg (by positivity)
          linarith
        linarith
      · right
        have : d.yMin p ^ 2 - d.yMax p ^ 2 = (1 - 2 * p.y) / p.z ^ 2 := by
          simp only [Detector.yMax, Detector.yMin]; field_simp; ring
        have h0 : 0 ≤ (1 - 2 * p.y) / p.z ^ 2 := by
          apply div_nonneg _ (by positivity)
          linarith
        linarith
    simp only [Detector.rMaxSq, le_max_iff] at hx hy ⊢
    rcases hx with hx | hx <;> rcases hy with hy | hy <;> rcases hll with hll | hll <;>
      first
      | (left; left; linarith)
      | (left; right; linarith)
      | (right; left; linarith)
  · obtain ⟨-, s1, s2⟩ := C04_special_points d p hr hc hz.ne'
    have s3 : d.toGnomonic p (d.nrows, 0) = (d.yMin p, d.xMin p) := by
      refine Prod.ext ?_ ?_
      · have := congrArg Prod.fst s2; simpa [Detector.toGnomonic, convertPair] using this
      · have := congrArg Prod.snd s1; simpa [Detector.toGnomonic, convertPair] using this
    have o1 : OnDetector d p (d.yMin p, d.xMin p) :=
      ⟨d.nrows, 0, hr'.le, le_refl _, le_refl _, hc'.le, s3.symm⟩
    have o2 : OnDetector d p (d.yMin p, d.xMax p) :=
      ⟨d.nrows, d.ncols, hr'.le, le_refl _, hc'.le, le_refl _, s2.symm⟩
    have o3 : OnDetector d p (d.yMax p, d.xMax p) := by
      refine ⟨0, d.ncols, le_refl _, hr'.le, hc'.le, le_refl _, ?_⟩
      refine (Prod.ext ?_ ?_)
      · have := congrArg Prod.fst s1; simpa [Detector.toGnomonic, convertPair] using this.symm
      · have := congrArg Prod.snd s2; simpa [Detector.toGnomonic, convertPair] using this.symm
    unfold Detector.rMaxSq
    rcases max_choice (max (d.xMin p ^ 2 + d.yMin p ^ 2) (d.xMax p ^ 2 + d.yMin p ^ 2))
      (max (d.xMax p ^ 2 + d.yMax p ^ 2) (d.xMin p ^ 2 + d.yMin p ^ 2)) with h | h <;> rw [h]
    · rcases max_choice (d.xMin p ^ 2 + d.yMin p ^ 2) (d.xMax p ^ 2 + d.yMin p ^ 2) with h | h <;> rw [h]
      · exact ⟨_, o1, by ring⟩
      · exact ⟨_, o2, by ring⟩
    · rcases max_choice (d.xMax p ^ 2 + d.yMax p ^ 2) (d.xMin p ^ 2 + d.yMin p ^ 2) with h | h <;> rw [h]
      · exact ⟨_, o3, by ring⟩
      · exact ⟨_, o1, by ring⟩

example : exDet.nrows ≠ 0 ∧ exDet.ncols ≠ 0 ∧ (0 : ℚ) < (⟨1/3, 2/3, 1/2⟩ : PC ℚ).z ∧
    (⟨1/3, 2/3, 1/2⟩ : PC ℚ).x ≤ 1/2 := by
  refine ⟨by decide, by decide, by norm_num, by norm_num⟩

/-- C07: `r_max` is the largest of the corner distances computed. -/
theorem C07_r_max_of_corners (d : Detector K) (p : PC K) :
    d.rMaxSq p ∈ d.rMaxCorners p ∧ ∀ r ∈ d.rMaxCorners p, r ≤ d.rMaxSq p := by
  constructor
  · unfold Detector.rMaxSq Detector.rMaxCorners
    rcases max_choice (max (d.xMin p ^ 2 + d.yMin p ^ 2) (d.xMax p ^ 2 + d.yMin p ^ 2))
      (max (d.xMax p ^ 2 + d.yMax p ^ 2) (d.xMin p ^ 2 + d.yMin p ^ 2)) with h | h <;> rw [h]
    · rcases max_choice (d.xMin p ^ 2 + d.yMin p ^ 2) (d.xMax p ^ 2 + d.yMin p ^ 2) with h | h <;>
        rw [h] <;> simp
    · rcases max_choice (d.xMax p ^ 2 + d.yMax p ^ 2) (d.xMin p ^ 2 + d.yMin p ^ 2) with h | h <;>
        rw [h] <;> simp
  · intro r hr
    simp only [Detector.rMaxCorners, List.mem_cons, List.not_mem_nil, or_false] at hr
    unfold Detector.rMaxSq
    rcases hr with rfl | rfl | rfl | rfl
    · exact le_max_of_le_left (le_max_left _ _)
    · exact le_max_of_le_left (le_max_right _ _)
    · exact le_max_of_le_right (le_max_left _ _)
    · exact le_max_of_le_left (le_max_left _ _)

/-- C07 is false of the code: for EVERY detector with the PC in the lower right quadrant
there is a detector corner (the lower left of the code's comment, i.e. left edge and
`y_max`) further away from the PC than `r_max`, because `r_max` counts another corner
twice instead. -/
theorem C07_r_max_too_small_in_lower_right_quadrant (d : Detector K) (p : PC K)
    (hr : d.nrows ≠ 0) (hc : d.ncols ≠ 0) (hz : 0 < p.z) (hx : 1 / 2 < p.x) (hy : 1 / 2 < p.y) :
    ∃ g, OnDetector d p g ∧ d.rMaxSq p < g.1 ^ 2 + g.2 ^ 2 := by
  have hr' : (0 : K) < d.nrows := by exact_mod_cast Nat.pos_of_ne_zero hr
  have hc' : (0 : K) < d.ncols := by exact_mod_cast Nat.pos_of_ne_zero hc
  have ha : (0 : K) < d.aspect := div_pos hc' hr'
  obtain ⟨-, s1, -⟩ := C04_special_points d p hr hc hz.ne'
  refine ⟨(d.yMax p, d.xMin p), ⟨0, 0, le_refl _, hr'.le, le_refl _, hc'.le, s1.symm⟩, ?_⟩
  have e1 : d.xMin p ^ 2 - d.xMax p ^ 2 = d.aspect ^ 2 * (2 * p.x - 1) / p.z ^ 2 := by
    simp only [Detector.xMax, Detector.xMin]; field_simp; ring
  have e2 : d.yMax p ^ 2 - d.yMin p ^ 2 = (2 * p.y - 1) / p.z ^ 2 := by
    simp only [Detector.yMax, Detector.yMin]; field_simp; ring
  have p1 : 0 < d.aspect ^ 2 * (2 * p.x - 1) / p.z ^ 2 := by
    apply div_pos _ (by positivity)
    apply mul_pos (by positivity)
    linarith
  have p2 : 0 < (2 * p.y - 1) / p.z ^ 2 := by
    apply div_pos _ (by positivity)
    linarith
  simp only [Detector.rMaxSq, max_lt_iff]
  refine ⟨⟨?_, ?_⟩, ?_, ?_⟩ <;> linarith

example : exDet.nrows ≠ 0 ∧ exDet.ncols ≠ 0 ∧ (0 : ℚ) < (⟨3/4, 2/3, 1/2⟩ : PC ℚ).z ∧
    1/2 < (⟨3/4, 2/3, 1/2⟩ : PC ℚ).x ∧ 1/2 < (⟨3/4, 2/3, 1/2⟩ : PC ℚ).y := by
  refine ⟨by decide, by decide, by norm_num, by norm_num, by norm_num⟩

end Kp
