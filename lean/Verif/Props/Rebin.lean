import Verif.Model.Rebin
import Verif.Lemmas.NpRound
import Mathlib.Algebra.Order.Ring.Rat
import Mathlib.Data.Rat.Floor
import Mathlib.Tactic.FieldSimp
import Mathlib.Tactic.Ring
import Mathlib.Tactic.Positivity
import Mathlib.Tactic.NormNum

/-
C75: rebinning patterns by the same whole number along both detector axes describes the same
detector.
-/

namespace Kp
set_option linter.unusedSectionVars false

section
variable {K : Type} [Field K] [LinearOrder K] [IsStrictOrderedRing K] [FloorRing K]
variable {X : Type}

theorem zipWith_div_one (nav navScale : List ℕ) (hl : navScale.length = nav.length)
    (h1 : ∀ s ∈ navScale, s = 1) : List.zipWith (· / ·) nav navScale = nav := by
  induction nav generalizing navScale with
  | nil => simp
  | cons a nav ih =>
    cases navScale with
    | nil => simp at hl
    | cons b l =>
      have hb : b = 1 := h1 b (by simp)
      subst hb
      simp [ih l (by simpa using hl) (fun s hs => h1 s (by simp [hs]))]

theorem rebinBinning_eq (b : ℤ) (s ny nx : ℕ) (hs : 0 < s) (hy : 0 < ny) (hx : 0 < nx) :
    rebinBinning (b : K) (ny * s) (nx * s) ny nx = (b : K) * s := by
  have hy' : (ny : K) ≠ 0 := by positivity
  have hx' : (nx : K) ≠ 0 := by positivity
  have ey : (⌊(b : K)⌋ : K) * (((ny * s : ℕ) : K) / (ny : K)) = (b : K) * s := by
    rw [Int.floor_intCast]; push_cast; field_simp
  have ex : (⌊(b : K)⌋ : K) * (((nx * s : ℕ) : K) / (nx : K)) = (b : K) * s := by
    rw [Int.floor_intCast]; push_cast; field_simp
  have hr : npRound ((b : K) * s) = b * s := by
    have := npRound_int (K := K) (b * s)
    push_cast at this
    exact this
  have hc : isClose ((b : K) * s) (npRound ((b : K) * s) : K) := by
    unfold isClose
    rw [hr]
    push_cast
    simp only [sub_self, abs_zero]
    positivity
  unfold rebinBinning
  simp only [ey, ex, hc, and_self, if_true]

/-- C75 (detector): if patterns are rebinned by the same whole number `s` along both axes, `s`
divides the detector shape, the binning factor is an integer and the map is not rebinned, then
the new detector has the same physical height and width, the same PCs and other attributes, and
the point `(y, x)` of the new detector, in pixels, is the point `(y * s, x * s)` of the old
one: it has the same gnomonic coordinates for every PC. -/
theorem C75_same_detector_partial (d : Detector K) (xmap : Option X) (bg : Option (Img K))
    (navScale : List ℕ) (s : ℕ) (b : ℤ) (hs : 0 < s) (hb : d.binning = b)
    (hy : 0 < d.nrows) (hx : 0 < d.ncols) (hdy : s ∣ d.nrows) (hdx : s ∣ d.ncols)
    (hl : navScale.length = d.nav.length) (h1 : ∀ t ∈ navScale, t = 1) :
    let d' := (rebinAttrs d xmap bg d.nav navScale s s).detector
    d'.nrows * s = d.nrows ∧ d'.ncols * s = d.ncols ∧
    d'.height = d.height ∧ d'.width = d.width ∧ d'.binning = d.binning * s ∧
    d'.nav = d.nav ∧ d'.pc = d.pc ∧ d'.pxSize = d.pxSize ∧ d'.tilt = d.tilt ∧
    d'.azimuthal = d.azimuthal ∧ d'.twist = d.twist ∧ d'.sampleTilt = d.sampleTilt ∧
    ∀ (p : PC K) (y x : K), d'.toGnomonic p (y, x) = d.toGnomonic p (y * s, x * s) := by
  obtain ⟨ny, hny⟩ := hdy
  obtain ⟨nx, hnx⟩ := hdx
  rw [mul_comm] at hny hnx
  have hny0 : 0 < ny := by
    rcases Nat.eq_zero_or_pos ny with h | h
    · simp [h] at hny; omega
    · exact h
  have hnx0 : 0 < nx := by
    rcases Nat.eq_zero_or_pos nx with h | h
    · simp [h] at hnx; omega
    · exact h
  have qy : d.nrows / s = ny := by rw [hny]; exact Nat.mul_div_cancel _ hs
  have qx : d.ncols / s = nx := by rw [hnx]; exact Nat.mul_div_cancel _ hs
  have hz := zipWith_div_one d.nav navScale hl h1
  have hbin : rebinBinning d.binning d.nrows d.ncols ny nx = (b : K) * s := by
    rw [hb, hny, hnx]; exact rebinBinning_eq b s ny nx hs hny0 hnx0
  have cy : (d.nrows : K) = ny * s := by rw [hny]; push_cast; ring
  have cx : (d.ncols : K) = nx * s := by rw [hnx]; push_cast; ring
  have ny' : (ny : K) ≠ 0 := by positivity
  have nx' : (nx : K) ≠ 0 := by positivity
  have s' : (s : K) ≠ 0 := by positivity
  unfold rebinAttrs
  simp only [hz, qy, qx]
  by_cases hsame : ny = d.nrows ∧ nx = d.ncols
  · have hs1 : s = 1 := by
      have h1 := hsame.1
      rw [hny] at h1
      have : ny * s = ny * 1 := by omega
      exact Nat.eq_of_mul_eq_mul_left hny0 this
    subst hs1
    simp [hsame]
  · simp only [hsame, and_false, if_false, ne_eq, not_true_eq_false]
    refine ⟨hny.symm, hnx.symm, ?_, ?_, ?_, trivial, trivial, trivial, trivial, trivial, trivial,
      trivial, ?_⟩
    · simp only [Detector.height]; rw [hbin, hb, cy]; ring
    · simp only [Detector.width]; rw [hbin, hb, cx]; ring
    · rw [hbin, hb]
    · intro p y x
      simp only [Detector.toGnomonic, convertPair, Detector.pixToGn, Detector.xMax, Detector.xMin,
        Detector.yMin, Detector.yMax, Detector.aspect, cy, cx, sub_add_cancel]
      have ha : (nx : K) * s / (ny * s) = nx / ny := by field_simp
      rw [ha]
      refine Prod.ext ?_ ?_
      · simp only
        by_cases hp : p.z = 0
        · simp [hp]
        · field_simp
      · simp only
        by_cases hp : p.z = 0
        · simp [hp]
        · field_simp

/-- C75 (static background): after rebinning of the patterns only, the static background is the
old one rebinned like the patterns and has the shape of the new detector.  `hbg`: the static
background has the shape of the patterns. -/
theorem C75_static_background (d : Detector K) (xmap : Option X) (bg : Img K)
    (navScale : List ℕ) (sy sx : ℕ) (hyd : d.nrows / sy ≠ d.nrows ∨ d.ncols / sx ≠ d.ncols)
    (hbg : bg.rows = d.nrows ∧ bg.cols = d.ncols)
    (hl : navScale.length = d.nav.length) (h1 : ∀ t ∈ navScale, t = 1) :
    ∃ bg', (rebinAttrs d xmap (some bg) d.nav navScale sy sx).staticBackground = some bg' ∧
      bg'.rows = (rebinAttrs d xmap (some bg) d.nav navScale sy sx).detector.nrows ∧
      bg'.cols = (rebinAttrs d xmap (some bg) d.nav navScale sy sx).detector.ncols ∧
      (∀ r c, bg'.val r c = ∑ i ∈ Finset.range sy, ∑ j ∈ Finset.range sx,
        bg.val (r * sy + i) (c * sx + j)) ∧
      (rebinAttrs d xmap (some bg) d.nav navScale sy sx).xmap = xmap := by
  have hz := zipWith_div_one d.nav navScale hl h1
  have hne : ¬(d.nav = d.nav ∧ d.nrows / sy = d.nrows ∧ d.ncols / sx = d.ncols) := by
    rintro ⟨_, h2, h3⟩; rcases hyd with h | h <;> contradiction
  have hne2 : ¬((d.nrows / sy, d.ncols / sx) = (d.nrows, d.ncols)) := by
    intro h
    have h2 := congrArg Prod.fst h
    have h3 := congrArg Prod.snd h
    rcases hyd with h | h <;> contradiction
  have hr : rebinAttrs d xmap (some bg) d.nav navScale sy sx =
      ⟨{ d with
          nrows := d.nrows / sy
          ncols := d.ncols / sx
          binning := rebinBinning d.binning d.nrows d.ncols (d.nrows / sy) (d.ncols / sx) },
        xmap, some (rebinImg sy sx bg)⟩ := by
    unfold rebinAttrs
    simp only [hz]
    rw [if_neg (fun h => hne ⟨rfl, h.2⟩), if_neg (fun h => h rfl), if_pos hne2]
    rfl
  rw [hr]
  exact ⟨rebinImg sy sx bg, rfl, by simp [rebinImg, hbg.1], by simp [rebinImg, hbg.2],
    fun _ _ => rfl, rfl⟩

/-- C75 (map): if the shape of the map changes, the new signal has no crystal map and no static
background, and the PCs are the default, one for each map position, whatever they were. -/
theorem C75_map (d : Detector K) (xmap : Option X) (bg : Option (Img K)) (navScale : List ℕ)
    (sy sx : ℕ) (hne : List.zipWith (· / ·) d.nav navScale ≠ d.nav) :
    let r := rebinAttrs d xmap bg d.nav navScale sy sx
    let navNew := List.zipWith (· / ·) d.nav navScale
    r.xmap = none ∧ r.staticBackground = none ∧ r.detector.pc.length = navNew.prod ∧
      ∀ p ∈ r.detector.pc, p = ⟨1 / 2, 1 / 2, 1 / 2⟩ := by
  unfold rebinAttrs
  simp only [hne, false_and, if_false, ne_eq, not_false_eq_true, if_true]
  refine ⟨trivial, trivial, by simp, fun p hp => ?_⟩
  exact (List.mem_replicate.mp hp).2

end

/-- A detector with `ny` times `nx` pixels, binning factor `b` and one PC. -/
def exRebinDet (ny nx : ℕ) (b : ℚ) : Detector ℚ :=
  ⟨ny, nx, 70, b, 0, 0, 0, 70, [2, 3], List.replicate 6 ⟨1 / 2, 1 / 4, 1 / 2⟩⟩

/-- Non-vacuity of C75: 60 x 48 pixels rebinned by 4. -/
example : ((rebinAttrs (exRebinDet 60 48 2) (some ()) none [2, 3] [1, 1] 4 4).detector).nrows = 15 ∧
    ((rebinAttrs (exRebinDet 60 48 2) (some ()) none [2, 3] [1, 1] 4 4).detector).binning = 8 := by
  have h := C75_same_detector_partial (exRebinDet 60 48 2) (some ()) none [1, 1] 4 2 (by norm_num)
    (by norm_num [exRebinDet]) (by norm_num [exRebinDet]) (by norm_num [exRebinDet])
    (by norm_num [exRebinDet]) (by norm_num [exRebinDet]) rfl (by simp)
  refine ⟨?_, ?_⟩
  · have := h.1
    have e : (exRebinDet 60 48 2).nrows = 60 := rfl
    have e2 : (exRebinDet 60 48 2).nav = [2, 3] := rfl
    rw [e, e2] at this
    omega
  · have := h.2.2.2.2.1
    have e : (exRebinDet 60 48 2).binning = 2 := rfl
    have e2 : (exRebinDet 60 48 2).nav = [2, 3] := rfl
    rw [e, e2] at this
    rw [this]
    norm_num

example : ∃ bg', (rebinAttrs (exRebinDet 4 4 1) (some ()) (some ⟨4, 4, fun r c => r + c⟩) [2, 3]
    [1, 1] 2 2).staticBackground = some bg' ∧ bg'.val 1 1 = 20 := by
  obtain ⟨bg', h, _, _, hv, _⟩ := C75_static_background (exRebinDet 4 4 1) (some ())
    ⟨4, 4, fun r c => (r : ℚ) + c⟩ [1, 1] 2 2 (by simp [exRebinDet]) (by simp [exRebinDet]) rfl
    (by simp)
  refine ⟨bg', h, ?_⟩
  rw [hv]
  norm_num [Finset.sum_range_succ]

example : (rebinAttrs (exRebinDet 4 4 1) (some ()) none [2, 3] [2, 1] 1 1).xmap = none :=
  (C75_map (exRebinDet 4 4 1) (some ()) none [2, 1] 1 1 (by simp [exRebinDet])).1

/-- C75 does not hold for different scales: patterns of 60 x 60 pixels rebinned by 2 along the
rows and 1 along the columns get binning factor 1 and half the height, and the horizontal
gnomonic coordinate of the right edge is doubled. -/
theorem C75_different_scales_violated :
    let d' := (rebinAttrs (exRebinDet 60 60 1) (some ()) none [2, 3] [1, 1] 2 1).detector
    d'.height = (exRebinDet 60 60 1).height / 2 ∧ d'.width = (exRebinDet 60 60 1).width ∧
    (d'.toGnomonic ⟨1 / 2, 1 / 2, 1 / 2⟩ (0, 60)).2 = 2 ∧
    ((exRebinDet 60 60 1).toGnomonic ⟨1 / 2, 1 / 2, 1 / 2⟩ (0, 60)).2 = 1 := by
  decide +kernel

/-- C75 does not hold if pixels are cropped: patterns of 9 x 9 pixels with binning factor 4,
rebinned by 2 (four blocks of two pixels along each axis), get binning factor 9 instead of 8, and
the pixel (1, 1) of the new detector is not at (2, 2) of the old one. -/
theorem C75_crop_violated :
    let d' := (rebinAttrs (exRebinDet 9 9 4) (some ()) none [2, 3] [1, 1] 2 2).detector
    d'.nrows = 4 ∧ d'.binning = 9 ∧
    d'.toGnomonic ⟨1 / 2, 1 / 2, 1 / 2⟩ (1, 1) ≠
      (exRebinDet 9 9 4).toGnomonic ⟨1 / 2, 1 / 2, 1 / 2⟩ (2, 2) := by
  decide +kernel

end Kp
