import Verif.Spec.Detector
import Mathlib.Tactic.FieldSimp
import Mathlib.Tactic.Ring
import Mathlib.Tactic.Linarith
import Mathlib.Tactic.Positivity

namespace Kp
open Spec

variable {K : Type*} [Field K] [LinearOrder K] [IsStrictOrderedRing K]

theorem toGnomonic_eq_spec (d : Detector K) (p : PC K) (hr : d.nrows ≠ 0) (hc : d.ncols ≠ 0)
    (hz : p.z ≠ 0) (c : K × K) :
    d.toGnomonic p c = gnomonic d.nrows d.ncols p c := by
  have hr' : (d.nrows : K) ≠ 0 := by exact_mod_cast hr
  have hc' : (d.ncols : K) ≠ 0 := by exact_mod_cast hc
  simp only [Detector.toGnomonic, convertPair, Detector.pixToGn, gnomonic, Detector.xMin,
    Detector.xMax, Detector.yMin, Detector.yMax, Detector.aspect]
  refine Prod.ext ?_ ?_ <;> simp <;> field_simp <;> ring

theorem toPixel_toGnomonic (d : Detector K) (p : PC K) (hr : d.nrows ≠ 0) (hc : d.ncols ≠ 0)
    (hz : p.z ≠ 0) (c : K × K) : d.toPixel p (d.toGnomonic p c) = c := by
  have hr' : (d.nrows : K) ≠ 0 := by exact_mod_cast hr
  have hc' : (d.ncols : K) ≠ 0 := by exact_mod_cast hc
  have h1 : d.xMax p - d.xMin p = (d.ncols : K) / (d.nrows * p.z) := by
    simp only [Detector.xMin, Detector.xMax, Detector.aspect]; field_simp; ring
  have h2 : d.yMin p - d.yMax p = -1 / p.z := by
    simp only [Detector.yMin, Detector.yMax]; field_simp; ring
  simp only [Detector.toPixel, Detector.toGnomonic, convertPair, Detector.pixToGn,
    Detector.gnToPix, h1, h2]
  refine Prod.ext ?_ ?_ <;> simp <;> field_simp <;> ring

theorem toGnomonic_toPixel (d : Detector K) (p : PC K) (hr : d.nrows ≠ 0) (hc : d.ncols ≠ 0)
    (hz : p.z ≠ 0) (c : K × K) : d.toGnomonic p (d.toPixel p c) = c := by
  have hr' : (d.nrows : K) ≠ 0 := by exact_mod_cast hr
  have hc' : (d.ncols : K) ≠ 0 := by exact_mod_cast hc
  have h1 : d.xMax p - d.xMin p = (d.ncols : K) / (d.nrows * p.z) := by
    simp only [Detector.xMin, Detector.xMax, Detector.aspect]; field_simp; ring
  have h2 : d.yMin p - d.yMax p = -1 / p.z := by
    simp only [Detector.yMin, Detector.yMax]; field_simp; ring
  simp only [Detector.toPixel, Detector.toGnomonic, convertPair, Detector.pixToGn,
    Detector.gnToPix, h1, h2]
  refine Prod.ext ?_ ?_ <;> simp <;> field_simp <;> ring

/-- A point of an interval is no further from zero than one of the end points. -/
theorem sq_le_max_sq {a b t : K} (h1 : a ≤ t) (h2 : t ≤ b) : t ^ 2 ≤ max (a ^ 2) (b ^ 2) := by
  rcases le_total 0 t with h | h
  · exact le_max_of_le_right (by nlinarith)
  · exact le_max_of_le_left (by nlinarith)

omit [LinearOrder K] [IsStrictOrderedRing K] in
theorem crop_eq (d : Detector K) (t b l r : ℤ) :
    d.crop (t, b, l, r) =
      if min b (d.nrows : ℤ) - max t 0 ≤ 0 ∨ min r (d.ncols : ℤ) - max l 0 ≤ 0 then
        .error .valueError
      else .ok
        { nrows := (min b (d.nrows : ℤ) - max t 0).toNat
          ncols := (min r (d.ncols : ℤ) - max l 0).toNat
          pxSize := d.pxSize
          binning := d.binning
          tilt := d.tilt
          azimuthal := d.azimuthal
          twist := 0
          sampleTilt := d.sampleTilt
          nav := dstackNav d.nav
          pc := d.pc.map (d.cropPc (max t 0) (max l 0) (min b (d.nrows : ℤ) - max t 0)
            (min r (d.ncols : ℤ) - max l 0)) } := rfl

theorem crop_compose_arith (n b t t' b' : ℤ) (hn : 0 ≤ n) :
    min (min (min b n) (max t 0 + b')) n - max (max t 0 + max t' 0) 0
      = min b' (min b n - max t 0) - max t' 0 := by
  have h1 : max (max t 0 + max t' 0) 0 = max t 0 + max t' 0 := by omega
  rw [h1]
  generalize max t' 0 = u
  have h2 : 0 ≤ max t 0 := by omega
  generalize max t 0 = v at *
  omega

end Kp
