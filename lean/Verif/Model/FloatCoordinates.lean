import Verif.Model.FloatPc

/-
Model of the conversion between pixel and gnomonic coordinates of a detector
(`src/kikuchipy/detectors/_convert_detector_coordinates.py` L54-82, L188-204 and
`src/kikuchipy/detectors/_ebsd_detector.py` L730-773) in 64-bit floating point numbers, for one
projection center: the result of every operation is rounded to nearest, ties to even.

The functions are compiled with `fastmath=True`, by which a product and a sum may be made one
operation with one rounding (`fused`). Other changes of the order of operations which this allows
are not modelled. Overflow is not modelled.
-/

namespace Kp
noncomputable section

/-- `x_min` (`_ebsd_detector.py` L730-737). -/
def Detector.xMinFl (d : Detector ℝ) (p : PC ℝ) : ℝ := fl64 (-d.aspectFl * fl64 (p.x / p.z))
/-- `x_max` (`_ebsd_detector.py` L739-746). -/
def Detector.xMaxFl (d : Detector ℝ) (p : PC ℝ) : ℝ :=
  fl64 (fl64 (d.aspectFl * fl64 (1 - p.x)) / p.z)
/-- `y_min` (`_ebsd_detector.py` L757-764). -/
def Detector.yMinFl (_ : Detector ℝ) (p : PC ℝ) : ℝ := fl64 (-fl64 (1 - p.y) / p.z)
/-- `y_max` (`_ebsd_detector.py` L766-773). -/
def Detector.yMaxFl (_ : Detector ℝ) (p : PC ℝ) : ℝ := fl64 (p.y / p.z)

/-- `get_pixel_to_gnomonic_coords_conversion_numba` (`_convert_detector_coordinates.py` L54-67). -/
def Detector.pixToGnFl (d : Detector ℝ) (p : PC ℝ) : Factors ℝ :=
  { mx := fl64 (fl64 (d.xMaxFl p - d.xMinFl p) / fl64 (((d.ncols : ℝ) - 1) + 1))
    cx := d.xMinFl p
    my := fl64 (fl64 (d.yMinFl p - d.yMaxFl p) / fl64 (((d.nrows : ℝ) - 1) + 1))
    cy := d.yMaxFl p }

/-- `get_gnomonic_to_pixel_coords_conversion_numba` (`_convert_detector_coordinates.py` L70-82). -/
def Detector.gnToPixFl (d : Detector ℝ) (p : PC ℝ) : Factors ℝ :=
  let mx := fl64 (fl64 (((d.ncols : ℝ) - 1) + 1) / fl64 (d.xMaxFl p - d.xMinFl p))
  let my := fl64 (fl64 (((d.nrows : ℝ) - 1) + 1) / fl64 (d.yMinFl p - d.yMaxFl p))
  { mx := mx
    cx := fl64 (-d.xMinFl p * mx)
    my := my
    cy := fl64 (-d.yMaxFl p * my) }

/-- `m * x + c`, with one or two roundings. -/
def mulAddFl (fused : Bool) (m x c : ℝ) : ℝ :=
  if fused then fl64 (m * x + c) else fl64 (fl64 (m * x) + c)

/-- `_convert_coordinates` (`_convert_detector_coordinates.py` L188-204) on one coordinate pair,
ordered (y, x). -/
def convertPairFl (fused : Bool) (f : Factors ℝ) (c : ℝ × ℝ) : ℝ × ℝ :=
  (mulAddFl fused f.my c.1 f.cy, mulAddFl fused f.mx c.2 f.cx)

/-- `to_gnomonic_coords` (`_ebsd_detector.py` L902-942) of one coordinate pair. -/
def Detector.toGnomonicFl (fused : Bool) (d : Detector ℝ) (p : PC ℝ) (c : ℝ × ℝ) : ℝ × ℝ :=
  convertPairFl fused (d.pixToGnFl p) c

/-- `to_pixel_coords` (`_ebsd_detector.py` L944-984) of one coordinate pair. -/
def Detector.toPixelFl (fused : Bool) (d : Detector ℝ) (p : PC ℝ) (c : ℝ × ℝ) : ℝ × ℝ :=
  convertPairFl fused (d.gnToPixFl p) c

end
end Kp
