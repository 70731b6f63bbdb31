import Verif.Model.Lambert
import Verif.Model.Detector

/-
Model of `_utils/numba.py` (rotations) and of the projection of patterns from master patterns
(`signals/util/_master_pattern.py`, `signals/ebsd_master_pattern.py` `get_patterns`), over ℝ.
-/

namespace Kp
noncomputable section

/-! ### Rotations -/

/-- The array of four numbers describing a rotation (a quaternion). -/
@[ext] structure Quat where
  a : ℝ
  b : ℝ
  c : ℝ
  d : ℝ

/-- "if rot[0] < 0" all components are negated (`_utils/numba.py` L37-39, L53-55). -/
def positiveScalar (q : Quat) : Quat := if q.a < 0 then ⟨-q.a, -q.b, -q.c, -q.d⟩ else q

/-- `rotation_from_euler` (`_utils/numba.py` L43-56). -/
def rotationFromEuler (alpha beta gamma : ℝ) : Quat :=
  let sigma := (alpha + gamma) / 2
  let delta := (alpha - gamma) / 2
  let c := Real.cos (beta / 2)
  let s := Real.sin (beta / 2)
  positiveScalar ⟨c * Real.cos sigma, -s * Real.cos delta, -s * Real.sin delta,
    -c * Real.sin sigma⟩

/-- `rotation_from_rodrigues` (`_utils/numba.py` L26-40); `none` is a quaternion with NaN
components (0 / 0 for a zero vector). -/
def rotationFromRodrigues (r : V3 ℝ) : Option Quat :=
  let norm := Real.sqrt (r.x ^ 2 + r.y ^ 2 + r.z ^ 2)
  let s := Real.sin (Real.arctan norm)
  let a := Real.cos (Real.arctan norm)
  if norm = 0 then none
  else some (positiveScalar ⟨a, s * r.x / norm, s * r.y / norm, s * r.z / norm⟩)

/-- `rotate_vector` (`_utils/numba.py` L59-82) of one vector. -/
def rotateVector (q : Quat) (v : V3 ℝ) : V3 ℝ :=
  let a := q.a
  let b := q.b
  let c := q.c
  let d := q.d
  let aa := a ^ 2
  let bb := b ^ 2
  let cc := c ^ 2
  let dd := d ^ 2
  let ac := a * c
  let ab := a * b
  let ad := a * d
  let bc := b * c
  let bd := b * d
  let cd := c * d
  ⟨(aa + bb - cc - dd) * v.x + 2 * ((ac + bd) * v.z + (bc - ad) * v.y),
   (aa - bb + cc - dd) * v.y + 2 * ((ad + bc) * v.x + (cd - ab) * v.z),
   (aa - bb - cc + dd) * v.z + 2 * ((ab + cd) * v.y + (bd - ac) * v.x)⟩

/-! ### Direction cosines -/

/-- `np.arange(start, stop, step)`: `ceil((stop - start) / step)` values. -/
def arange (start stop step : ℝ) : List ℝ :=
  (List.range ⌈(stop - start) / step⌉.toNat).map (fun k : ℕ => start + (k : ℝ) * step)

/-- Transposed matrix. -/
def M3.transpose (m : M3) : M3 :=
  ⟨⟨m.r0.x, m.r1.x, m.r2.x⟩, ⟨m.r0.y, m.r1.y, m.r2.y⟩, ⟨m.r0.z, m.r1.z, m.r2.z⟩⟩

/-- `np.arange(n)[mask]`. -/
def maskedIndices (mask : List Bool) : List ℕ :=
  (List.range mask.length).filter (fun i => mask.getD i false)

/-- `_get_direction_cosines_for_fixed_pc` (`_master_pattern.py` L126-206).
`bounds = (x_min, x_max, y_min, y_max)`, `om` is `om_detector_to_sample`. -/
def directionCosinesFixed (bounds : ℝ × ℝ × ℝ × ℝ) (pcz : ℝ) (nrows ncols : ℕ) (om : M3)
    (mask : List Bool) : List (V3 ℝ) :=
  let xScale := (bounds.2.1 - bounds.1) / ncols
  let yScale := (bounds.2.2.2 - bounds.2.2.1) / nrows
  let gx := arange bounds.1 bounds.2.1 xScale
  let gy := arange bounds.2.2.2 bounds.2.2.1 (-yScale)
  (maskedIndices mask).map (fun i =>
    let r := i / ncols
    let c := i % ncols
    normalizeV (om.apply
      ⟨(gx.getD c 0 + xScale / 2) * pcz, (gy.getD r 0 - yScale / 2) * pcz, pcz⟩))

/-- `_get_direction_cosines_for_varying_pc` (`_master_pattern.py` L209-295): the loop over
PCs, with the matrix applied to each set and all vectors normalised at the end. -/
def directionCosinesVarying (bounds : List (ℝ × ℝ × ℝ × ℝ)) (pcz : List ℝ) (nrows ncols : ℕ)
    (om : M3) (mask : List Bool) : List (List (V3 ℝ)) :=
  let idx := maskedIndices mask
  let sets := (List.range pcz.length).map (fun i =>
    let b := bounds.getD i (0, 0, 0, 0)
    let xScale := (b.2.1 - b.1) / ncols
    let yScale := (b.2.2.2 - b.2.2.1) / nrows
    let gx := arange b.1 b.2.1 xScale
    let gy := arange b.2.2.2 b.2.2.1 (-yScale)
    (idx.map (fun j =>
      (⟨(gx.getD (j % ncols) 0 + xScale / 2) * pcz.getD i 0,
        (gy.getD (j / ncols) 0 - yScale / 2) * pcz.getD i 0, pcz.getD i 0⟩ : V3 ℝ))).map om.apply)
  sets.map (fun s => s.map normalizeV)

/-- `detector.gnomonic_bounds` for one PC (`_ebsd_detector.py` L810-819). -/
def Detector.gnomonicBounds (d : Detector ℝ) (p : PC ℝ) : ℝ × ℝ × ℝ × ℝ :=
  (d.xMin p, d.xMax p, d.yMin p, d.yMax p)

/-- `_get_direction_cosines_from_detector` (`_master_pattern.py` L82-123): one set of
direction cosines per PC. `om` is `(~detector.sample_to_detector).to_matrix()`; the rotation
object of orix is modelled as its matrix and its inverse as the transposed matrix. -/
def directionCosines (d : Detector ℝ) (m : M3) (mask : Option (List Bool)) :
    List (List (V3 ℝ)) :=
  let om := m.transpose
  let mask := mask.getD (List.replicate (d.nrows * d.ncols) true)
  if d.nav = [1] then
    let p := d.pc.getD 0 ⟨0, 0, 0⟩
    [directionCosinesFixed (d.gnomonicBounds p) p.z d.nrows d.ncols om mask]
  else
    directionCosinesVarying (d.pc.map d.gnomonicBounds) (d.pc.map PC.z) d.nrows d.ncols om mask

/-! ### Interpolation -/

/-- Conversion to a 32-bit integer: toward zero (values are far from overflow). -/
def toInt32 (x : ℝ) : ℤ := if 0 ≤ x then ⌊x⌋ else ⌈x⌉

/-- Interpolation parameters of one direction. -/
structure Interp where
  nii : ℤ
  nij : ℤ
  niip : ℤ
  nijp : ℤ
  di : ℝ
  dj : ℝ
  dim : ℝ
  djm : ℝ

/-- The loop body of `_get_lambert_interpolation_parameters` (`_master_pattern.py`
L651-676). -/
def interpAt (i j : ℝ) (npx npy : ℤ) (scale : ℝ) : Interp :=
  let nii := toInt32 (i + scale)
  let nij := toInt32 (j + scale)
  let niip := nii + 1
  let nijp := nij + 1
  let niip := if npx ≤ niip then nii else niip
  let nijp := if npy ≤ nijp then nij else nijp
  let nii := if nii < 0 then niip else nii
  let nij := if nij < 0 then nijp else nij
  let di := i - nii + scale
  let dj := j - nij + scale
  { nii := nii, nij := nij, niip := niip, nijp := nijp
    di := di, dj := dj, dim := 1 - di, djm := 1 - dj }

/-- `_get_lambert_interpolation_parameters` (`_master_pattern.py` L571-678) of one vector. -/
def lambertInterp (v : V3 ℝ) (npx npy : ℤ) (scale : ℝ) : Interp :=
  let xy := vector2lambert v
  interpAt (scale * xy.2 / sqrtPiHalf) (scale * xy.1 / sqrtPiHalf) npx npy scale

/-- `_get_pixel_from_master_pattern` (`_master_pattern.py` L681-708). -/
def masterPixel (mp : Img ℝ) (p : Interp) : ℝ :=
  mp.val p.nii.toNat p.nij.toNat * p.dim * p.djm + mp.val p.niip.toNat p.nij.toNat * p.di * p.djm +
    mp.val p.nii.toNat p.nijp.toNat * p.dim * p.dj + mp.val p.niip.toNat p.nijp.toNat * p.di * p.dj

/-- One pixel in `_project_single_pattern_from_master_pattern` (`_master_pattern.py`
L496-519): the rotated direction decides hemisphere and interpolation parameters. -/
def projectPixel (rot : Quat) (upper lower : Img ℝ) (npx npy : ℤ) (scale : ℝ) (dc : V3 ℝ) : ℝ :=
  let v := rotateVector rot dc
  let p := lambertInterp v npx npy scale
  if 0 ≤ v.z then masterPixel upper p else masterPixel lower p

/-- `_project_single_pattern_from_master_pattern` (`_master_pattern.py` L449-527). -/
def projectPattern (rot : Quat) (upper lower : Img ℝ) (npx npy : ℤ) (scale : ℝ)
    (dcs : List (V3 ℝ)) (rescale : Bool) (omin omax : ℝ) (dtypeOut : DType) : List ℝ :=
  let p := dcs.map (projectPixel rot upper lower npx npy scale)
  (if rescale then rescaleWithMinMax p (listMin p) (listMax p) omin omax else p).map
    (castTo dtypeOut)

end

end Kp
