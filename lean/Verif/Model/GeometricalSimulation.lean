/-
Geometrical Kikuchi pattern simulation,
src/kikuchipy/simulations/_geometrical_simulation.py, over the real numbers.
-/
import Verif.Model.Detector
import Verif.Model.SampleToDetector
import Mathlib.Analysis.SpecialFunctions.Complex.Arg
import Mathlib.Analysis.SpecialFunctions.Trigonometric.Inverse

namespace Kp
noncomputable section

/-- Row vector times matrix, as written out in the loops, L64-66 and L92-94, and one row of
`@` of matrices. -/
def M3.vecMul (v : V3 ℝ) (m : M3) : V3 ℝ :=
  ⟨v.x * m.r0.x + v.y * m.r1.x + v.z * m.r2.x,
   v.x * m.r0.y + v.y * m.r1.y + v.z * m.r2.y,
   v.x * m.r0.z + v.y * m.r1.z + v.z * m.r2.z⟩

/-- Matrix product `a @ b`, L175-181. -/
def M3.matMul (a b : M3) : M3 := ⟨M3.vecMul a.r0 b, M3.vecMul a.r1 b, M3.vecMul a.r2 b⟩

/-- End points of a plane trace (gnomonic coordinates). -/
@[ext] structure BandTrace where
  x0 : ℝ
  y0 : ℝ
  x1 : ℝ
  y1 : ℝ

/-- One pass of the first loop of `_bands_and_zone_axes_kernel`, L60-84, for the plane normal
`n = (dx, dy, dz)` in the detector frame: `none` if the plane is skipped.  `np.arctan2(y, x)` is
the argument of `x + iy`. -/
def bandTrace (maxR : ℝ) (n : V3 ℝ) : Option BandTrace :=
  let xyNorm := Real.sqrt (n.x * n.x + n.y * n.y)
  if n.z < 0 then none
  else if xyNorm = 0 then none
  else
    let hesse := n.z / xyNorm
    if maxR ≤ |hesse| then none
    else
      let alpha := Real.arccos (hesse / maxR)
      let az := Complex.arg ⟨n.x, n.y⟩ - Real.pi
      let a1 := az + alpha
      let a2 := az - alpha
      some ⟨maxR * Real.cos a1, maxR * Real.sin a1, maxR * Real.cos a2, maxR * Real.sin a2⟩

/-- One pass of the second loop, L87-102, for the direction `t` in the detector frame: gnomonic
coordinates `(x, y)`, or `none` if it is skipped. -/
def zoneAxis (maxR : ℝ) (t : V3 ℝ) : Option (ℝ × ℝ) :=
  if t.z ≤ 0 then none
  else
    let xg := t.x / t.z
    let yg := t.y / t.z
    if maxR ≤ Real.sqrt (xg * xg + yg * yg) then none else some (xg, yg)

/-- `_bands_and_zone_axes_kernel`, L40-104. -/
def bandsAndZoneAxes (hkl uvw : List (V3 ℝ)) (uKstar uK : M3) (maxR : ℝ) :
    List BandTrace × List (ℝ × ℝ) :=
  (hkl.filterMap fun v => bandTrace maxR (M3.vecMul v uKstar),
   uvw.filterMap fun v => zoneAxis maxR (M3.vecMul v uK))

/-- `_get_zone_axes_from_hkl`, L107-124: all pairwise cross products but zero vectors.
Simplifications: duplicates are not removed and vectors not sorted (`np.unique`); the Miller
indices are integers, so rounding to six decimals changes nothing and only the zero vector is
close to zero. -/
def zoneAxesFromHkl (hkl : List (V3 ℝ)) : List (V3 ℝ) :=
  (hkl.flatMap fun a => hkl.map fun b => a.cross b).filter fun v => v ≠ ⟨0, 0, 0⟩

/-- `detector.r_max` of a single PC, src/kikuchipy/detectors/_ebsd_detector.py L821-833. -/
def Detector.rMax (d : Detector ℝ) (p : PC ℝ) : ℝ := Real.sqrt (d.rMaxSq p)

/-- Is a zone axis within the detector bounds extended by one pixel, L198-203, L211-218 and
L241-246? -/
abbrev withinBounds (d : Detector ℝ) (p : PC ℝ) (g : ℝ × ℝ) : Prop :=
  d.xMin p - d.xScale p ≤ g.1 ∧ g.1 ≤ d.xMax p + d.xScale p ∧
    d.yMin p - d.yScale p ≤ g.2 ∧ g.2 ≤ d.yMax p + d.yScale p

/-- Pixel coordinates `(x, y)` of gnomonic ones, L224-228 and L236-237. -/
def simToPixel (d : Detector ℝ) (p : PC ℝ) (g : ℝ × ℝ) : ℝ × ℝ :=
  ((g.1 + p.x / p.z * d.aspect) / d.xScale p, (-g.2 + p.y / p.z) / d.yScale p)

/-- `_get_geometrical_simulation` with `coords_fmt="gnomonic"`, L166-219, for a detector with the
single PC `p`, given the matrices of the lattice (`base`, `recbase` after the transpose, L169)
and of orientation and detector (`uO`, `uS`, L171-172). -/
def geometricalSimulation (d : Detector ℝ) (p : PC ℝ) (base recbase uO uS : M3)
    (hkl : List (V3 ℝ)) : List BandTrace × List (ℝ × ℝ) :=
  let uOs := M3.matMul uO uS
  let r := bandsAndZoneAxes hkl (zoneAxesFromHkl hkl) (M3.matMul recbase uOs)
    (M3.matMul base uOs) (d.rMax p)
  (r.1, r.2.filter (withinBounds d p))

/-- `_get_geometrical_simulation` with `coords_fmt="pixel"`, L221-251. -/
def geometricalSimulationPixel (d : Detector ℝ) (p : PC ℝ) (base recbase uO uS : M3)
    (hkl : List (V3 ℝ)) : List BandTrace × List (ℝ × ℝ) :=
  let r := geometricalSimulation d p base recbase uO uS hkl
  (r.1.map fun b =>
    let e0 := simToPixel d p (b.x0, b.y0)
    let e1 := simToPixel d p (b.x1, b.y1)
    ⟨e0.1, e0.2, e1.1, e1.2⟩,
   r.2.map (simToPixel d p))

end
end Kp
