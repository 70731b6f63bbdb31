import Verif.Model.RobustTilt
import Verif.Props.FitPc

/-
Specification of C130: detection of projection centers which are not on the sample plane.
-/

namespace Kp.Spec
noncomputable section

/-- Line through two points (z, y), level if they have the same z. -/
def pairLine (p q : ℝ × ℝ) (z : ℝ) : ℝ :=
  if p.1 = q.1 then (p.2 + q.2) / 2 else p.2 + (z - p.1) * ((q.2 - p.2) / (q.1 - p.1))

open Classical in
/-- The projection centers which are not further from a line than the median absolute deviation of
PCy. -/
def nearLine (pcs : List (PC ℝ)) (line : ℝ → ℝ) : List Bool :=
  pcs.map fun p => decide (|p.y - line p.z| ≤ medianDeviation (pcs.map PC.y))

/-- PCy on the sample plane described by the detector, for PCz, with one PC on the plane. -/
def planeLine (d : Detector ℝ) (mean : PC ℝ) (z : ℝ) : ℝ :=
  mean.y - (z - mean.z) * (Real.cos (deg2radR (90 - d.sampleTilt + d.tilt)) /
    Real.sin (deg2radR (90 - d.sampleTilt + d.tilt)))

/-- A projection center as a point (z, y). -/
def pcPoint (pcs : List (PC ℝ)) (i : ℕ) : ℝ × ℝ :=
  ((pcs.map PC.z).getD i 0, (pcs.map PC.y).getD i 0)

/-- A draw of two projection centers.
* `inRange`: these exist
* `clear`: the line through them is near exactly the projection centers which are not outliers, or
  near less of them -/
structure ClearDraw (d : Detector ℝ) (outlier : List Bool) (ij : ℕ × ℕ) : Prop where
  inRange : ij.1 < d.pc.length ∧ ij.2 < d.pc.length
  clear : nearLine d.pc (pairLine (pcPoint d.pc ij.1) (pcPoint d.pc ij.2)) = outlier.map not ∨
    (nearLine d.pc (pairLine (pcPoint d.pc ij.1) (pcPoint d.pc ij.2))).count true <
      outlier.count false

end
end Kp.Spec
