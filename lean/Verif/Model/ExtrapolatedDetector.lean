import Verif.Model.FitPc
import Verif.Model.Rescale

/-
Model of the detector returned by `EBSDDetector.extrapolate_pc`
(`src/kikuchipy/detectors/_ebsd_detector.py` L1381-1424), with the optional shape, pixel size and
binning. The average position is that of `Model/ExtrapolatePc.lean`; the warning about ignored angles
(L1405-1407) is left out.
-/

namespace Kp
noncomputable section

/-- The arguments of `extrapolate_pc` (`_ebsd_detector.py` L1315-1324) but for `pc_indices` and
`is_outlier`. -/
structure ExtrapolateArgs where
  navigationShape : ℕ × ℕ
  stepSizes : ℝ × ℝ
  shape : Option (ℕ × ℕ) := none
  pxSize : Option ℝ := none
  binning : Option ℝ := none

/-- `shape`, `px_size` and `binning` after the defaults are filled in (L1384-1390): the `binning`
attribute is the integer part of the stored number (L680-689). -/
def ExtrapolateArgs.geometry (a : ExtrapolateArgs) (d : Detector ℝ) : (ℕ × ℕ) × ℝ × ℝ :=
  (a.shape.getD (d.nrows, d.ncols), a.pxSize.getD d.pxSize, a.binning.getD (truncate d.binning))

/-- `extrapolate_pc` (`_ebsd_detector.py` L1381-1424): average PC and position, PCs in all map
positions, and the new detector. `pc_indices` is the 2D array `rows` with `m` columns. -/
def Detector.extrapolated (d : Detector ℝ) (m : ℕ) (rows : List (List ℝ))
    (isOutlier : Option (List Bool)) (a : ExtrapolateArgs) : Except Err (Detector ℝ) :=
  let ((nrows, ncols), pxSize, binning) := a.geometry d
  let pcs : Except Err (List (PC ℝ)) := match isOutlier with
    | none => .ok d.pc
    | some o => maskRows d.pc (o.map not)
  match pcs with
  | .error e => .error e
  | .ok pcs =>
    match pcIndicesMean m rows isOutlier with
    | .error e => .error e
    | .ok pos =>
      let alpha := deg2radR (90 - d.sampleTilt + d.tilt)
      .ok { d with
        nrows := nrows
        ncols := ncols
        nav := [a.navigationShape.1, a.navigationShape.2]
        pc := (List.range a.navigationShape.1).flatMap fun y =>
          (List.range a.navigationShape.2).map fun x =>
            extrapolatedPc nrows ncols pxSize binning (Real.cos alpha) (Real.sin alpha) a.stepSizes.1
              a.stepSizes.2 (pcMean pcs) pos y x
        pxSize := pxSize
        binning := truncate binning }

end
end Kp
