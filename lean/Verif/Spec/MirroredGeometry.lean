import Verif.Spec.MasterSymmetry

/-
Specification of C148: an experiment and its mirror image.
-/

namespace Kp.Spec
noncomputable section

/-- The mirror: the plane through the middle of the screen from top to bottom, or from left to right. -/
inductive MirrorPlane
  | leftAndRight
  | upAndDown
  deriving DecidableEq

/-- The mirror image of a vector in the frame of the sample: left and right on the screen is along the
transverse direction `y` of the sample, up and down is across its surface, along `z`. -/
def MirrorPlane.sample : MirrorPlane → V3 ℝ → V3 ℝ
  | .leftAndRight, v => ⟨v.x, -v.y, v.z⟩
  | .upAndDown, v => ⟨v.x, v.y, -v.z⟩

/-- The mirror image of a projection center. -/
def MirrorPlane.center : MirrorPlane → PC ℝ → PC ℝ
  | .leftAndRight, p => { p with x := 1 - p.x }
  | .upAndDown, p => { p with y := 1 - p.y }

/-- The mirror image of a detector: angles of rotations with their axes in the mirror change their sense. -/
def MirrorPlane.detector (k : MirrorPlane) (d : Detector ℝ) : Detector ℝ :=
  let d' := { d with pc := d.pc.map k.center }
  match k with
  | .leftAndRight => { d' with azimuthal := -d.azimuthal, twist := -d.twist }
  | .upAndDown => { d' with sampleTilt := -d.sampleTilt, tilt := -d.tilt, twist := -d.twist }

/-- Where a pixel of a pattern with `nrows` rows and `ncols` columns, numbered row by row, is seen in the
mirror. -/
def MirrorPlane.pixel (k : MirrorPlane) (nrows ncols i : ℕ) : ℕ :=
  match k with
  | .leftAndRight => i / ncols * ncols + (ncols - 1 - i % ncols)
  | .upAndDown => (nrows - 1 - i / ncols) * ncols + i % ncols

/-- The mirror image of a pattern, or of a mask. -/
def MirrorPlane.pattern {α : Type} (k : MirrorPlane) (nrows ncols : ℕ) (p : List α) : List α :=
  (List.range (nrows * ncols)).filterMap fun i => p[k.pixel nrows ncols i]?

/-- Orientation `q'` is the mirror image of orientation `q`, where the crystal is mirrored by the operation
`g`: the mirror image of a sample vector is in the mirrored crystal what the vector is in the crystal. -/
def MirrorPlane.Crystal (k : MirrorPlane) (g : GridOp) (q q' : Quat) : Prop :=
  ∀ v, rotateVector q' (k.sample v) = g.act (rotateVector q v)

/-- The mirror image of a refinement, with the mirrored master pattern `mp`. -/
def MirrorPlane.refinement (k : MirrorPlane) (a : RefineArgs) (mp : MasterPattern) : RefineArgs :=
  { a with det := k.detector a.det, m := (k.detector a.det).sampleToDetector, mp := mp,
           signalMask := a.signalMask.map (k.pattern a.det.nrows a.det.ncols) }

end
end Kp.Spec
