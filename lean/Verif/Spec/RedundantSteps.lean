import Verif.Model.NormalizeSignal
import Verif.Model.Rescale
import Verif.Spec.SignalFftFilter

/-
Specification of C142: sequences of intensity steps, and transfer functions used one after the other.
-/

namespace Kp.Spec

/-- A call of `rescale_intensity` or `normalize_intensity` with a floating point type of this number
of bits as `dtype_out`. -/
inductive IntensityStep where
  | rescale (relative : Bool) (outRange : Option (ℝ × ℝ)) (bits : ℕ)
  | normalize (numStd : ℝ) (divideBySquareRoot : Bool) (bits : ℕ)

/-- The output range is a range, and the number of standard deviations is positive. -/
def IntensityStep.Sensible : IntensityStep → Prop
  | .rescale _ outRange _ => ∀ r, outRange = some r → r.1 < r.2
  | .normalize numStd _ _ => 0 < numStd

/-- The data type of the signal after a step. -/
def IntensityStep.dtype : IntensityStep → DType
  | .rescale _ _ bits => .float bits
  | .normalize _ _ bits => .float bits

/-- The patterns after a step. -/
noncomputable def IntensityStep.run (dtype : DType) (patterns : List (List ℝ)) :
    IntensityStep → Except Err (List (List ℝ))
  | .rescale relative outRange bits =>
    signalRescaleIntensity patterns dtype relative none outRange (some (.float bits)) none
  | .normalize numStd divideBySquareRoot bits =>
    .ok (signalNormalizeIntensity patterns dtype numStd divideBySquareRoot (some (.float bits)))

/-- The patterns after all steps, one after the other. -/
noncomputable def runIntensitySteps : DType → List IntensityStep → List (List ℝ) →
    Except Err (List (List ℝ))
  | _, [], patterns => .ok patterns
  | dtype, s :: steps, patterns =>
    match s.run dtype patterns with
    | .error e => .error e
    | .ok patterns' => runIntensitySteps s.dtype steps patterns'

/-- The pixels of `p'`, an image of the same shape as `p`, are `pixels'`. -/
def ImageOf (p : Img ℝ) (pixels' : List ℝ) (p' : Img ℝ) : Prop :=
  p'.rows = p.rows ∧ p'.cols = p.cols ∧ p'.pixels = pixels'

/-- The coefficients for the frequencies `(u, v)` and `(-u, -v)` are the same. -/
def CentrallySymmetric (t : Img ℝ) (shift : Bool) : Prop :=
  ∀ u v : ℤ, transferAt t shift u v = transferAt t shift (-u) (-v)

/-- Some component of the pattern other than its mean intensity is kept by the transfer function. -/
def KeepsSomething (t : Img ℝ) (shift : Bool) (p : Img ℝ) : Prop :=
  ∃ u v : ℤ, ¬ ((p.rows : ℤ) ∣ u ∧ (p.cols : ℤ) ∣ v) ∧ component p u v ≠ 0 ∧
    transferAt t shift u v + transferAt t shift (-u) (-v) ≠ 0

end Kp.Spec
