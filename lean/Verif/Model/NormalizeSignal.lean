import Verif.Model.Normalize
import Verif.Model.DynamicBackground

/-
Model of `normalize_intensity` for all patterns of a signal.
-/

namespace Kp
noncomputable section

/-- `normalize_intensity` (`pattern/_pattern.py` L154-195) of one pattern. -/
def normalizeList (numStd : ℝ) (divideBySquareRoot : Bool) (dtypeOut : Option DType)
    (p : List ℝ) : List ℝ :=
  let normalized := List.ofFn (normalizeIntensity (ι := Fin p.length) numStd divideBySquareRoot
    (fun i => p.getD i 0))
  match dtypeOut with
  | some d => normalized.map (wrapTo d)
  | none => normalized

/-- `KikuchipySignal2D.normalize_intensity` (`signals/_kikuchipy_signal.py` L307-339); lazy
signals, RGB images and attributes are left out (see `Processing.lean`). -/
def signalNormalizeIntensity (patterns : List (List ℝ)) (dtypeIn : DType) (numStd : ℝ)
    (divideBySquareRoot : Bool) (dtypeOut : Option DType) : List (List ℝ) :=
  let dtypeOut := dtypeOut.getD dtypeIn
  patterns.map (normalizeList numStd divideBySquareRoot (some dtypeOut))

end
end Kp
