import Verif.Model.FloatIntensity
import Verif.Model.FloatRescale

/-
Model of a whole simulated pattern (`signals/util/_master_pattern.py` L448-527) in 64-bit floating point
numbers, with rescaling and conversion to the data type of the pattern.
-/

namespace Kp
noncomputable section

/-- `_project_single_pattern_from_master_pattern` (`_master_pattern.py` L448-527); `F` are the formats of
the operations of rescaling and of the pattern, `e` is how rescaling is evaluated. Values converted to
integers are in the range of the type. -/
def projectPatternFl (F : Formats ℝ) (e : Evaluation) (o : PixelOrders) (atan : ℝ → ℝ) (fused recip : Bool)
    (rot : Quat) (dcs : List (V3 ℝ)) (upper lower : Img ℝ) (npx npy : ℤ) (scale : ℝ) (rescale : Bool)
    (outMin outMax : ℝ) (dtypeOut : DType) : Option (List ℝ) := do
  let pattern ← dcs.mapM fun dc => projectPixelFl o atan fused recip rot upper lower npx npy scale dc
  let pattern := if rescale then
    pattern.map (rescalePixelFl F e (listMin pattern) (listMax pattern) outMin outMax) else pattern
  some (pattern.map (castFl F dtypeOut))

end
end Kp
