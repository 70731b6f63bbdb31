import Verif.Model.FloatLambert
import Verif.Model.FloatSimilarity

/-
Model of the intensity of one pixel of a simulated pattern (`signals/util/_master_pattern.py` L496-519,
L681-708) in 64-bit floating point numbers. Pixels of the master pattern are numbers of that type (32-bit
floats and integers are converted without error).
-/

namespace Kp
noncomputable section

/-- The order of the two multiplications of a pixel and its weights: the weights in the order as written,
in the other order, or with each other first. -/
inductive ProductOrder
  | written
  | exchanged
  | weightsFirst

/-- Both factors of the last multiplication of one of the products in `_get_pixel_from_master_pattern`
(`_master_pattern.py` L703-707). -/
def ProductOrder.factors (o : ProductOrder) (value w1 w2 : ℝ) : ℝ × ℝ :=
  match o with
  | .written => (fl64 (value * w1), w2)
  | .exchanged => (fl64 (value * w2), w1)
  | .weightsFirst => (value, fl64 (w1 * w2))

/-- How the intensity is evaluated, which `fastmath=True` leaves open (`_master_pattern.py` L680): order of
every product, and order of the sum, with or without fused multiplications. -/
structure PixelOrders where
  product : Fin 4 → ProductOrder
  sum : SumOrder (Fin 4)

/-- Evaluation of the intensity as written: products and then sums from left to right. -/
def PixelOrders.asWritten : PixelOrders :=
  ⟨fun _ => .written, .plus (.plus (.plus (.term 0) (.term 1)) (.term 2)) (.term 3)⟩

/-- The four pixels with their weights in `_get_pixel_from_master_pattern`
(`_master_pattern.py` L703-707). -/
def weightedPixels (mp : Img ℝ) (p : Interp) : Fin 4 → ℝ × ℝ × ℝ :=
  ![(mp.val p.nii.toNat p.nij.toNat, p.dim, p.djm), (mp.val p.niip.toNat p.nij.toNat, p.di, p.djm),
    (mp.val p.nii.toNat p.nijp.toNat, p.dim, p.dj), (mp.val p.niip.toNat p.nijp.toNat, p.di, p.dj)]

/-- `_get_pixel_from_master_pattern` (`_master_pattern.py` L680-708). -/
def masterPixelFl (o : PixelOrders) (mp : Img ℝ) (p : Interp) : ℝ :=
  let t := fun i => (o.product i).factors (weightedPixels mp p i).1 (weightedPixels mp p i).2.1
    (weightedPixels mp p i).2.2
  o.sum.eval fl64 (fun i => (t i).1) (fun i => (t i).2)

/-- One pixel in `_project_single_pattern_from_master_pattern` (`_master_pattern.py` L496-519), before
intensities are rescaled and converted; `none` if the position is not a number. -/
def projectPixelFl (o : PixelOrders) (atan : ℝ → ℝ) (fused recip : Bool) (rot : Quat) (upper lower : Img ℝ) (npx npy : ℤ)
    (scale : ℝ) (dc : V3 ℝ) : Option ℝ := do
  let v := rotateVectorFl rot dc
  let p ← lambertInterpFl atan fused recip v npx npy scale
  some (if 0 ≤ v.z then masterPixelFl o upper p else masterPixelFl o lower p)

/-- The same pixel converted to a floating point data type, without rescaling
(`_master_pattern.py` L496-527). -/
def projectPixelAs (t : MetricType) (o : PixelOrders) (atan : ℝ → ℝ) (fused recip : Bool) (rot : Quat)
    (upper lower : Img ℝ) (npx npy : ℤ) (scale : ℝ) (dc : V3 ℝ) : Option ℝ :=
  (projectPixelFl o atan fused recip rot upper lower npx npy scale dc).map t.fl

end
end Kp
