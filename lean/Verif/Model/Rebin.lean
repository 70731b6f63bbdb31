import Verif.Model.Detector
import Verif.Model.Downsample
import Verif.Model.ExtrapolatePc
import Mathlib.Algebra.BigOperators.Group.Finset.Basic
import Mathlib.Algebra.Order.Floor.Ring

/-
Model of `EBSD.rebin` (src/kikuchipy/signals/ebsd.py L2773-2828) for integer scales.

`Signal2D.rebin(scale=...)` of HyperSpy is modelled from its documentation: blocks of pixels
are summed, and with `crop=True` (the default) pixels which do not fill a block are left out.
Scales are given in the order of the array. Conversion of the data type is left out.
-/

namespace Kp

/-- HyperSpy's `rebin` of the two signal axes by integer scales. -/
def rebinImg {K : Type*} [AddCommMonoid K] (sy sx : ℕ) (a : Img K) : Img K :=
  { rows := a.rows / sy
    cols := a.cols / sx
    val := fun r c => ∑ i ∈ Finset.range sy, ∑ j ∈ Finset.range sx,
      a.val (r * sy + i) (c * sx + j) }

section
variable {K : Type*} [Field K] [LinearOrder K] [FloorRing K]

/-- `height` of the detector in microns (`_ebsd_detector.py` L697-703). -/
def Detector.height (d : Detector K) : K := (d.nrows : K) * d.pxSize * d.binning

/-- `width` of the detector in microns (`_ebsd_detector.py` L705-711). -/
def Detector.width (d : Detector K) : K := (d.ncols : K) * d.pxSize * d.binning

/-- `np.allclose` of two numbers with default tolerances. -/
def isClose (a b : K) : Prop := |a - b| ≤ 1 / 10 ^ 8 + 1 / 10 ^ 5 * |b|

instance (a b : K) : Decidable (isClose a b) := by unfold isClose; infer_instance

/-- The binning factor of the rebinned signal's detector (ebsd.py L2814-2819): the getter
`binning` gives the integer part of the (positive) binning factor. -/
def rebinBinning (binning : K) (oldY oldX newY newX : ℕ) : K :=
  let by' := (⌊binning⌋ : K) * ((oldY : K) / (newY : K))
  let bx := (⌊binning⌋ : K) * ((oldX : K) / (newX : K))
  if by' = bx ∧ isClose by' (npRound by' : K) ∧ isClose bx (npRound bx : K) then by' else 1

/-- What `rebin` returns besides the data: the attributes of the new signal. -/
structure RebinAttrs (K X : Type*) where
  detector : Detector K
  xmap : Option X
  staticBackground : Option (Img K)

/-- Attributes of the signal returned by `rebin` (ebsd.py L2773-2828), for a signal with
navigation shape `nav`, patterns of the shape of its detector, integer scales `navScale` of the
navigation axes and `sy`, `sx` of the signal axes.  If no axis changes its size, HyperSpy's
signal is returned as it is (L2783-2784), with the attributes of the signal. -/
def rebinAttrs {X : Type*} (d : Detector K) (xmap : Option X) (bg : Option (Img K))
    (nav navScale : List ℕ) (sy sx : ℕ) : RebinAttrs K X :=
  let navNew := List.zipWith (· / ·) nav navScale
  let newY := d.nrows / sy
  let newX := d.ncols / sx
  if navNew = nav ∧ newY = d.nrows ∧ newX = d.ncols then ⟨d, xmap, bg⟩
  else
    let bg' := if (newY, newX) ≠ (d.nrows, d.ncols) then bg.map (rebinImg sy sx) else bg
    let d' := { d with
      nrows := newY
      ncols := newX
      binning := rebinBinning d.binning d.nrows d.ncols newY newX }
    if navNew ≠ nav then
      ⟨{ d' with
          nav := if navNew = [] then [1] else navNew
          pc := List.replicate navNew.prod ⟨1 / 2, 1 / 2, 1 / 2⟩ }, none, none⟩
    else ⟨d', xmap, bg'⟩

end

end Kp
