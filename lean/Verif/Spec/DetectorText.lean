import Verif.Model.DetectorText

/-
Specification of C152: the text of a detector file up to some character.
-/

namespace Kp.Spec

variable {K : Type} [Field K] [LinearOrder K] [IsStrictOrderedRing K] [FloorRing K]

/-- No line breaks in the values of the header. -/
structure NoBreaks (ft : FloatText K) (convention : String) (version time : List Char) : Prop where
  number : ∀ x, '\n' ∉ ft.repr x
  convention : '\n' ∉ convention.toList
  version : '\n' ∉ version
  time : '\n' ∉ time

/-- The numbers in rows of PCs. -/
def pcNumbers (pcs : List (PC K)) : List K := pcs.flatMap fun p => [p.x, p.y, p.z]

/-- The text before the last number: the header, all rows but the last, and two numbers of the last. -/
def beforeLastNumber (dec : ℕ) (header : List (List Char)) (pcs : List (PC K)) (last : PC K) : List Char :=
  joinLines (header ++ pcs.map (rowText dec)) ++
    (fixedText dec last.x ++ [' '] ++ fixedText dec last.y ++ [' '])

/-- What was read has the parameters of the detector. -/
structure HasParameters (t : LoadedText K) (d : Detector K) (convention : String) : Prop where
  nrows : t.nrows = d.nrows
  ncols : t.ncols = d.ncols
  pxSize : t.pxSize = d.pxSize
  binning : t.binning = d.binning
  tilt : t.tilt = d.tilt
  azimuthal : t.azimuthal = d.azimuthal
  twist : t.twist = d.twist
  sampleTilt : t.sampleTilt = d.sampleTilt
  convention : t.convention = convention

end Kp.Spec
