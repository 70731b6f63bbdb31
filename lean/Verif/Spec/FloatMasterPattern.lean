import Verif.Model.FloatMasterPattern

/-!
C157: what an EMsoft file holds, and how its asymmetric positions may be added.
-/

namespace Kp.Spec
noncomputable section

variable {K : Type*}

/-- Intensities of all asymmetric positions in the file, in one pixel of a hemisphere at the energy
with number `k` in the file. -/
def positionsInFile (f : EmFile K MpImage) (south : Bool) (k r c : ℕ) : List ℝ :=
  (if south then f.lpSouth else f.lpNorth).map fun images => (images.getD k 0) r c

/-- All intensities in the file are numbers of type float32 which are not negative. -/
def Float32Intensities (f : EmFile K MpImage) : Prop :=
  ∀ south : Bool, ∀ images ∈ (if south then f.lpSouth else f.lpNorth), ∀ image ∈ images, ∀ r c : ℕ,
    0 ≤ image r c ∧ binaryRound 24 (-149) (image r c) = image r c

/-- Every asymmetric position of both hemispheres is added exactly once in every pixel. -/
def AddsEveryPosition (f : EmFile K MpImage) (order : PositionOrder) : Prop :=
  ∀ (south : Bool) (k r c : ℕ), (order south k r c).pixels.Perm
    (List.range (if south then f.lpSouth else f.lpNorth).length)

end
end Kp.Spec
