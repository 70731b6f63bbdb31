import Verif.Model.NordifCalibration
import Mathlib.Data.Nat.Digits.Defs

/-
Specification of C127: calibration patterns and their positions in a NORDIF setting file.
-/

namespace Kp.Spec

/-- Digits, at least one. -/
def IsDigits (t : Text) : Prop := t ≠ [] ∧ ∀ c ∈ t, c.isDigit = true

/-- Text without digits. -/
def NoDigits (t : Text) : Prop := ∀ c ∈ t, c.isDigit = false

/-- The number written with these digits. -/
def numberOf (t : Text) : ℕ := Nat.ofDigits 10 (t.reverse.map fun c => c.toNat - 48)

/-- Line `i` is a row of the region of interest, as `Width` TAB `4.500 (11)` TAB `um (px)`: a key, a
decimal number (in micrometers) and a number of pixels. -/
def RoiRowAt (lines : List Text) (i : ℕ) (key : String) (whole decimals px : Text) : Prop :=
  IsDigits whole ∧ IsDigits decimals ∧ IsDigits px ∧
    ∃ a b rest, NoDigits a ∧ NoDigits b ∧ b ≠ [] ∧ (∀ c ∈ rest.head?, c.isDigit = false) ∧
      lines[i]? = some (key.toList ++ (a ++ (whole ++ ('.' :: (decimals ++ (b ++ (px ++ rest)))))))

/-- The region of interest written in a setting file. -/
structure RoiAt (lines : List Text) (area : ℕ) where
  topWhole : Text
  topDecimals : Text
  top : Text
  topRow : RoiRowAt lines (area + 1) "Top" topWhole topDecimals top
  leftWhole : Text
  leftDecimals : Text
  left : Text
  leftRow : RoiRowAt lines (area + 2) "Left" leftWhole leftDecimals left
  widthWhole : Text
  widthDecimals : Text
  width : Text
  widthRow : RoiRowAt lines (area + 3) "Width" widthWhole widthDecimals width
  heightWhole : Text
  heightDecimals : Text
  height : Text
  heightRow : RoiRowAt lines (area + 4) "Height" heightWhole heightDecimals height

/-- An integer is the position `x`, in pixels of `size` micrometers, in map steps of `step`
micrometers, to within half a step. -/
def InSteps {K : Type} [Field K] [LinearOrder K] (size step : K) (x n : ℤ) : Prop :=
  |(n : K) - (x : K) * size / step| ≤ 1 / 2

end Kp.Spec
