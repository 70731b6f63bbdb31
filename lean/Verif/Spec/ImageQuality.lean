import Mathlib.Data.ZMod.ValMinAbs
import Mathlib.Analysis.SpecialFunctions.Trigonometric.Basic
import Mathlib.Data.Fintype.BigOperators

/-
Specification for `Verif.Props.ImageQuality` (C136): image quality as a measure of how far the
amplitudes of a pattern's waves are spread from zero frequency, in terms of sums of exponentials.
-/

namespace Kp.Spec
noncomputable section
open Finset

variable {sy sx : ℕ} [NeZero sy] [NeZero sx]

/-- Number of periods, disregarding the direction of travel, which a wave of index `k` has over `n`
pixels: `0, 1, …, n / 2`. -/
def periods {n : ℕ} (k : ZMod n) : ℕ := k.valMinAbs.natAbs

/-- Penalty of `m` periods over `n` pixels: one without any period, `m²` for the finest wave, of period
two pixels, and the mean of `m²` and `(m + 1)²` otherwise. -/
def penalty (n m : ℕ) : ℝ :=
  if m = 0 then 1 else if 2 * m = n then (m : ℝ) ^ 2 else ((m : ℝ) ^ 2 + (m + 1) ^ 2) / 2

/-- Penalty of the wave with indices `(k, l)`. -/
def wavePenalty (k : ZMod sy) (l : ZMod sx) : ℝ :=
  penalty sy (periods k) + penalty sx (periods l) - 1

/-- Amplitude of the wave with indices `(k, l)` in a pattern. -/
def amplitude (p : ZMod sy × ZMod sx → ℝ) (k : ZMod sy) (l : ZMod sx) : ℝ :=
  ‖∑ y : ZMod sy, ∑ x : ZMod sx, (p (y, x) : ℂ) * Complex.exp (-(2 * Real.pi * Complex.I *
    (k.val * y.val / sy + l.val * x.val / sx)))‖

/-- Mean penalty of all waves. -/
def meanPenalty (sy sx : ℕ) [NeZero sy] [NeZero sx] : ℝ :=
  (∑ k : ZMod sy, ∑ l : ZMod sx, wavePenalty k l) / (sy * sx)

/-- One minus the mean penalty weighted by amplitude, relative to the mean penalty of all waves. -/
def quality (p : ZMod sy × ZMod sx → ℝ) : ℝ :=
  1 - (∑ k, ∑ l, amplitude p k l * wavePenalty k l) / (∑ k, ∑ l, amplitude p k l) /
    meanPenalty sy sx

/-- The cosine wave with `k` periods down the rows and `l` periods along the columns. -/
def cosWave (sy sx : ℕ) (k l : ℤ) : ZMod sy × ZMod sx → ℝ := fun i =>
  Real.cos (2 * Real.pi * (k * i.1.val / sy + l * i.2.val / sx))

/-- All pixels except one are zero. -/
def IsSinglePixel (p : ZMod sy × ZMod sx → ℝ) : Prop := ∃ i, p i ≠ 0 ∧ ∀ j, j ≠ i → p j = 0

end
end Kp.Spec
