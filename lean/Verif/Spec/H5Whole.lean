import Verif.Model.H5Whole

/-
Specification of C129: what a loaded signal has of the saved one.
-/

namespace Kp.Spec

variable {K X : Type} [Field K] [LinearOrder K]

/-- Signals which can be saved and loaded: a map of up to two dimensions with at least one point,
patterns of at least two rows and columns, all pixels there, projection centers in one or two
dimensions, at least one, and a background pattern of the shape of patterns, or none. -/
structure Ordinary (s : EbsdSignal K) : Prop where
  nav : s.navAxes.length ≤ 2
  points : ∀ a ∈ s.navAxes, 1 ≤ a.size
  sig : ∃ ay ax, s.sigAxes = [ay, ax] ∧ 2 ≤ ay.size ∧ 2 ≤ ax.size
  size : s.data.data.length = ((s.navAxes ++ s.sigAxes).map SignalAxis.size).prod
  pcShape : (∃ n, s.pcShape = [n]) ∨ ∃ m n, s.pcShape = [m, n]
  pcSize : s.pc.length = s.pcShape.prod
  pcSome : s.pc ≠ []
  background : s.staticBackground = .noneVal ∨
    ∃ d, s.staticBackground = .arr (s.sigAxes.map SignalAxis.size) d

/-- A number, or text of ASCII characters which does not end with a zero character. -/
def Plain : PyVal K → Prop
  | .scalar _ => True
  | .str t => (∀ c ∈ t, c < 128) ∧ t.getLast? ≠ some 0
  | _ => False

/-- What is stored about the microscope: keys and values if there is no such key. -/
def semKeys : List (String × PyVal K) :=
  [("beam_energy", .scalar 0), ("magnification", .scalar 0), ("microscope", .str []),
    ("working_distance", .scalar 0)]

/-- Number of rows and columns of an array with one or two axes. -/
def rowsCols : List ℕ → ℕ × ℕ
  | [n] => (1, n)
  | [m, n] => (m, n)
  | _ => (0, 0)

/-- The axes with more than one point. -/
def longAxes (l : List (SignalAxis K)) : List ℕ := (l.map SignalAxis.size).filter (· ≠ 1)

end Kp.Spec
