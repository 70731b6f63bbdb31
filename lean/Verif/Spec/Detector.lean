import Verif.Model.Detector

/-
Specification of detector geometry, independent of the model's conversion functions: what
the vendors' projection center conventions mean (docstring of `EBSDDetector`,
`_ebsd_detector.py` L205-271), and gnomonic coordinates as similar triangles.
-/

namespace Kp.Spec

/-- The documented conventions with a distinct meaning. -/
inductive Vendor
  | bruker
  | tsl
  | oxford
  | emsoft4
  | emsoft5
  deriving DecidableEq

/-- The documented names of each convention (docstring L205-211). -/
def names : Vendor → List String
  | .bruker => ["bruker"]
  | .tsl => ["edax", "tsl", "amatek"]
  | .oxford => ["oxford", "aztec"]
  | .emsoft4 => ["emsoft4"]
  | .emsoft5 => ["emsoft", "emsoft5"]

/-- `c` is the letter `l`, in lower or upper case.  (Unicode has a second upper case `k`,
the Kelvin sign, which Python also lowers to `k`.) -/
def SameLetter (c l : Char) : Prop :=
  c = l ∨ c = l.toUpper ∨ (l = 'k' ∧ c = '\u212A')

/-- `s` spells the name `t` in any letter case. -/
def Spells (s t : String) : Prop := List.Forall₂ SameLetter s.toList t.toList

/-- `s` is one of the documented names of convention `v`, in any letter case. -/
def Denotes (s : String) (v : Vendor) : Prop := ∃ t ∈ names v, Spells s t

/-- The physical point that a PC triple denotes in a convention: (pixels to the right of
the left detector edge, pixels below the upper detector edge, distance from the detector
in pixels), in units of binned pixels, for a detector with `nr` x `nc` binned pixels,
binning factor `b` and unbinned pixel size `δ` in microns.

* Bruker: fractions of `nc`, `nr`, `nr` from the upper left corner.
* EDAX TSL: fractions of `nc`, `nr`, `min nc nr` from the lower left corner.
* Oxford: fractions of `nc` from the lower left corner.
* EMsoft: unbinned pixels from the detector center, `y` upwards, and the distance in
  microns; `x` counts against the pixel column direction from version 5 on and along it
  before. -/
def physical {K : Type*} [Field K] (v : Vendor) (nr nc : ℕ) (b δ : K) (p : PC K) :
    K × K × K :=
  match v with
  | .bruker => (p.x * nc, p.y * nr, p.z * nr)
  | .tsl => (p.x * nc, nr - p.y * nr, p.z * (min nr nc : ℕ))
  | .oxford => (p.x * nc, nr - p.y * nc, p.z * nc)
  | .emsoft4 => (nc / 2 + p.x / b, nr / 2 - p.y / b, p.z / (δ * b))
  | .emsoft5 => (nc / 2 - p.x / b, nr / 2 - p.y / b, p.z / (δ * b))

/-- Gnomonic coordinates (y, x) of the detector position (`y`, `x`) (pixels from the
upper left corner), by similar triangles: the offset from the projection center divided
by the detector distance, all in pixels, y upwards. -/
def gnomonic {K : Type*} [Field K] (nr nc : ℕ) (p : PC K) (c : K × K) : K × K :=
  ((p.y * nr - c.1) / (p.z * nr), (c.2 - p.x * nc) / (p.z * nr))

end Kp.Spec
