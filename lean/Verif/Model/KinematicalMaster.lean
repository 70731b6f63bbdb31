import Verif.Model.Vec3
import Mathlib.Analysis.SpecialFunctions.Trigonometric.Inverse
import Mathlib.Algebra.BigOperators.Group.List.Basic

/-
Model of `KikuchiPatternSimulator.calculate_master_pattern()` and the compiled loop
`get_pattern()` (`src/kikuchipy/simulations/kikuchi_pattern_simulator.py` L122-215, L675-700), with
`poles_from_hemisphere()` (`src/kikuchipy/_utils/vector.py` L28-52).

Numbers are real: no rounding, and `fastmath` does not matter. `get_pattern` is compiled with
`parallel=True` and loops over reflectors with `numba.prange`: threads run the loop body for
different reflectors at the same time, on one array `pattern`. `pattern[j] = pattern[j] + x` is a
read of the array element followed by a write.
-/

namespace Kp

noncomputable section

/-- A reflector: unit vector of the plane normal, Bragg angle and structure factor's absolute
value. -/
structure KinReflector where
  normal : V3 ℝ
  theta : ℝ
  factor : ℝ

/-- Intensity scaling (L168-181). -/
inductive KinScaling
  | linear
  | square
  | none
  | unknown
  deriving DecidableEq

/-- Intensity of a band (L168-181): `|F|`, `|F F*|` or 1. -/
def kinIntensity (s : KinScaling) : Except String (KinReflector → ℝ) :=
  match s with
  | .linear => .ok fun r => r.factor
  | .square => .ok fun r => r.factor * r.factor
  | .none => .ok fun _ => 1
  | .unknown => .error "ValueError: Unknown scaling"

/-- What one reflector adds to one pixel, if anything (L691-699): `d` is the dot product of the
reflector's normal and the pixel's direction. -/
def bandUpdate (intensity theta d : ℝ) : Option ℝ :=
  if |d| ≤ 1 / 10 ^ 7 then some (1 / 2 * intensity)
  else if Real.arccos d ≤ Real.pi / 2 ∧ Real.pi / 2 - theta ≤ Real.arccos d then some intensity
  else none

/-- One iteration of the loop over reflectors (L692-699), as the list of its additions to the
array: pixel and value. -/
def reflectorUpdates (intensity : ℝ) (r : KinReflector) (directions : List (V3 ℝ)) :
    List (ℕ × ℝ) :=
  directions.zipIdx.filterMap fun v =>
    (bandUpdate intensity r.theta (r.normal.dot v.1)).map fun a => (v.2, a)

/-- An array with a value added to one element. -/
def addAt (mem : ℕ → ℝ) (u : ℕ × ℝ) : ℕ → ℝ := Function.update mem u.1 (mem u.1 + u.2)

/-- `get_pattern()` run by a single thread (L685-700). -/
def getPatternSeq (updates : List (List (ℕ × ℝ))) : ℕ → ℝ := updates.flatten.foldl addAt fun _ => 0

/-! ### Threads -/

/-- A thread: additions still to be made, and the value read for the first of them, if it was read
already. -/
structure KinThread where
  todo : List (ℕ × ℝ)
  reg : Option ℝ

/-- The array and all threads. -/
structure KinState (n : ℕ) where
  mem : ℕ → ℝ
  threads : Fin n → KinThread

/-- A step of the machine: some thread reads the array element of its next addition, or writes the
sum of what it has read and the value to add (L696, L699). Nothing keeps other threads from making
steps in between. -/
inductive KinStep {n : ℕ} : KinState n → KinState n → Prop
  | read (s : KinState n) (i : Fin n) (u : ℕ × ℝ) (l : List (ℕ × ℝ))
      (h : s.threads i = ⟨u :: l, none⟩) :
      KinStep s ⟨s.mem, Function.update s.threads i ⟨u :: l, some (s.mem u.1)⟩⟩
  | write (s : KinState n) (i : Fin n) (u : ℕ × ℝ) (l : List (ℕ × ℝ)) (r : ℝ)
      (h : s.threads i = ⟨u :: l, some r⟩) :
      KinStep s ⟨Function.update s.mem u.1 (r + u.2), Function.update s.threads i ⟨l, none⟩⟩

/-- Any number of steps. -/
inductive KinRun {n : ℕ} : KinState n → KinState n → Prop
  | refl (s : KinState n) : KinRun s s
  | tail (s t u : KinState n) (h : KinRun s t) (st : KinStep t u) : KinRun s u

/-- `get_pattern()` starts with zeros (L690) and the iterations of the loop given out to threads
(L691); a thread runs the iterations given to it one after the other. -/
def kinStart {n : ℕ} (work : Fin n → List (ℕ × ℝ)) : KinState n :=
  ⟨fun _ => 0, fun i => ⟨work i, none⟩⟩

/-- All threads have finished. -/
def KinState.Done {n : ℕ} (s : KinState n) : Prop := ∀ i, (s.threads i).todo = []

/-! ### Directions -/

/-- `np.linspace(-1, 1, 2 * h + 1)[k]` (L166, L185). -/
def gridCoordinate (h k : ℕ) : ℝ := -1 + 2 * (k : ℝ) / (2 * h)

/-- `InverseStereographicProjection(pole).xy2vector(x, y)` of orix. -/
def stereoVector (pole x y : ℝ) : V3 ℝ :=
  ⟨2 * x / (1 + x ^ 2 + y ^ 2), 2 * y / (1 + x ^ 2 + y ^ 2),
    -pole * (1 - x ^ 2 - y ^ 2) / (1 + x ^ 2 + y ^ 2)⟩

/-- Hemispheres, `both` in order. -/
inductive KinHemisphere
  | upper
  | lower
  | both
  deriving DecidableEq

/-- `poles_from_hemisphere()` (vector.py L28-52). -/
def hemispherePoles : KinHemisphere → List ℝ
  | .upper => [-1]
  | .lower => [1]
  | .both => [-1, 1]

/-- Directions of all pixels of one hemisphere, row by row (L185-194). -/
def hemisphereDirections (h : ℕ) (pole : ℝ) : List (V3 ℝ) :=
  (List.range ((2 * h + 1) * (2 * h + 1))).map fun i =>
    stereoVector pole (gridCoordinate h (i % (2 * h + 1))) (gridCoordinate h (i / (2 * h + 1)))

/-- `str.lower()`, then the comparison in `parse_hemisphere()` (vector.py L47-52). -/
def parseKinHemisphere (s : String) : Except String KinHemisphere :=
  if s.toLower = "upper" then .ok .upper
  else if s.toLower = "lower" then .ok .lower
  else if s.toLower = "both" then .ok .both
  else .error "UnknownHemisphereError"

/-- Reflectors of the simulator, with or without Bragg angles and structure factors. -/
structure KinSimulator where
  reflectors : List KinReflector
  hasTheta : Bool
  hasFactor : Bool

/-- The returned master pattern: one array of pixels per hemisphere, number of rows and of columns,
names and offsets of the axes and hemisphere. -/
structure KinMaster where
  images : List (List ℝ)
  size : ℕ
  axes : List (String × ℤ)
  hemisphere : String

/-- Number of dimensions of the returned array, after `squeeze()` (L201); the size is at least 3. -/
def KinMaster.dataDims (m : KinMaster) : ℕ := if m.images.length = 1 then 2 else 3

/-- The iterations of the loop over reflectors for one hemisphere. -/
def kinUpdates (h : ℕ) (pole : ℝ) (intensity : KinReflector → ℝ) (reflectors : List KinReflector) :
    List (List (ℕ × ℝ)) :=
  reflectors.map fun r => reflectorUpdates (intensity r) r (hemisphereDirections h pole)

/-- Pattern of one hemisphere (L192-200), with the loop over reflectors run by a single thread. -/
def kinImage (h : ℕ) (pole : ℝ) (intensity : KinReflector → ℝ) (reflectors : List KinReflector) :
    List ℝ :=
  (List.range ((2 * h + 1) * (2 * h + 1))).map fun j =>
    getPatternSeq (kinUpdates h pole intensity reflectors) j

/-- `calculate_master_pattern()` (L163-215) for `half_size` at least 1. -/
def calculateMasterPattern (sim : KinSimulator) (h : ℕ) (hemisphere : String)
    (scaling : KinScaling) : Except String KinMaster := do
  if !sim.hasTheta then throw "ValueError: Reflectors have no Bragg angles"
  if !sim.hasFactor then throw "ValueError: Reflectors have no structure factors"
  let hemi ← parseKinHemisphere hemisphere
  let intensity ← kinIntensity scaling
  pure
    { images := (hemispherePoles hemi).map fun p => kinImage h p intensity sim.reflectors
      size := 2 * h + 1
      axes := (if hemisphere = "both" then [("hemisphere", 0)] else []) ++
        [("height", (-(2 * (h : ℤ) + 1)) / 2), ("width", (-(2 * (h : ℤ) + 1)) / 2)]
      hemisphere := hemisphere }

end

end Kp
