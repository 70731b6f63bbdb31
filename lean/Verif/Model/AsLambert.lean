import Verif.Model.MasterPattern
import Verif.Model.KinematicalMaster

/-
Model of `as_lambert()` and `plot_spherical()` in `src/kikuchipy/signals/_kikuchi_master_pattern.py`,
over ℝ.
-/

namespace Kp
noncomputable section

/-- `projection` of a master pattern. -/
inductive SphereProjection
  | stereographic
  | lambert
  | notSet
  deriving DecidableEq

/-- A master pattern signal: projection, whether it is lazy, shape of the patterns and the patterns in
the order of the navigation axes. -/
structure MpSignal where
  projection : SphereProjection
  isLazy : Bool
  rows : ℕ
  cols : ℕ
  patterns : List (Img ℝ)

/-- `np.linspace(-1, 1, n)[k]` (L169, L284). -/
def linCoordinate (n k : ℕ) : ℝ := -1 + (k : ℝ) * (2 / ((n : ℝ) - 1))

/-- `StereographicProjection().vector2xy()` of orix, of a vector in the upper hemisphere (L180). -/
def vector2stereo (v : V3 ℝ) : ℝ × ℝ := (v.x / (1 + v.z), v.y / (1 + v.z))

/-- Coordinates at which the stereographic pattern is interpolated for pixel `(r, c)`: row and column
direction, as given to `interpn()` (L169-189). -/
def stereoSample (n r c : ℕ) : ℝ × ℝ :=
  let xy := vector2stereo (lambert2vector (linCoordinate n c) (linCoordinate n r))
  (xy.2 + 1, xy.1 + 1)

/-- `interpn()` raises for coordinates outside the pattern, which go from 0 to 2. -/
def SampleOutside (p : ℝ × ℝ) : Prop := p.1 < 0 ∨ 2 < p.1 ∨ p.2 < 0 ∨ 2 < p.2

open Classical in
/-- `as_lambert()` (L159-213). `interp` is spline interpolation in a pattern, which needs at least
four points in each direction; the points are those of a square pattern (L187). Conversion to 32-bit
floats is left out, and so are axes, phase and hemisphere, which are copied. -/
def asLambert (interp : Img ℝ → ℝ × ℝ → ℝ) (m : MpSignal) : Except Err MpSignal :=
  if m.projection = .lambert then .ok m
  else if m.isLazy then .error .notImplemented
  else if m.patterns ≠ [] ∧ (m.cols ≠ m.rows ∨ m.rows < 4) then .error .valueError
  else if m.patterns ≠ [] ∧ ∃ r < m.rows, ∃ c < m.rows, SampleOutside (stereoSample m.rows r c) then
    .error .valueError
  else .ok { m with
    projection := .lambert
    patterns := m.patterns.map fun p =>
      ⟨m.rows, m.cols, fun r c => interp p (stereoSample m.rows r c)⟩ }

/-! ### Plotting -/

/-- Whether `plot_spherical()` accepts a master pattern (L266-272). -/
def sphericalAccepted (projection : SphereProjection) (both centrosymmetric : Bool) : Bool :=
  projection = .stereographic && (both || centrosymmetric)

open Classical in
/-- Pixels that are plotted, row by row (L277). -/
def plottedPixels (n : ℕ) (upper : Img ℝ) : List (ℕ × ℕ) :=
  ((List.range n).flatMap fun r => (List.range n).map fun c => (r, c)).filter
    fun p => upper.val p.1 p.2 ≠ 0

/-- Directions and intensities plotted by `plot_spherical()` (L276-293), for square patterns.
Stacking two lists of vectors of orix and flattening is taken to give the first list and then the
second. -/
def sphericalPoints (n : ℕ) (upper lower : Img ℝ) : List (V3 ℝ × ℝ) :=
  (plottedPixels n upper).map (fun p =>
    (stereoVector (-1) (linCoordinate n p.2) (linCoordinate n p.1), upper.val p.1 p.2)) ++
  (plottedPixels n upper).map fun p =>
    (stereoVector 1 (linCoordinate n p.2) (linCoordinate n p.1), lower.val p.1 p.2)

/-- Upper and lower pattern for plotting (`_get_master_pattern_arrays_from_energy()` L341-344). -/
def hemispheresOf (both : Bool) (first second : Img ℝ) : Img ℝ × Img ℝ :=
  if both then (first, second) else (first, first)

end
end Kp
