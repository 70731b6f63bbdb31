/-
Specification for C141: which pattern an index names, and what is drawn for a pattern.
-/
import Verif.Model.SimulationCollections

namespace Kp.Spec
noncomputable section

/-- The number `k` names entry `j` of `n`, from the start or from the end. -/
def Counts (n : ℕ) (k : ℤ) (j : ℕ) : Prop := j < n ∧ (k = j ∨ k = (j : ℤ) - n)

/-- The index names pattern `i` of a map in row-major order: the first one if not given, the one of
a line scan with this number, or the one in this row and column of a map. -/
inductive NamesPattern : List ℕ → SimIndex → ℕ → Prop
  | first {shape : List ℕ} : shape.length = 1 ∨ shape.length = 2 → 0 < shape.prod →
      NamesPattern shape .none 0
  | number {n : ℕ} {k : ℤ} {j : ℕ} : Counts n k j → NamesPattern [n] (.int k) j
  | tuple1 {n : ℕ} {k : ℤ} {j : ℕ} : Counts n k j → NamesPattern [n] (.tuple [k]) j
  | tuple2 {ny nx : ℕ} {k l : ℤ} {y x : ℕ} : Counts ny k y → Counts nx l x →
      NamesPattern [ny, nx] (.tuple [k, l]) (y * nx + x)

/-- All line segments among the collections. -/
def segmentsDrawn (cs : List SimCollection) : List ((ℝ × ℝ) × (ℝ × ℝ)) :=
  cs.flatMap fun
    | .lines l => l
    | _ => []

/-- All circles with radii among the collections. -/
def circlesDrawn (cs : List SimCollection) : List ((ℝ × ℝ) × ℝ) :=
  cs.flatMap fun
    | .circles l => l
    | _ => []

/-- The centres of all circles among the collections. -/
def centresDrawn (cs : List SimCollection) : List (ℝ × ℝ) :=
  (circlesDrawn cs).map Prod.fst

/-- All texts with positions among the collections. -/
def textsDrawn (cs : List SimCollection) : List ((ℝ × ℝ) × List Char) :=
  cs.flatMap fun
    | .texts l => l
    | _ => []

/-- What kinds of collections there are, in order. -/
def kinds (cs : List SimCollection) : List String :=
  cs.map fun
    | .lines _ => "lines"
    | .circles _ => "zone axes"
    | .texts _ => "labels"

/-- The height of the detector in the units of a format, positive towards the upper edge of the
figure: rows, which run downwards, or the gnomonic range of the pattern. -/
def upwardHeight (d : Detector ℝ) (p : PC ℝ) : PlaneFormat → ℝ
  | .pixel => -d.nrows
  | .gnomonic => d.yMax p - d.yMin p

/-- What circles are scaled with: the number of rows, or the gnomonic width of the pattern. -/
def circleScale (d : Detector ℝ) (p : PC ℝ) : PlaneFormat → ℝ
  | .pixel => d.nrows
  | .gnomonic => d.xMax p - d.xMin p

end
end Kp.Spec
