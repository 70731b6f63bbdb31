import Mathlib.Analysis.Real.Sqrt

/-
Model of `PCCalibrationMovingScreen` (`detectors/_calibration.py`), over ℝ.
-/

namespace Kp
noncomputable section

/-- `itertools.combinations(range(n), 2)` applied to a list of `n` items, in order
(`_calibration.py` L184, L363). -/
def pairs {α : Type*} : List α → List (α × α)
  | [] => []
  | x :: xs => xs.map (fun y => (x, y)) ++ pairs xs

/-- 2x2 determinant (`np.linalg.det`) of rows `(a, b)`, `(c, d)`. -/
def det2 (a b c d : ℝ) : ℝ := a * d - b * c

/-- `_get_intersection_from_lines` (`_calibration.py` L334-355); a line is
`((x1, y1), (x2, y2))`.  `none` stands for the NaN or infinite result when the denominator
is zero. -/
def intersection (l1 l2 : (ℝ × ℝ) × (ℝ × ℝ)) : Option (ℝ × ℝ) :=
  let x1 := l1.1.1
  let y1 := l1.1.2
  let x2 := l1.2.1
  let y2 := l1.2.2
  let x3 := l2.1.1
  let y3 := l2.1.2
  let x4 := l2.2.1
  let y4 := l2.2.2
  let a1 := det2 x1 y1 x2 y2
  let a2 := det2 x3 y3 x4 y4
  let a3 := det2 x1 1 x2 1
  let a4 := det2 x3 1 x4 1
  let a5 := det2 y1 1 y2 1
  let a6 := det2 y3 1 y4 1
  let denom := det2 a3 a5 a4 a6
  if denom = 0 then none
  else some (det2 a1 a3 a2 a4 / denom, det2 a1 a5 a2 a6 / denom)

/-- `_line_lengths` (`_calibration.py` L358-359) of one line. -/
def lineLength (a b : ℝ × ℝ) : ℝ :=
  Real.sqrt ((a.1 - b.1) ^ 2 + (a.2 - b.2) ^ 2)

/-- The constructor's arguments (`_calibration.py` L79-102): corresponding points
(in, out), the pattern shape and the parameters. -/
structure MovingScreen where
  points : List ((ℝ × ℝ) × (ℝ × ℝ))
  nrows : ℕ
  ncols : ℕ
  deltaZ : ℝ
  pxSize : Option ℝ
  binning : ℝ
  tsl : Bool

/-- Whether an intersection is within the detector (`pxy_within_detector`,
`_calibration.py` L193-204); NaN and infinities compare as `False`. -/
def MovingScreen.within (m : MovingScreen) (pxy : Option (ℝ × ℝ)) : Prop :=
  match pxy with
  | none => False
  | some q => (0 < q.1 ∧ q.1 < m.ncols) ∧ (0 < q.2 ∧ q.2 < m.nrows)

/-- PCz estimate from one pair of points (`pcz_all`, `_calibration.py` L234-243):
`line_lengths[1]` is the "out" length, `[0]` the "in" length. -/
def MovingScreen.pczOf (m : MovingScreen) (a b : (ℝ × ℝ) × (ℝ × ℝ)) : ℝ :=
  let lenIn := lineLength a.1 b.1
  let lenOut := lineLength a.2 b.2
  let z := m.deltaZ / (lenOut / lenIn - 1)
  match m.pxSize with
  | none => z
  | some px => z / ((m.nrows : ℝ) * px * m.binning)

open Classical in
/-- The PC estimate from one pair of points, if its intersection is within the detector
(`pcx_all`, `pcy_all`, `pcz_all`, `pc_all`, `_calibration.py` L182-248). -/
def MovingScreen.estimate (m : MovingScreen) (a b : (ℝ × ℝ) × (ℝ × ℝ)) :
    Option (ℝ × ℝ × ℝ) :=
  match intersection (a.2, a.1) (b.2, b.1) with
  | none => none
  | some q =>
    if m.within (some q) then
      let y := q.2 / (m.nrows : ℝ)
      some (q.1 / (m.ncols : ℝ), (if m.tsl then 1 - y else y), m.pczOf a b)
    else none

/-- `pc_all` (`_calibration.py` L245-248). -/
def MovingScreen.pcAll (m : MovingScreen) : List (ℝ × ℝ × ℝ) :=
  (pairs m.points).filterMap (fun ab => m.estimate ab.1 ab.2)

/-- `pc` (`_calibration.py` L250-253): mean of all estimates. -/
def MovingScreen.pc (m : MovingScreen) : ℝ × ℝ × ℝ :=
  let l := m.pcAll
  ((l.map (fun p => p.1)).sum / l.length, (l.map (fun p => p.2.1)).sum / l.length,
   (l.map (fun p => p.2.2)).sum / l.length)

end
end Kp
