import Verif.Model.ExtrapolatedDetector
import Verif.Spec.ExtrapolatedDetector
import Verif.Props.FitPc
import Verif.Props.ExtrapolatePc
import Verif.Lemmas.Rescale
import Verif.Props.Downsample

/-
C143: the detector returned by `extrapolate_pc`.
-/

set_option linter.unusedSectionVars false

namespace Kp
open Spec

/-! ### Grids -/

theorem gridList_length {α : Type*} (ny nx : ℕ) (f : ℕ → ℕ → α) :
    ((List.range ny).flatMap fun y => (List.range nx).map (f y)).length = ny * nx := by
  induction ny with
  | zero => simp
  | succ n ih =>
    rw [List.range_succ, List.flatMap_append, List.length_append, ih]
    simp [Nat.succ_mul]

theorem gridList_get {α : Type*} (ny nx : ℕ) (f : ℕ → ℕ → α) {y x : ℕ} (hy : y < ny) (hx : x < nx) :
    ((List.range ny).flatMap fun y => (List.range nx).map (f y))[y * nx + x]? = some (f y x) := by
  induction ny with
  | zero => omega
  | succ n ih =>
    rw [List.range_succ, List.flatMap_append, List.getElem?_append, gridList_length]
    by_cases h : y < n
    · have : y * nx + x < n * nx := by
        have := Nat.mul_le_mul_right nx (Nat.succ_le_of_lt h)
        rw [Nat.succ_mul] at this
        omega
      rw [if_pos this, ih h]
    · obtain rfl : y = n := by omega
      rw [if_neg (by omega)]
      simp [hx]

theorem gridList_eq_map {α : Type*} (ny nx : ℕ) (f : ℕ → ℕ → α) :
    ((List.range ny).flatMap fun y => (List.range nx).map (f y)) =
      (allPositions ny nx).map fun p => f p.1 p.2 := by
  unfold allPositions
  rw [List.map_flatMap]
  simp only [List.map_map]
  rfl

theorem sum_range_nat (n : ℕ) : ((List.range n).map fun y : ℕ => (y : ℝ)).sum = n * (n - 1) / 2 := by
  induction n with
  | zero => simp
  | succ n ih =>
    rw [List.range_succ, List.map_append, List.sum_append, ih]
    push_cast
    simp
    ring

theorem sum_rows (ny nx : ℕ) : ((allPositions ny nx).map fun p => (p.1 : ℝ)).sum =
    ny * nx * (ny - 1) / 2 := by
  rw [← gridList_eq_map ny nx (fun y _ => (y : ℝ))]
  induction ny with
  | zero => simp
  | succ n ih =>
    rw [List.range_succ, List.flatMap_append, List.sum_append, ih]
    push_cast
    simp
    ring

theorem sum_cols (ny nx : ℕ) : ((allPositions ny nx).map fun p => (p.2 : ℝ)).sum =
    ny * nx * (nx - 1) / 2 := by
  rw [← gridList_eq_map ny nx (fun _ x => (x : ℝ))]
  induction ny with
  | zero => simp
  | succ n ih =>
    rw [List.range_succ, List.flatMap_append, List.sum_append, ih]
    have := sum_range_nat nx
    push_cast
    simp only [List.flatMap_cons, List.flatMap_nil, List.append_nil, this]
    ring

theorem sum_affine (l : List (ℕ × ℕ)) (A B C : ℝ) :
    (l.map fun p => A + B * (p.1 : ℝ) + C * (p.2 : ℝ)).sum =
      l.length * A + B * (l.map fun p => (p.1 : ℝ)).sum + C * (l.map fun p => (p.2 : ℝ)).sum := by
  induction l with
  | nil => simp
  | cons a l ih =>
    simp only [List.map_cons, List.sum_cons, ih, List.length_cons]
    push_cast
    ring

theorem allPositions_length (ny nx : ℕ) : (allPositions ny nx).length = ny * nx :=
  gridList_length ny nx fun y x => (y, x)

theorem mean_affine_grid {ny nx : ℕ} (hy : 0 < ny) (hx : 0 < nx) (A B C : ℝ) :
    listMean ((allPositions ny nx).map fun p => A + B * (p.1 : ℝ) + C * (p.2 : ℝ)) =
      A + B * (((ny : ℝ) - 1) / 2) + C * (((nx : ℝ) - 1) / 2) := by
  unfold listMean
  rw [sum_affine, sum_rows, sum_cols, List.length_map, allPositions_length]
  have h1 : (ny : ℝ) ≠ 0 := by positivity
  have h2 : (nx : ℝ) ≠ 0 := by positivity
  push_cast
  field_simp

/-! ### The returned detector -/

/-- The binning to be used: the one given, or that of the detector. -/
def Spec.binningAsked (d : Detector ℝ) (a : ExtrapolateArgs) : ℝ := a.binning.getD d.binning

/-- The shape to be used: the one given, or that of the detector. -/
def Spec.shapeAsked (d : Detector ℝ) (a : ExtrapolateArgs) : ℕ × ℕ := a.shape.getD (d.nrows, d.ncols)

/-- The pixel size to be used: the one given, or that of the detector. -/
def Spec.pxSizeAsked (d : Detector ℝ) (a : ExtrapolateArgs) : ℝ := a.pxSize.getD d.pxSize

theorem extrapolated_form {d d' : Detector ℝ} {m : ℕ} {rows : List (List ℝ)} {o : Option (List Bool)}
    {a : ExtrapolateArgs} (h : d.extrapolated m rows o a = .ok d') :
    ∃ (mean : PC ℝ) (pos : ℤ × ℤ), pcIndicesMean m rows o = .ok pos ∧
      (o = none → mean = pcMean d.pc) ∧
      d' = { d with
        nrows := (shapeAsked d a).1, ncols := (shapeAsked d a).2,
        nav := [a.navigationShape.1, a.navigationShape.2],
        pc := (List.range a.navigationShape.1).flatMap fun y =>
          (List.range a.navigationShape.2).map fun x =>
            extrapolatedPc (shapeAsked d a).1 (shapeAsked d a).2 (pxSizeAsked d a)
              (a.binning.getD (truncate d.binning))
              (Real.cos (deg2radR (90 - d.sampleTilt + d.tilt)))
              (Real.sin (deg2radR (90 - d.sampleTilt + d.tilt))) a.stepSizes.1 a.stepSizes.2 mean
              pos y x,
        pxSize := pxSizeAsked d a, binning := truncate (a.binning.getD (truncate d.binning)) } := by
  unfold Detector.extrapolated ExtrapolateArgs.geometry at h
  simp only at h
  cases o with
  | none =>
    simp only at h
    cases hp : pcIndicesMean m rows none with
    | error e => rw [hp] at h; cases h
    | ok pos =>
      rw [hp] at h
      exact ⟨_, pos, rfl, fun _ => rfl, (Except.ok.inj h).symm⟩
  | some o =>
    simp only at h
    cases hm : maskRows d.pc (o.map not) with
    | error e => rw [hm] at h; cases h
    | ok pcs =>
      rw [hm] at h
      simp only at h
      cases hp : pcIndicesMean m rows (some o) with
      | error e => rw [hp] at h; cases h
      | ok pos =>
        rw [hp] at h
        exact ⟨_, pos, rfl, by simp, (Except.ok.inj h).symm⟩

theorem binning_integer {d : Detector ℝ} {a : ExtrapolateArgs} {n : ℤ} (hb : binningAsked d a = n) :
    a.binning.getD (truncate d.binning) = n ∧ truncate (a.binning.getD (truncate d.binning)) = n := by
  unfold binningAsked at hb
  cases ha : a.binning with
  | none =>
    rw [ha, Option.getD_none] at hb
    simp [hb, truncate_int]
  | some b =>
    rw [ha, Option.getD_some] at hb
    simp [hb, truncate_int]

theorem pcOfPosition_extrapolated {d' : Detector ℝ} {ny nx : ℕ} {f : ℕ → ℕ → PC ℝ}
    (hn : d'.nav = [ny, nx])
    (hp : d'.pc = (List.range ny).flatMap fun y => (List.range nx).map (f y)) (y x : ℕ) :
    pcOfPosition d' y x = if y < ny ∧ x < nx then some (f y x) else none := by
  unfold pcOfPosition
  rw [hn, hp]
  simp only
  split_ifs with h
  · exact gridList_get ny nx f h.1 h.2
  · rfl

section
variable {d d' : Detector ℝ} {m : ℕ} {rows : List (List ℝ)} {o : Option (List Bool)}
  {a : ExtrapolateArgs}

/-- C143: the returned detector has a PC for each position of the map asked for and no others, the
shape, pixel size and (integer) binning asked for or else those of the detector, and the same tilts. -/
theorem C143_returned (h : d.extrapolated m rows o a = .ok d') {n : ℤ} (hb : binningAsked d a = n) :
    d'.nav = [a.navigationShape.1, a.navigationShape.2] ∧
    (∀ y x, (pcOfPosition d' y x).isSome ↔ y < a.navigationShape.1 ∧ x < a.navigationShape.2) ∧
    d'.pc.length = a.navigationShape.1 * a.navigationShape.2 ∧
    (d'.nrows, d'.ncols) = shapeAsked d a ∧ d'.pxSize = pxSizeAsked d a ∧
    d'.binning = binningAsked d a ∧ d'.tilt = d.tilt ∧ d'.sampleTilt = d.sampleTilt ∧
    d'.azimuthal = d.azimuthal ∧ d'.twist = d.twist := by
  obtain ⟨mean, pos, -, -, rfl⟩ := extrapolated_form h
  refine ⟨rfl, fun y x => ?_, gridList_length _ _ _, rfl, rfl, ?_, rfl, rfl, rfl, rfl⟩
  · rw [pcOfPosition_extrapolated rfl rfl]
    split_ifs with hc <;> simp [hc]
  · rw [hb]
    exact (binning_integer hb).2

/-- A detector of some size. -/
def Spec.HasSize (d : Detector ℝ) (a : ExtrapolateArgs) : Prop :=
  0 < (shapeAsked d a).1 ∧ 0 < (shapeAsked d a).2 ∧ pxSizeAsked d a ≠ 0 ∧ binningAsked d a ≠ 0

/-- C143: the source points lie on the plane of the sample, which makes an angle of 90 degrees minus
the sample tilt plus the detector tilt with the detector: a step to the next column moves the source
point by the step size `dx` along the detector, a step to the next row by `dy` along the inclined
direction. -/
theorem C143_plane (h : d.extrapolated m rows o a = .ok d') {n : ℤ} (hb : binningAsked d a = n)
    (hs : HasSize d a) {y x y' x' : ℕ} {p p' : PC ℝ} (hp : pcOfPosition d' y x = some p)
    (hp' : pcOfPosition d' y' x' = some p') :
    let alpha := deg2radR (90 - d.sampleTilt + d.tilt)
    (sourcePoint d' p').1 - (sourcePoint d' p).1 = -(((x' : ℝ) - x) * a.stepSizes.2) ∧
    (sourcePoint d' p').2.1 - (sourcePoint d' p).2.1 =
      -(((y' : ℝ) - y) * a.stepSizes.1 * Real.cos alpha) ∧
    (sourcePoint d' p').2.2 - (sourcePoint d' p).2.2 =
      ((y' : ℝ) - y) * a.stepSizes.1 * Real.sin alpha := by
  obtain ⟨mean, pos, -, -, rfl⟩ := extrapolated_form h
  rw [pcOfPosition_extrapolated rfl rfl] at hp hp'
  split_ifs at hp hp' with h1 h2
  obtain rfl := Option.some.inj hp
  obtain rfl := Option.some.inj hp'
  obtain ⟨e1, e2⟩ := binning_integer hb
  obtain ⟨s1, s2, s3, s4⟩ := hs
  rw [hb] at s4
  have r1 : ((shapeAsked d a).1 : ℝ) ≠ 0 := by positivity
  have r2 : ((shapeAsked d a).2 : ℝ) ≠ 0 := by positivity
  simp only [sourcePoint, extrapolatedPc, e1]
  rw [truncate_int]
  refine ⟨?_, ?_, ?_⟩ <;> field_simp <;> ring

/-- C143: so distances between source points are distances in the map. -/
theorem C143_distances (h : d.extrapolated m rows o a = .ok d') {n : ℤ}
    (hb : binningAsked d a = n) (hs : HasSize d a) {y x y' x' : ℕ} {p p' : PC ℝ}
    (hp : pcOfPosition d' y x = some p) (hp' : pcOfPosition d' y' x' = some p') :
    squaredDistance (sourcePoint d' p') (sourcePoint d' p) =
      (((y' : ℝ) - y) * a.stepSizes.1) ^ 2 + (((x' : ℝ) - x) * a.stepSizes.2) ^ 2 := by
  obtain ⟨h1, h2, h3⟩ := C143_plane h hb hs hp hp'
  unfold squaredDistance
  rw [h1, h2, h3]
  have := Real.sin_sq_add_cos_sq (deg2radR (90 - d.sampleTilt + d.tilt))
  linear_combination (((y' : ℝ) - y) * a.stepSizes.1) ^ 2 * this

/-- C143: the size of the detector, not its binning, matters: two calls with other shapes, pixel sizes
and binnings which describe a detector of the same height and width give the same PCs. -/
theorem C143_same_size {a' : ExtrapolateArgs} {d'' : Detector ℝ} {n n' : ℤ}
    (h : d.extrapolated m rows o a = .ok d') (h' : d.extrapolated m rows o a' = .ok d'')
    (hb : binningAsked d a = n) (hb' : binningAsked d a' = n')
    (hnav : a'.navigationShape = a.navigationShape) (hstep : a'.stepSizes = a.stepSizes)
    (hh : (shapeAsked d a').1 * pxSizeAsked d a' * binningAsked d a' =
      (shapeAsked d a).1 * pxSizeAsked d a * binningAsked d a)
    (hw : (shapeAsked d a').2 * pxSizeAsked d a' * binningAsked d a' =
      (shapeAsked d a).2 * pxSizeAsked d a * binningAsked d a) :
    d''.pc = d'.pc := by
  unfold Detector.extrapolated ExtrapolateArgs.geometry at h h'
  simp only at h h'
  have e : ∀ mean pos y x, extrapolatedPc (shapeAsked d a').1 (shapeAsked d a').2 (pxSizeAsked d a')
        (a'.binning.getD (truncate d.binning)) (Real.cos (deg2radR (90 - d.sampleTilt + d.tilt)))
        (Real.sin (deg2radR (90 - d.sampleTilt + d.tilt))) a'.stepSizes.1 a'.stepSizes.2 mean pos y x =
      extrapolatedPc (shapeAsked d a).1 (shapeAsked d a).2 (pxSizeAsked d a)
        (a.binning.getD (truncate d.binning)) (Real.cos (deg2radR (90 - d.sampleTilt + d.tilt)))
        (Real.sin (deg2radR (90 - d.sampleTilt + d.tilt))) a.stepSizes.1 a.stepSizes.2 mean pos y x := by
    intro mean pos y x
    rw [(binning_integer hb).1, (binning_integer hb').1, hstep]
    rw [hb, hb'] at hh hw
    have h1 : pxSizeAsked d a' * (n' : ℝ) * (shapeAsked d a').1 =
        pxSizeAsked d a * n * (shapeAsked d a).1 := by linear_combination hh
    have h2 : pxSizeAsked d a' * (n' : ℝ) * (shapeAsked d a').2 =
        pxSizeAsked d a * n * (shapeAsked d a).2 := by linear_combination hw
    unfold extrapolatedPc
    simp only [h1, h2]
  unfold shapeAsked pxSizeAsked at e
  split at h
  · cases h
  · split at h
    · cases h
    · rename_i pcs heq _ pos hpos
      rw [heq] at h'
      simp only [hpos] at h'
      obtain rfl := Except.ok.inj h
      obtain rfl := Except.ok.inj h'
      simp only [hnav, e]

/-- C143: `estimate_xtilt` of the returned detector gives the angle between sample and detector. -/
theorem C143_estimate (h : d.extrapolated m rows o a = .ok d') {n : ℤ} (hb : binningAsked d a = n)
    (hs : HasSize d a) (h0 : 0 < 90 - d.sampleTilt + d.tilt) (h1 : 90 - d.sampleTilt + d.tilt < 180)
    (hdy : a.stepSizes.1 ≠ 0) (hny : 2 ≤ a.navigationShape.1) (hnx : 1 ≤ a.navigationShape.2) :
    d'.estimateXtilt = .ok (deg2radR (90 - d.sampleTilt + d.tilt)) := by
  obtain ⟨mean, pos, -, -, rfl⟩ := extrapolated_form h
  obtain ⟨e1, e2⟩ := binning_integer hb
  obtain ⟨s1, s2, s3, s4⟩ := hs
  rw [hb] at s4
  have ht : TiltedDetector { d with
      nrows := (shapeAsked d a).1, ncols := (shapeAsked d a).2,
      nav := [a.navigationShape.1, a.navigationShape.2],
      pc := (List.range a.navigationShape.1).flatMap fun y =>
        (List.range a.navigationShape.2).map fun x =>
          extrapolatedPc (shapeAsked d a).1 (shapeAsked d a).2 (pxSizeAsked d a)
            (a.binning.getD (truncate d.binning))
            (Real.cos (deg2radR (90 - d.sampleTilt + d.tilt)))
            (Real.sin (deg2radR (90 - d.sampleTilt + d.tilt))) a.stepSizes.1 a.stepSizes.2 mean
            pos y x,
      pxSize := pxSizeAsked d a, binning := truncate (a.binning.getD (truncate d.binning)) } :=
    ⟨s1, s2, s3, by simp only [e2]; exact s4, h0, h1⟩
  refine C76_estimate_xtilt _ ht a.stepSizes.1 a.stepSizes.2 hdy mean pos
    (allPositions a.navigationShape.1 a.navigationShape.2) ?_ (0, 0) (1, 0) ?_ ?_ (by simp)
  · simp only
    rw [gridList_eq_map]
    refine List.map_congr_left fun p _ => ?_
    rw [planePc_eq]
    simp only [e1, truncate_int]
  · simp [allPositions]; omega
  · simp [allPositions]; omega

end

/-! ### Extrapolating again -/

/-- Map positions as the array `(n, 2)` of rows and columns. -/
def Spec.asRows (l : List (ℕ × ℕ)) : List (List ℝ) := l.map fun p => [(p.1 : ℝ), (p.2 : ℝ)]

theorem pcIndicesMean_rows (l : List (ℕ × ℕ)) :
    pcIndicesMean 2 (asRows l) none = .ok (npRound (listMean (l.map fun p => (p.1 : ℝ))),
      npRound (listMean (l.map fun p => (p.2 : ℝ)))) := by
  have h0 : (asRows l).filterMap (fun r => r[0]?) = l.map fun p => (p.1 : ℝ) := by
    unfold asRows
    rw [List.filterMap_map]
    exact List.filterMap_eq_map.symm ▸ rfl
  have h1 : (asRows l).filterMap (fun r => r[1]?) = l.map fun p => (p.2 : ℝ) := by
    unfold asRows
    rw [List.filterMap_map]
    exact List.filterMap_eq_map.symm ▸ rfl
  unfold pcIndicesMean
  have ht : transposeRows 2 (asRows l) = [l.map fun p => (p.1 : ℝ), l.map fun p => (p.2 : ℝ)] := by
    simp only [transposeRows, List.range_succ, List.range_zero, List.nil_append,
      List.map_cons, List.map_nil, h0, h1, List.cons_append]
  simp only [ht, List.map_cons]

theorem grid_mean_rows {ny nx : ℕ} (hy : 0 < ny) (hx : 0 < nx) :
    listMean ((allPositions ny nx).map fun p => (p.1 : ℝ)) = ((ny : ℝ) - 1) / 2 ∧
    listMean ((allPositions ny nx).map fun p => (p.2 : ℝ)) = ((nx : ℝ) - 1) / 2 := by
  have h1 := mean_affine_grid hy hx 0 1 0
  have h2 := mean_affine_grid hy hx 0 0 1
  simp only [zero_add, one_mul, zero_mul, add_zero] at h1 h2
  exact ⟨h1, h2⟩

theorem pcMean_plane {ny nx : ℕ} (hy : 0 < ny) (hx : 0 < nx) (nr nc : ℕ) (px b ca sa dy dx : ℝ)
    (mean : PC ℝ) (pos : ℤ × ℤ) :
    pcMean ((allPositions ny nx).map fun p => extrapolatedPc nr nc px b ca sa dy dx mean pos p.1 p.2) =
      ⟨mean.x + ((pos.2 : ℝ) - ((nx : ℝ) - 1) / 2) * dx / (px * b * nc),
        mean.y + ((pos.1 : ℝ) - ((ny : ℝ) - 1) / 2) * dy * ca / (px * b * nr),
        mean.z - ((pos.1 : ℝ) - ((ny : ℝ) - 1) / 2) * dy * sa / (px * b * nr)⟩ := by
  unfold pcMean
  simp only [List.map_map]
  apply PC.ext
  · simp only
    have := mean_affine_grid hy hx (mean.x + (pos.2 : ℝ) * dx / (px * b * nc)) 0
      (-(dx / (px * b * nc)))
    rw [show (PC.x ∘ fun p : ℕ × ℕ => extrapolatedPc nr nc px b ca sa dy dx mean pos p.1 p.2) =
      fun p => mean.x + (pos.2 : ℝ) * dx / (px * b * nc) + 0 * (p.1 : ℝ) +
        (-(dx / (px * b * nc))) * (p.2 : ℝ) by
        funext p; simp only [Function.comp_apply, extrapolatedPc]; ring, this]
    ring
  · simp only
    have := mean_affine_grid hy hx (mean.y + (pos.1 : ℝ) * dy * ca / (px * b * nr))
      (-(dy * ca / (px * b * nr))) 0
    rw [show (PC.y ∘ fun p : ℕ × ℕ => extrapolatedPc nr nc px b ca sa dy dx mean pos p.1 p.2) =
      fun p => mean.y + (pos.1 : ℝ) * dy * ca / (px * b * nr) +
        (-(dy * ca / (px * b * nr))) * (p.1 : ℝ) + 0 * (p.2 : ℝ) by
        funext p; simp only [Function.comp_apply, extrapolatedPc]; ring, this]
    ring
  · simp only
    have := mean_affine_grid hy hx (mean.z - (pos.1 : ℝ) * dy * sa / (px * b * nr))
      (dy * sa / (px * b * nr)) 0
    rw [show (PC.z ∘ fun p : ℕ × ℕ => extrapolatedPc nr nc px b ca sa dy dx mean pos p.1 p.2) =
      fun p => mean.z - (pos.1 : ℝ) * dy * sa / (px * b * nr) +
        (dy * sa / (px * b * nr)) * (p.1 : ℝ) + 0 * (p.2 : ℝ) by
        funext p; simp only [Function.comp_apply, extrapolatedPc]; ring, this]
    ring

theorem extrapolated_none (d : Detector ℝ) (l : List (ℕ × ℕ)) (a : ExtrapolateArgs) :
    ∃ d', d.extrapolated 2 (asRows l) none a = .ok d' := by
  unfold Detector.extrapolated ExtrapolateArgs.geometry
  simp only [pcIndicesMean_rows]
  exact ⟨_, rfl⟩

theorem pcMean_length_one (p : PC ℝ) : pcMean [p] = p := by
  unfold pcMean listMean
  simp

/-- C143: if the average of the given positions is a position in the map, it gets the average PC. -/
theorem C143_average {d d' : Detector ℝ} {l : List (ℕ × ℕ)} {a : ExtrapolateArgs}
    (h : d.extrapolated 2 (asRows l) none a = .ok d') {y x : ℕ}
    (hy : ((l.map fun p => (p.1 : ℝ)).sum / l.length) = y)
    (hx : ((l.map fun p => (p.2 : ℝ)).sum / l.length) = x)
    (hin : y < a.navigationShape.1 ∧ x < a.navigationShape.2) :
    pcOfPosition d' y x = some ⟨(d.pc.map PC.x).sum / d.pc.length, (d.pc.map PC.y).sum / d.pc.length,
      (d.pc.map PC.z).sum / d.pc.length⟩ := by
  obtain ⟨mean, pos, hpos, hm, rfl⟩ := extrapolated_form h
  rw [pcIndicesMean_rows] at hpos
  have e1 : npRound (listMean (l.map fun p => (p.1 : ℝ))) = y := by
    unfold listMean
    rw [List.length_map, hy]
    exact_mod_cast npRound_int (y : ℤ)
  have e2 : npRound (listMean (l.map fun p => (p.2 : ℝ))) = x := by
    unfold listMean
    rw [List.length_map, hx]
    exact_mod_cast npRound_int (x : ℤ)
  rw [e1, e2] at hpos
  obtain rfl := Except.ok.inj hpos
  rw [pcOfPosition_extrapolated rfl rfl, if_pos hin, hm rfl]
  unfold pcMean listMean
  simp [extrapolatedPc]

/-- C143: extrapolating again from all PCs of a returned detector gives the same detector, if the map
has odd numbers of rows and columns. -/
theorem C143_again {d d' : Detector ℝ} {m : ℕ} {rows : List (List ℝ)}
    {o : Option (List Bool)} {a : ExtrapolateArgs} (h : d.extrapolated m rows o a = .ok d') {n : ℤ}
    (hb : binningAsked d a = n) {j k : ℕ} (hnav : a.navigationShape = (2 * j + 1, 2 * k + 1)) :
    d'.extrapolated 2 (asRows (allPositions (2 * j + 1) (2 * k + 1))) none
      { navigationShape := a.navigationShape, stepSizes := a.stepSizes } = .ok d' := by
  obtain ⟨mean, pos, -, -, rfl⟩ := extrapolated_form h
  obtain ⟨e1, e2⟩ := binning_integer hb
  obtain ⟨g1, g2⟩ := grid_mean_rows (ny := 2 * j + 1) (nx := 2 * k + 1) (by omega) (by omega)
  have r1 : ((2 * j + 1 : ℕ) - 1 : ℝ) / 2 = ((j : ℤ) : ℝ) := by push_cast; ring
  have r2 : ((2 * k + 1 : ℕ) - 1 : ℝ) / 2 = ((k : ℤ) : ℝ) := by push_cast; ring
  unfold Detector.extrapolated ExtrapolateArgs.geometry
  simp only [pcIndicesMean_rows, g1, g2, r1, r2, npRound_int, Option.getD_none, hnav, e1]
  rw [gridList_eq_map, gridList_eq_map, pcMean_plane (by omega) (by omega), r1, r2, truncate_int]
  congr 2
  · rw [truncate_int, truncate_int]
  · refine List.map_congr_left fun p _ => ?_
    rw [truncate_int]
    unfold extrapolatedPc
    apply PC.ext <;> simp only <;> ring

/-! ### Limits -/

/-- C143 (limit): the average position is rounded, so that extrapolating again shifts the map by
half a step if the number of rows is even. -/
theorem C143_odd_matters {d d' : Detector ℝ} {m : ℕ} {rows : List (List ℝ)}
    {o : Option (List Bool)} {a : ExtrapolateArgs} (h : d.extrapolated m rows o a = .ok d') {n : ℤ}
    (hb : binningAsked d a = n) (hs : HasSize d a) (hdy : a.stepSizes.1 ≠ 0)
    (hsin : Real.sin (deg2radR (90 - d.sampleTilt + d.tilt)) ≠ 0)
    (hnav : a.navigationShape = (2, 1)) :
    d'.extrapolated 2 (asRows (allPositions 2 1)) none
      { navigationShape := a.navigationShape, stepSizes := a.stepSizes } ≠ .ok d' := by
  obtain ⟨mean, pos, -, -, rfl⟩ := extrapolated_form h
  obtain ⟨e1, e2⟩ := binning_integer hb
  obtain ⟨s1, s2, s3, s4⟩ := hs
  rw [hb] at s4
  have r1' : ((shapeAsked d a).1 : ℝ) ≠ 0 := by positivity
  obtain ⟨g1, g2⟩ := grid_mean_rows (ny := 2) (nx := 1) (by omega) (by omega)
  have r1 : npRound (((2 : ℕ) - 1 : ℝ) / 2) = 0 := by
    have hf : ⌊((2 : ℕ) - 1 : ℝ) / 2⌋ = 0 := by
      rw [Int.floor_eq_iff]
      norm_num
    unfold npRound
    simp only [hf]
    norm_num
  have r2 : npRound (((1 : ℕ) - 1 : ℝ) / 2) = 0 := by
    rw [show ((1 : ℕ) - 1 : ℝ) / 2 = ((0 : ℤ) : ℝ) by norm_num, npRound_int]
  unfold Detector.extrapolated ExtrapolateArgs.geometry
  simp only [pcIndicesMean_rows, g1, g2, r1, r2, Option.getD_none, hnav, e1]
  rw [gridList_eq_map, gridList_eq_map, pcMean_plane (by omega) (by omega), truncate_int]
  intro hcon
  have hpc := congrArg Detector.pc (Except.ok.inj hcon)
  simp only [allPositions, List.range_succ, List.range_zero, List.nil_append, List.flatMap_cons,
    List.cons_append, List.map_cons, List.cons.injEq] at hpc
  have hz := congrArg PC.z hpc.1
  simp only [extrapolatedPc, truncate_int] at hz
  push_cast at hz
  field_simp at hz
  have h0 : a.stepSizes.1 * Real.sin (deg2radR (90 - d.sampleTilt + d.tilt)) = 0 := by linarith
  rcases mul_eq_zero.1 h0 with h | h
  · exact hdy h
  · exact hsin h

/-- C143 (limit): a binning which is not an integer is used for the PCs, but the returned detector
has its integer part, so that distances between source points are not those of the map. -/
theorem C143_integer_binning_matters {d d' : Detector ℝ} {m : ℕ} {rows : List (List ℝ)}
    {o : Option (List Bool)} {a : ExtrapolateArgs} (h : d.extrapolated m rows o a = .ok d') {b : ℝ}
    (hb : a.binning = some b) (hpos : 0 < b) (hint : ∀ n : ℤ, b ≠ n) (hs : HasSize d a)
    (hdx : a.stepSizes.2 ≠ 0) {p p' : PC ℝ} (hp : pcOfPosition d' 0 0 = some p)
    (hp' : pcOfPosition d' 0 1 = some p') :
    squaredDistance (sourcePoint d' p') (sourcePoint d' p) ≠ a.stepSizes.2 ^ 2 := by
  obtain ⟨mean, pos, -, -, rfl⟩ := extrapolated_form h
  rw [pcOfPosition_extrapolated rfl rfl] at hp hp'
  split_ifs at hp hp' with h1 h2
  obtain rfl := Option.some.inj hp
  obtain rfl := Option.some.inj hp'
  obtain ⟨s1, s2, s3, s4⟩ := hs
  have r2 : ((shapeAsked d a).2 : ℝ) ≠ 0 := by positivity
  simp only [sourcePoint, extrapolatedPc, hb, Option.getD_some, squaredDistance]
  have ht : truncate b = (⌊b⌋ : ℤ) := by
    unfold truncate
    rw [if_pos hpos.le]
  have hlt : truncate b < b := by
    rw [ht]
    exact lt_of_le_of_ne (Int.floor_le b) (fun e => hint _ e.symm)
  have h0 : 0 ≤ truncate b := by
    rw [ht]
    exact_mod_cast Int.floor_nonneg.2 hpos.le
  intro hcon
  have e : (truncate b / b * a.stepSizes.2) ^ 2 = a.stepSizes.2 ^ 2 := by
    rw [← hcon]
    have hb0 := hpos.ne'
    push_cast
    field_simp
    ring
  rw [mul_pow] at e
  have e2 : (truncate b / b) ^ 2 = 1 := by
    have : a.stepSizes.2 ^ 2 ≠ 0 := pow_ne_zero 2 hdx
    exact mul_right_cancel₀ this (by rw [e, one_mul])
  have l1 : truncate b / b < 1 := (div_lt_one hpos).2 hlt
  have l0 : 0 ≤ truncate b / b := div_nonneg h0 hpos.le
  nlinarith

theorem maskRows_outliers {α : Type*} {l l' : List α} {o : List Bool} (hl : l'.length = l.length)
    (h : ∀ i : ℕ, o[i]? ≠ some true → l'[i]? = l[i]?) :
    maskRows l' (o.map not) = maskRows l (o.map not) := by
  unfold maskRows
  rw [hl]
  split
  · congr 1
    clear * - h hl
    induction l generalizing l' o with
    | nil => cases l' with
      | nil => rfl
      | cons a t => simp at hl
    | cons b t ih => cases l' with
      | nil => simp at hl
      | cons a t' => cases o with
        | nil => simp
        | cons c o' =>
          have ht := ih (l' := t') (o := o') (by simpa using hl) fun i hi => by
            simpa using h (i + 1) (by simpa using hi)
          cases c with
          | true => simpa using ht
          | false =>
            have h0 := h 0 (by simp)
            simp only [List.getElem?_cons_zero, Option.some.injEq] at h0
            subst h0
            simpa using ht
  · rfl

/-- C143: PCs marked as outliers do not matter: the result is the same whatever they are. -/
theorem C143_outliers {d : Detector ℝ} {m : ℕ} {rows : List (List ℝ)} {o : List Bool}
    {a : ExtrapolateArgs} {pcs : List (PC ℝ)} (hl : pcs.length = d.pc.length)
    (h : ∀ i : ℕ, o[i]? ≠ some true → pcs[i]? = d.pc[i]?) :
    ({ d with pc := pcs } : Detector ℝ).extrapolated m rows (some o) a =
      d.extrapolated m rows (some o) a := by
  unfold Detector.extrapolated
  simp only [maskRows_outliers hl h]
  rfl

theorem maskRows_map {α : Type*} (f : α → α) (l : List α) (o : List Bool) {r : List α}
    (h : maskRows l o = .ok r) : maskRows (l.map f) o = .ok (r.map f) := by
  unfold maskRows at h ⊢
  rw [List.length_map]
  split at h
  next hl =>
    rw [if_pos hl, ← Except.ok.inj h, List.zip_map_left, List.filterMap_map, List.map_filterMap]
    congr 2
    funext p
    simp only [Function.comp, Prod.map_fst, Prod.map_snd, id]
    split <;> rfl
  next => cases h

theorem listMean_shift {l : List ℝ} (hl : l ≠ []) (c : ℝ) :
    listMean (l.map (· + c)) = listMean l + c := by
  have h0 : (l.length : ℝ) ≠ 0 := by
    simpa using hl
  have : (l.map (· + c)).sum = l.sum + l.length * c := by
    clear hl h0
    induction l with
    | nil => simp
    | cons a t ih => simp only [List.map_cons, List.sum_cons, ih, List.length_cons]; push_cast; ring
  unfold listMean
  rw [this, List.length_map]
  field_simp

/-- A PC moved by some amount. -/
def Spec.movedBy (v p : PC ℝ) : PC ℝ := ⟨p.x + v.x, p.y + v.y, p.z + v.z⟩

theorem pcMean_moved {l : List (PC ℝ)} (hl : l ≠ []) (v : PC ℝ) :
    pcMean (l.map (Spec.movedBy v)) = Spec.movedBy v (pcMean l) := by
  have hx := listMean_shift (l := l.map PC.x) (by simpa using hl) v.x
  have hy := listMean_shift (l := l.map PC.y) (by simpa using hl) v.y
  have hz := listMean_shift (l := l.map PC.z) (by simpa using hl) v.z
  simp only [List.map_map] at hx hy hz
  simp only [pcMean, List.map_map, Spec.movedBy, PC.mk.injEq]
  exact ⟨hx, hy, hz⟩

/-- C143: the PCs which are not outliers do matter, also if there are outliers: moving all of them
moves all PCs of the map by as much. -/
theorem C143_moved {d d' : Detector ℝ} {m : ℕ} {rows : List (List ℝ)} {o : List Bool}
    {a : ExtrapolateArgs} (v : PC ℝ) (ho : ∃ i : ℕ, i < d.pc.length ∧ o[i]? = some false)
    (h : d.extrapolated m rows (some o) a = .ok d') :
    ({ d with pc := d.pc.map (movedBy v) } : Detector ℝ).extrapolated m rows (some o) a =
      .ok { d' with pc := d'.pc.map (movedBy v) } := by
  unfold Detector.extrapolated at h ⊢
  cases hm : maskRows d.pc (o.map not) with
  | error e => simp [hm] at h
  | ok pcs =>
    have hne : pcs ≠ [] := by
      obtain ⟨hl, rfl⟩ := maskRows_ok hm
      obtain ⟨i, hi, hoi⟩ := ho
      intro hcon
      have hmem : (d.pc[i], false) ∈ d.pc.zip o := by
        rw [List.mem_iff_getElem?]
        exact ⟨i, by rw [List.getElem?_zip_eq_some]; exact ⟨by simp [hi], hoi⟩⟩
      have : d.pc[i] ∈ withoutOutliers d.pc o := by
        unfold withoutOutliers
        simp
        exact hmem
      rw [hcon] at this
      simp at this
    have hm' := maskRows_map (movedBy v) d.pc (o.map not) hm
    simp only [hm, hm'] at h ⊢
    cases hp : pcIndicesMean m rows (some o) with
    | error e => simp [hp] at h
    | ok pos =>
      simp only [hp] at h ⊢
      rw [← Except.ok.inj h]
      simp only [ExtrapolateArgs.geometry, pcMean_moved hne v, List.map_flatMap, List.map_map]
      congr 2
      refine List.flatMap_congr fun y _ => List.map_congr_left fun x _ => ?_
      simp only [Function.comp, extrapolatedPc, movedBy, PC.mk.injEq]
      refine ⟨?_, ?_, ?_⟩ <;> ring

/-- Two PCs out of three are used, given row and column numbers as three columns. -/
example : ∃ d' : Detector ℝ,
    (⟨60, 60, 70, 1, 0, 0, 0, 70, [3], [⟨1, 1, 1⟩, ⟨2, 2, 2⟩, ⟨9, 9, 9⟩]⟩ : Detector ℝ).extrapolated 3
      [[0, 1, 2], [3, 4, 5]] (some [false, false, true]) ⟨(5, 3), (3 / 2, 2), none, none, none⟩ =
        .ok d' ∧
    (⟨60, 60, 70, 1, 0, 0, 0, 70, [3], [⟨1, 1, 1⟩, ⟨2, 2, 2⟩, ⟨4, 5, 6⟩]⟩ : Detector ℝ).extrapolated 3
      [[0, 1, 2], [3, 4, 5]] (some [false, false, true]) ⟨(5, 3), (3 / 2, 2), none, none, none⟩ =
        .ok d' := by
  have e : ∀ i : ℕ, [false, false, true][i]? ≠ some true →
      ([⟨1, 1, 1⟩, ⟨2, 2, 2⟩, ⟨4, 5, 6⟩] : List (PC ℝ))[i]? =
        ([⟨1, 1, 1⟩, ⟨2, 2, 2⟩, ⟨9, 9, 9⟩] : List (PC ℝ))[i]? := by
    intro i hi
    rcases i with _ | _ | _ | i
    · rfl
    · rfl
    · simp at hi
    · rfl
  refine ⟨_, rfl, ?_⟩
  exact C143_outliers
    (d := ⟨60, 60, 70, 1, 0, 0, 0, 70, [3], [⟨1, 1, 1⟩, ⟨2, 2, 2⟩, ⟨9, 9, 9⟩]⟩)
    (pcs := [⟨1, 1, 1⟩, ⟨2, 2, 2⟩, ⟨4, 5, 6⟩]) rfl e

/-! ### Examples -/

/-- A detector with one PC, used for a map of patterns binned by 8 instead of 1. -/
example : ∃ d' : Detector ℝ,
    (⟨480, 480, 70, 1, 5, 0, 0, 70, [1], [⟨1 / 2, 1 / 4, 1 / 2⟩]⟩ : Detector ℝ).extrapolated 2
      (asRows [(3, 4)]) none ⟨(5, 3), (3 / 2, 2), some (60, 60), none, some 8⟩ = .ok d' ∧
    d'.estimateXtilt = .ok (deg2radR (90 - 70 + 5)) ∧
    d'.extrapolated 2 (asRows (allPositions 5 3)) none ⟨(5, 3), (3 / 2, 2), none, none, none⟩ =
      .ok d' ∧
    ∃ d'', (⟨480, 480, 70, 1, 5, 0, 0, 70, [1], [⟨1 / 2, 1 / 4, 1 / 2⟩]⟩ : Detector ℝ).extrapolated 2
      (asRows [(3, 4)]) none ⟨(5, 3), (3 / 2, 2), none, none, none⟩ = .ok d'' ∧ d''.pc = d'.pc := by
  obtain ⟨d', h⟩ := extrapolated_none ⟨480, 480, 70, 1, 5, 0, 0, 70, [1], [⟨1 / 2, 1 / 4, 1 / 2⟩]⟩
    [(3, 4)] ⟨(5, 3), (3 / 2, 2), some (60, 60), none, some 8⟩
  obtain ⟨d'', h'⟩ := extrapolated_none ⟨480, 480, 70, 1, 5, 0, 0, 70, [1], [⟨1 / 2, 1 / 4, 1 / 2⟩]⟩
    [(3, 4)] ⟨(5, 3), (3 / 2, 2), none, none, none⟩
  have hb : binningAsked ⟨480, 480, 70, 1, 5, 0, 0, 70, [1], [⟨1 / 2, 1 / 4, 1 / 2⟩]⟩
      ⟨(5, 3), (3 / 2, 2), some (60, 60), none, some 8⟩ = (8 : ℤ) := by simp [binningAsked]
  have hb' : binningAsked ⟨480, 480, 70, 1, 5, 0, 0, 70, [1], [⟨1 / 2, 1 / 4, 1 / 2⟩]⟩
      ⟨(5, 3), (3 / 2, 2), none, none, none⟩ = (1 : ℤ) := by simp [binningAsked]
  refine ⟨d', h, ?_, C143_again h hb (j := 2) (k := 1) rfl, d'', h',
    C143_same_size h h' hb hb' rfl rfl ?_ ?_⟩
  · refine C143_estimate h hb ⟨?_, ?_, ?_, ?_⟩ ?_ ?_ ?_ ?_ ?_ <;>
      norm_num [shapeAsked, pxSizeAsked, binningAsked]
  · norm_num [shapeAsked, pxSizeAsked, binningAsked]
  · norm_num [shapeAsked, pxSizeAsked, binningAsked]

end Kp
