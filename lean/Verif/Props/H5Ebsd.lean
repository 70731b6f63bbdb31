import Verif.Model.H5Ebsd
import Verif.Props.H5Dict
import Mathlib.Algebra.Order.Ring.Rat
import Mathlib.Tactic.NormNum

/-
C40: signals survive storage in kikuchipy's h5ebsd format.
-/

set_option linter.unusedSectionVars false

namespace Kp

variable {K : Type} [Field K] [LinearOrder K]

/-- A signal with a map of no, one or two dimensions with at least two positions along each,
navigation axes named "x" and "y", detector axes "dy" and "dx" of at least two pixels with the
pixel size of the detector as scale, one PC or one per map point, and a static background. -/
structure Spec.Regular (s : EbsdSignal K) : Prop where
  nav : s.navAxes = [] ∨ (∃ n d, 2 ≤ n ∧ s.navAxes = [⟨"x", n, d⟩]) ∨
    (∃ n d, 2 ≤ n ∧ s.navAxes = [⟨"y", n, d⟩]) ∨
    ∃ m n d e, 2 ≤ m ∧ 2 ≤ n ∧ s.navAxes = [⟨"y", m, d⟩, ⟨"x", n, e⟩]
  sig : ∃ sy sx, 2 ≤ sy ∧ 2 ≤ sx ∧ s.sigAxes = [⟨"dy", sy, s.pxSize⟩, ⟨"dx", sx, s.pxSize⟩]
  shape : s.data.shape = (s.navAxes ++ s.sigAxes).map SignalAxis.size
  size : s.data.data.length = shapeSize s.data.shape
  pc : s.pcShape = [1] ∧ s.pc.length = 1 ∨
    s.navAxes ≠ [] ∧ s.pcShape = s.navAxes.map SignalAxis.size ∧ s.pc.length = shapeSize s.pcShape
  background : ∃ d, s.staticBackground = .arr (s.sigAxes.map SignalAxis.size) d

theorem zip_pcs : ∀ l : List (PC K),
    List.zipWith (fun x (yz : K × K) => PC.mk x yz.1 yz.2) (l.map PC.x)
      (List.zip (l.map PC.y) (l.map PC.z)) = l
  | [] => rfl
  | p :: l => by simp [zip_pcs l]

theorem stored_arr {shape : List ℕ} (h1 : shape ≠ []) (h2 : shape.head? ≠ some 1) (d : List K) :
    stored (.arr shape d) = .arr shape d := by
  unfold stored writeVal
  simp only
  unfold readVal
  split <;> simp_all

theorem stored_one (v : K) : stored (.arr [1] [v]) = .scalar v := by
  simp [stored, writeVal, readVal]

theorem reshape_ok {V : Type} {a : FlatArr V} {shape : List ℕ} (h : a.data.length = shapeSize shape) :
    a.reshape shape = .ok ⟨shape, a.data⟩ := by
  unfold FlatArr.reshape
  rw [if_pos h]

/-- Writing and reading, for given shapes. -/
theorem write_read {s : EbsdSignal K} {ny nx : ℕ} {dy dx : K} {ay ax : SignalAxis K}
    (hm : mapShapeScale s.navAxes = ((ny, nx), (dy, dx))) (hs : s.sigAxes = [ay, ax])
    (hsize : s.data.data.length = ny * nx * ay.size * ax.size) {sh : List ℕ} {pcs : List (PC K)}
    (hpc : readPcs ny nx (stored (.arr s.pcShape (s.pc.map PC.x)))
      (stored (.arr s.pcShape (s.pc.map PC.y))) (stored (.arr s.pcShape (s.pc.map PC.z))) =
        some (sh, pcs)) :
    ∃ g, writeScan s = .ok g ∧ readScan g = .ok {
      data := ⟨[ny, nx, ay.size, ax.size].filter (· ≠ 1), s.data.data⟩
      navAxes := (axesList ny nx ay.size ax.size dy dx s.pxSize).take
        ((axesList ny nx ay.size ax.size dy dx s.pxSize).length - 2)
      sigAxes := (axesList ny nx ay.size ax.size dy dx s.pxSize).drop
        ((axesList ny nx ay.size ax.size dy dx s.pxSize).length - 2)
      pxSize := s.pxSize
      pcShape := if sh = [] then [1] else sh
      pc := pcs
      staticBackground := stored (match s.staticBackground with
          | .noneVal => .scalar (-1)
          | v => v) } := by
  unfold writeScan
  rw [hs]
  simp only [hm]
  rw [reshape_ok (by rw [hsize]; simp [shapeSize, mul_assoc])]
  simp only
  refine ⟨_, rfl, ?_⟩
  unfold readScan getData
  simp only
  rw [reshape_ok (by simp only; rw [hsize]; simp [shapeSize, mul_assoc])]
  simp only [hpc]
  rfl

/-- C40: a regular signal written to a file is read as the same signal: patterns, names, sizes and
scales of all axes, pixel size, PCs and static background. -/
theorem C40_round_trip_partial {s : EbsdSignal K} (h : Spec.Regular s) :
    ∃ g, writeScan s = .ok g ∧ readScan g = .ok s := by
  obtain ⟨⟨shape, data⟩, navAxes, sigAxes, px, pcShape, pc, bg⟩ := s
  obtain ⟨hnav, hsig, hshape, hsize, hpc, hbg⟩ := h
  simp only at hnav hsig hshape hsize hpc hbg
  obtain ⟨sy, sx, hsy, hsx, rfl⟩ := hsig
  obtain ⟨b, rfl⟩ := hbg
  subst hshape
  have hbgs : stored (.arr [sy, sx] b) = (.arr [sy, sx] b : PyVal K) :=
    stored_arr (by simp) (by simp; omega) b
  have hsy1 : sy ≠ 1 := by omega
  have hsx1 : sx ≠ 1 := by omega
  have hone : pcShape = [1] ∧ pc.length = 1 → ∀ ny nx,
      readPcs ny nx (stored (.arr pcShape (pc.map PC.x))) (stored (.arr pcShape (pc.map PC.y)))
        (stored (.arr pcShape (pc.map PC.z))) = some ([], pc) := by
    rintro ⟨rfl, h⟩ ny nx
    obtain ⟨p, rfl⟩ := List.length_eq_one_iff.1 h
    simp [stored_one, readPcs, dstackPart]
  rcases hnav with rfl | ⟨n, d, hn, rfl⟩ | ⟨n, d, hn, rfl⟩ | ⟨m, n, d, e, hm, hn, rfl⟩
  · simp only [List.nil_append, List.map_cons, List.map_nil, shapeSize] at hsize
    rcases hpc with hpc | hpc
    · obtain ⟨g, h1, h2⟩ := write_read (s := ⟨⟨_, data⟩, [], _, px, pcShape, pc, _⟩)
        (ay := ⟨"dy", sy, px⟩) (ax := ⟨"dx", sx, px⟩) rfl rfl
        (by simp [hsize]) (hone hpc 1 1)
      refine ⟨g, h1, h2.trans ?_⟩
      simp [hsy1, hsx1, hpc.1, hbgs, axesList]
    · exact absurd rfl hpc.1
  · have hn1 : n ≠ 1 := by omega
    simp only [List.map_cons, List.map_nil, List.cons_append, List.nil_append, shapeSize] at hsize
    have hrd : ∃ s', readPcs 1 n (stored (.arr pcShape (pc.map PC.x)))
        (stored (.arr pcShape (pc.map PC.y))) (stored (.arr pcShape (pc.map PC.z))) =
          some (s', pc) ∧ (if s' = [] then [1] else s') = pcShape := by
      rcases hpc with hpc | ⟨_, hs, hl⟩
      · exact ⟨[], hone hpc 1 n, by simp [hpc.1]⟩
      · subst hs
        simp only [List.map_cons, List.map_nil, shapeSize, mul_one] at hl ⊢
        refine ⟨[n], ?_, by simp⟩
        rw [stored_arr (by simp) (by simpa using hn1), stored_arr (by simp) (by simpa using hn1),
          stored_arr (by simp) (by simpa using hn1)]
        simp only [readPcs, dstackPart, and_self, if_true, zip_pcs]
        rw [if_pos (by omega), if_pos (by omega)]
        simp [hn1]
    obtain ⟨s', h1, h2⟩ := hrd
    obtain ⟨g, h3, h4⟩ := write_read (s := ⟨⟨_, data⟩, [⟨"x", n, d⟩], _, px, pcShape, pc, _⟩)
      (ny := 1) (nx := n) (dy := 1) (dx := d) (ay := ⟨"dy", sy, px⟩) (ax := ⟨"dx", sx, px⟩)
      (by simp [mapShapeScale]) rfl
      (by simp [hsize, mul_assoc]) h1
    refine ⟨g, h3, h4.trans ?_⟩
    have hlt : ¬ n < 1 := by omega
    simp [hsy1, hsx1, hn1, hlt, h2, hbgs, axesList]
  · have hn1 : n ≠ 1 := by omega
    simp only [List.map_cons, List.map_nil, List.cons_append, List.nil_append, shapeSize] at hsize
    have hrd : ∃ s', readPcs n 1 (stored (.arr pcShape (pc.map PC.x)))
        (stored (.arr pcShape (pc.map PC.y))) (stored (.arr pcShape (pc.map PC.z))) =
          some (s', pc) ∧ (if s' = [] then [1] else s') = pcShape := by
      rcases hpc with hpc | ⟨_, hs, hl⟩
      · exact ⟨[], hone hpc n 1, by simp [hpc.1]⟩
      · subst hs
        simp only [List.map_cons, List.map_nil, shapeSize, mul_one] at hl ⊢
        refine ⟨[n], ?_, by simp⟩
        rw [stored_arr (by simp) (by simpa using hn1), stored_arr (by simp) (by simpa using hn1),
          stored_arr (by simp) (by simpa using hn1)]
        simp only [readPcs, dstackPart, and_self, if_true, zip_pcs]
        rw [if_pos (by omega), if_pos (by omega)]
        simp [hn1]
    obtain ⟨s', h1, h2⟩ := hrd
    obtain ⟨g, h3, h4⟩ := write_read (s := ⟨⟨_, data⟩, [⟨"y", n, d⟩], _, px, pcShape, pc, _⟩)
      (ny := n) (nx := 1) (dy := d) (dx := 1) (ay := ⟨"dy", sy, px⟩) (ax := ⟨"dx", sx, px⟩)
      (by simp [mapShapeScale]) rfl
      (by simp [hsize, mul_assoc]) h1
    refine ⟨g, h3, h4.trans ?_⟩
    have hlt : 1 < n := by omega
    simp [hsy1, hsx1, hn1, hlt, h2, hbgs, axesList]
  · have hn1 : n ≠ 1 := by omega
    have hm1 : m ≠ 1 := by omega
    simp only [List.map_cons, List.map_nil, List.cons_append, List.nil_append, shapeSize] at hsize
    have hrd : ∃ s', readPcs m n (stored (.arr pcShape (pc.map PC.x)))
        (stored (.arr pcShape (pc.map PC.y))) (stored (.arr pcShape (pc.map PC.z))) =
          some (s', pc) ∧ (if s' = [] then [1] else s') = pcShape := by
      rcases hpc with hpc | ⟨_, hs, hl⟩
      · exact ⟨[], hone hpc m n, by simp [hpc.1]⟩
      · subst hs
        simp only [List.map_cons, List.map_nil, shapeSize, mul_one] at hl ⊢
        refine ⟨[m, n], ?_, by simp⟩
        rw [stored_arr (by simp) (by simpa using hm1), stored_arr (by simp) (by simpa using hm1),
          stored_arr (by simp) (by simpa using hm1)]
        simp only [readPcs, dstackPart, and_self, if_true, zip_pcs]
        have : 2 * 2 ≤ m * n := Nat.mul_le_mul hm hn
        rw [if_pos (by omega), if_pos hl]
        simp [hn1, hm1]
    obtain ⟨s', h1, h2⟩ := hrd
    obtain ⟨g, h3, h4⟩ := write_read
      (s := ⟨⟨_, data⟩, [⟨"y", m, d⟩, ⟨"x", n, e⟩], _, px, pcShape, pc, _⟩)
      (ny := m) (nx := n) (dy := d) (dx := e) (ay := ⟨"dy", sy, px⟩) (ax := ⟨"dx", sx, px⟩)
      (by simp [mapShapeScale]) rfl
      (by simp [hsize, mul_assoc]) h1
    refine ⟨g, h3, h4.trans ?_⟩
    simp [hsy1, hsx1, hn1, hm1, h2, hbgs, axesList]

/-- C40 is false without a static background: it is read as the number -1. -/
theorem C40_not_without_background {s s' : EbsdSignal K} (hs : s.staticBackground = .noneVal)
    {g : ScanGroup K} (hw : writeScan s = .ok g) (hr : readScan g = .ok s') :
    s'.staticBackground = .scalar (-1) := by
  unfold writeScan at hw
  split at hw
  · simp only at hw
    split at hw
    · cases hw
    · cases hw
      unfold readScan at hr
      split at hr
      · cases hr
      · simp only at hr
        split at hr
        · cases hr
        · cases hr
          simp only [hs]
          simp [stored, writeVal, readVal]
  · cases hw

/-- C40 is false for the scale of the detector axes: it is read as the pixel size of the
detector. -/
theorem C40_not_signal_scale {s s' : EbsdSignal K} {g : ScanGroup K} (hw : writeScan s = .ok g)
    (hr : readScan g = .ok s') : ∀ a ∈ s'.sigAxes, a.scale = s.pxSize := by
  unfold writeScan at hw
  split at hw
  · simp only at hw
    split at hw
    · cases hw
    · cases hw
      unfold readScan at hr
      split at hr
      · cases hr
      · simp only at hr
        split at hr
        · cases hr
        · cases hr
          intro a ha
          simp only [axesList] at ha
          split at ha
          · simp at ha
            rcases ha with rfl | rfl <;> rfl
          · split at ha
            · split at ha <;>
              · simp at ha
                rcases ha with rfl | rfl <;> rfl
            · simp at ha
              rcases ha with rfl | rfl <;> rfl
  · cases hw

/-- C40 is false for maps with a single row: the axis of rows is lost. -/
theorem C40_not_single_row {s s' : EbsdSignal K} {n : ℕ} {d e : K}
    (hn : s.navAxes = [⟨"y", 1, d⟩, ⟨"x", n, e⟩]) {g : ScanGroup K} (hw : writeScan s = .ok g)
    (hr : readScan g = .ok s') : s'.navAxes.length < s.navAxes.length := by
  unfold writeScan at hw
  split at hw
  · simp only [hn, mapShapeScale] at hw
    split at hw
    · cases hw
    · cases hw
      unfold readScan at hr
      split at hr
      · cases hr
      · simp only at hr
        split at hr
        · cases hr
        · cases hr
          rw [hn]
          simp only [axesList]
          split <;> (try split) <;> (try split) <;> simp_all
  · cases hw

/-- C40 is false for patterns with a single row: data and axes read do not fit. -/
theorem C40_not_single_pattern_row {s s' : EbsdSignal K} {a : String} {p : K} {ax : SignalAxis K}
    (hn : s.sigAxes = [⟨a, 1, p⟩, ax]) {g : ScanGroup K} (hw : writeScan s = .ok g)
    (hr : readScan g = .ok s') (hsize : s.data.data.length = (mapShapeScale s.navAxes).1.1 *
      (mapShapeScale s.navAxes).1.2 * ax.size) :
    s'.data.shape.length < (s'.navAxes ++ s'.sigAxes).length := by
  unfold writeScan at hw
  simp only [hn] at hw
  obtain ⟨⟨⟨ny, nx⟩, ⟨dy, dx⟩⟩, hm⟩ : ∃ m, m = mapShapeScale s.navAxes := ⟨_, rfl⟩
  rw [← hm] at hw hsize
  simp only at hw hsize
  split at hw
  · cases hw
  · rename_i pat hpat
    have hp : pat.data = s.data.data := by
      unfold FlatArr.reshape at hpat
      split at hpat
      · cases hpat
        rfl
      · cases hpat
    cases hw
    unfold readScan at hr
    split at hr
    · cases hr
    · rename_i data hdata
      simp only at hr
      split at hr
      · cases hr
      · cases hr
        simp only [getData, FlatArr.reshape] at hdata
        rw [if_pos (by rw [hp, hsize]; simp [shapeSize, mul_assoc])] at hdata
        cases hdata
        simp only [FlatArr.squeeze, axesList, List.take_append_drop]
        by_cases h1 : ny = 1 <;> by_cases h2 : nx = 1 <;> by_cases h3 : ax.size = 1 <;>
          simp [h1, h2, h3] <;> split <;> simp

/-! ### Non-vacuity -/

/-- A regular signal with two rows, three columns and patterns of two times two pixels. -/
def exampleSignal : EbsdSignal ℚ where
  data := ⟨[2, 3, 2, 2], (List.range 24).map fun k : ℕ => (k : ℚ)⟩
  navAxes := [⟨"y", 2, 3/2⟩, ⟨"x", 3, 3/2⟩]
  sigAxes := [⟨"dy", 2, 70⟩, ⟨"dx", 2, 70⟩]
  pxSize := 70
  pcShape := [2, 3]
  pc := [⟨1, 2, 3⟩, ⟨1, 2, 4⟩, ⟨1, 2, 5⟩, ⟨1, 2, 6⟩, ⟨1, 2, 7⟩, ⟨1, 2, 8⟩]
  staticBackground := .arr [2, 2] [1, 2, 3, 4]

example : Spec.Regular exampleSignal where
  nav := .inr (.inr (.inr ⟨2, 3, 3/2, 3/2, by simp, by simp, rfl⟩))
  sig := ⟨2, 2, by simp, by simp, rfl⟩
  shape := rfl
  size := by simp [exampleSignal, shapeSize]
  pc := .inr ⟨by simp [exampleSignal], rfl, by simp [exampleSignal, shapeSize]⟩
  background := ⟨[1, 2, 3, 4], rfl⟩

end Kp
