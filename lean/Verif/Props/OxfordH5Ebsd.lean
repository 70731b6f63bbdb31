import Verif.Model.OxfordH5Ebsd
import Verif.Spec.Detector
import Verif.Props.PcConventions
import Verif.Props.H5Ebsd
import Mathlib.Algebra.Order.Ring.Rat
import Mathlib.Tactic.NormNum
import Mathlib.Tactic.Ring
import Mathlib.Tactic.Linarith
import Mathlib.Tactic.IntervalCases

/-
C90: Oxford and EDAX h5ebsd files are loaded with patterns, map, axes and detector that belong
together.
-/

set_option linter.unusedSectionVars false

namespace Kp

variable {K : Type} [Field K] [LinearOrder K] [IsStrictOrderedRing K]

/-! ### Specification -/

/-- A file with complete datasets: the chosen patterns and one projection center per map point. -/
structure Spec.OxfordComplete (h : OxfordHeader K) (d : OxfordData K) (processed : Bool)
    (p : FlatArr K) (x y z : List K) : Prop where
  patterns : (if processed then d.processed else d.unprocessed) = some p
  size : p.data.length = h.yCells * h.xCells * h.height * h.width
  pcx : d.pcx = some x
  pcy : d.pcy = some y
  pcz : d.distance = some z
  lenx : x.length = h.yCells * h.xCells
  leny : y.length = h.yCells * h.xCells
  lenz : z.length = h.yCells * h.xCells

/-- The camera mode with a name before the pattern size, e.g. "Speed 1 (622x512 px)", written with
decimal numerals. -/
def Spec.cameraMode (before after : List Char) (width height : ℕ) : List Char :=
  before ++ ['('] ++ Nat.toDigits 10 width ++ ['x'] ++ Nat.toDigits 10 height ++
    [' ', 'p', 'x', ')'] ++ after

/-- A detector can be used with a signal of a navigation shape: it has one PC, or one per
position, in the same shape (`EBSDDetector.navigation_shape`). -/
def Spec.Fits (det : Detector K) (navShape : List ℕ) : Prop :=
  det.nav = [1] ∨ det.nav = navShape

/-- Sizes of the navigation axes of a loaded scan. -/
def Spec.navShape (s : LoadedScan K) : List ℕ :=
  (s.axes.take (s.axes.length - 2)).map SignalAxis.size

/-! ### Camera mode -/

theorem digitOf_digitChar {d : ℕ} (h : d < 10) : digitOf (Nat.digitChar d) = some d := by
  interval_cases d <;> decide

theorem takeNumber_toDigits (n : ℕ) : ∀ (seen : Bool) (rest : List Char),
    takeNumber 0 seen (Nat.toDigits 10 n ++ rest) = takeNumber n true rest := by
  induction n using Nat.strong_induction_on with
  | _ n ih =>
    intro seen rest
    by_cases hn : n < 10
    · rw [Nat.toDigits_of_lt_base hn]
      simp [takeNumber, digitOf_digitChar hn]
    · have hd : n % 10 < 10 := Nat.mod_lt _ (by norm_num)
      have hm : 0 < n / 10 := by omega
      have e : n = 10 * (n / 10) + n % 10 := by omega
      have h := Nat.toDigits_append_toDigits (b := 10) (n := n / 10) (d := n % 10) (by norm_num)
        hm hd
      rw [← e] at h
      rw [← h, List.append_assoc, ih (n / 10) (by omega), Nat.toDigits_of_lt_base hd]
      simp only [List.singleton_append, takeNumber, digitOf_digitChar hd]
      rw [← e]

theorem takeNumber_stop {n : ℕ} {c : Char} {cs : List Char} (h : digitOf c = none) :
    takeNumber n true (c :: cs) = some (n, c :: cs) := by
  simp [takeNumber, h]

theorem matchShape_none {c : Char} {cs : List Char} (h : c ≠ '(') :
    matchShape (c :: cs) = none := by
  simp [matchShape, takeLiteral, h]

theorem findShapes_skip : ∀ (pre : List Char) (n : ℕ) (cs : List Char), '(' ∉ pre →
    findShapes (pre.length + n) (pre ++ cs) = findShapes n cs
  | [], n, cs, _ => by simp
  | c :: pre, n, cs, h => by
    have hc : c ≠ '(' := fun e => h (by simp [e])
    have hp : '(' ∉ pre := fun e => h (by simp [e])
    have : (c :: pre).length + n = (pre.length + n) + 1 := by simp; omega
    rw [this, List.cons_append, findShapes, matchShape_none hc]
    exact findShapes_skip pre n cs hp

theorem findShapes_nil : ∀ (n : ℕ) (cs : List Char), '(' ∉ cs → findShapes n cs = []
  | 0, _, _ => by simp [findShapes]
  | n + 1, [], _ => by simp [findShapes]
  | n + 1, c :: cs, h => by
    have hc : c ≠ '(' := fun e => h (by simp [e])
    rw [findShapes, matchShape_none hc]
    exact findShapes_nil n cs (fun e => h (by simp [e]))

theorem matchShape_cameraMode (w h : ℕ) (after : List Char) :
    matchShape (Spec.cameraMode [] after w h) = some ((w, h), after) := by
  have e : Spec.cameraMode [] after w h =
      '(' :: (Nat.toDigits 10 w ++ ('x' :: (Nat.toDigits 10 h ++ (' ' :: 'p' :: 'x' :: ')' ::
        after)))) := by
    simp [Spec.cameraMode]
  have hx : digitOf 'x' = none := by decide
  have hs : digitOf ' ' = none := by decide
  rw [e]
  simp [matchShape, takeLiteral, takeNumber_toDigits, takeNumber_stop hx, takeNumber_stop hs]

theorem findShapes_cameraMode {before after : List Char} (hb : '(' ∉ before) (ha : '(' ∉ after)
    (w h : ℕ) :
    findShapes (Spec.cameraMode before after w h).length (Spec.cameraMode before after w h) =
      [(w, h)] := by
  have e : Spec.cameraMode before after w h = before ++ Spec.cameraMode [] after w h := by
    simp [Spec.cameraMode]
  have hm := matchShape_cameraMode w h after
  rw [e, List.length_append, findShapes_skip _ _ _ hb]
  generalize Spec.cameraMode [] after w h = t at hm
  cases t with
  | nil => simp [matchShape, takeLiteral] at hm
  | cons c cs =>
    rw [List.length_cons, findShapes, hm]
    simp [findShapes_nil _ _ ha]

theorem roundedRatio_spec {sy : ℕ} (h : 0 < sy) :
    ∃ b, roundedRatio sy = .ok b ∧ 2 * 1024 ≤ 2 * b * sy + sy ∧ 2 * b * sy ≤ 2 * 1024 + sy := by
  unfold roundedRatio
  rw [if_neg (by omega)]
  have hq := Nat.div_add_mod 1024 sy
  have hr := Nat.mod_lt 1024 h
  set q := 1024 / sy
  set r := 1024 % sy
  have e1 : 2 * q * sy = 2 * (sy * q) := by ring
  have e2 : 2 * (q + 1) * sy = 2 * (sy * q) + 2 * sy := by ring
  simp only
  split_ifs <;> refine ⟨_, rfl, ?_⟩ <;>
    first | (rw [e1]; omega) | (rw [e2]; omega)

/-- C90: the binning factor is read from the pattern height in the camera mode, whatever is written
before and after: eight for the mode with 88 rows, and otherwise the integer closest to 1024 divided
by the height, which is that ratio if the height divides 1024.  It is at least one for all heights
less than 2048. -/
theorem C90_binning {h : OxfordHeader K} {before after : List Char} {w n : ℕ}
    (hmode : (if 7 ≤ h.version.headD 0 then h.cameraMode else h.cameraBinningMode) =
      some (Spec.cameraMode before after w n)) (hb : '(' ∉ before) (ha : '(' ∉ after)
    (hn : 0 < n) :
    ∃ b, oxfordBinning h = .ok (some b) ∧ (n = 88 → b = 8) ∧
      (n ≠ 88 → 2 * 1024 ≤ 2 * b * n + n ∧ 2 * b * n ≤ 2 * 1024 + n ∧
        (n ∣ 1024 → b * n = 1024)) ∧
      (n < 2048 → 1 ≤ b) := by
  obtain ⟨b, h1, h2, h3⟩ := roundedRatio_spec hn
  unfold oxfordBinning
  simp only [hmode, findShapes_cameraMode hb ha]
  by_cases h88 : n = 88
  · subst h88
    exact ⟨8, by simp, by simp, by simp, by simp⟩
  · refine ⟨b, by simp [h88, h1], fun e => absurd e h88, fun _ => ⟨h2, h3, ?_⟩, ?_⟩
    · rintro ⟨q, hq⟩
      have e : b * n = 1024 ↔ b = q := by
        constructor
        · intro e
          have : n * q = n * b := by rw [← hq, ← e]; ring
          exact (Nat.eq_of_mul_eq_mul_left hn this).symm
        · rintro rfl
          rw [hq]; ring
      rw [e]
      by_contra hne
      rw [hq] at h2 h3
      rcases Nat.lt_or_gt_of_ne hne with hlt | hlt
      · have : 2 * (b + 1) * n ≤ 2 * (n * q) := by nlinarith
        nlinarith
      · have : 2 * (n * q) + 2 * n ≤ 2 * b * n := by nlinarith
        nlinarith
    · intro hlt
      by_contra hb0
      have : b = 0 := by omega
      subst this
      omega

example : oxfordBinning (K := ℚ) ⟨[7, 0], 2, 3, 128, 156, none, none, none, none,
    some "Speed 2 (156x128 px)".toList, none, none⟩ = .ok (some 8) := by decide +kernel

example : oxfordBinning (K := ℚ) ⟨[5, 0], 2, 3, 102, 124, none, none, none, none, none,
    some "10x10 (124x102 px)".toList, none⟩ = .ok (some 10) := by decide +kernel

example : Spec.cameraMode "Speed 3 ".toList [] 156 88 = "Speed 3 (156x88 px)".toList := by
  decide +kernel

/-- C90: without a pattern size in the camera mode, or without the camera mode of the file's
version, the binning factor is not read. -/
theorem C90_binning_unread {h : OxfordHeader K}
    (hmode : ∀ t, (if 7 ≤ h.version.headD 0 then h.cameraMode else h.cameraBinningMode) = some t →
      '(' ∉ t) : oxfordBinning h = .ok none := by
  unfold oxfordBinning
  simp only
  generalize (if 7 ≤ h.version.headD 0 then h.cameraMode else h.cameraBinningMode) = m at hmode
  cases m with
  | none => rfl
  | some t => simp [findShapes_nil _ _ (hmode t rfl)]

/-- C90 is false for cameras with more rows: the binning factor of any mode with at least 2048 rows
is read as zero. -/
theorem C90_binning_violated {h : OxfordHeader K} {before after : List Char} {w n : ℕ}
    (hmode : (if 7 ≤ h.version.headD 0 then h.cameraMode else h.cameraBinningMode) =
      some (Spec.cameraMode before after w n)) (hb : '(' ∉ before) (ha : '(' ∉ after)
    (hn : 2048 ≤ n) : oxfordBinning h = .ok (some 0) := by
  unfold oxfordBinning
  simp only [hmode, findShapes_cameraMode hb ha]
  have h0 : (1024 : ℕ) / n = 0 := Nat.div_eq_of_lt (by omega)
  have h1 : (1024 : ℕ) % n = 1024 := Nat.mod_eq_of_lt (by omega)
  rw [if_neg (by omega)]
  unfold roundedRatio
  simp only [h0, h1]
  rw [if_neg (by omega)]
  by_cases h2 : 2 * 1024 < n
  · rw [if_pos h2]
  · rw [if_neg h2, if_neg (by omega)]
    simp

/-! ### Patterns, map and detector -/

theorem axesList_sizes (ny nx sy sx : ℕ) (dy dx px : K) (hy : 1 ≤ ny) (hx : 1 ≤ nx) :
    (axesList ny nx sy sx dy dx px).map SignalAxis.size =
      [ny, nx].filter (· ≠ 1) ++ [sy, sx] := by
  unfold axesList
  by_cases h1 : ny = 1 <;> by_cases h2 : nx = 1
  · simp [h1, h2]
  · have : ¬ nx < 1 := by omega
    simp [h1, h2, this]
  · have : 1 < ny := by omega
    simp [h1, h2, this]
  · simp [h1, h2]

theorem navShape_axesList (ny nx sy sx : ℕ) (dy dx px : K) (hy : 1 ≤ ny) (hx : 1 ≤ nx) :
    ((axesList ny nx sy sx dy dx px).take
      ((axesList ny nx sy sx dy dx px).length - 2)).map SignalAxis.size =
      [ny, nx].filter (· ≠ 1) := by
  rw [List.map_take, axesList_sizes _ _ _ _ _ _ _ hy hx]
  have : (axesList ny nx sy sx dy dx px).length =
      ((axesList ny nx sy sx dy dx px).map SignalAxis.size).length := by simp
  rw [this, axesList_sizes _ _ _ _ _ _ _ hy hx]
  simp only [List.length_append, List.length_cons, List.length_nil]
  simp

theorem denotes_oxford : Spec.Denotes "oxford" .oxford :=
  ⟨"oxford", by decide, List.forall₂_same.2 fun _ _ => Or.inl rfl⟩

theorem denotes_edax : Spec.Denotes "edax" .tsl :=
  ⟨"edax", by decide, List.forall₂_same.2 fun _ _ => Or.inl rfl⟩

/-- A file with complete datasets and a readable binning is loaded. -/
theorem oxfordScan_ok {deg : K} {h : OxfordHeader K} {d : OxfordData K} {processed : Bool}
    {p : FlatArr K} {x y z : List K} (hc : Spec.OxfordComplete h d processed p x y z)
    {b : Option ℕ} (hb : oxfordBinning h = .ok b) (hpos : 0 < h.yCells * h.xCells) :
    ∃ s, oxfordScan deg h d processed = .ok s ∧
      s.data = ⟨[h.yCells, h.xCells, h.height, h.width].filter (· ≠ 1), p.data⟩ ∧
      s.axes = axesList h.yCells h.xCells h.height h.width (h.yStep.getD 1) (h.xStep.getD 1) 1 ∧
      s.mapShape = (h.yCells, h.xCells) ∧ s.mapSteps = (h.yStep.getD 1, h.xStep.getD 1) ∧
      s.staticBackground = h.staticBackground ∧
      Detector.init
        { nrows := h.height, ncols := h.width, pxSize := 1
          binning := b.elim 1 (fun n : ℕ => (n : K))
          tilt := oxfordTilt deg h, azimuthal := 0, twist := 0
          sampleTilt := (h.tiltAngle.map (· * deg)).getD 70
          nav := if h.yCells * h.xCells = 1 then [1] else [h.yCells, h.xCells]
          pc := List.zipWith (fun x (yz : K × K) => PC.mk x yz.1 yz.2) x (List.zip y z) }
        "oxford" = .ok s.detector := by
  have hg : getData p h.yCells h.xCells h.height h.width =
      .ok ⟨[h.yCells, h.xCells, h.height, h.width].filter (· ≠ 1), p.data⟩ := by
    unfold getData
    rw [reshape_ok (by rw [hc.size]; simp [shapeSize]; ring)]
    rfl
  have hp : oxfordPcs h.yCells h.xCells d =
      .ok (if h.yCells * h.xCells = 1 then [1] else [h.yCells, h.xCells],
        List.zipWith (fun x (yz : K × K) => PC.mk x yz.1 yz.2) x (List.zip y z)) := by
    unfold oxfordPcs
    simp only [hc.pcx, hc.pcy, hc.pcz, Option.getD_some, hc.lenx, hc.leny, hc.lenz, and_self,
      if_true]
    by_cases h1 : h.yCells * h.xCells = 1
    · simp [h1]
    · rw [if_pos (by omega), if_neg h1]
  have hi : ∀ raw : Detector K, ∃ det, raw.init "oxford" = .ok det := fun raw =>
    (C03_convention_accepted_iff_documented raw "oxford").1
      ⟨.oxford, denotes_oxford⟩
  unfold oxfordScan oxfordDetector
  rw [hc.patterns]
  simp only [bind, Except.bind, hg, hp, hb]
  obtain ⟨det, hdet⟩ := hi
    { nrows := h.height, ncols := h.width, pxSize := 1
      binning := b.elim 1 (fun n : ℕ => (n : K))
      tilt := oxfordTilt deg h, azimuthal := 0, twist := 0
      sampleTilt := (h.tiltAngle.map (· * deg)).getD 70
      nav := if h.yCells * h.xCells = 1 then [1] else [h.yCells, h.xCells]
      pc := List.zipWith (fun x (yz : K × K) => PC.mk x yz.1 yz.2) x (List.zip y z) }
  rw [hdet]
  exact ⟨⟨_, _, _, _, _, det⟩, rfl, rfl, rfl, rfl, rfl, rfl, rfl⟩

theorem zip3_get {x y z : List K} {i : ℕ} {a b c : K} (hx : x[i]? = some a) (hy : y[i]? = some b)
    (hz : z[i]? = some c) :
    (List.zipWith (fun x (yz : K × K) => PC.mk x yz.1 yz.2) x (List.zip y z))[i]? =
      some ⟨a, b, c⟩ := by
  simp [List.getElem?_zipWith, hx, hy, hz, List.zip]

/-- C90: an Oxford file with complete datasets is loaded with the patterns of the chosen dataset in
their order in the file, axes that fit the array and carry the step sizes, a crystal map of the same
shape and steps, and a detector with the pattern shape and tilts. -/
theorem C90_oxford_scan {deg : K} {h : OxfordHeader K} {d : OxfordData K} {processed : Bool}
    {p : FlatArr K} {x y z : List K} (hc : Spec.OxfordComplete h d processed p x y z)
    {b : Option ℕ} (hb : oxfordBinning h = .ok b) (hy : 1 ≤ h.yCells) (hx : 1 ≤ h.xCells)
    (hh : 2 ≤ h.height) (hw : 2 ≤ h.width) :
    ∃ s, oxfordScan deg h d processed = .ok s ∧ s.data.data = p.data ∧
      s.data.shape = s.axes.map SignalAxis.size ∧
      (2 ≤ h.yCells → 2 ≤ h.xCells → s.axes =
        [⟨"y", h.yCells, h.yStep.getD 1⟩, ⟨"x", h.xCells, h.xStep.getD 1⟩,
          ⟨"dy", h.height, 1⟩, ⟨"dx", h.width, 1⟩]) ∧
      (2 ≤ h.yCells → h.xCells = 1 → s.axes =
        [⟨"y", h.yCells, h.yStep.getD 1⟩, ⟨"dy", h.height, 1⟩, ⟨"dx", h.width, 1⟩]) ∧
      (h.yCells = 1 → 2 ≤ h.xCells → s.axes =
        [⟨"x", h.xCells, h.xStep.getD 1⟩, ⟨"dy", h.height, 1⟩, ⟨"dx", h.width, 1⟩]) ∧
      s.mapShape = (h.yCells, h.xCells) ∧ s.mapSteps = (h.yStep.getD 1, h.xStep.getD 1) ∧
      s.detector.nrows = h.height ∧ s.detector.ncols = h.width ∧
      (∀ a, h.tiltAngle = some a → s.detector.sampleTilt = a * deg) ∧
      (h.tiltAngle = none → s.detector.sampleTilt = 70) ∧
      (∀ e₁ e₂ e₃, h.detectorEuler = some [e₁, e₂, e₃] → s.detector.tilt = e₂ * deg - 90) ∧
      (∀ n, b = some n → s.detector.binning = n) ∧ (b = none → s.detector.binning = 1) := by
  have hpos : 0 < h.yCells * h.xCells := Nat.mul_pos hy hx
  obtain ⟨s, hs, h1, h2, h3, h4, -, h5⟩ := oxfordScan_ok (deg := deg) hc hb hpos
  refine ⟨s, hs, by rw [h1], ?_, ?_, ?_, ?_, h3, h4, ?_⟩
  · rw [h1, h2, axesList_sizes _ _ _ _ _ _ _ hy hx]
    have e1 : h.height ≠ 1 := by omega
    have e2 : h.width ≠ 1 := by omega
    rw [show [h.yCells, h.xCells, h.height, h.width] =
      [h.yCells, h.xCells] ++ [h.height, h.width] from rfl, List.filter_append]
    simp [e1, e2]
  · intro a b
    rw [h2, axesList, if_pos ⟨by omega, by omega⟩]
  · intro a b
    rw [h2, axesList, if_neg (by omega), if_pos (by omega), if_pos (by omega)]
  · intro a b
    rw [h2, axesList, if_neg (by omega), if_pos (by omega), if_neg (by omega)]
  · unfold Detector.init at h5
    split at h5
    · cases h5
    · rw [Except.ok.injEq] at h5
      rw [← h5]
      refine ⟨rfl, rfl, ?_, ?_, ?_, ?_, ?_⟩
      · intro a ha; simp [ha]
      · intro ha; simp [ha]
      · intro e₁ e₂ e₃ he; simp [oxfordTilt, he]
      · intro n hn; simp [hn]
      · intro hn; simp [hn]

/-- C90: the detector of an Oxford file has the projection center of each map point at the
position of its pattern in the flattened map, and it denotes the same physical point as the
coordinates in the file. -/
theorem C90_oxford_pcs {deg : K} {h : OxfordHeader K} {d : OxfordData K} {processed : Bool}
    {p : FlatArr K} {x y z : List K} (hc : Spec.OxfordComplete h d processed p x y z)
    {b : Option ℕ} (hb : oxfordBinning h = .ok b) (hh : h.height ≠ 0) (hw : h.width ≠ 0)
    {r c : ℕ} (hr : r < h.yCells) (hcol : c < h.xCells) :
    ∃ s, oxfordScan deg h d processed = .ok s ∧ s.detector.pc.length = h.yCells * h.xCells ∧
      ∃ (px py pz : K) (q : PC K), x[r * h.xCells + c]? = some px ∧
        y[r * h.xCells + c]? = some py ∧ z[r * h.xCells + c]? = some pz ∧
        s.detector.pc[r * h.xCells + c]? = some q ∧
        Spec.physical .bruker h.height h.width (1 : K) 1 q =
          Spec.physical .oxford h.height h.width 1 1 ⟨px, py, pz⟩ := by
  have hpos : 0 < h.yCells * h.xCells := Nat.mul_pos (by omega) (by omega)
  obtain ⟨s, hs, -, -, -, -, -, h5⟩ := oxfordScan_ok (deg := deg) hc hb hpos
  have hlt : r * h.xCells + c < h.yCells * h.xCells := by
    calc r * h.xCells + c < r * h.xCells + h.xCells := by omega
      _ = (r + 1) * h.xCells := by ring
      _ ≤ h.yCells * h.xCells := Nat.mul_le_mul_right _ hr
  have ix := List.getElem?_eq_getElem (l := x) (i := r * h.xCells + c) (by rw [hc.lenx]; exact hlt)
  have iy := List.getElem?_eq_getElem (l := y) (i := r * h.xCells + c) (by rw [hc.leny]; exact hlt)
  have iz := List.getElem?_eq_getElem (l := z) (i := r * h.xCells + c) (by rw [hc.lenz]; exact hlt)
  unfold Detector.init Detector.getPcInBruker at h5
  rw [getConv_of_denotes denotes_oxford] at h5
  simp only [kind, Except.ok.injEq] at h5
  refine ⟨s, hs, ?_⟩
  rw [← h5]
  refine ⟨?_, _, _, _, _, ix, iy, iz, (by rw [List.getElem?_map, zip3_get ix iy iz]; rfl), ?_⟩
  · simp [hc.lenx, hc.leny, hc.lenz]
  · have hh' : (h.height : K) ≠ 0 := by exact_mod_cast hh
    have hw' : (h.width : K) ≠ 0 := by exact_mod_cast hw
    simp only [Spec.physical, Detector.oxford2bruker, Detector.aspect]
    ext
    · rfl
    · simp only; field_simp
    · simp only; field_simp

/-- C90: the detector of an Oxford file fits the signal for maps with at least two rows and two
columns, and for single patterns. -/
theorem C90_oxford_fits_partial {deg : K} {h : OxfordHeader K} {d : OxfordData K}
    {processed : Bool} {p : FlatArr K} {x y z : List K}
    (hc : Spec.OxfordComplete h d processed p x y z) {b : Option ℕ}
    (hb : oxfordBinning h = .ok b)
    (hmap : 2 ≤ h.yCells ∧ 2 ≤ h.xCells ∨ h.yCells = 1 ∧ h.xCells = 1) :
    ∃ s, oxfordScan deg h d processed = .ok s ∧ Spec.Fits s.detector (Spec.navShape s) := by
  have hpos : 0 < h.yCells * h.xCells := Nat.mul_pos (by omega) (by omega)
  obtain ⟨s, hs, -, h2, -, -, -, h5⟩ := oxfordScan_ok (deg := deg) hc hb hpos
  have hnav : s.detector.nav = if h.yCells * h.xCells = 1 then [1] else [h.yCells, h.xCells] := by
    unfold Detector.init at h5
    split at h5
    · cases h5
    · rw [Except.ok.injEq] at h5
      rw [← h5]
  refine ⟨s, hs, ?_⟩
  unfold Spec.Fits Spec.navShape
  rw [h2, navShape_axesList _ _ _ _ _ _ _ (by omega) (by omega), hnav]
  rcases hmap with ⟨h1, h2⟩ | ⟨h1, h2⟩
  · right
    have : h.yCells * h.xCells ≠ 1 := by
      have := Nat.mul_le_mul h1 h2
      omega
    rw [if_neg this]
    have e1 : h.yCells ≠ 1 := by omega
    have e2 : h.xCells ≠ 1 := by omega
    simp [e1, e2]
  · left
    simp [h1, h2]

/-- C90 is false for line scans: whenever the map has a single row or a single column of several
points, the detector of the loaded signal has a navigation shape of two dimensions and the signal
one of one dimension. -/
theorem C90_oxford_line_violated {deg : K} {h : OxfordHeader K} {d : OxfordData K}
    {processed : Bool} {p : FlatArr K} {x y z : List K}
    (hc : Spec.OxfordComplete h d processed p x y z) {b : Option ℕ}
    (hb : oxfordBinning h = .ok b)
    (hmap : h.yCells = 1 ∧ 2 ≤ h.xCells ∨ 2 ≤ h.yCells ∧ h.xCells = 1) :
    ∃ s, oxfordScan deg h d processed = .ok s ∧ ¬ Spec.Fits s.detector (Spec.navShape s) := by
  have hpos : 0 < h.yCells * h.xCells := Nat.mul_pos (by omega) (by omega)
  obtain ⟨s, hs, -, h2, -, -, -, h5⟩ := oxfordScan_ok (deg := deg) hc hb hpos
  have hnav : s.detector.nav = if h.yCells * h.xCells = 1 then [1] else [h.yCells, h.xCells] := by
    unfold Detector.init at h5
    split at h5
    · cases h5
    · rw [Except.ok.injEq] at h5
      rw [← h5]
  refine ⟨s, hs, ?_⟩
  unfold Spec.Fits Spec.navShape
  rw [h2, navShape_axesList _ _ _ _ _ _ _ (by omega) (by omega), hnav]
  rcases hmap with ⟨h1, h2⟩ | ⟨h1, h2⟩
  · have e2 : h.xCells ≠ 1 := by omega
    simp [h1, e2]
  · have e1 : h.yCells ≠ 1 := by omega
    simp [h2, e1]

/-- C90: the flag chooses the dataset with patterns, and an absent dataset raises `KeyError`
whatever else the file contains. -/
theorem C90_oxford_dataset {deg : K} {h : OxfordHeader K} {d : OxfordData K} :
    (d.processed = none → oxfordScan deg h d true = .error .keyError) ∧
    (d.unprocessed = none → oxfordScan deg h d false = .error .keyError) ∧
    (∀ u, oxfordScan deg h { d with unprocessed := u } true = oxfordScan deg h d true) ∧
    (∀ u, oxfordScan deg h { d with processed := u } false = oxfordScan deg h d false) := by
  refine ⟨?_, ?_, fun _ => rfl, fun _ => rfl⟩
  · intro e
    simp [oxfordScan, e, bind, Except.bind]
  · intro e
    simp [oxfordScan, e, bind, Except.bind]

theorem oxfordScan_pcs_error {deg : K} {h : OxfordHeader K} {d : OxfordData K}
    {processed : Bool} (hp : oxfordPcs h.yCells h.xCells d = .error .valueError) :
    ∀ s, oxfordScan deg h d processed ≠ .ok s := by
  intro s hs
  unfold oxfordScan at hs
  simp only [bind, Except.bind] at hs
  have hd : oxfordDetector deg h d = .error .valueError := by
    unfold oxfordDetector
    rw [hp]
    rfl
  split at hs
  · rw [hd] at hs
    split at hs <;> cases hs
  · cases hs

/-- C90 is false for files without one of the three datasets with projection centers: although a
missing one has a default value, no such file with a map of several points can be loaded. -/
theorem C90_oxford_missing_pc_violated {deg : K} {h : OxfordHeader K} {d : OxfordData K}
    {processed : Bool} {x y : List K} (hx : d.pcx = some x) (hy : d.pcy = some y)
    (hlx : 2 ≤ x.length) (hz : d.distance = none) :
    ∀ s, oxfordScan deg h d processed ≠ .ok s := by
  apply oxfordScan_pcs_error
  unfold oxfordPcs
  simp only [hx, hy, hz, Option.getD_some, Option.getD_none, List.length_singleton]
  rw [if_neg (by omega)]

/-- C90: a missing dataset with projection centers means one value of one half. -/
theorem C90_oxford_default_pc (deg : K) (h : OxfordHeader K) (d : OxfordData K) (processed : Bool) :
    (d.pcx = none → oxfordScan deg h d processed =
      oxfordScan deg h { d with pcx := some [1 / 2] } processed) ∧
    (d.pcy = none → oxfordScan deg h d processed =
      oxfordScan deg h { d with pcy := some [1 / 2] } processed) ∧
    (d.distance = none → oxfordScan deg h d processed =
      oxfordScan deg h { d with distance := some [1 / 2] } processed) := by
  refine ⟨?_, ?_, ?_⟩ <;> intro e <;> unfold oxfordScan oxfordDetector oxfordPcs <;> rw [e] <;> rfl

/-- C90 is false for incomplete maps: missing patterns are replaced by zeros with a warning, but a
file with as many projection centers as patterns cannot be loaded if there are fewer than map
points. -/
theorem C90_oxford_incomplete_violated {deg : K} {h : OxfordHeader K} {d : OxfordData K}
    {processed : Bool} {x y z : List K} (hx : d.pcx = some x) (hy : d.pcy = some y)
    (hz : d.distance = some z) (h2 : 2 ≤ x.length) (hlt : x.length < h.yCells * h.xCells) :
    ∀ s, oxfordScan deg h d processed ≠ .ok s := by
  apply oxfordScan_pcs_error
  unfold oxfordPcs
  simp only [hx, hy, hz, Option.getD_some]
  split_ifs <;> first | rfl | omega

/-- A map of one row and two columns with patterns of 2 x 2 pixels. -/
def oxfordLine : OxfordHeader ℚ :=
  ⟨[7, 1], 1, 2, 2, 2, none, some (1 / 2), none, none, some "Speed 1 (622x512 px)".toList, none,
    none⟩

/-- Its datasets. -/
def oxfordLineData : OxfordData ℚ :=
  ⟨none, some ⟨[2, 2, 2], [1, 2, 3, 4, 5, 6, 7, 8]⟩, some [1 / 2, 1 / 4], some [1 / 3, 1 / 5],
    some [3 / 5, 2 / 3]⟩

theorem oxfordLine_complete : Spec.OxfordComplete oxfordLine oxfordLineData true
    ⟨[2, 2, 2], [1, 2, 3, 4, 5, 6, 7, 8]⟩ [1 / 2, 1 / 4] [1 / 3, 1 / 5] [3 / 5, 2 / 3] :=
  ⟨rfl, rfl, rfl, rfl, rfl, rfl, rfl, rfl⟩

example : oxfordBinning oxfordLine = .ok (some 2) := by decide +kernel

example : ∃ s, oxfordScan 57 oxfordLine oxfordLineData true = .ok s ∧
    ¬ Spec.Fits s.detector (Spec.navShape s) :=
  C90_oxford_line_violated oxfordLine_complete (b := some 2) (by decide +kernel)
    (Or.inl ⟨rfl, le_refl 2⟩)

/-- A map of two rows and two columns with patterns of 2 x 2 pixels. -/
def oxfordSquare : OxfordHeader ℚ := { oxfordLine with yCells := 2 }

/-- Its datasets. -/
def oxfordSquareData : OxfordData ℚ :=
  ⟨none, some ⟨[16], (List.range 16).map (fun (i : ℕ) => (i : ℚ))⟩, some [1 / 2, 1 / 4, 1, 2],
    some [1 / 3, 1 / 5, 1, 2], some [3 / 5, 2 / 3, 1, 2]⟩

example : ∃ s, oxfordScan 57 oxfordSquare oxfordSquareData true = .ok s ∧
    Spec.Fits s.detector (Spec.navShape s) :=
  C90_oxford_fits_partial (p := ⟨[16], (List.range 16).map (fun (i : ℕ) => (i : ℚ))⟩)
    ⟨rfl, rfl, rfl, rfl, rfl, rfl, rfl, rfl⟩ (b := some 2) (by decide +kernel)
    (Or.inl ⟨le_refl 2, le_refl 2⟩)

/-! ### EDAX -/

/-- C90: an EDAX file is loaded only if the patterns were acquired on a square grid, and raises
`IOError` otherwise. -/
theorem C90_edax_grid {g : EdaxGroup K} (h : g.gridType ≠ some "SqrGrid") :
    edaxScan g = .error .ioError := by
  simp [edaxScan, h, bind, Except.bind, throw, throwThe, MonadExceptOf.throw]

/-- C90: an EDAX file on a square grid with complete patterns is loaded with the patterns in their
order in the file, axes that fit the array and carry the step sizes, a crystal map of the same
shape, and a detector with the angles in the file and one projection center, which denotes the same
physical point as in the file and can be used with every navigation shape. -/
theorem C90_edax_scan {g : EdaxGroup K} {p : FlatArr K} (hg : g.gridType = some "SqrGrid")
    (hp : g.patterns = some p) (hsize : p.data.length = g.nRows * g.nColumns * g.height * g.width)
    (hy : 1 ≤ g.nRows) (hx : 1 ≤ g.nColumns) (hh : 2 ≤ g.height) (hw : 2 ≤ g.width) :
    ∃ s, edaxScan g = .ok s ∧ s.data.data = p.data ∧
      s.data.shape = s.axes.map SignalAxis.size ∧
      (2 ≤ g.nRows → 2 ≤ g.nColumns → s.axes =
        [⟨"y", g.nRows, g.stepY.getD 1⟩, ⟨"x", g.nColumns, g.stepX.getD 1⟩,
          ⟨"dy", g.height, 1⟩, ⟨"dx", g.width, 1⟩]) ∧
      s.mapShape = (g.nRows, g.nColumns) ∧ s.mapSteps = (g.stepY.getD 1, g.stepX.getD 1) ∧
      s.detector.nrows = g.height ∧ s.detector.ncols = g.width ∧
      s.detector.tilt = g.elevation.getD 0 ∧ s.detector.azimuthal = g.azimuthal.getD 0 ∧
      s.detector.sampleTilt = g.sampleTilt.getD 70 ∧
      (∃ q : PC K, s.detector.pc = [q] ∧
        Spec.physical .bruker g.height g.width (1 : K) 1 q =
          Spec.physical .tsl g.height g.width 1 1
            ⟨g.xstar.getD (1 / 2), g.ystar.getD (1 / 2), g.zstar.getD (1 / 2)⟩) ∧
      Spec.Fits s.detector (Spec.navShape s) := by
  have hd : getData p g.nRows g.nColumns g.height g.width =
      .ok ⟨[g.nRows, g.nColumns, g.height, g.width].filter (· ≠ 1), p.data⟩ := by
    unfold getData
    rw [reshape_ok (by rw [hsize]; simp [shapeSize]; ring)]
    rfl
  unfold edaxScan
  simp only [hg, hp, bind, Except.bind, hd, Detector.init, Detector.getPcInBruker,
    getConv_of_denotes denotes_edax, kind, ne_eq, not_true_eq_false, if_false, pure, Except.pure,
    Except.ok.injEq, exists_eq_left']
  refine ⟨trivial, ?_, ?_, trivial, trivial, trivial, trivial, trivial, trivial, trivial,
    ⟨_, rfl, ?_⟩,
    Or.inl rfl⟩
  · rw [axesList_sizes _ _ _ _ _ _ _ hy hx]
    have e1 : g.height ≠ 1 := by omega
    have e2 : g.width ≠ 1 := by omega
    rw [show [g.nRows, g.nColumns, g.height, g.width] =
      [g.nRows, g.nColumns] ++ [g.height, g.width] from rfl, List.filter_append]
    simp [e1, e2]
  · intro a b
    rw [axesList, if_pos ⟨by omega, by omega⟩]
  · have hh' : (g.height : K) ≠ 0 := by
      have : g.height ≠ 0 := by omega
      exact_mod_cast this
    simp only [Spec.physical, Detector.tsl2bruker]
    ext
    · rfl
    · simp only; ring
    · simp only; field_simp

example : ∃ s, edaxScan (K := ℚ) ⟨some "SqrGrid", 2, 1, 2, 2, none, none, none, none, none,
    some (1 / 4), none, none, some ⟨[2, 2, 2], [1, 2, 3, 4, 5, 6, 7, 8]⟩⟩ = .ok s ∧
    s.data.data = [1, 2, 3, 4, 5, 6, 7, 8] := by
  obtain ⟨s, h, h', -⟩ := C90_edax_scan (K := ℚ) (g := ⟨some "SqrGrid", 2, 1, 2, 2, none, none,
    none, none, none, some (1 / 4), none, none, some ⟨[2, 2, 2], [1, 2, 3, 4, 5, 6, 7, 8]⟩⟩)
    rfl rfl rfl (by decide) (by decide) (by decide) (by decide)
  exact ⟨s, h, h'⟩

theorem edaxScan_short {g : EdaxGroup K} {p : FlatArr K} (hg : g.gridType = some "SqrGrid")
    (hp : g.patterns = some p) (hsize : p.data.length < g.nRows * g.nColumns * g.height * g.width) :
    ∃ s, edaxScan g = .ok s ∧
      s.data = ⟨[g.nRows, g.nColumns, g.height, g.width], p.data ++
        List.replicate (g.nRows * g.nColumns * g.height * g.width - p.data.length) 0⟩ ∧
      s.axes = axesList g.nRows g.nColumns g.height g.width (g.stepY.getD 1) (g.stepX.getD 1) 1 := by
  have e : shapeSize [g.nRows, g.nColumns, g.height, g.width] =
      g.nRows * g.nColumns * g.height * g.width := by
    simp [shapeSize]; ring
  have hd : getData p g.nRows g.nColumns g.height g.width =
      .ok ⟨[g.nRows, g.nColumns, g.height, g.width], p.data ++
        List.replicate (g.nRows * g.nColumns * g.height * g.width - p.data.length) 0⟩ := by
    unfold getData
    have h1 : p.reshape [g.nRows, g.nColumns, g.height, g.width] = .error .valueError := by
      unfold FlatArr.reshape
      rw [if_neg (by rw [e]; omega)]
    rw [h1]
    simp only
    rw [reshape_ok (by simp only [FlatArr.padTo, List.length_append, List.length_replicate]; rw [e]; omega)]
    rfl
  unfold edaxScan
  simp only [hg, hp, bind, Except.bind, hd, Detector.init, Detector.getPcInBruker,
    getConv_of_denotes denotes_edax, kind, ne_eq, not_true_eq_false, if_false, pure, Except.pure,
    Except.ok.injEq, exists_eq_left']
  exact ⟨trivial, trivial⟩

/-- C90: if an EDAX file has too few values, those present keep their positions and the rest is
zero, for maps with at least two rows and two columns. -/
theorem C90_edax_incomplete_partial {g : EdaxGroup K} {p : FlatArr K}
    (hg : g.gridType = some "SqrGrid") (hp : g.patterns = some p)
    (hsize : p.data.length < g.nRows * g.nColumns * g.height * g.width)
    (hy : 2 ≤ g.nRows) (hx : 2 ≤ g.nColumns) :
    ∃ s, edaxScan g = .ok s ∧ s.data.shape = s.axes.map SignalAxis.size ∧
      s.data.data.length = g.nRows * g.nColumns * g.height * g.width ∧
      (∀ i, i < p.data.length → s.data.data[i]? = p.data[i]?) ∧
      (∀ i, p.data.length ≤ i → i < g.nRows * g.nColumns * g.height * g.width →
        s.data.data[i]? = some 0) := by
  obtain ⟨s, hs, h1, h2⟩ := edaxScan_short hg hp hsize
  refine ⟨s, hs, ?_, ?_, ?_, ?_⟩
  · rw [h1, h2, axesList_sizes _ _ _ _ _ _ _ (by omega) (by omega)]
    have e1 : g.nRows ≠ 1 := by omega
    have e2 : g.nColumns ≠ 1 := by omega
    simp [e1, e2]
  · rw [h1]
    simp only [List.length_append, List.length_replicate]
    omega
  · intro i hi
    rw [h1]
    simp only
    rw [List.getElem?_append_left hi]
  · intro i hi hlt
    rw [h1]
    simp only
    rw [List.getElem?_append_right hi, List.getElem?_replicate, if_pos (by omega)]

/-- C90 is false for incomplete line scans: the array of an EDAX file with a single row or column
has four dimensions when it is padded, but three axes. -/
theorem C90_edax_incomplete_line_violated {g : EdaxGroup K} {p : FlatArr K}
    (hg : g.gridType = some "SqrGrid") (hp : g.patterns = some p)
    (hsize : p.data.length < g.nRows * g.nColumns * g.height * g.width)
    (hline : g.nRows = 1 ∧ 2 ≤ g.nColumns ∨ 2 ≤ g.nRows ∧ g.nColumns = 1) :
    ∃ s, edaxScan g = .ok s ∧ s.data.shape.length = 4 ∧ s.axes.length = 3 := by
  obtain ⟨s, hs, h1, h2⟩ := edaxScan_short hg hp hsize
  refine ⟨s, hs, by rw [h1]; rfl, ?_⟩
  have : s.axes.length = (s.axes.map SignalAxis.size).length := by simp
  rw [this, h2, axesList_sizes _ _ _ _ _ _ _ (by omega) (by omega)]
  rcases hline with ⟨a, b⟩ | ⟨a, b⟩
  · have : g.nColumns ≠ 1 := by omega
    simp [a, this]
  · have : g.nRows ≠ 1 := by omega
    simp [b, this]

example : ∃ s, edaxScan (K := ℚ) ⟨some "SqrGrid", 2, 1, 2, 2, none, none, none, none, none,
    some (1 / 4), none, none, some ⟨[1, 2, 2], [1, 2, 3, 4]⟩⟩ = .ok s ∧
    s.data.shape.length = 4 ∧ s.axes.length = 3 :=
  C90_edax_incomplete_line_violated rfl rfl (by decide) (Or.inr ⟨le_refl 2, rfl⟩)

end Kp
