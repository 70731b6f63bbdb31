import Mathlib.Data.Rat.Floor
import Verif.Spec.NordifCalibration
import Verif.Props.NordifSettings
import Verif.Lemmas.NpRound

/-
C127: what is loaded with NORDIF calibration patterns.
-/

namespace Kp

open Spec

theorem digitRun_append {d rest : Text} (hd : ∀ c ∈ d, c.isDigit = true)
    (hr : ∀ c ∈ rest.head?, c.isDigit = false) : digitRun (d ++ rest) = (d, rest) := by
  induction d with
  | nil =>
    cases rest with
    | nil => rfl
    | cons c s =>
      have := hr c (by simp)
      simp [digitRun, this]
  | cons c d ih =>
    have h1 := hd c (by simp)
    have h2 := ih (fun x hx => hd x (by simp [hx]))
    rw [List.cons_append, digitRun, if_pos h1, h2]

theorem digitRuns_skip {a s : Text} (ha : NoDigits a) : digitRuns (a ++ s) = digitRuns s := by
  induction a with
  | nil => rfl
  | cons c a ih =>
    have h1 := ha c (by simp)
    rw [List.cons_append, digitRuns, if_neg (by simp [h1]), ih (fun x hx => ha x (by simp [hx]))]

theorem digitRuns_take {d rest : Text} (hd : IsDigits d) (hr : ∀ c ∈ rest.head?, c.isDigit = false) :
    digitRuns (d ++ rest) = d :: digitRuns rest := by
  obtain ⟨hne, hd⟩ := hd
  cases d with
  | nil => exact absurd rfl hne
  | cons c d =>
    have h1 := hd c (by simp)
    rw [List.cons_append, digitRuns, if_pos h1,
      digitRun_append (fun x hx => hd x (by simp [hx])) hr]

theorem digitsValue_eq (t : Text) : digitsValue t = numberOf t := by
  unfold digitsValue numberOf
  have : ∀ (t : Text) (n : ℕ), t.foldl (fun a c => 10 * a + (c.toNat - '0'.toNat)) n =
      Nat.ofDigits 10 (t.reverse.map fun c => c.toNat - 48) + 10 ^ t.length * n := by
    intro t
    induction t with
    | nil => intro n; simp
    | cons c t ih =>
      intro n
      rw [List.foldl_cons, ih, List.reverse_cons, List.map_append, Nat.ofDigits_append]
      have e : '0'.toNat = 48 := rfl
      simp only [e, List.map_cons, List.map_nil, Nat.ofDigits_singleton, List.length_map,
        List.length_reverse, List.length_cons]
      ring
  simpa using this t 0

theorem beforeLast_nil (s : Text) : beforeLast [] s = some s := by
  induction s with
  | nil => rfl
  | cons c s ih => rw [beforeLast, ih]

section
variable {K : Type} [Field K]

theorem roiValue_row {lines : List Text} {i : ℕ} {key : String} {whole decimals px : Text}
    (hk : key.toList ≠ []) (h : RoiRowAt lines i key whole decimals px) :
    roiValue K key lines[i]? = some (numberOf px,
      (numberOf whole : K) + (numberOf decimals : K) / 10 ^ decimals.length) := by
  obtain ⟨h1, h2, h3, a, b, rest, ha, hb, hbne, hr, hl⟩ := h
  have hdot : ('.' : Char).isDigit = false := by decide
  unfold roiValue
  rw [hl, Option.bind_some, searchBetween_key _ _ _ _ (beforeLast_nil _) hk]
  simp only
  rw [digitRuns_skip ha, digitRuns_take h1 (by simp)]
  have e : '.' :: (decimals ++ (b ++ (px ++ rest))) = ['.'] ++ (decimals ++ (b ++ (px ++ rest))) :=
    rfl
  rw [e, digitRuns_skip (by intro c hc; simp at hc; subst hc; exact hdot),
    digitRuns_take h2 (by
      cases b with
      | nil => exact absurd rfl hbne
      | cons c b => intro x hx; simp at hx; subst hx; exact hb _ (by simp)),
    digitRuns_skip hb, digitRuns_take h3 hr]
  simp only [decimalValue, digitsValue_eq]

/-- C127.  The region of interest has the top, left, width and height in pixels as written, and the
width in micrometers. -/
theorem C127_roi_partial {lines : List Text} {area : ℕ} (h : RoiAt lines area) :
    nordifRoi K lines (area : ℤ) =
      { top := numberOf h.top
        left := numberOf h.left
        width := numberOf h.width
        height := numberOf h.height
        widthScaled := (numberOf h.widthWhole : K) +
          (numberOf h.widthDecimals : K) / 10 ^ h.widthDecimals.length } := by
  have e0 : ((area : ℤ) + 0 + 1).toNat = area + 1 := by omega
  have e1 : ((area : ℤ) + 1 + 1).toNat = area + 2 := by omega
  have e2 : ((area : ℤ) + 2 + 1).toNat = area + 3 := by omega
  have e3 : ((area : ℤ) + 3 + 1).toNat = area + 4 := by omega
  unfold nordifRoi
  simp only [e0, e1, e2, e3]
  rw [roiValue_row (K := K) (by decide) h.topRow, roiValue_row (K := K) (by decide) h.leftRow,
    roiValue_row (K := K) (by decide) h.widthRow, roiValue_row (K := K) (by decide) h.heightRow]
  rfl

end

section
variable {K : Type} [Field K] [LinearOrder K] [IsStrictOrderedRing K] [FloorRing K]

theorem scalePosition_inSteps (invalid : ℤ) {step width widthScaled : K} (hs : step ≠ 0)
    (hw : width ≠ 0) (hws : widthScaled ≠ 0) (x : ℤ) :
    InSteps (widthScaled / width) step x
      (scalePosition invalid (step * width / widthScaled) x) := by
  unfold InSteps scalePosition
  rw [if_neg (div_ne_zero (mul_ne_zero hs hw) hws)]
  have e : (x : K) * (widthScaled / width) / step = (x : K) / (step * width / widthScaled) := by
    field_simp
  rw [e]
  exact npRound_close _

/-- C127.  Positions and shapes in map steps are those in pixels, with the pixel size given by the
width of the region of interest in micrometers and pixels, to within half a step; there are none
if the width was not read. -/
theorem C127_scaled_partial (invalid : ℤ) {step : K} (hs : step ≠ 0) (roi : NordifRoi K)
    (hw : roi.width ≠ 0) (rc : List (ℤ × ℤ)) (a : Option (ℤ × ℤ)) :
    ∃ s, scaledPositions invalid step roi rc (some a) = .ok s ∧
      (s = none ↔ roi.widthScaled = 0) ∧
      ∀ p, s = some p →
        let size := roi.widthScaled / roi.width
        List.Forall₂ (fun x n => InSteps size step x.1 n.1 ∧ InSteps size step x.2 n.2) rc p.indices ∧
        InSteps size step roi.top p.origin.1 ∧ InSteps size step roi.left p.origin.2 ∧
        InSteps size step roi.height p.shape.1 ∧ InSteps size step roi.width p.shape.2 ∧
        (p.area = none ↔ a = none) ∧
        ∀ x n, a = some x → p.area = some n →
          InSteps size step x.1 n.1 ∧ InSteps size step x.2 n.2 := by
  have hw' : (roi.width : K) ≠ 0 := by exact_mod_cast hw
  unfold scaledPositions
  by_cases h0 : roi.widthScaled = 0
  · rw [if_pos h0]
    exact ⟨none, rfl, by simp [h0], by simp⟩
  · rw [if_neg h0]
    have key := scalePosition_inSteps invalid hs hw' h0
    refine ⟨_, rfl, by simp [h0], ?_⟩
    intro p hp
    simp only [Option.some.injEq] at hp
    subst hp
    refine ⟨?_, ?_, ?_, ?_, ?_, ?_, ?_⟩
    · rw [List.forall₂_map_right_iff, List.forall₂_same]
      exact fun x _ => ⟨key _, key _⟩
    · exact key _
    · exact key _
    · exact key _
    · exact key _
    · cases a <;> simp
    · rintro x n rfl hn
      simp only [Option.map_some, Option.some.injEq] at hn
      subst hn
      exact ⟨key _, key _⟩

theorem mapM_files (image : Text → Option ImageFile) (l : List Text) :
    l.mapM (openImage image) =
    if ∀ n ∈ l, (image n).isSome then Except.ok (l.filterMap image)
    else Except.error Err.ioError := by
  induction l with
  | nil => rfl
  | cons n l ih =>
    rw [List.mapM_cons]
    cases hn : image n with
    | none => simp [openImage, hn]; rfl
    | some i =>
      rw [ih, openImage, hn]
      by_cases h : ∀ n ∈ l, (image n).isSome
      · have h' : ∀ m ∈ n :: l, (image m).isSome := by simpa [hn] using h
        rw [if_pos h, if_pos h', List.filterMap_cons, hn]
        rfl
      · have h' : ¬ ∀ m ∈ n :: l, (image m).isSome := by simpa [hn] using h
        rw [if_neg h, if_neg h']
        rfl

theorem stack_same (image : Text → Option ImageFile) {files : List Text} {s : List ℕ}
    (hne : files ≠ []) (h : ∀ n ∈ files, ∃ i, image n = some i ∧ i.shape = s) :
    stackShape (files.filterMap image) = .ok (files.length :: s) := by
  cases files with
  | nil => exact absurd rfl hne
  | cons n l =>
    obtain ⟨i, hi, his⟩ := h n (by simp)
    rw [List.filterMap_cons, hi]
    simp only [stackShape]
    have hl : ∀ l : List Text, (∀ n ∈ l, ∃ i, image n = some i ∧ i.shape = s) →
        (l.filterMap image).length = l.length ∧ ∀ j ∈ l.filterMap image, j.shape = s := by
      intro l h
      induction l with
      | nil => simp
      | cons n l ih =>
        obtain ⟨i, hi, his⟩ := h n (by simp)
        obtain ⟨h1, h2⟩ := ih (fun m hm => h m (by simp [hm]))
        rw [List.filterMap_cons, hi]
        simp only [List.length_cons, List.mem_cons, forall_eq_or_imp]
        exact ⟨by rw [h1], his, h2⟩
    obtain ⟨h1, h2⟩ := hl l (fun m hm => h m (by simp [hm]))
    rw [if_pos (by
      rw [List.all_eq_true]
      intro j hj
      simp [h2 j hj, his]), h1, his]
    rfl

theorem stack_different (image : Text → Option ImageFile) {files : List Text} {a b : Text}
    (hsome : ∀ n ∈ files, (image n).isSome) (ha : a ∈ files) (hb : b ∈ files)
    (hab : (image a).map ImageFile.shape ≠ (image b).map ImageFile.shape) :
    stackShape (files.filterMap image) = .error .valueError := by
  obtain ⟨i, hi⟩ := Option.isSome_iff_exists.1 (hsome a ha)
  obtain ⟨j, hj⟩ := Option.isSome_iff_exists.1 (hsome b hb)
  have hi' : i ∈ files.filterMap image := List.mem_filterMap.2 ⟨a, ha, hi⟩
  have hj' : j ∈ files.filterMap image := List.mem_filterMap.2 ⟨b, hb, hj⟩
  have hij : i.shape ≠ j.shape := by
    intro h; apply hab; rw [hi, hj]; simp [h]
  generalize files.filterMap image = l at *
  cases l with
  | nil => simp at hi'
  | cons k l =>
    simp only [stackShape]
    rw [if_neg]
    intro h
    rw [List.all_eq_true] at h
    have hk : ∀ x ∈ k :: l, x.shape = k.shape := by
      intro x hx
      rcases List.mem_cons.1 hx with rfl | hx
      · rfl
      · simpa using h x hx
    exact hij ((hk i hi').trans (hk j hj').symm)

theorem patterns_some (image : Text → Option ImageFile) {files : List Text}
    (hsome : ∀ n ∈ files, (image n).isSome) :
    ((files.filterMap image).map ImageFile.data).map some =
      files.map (fun n => (image n).map ImageFile.data) := by
  induction files with
  | nil => rfl
  | cons n l ih =>
    obtain ⟨i, hi⟩ := Option.isSome_iff_exists.1 (hsome n (by simp))
    rw [List.filterMap_cons, hi, List.map_cons, List.map_cons, List.map_cons,
      ih (fun m hm => hsome m (by simp [hm])), hi]
    rfl

/-- The settings written in a file in the documented layout. -/
def layoutSettings {int : Text → Option ℤ} {float : Text → Option K} {block : String}
    {lines : List Text} (f : Layout int float block lines) : NordifSettings K where
  beamEnergy := f.voltageValue
  magnification := f.magnificationValue
  microscope := f.manufacturer ++ [' '] ++ f.model
  workingDistance := f.distanceValue
  ny := f.rows
  nx := f.columns
  sy := f.height
  sx := f.width
  step := f.stepValue
  sampleTilt := f.tiltValue
  tilt := -f.elevationValue
  azimuthal := f.azimuthalValue

omit [IsStrictOrderedRing K] in
/-- C127.  For a setting file in the documented layout that lists calibration patterns, what is
loaded: a line of patterns, one for each pattern listed and in this order, with the values of the
pattern's file; axes named x, dy and dx of the number of patterns, rows and columns; the background
pattern, if its file exists; and microscope and detector settings of the calibration section.  It is
refused exactly if a file does not exist or the images do not all have the same two-dimensional
shape. -/
theorem C127_patterns (int : Text → Option ℤ) (float : Text → Option K) (str : ℤ → Text)
    (invalid : ℤ) (image : Text → Option ImageFile) (pre : List Text) (title : Text)
    (rows : List CalibrationRow) (ht : "[Calibration patterns]".toList <:+: title)
    (hrows : ∀ r ∈ rows, r.Valid int str ∧ ¬ "[Calibration patterns]".toList <:+: r.text)
    (hne : ∃ r ∈ rows, r.file ≠ none)
    (f : Layout int float "[Calibration settings]" (pre ++ title :: rows.map CalibrationRow.text))
    (img : ℕ) (himg : SectionAt (pre ++ title :: rows.map CalibrationRow.text) "[Electron image]" img)
    (overview : Text) (hov : (pre ++ title :: rows.map CalibrationRow.text)[img + 2]? = some overview)
    (hres : ∀ l, resolutionNumbers overview = some l → l.length = 2) :
    let files := rows.filterMap CalibrationRow.file
    let out := calibrationReader int float str invalid image
      (pre ++ title :: rows.map CalibrationRow.text)
    (∀ nr nc, (∀ n ∈ files, ∃ i, image n = some i ∧ i.shape = [nr, nc]) →
      ∃ s, out = .ok s ∧ s.shape = [files.length, nr, nc] ∧
        s.axes = [(files.length, "x"), (nr, "dy"), (nc, "dx")] ∧
        s.patterns.map some = files.map (fun n => (image n).map ImageFile.data) ∧
        s.background = image "Background calibration pattern.bmp".toList ∧
        calibrationFiles str s.indices = files ∧
        s.settings = layoutSettings f) ∧
    ((∃ n ∈ files, image n = none) → out = .error .ioError) ∧
    ((∀ n ∈ files, (image n).isSome) →
      (∃ a ∈ files, ∃ b ∈ files, (image a).map ImageFile.shape ≠ (image b).map ImageFile.shape) →
      out = .error .valueError) ∧
    (∀ s, (∀ n ∈ files, ∃ i, image n = some i ∧ i.shape = s) → 2 < s.length →
      out = .error .indexError) := by
  intro files out
  obtain ⟨rc, hrc, hfiles⟩ := C82_calibration_patterns int str pre title rows ht hrows hne
  have hset := C82_settings_partial int float _ _ f
  have hfne : files ≠ [] := by
    obtain ⟨r, hr, hrf⟩ := hne
    intro h0
    have := List.filterMap_eq_nil_iff.1 h0 r hr
    exact hrf this
  have hline : lineAt (pre ++ title :: rows.map CalibrationRow.text)
      (blockLine "[Electron image]".toList (pre ++ title :: rows.map CalibrationRow.text) + 2) =
      .ok overview := by
    rw [blockLine_section _ _ _ himg]
    unfold lineAt
    have e : ((img : ℤ) + 2).toNat = img + 2 := by omega
    rw [e, hov]
  obtain ⟨sc, hsc⟩ : ∃ sc, scaledPositions invalid f.stepValue
      (nordifRoi K (pre ++ title :: rows.map CalibrationRow.text)
        (blockLine "[Area]".toList (pre ++ title :: rows.map CalibrationRow.text))) rc
      (areaShape (resolutionNumbers overview)) = .ok sc := by
    unfold scaledPositions
    split_ifs
    · exact ⟨_, rfl⟩
    · cases hr : resolutionNumbers overview with
      | none => exact ⟨_, rfl⟩
      | some l =>
        obtain ⟨a, b, rfl⟩ := List.length_eq_two.1 (hres l hr)
        exact ⟨_, rfl⟩
  have hout : out = (do
      let images ← (if ∀ n ∈ files, (image n).isSome then Except.ok (files.filterMap image)
        else Except.error Err.ioError)
      let shape ← stackShape images
      let axes ← calibrationAxes shape
      pure
        { shape := shape
          patterns := images.map ImageFile.data
          axes := axes
          background := image "Background calibration pattern.bmp".toList
          settings := layoutSettings f
          indices := rc
          roi := nordifRoi K (pre ++ title :: rows.map CalibrationRow.text)
            (blockLine "[Area]".toList (pre ++ title :: rows.map CalibrationRow.text))
          scaled := sc }) := by
    show calibrationReader int float str invalid image _ = _
    unfold calibrationReader
    rw [hset, hrc, hline]
    simp only [bind, Except.bind]
    rw [hsc, hfiles]
    simp only [mapM_files]
    rfl
  refine ⟨?_, ?_, ?_, ?_⟩
  · intro nr nc hall
    have hsome : ∀ n ∈ files, (image n).isSome := fun n hn => by
      obtain ⟨i, hi, -⟩ := hall n hn; rw [hi]; rfl
    have hst := stack_same image hfne hall
    rw [hout, if_pos hsome]
    simp only [bind, Except.bind, hst]
    refine ⟨_, rfl, rfl, rfl, ?_, rfl, hfiles, rfl⟩
    exact patterns_some image hsome
  · rintro ⟨n, hn, hnone⟩
    rw [hout, if_neg (by
      intro h
      have := h n hn
      rw [hnone] at this
      simp at this)]
    rfl
  · rintro hsome ⟨a, ha, b, hb, hab⟩
    rw [hout, if_pos hsome]
    simp only [bind, Except.bind]
    rw [stack_different image hsome ha hb hab]
  · intro s hall hs
    have hsome : ∀ n ∈ files, (image n).isSome := fun n hn => by
      obtain ⟨i, hi, -⟩ := hall n hn; rw [hi]; rfl
    have hst := stack_same image hfne hall
    rw [hout, if_pos hsome]
    simp only [bind, Except.bind, hst]
    unfold calibrationAxes
    rw [if_pos (by simp only [List.length_cons]; omega)]

end

/-! ### Examples and counterexamples -/

/-- Whole numbers. -/
def calInt (t : Text) : Option ℤ :=
  if t ≠ [] ∧ t.all Char.isDigit then some (digitsValue t) else none

/-- Decimal numbers. -/
def calFloat (t : Text) : Option ℚ :=
  match digitRuns t with
  | [a] => some (digitsValue a)
  | [a, b] => some (decimalValue ℚ a b)
  | _ => none

/-- A setting file: the row of the width, the line with the resolution of the overview image and the
patterns. -/
def calLines (width resolution : String) : List Text :=
  ["[NORDIF]\t\t", "[Microscope]\t\t", "Manufacturer\tHitachi\t", "Model\tSU-6600\t",
    "Magnification\t200\t#", "Scan direction\tDirect\t", "Accelerating voltage\t20\tkV",
    "Working distance\t24.7\tmm", "Tilt angle\t70\tdeg", "[Electron image]\t\t",
    "Frame rate\t5\tfps", resolution, "[Detector angles]\t\t", "Euler 1\t0\tdeg",
    "Euler 2\t0\tdeg", "Euler 3\t0\tdeg", "Azimuthal\t0\tdeg", "Elevation\t5\tdeg",
    "[Calibration settings]\t\t", "Frame rate\t202\tfps", "Resolution\t3x2\tpx",
    "[Area]\t\t", "Top\t89.200 (223)\tum (px)", "Left\t60.384 (152)\tum (px)", width,
    "Height\t4.500 (11)\tum (px)", "Step size\t1.500\tum", "Number of samples\t3x3\t#"].map
      String.toList

/-- The patterns. -/
def calRows : List CalibrationRow :=
  [.pattern ['4', '2', '5'] ['4', '4', '7'] "\t425,447\tpx".toList, .other "\t\t".toList,
    .pattern ['7', '3'] ['4', '2', '5'] "\t73,425\tpx".toList]

/-- Images of two rows and three columns. -/
def calImage (s : List ℕ) (t : Text) : Option ImageFile :=
  if t = "Calibration (425,447).bmp".toList then some ⟨s, [1, 2, 3, 4, 5, 6]⟩ else
    if t = "Calibration (73,425).bmp".toList then some ⟨s, [6, 5, 4, 3, 2, 1]⟩ else none

/-- The whole file. -/
def calFile (width resolution : String) : List Text :=
  calLines width resolution ++ "[Calibration patterns]\t\t".toList :: calRows.map CalibrationRow.text

/-- What is read. -/
def calRead (width resolution : String) (s : List ℕ) : Except Err (CalibrationScan ℚ) :=
  calibrationReader calInt calFloat exampleStr (-1) (calImage s) (calFile width resolution)

/-- Shape, patterns, detector shape, positions in steps. -/
def calSummary (x : Except Err (CalibrationScan ℚ)) :
    Option (List ℕ × List (List ℕ) × ℤ × ℤ × Option ScaledPositions) :=
  x.toOption.map fun s => (s.shape, s.patterns, s.settings.sy, s.settings.sx, s.scaled)

example : calSummary (calRead "Width\t4.500 (11)\tum (px)" "Resolution\t960x600\tpx" [2, 3]) =
    some ([2, 2, 3], [[1, 2, 3, 4, 5, 6], [6, 5, 4, 3, 2, 1]], 2, 3,
      some ⟨[(122, 116), (116, 20)], (61, 41), (3, 3), some (164, 262)⟩) := by decide +kernel

example : Nonempty (RoiAt (calFile "Width\t4.500 (11)\tum (px)" "Resolution\t960x600\tpx") 21) :=
  ⟨{  topWhole := "89".toList
      topDecimals := "200".toList
      top := "223".toList
      topRow := ⟨by unfold IsDigits; decide, by unfold IsDigits; decide, by unfold IsDigits; decide,
        ['\t'], " (".toList, ")\tum (px)".toList, by unfold NoDigits; decide,
        by unfold NoDigits; decide, by decide, by decide, by decide +kernel⟩
      leftWhole := "60".toList
      leftDecimals := "384".toList
      left := "152".toList
      leftRow := ⟨by unfold IsDigits; decide, by unfold IsDigits; decide, by unfold IsDigits; decide,
        ['\t'], " (".toList, ")\tum (px)".toList, by unfold NoDigits; decide,
        by unfold NoDigits; decide, by decide, by decide, by decide +kernel⟩
      widthWhole := "4".toList
      widthDecimals := "500".toList
      width := "11".toList
      widthRow := ⟨by unfold IsDigits; decide, by unfold IsDigits; decide, by unfold IsDigits; decide,
        ['\t'], " (".toList, ")\tum (px)".toList, by unfold NoDigits; decide,
        by unfold NoDigits; decide, by decide, by decide, by decide +kernel⟩
      heightWhole := "4".toList
      heightDecimals := "500".toList
      height := "11".toList
      heightRow := ⟨by unfold IsDigits; decide, by unfold IsDigits; decide, by unfold IsDigits; decide,
        ['\t'], " (".toList, ")\tum (px)".toList, by unfold NoDigits; decide,
        by unfold NoDigits; decide, by decide, by decide, by decide +kernel⟩ }⟩

example : Nonempty (Layout calInt calFloat "[Calibration settings]"
    (calFile "Width\t4.500 (11)\tum (px)" "Resolution\t960x600\tpx")) :=
  ⟨{  mic := 1, ang := 12, acq := 18, area := 21
      micAt := section_of_index _ _ 1 (by decide) (by decide +kernel) (by decide +kernel)
      angAt := section_of_index _ _ 12 (by decide) (by decide +kernel) (by decide +kernel)
      acqAt := section_of_index _ _ 18 (by decide) (by decide +kernel) (by decide +kernel)
      areaAt := section_of_index _ _ 21 (by decide) (by decide +kernel) (by decide +kernel)
      manufacturer := "Hitachi".toList
      manufacturerRow := ⟨[], by decide +kernel, by decide⟩
      model := "SU-6600".toList
      modelRow := ⟨[], by decide +kernel, by decide⟩
      magnification := "200".toList
      magnificationRow := ⟨[], by decide +kernel, by decide⟩
      magnificationValue := 200
      magnificationInt := by decide +kernel
      voltage := "20".toList
      voltageRow := ⟨[], by decide +kernel, by decide⟩
      voltageValue := 20
      voltageFloat := by decide +kernel
      distance := "24.7".toList
      distanceRow := ⟨[], by decide +kernel, by decide⟩
      distanceValue := 247 / 10
      distanceFloat := by decide +kernel
      tilt := "70".toList
      tiltRow := ⟨"deg".toList, by decide +kernel, by decide⟩
      tiltValue := 70
      tiltFloat := by decide +kernel
      azimuthal := "0".toList
      azimuthalRow := ⟨"deg".toList, by decide +kernel, by decide⟩
      azimuthalValue := 0
      azimuthalFloat := by decide +kernel
      elevation := "5".toList
      elevationRow := ⟨"deg".toList, by decide +kernel, by decide⟩
      elevationValue := 5
      elevationFloat := by decide +kernel
      resolution := "3x2".toList
      resolutionRow := ⟨[], by decide +kernel, by decide⟩
      width := 3
      height := 2
      resolutionPair := ⟨"3".toList, "2".toList, by decide, by decide, by decide, by decide +kernel,
        by decide +kernel⟩
      step := "1.500".toList
      stepRow := ⟨"um".toList, by decide +kernel, by decide⟩
      stepValue := 3 / 2
      stepFloat := by decide +kernel
      samples := "3x3".toList
      samplesRow := ⟨[], by decide +kernel, by decide⟩
      rows := 3
      columns := 3
      samplesPair := ⟨"3".toList, "3".toList, by decide, by decide, by decide, by decide +kernel,
        by decide +kernel⟩ }⟩

/-- The other hypotheses of `C127_patterns`. -/
example :
    (∀ r ∈ calRows, r.Valid calInt exampleStr ∧ ¬ "[Calibration patterns]".toList <:+: r.text) ∧
    SectionAt (calFile "Width\t4.500 (11)\tum (px)" "Resolution\t960x600\tpx") "[Electron image]" 9 ∧
    (calFile "Width\t4.500 (11)\tum (px)" "Resolution\t960x600\tpx")[9 + 2]? =
      some "Resolution\t960x600\tpx".toList ∧
    resolutionNumbers "Resolution\t960x600\tpx".toList = some [960, 600] := by
  refine ⟨?_, section_of_index _ _ 9 (by decide) (by decide +kernel) (by decide +kernel),
    by decide +kernel, by decide +kernel⟩
  intro r hr
  simp only [calRows, List.mem_cons, List.not_mem_nil, or_false] at hr
  rcases hr with rfl | rfl | rfl
  · refine ⟨⟨by decide, by decide, by decide, ⟨425, by decide, by decide⟩, 447, by decide,
      by decide⟩, by decide +kernel⟩
  · exact ⟨by change ¬ "Calibration (".toList <:+: "\t\t".toList; decide +kernel, by decide +kernel⟩
  · refine ⟨⟨by decide, by decide, by decide, ⟨73, by decide, by decide⟩, 425, by decide,
      by decide⟩, by decide +kernel⟩

/-- False in general: the detector always has the shape of the patterns.  It has the shape written in
the setting file, which is not compared to the one of the images. -/
theorem C127_detector_shape_violated :
    calSummary (calRead "Width\t4.500 (11)\tum (px)" "Resolution\t960x600\tpx" [3, 2]) =
      some ([2, 3, 2], [[1, 2, 3, 4, 5, 6], [6, 5, 4, 3, 2, 1]], 2, 3,
        some ⟨[(122, 116), (116, 20)], (61, 41), (3, 3), some (164, 262)⟩) := by decide +kernel

/-- False in general: the width is read whenever it is written.  Without decimals it is not, and no
positions in steps are given; with a width of zero pixels, all of them are the invalid value. -/
theorem C127_width_violated :
    (calSummary (calRead "Width\t4 (11)\tum (px)" "Resolution\t960x600\tpx" [2, 3])).map
      (fun x => x.2.2.2.2) = some none ∧
    (calSummary (calRead "Width\t4.500 (0)\tum (px)" "Resolution\t960x600\tpx" [2, 3])).map
      (fun x => x.2.2.2.2) =
      some (some ⟨[(-1, -1), (-1, -1)], (-1, -1), (-1, -1), some (-1, -1)⟩) := by
  constructor <;> decide +kernel

/-- False in general: patterns are loaded if the size of the overview image cannot be read.  They
are if the line has another key, but not if the resolution is not two numbers. -/
theorem C127_overview_violated :
    (calSummary (calRead "Width\t4.500 (11)\tum (px)" "Pixels\t960x600\tpx" [2, 3])).map
      (fun x => x.2.2.2.2) =
      some (some ⟨[(122, 116), (116, 20)], (61, 41), (3, 3), none⟩) ∧
    calRead "Width\t4.500 (11)\tum (px)" "Resolution\t960\tpx" [2, 3] matches .error .keyError := by
  constructor <;> decide +kernel

end Kp
