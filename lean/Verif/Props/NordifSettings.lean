import Verif.Lemmas.NordifSettings
import Mathlib.Algebra.Field.Basic
import Mathlib.Tactic.FieldSimp

/-!
C82: Values read from a NORDIF setting file are those in the file, and calibration patterns are those
listed.
-/

namespace Kp

/-! ### Specification -/

/-- The section with this title starts at line `i`: the last line that has the title. -/
def SectionAt (lines : List Text) (title : String) (i : ℕ) : Prop :=
  ∃ pre l post, lines = pre ++ l :: post ∧ pre.length = i ∧ title.toList <:+: l ∧
    ∀ x ∈ post, ¬ title.toList <:+: x

/-- Line `i` is a row of the table: key, value and unit, separated by tabulators. -/
def RowAt (lines : List Text) (i : ℕ) (key : String) (value : Text) (unit : String) : Prop :=
  ∃ rest, lines[i]? = some (key.toList ++ '\t' :: (value ++ '\t' :: (unit.toList ++ rest))) ∧
    '\t' ∉ unit.toList ++ rest

/-- Two numbers separated by an x. -/
def IsPair (int : Text → Option ℤ) (t : Text) (a b : ℤ) : Prop :=
  ∃ s u, t = s ++ 'x' :: u ∧ 'x' ∉ s ∧ 'x' ∉ u ∧ int s = some a ∧ int u = some b

/-- A setting file in the documented layout. `block` is the name of the acquisition or calibration
settings. -/
structure Layout {K : Type} (int : Text → Option ℤ) (float : Text → Option K) (block : String)
    (lines : List Text) where
  mic : ℕ
  ang : ℕ
  acq : ℕ
  area : ℕ
  micAt : SectionAt lines "[Microscope]" mic
  angAt : SectionAt lines "[Detector angles]" ang
  acqAt : SectionAt lines block acq
  areaAt : SectionAt lines "[Area]" area
  manufacturer : Text
  manufacturerRow : RowAt lines (mic + 1) "Manufacturer" manufacturer ""
  model : Text
  modelRow : RowAt lines (mic + 2) "Model" model ""
  magnification : Text
  magnificationRow : RowAt lines (mic + 3) "Magnification" magnification "#"
  magnificationValue : ℤ
  magnificationInt : int magnification = some magnificationValue
  voltage : Text
  voltageRow : RowAt lines (mic + 5) "Accelerating voltage" voltage "kV"
  voltageValue : K
  voltageFloat : float voltage = some voltageValue
  distance : Text
  distanceRow : RowAt lines (mic + 6) "Working distance" distance "mm"
  distanceValue : K
  distanceFloat : float distance = some distanceValue
  tilt : Text
  tiltRow : RowAt lines (mic + 7) "Tilt angle" tilt ""
  tiltValue : K
  tiltFloat : float tilt = some tiltValue
  azimuthal : Text
  azimuthalRow : RowAt lines (ang + 4) "Azimuthal" azimuthal ""
  azimuthalValue : K
  azimuthalFloat : float azimuthal = some azimuthalValue
  elevation : Text
  elevationRow : RowAt lines (ang + 5) "Elevation" elevation ""
  elevationValue : K
  elevationFloat : float elevation = some elevationValue
  resolution : Text
  resolutionRow : RowAt lines (acq + 2) "Resolution" resolution "px"
  width : ℤ
  height : ℤ
  resolutionPair : IsPair int resolution width height
  step : Text
  stepRow : RowAt lines (area + 5) "Step size" step ""
  stepValue : K
  stepFloat : float step = some stepValue
  samples : Text
  samplesRow : RowAt lines (area + 6) "Number of samples" samples "#"
  rows : ℤ
  columns : ℤ
  samplesPair : IsPair int samples rows columns

/-! ### Lemmas -/

theorem getSettingString_row (lines : List Text) (i : ℕ) (j : ℤ) (hj : j = i) (key : String)
    (value : Text) (unit k u : String) (h : RowAt lines i key value unit)
    (hk : k.toList = key.toList ++ ['\t']) (hu : u.toList = '\t' :: unit.toList) :
    getSettingString lines k u j = .ok value := by
  obtain ⟨rest, hl, ht⟩ := h
  subst hj
  have e : key.toList ++ '\t' :: (value ++ '\t' :: (unit.toList ++ rest)) =
      k.toList ++ (value ++ '\t' :: (unit.toList ++ rest)) := by rw [hk]; simp
  rw [getSettingString, lineAt, Int.toNat_natCast, hl]
  simp only [bind, Except.bind, pure, Except.pure]
  rw [e, searchBetween_key k.toList u.toList _ value
    (by rw [hu]; exact beforeLast_value unit.toList value _ '\t' (List.prefix_append _ _) ht)
    (by rw [hk]; simp)]
  rfl

theorem blockLine_section (lines : List Text) (title : String) (i : ℕ)
    (h : SectionAt lines title i) : blockLine title.toList lines = i := by
  obtain ⟨pre, l, post, rfl, rfl, hl, hp⟩ := h
  exact blockLine_eq title.toList pre post l hl hp

theorem twoNumbers_pair (int : Text → Option ℤ) (t : Text) (a b : ℤ) (h : IsPair int t a b) :
    twoNumbers int t = .ok (a, b) := by
  obtain ⟨s, u, rfl, hs, hu, ha, hb⟩ := h
  rw [twoNumbers, splitOnX_two s u hs hu]
  simp [convertText, ha, hb, bind, Except.bind, pure, Except.pure]

/-! ### Settings -/

/-- Every value is the one in its row. Sizes are columns by rows for patterns and rows by columns for
the map. The detector tilt is the negative elevation. -/
theorem C82_settings_partial {K : Type} [Neg K] (int : Text → Option ℤ) (float : Text → Option K)
    (block : String) (lines : List Text) (f : Layout int float block lines) :
    nordifSettings int float block lines = .ok
      { beamEnergy := f.voltageValue, magnification := f.magnificationValue,
        microscope := f.manufacturer ++ [' '] ++ f.model, workingDistance := f.distanceValue,
        ny := f.rows, nx := f.columns, sy := f.height, sx := f.width, step := f.stepValue,
        sampleTilt := f.tiltValue, tilt := -f.elevationValue, azimuthal := f.azimuthalValue } := by
  have e1 := getSettingString_row lines _ ((f.mic : ℤ) + 5) (by push_cast; rfl) _ _ _
    "Accelerating voltage\t" "\tkV" f.voltageRow (by decide) (by decide)
  have e2 := getSettingString_row lines _ ((f.mic : ℤ) + 1) (by push_cast; rfl) _ _ _
    "Manufacturer\t" "\t" f.manufacturerRow (by decide) (by decide)
  have e3 := getSettingString_row lines _ ((f.mic : ℤ) + 2) (by push_cast; rfl) _ _ _
    "Model\t" "\t" f.modelRow (by decide) (by decide)
  have e4 := getSettingString_row lines _ ((f.mic : ℤ) + 3) (by push_cast; rfl) _ _ _
    "Magnification\t" "\t#" f.magnificationRow (by decide) (by decide)
  have e5 := getSettingString_row lines _ ((f.mic : ℤ) + 6) (by push_cast; rfl) _ _ _
    "Working distance\t" "\tmm" f.distanceRow (by decide) (by decide)
  have e6 := getSettingString_row lines _ ((f.area : ℤ) + 6) (by push_cast; rfl) _ _ _
    "Number of samples\t" "\t#" f.samplesRow (by decide) (by decide)
  have e7 := getSettingString_row lines _ ((f.acq : ℤ) + 2) (by push_cast; rfl) _ _ _
    "Resolution\t" "\tpx" f.resolutionRow (by decide) (by decide)
  have e8 := getSettingString_row lines _ ((f.area : ℤ) + 5) (by push_cast; rfl) _ _ _
    "Step size\t" "\t" f.stepRow (by decide) (by decide)
  have e9 := getSettingString_row lines _ ((f.mic : ℤ) + 7) (by push_cast; rfl) _ _ _
    "Tilt angle\t" "\t" f.tiltRow (by decide) (by decide)
  have e10 := getSettingString_row lines _ ((f.ang : ℤ) + 5) (by push_cast; rfl) _ _ _
    "Elevation\t" "\t" f.elevationRow (by decide) (by decide)
  have e11 := getSettingString_row lines _ ((f.ang : ℤ) + 4) (by push_cast; rfl) _ _ _
    "Azimuthal\t" "\t" f.azimuthalRow (by decide) (by decide)
  have p1 := twoNumbers_pair int _ _ _ f.samplesPair
  have p2 := twoNumbers_pair int _ _ _ f.resolutionPair
  rw [nordifSettings, blockLine_section lines _ _ f.micAt, blockLine_section lines _ _ f.angAt,
    blockLine_section lines _ _ f.acqAt, blockLine_section lines _ _ f.areaAt]
  simp only [e1, e2, e3, e4, e5, e6, e7, e8, e9, e10, e11, p1, p2, convertText, f.voltageFloat,
    f.magnificationInt, f.distanceFloat, f.stepFloat, f.tiltFloat, f.elevationFloat,
    f.azimuthalFloat, bind, Except.bind, pure, Except.pure]

/-- No value is taken from a row with another key: a text that was read is between the key and the
unit in one line. -/
theorem C82_no_misreading (lines : List Text) (key unit : String) (i : ℤ) (t : Text)
    (h : getSettingString lines key unit i = .ok t) (ht : t ≠ []) :
    ∃ l ∈ lines, key.toList ++ t ++ unit.toList <:+: l := by
  rw [getSettingString, lineAt] at h
  cases hl : lines[i.toNat]? with
  | none => rw [hl] at h; simp [bind, Except.bind] at h
  | some l =>
    rw [hl] at h
    simp only [bind, Except.bind, pure, Except.pure, Except.ok.injEq] at h
    refine ⟨l, List.mem_of_getElem? hl, ?_⟩
    cases hs : searchBetween key.toList unit.toList l with
    | none => rw [hs] at h; exact absurd h.symm ht
    | some u =>
      rw [hs] at h
      simp only [Option.getD_some] at h
      rw [← h]
      exact searchBetween_infix _ _ _ _ hs

/-- A file in the documented layout. -/
def settingLines (name : String) : List Text :=
  ["[NORDIF]\t\t", "[Microscope]\t\t", "Manufacturer\tHitachi\t", "Model\tSU-6600\t",
    "Magnification\t200\t#", "Scan direction\tDirect\t", "Accelerating voltage\t20\tkV",
    "Working distance\t24.7\tmm", "Tilt angle\t70\tdeg", "[Detector angles]\t\t", "Euler 1\t0\tdeg",
    "Euler 2\t0\tdeg", "Euler 3\t0\tdeg", "Azimuthal\t0\tdeg", "Elevation\t5\tdeg",
    "[Acquisition settings]\t\t", "Frame rate\t202\tfps", "Resolution\t60x40\tpx",
    "[Specimen]\t\t", "Name\t" ++ name ++ "\t", "[Area]\t\t", "Top\t89.200 (223)\tum (px)",
    "Left\t60.384 (152)\tum (px)", "Width\t4.500 (11)\tum (px)", "Height\t4.500 (11)\tum (px)",
    "Step size\t1.000\tum", "Number of samples\t3x12\t#", "[Calibration patterns]\t\t",
    "Calibration (425,447)\t425,447\tpx", "\t\t", "Calibration (294,532)\t294,532\tpx"].map
      String.toList

/-- Number of digits, as a simple conversion; not possible for the empty text. -/
def digitCount (t : Text) : Option ℤ := if t = [] then none else some t.length

/-- The user's text in one row can hide a section: with a specimen name that has the title of the
microscope section, the same settings are refused. -/
theorem C82_titles_violated :
    (nordifSettings digitCount digitCount "[Acquisition settings]" (settingLines "Ni") matches
      .ok _) ∧
    nordifSettings digitCount digitCount "[Acquisition settings]"
      (settingLines "Ni [Microscope] test") matches .error .valueError := by
  constructor
  · decide +kernel
  · decide +kernel

/-! ### Calibration patterns -/

/-- A line behind the title of the calibration patterns: coordinates, or something else. -/
inductive CalibrationRow
  | pattern (x y rest : Text)
  | other (t : Text)

/-- The line. -/
def CalibrationRow.text : CalibrationRow → Text
  | .pattern x y rest => "Calibration (".toList ++ (x ++ ',' :: y) ++ ')' :: rest
  | .other t => t

/-- Rows with two numbers that are written as Python writes them, and no bracket behind them. -/
def CalibrationRow.Valid (int : Text → Option ℤ) (str : ℤ → Text) : CalibrationRow → Prop
  | .pattern x y rest => ',' ∉ x ∧ ',' ∉ y ∧ ')' ∉ rest ∧ (∃ a, int x = some a ∧ str a = x) ∧
      ∃ b, int y = some b ∧ str b = y
  | .other t => ¬ "Calibration (".toList <:+: t

/-- Name of the pattern's file. -/
def CalibrationRow.file : CalibrationRow → Option Text
  | .pattern x y _ => some ("Calibration (".toList ++ x ++ [','] ++ y ++ ").bmp".toList)
  | .other _ => none

theorem searchBetween_none (c d t : Text) (h : ¬ c <:+: t) : searchBetween c d t = none := by
  cases hs : searchBetween c d t with
  | none => rfl
  | some u =>
    have := searchBetween_infix _ _ _ _ hs
    rw [List.append_assoc] at this
    exact absurd ((List.prefix_append _ _).isInfix.trans this) h

theorem searchBetween_bracket (c x rest : Text) (hc : c ≠ []) (h : ')' ∉ rest) :
    searchBetween c [')'] (c ++ (x ++ ')' :: rest)) = some x :=
  searchBetween_key _ _ _ x (beforeLast_value [] x rest ')' (List.nil_prefix) h) hc

theorem calibrationCoordinates_none (int : Text → Option ℤ) (t : Text)
    (h : ¬ "Calibration (".toList <:+: t) : calibrationCoordinates int t = .ok none := by
  rw [calibrationCoordinates]
  generalize "Calibration (".toList = c at *
  generalize ")".toList = d at *
  rw [searchBetween_none c d t h]

theorem searchBetween_bracket' (c d x rest : Text) (hc : c ≠ []) (hd : d = [')']) (h : ')' ∉ rest) :
    searchBetween c d (c ++ x ++ ')' :: rest) = some x := by
  rw [hd, List.append_assoc, searchBetween_bracket c x rest hc h]

theorem calibrationCoordinates_some (int : Text → Option ℤ) (line x y : Text) (a b : ℤ)
    (h : searchBetween "Calibration (".toList ")".toList line = some (x ++ ',' :: y)) (hx : ',' ∉ x)
    (hy : ',' ∉ y) (ha : int x = some a) (hb : int y = some b) :
    calibrationCoordinates int line = .ok (some (b, a)) := by
  rw [calibrationCoordinates, h]
  simp only
  rw [splitOnComma_two x y hx hy]
  simp [convertText, ha, hb, bind, Except.bind, pure, Except.pure]

theorem calibrationCoordinates_row (int : Text → Option ℤ) (str : ℤ → Text) (r : CalibrationRow)
    (h : r.Valid int str) :
    ∃ o, calibrationCoordinates int r.text = .ok o ∧
      o.map (fun p => "Calibration (".toList ++ str p.2 ++ [','] ++ str p.1 ++ ").bmp".toList) =
        r.file := by
  cases r with
  | other t =>
    refine ⟨none, calibrationCoordinates_none int t h, ?_⟩
    rw [CalibrationRow.file, Option.map_none]
  | pattern x y rest =>
    simp only [CalibrationRow.Valid] at h
    obtain ⟨hx, hy, hr, ⟨a, ha, ha'⟩, b, hb, hb'⟩ := h
    refine ⟨some (b, a), ?_, ?_⟩
    · exact calibrationCoordinates_some int _ x y a b (searchBetween_bracket' _ _ _ _ (by decide)
        (by decide) hr) hx hy ha hb
    · simp only [Option.map_some, CalibrationRow.file, ha', hb']

/-- The calibration patterns read are those of the files named in the rows, in that order. -/
theorem C82_calibration_patterns (int : Text → Option ℤ) (str : ℤ → Text) (pre : List Text)
    (title : Text) (rows : List CalibrationRow) (ht : "[Calibration patterns]".toList <:+: title)
    (hrows : ∀ r ∈ rows, r.Valid int str ∧ ¬ "[Calibration patterns]".toList <:+: r.text)
    (hne : ∃ r ∈ rows, r.file ≠ none) :
    ∃ rc, calibrationIndices int (pre ++ title :: rows.map CalibrationRow.text) = .ok rc ∧
      calibrationFiles str rc = rows.filterMap CalibrationRow.file := by
  have hblock := blockLine_eq "[Calibration patterns]".toList pre (rows.map CalibrationRow.text)
    title ht (by
      intro x hx
      rw [List.mem_map] at hx
      obtain ⟨r, hr, rfl⟩ := hx
      exact (hrows r hr).2)
  have hdrop : (pre ++ title :: rows.map CalibrationRow.text).drop ((pre.length : ℤ) + 1).toNat =
      rows.map CalibrationRow.text := by
    have e : ((pre.length : ℤ) + 1).toNat = pre.length + 1 := by omega
    rw [e, ← List.drop_drop, List.drop_left]
    rfl
  have hmap : ∃ l, (rows.map CalibrationRow.text).mapM (calibrationCoordinates int) = .ok l ∧
      (l.filterMap id).map (fun p => "Calibration (".toList ++ str p.2 ++ [','] ++ str p.1 ++
        ").bmp".toList) = rows.filterMap CalibrationRow.file := by
    clear hne hdrop hblock
    induction rows with
    | nil => exact ⟨[], rfl, rfl⟩
    | cons r rows ih =>
      obtain ⟨l, hl, hf⟩ := ih fun x hx => hrows x (List.mem_cons_of_mem _ hx)
      obtain ⟨o, ho, hof⟩ := calibrationCoordinates_row int str r (hrows r List.mem_cons_self).1
      refine ⟨o :: l, ?_, ?_⟩
      · rw [List.map_cons, List.mapM_cons, ho, hl]; rfl
      · rw [List.filterMap_cons, List.filterMap_cons, ← hof]
        cases o with
        | none => simpa using hf
        | some p =>
          exact congrArg (List.cons _) hf
  obtain ⟨l, hl, hf⟩ := hmap
  refine ⟨l.filterMap id, ?_, hf⟩
  rw [calibrationIndices, hblock, if_neg (by omega), hdrop, hl]
  have hlen : ¬ (l.filterMap id).length = 0 := by
    intro h0
    have h1 := congrArg List.length hf
    rw [List.length_map, h0] at h1
    obtain ⟨r, hr, hrf⟩ := hne
    have : rows.filterMap CalibrationRow.file = [] := List.length_eq_zero_iff.mp h1.symm
    rw [List.filterMap_eq_nil_iff] at this
    exact hrf (this r hr)
  simp only [bind, Except.bind, pure, Except.pure]
  rw [if_neg hlen]

/-- Without the section or without a pattern, the file is refused. -/
theorem C82_no_calibration_patterns (int : Text → Option ℤ) (lines : List Text)
    (h : ∀ l ∈ lines, ¬ "Calibration (".toList <:+: l) :
    calibrationIndices int lines = .error .valueError := by
  rw [calibrationIndices]
  generalize "[Calibration patterns]".toList = title
  by_cases hb : blockLine title lines = -1
  · rw [if_pos hb]; rfl
  · rw [if_neg hb]
    have hmap : ∀ ls : List Text, (∀ l ∈ ls, ¬ "Calibration (".toList <:+: l) →
        ls.mapM (calibrationCoordinates int) = .ok (ls.map fun _ => none) := by
      intro ls
      induction ls with
      | nil => intro _; rfl
      | cons l ls ih =>
        intro hls
        have hc := calibrationCoordinates_none int l (hls l List.mem_cons_self)
        rw [List.mapM_cons, hc, ih fun x hx => hls x (List.mem_cons_of_mem _ hx)]
        rfl
    have hd := hmap (lines.drop (blockLine title lines + 1).toNat)
      fun l hl => h l (List.mem_of_mem_drop hl)
    have hnil : ∀ ls : List Text,
        (ls.map fun _ => (none : Option (ℤ × ℤ))).filterMap id = [] := by
      intro ls; induction ls with
      | nil => rfl
      | cons l ls ih => simp
    simp only [bind, Except.bind, pure, Except.pure]
    rw [hd]
    simp only
    rw [hnil]
    rfl

/-- A resolution row of the overview image that does not hold two numbers makes the whole file
unreadable, if the region of interest is given: the look-up of the shape raises. -/
theorem C82_area_violated (numbers : List ℤ) (h : numbers.length ≠ 2) :
    areaLookup (some numbers) true = .error .keyError := by
  rw [areaLookup, if_pos rfl, areaShape]
  · intro a b e
    rw [e] at h
    exact h rfl

/-- The shape of the area is the number of rows and columns of the overview image, whose resolution
is given as width and height. -/
theorem C82_area_shape (width height : ℤ) (shape : ℤ × ℤ)
    (h : areaShape (some [width, height]) = some (some shape)) :
    shape.1 = height ∧ shape.2 = width := by
  simp only [areaShape, Option.some.injEq] at h
  subst h
  exact ⟨rfl, rfl⟩

/-- Scaled indices are positions in map steps: pixels times the size of a pixel, divided by the step
size. -/
theorem C82_scaled {K : Type} [Field K] (step width widthScaled x : K) :
    scaleIndex step width widthScaled x = x * (widthScaled / width) / step := by
  rw [scaleIndex]
  by_cases h1 : step = 0
  · simp [h1]
  by_cases h2 : width = 0
  · simp [h2]
  by_cases h3 : widthScaled = 0
  · simp [h3]
  field_simp

/-! ### Examples -/

/-- The layout is met by the file above. -/
example : (nordifSettings digitCount digitCount "[Acquisition settings]" (settingLines "Ni")) matches
    .ok ⟨2, 3, _, 4, 1, 2, 2, 2, 5, 2, -1, 1⟩ := by decide +kernel

theorem section_of_index (lines : List Text) (title : String) (i : ℕ) (hi : i < lines.length)
    (h : hasInfix title.toList lines[i] = true)
    (h' : (lines.drop (i + 1)).all (fun l => !hasInfix title.toList l) = true) :
    SectionAt lines title i := by
  refine ⟨lines.take i, lines[i], lines.drop (i + 1), ?_, ?_, (hasInfix_iff _ _).mp h, ?_⟩
  · rw [List.cons_getElem_drop_succ, List.take_append_drop]
  · rw [List.length_take]; omega
  · intro x hx hc
    rw [List.all_eq_true] at h'
    have := h' x hx
    rw [(hasInfix_iff _ _).mpr hc] at this
    simp at this

example : Nonempty (Layout digitCount digitCount "[Acquisition settings]" (settingLines "Ni")) :=
  ⟨{  mic := 1, ang := 9, acq := 15, area := 20
      micAt := section_of_index _ _ 1 (by decide) (by decide +kernel) (by decide +kernel)
      angAt := section_of_index _ _ 9 (by decide) (by decide +kernel) (by decide +kernel)
      acqAt := section_of_index _ _ 15 (by decide) (by decide +kernel) (by decide +kernel)
      areaAt := section_of_index _ _ 20 (by decide) (by decide +kernel) (by decide +kernel)
      manufacturer := "Hitachi".toList
      manufacturerRow := ⟨[], by decide +kernel, by decide⟩
      model := "SU-6600".toList
      modelRow := ⟨[], by decide +kernel, by decide⟩
      magnification := "200".toList
      magnificationRow := ⟨[], by decide +kernel, by decide⟩
      magnificationValue := 3
      magnificationInt := by decide +kernel
      voltage := "20".toList
      voltageRow := ⟨[], by decide +kernel, by decide⟩
      voltageValue := 2
      voltageFloat := by decide +kernel
      distance := "24.7".toList
      distanceRow := ⟨[], by decide +kernel, by decide⟩
      distanceValue := 4
      distanceFloat := by decide +kernel
      tilt := "70".toList
      tiltRow := ⟨"deg".toList, by decide +kernel, by decide⟩
      tiltValue := 2
      tiltFloat := by decide +kernel
      azimuthal := "0".toList
      azimuthalRow := ⟨"deg".toList, by decide +kernel, by decide⟩
      azimuthalValue := 1
      azimuthalFloat := by decide +kernel
      elevation := "5".toList
      elevationRow := ⟨"deg".toList, by decide +kernel, by decide⟩
      elevationValue := 1
      elevationFloat := by decide +kernel
      resolution := "60x40".toList
      resolutionRow := ⟨[], by decide +kernel, by decide⟩
      width := 2
      height := 2
      resolutionPair := ⟨"60".toList, "40".toList, by decide, by decide, by decide, by decide +kernel,
        by decide +kernel⟩
      step := "1.000".toList
      stepRow := ⟨"um".toList, by decide +kernel, by decide⟩
      stepValue := 5
      stepFloat := by decide +kernel
      samples := "3x12".toList
      samplesRow := ⟨[], by decide +kernel, by decide⟩
      rows := 1
      columns := 2
      samplesPair := ⟨"3".toList, "12".toList, by decide, by decide, by decide, by decide +kernel,
        by decide +kernel⟩ }⟩

/-- Numbers of the patterns in the example. -/
def exampleInt (t : Text) : Option ℤ :=
  if t = ['4', '2', '5'] then some 425 else if t = ['4', '4', '7'] then some 447 else
    if t = ['7', '3'] then some 73 else none

/-- Text of these. -/
def exampleStr (n : ℤ) : Text :=
  if n = 425 then ['4', '2', '5'] else if n = 447 then ['4', '4', '7'] else
    if n = 73 then ['7', '3'] else []

/-- The hypotheses on the rows of calibration patterns are met by two patterns with a line between
them. -/
example : ∀ r ∈ [CalibrationRow.pattern ['4', '2', '5'] ['4', '4', '7'] "\t425,447\tpx".toList,
      .other "\t\t".toList, .pattern ['7', '3'] ['4', '2', '5'] "\t73,425\tpx".toList],
    r.Valid exampleInt exampleStr ∧ ¬ "[Calibration patterns]".toList <:+: r.text := by
  intro r hr
  simp only [List.mem_cons, List.not_mem_nil, or_false] at hr
  rcases hr with rfl | rfl | rfl
  · refine ⟨⟨by decide, by decide, by decide, ⟨425, by decide, by decide⟩, 447, by decide,
      by decide⟩, by decide +kernel⟩
  · exact ⟨by change ¬ "Calibration (".toList <:+: "\t\t".toList; decide +kernel, by decide +kernel⟩
  · refine ⟨⟨by decide, by decide, by decide, ⟨73, by decide, by decide⟩, 425, by decide,
      by decide⟩, by decide +kernel⟩

end Kp
