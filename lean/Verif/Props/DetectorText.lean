/-
C152: detector files whose writing stopped.
-/
import Verif.Lemmas.DetectorText
import Verif.Props.DetectorFile

namespace Kp

open Spec

set_option linter.unusedSectionVars false

variable {K : Type} [Field K] [LinearOrder K] [IsStrictOrderedRing K] [FloorRing K]

theorem break_not_digit (n : ℕ) : '\n' ∉ Nat.toDigits 10 n := by
  intro h
  have := Nat.isDigit_of_mem_toDigits (b := 10) (by omega) (by omega) h
  revert this
  decide

theorem tupleText_no_break : ∀ l : List ℕ, '\n' ∉ tupleText l
  | [] => by simp [tupleText]
  | [a] => by simp [tupleText, break_not_digit]
  | a :: b :: l => by simp [tupleText, break_not_digit]

theorem headerLike_written (ft : FloatText K) (d : Detector K) (convention : String)
    (version time : List Char) (h : NoBreaks ft convention version time) :
    HeaderLike (detHeader ft d convention version time) := by
  intro l hl
  unfold detHeader at hl
  simp only [List.mem_cons, List.not_mem_nil, or_false] at hl
  have hdeg : '\n' ∉ degText := by decide
  rcases hl with rfl | rfl | rfl | rfl | rfl | rfl | rfl | rfl | rfl | rfl | rfl | rfl | rfl | rfl | rfl <;>
    refine ⟨rfl, ?_⟩ <;>
    simp [keyLine, kShape, kPxSize, kBinning, kTilt, kAzimuthal, kTwist, kSampleTilt, kConvention,
      kNavShape, hdeg, h.number, h.convention, h.version, h.time, tupleText_no_break]

theorem pcNumbers_length (pcs : List (PC K)) : (pcNumbers pcs).length = 3 * pcs.length := by
  induction pcs with
  | nil => rfl
  | cons p l ih =>
    rw [pcNumbers, List.flatMap_cons, List.length_append, ← pcNumbers, ih]
    simp; omega

theorem pcTriples_pcNumbers (pcs : List (PC K)) : pcTriples (pcNumbers pcs) = pcs := by
  induction pcs with
  | nil => rfl
  | cons p l ih =>
    rw [pcNumbers, List.flatMap_cons, ← pcNumbers]
    simp [pcTriples, ih]

theorem getPcInConvention_length {d : Detector K} {convention : String} {pcs : List (PC K)}
    (h : d.getPcInConvention convention = .ok pcs) : pcs.length = d.pc.length := by
  unfold Detector.getPcInConvention at h
  split at h <;> cases h <;> simp

/-- C152: the whole text is loaded as the file of lines and numbers of C58, so what is proved of files
there holds of their texts: the same parameters, and the PCs rounded to the written decimals. -/
theorem C152_complete (ft : FloatText K) (d : Detector K) (hd : d.NonDegenerate)
    (hnav : d.nav ≠ []) (hlen : d.nav.prod = d.pc.length) (hpc : d.pc ≠ [])
    (convention : String) (pcs : List (PC K))
    (hconv : d.getPcInConvention convention = .ok pcs) (dec : ℕ) (version time : List Char)
    (hb : NoBreaks ft convention version time) :
    ∃ text l d', detectorText ft d convention dec version time = .ok text ∧
      loadDetectorText ft text = .ok l ∧ l.columns = 3 ∧ l.detector = .ok d' ∧
      { d' with pc := d.pc } = d ∧ d'.getPcInConvention convention = .ok (pcs.map (fixedRow dec)) := by
  obtain ⟨f, d', h1, h2, h3, h4⟩ := round_trip_rows ft d hd hnav hlen hpc convention pcs hconv dec version time
  have hl := getPcInConvention_length hconv
  have hh := headerLike_written ft d convention version time hb
  have ht := loadTxt_rows hh dec pcs (p := []) (by simp) rfl
  have hhd := headerLines_file hh dec pcs (p := []) (by simp)
  rw [List.append_nil] at ht hhd
  have hload := loadDetectorText_header ft d convention version time ht hhd
  have hne : pcs ≠ [] := by
    intro h; rw [h] at hl; exact hpc (List.length_eq_zero_iff.1 hl.symm)
  have hres : reshapePc (pcRows dec pcs) (parseTuple (tupleText d.nav)) = .ok (d.nav, 3) := by
    match hn : d.nav, hnav with
    | [a], _ =>
      rw [parseTuple_single]
      rw [hn] at hlen
      have ha : a = pcs.length := by simpa [hl] using hlen
      obtain ⟨q, pcs', rfl⟩ := List.exists_cons_of_ne_nil hne
      simp [reshapePc, pcRows, ha]
    | a :: b :: r, _ =>
      rw [parseTuple_many]
      rw [hn] at hlen
      refine if_pos ?_
      rw [pcRows_flatten, pcNumbers_length, List.length_map, hl, hlen, mul_comm]
  rw [hres] at hload
  refine ⟨_, _, d', ?_, hload, rfl, ?_, h3, h4⟩
  · unfold detectorText; rw [hconv]
  · unfold writeDetector at h1
    rw [hconv] at h1
    cases h1
    obtain ⟨e1, e2, e3, e4, e5, e6, e7, e8, e9⟩ := headerValue_written ft d convention version time
    have p := fun x => parse_rstrip ft x
    have q1 : d.pc.length ≠ 0 := by simpa using hpc
    have r1 := readNav_written hnav hlen q1
    have r2 := parseTuple_many d.nrows d.ncols []
    unfold loadDetector headerShape headerFloat at h2
    simp only [e1, e2, e3, e4, e5, e6, e7, e8, e9, (p _).1, (p _).2, List.length_map, hl, bind, Except.bind,
      r1, r2, String.ofList_toList] at h2
    unfold LoadedText.detector
    rw [pcRows_flatten, pcTriples_pcNumbers]
    exact h2

/-- C152, partial: a file of a detector with a map of PCs of two or more axes, whose writing stopped
after any number of characters, is either not loaded, or loaded without any PC number (the writing
stopped in the header), or has all parameters, the navigation shape and all numbers but the last as
the whole file, and the writing stopped in or after the last number. Missing: that the last number is
right too (`C152_last_number_violated`), and maps of PCs of one axis (`C152_rows_lost_violated`). -/
theorem C152_stopped_partial (ft : FloatText K) (d : Detector K) (a b : ℕ) (r : List ℕ)
    (hnav : d.nav = a :: b :: r) (hlen : d.nav.prod = d.pc.length)
    (convention : String) (pcs : List (PC K)) (last : PC K)
    (hconv : d.getPcInConvention convention = .ok (pcs ++ [last])) (dec : ℕ) (version time : List Char)
    (hb : NoBreaks ft convention version time) (text : List Char)
    (ht : detectorText ft d convention dec version time = .ok text) (k : ℕ) (l : LoadedText K)
    (hl : loadDetectorText ft (text.take k) = .ok l) :
    (k ≤ (joinLines (detHeader ft d convention version time)).length ∧ l.numbers = []) ∨
      (HasParameters l d convention ∧ l.nav = d.nav ∧ l.columns = 3 ∧
        (beforeLastNumber dec (detHeader ft d convention version time) pcs last).length < k ∧
        ∃ z, l.numbers = (pcNumbers ((pcs ++ [last]).map (fixedRow dec))).dropLast ++ [z]) := by
  have hh := headerLike_written ft d convention version time hb
  have hn := getPcInConvention_length hconv
  rw [← hlen] at hn
  unfold detectorText at ht
  rw [hconv] at ht
  cases ht
  set H := detHeader ft d convention version time with hH
  by_cases hk : k ≤ (joinLines H).length
  · left
    refine ⟨hk, loadDetectorText_empty ft (loadTxt_header hh ?_) hl⟩
    rw [joinLines_append, List.take_append_of_le_length hk]
    exact List.take_prefix _ _
  · right
    have hk' : (joinLines H).length ≤ k := by omega
    obtain ⟨m, hm⟩ := Nat.exists_eq_add_of_le hk'
    obtain ⟨A, B, p, hAB, hp1, hp2⟩ := prefix_joinLines
      (List.take_prefix m (joinLines ((pcs ++ [last]).map (rowText dec))))
    obtain ⟨pa, pb, hpab, rfl, rfl⟩ := List.map_eq_append_iff.1 hAB
    have htake : (joinLines (H ++ (pcs ++ [last]).map (rowText dec))).take k =
        joinLines (H ++ pa.map (rowText dec)) ++ p := by
      rw [joinLines_append, hm, List.take_length_add_append, hp1, joinLines_append, List.append_assoc]
    have hlk : (joinLines (H ++ pa.map (rowText dec)) ++ p).length ≤ k := by
      rw [← htake]; exact List.length_take_le _ _
    rw [htake] at hl
    have hpc : ∀ c ∈ p, c ≠ '\n' ∧ c ≠ '#' := by
      rcases hp2 with rfl | ⟨l', b', h1, h2⟩
      · simp
      · obtain ⟨q, pb', rfl, rfl, -⟩ := List.map_eq_cons_iff.1 h1
        intro c hc
        exact rowText_chars dec q c (h2.subset hc)
    have hhd := headerLines_file hh dec pa hpc
    have hpar := parseTuple_many a b r
    rw [← hnav] at hpar
    have key : ∀ rows : List (List K), loadTxt (joinLines (H ++ pa.map (rowText dec)) ++ p) = .ok rows →
        d.nav.prod * 3 = rows.flatten.length ∧ HasParameters l d convention ∧ l.nav = d.nav ∧
          l.columns = 3 ∧ l.numbers = rows.flatten := by
      intro rows hrows
      have h := loadDetectorText_header ft d convention version time hrows hhd
      rw [hl, hpar, reshapePc] at h
      by_cases hc : d.nav.prod * 3 = rows.flatten.length
      · rw [if_pos hc] at h
        cases h
        exact ⟨hc, ⟨rfl, rfl, rfl, rfl, rfl, rfl, rfl, rfl, rfl⟩, rfl, rfl, rfl⟩
      · rw [if_neg hc] at h
        cases h
    have hlab : pa.length + pb.length = d.nav.prod := by
      rw [← hn, hpab, List.length_append]
    have hpos : d.nav.prod = pcs.length + 1 := by rw [← hn]; simp
    have hdl : (pcNumbers ((pcs ++ [last]).map (fixedRow dec))).dropLast =
        pcNumbers (pcs.map (fixedRow dec)) ++ [fixedPoint dec last.x, fixedPoint dec last.y] := by
      unfold pcNumbers
      rw [List.map_append, List.flatMap_append, List.dropLast_append_of_ne_nil (by simp)]
      simp [fixedRow]
    by_cases hc : (splitSpace p).filter (· ≠ []) = []
    · obtain ⟨h1, h2, h3, h4, h5⟩ := key _ (loadTxt_rows hh dec pa hpc hc)
      rw [pcRows_flatten, pcNumbers_length, List.length_map] at h1
      have hpb : pb = [] := List.length_eq_zero_iff.1 (by omega)
      subst hpb
      rw [List.append_nil] at hpab
      subst hpab
      refine ⟨h2, h3, h4, lt_of_lt_of_le ?_ hlk, fixedPoint dec last.z, ?_⟩
      · unfold beforeLastNumber
        rw [List.map_append, ← List.append_assoc H, joinLines_append (H ++ _)]
        simp [joinLines_cons, joinLines_nil, rowText]
      · rw [h5, pcRows_flatten, hdl]
        simp [pcNumbers, fixedRow]
    · rcases loadTxt_more hh dec pa hpc hc with ⟨e, he⟩ | ⟨w, hw, hlo⟩
      · rw [loadDetectorText_error ft he] at hl
        cases hl
      · obtain ⟨h1, h2, h3, h4, h5⟩ := key _ hlo
        rw [List.flatten_append, List.length_append, pcRows_flatten, pcNumbers_length, List.length_map] at h1
        simp only [List.flatten_cons, List.flatten_nil, List.append_nil] at h1
        have hwl := mapM_length hw
        have hpn : p ≠ [] := by rintro rfl; exact hc rfl
        rcases hp2 with hp2 | ⟨l', b', hq, hpre⟩
        · exact absurd hp2 hpn
        obtain ⟨q, pb', rfl, rfl, -⟩ := List.map_eq_cons_iff.1 hq
        simp only [List.length_cons] at hlab
        have hs : ∀ x : K, ' ' ∉ fixedText dec x := fun x h => (fixedText_chars dec x _ h).1 rfl
        rcases columns_prefix (hs _) (hs _) (hs _) (fixedText_ne_nil dec _) (fixedText_ne_nil dec _) hpre with
          hle | ⟨s, hsn, hsz, hps, hcol⟩
        · exfalso
          have : 0 < ((splitSpace p).filter (· ≠ [])).length := List.length_pos_iff.2 hc
          omega
        · rw [hcol] at hw hwl
          simp only [List.length_cons, List.length_nil] at hwl
          have hpb : pb' = [] := List.length_eq_zero_iff.1 (by omega)
          subst hpb
          obtain ⟨rfl, hq2⟩ := List.append_inj' hpab.symm rfl
          cases hq2
          rw [List.mapM_cons, List.mapM_cons, List.mapM_cons, parseDecimal_fixedText, parseDecimal_fixedText] at hw
          cases hz : parseDecimal (K := K) s with
          | none => rw [hz] at hw; cases hw
          | some z =>
            rw [hz] at hw
            cases hw
            refine ⟨h2, h3, h4, lt_of_lt_of_le ?_ hlk, z, ?_⟩
            · have : 0 < s.length := List.length_pos_iff.2 hsn
              unfold beforeLastNumber
              rw [hps]
              simp
              omega
            · rw [h5, List.flatten_append, pcRows_flatten, hdl]
              simp

/-- C152: a file of a detector with a map of PCs of one axis, whose writing stopped after some but not
all rows, is loaded without complaint with fewer PCs. -/
theorem C152_rows_lost_violated (ft : FloatText K) (d : Detector K) (n : ℕ) (hnav : d.nav = [n])
    (convention : String) (pcs : List (PC K)) (hconv : d.getPcInConvention convention = .ok pcs) (dec : ℕ)
    (version time : List Char) (hb : NoBreaks ft convention version time) (text : List Char)
    (ht : detectorText ft d convention dec version time = .ok text) (j : ℕ) (hj : 1 ≤ j) (hjn : j < pcs.length) :
    ∃ k l, k < text.length ∧ loadDetectorText ft (text.take k) = .ok l ∧ HasParameters l d convention ∧
      l.nav = [j] ∧ l.columns = 3 ∧ l.numbers = pcNumbers ((pcs.take j).map (fixedRow dec)) := by
  have hh := headerLike_written ft d convention version time hb
  unfold detectorText at ht
  rw [hconv] at ht
  cases ht
  set H := detHeader ft d convention version time with hH
  have hsplit : joinLines (H ++ pcs.map (rowText dec)) =
      joinLines (H ++ (pcs.take j).map (rowText dec)) ++ joinLines ((pcs.drop j).map (rowText dec)) := by
    rw [← joinLines_append, List.append_assoc, ← List.map_append, List.take_append_drop]
  have hload := loadTxt_rows hh dec (pcs.take j) (p := []) (by simp) rfl
  have hhd := headerLines_file hh dec (pcs.take j) (p := []) (by simp)
  rw [List.append_nil] at hload hhd
  have hl := loadDetectorText_header ft d convention version time hload hhd
  rw [hnav, parseTuple_single] at hl
  have hlen : (pcs.take j).length = j := by rw [List.length_take]; omega
  have hne : pcRows dec (pcs.take j) ≠ [] := by
    intro h
    have := congrArg List.length h
    simp only [pcRows, List.length_map, hlen, List.length_nil] at this
    omega
  have hhead : ((pcRows dec (pcs.take j)).headD []).length = 3 := by
    cases hp : pcs.take j with
    | nil => rw [hp] at hlen; simp at hlen; omega
    | cons q r => rfl
  have hrl : (pcRows dec (pcs.take j)).length = j := by rw [pcRows, List.length_map, hlen]
  simp only [reshapePc, if_neg hne, hhead, hrl] at hl
  refine ⟨(joinLines (H ++ (pcs.take j).map (rowText dec))).length,
    ⟨d.nrows, d.ncols, d.pxSize, d.binning, d.tilt, d.azimuthal, d.twist, d.sampleTilt, convention, [j], 3,
      (pcRows dec (pcs.take j)).flatten⟩, ?_, ?_,
    ⟨rfl, rfl, rfl, rfl, rfl, rfl, rfl, rfl, rfl⟩, rfl, rfl, pcRows_flatten dec _⟩
  · rw [hsplit, List.length_append]
    have : 0 < (joinLines ((pcs.drop j).map (rowText dec))).length := by
      cases hp : pcs.drop j with
      | nil =>
        have := congrArg List.length hp
        simp only [List.length_drop, List.length_nil] at this
        omega
      | cons q r => simp [joinLines_cons]
    omega
  · rw [hsplit, List.take_left]
    exact hl

/-- C152: a file whose writing stopped within the last number is loaded without complaint with the
number written until then, if that is a number. -/
theorem C152_last_number (ft : FloatText K) (d : Detector K) (a b : ℕ) (r : List ℕ)
    (hnav : d.nav = a :: b :: r) (hlen : d.nav.prod = d.pc.length)
    (convention : String) (pcs : List (PC K)) (last : PC K)
    (hconv : d.getPcInConvention convention = .ok (pcs ++ [last])) (dec : ℕ) (version time : List Char)
    (hb : NoBreaks ft convention version time) (text : List Char)
    (ht : detectorText ft d convention dec version time = .ok text) (s : List Char)
    (hs : s <+: fixedText dec last.z) (z : K) (hz : parseDecimal s = some z) (hsn : s ≠ []) :
    ∃ k l, k < text.length ∧ loadDetectorText ft (text.take k) = .ok l ∧ HasParameters l d convention ∧
      l.nav = d.nav ∧ l.columns = 3 ∧
      l.numbers = (pcNumbers ((pcs ++ [last]).map (fixedRow dec))).dropLast ++ [z] := by
  have hh := headerLike_written ft d convention version time hb
  have hn := getPcInConvention_length hconv
  rw [← hlen] at hn
  unfold detectorText at ht
  rw [hconv] at ht
  cases ht
  set H := detHeader ft d convention version time with hH
  obtain ⟨u, hu⟩ := hs
  set p := fixedText dec last.x ++ ' ' :: (fixedText dec last.y ++ ' ' :: s) with hp
  have hrow : rowText dec last = p ++ u := by
    unfold rowText
    rw [← hu, hp]
    simp
  have hsplit : joinLines (H ++ (pcs ++ [last]).map (rowText dec)) =
      (joinLines (H ++ pcs.map (rowText dec)) ++ p) ++ (u ++ ['\n']) := by
    rw [List.map_append, ← List.append_assoc H, joinLines_append (H ++ _)]
    simp [joinLines_cons, joinLines_nil, hrow]
  have hpc : ∀ c ∈ p, c ≠ '\n' ∧ c ≠ '#' := fun c hc =>
    rowText_chars dec last c (by rw [hrow]; simp [hc])
  have hsp : ∀ x : K, ' ' ∉ fixedText dec x := fun x h => (fixedText_chars dec x _ h).1 rfl
  have hss : ' ' ∉ s := fun h => hsp last.z (by rw [← hu]; simp [h])
  have hcol : (splitSpace p).filter (· ≠ []) = [fixedText dec last.x, fixedText dec last.y, s] := by
    rw [hp, splitSpace_append (hsp _), splitSpace_append (hsp _), splitSpace_single hss]
    simp [fixedText_ne_nil, hsn]
  have hw : ((splitSpace p).filter (· ≠ [])).mapM (parseDecimal (K := K)) =
      some [fixedPoint dec last.x, fixedPoint dec last.y, z] := by
    rw [hcol]
    simp only [List.mapM_cons, List.mapM_nil, parseDecimal_fixedText, hz]
    rfl
  have hload := loadTxt_three hh dec pcs hpc (by rw [hcol]; simp) hw rfl
  have hhd := headerLines_file hh dec pcs hpc
  have hl := loadDetectorText_header ft d convention version time hload hhd
  have hfl : (pcRows dec pcs ++ [[fixedPoint dec last.x, fixedPoint dec last.y, z]]).flatten =
      (pcNumbers ((pcs ++ [last]).map (fixedRow dec))).dropLast ++ [z] := by
    rw [List.flatten_append, pcRows_flatten]
    unfold pcNumbers
    rw [List.map_append, List.flatMap_append, List.dropLast_append_of_ne_nil (by simp)]
    simp [fixedRow]
  have hpar := parseTuple_many a b r
  rw [← hnav] at hpar
  have hprod : d.nav.prod * 3 =
      (pcRows dec pcs ++ [[fixedPoint dec last.x, fixedPoint dec last.y, z]]).flatten.length := by
    rw [List.flatten_append, List.length_append, pcRows_flatten, pcNumbers_length, ← hn]
    simp
    omega
  rw [hpar, reshapePc, if_pos hprod] at hl
  refine ⟨(joinLines (H ++ pcs.map (rowText dec)) ++ p).length,
    ⟨d.nrows, d.ncols, d.pxSize, d.binning, d.tilt, d.azimuthal, d.twist, d.sampleTilt, convention, d.nav, 3,
      (pcRows dec pcs ++ [[fixedPoint dec last.x, fixedPoint dec last.y, z]]).flatten⟩, ?_, ?_,
    ⟨rfl, rfl, rfl, rfl, rfl, rfl, rfl, rfl, rfl⟩, rfl, rfl, hfl⟩
  · rw [hsplit, List.length_append]
    simp
  · rw [hsplit, List.take_left]
    exact hl

/-- Non-vacuity: the detectors of `exFileDet` with maps of 1 x 2 PCs and of two PCs. -/
theorem exNoBreaks : NoBreaks exText "bruker" ['0'] ['1'] :=
  ⟨fun x => by simp [exText], by decide +kernel, by decide, by decide⟩

theorem exFileDet_pcs (nav : List ℕ) : (exFileDet nav).getPcInConvention "bruker" =
    .ok ([⟨1 / 3, 2 / 3, 1 / 2⟩] ++ [⟨1 / 2, 1 / 4, 5 / 8⟩]) := by
  have hb : getPcConventionOrRaise "bruker" = .ok .bruker := by decide +kernel
  unfold Detector.getPcInConvention
  rw [hb]
  rfl

theorem exFileDet_text (nav : List ℕ) :
    ∃ text, detectorText exText (exFileDet nav) "bruker" 7 ['0'] ['1'] = .ok text := by
  unfold detectorText
  rw [exFileDet_pcs]
  exact ⟨_, rfl⟩

/-- C152: the last number of a loaded file can be wrong: for a PC z of 0.625, with all of the file but
"250000" and the line break, 0.6 is loaded. -/
theorem C152_last_number_violated :
    ∃ text k, k < text.length ∧ ∃ l, detectorText exText (exFileDet [1, 2]) "bruker" 7 ['0'] ['1'] = .ok text ∧
      loadDetectorText exText (text.take k) = .ok l ∧ HasParameters l (exFileDet [1, 2]) "bruker" ∧
      l.nav = [1, 2] ∧
      l.numbers = [3333333 / 10000000, 6666667 / 10000000, 1 / 2, 1 / 2, 1 / 4, 3 / 5] := by
  obtain ⟨text, ht⟩ := exFileDet_text [1, 2]
  obtain ⟨k, l, h1, h2, h3, h4, -, h5⟩ := C152_last_number exText (exFileDet [1, 2]) 1 2 [] rfl rfl "bruker" _ _
    (exFileDet_pcs [1, 2]) 7 ['0'] ['1'] exNoBreaks text ht ['0', '.', '6']
    (by rw [← List.isPrefixOf_iff_prefix]; decide +kernel) (3 / 5) (by decide +kernel) (by decide)
  exact ⟨text, k, h1, l, ht, h2, h3, h4, h5.trans (by decide +kernel)⟩

/-- The text of a row. -/
example : rowText 7 (⟨1 / 3, -2 / 3, 5 / 8⟩ : PC ℚ) = "0.3333333 -0.6666667 0.6250000".toList := by
  decide +kernel

example : ∃ text l d', detectorText exText (exFileDet [1, 2]) "bruker" 7 ['0'] ['1'] = .ok text ∧
      loadDetectorText exText text = .ok l ∧ l.columns = 3 ∧ l.detector = .ok d' ∧
      { d' with pc := (exFileDet [1, 2]).pc } = exFileDet [1, 2] ∧
      d'.getPcInConvention "bruker" = .ok (([⟨1 / 3, 2 / 3, 1 / 2⟩, ⟨1 / 2, 1 / 4, 5 / 8⟩] : List (PC ℚ)).map (fixedRow 7)) :=
  C152_complete exText (exFileDet [1, 2]) (by simp [Detector.NonDegenerate, exFileDet]) (by simp [exFileDet])
    (by simp [exFileDet]) (by simp [exFileDet]) "bruker" _ (exFileDet_pcs [1, 2]) 7 ['0'] ['1'] exNoBreaks

/-- The hypotheses of `C152_stopped_partial` are met for some stopped files: the one above. -/
example : ∃ text k l, k < text.length ∧
    detectorText exText (exFileDet [1, 2]) "bruker" 7 ['0'] ['1'] = .ok text ∧
    loadDetectorText exText (text.take k) = .ok l ∧
    (beforeLastNumber 7 (detHeader exText (exFileDet [1, 2]) "bruker" ['0'] ['1'])
      [(⟨1 / 3, 2 / 3, 1 / 2⟩ : PC ℚ)] (⟨1 / 2, 1 / 4, 5 / 8⟩ : PC ℚ)).length < k := by
  obtain ⟨text, k, h1, l, h2, h3, -, -, h5⟩ := C152_last_number_violated
  refine ⟨text, k, l, h1, h2, h3, ?_⟩
  rcases C152_stopped_partial exText (exFileDet [1, 2]) 1 2 [] rfl rfl "bruker" _ _ (exFileDet_pcs [1, 2]) 7
    ['0'] ['1'] exNoBreaks text h2 k l h3 with h | h
  · rw [h5] at h; exact absurd h.2 (by simp)
  · exact h.2.2.2.1

example : ∃ text k l, k < text.length ∧
    detectorText exText (exFileDet [2]) "bruker" 7 ['0'] ['1'] = .ok text ∧
    loadDetectorText exText (text.take k) = .ok l ∧ l.nav = [1] ∧
    l.numbers = [3333333 / 10000000, 6666667 / 10000000, 1 / 2] := by
  obtain ⟨text, ht⟩ := exFileDet_text [2]
  obtain ⟨k, l, h1, h2, -, h4, -, h5⟩ := C152_rows_lost_violated exText (exFileDet [2]) 2 rfl "bruker" _
    (exFileDet_pcs [2]) 7 ['0'] ['1'] exNoBreaks text ht 1 le_rfl (by simp)
  exact ⟨text, k, l, h1, ht, h2, h4, h5.trans (by decide +kernel)⟩

end Kp
