import Verif.Spec.PartOfMap
import Verif.Model.SignalFftFilter
import Verif.Model.AdaptiveEqualization
import Verif.Model.NormalizeSignal
import Verif.Props.Neighbours
import Verif.Props.GainOffset
import Verif.Props.DynamicBackground

/-
C124: processing a part of the map gives that part of the processed map.
-/

set_option linter.unusedSectionVars false

namespace Kp

open Spec

/-! ### Operations on one pattern after another -/

theorem pick_mapM {P Q : Type} {f : P → Except Err Q} {ps : List P} {qs : List Q}
    (h : ps.mapM f = .ok qs) {idx : List ℕ} (hi : ∀ k ∈ idx, k < ps.length) :
    (pick idx ps).mapM f = .ok (pick idx qs) := by
  obtain ⟨hl, hg⟩ := mapM_ok_get h
  induction idx with
  | nil => rfl
  | cons k idx ih =>
    have hk := hi k (by simp)
    obtain ⟨b, hb, hf⟩ := hg k ps[k] (by simp [hk])
    have e1 : pick (k :: idx) ps = ps[k] :: pick idx ps := by simp [pick, hk]
    have e2 : pick (k :: idx) qs = b :: pick idx qs := by simp [pick, hb]
    rw [e1, e2, List.mapM_cons, hf, ih fun k hk => hi k (by simp [hk])]
    rfl

theorem mapM_fails {P Q : Type} {f : P → Except Err Q} {ps : List P} {e : Err}
    (h : ps.mapM f = .error e) : ∃ p ∈ ps, [p].mapM f = .error e := by
  induction ps with
  | nil => cases h
  | cons p ps ih =>
    rw [List.mapM_cons] at h
    cases hp : f p with
    | error e' =>
      rw [hp] at h
      cases h
      exact ⟨p, by simp, by rw [List.mapM_cons, hp]; rfl⟩
    | ok q =>
      rw [hp] at h
      cases hq : ps.mapM f with
      | error e' =>
        rw [hq] at h
        cases h
        obtain ⟨p', hp', h'⟩ := ih hq
        exact ⟨p', by simp [hp'], h'⟩
      | ok qs =>
        rw [hq] at h
        cases h

theorem byPattern_mapM {P Q : Type} (f : P → Except Err Q) :
    PatternByPattern (fun ps : List P => ps.mapM f) where
  part _ _ h := ⟨(mapM_ok_get h).1, fun _ hi => pick_mapM h hi⟩
  fails _ _ _ h := mapM_fails h

theorem byPattern_error {P Q : Type} (e : Err) :
    PatternByPattern (fun _ : List P => (.error e : Except Err (List Q))) where
  part _ _ h := by cases h
  fails ps e' hne h := by
    obtain ⟨p, hp⟩ := List.exists_mem_of_ne_nil ps hne
    exact ⟨p, hp, h⟩

theorem byPattern_map {P Q : Type} (f : P → Q) :
    PatternByPattern (fun ps : List P => (.ok (ps.map f) : Except Err (List Q))) := by
  have h : ∀ ps : List P, ps.mapM (fun p => (.ok (f p) : Except Err Q)) = .ok (ps.map f) := by
    intro ps
    induction ps with
    | nil => rfl
    | cons p ps ih => rw [List.mapM_cons, ih]; rfl
  have := byPattern_mapM (fun p => (.ok (f p) : Except Err Q))
  simp only [h] at this
  exact this

theorem Spec.PatternByPattern.congr {P Q : Type} {op op' : List P → Except Err (List Q)}
    (h : PatternByPattern op) (e : ∀ ps, op' ps = op ps) : PatternByPattern op' := by
  rwa [funext e]

/-! ### The operations of signals -/

section
variable {K : Type} [Field K] [LinearOrder K] [IsStrictOrderedRing K] [FloorRing K]

/-- C124, `rescale_intensity`, unless `relative`. -/
theorem C124_rescale (dtypeIn : DType) (inRange outRange : Option (K × K))
    (dtypeOut : Option DType) (percentiles : Option (K × K)) :
    PatternByPattern fun ps : List (List K) =>
      signalRescaleIntensity ps dtypeIn false inRange outRange dtypeOut percentiles := by
  unfold signalRescaleIntensity
  simp only [Bool.false_and, Bool.false_eq_true, if_false]
  split_ifs
  · exact byPattern_error _
  · split
    · exact byPattern_error _
    · exact byPattern_mapM _

/-- C124, `remove_static_background`, with the background given or of the signal. -/
theorem C124_static_background (dtype : DType) (shape : ℕ × ℕ) (operation : String)
    (staticBg attr : Option (Background K)) (scaleBg : Bool) :
    PatternByPattern fun ps : List (List K) =>
      signalRemoveStatic dtype shape ps operation staticBg attr scaleBg := by
  unfold signalRemoveStatic
  split
  · exact byPattern_error _
  · split
    · exact byPattern_error _
    · split_ifs
      · exact byPattern_error _
      · exact byPattern_error _
      · exact byPattern_map _

/-- C124, `adaptive_histogram_equalization`, whatever scikit-image does with one pattern. -/
theorem C124_equalization (e : Equalizer K) (s : GraySignal K) (kernel : KernelArg) (clipLimit : K)
    (nbins : ℕ) (inplace : Bool) (lazyOutput : Option Bool) :
    PatternByPattern fun ps : List (List K) =>
      (signalEqualize e { s with patterns := ps } kernel clipLimit nbins inplace lazyOutput).map
        GraySignal.patterns := by
  by_cases hl : lazyOutput = some true ∧ inplace
  · refine (byPattern_error .valueError).congr fun ps => ?_
    unfold signalEqualize
    rw [if_pos hl]
    rfl
  · cases hk : contextualRegion s.rows s.cols kernel with
    | error err =>
      refine (byPattern_error err).congr fun ps => ?_
      unfold signalEqualize
      rw [if_neg hl]
      dsimp only
      rw [hk]
      rfl
    | ok k =>
      refine (byPattern_mapM fun p =>
        adaptiveEqualization e s.dtype s.rows s.cols p k clipLimit nbins).congr fun ps => ?_
      unfold signalEqualize
      rw [if_neg hl]
      dsimp only
      rw [hk]
      dsimp only
      cases ps.mapM (fun p => adaptiveEqualization e s.dtype s.rows s.cols p k clipLimit nbins) <;>
        rfl

/-- C124, `downsample`. -/
theorem C124_downsample (s : DsSignal K) (factor : ℤ) (dtypeOut : Option DType) :
    PatternByPattern fun ps : List (Img K) =>
      (downsample { s with patterns := ps } factor dtypeOut).map DsSignal.patterns := by
  by_cases h1 : factor ≤ 1
  · refine (byPattern_error .valueError).congr fun ps => ?_
    unfold downsample
    rw [if_pos h1]
    rfl
  by_cases h2 : s.cols % factor.toNat = 0 ∧ s.rows % factor.toNat = 0
  · cases hd : dtypeRange (dtypeOut.getD s.dtype) with
    | none =>
      refine (byPattern_error .keyError).congr fun ps => ?_
      unfold downsample
      dsimp only
      rw [if_neg h1, if_neg (not_not.2 h2), hd]
      rfl
    | some r =>
      refine (byPattern_map fun p => downsample2d p factor.toNat (r.1 : K) r.2
        (dtypeOut.getD s.dtype)).congr fun ps => ?_
      unfold downsample
      dsimp only
      rw [if_neg h1, if_neg (not_not.2 h2), hd]
      rfl
  · refine (byPattern_error .valueError).congr fun ps => ?_
    unfold downsample
    dsimp only
    rw [if_neg h1, if_pos h2]
    rfl

end

theorem chunks_flatten {P Q : Type} {F : List P → Except Err (List Q)} {f : P → Except Err Q}
    (h : ∀ ps, F ps = ps.mapM f) (chunks : List (List P)) :
    (chunks.mapM F).map List.flatten = chunks.flatten.mapM f := by
  rw [funext h, flatten_mapM]

theorem chunkDynamicBackground_map (f : Img ℝ → Except Err (Img ℝ)) (out : DType)
    (g : Img ℝ → Img ℝ) (ps : List (Img ℝ)) :
    chunkDynamicBackground f out (ps.map g) = ps.mapM fun p => match f (g p) with
      | .error e => .error e
      | .ok bg => .ok (bg.mapVal (wrapTo out)) := by
  unfold chunkDynamicBackground
  induction ps with
  | nil => rfl
  | cons p ps ih => rw [List.map_cons, List.mapM_cons, List.mapM_cons, ih]; rfl

section
variable (nfl : ℕ → ℕ) (gaussian : GaussianFilter)

/-- C124, `normalize_intensity`. -/
theorem C124_normalize (dtypeIn : DType) (numStd : ℝ) (divide : Bool) (dtypeOut : Option DType) :
    PatternByPattern fun ps : List (List ℝ) =>
      .ok (signalNormalizeIntensity ps dtypeIn numStd divide dtypeOut) :=
  byPattern_map _

/-- C124, `remove_dynamic_background`, in both domains. -/
theorem C124_dynamic_background (d : DType) (rows cols : ℕ) (operation filterDomain : String)
    (std : Option ℝ) (trunc : ℝ) :
    PatternByPattern fun ps : List (Img ℝ) =>
      signalRemoveDynamicBackground nfl gaussian d rows cols ps operation filterDomain std trunc := by
  unfold signalRemoveDynamicBackground
  dsimp only
  split_ifs
  · exact byPattern_error _
  · split
    · exact byPattern_error _
    · exact byPattern_mapM _

/-- C124, `get_dynamic_background`: the backgrounds do not depend on the chunks, and are found
pattern by pattern. -/
theorem C124_get_dynamic_background (d : DType) (rows cols : ℕ) (filterDomain : String)
    (std : Option ℝ) (trunc : ℝ) (dtypeOut : Option DType) :
    ∃ op, PatternByPattern op ∧ ∀ chunks : List (List (Img ℝ)),
      (signalGetDynamicBackground nfl gaussian d rows cols chunks filterDomain std trunc
        dtypeOut).map List.flatten = op chunks.flatten := by
  unfold signalGetDynamicBackground
  dsimp only
  refine ⟨_, byPattern_mapM _, fun chunks =>
    chunks_flatten (fun ps => chunkDynamicBackground_map _ _ _ ps) chunks⟩

/-- C124, `fft_filter`: the filtered patterns do not depend on the chunks, and are found pattern by
pattern. -/
theorem C124_fft_filter (d : DType) (functionDomain : String) (shift : Bool) (transfer : Img ℝ)
    (inplace lazyOutput : Bool) :
    ∃ op, PatternByPattern op ∧ ∀ chunks : List (List (Img ℝ)), chunks ≠ [] →
      (signalFftFilter nfl d chunks functionDomain shift transfer inplace lazyOutput).map
        List.flatten = op chunks.flatten := by
  unfold signalFftFilter
  split_ifs
  · exact ⟨_, byPattern_error _, fun _ _ => rfl⟩
  · split
    · exact ⟨_, byPattern_error _, fun _ _ => rfl⟩
    · exact ⟨_, byPattern_mapM _, fun chunks _ => chunks_flatten (fun _ => rfl) chunks⟩

end

/-! ### Relative rescaling -/

section
variable {K : Type} [Field K] [LinearOrder K] [IsStrictOrderedRing K] [FloorRing K]

theorem mem_pick {P : Type} {idx : List ℕ} {ps : List P} {p : P} (h : p ∈ pick idx ps) : p ∈ ps := by
  obtain ⟨k, -, hk⟩ := List.mem_filterMap.1 h
  exact List.mem_of_getElem? hk

theorem pick_map {P Q : Type} (f : P → Q) (idx : List ℕ) (ps : List P) :
    pick idx (ps.map f) = (pick idx ps).map f := by
  unfold pick
  rw [List.map_filterMap]
  refine List.filterMap_congr fun k _ => ?_
  simp

theorem clip_mem {lo hi x : K} (h1 : lo ≤ x) (h2 : x ≤ hi) : clip lo hi x = x := by
  unfold clip
  rw [max_eq_left h1, min_eq_left h2]

/-- What relative rescaling to floats gives. -/
theorem relative_float (ps : List (List K)) (dtypeIn : DType) {outRange : Option (K × K)} {bits : ℕ}
    {r : K × K} (hr : outRange = some r ∨ outRange = none ∧ r = (-1, 1)) :
    signalRescaleIntensity ps dtypeIn true none outRange (some (.float bits)) none =
      .ok (ps.map fun p => p.map
        (rescalePixel (listMin ps.flatten) (listMax ps.flatten) r.1 r.2)) := by
  have key : ∀ qs : List (List K), (∀ q ∈ qs, q ∈ ps) → qs.mapM (fun p =>
      rescaleIntensity p dtypeIn (some (listMin ps.flatten, listMax ps.flatten)) (some r)
        (some (.float bits)) none) = .ok (qs.map fun p => p.map
          (rescalePixel (listMin ps.flatten) (listMax ps.flatten) r.1 r.2)) := by
    intro qs
    induction qs with
    | nil => intro _; rfl
    | cons p qs ih =>
      intro h
      rw [List.mapM_cons, ih fun q hq => h q (by simp [hq])]
      have hp : ∀ x ∈ p, x ∈ ps.flatten := fun x hx => List.mem_flatten.2 ⟨p, h p (by simp), hx⟩
      have : rescaleIntensity p dtypeIn (some (listMin ps.flatten, listMax ps.flatten)) (some r)
          (some (.float bits)) none =
          .ok (p.map (rescalePixel (listMin ps.flatten) (listMax ps.flatten) r.1 r.2)) := by
        unfold rescaleIntensity rescaleWithMinMax
        simp only [Option.getD_some, List.map_map, Except.ok.injEq]
        refine List.map_congr_left fun x hx => ?_
        simp only [Function.comp_apply, castTo]
        rw [clip_mem (listMin_le x (hp x hx)) (le_listMax x (hp x hx))]
      rw [this]
      rfl
  unfold signalRescaleIntensity
  rcases hr with rfl | ⟨rfl, rfl⟩
  · simpa using key ps fun _ h => h
  · simpa [dtypeRange] using key ps fun _ h => h

/-- C124 for relative rescaling to floats: the relative intensities in a part of the map are those of
the whole map, but not with the same gain and offset. Partial: only up to a gain and an offset common
to all patterns of the part, see `C124_relative_violated`. -/
theorem C124_relative_partial {ps : List (List K)} (dtypeIn : DType) {outRange : Option (K × K)}
    (bits : ℕ) (ho : ∀ r, outRange = some r → r.1 < r.2) {idx : List ℕ}
    (hv : Varied (pick idx ps).flatten) :
    ∃ qs qs' g o,
      signalRescaleIntensity ps dtypeIn true none outRange (some (.float bits)) none = .ok qs ∧
      signalRescaleIntensity (pick idx ps) dtypeIn true none outRange (some (.float bits)) none =
        .ok qs' ∧
      List.Forall₂ (Recorded g o) (pick idx qs) qs' := by
  obtain ⟨r, hr, hlt⟩ : ∃ r : K × K, (outRange = some r ∨ outRange = none ∧ r = (-1, 1)) ∧
      r.1 < r.2 := by
    cases outRange with
    | none => exact ⟨(-1, 1), .inr ⟨rfl, rfl⟩, by norm_num⟩
    | some r => exact ⟨r, .inl rfl, ho r rfl⟩
  obtain ⟨x, hx, y, hy, hxy⟩ := hv
  have hsub : ∀ z ∈ (pick idx ps).flatten, z ∈ ps.flatten := by
    intro z hz
    obtain ⟨p, hp, hz⟩ := List.mem_flatten.1 hz
    exact List.mem_flatten.2 ⟨p, mem_pick hp, hz⟩
  have h1 := listMin_lt_listMax hx hy hxy
  have h2 := listMin_lt_listMax (hsub x hx) (hsub y hy) hxy
  have hd := sub_pos.2 h1
  have hD := sub_pos.2 h2
  set m' := listMin (pick idx ps).flatten
  set M' := listMax (pick idx ps).flatten
  set m := listMin ps.flatten
  set M := listMax ps.flatten
  refine ⟨_, _, (M - m) / (M' - m'),
    rescalePixel m' M' r.1 r.2 m - (M - m) / (M' - m') * r.1,
    relative_float ps dtypeIn hr, relative_float _ dtypeIn hr, ?_⟩
  rw [pick_map, List.forall₂_map_left_iff, List.forall₂_map_right_iff, List.forall₂_same]
  refine fun p _ => ⟨div_pos hD hd, ?_⟩
  rw [List.map_map]
  refine List.map_congr_left fun z _ => ?_
  simp only [Function.comp_apply, rescalePixel]
  have e1 := hd.ne'
  have e2 := hD.ne'
  change (z - m') / (M' - m') * (r.2 - r.1) + r.1 = (M - m) / (M' - m') *
    ((z - m) / (M - m) * (r.2 - r.1) + r.1) + ((m - m') / (M' - m') * (r.2 - r.1) + r.1 -
      (M - m) / (M' - m') * r.1)
  field_simp
  ring

/-- C124 is false for relative rescaling: the intensities are relative to the part of the map. -/
theorem C124_relative_violated :
    ¬ PatternByPattern fun ps : List (List ℚ) =>
      signalRescaleIntensity ps (.uint 8) true none none (some (.float 32)) none := by
  intro h
  have e := relative_float (K := ℚ) [[0, 1], [0, 2]] (.uint 8) (bits := 32)
    (.inr ⟨rfl, rfl⟩)
  have e' := relative_float (K := ℚ) [[0, 1]] (.uint 8) (bits := 32) (.inr ⟨rfl, rfl⟩)
  have h1 := (h.part _ _ e).2 [0] (by simp)
  have h2 : signalRescaleIntensity [[(0 : ℚ), 1]] (.uint 8) true none none (some (.float 32)) none =
    .ok _ := h1
  rw [e'] at h2
  revert h2
  decide +kernel

end

/-! ### Operations on the neighbours of a map point -/

section
variable {K : Type*} [Field K]

theorem neighbourSum_part {rows cols r0 r1 c0 c1 r c : ℕ} {w : Img K} {f : ℕ → ℕ → K}
    (hr : r0 ≤ r) (hc : c0 ≤ c) (hr1 : r1 ≤ rows) (hc1 : c1 ≤ cols)
    (h : WindowInPart rows cols w.rows w.cols r0 r1 c0 c1 r c) :
    neighbourSum (r1 - r0) (c1 - c0) w (fun y x => f (r0 + y) (c0 + x)) (r - r0) (c - c0) =
      neighbourSum rows cols w f r c := by
  unfold neighbourSum
  refine Finset.sum_congr rfl fun i hi => Finset.sum_congr rfl fun j hj => ?_
  have h' := h i j (Finset.mem_range.1 hi) (Finset.mem_range.1 hj)
  dsimp only at h' ⊢
  generalize w.rows / 2 = a at *
  generalize w.cols / 2 = b at *
  by_cases hin : 0 ≤ (r : ℤ) + i - a ∧ (r : ℤ) + i - a < rows ∧ 0 ≤ (c : ℤ) + j - b ∧
      (c : ℤ) + j - b < cols
  · obtain ⟨h1, h2, h3, h4⟩ := h' hin.1 hin.2.1 hin.2.2.1 hin.2.2.2
    rw [if_pos hin, if_pos (by omega)]
    congr 2 <;> omega
  · rw [if_neg hin, if_neg (by omega)]

end

section
variable {K : Type*} [Field K] [LinearOrder K] [IsStrictOrderedRing K] [FloorRing K]

/-- C124, `average_neighbour_patterns`: in the points whose window, placed there, does not reach
across the border of the part, averaging the part gives the averaged map. Partial: not in the other
points, see `C124_average_violated`. -/
theorem C124_average_partial {map : Img (ℕ → K)} {m : ℕ} {d : DType} {wr wc : ℕ}
    {coeff : ℕ → ℕ → K} {r0 r1 c0 c1 : ℕ} {rowChunks colChunks rowChunks' colChunks' : List ℕ}
    (hd : dtypeRange d ≠ none) (hw : ¬ (wr = 1 ∧ wc = 1))
    (hr1 : r1 ≤ map.rows) (hc1 : c1 ≤ map.cols)
    (hr : rowChunks.sum = map.rows) (hc : colChunks.sum = map.cols)
    (hr' : rowChunks'.sum = r1 - r0) (hc' : colChunks'.sum = c1 - c0) :
    ∃ out part, averageNeighbourPatterns map m d [wr, wc] coeff rowChunks colChunks = .ok out ∧
      averageNeighbourPatterns (subImg map r0 r1 c0 c1) m d [wr, wc] coeff rowChunks' colChunks' =
        .ok part ∧
      part.rows = r1 - r0 ∧ part.cols = c1 - c0 ∧
      ∀ r c, r0 ≤ r → r < r1 → c0 ≤ c → c < c1 →
        WindowInPart map.rows map.cols wr wc r0 r1 c0 c1 r c →
        part.val (r - r0) (c - c0) = out.val r c := by
  obtain ⟨rg, hd⟩ := Option.ne_none_iff_exists'.1 hd
  obtain ⟨out, ho, -, -, hov⟩ := averageNeighbour_value (map := map) (m := m) (coeff := coeff)
    (omin := rg.1) (omax := rg.2) hd (.inl rfl) hw hr hc
  obtain ⟨part, hp, hpr, hpc, hpv⟩ := averageNeighbour_value (map := subImg map r0 r1 c0 c1) (m := m)
    (coeff := coeff) (omin := rg.1) (omax := rg.2) hd (.inl rfl) hw hr' hc'
  refine ⟨out, part, ho, hp, hpr, hpc, fun r c a1 a2 a3 a4 hin => ?_⟩
  have e : ∀ f : ℕ → ℕ → K, neighbourSum (subImg map r0 r1 c0 c1).rows (subImg map r0 r1 c0 c1).cols
      { rows := wr, cols := wc, val := coeff } (fun y x => f (r0 + y) (c0 + x)) (r - r0) (c - c0) =
      neighbourSum map.rows map.cols { rows := wr, cols := wc, val := coeff } f r c := fun f =>
    neighbourSum_part a1 a3 hr1 hc1 hin
  have e1 := e fun _ _ => 1
  rw [hpv _ _ (by change _ < r1 - r0; omega) (by change _ < c1 - c0; omega),
    hov r c (by omega) (by omega)]
  dsimp only at e1 ⊢
  rw [e1]
  have e2 : ∀ px, neighbourSum (subImg map r0 r1 c0 c1).rows (subImg map r0 r1 c0 c1).cols
      { rows := wr, cols := wc, val := coeff }
      (fun y x => (subImg map r0 r1 c0 c1).val y x px) (r - r0) (c - c0) =
      neighbourSum map.rows map.cols { rows := wr, cols := wc, val := coeff }
        (fun y x => map.val y x px) r c := fun px => e fun y x => map.val y x px
  simp only [e2]

/-- The row of patterns of `C124_average_violated`, of three pixels. -/
def threeInARow : Img (ℕ → ℚ) :=
  { rows := 1, cols := 3, val := fun _ c px => if c = 2 then ([0, 2, 2] : List ℚ).getD px 0 else px }

/-- C124 is false in the points at the border of the part: the neighbours outside it are missing. The
second of three patterns in a row, averaged in the row and in the part of the first two patterns. -/
theorem C124_average_violated :
    ∃ out part, averageNeighbourPatterns threeInARow 3 (.uint 8) [1, 3] (fun _ _ => 1) [1] [3] =
        .ok out ∧
      averageNeighbourPatterns (subImg threeInARow 0 1 0 2) 3 (.uint 8) [1, 3] (fun _ _ => 1) [1]
        [2] = .ok part ∧
      out.val 0 1 = some [0, 170, 255] ∧ part.val 0 1 = some [0, 127, 255] ∧
      part.val 0 0 = out.val 0 0 := by
  refine ⟨_, _, rfl, rfl, ?_, ?_, ?_⟩ <;> decide +kernel

/-- The hypotheses of `C124_average_partial` are met, in the first point of the part. -/
example : WindowInPart 1 3 1 3 0 1 0 2 0 0 ∧ ¬ WindowInPart 1 3 1 3 0 1 0 2 0 1 := by
  constructor
  · intro i j hi hj
    dsimp only
    omega
  · intro h
    have := h 0 2 (by norm_num) (by norm_num)
    norm_num at this

end

section
variable {K V : Type}

theorem neighbourDot_part (dp : V → V → K) {map : Img V} {w : Img Bool} {r0 r1 c0 c1 r c i j : ℕ}
    (hr : r0 ≤ r) (hc : c0 ≤ c) (hr1 : r1 ≤ map.rows) (hc1 : c1 ≤ map.cols)
    (h : WindowInPart map.rows map.cols w.rows w.cols r0 r1 c0 c1 r c) (hi : i < w.rows)
    (hj : j < w.cols) :
    neighbourDot dp (subImg map r0 r1 c0 c1) w (r - r0) (c - c0) i j =
      neighbourDot dp map w r c i j := by
  have h' := h i j hi hj
  unfold neighbourDot subImg
  dsimp only at h' ⊢
  generalize w.rows / 2 = a at *
  generalize w.cols / 2 = b at *
  by_cases hin : w.val i j = true ∧ 0 ≤ (r : ℤ) + i - a ∧ (r : ℤ) + i - a < map.rows ∧
      0 ≤ (c : ℤ) + j - b ∧ (c : ℤ) + j - b < map.cols
  · obtain ⟨h1, h2, h3, h4⟩ := h' hin.2.1 hin.2.2.1 hin.2.2.2.1 hin.2.2.2.2
    rw [if_pos hin, if_pos ⟨hin.1, by omega⟩]
    have e1 : r0 + (((r - r0 : ℕ) : ℤ) + i - a).toNat = ((r : ℤ) + i - a).toNat := by omega
    have e2 : c0 + (((c - c0 : ℕ) : ℤ) + j - b).toNat = ((c : ℤ) + j - b).toNat := by omega
    rw [e1, e2, Nat.add_sub_cancel' hr, Nat.add_sub_cancel' hc]
  · rw [if_neg hin, if_neg fun hn => hin ⟨hn.1, by have := hn.2; omega⟩]

/-- C124, `get_neighbour_dot_product_matrices` and `get_average_neighbour_dot_product_map`: in the
points whose window, placed there, does not reach across the border of the part, the part has the
matrices and averages of the map. Partial: not in the other points, see `C124_dot_violated`, and for
windows with odd axes or axes in one chunk. -/
theorem C124_dot_products_partial [Field K] (dp : V → V → K) {map : Img V} {w : Img Bool}
    {r0 r1 c0 c1 : ℕ} {rowChunks colChunks rowChunks' colChunks' : List ℕ}
    (hr0 : 0 < w.rows) (hc0 : 0 < w.cols) (ho : w.val (w.rows / 2) (w.cols / 2) = true)
    (hr1 : r1 ≤ map.rows) (hc1 : c1 ≤ map.cols)
    (hr : rowChunks.sum = map.rows) (hc : colChunks.sum = map.cols)
    (hr' : rowChunks'.sum = r1 - r0) (hc' : colChunks'.sum = c1 - c0)
    (hrodd : w.rows % 2 = 1 ∨ map.rows ∈ rowChunks ∧ r1 - r0 ∈ rowChunks')
    (hcodd : w.cols % 2 = 1 ∨ map.cols ∈ colChunks ∧ c1 - c0 ∈ colChunks') :
    ∃ mats avg mats' avg', dpMatrices dp map w rowChunks colChunks = .ok mats ∧
      adpMap dp map w rowChunks colChunks = .ok avg ∧
      dpMatrices dp (subImg map r0 r1 c0 c1) w rowChunks' colChunks' = .ok mats' ∧
      adpMap dp (subImg map r0 r1 c0 c1) w rowChunks' colChunks' = .ok avg' ∧
      ∀ r c, r0 ≤ r → r < r1 → c0 ≤ c → c < c1 →
        WindowInPart map.rows map.cols w.rows w.cols r0 r1 c0 c1 r c →
        (∀ i j, i < w.rows → j < w.cols →
          mats'.val (r - r0) (c - c0) (i * w.cols + j) = mats.val r c (i * w.cols + j)) ∧
        avg'.val (r - r0) (c - c0) = avg.val r c := by
  obtain ⟨mats, avg, h1, h2, h3⟩ := C19_dot_products_partial dp hr0 hc0 ho hr hc
    (hrodd.imp_right And.left) (hcodd.imp_right And.left)
  obtain ⟨mats', avg', h1', h2', h3'⟩ := C19_dot_products_partial dp
    (map := subImg map r0 r1 c0 c1) hr0 hc0 ho hr' hc'
    (hrodd.imp_right And.right) (hcodd.imp_right And.right)
  refine ⟨mats, avg, mats', avg', h1, h2, h1', h2', fun r c a1 a2 a3 a4 hin => ?_⟩
  obtain ⟨b1, b2⟩ := h3 r c (by omega) (by omega)
  obtain ⟨b1', b2'⟩ := h3' (r - r0) (c - c0) (by change _ < r1 - r0; omega)
    (by change _ < c1 - c0; omega)
  constructor
  · intro i j hi hj
    rw [b1 i j hi hj, b1' i j hi hj, neighbourDot_part dp a1 a3 hr1 hc1 hin hi hj]
  · rw [b2, b2']
    unfold averageDot
    have : (flatPositions w.rows w.cols).filterMap (fun ij =>
        if ij = (w.rows / 2, w.cols / 2) then none
        else neighbourDot dp (subImg map r0 r1 c0 c1) w (r - r0) (c - c0) ij.1 ij.2) =
        (flatPositions w.rows w.cols).filterMap (fun ij =>
        if ij = (w.rows / 2, w.cols / 2) then none
        else neighbourDot dp map w r c ij.1 ij.2) := by
      refine List.filterMap_congr fun ij hij => ?_
      simp only [flatPositions, List.mem_flatMap, List.mem_map, List.mem_range] at hij
      obtain ⟨i, hi, j, hj, rfl⟩ := hij
      rw [neighbourDot_part dp a1 a3 hr1 hc1 hin hi hj]
    simp only [this]

/-- C124 is false in the points at the border of the part: the second of three patterns in a row. -/
theorem C124_dot_violated :
    let dp : ℚ → ℚ → ℚ := fun x y => x * y
    let map : Img ℚ := { rows := 3, cols := 1, val := fun r _ => r + 1 }
    let w : Img Bool := { rows := 3, cols := 1, val := fun _ _ => true }
    ∃ avg avg', adpMap dp map w [3] [1] = .ok avg ∧ adpMap dp (subImg map 0 2 0 1) w [2] [1] = .ok avg' ∧
      avg.val 1 0 = some 4 ∧ avg'.val 1 0 = some 2 ∧ avg'.val 0 0 = avg.val 0 0 := by
  refine ⟨_, _, rfl, rfl, ?_, ?_, ?_⟩ <;> decide +kernel

end

/-! ### The hypotheses are met -/

/-- A part of a map in another order, one pattern twice: rescaled. -/
example : (signalRescaleIntensity (pick [2, 0, 2] [[(0 : ℚ), 1], [1, 1], [3, 2]]) (.uint 8) false none
    none none none).toOption = some [[255, 0], [0, 255], [255, 0]] := by
  decide +kernel

/-- Rescaling fails on a pattern alone where it fails on the map: no range is known for the data type. -/
example : ∃ p ∈ ([[0, 1], [1, 1]] : List (List ℚ)), signalRescaleIntensity [p] .other false none
    none none none = .error .keyError :=
  (C124_rescale (K := ℚ) .other none none none none).fails [[0, 1], [1, 1]] .keyError (by simp)
    rfl

end Kp
