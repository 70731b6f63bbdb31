import Verif.Lemmas.CutBinary
import Verif.Props.OxfordFile

/-
C154: EDAX and Oxford binary files whose writing stopped are not loaded as complete scans.

A file whose writing stopped after `k` bytes is the first `k` bytes, `file.take k`, of the file that
should have been written, `Spec.edaxFile` (Verif/Props/EdaxBinary.lean) or `Spec.OxContent.file`
(Verif/Spec/OxfordBinary.lean).
-/

set_option linter.unusedSectionVars false

namespace Kp

open Spec

variable {K : Type} [Field K]

/-- C154: a file of version 3 or later with patterns on a square grid, whose writing stopped at any
byte, cannot be loaded, with or without a navigation shape. -/
theorem C154_edax_grid {enc : K → List Byte} {dec : List Byte → K} {width : ℕ}
    {c : EdaxContent K} (b : Bool) (h : EdaxValid enc dec width c (c.ny * c.nx))
    (hv : c.version ≠ 1) (hh : c.hex = false) (hw : width ≠ 0) (hp : c.pixels ≠ []) {k : ℕ}
    (hk : k < (edaxFile enc width c).length) (nav : Option (ℕ × ℕ)) :
    ∃ e, edaxRead b dec width ((edaxFile enc width c).take k) nav = .error e := by
  by_cases h42 : k < 42
  · exact edaxRead_of_header_error (edaxHeader_cut_map b h hv h42) nav
  have hpl := Nat.mul_pos (List.length_pos_iff.mpr hp) (Nat.pos_of_ne_zero hw)
  rw [edaxFile_length h] at hk
  have key : ∀ ny nx : ℕ, ny * nx = c.nx * c.ny →
      (bytesAt ((edaxFile enc width c).take k) c.start
        (shapeSize (if ny = 1 then [nx, c.sy, c.sx] else [ny, nx, c.sy, c.sx]) * width)).length
      ≠ shapeSize (if ny = 1 then [nx, c.sy, c.sx] else [ny, nx, c.sy, c.sx]) * width := by
    intro ny nx hn
    have hs : shapeSize (if ny = 1 then [nx, c.sy, c.sx] else [ny, nx, c.sy, c.sx])
        = c.pixels.length := by
      rw [h.count, Nat.mul_comm c.ny, ← hn]
      split
      · rename_i h1
        subst h1
        simp only [shapeSize]; ring
      · simp only [shapeSize]; ring
    have := bytesAt_cut_length (edaxFile enc width c) k c.start (c.pixels.length * width)
    rw [hs]
    omega
  unfold edaxRead
  rw [edaxHeader_cut_grid b h hv hh (by omega)]
  match nav with
  | none =>
    simp only
    rw [if_neg (key c.ny c.nx (Nat.mul_comm _ _))]
    exact ⟨_, rfl⟩
  | some (ny, nx) =>
    simp only [Bool.false_eq_true, if_false]
    by_cases hn : ny * nx = c.nx * c.ny
    · simp only [hn, ne_eq, not_true_eq_false, if_false]
      rw [if_neg (key ny nx hn)]
      exact ⟨_, rfl⟩
    · simp only [ne_eq, hn, not_false_eq_true, if_true]
      exact ⟨_, rfl⟩

/-- C154: a file of version 1 or with a hexagonal grid whose writing stopped before the first
pattern cannot be loaded. -/
theorem C154_edax_header {enc : K → List Byte} {dec : List Byte → K} {width n : ℕ}
    {c : EdaxContent K} (b : Bool) (h : EdaxValid enc dec width c n)
    (hl : c.version = 1 ∨ c.hex = true) {k : ℕ}
    (hk : k + c.pixels.length * width < (edaxFile enc width c).length) (nav : Option (ℕ × ℕ)) :
    ∃ e, edaxRead b dec width ((edaxFile enc width c).take k) nav = .error e := by
  refine edaxRead_of_header_error ?_ nav
  have hlen := edaxFile_length h
  by_cases h16 : k < 16
  · exact edaxHeader_cut_short b h16
  by_cases hm : c.version ≠ 1 ∧ k < 42
  · exact edaxHeader_cut_map b h hm.1 hm.2
  rw [edaxHeader_cut_lead b h hl (by omega) (by omega) (by omega)]
  unfold edaxCount
  by_cases h1 : b = true ∧ 2 ^ 32 ≤ k
  · rw [if_pos h1]; exact ⟨_, rfl⟩
  · rw [if_neg h1, if_pos (Or.inr (by omega))]; exact ⟨_, rfl⟩

/-- C154 (partial): of a file of version 1 (loaded without a navigation shape) or with a hexagonal
grid, whose writing stopped in or after the patterns, the patterns that are complete are loaded, with
the values written, in order.  Missing: an error (below). -/
theorem C154_edax_leading_partial {enc : K → List Byte} {dec : List Byte → K} {width n : ℕ}
    {c : EdaxContent K} {b : Bool} (h : EdaxValid enc dec width c n)
    (hl : c.version = 1 ∨ c.hex = true) (hw : width ≠ 0) (hs : c.sy * c.sx ≠ 0) {k : ℕ}
    (hk : (edaxFile enc width c).length ≤ k + c.pixels.length * width)
    (hkl : k ≤ (edaxFile enc width c).length) (hb : b = false ∨ k < 2 ^ 32)
    {nav : Option (ℕ × ℕ)} (hnav : nav = none ∨ c.version ≠ 1) :
    ∃ q axes, edaxRead b dec width ((edaxFile enc width c).take k) nav
        = .ok (⟨[q, c.sy, c.sx], c.pixels.take (q * (c.sy * c.sx))⟩, axes)
      ∧ (edaxFile enc width c).length - c.pixels.length * width + q * (c.sy * c.sx) * width ≤ k
      ∧ k < (edaxFile enc width c).length - c.pixels.length * width
          + (q + 1) * (c.sy * c.sx) * width := by
  have hlen := edaxFile_length h
  rw [hlen, Nat.add_sub_cancel]
  have hst : c.start ≤ k := by omega
  have h16 : 16 ≤ c.start := by unfold EdaxContent.start; split <;> omega
  have h42 : c.version ≠ 1 → 42 ≤ c.start := by
    intro hv; unfold EdaxContent.start; rw [if_neg hv]; omega
  have hpos : 0 < c.sx * c.sy * width := by
    refine Nat.mul_pos ?_ (Nat.pos_of_ne_zero hw)
    rw [Nat.mul_comm]; exact Nat.pos_of_ne_zero hs
  have hcount : edaxCount b k c.start (c.sx * c.sy * width)
      = .ok ((k - c.start) / (c.sx * c.sy * width)) := by
    unfold edaxCount
    rw [if_neg, if_neg]
    · rintro (h1 | h1) <;> omega
    · rintro ⟨h1, h2⟩
      rcases hb with hb | hb
      · rw [hb] at h1; cases h1
      · omega
  obtain ⟨q, hq⟩ : ∃ q, q = (k - c.start) / (c.sx * c.sy * width) := ⟨_, rfl⟩
  have e1 : ∀ q, q * (c.sy * c.sx) * width = q * (c.sx * c.sy * width) := fun q => by ring
  have hq1 : q * (c.sx * c.sy * width) ≤ k - c.start := by
    rw [hq]; exact Nat.div_mul_le_self _ _
  have hq2 : k - c.start < (q + 1) * (c.sx * c.sy * width) := by
    rw [hq, Nat.mul_comm]; exact Nat.lt_mul_div_succ _ hpos
  have hqn : q * (c.sy * c.sx) ≤ c.pixels.length := by
    have : q * (c.sy * c.sx) * width ≤ c.pixels.length * width := by rw [e1]; omega
    exact Nat.le_of_mul_le_mul_right this (Nat.pos_of_ne_zero hw)
  refine ⟨q, edaxAxes (if c.version = 1 then 1 else c.dy) (if c.version = 1 then 1 else c.dx)
    [q, c.sy, c.sx], ?_, by rw [e1]; omega, by rw [e1]; omega⟩
  have hsz : shapeSize [q, c.sy, c.sx] = q * (c.sy * c.sx) := by simp only [shapeSize]; ring
  have hbytes := edaxPixels_cut h (k := k) hqn (by rw [e1]; omega)
  have hbl : ((c.pixels.take (q * (c.sy * c.sx))).flatMap (leBytes width)).length
      = q * (c.sy * c.sx) * width := by
    rw [flatMap_leBytes_length, List.length_take, Nat.min_eq_left hqn]
  have hdec := leNats_flatMap width (c.pixels.take (q * (c.sy * c.sx))) []
    fun m hm => h.pixel m (List.mem_of_mem_take hm)
  rw [List.append_nil, List.length_take, Nat.min_eq_left hqn] at hdec
  unfold edaxRead
  rw [edaxHeader_cut_lead b h hl (by omega) (fun hv => (h42 hv).trans hst) hkl, hcount, ← hq]
  rcases hnav with rfl | hv
  · simp only [if_true, hsz, hbytes, hbl, hdec]
  · match nav with
    | none => simp only [if_true, hsz, hbytes, hbl, hdec]
    | some (ny, nx) =>
      simp only [hv, decide_true, ne_eq, not_false_eq_true, if_true, hsz, hbytes, hbl, hdec]

/-- C154: a file of version 1 whose writing stopped at any byte cannot be loaded with the navigation
shape of the scan. -/
theorem C154_edax_nav_shape {enc : K → List Byte} {dec : List Byte → K} {width ny nx : ℕ}
    {c : EdaxContent K} (b : Bool) (h : EdaxValid enc dec width c (ny * nx))
    (hv : c.version = 1) {k : ℕ} (hk : k < (edaxFile enc width c).length) :
    ∃ e, edaxRead b dec width ((edaxFile enc width c).take k) (some (ny, nx)) = .error e := by
  have hlen := edaxFile_length h
  by_cases hst : k < c.start
  · exact C154_edax_header b h (Or.inl hv) (by omega) _
  have h16 : 16 ≤ c.start := by unfold EdaxContent.start; split <;> omega
  unfold edaxRead
  rw [edaxHeader_cut_lead b h (Or.inl hv) (by omega) (fun h => absurd hv h) hk.le]
  unfold edaxCount
  by_cases h1 : b = true ∧ 2 ^ 32 ≤ k
  · rw [if_pos h1]; exact ⟨_, rfl⟩
  rw [if_neg h1]
  by_cases h2 : c.sx * c.sy * width = 0 ∨ k < c.start
  · rw [if_pos h2]; exact ⟨_, rfl⟩
  rw [if_neg h2]
  have hpos : 0 < c.sx * c.sy * width := by omega
  have hlt : (k - c.start) / (c.sx * c.sy * width) < ny * nx := by
    refine Nat.div_lt_of_lt_mul ?_
    have : c.pixels.length * width = c.sx * c.sy * width * (ny * nx) := by rw [h.count]; ring
    omega
  have hne : ny * nx ≠ (k - c.start) / (c.sx * c.sy * width) := by omega
  simp only [hv, ne_eq, not_true_eq_false, decide_false, Bool.false_eq_true, if_false, hne,
    not_false_eq_true, if_true]
  exact ⟨_, rfl⟩

/-- The code does not satisfy C154: any file of version 1 or with a hexagonal grid is loaded without
error after its writing stopped one byte before the end, as a scan with one pattern less. -/
theorem C154_edax_violated {enc : K → List Byte} {dec : List Byte → K} {width n : ℕ}
    {c : EdaxContent K} {b : Bool} (h : EdaxValid enc dec width c (n + 1))
    (hl : c.version = 1 ∨ c.hex = true) (hw : width ≠ 0) (hs : c.sy * c.sx ≠ 0)
    (hb : b = false ∨ (edaxFile enc width c).length < 2 ^ 32) :
    ∃ axes, edaxRead b dec width
        ((edaxFile enc width c).take ((edaxFile enc width c).length - 1)) none
      = .ok (⟨[n, c.sy, c.sx], c.pixels.take (n * (c.sy * c.sx))⟩, axes) := by
  have hlen := edaxFile_length h
  have hp1 : c.pixels.length * width = (n + 1) * (c.sy * c.sx * width) := by rw [h.count]; ring
  have hpos : 0 < c.sy * c.sx * width := Nat.mul_pos (Nat.pos_of_ne_zero hs) (Nat.pos_of_ne_zero hw)
  have hp2 : (n + 1) * (c.sy * c.sx * width) = n * (c.sy * c.sx * width) + c.sy * c.sx * width := by
    ring
  obtain ⟨q, axes, h1, h2, h3⟩ := C154_edax_leading_partial h hl hw hs
    (k := (edaxFile enc width c).length - 1) (b := b) (by omega) (by omega)
    (hb.imp_right fun h => by omega) (nav := none) (Or.inl rfl)
  have hq : q = n := by
    have a1 : q * (c.sy * c.sx * width) < (n + 1) * (c.sy * c.sx * width) := by
      rw [Nat.mul_assoc] at h2; omega
    have a2 : n * (c.sy * c.sx * width) < (q + 1) * (c.sy * c.sx * width) := by
      rw [Nat.mul_assoc] at h3; omega
    have b1 := lt_of_mul_lt_mul_right a1 (Nat.zero_le _)
    have b2 := lt_of_mul_lt_mul_right a2 (Nat.zero_le _)
    omega
  subst hq
  exact ⟨axes, h1⟩

/-- C154: a file written by Oxford Instruments' software whose writing stopped at any byte cannot be
loaded, or all patterns were written and all of them are loaded, as from the whole file. -/
theorem C154_oxford {V : Type} {c : OxContent} (dec : List Byte → V) (hc : c.Valid)
    (hg : oxGuess (oxVersion c.file) c.file = .ok c.order.length) (k : ℕ) :
    (∃ e, oxRead dec (c.file.take k) = .error e)
    ∨ (c.firstPos + (c.records.flatMap (OxRecord.bytes c.version c.nrows c.ncols c.width)).length ≤ k
      ∧ oxRead dec (c.file.take k) = oxRead dec c.file) := by
  have hv := oxFile_version hc
  cases hg' : oxGuess (oxVersion (c.file.take k)) (c.file.take k) with
  | error e =>
    refine Or.inl ⟨e, ?_⟩
    unfold oxRead
    simp only [hg']
  | ok n =>
    obtain ⟨_, hfk, h8⟩ := oxGuess_cut hg'
    rw [oxVersion_cut h8] at hg' hfk
    obtain ⟨hg2, _, _⟩ := oxGuess_cut hg'
    have hn : n = c.order.length := by
      rw [hg] at hg2
      exact (Except.ok.inj hg2).symm
    subst hn
    have hread : oxRead dec (c.file.take k)
        = oxReadN dec c.version c.order.length (c.file.take k) := by
      unfold oxRead
      simp only [oxVersion_cut h8, hg']
      rw [hv]
    have hread2 : oxRead dec c.file = oxReadN dec c.version c.order.length c.file := by
      unfold oxRead
      simp only [hg]
      rw [hv]
    rw [hv] at hfk
    have hrl := oxRecords_length hc c.records fun r hr => hr
    rw [hread, hread2, hrl, oxFirst_eq]
    by_cases hk : oxFirst c.version c.order.length + c.records.length * c.recordSize ≤ k
    · refine Or.inr ⟨hk, ?_⟩
      -- The first bytes are a file with less after the patterns
      obtain ⟨d, hd⟩ : ∃ d, d = k
        - (oxFirst c.version c.order.length + c.records.length * c.recordSize) := ⟨_, rfl⟩
      obtain ⟨c', hc'⟩ : ∃ c' : OxContent, c' = { c with rest := c.rest.take d } := ⟨_, rfl⟩
      have hfile : c'.file = c.file.take k := by
        have h1 : (oxPrefix c.extra c.version ++ c.table.flatMap (leBytes 8)
            ++ c.records.flatMap (OxRecord.bytes c.version c.nrows c.ncols c.width)).length
            = oxFirst c.version c.order.length + c.records.length * c.recordSize := by
          rw [List.length_append, List.length_append, oxPrefix_length, hrl, flatMap_leBytes_len]
          unfold oxFirst OxContent.table
          rw [List.length_map]
        have h2 : c'.file = (oxPrefix c.extra c.version ++ c.table.flatMap (leBytes 8)
            ++ c.records.flatMap (OxRecord.bytes c.version c.nrows c.ncols c.width))
            ++ c.rest.take d := by
          rw [hc']; rfl
        rw [h2]
        unfold OxContent.file
        rw [List.take_append, h1, List.take_of_length_le (l := oxPrefix c.extra c.version
          ++ c.table.flatMap (leBytes 8) ++ c.records.flatMap
            (OxRecord.bytes c.version c.nrows c.ncols c.width)) (by rw [h1]; exact hk), hd]
      have hval : c'.Valid := by
        have hl : c'.file.length < 2 ^ 63 := by
          rw [hfile, List.length_take]
          exact lt_of_le_of_lt (min_le_right _ _) hc.length
        subst hc'
        exact ⟨hc.version, hc.width, hc.bytes, hc.shape, hc.records, hc.pixels, hc.values, hc.beam,
          hc.order, hl⟩
      obtain ⟨s, s1, s2, s3, s4, s5⟩ := oxReadN_file dec hc
      obtain ⟨t, t1, t2, t3, t4, t5⟩ := oxReadN_file dec hval
      have ht : t = s := by
        cases s; cases t
        subst hc'
        simp only at s2 s3 s4 s5 t2 t3 t4 t5
        subst s2 s3 s4 s5 t2 t3 t4 t5
        rfl
      rw [← hfile, s1, ← ht, ← t1, hc']
    · refine Or.inl ?_
      have hh := oxFile_header hc
      have hf := oxFile_oxFooter hc
      have hst : oxStarts c.version c.order.length (c.file.take k) = c.table := by
        rw [← oxFile_starts hc]
        unfold oxStarts
        rw [bytesAt_cut_of_le (by unfold oxFirst at hfk; exact hfk)]
      have hpres : (c.table.filter (· ≠ 0)).length = c.records.length := by
        have := oxTable_present hc
        rw [this, List.length_map, hc.order.length_eq, List.length_range]
      unfold oxReadN
      simp only
      rcases uintAt_cut c.file k (oxFirst c.version c.order.length + oxHeaderSize c.version - 16) 4
        with h1 | h1
      · rw [h1]; exact ⟨_, rfl⟩
      rcases uintAt_cut c.file k (oxFirst c.version c.order.length + oxHeaderSize c.version - 12) 4
        with h2 | h2
      · rw [h1, h2, hh.compressed]; exact ⟨_, rfl⟩
      rcases uintAt_cut c.file k (oxFirst c.version c.order.length + oxHeaderSize c.version - 8) 4
        with h3 | h3
      · rw [h1, h2, h3, hh.compressed, hh.nrows]; exact ⟨_, rfl⟩
      rcases uintAt_cut c.file k (oxFirst c.version c.order.length + oxHeaderSize c.version - 4) 4
        with h4 | h4
      · rw [h1, h2, h3, h4, hh.compressed, hh.nrows, hh.ncols]; exact ⟨_, rfl⟩
      rw [h1, h2, h3, h4, hh.compressed, hh.nrows, hh.ncols, hh.nBytes]
      simp only [ne_eq, not_true_eq_false, if_false]
      rcases oxFooter_cut c.version c.file k (oxFirst c.version c.order.length
        + oxHeaderSize c.version + c.nrows * c.ncols * c.width) with h5 | h5
      · obtain ⟨e, h5⟩ := h5
        rw [h5]; exact ⟨_, rfl⟩
      rw [h5, hf]
      simp only
      have hwid : (if c.nrows * c.ncols * c.width = c.nrows * c.ncols then 1 else 2) = c.width := by
        have := Nat.mul_pos hc.shape.1 hc.shape.2
        rcases hc.width with h | h
        · rw [h, if_pos (Nat.mul_one _)]
        · rw [h, if_neg (by omega)]
      rw [hst, hwid]
      rw [if_pos]
      · exact ⟨_, rfl⟩
      · have hp2 : (c.table.filter fun x => decide (¬ x = 0)).length = c.records.length := hpres
        rw [hp2, List.length_take]
        unfold OxContent.recordSize at hk
        omega

/-! ### Examples -/

/-- A file of version 1 with three patterns of 2 x 2 pixels with one byte, and one byte between the
header and the patterns. -/
def exampleCut : EdaxContent ℚ where
  version := 1
  sx := 2
  sy := 2
  nx := 0
  ny := 0
  hex := false
  dx := 0
  dy := 0
  gap := [7]
  pixels := List.range 12

/-- The same patterns in a file of version 3 with a hexagonal grid. -/
def exampleCutHex : EdaxContent ℚ := { exampleCut with version := 3, hex := true, dx := 5, dy := 7 }

theorem exampleCut_valid : EdaxValid exampleEnc (fun b => (leNat b : ℚ)) 1 exampleCut (2 + 1) := by
  refine ⟨by decide, by decide, by decide, by decide, by decide, by decide, by decide, by decide,
    by decide, by decide, by decide, by decide +kernel, by decide +kernel⟩

theorem exampleCutHex_valid :
    EdaxValid exampleEnc (fun b => (leNat b : ℚ)) 1 exampleCutHex (2 + 1) := by
  refine ⟨by decide, by decide, by decide, by decide, by decide, by decide, by decide, by decide,
    by decide, by decide, by decide, by decide +kernel, by decide +kernel⟩

/-- The hypotheses of the statements on files of version 1 and with hexagonal grids are met. -/
example : ∃ axes, edaxRead true (fun b => (leNat b : ℚ)) 1
    ((edaxFile exampleEnc 1 exampleCut).take ((edaxFile exampleEnc 1 exampleCut).length - 1)) none
      = .ok (⟨[2, 2, 2], (List.range 12).take (2 * (2 * 2))⟩, axes) :=
  C154_edax_violated exampleCut_valid (Or.inl rfl) (by decide) (by decide)
    (Or.inr (by decide +kernel))

example : ∃ axes, edaxRead true (fun b => (leNat b : ℚ)) 1
    ((edaxFile exampleEnc 1 exampleCutHex).take ((edaxFile exampleEnc 1 exampleCutHex).length - 1))
      none
      = .ok (⟨[2, 2, 2], (List.range 12).take (2 * (2 * 2))⟩, axes) :=
  C154_edax_violated exampleCutHex_valid (Or.inr rfl) (by decide) (by decide)
    (Or.inr (by decide +kernel))

/-- Of 29 bytes, the first 22 hold the first pattern. -/
example : (edaxRead true (fun b => (leNat b : ℚ)) 1
    ((edaxFile exampleEnc 1 exampleCut).take 22) none).map Prod.fst
      = .ok ⟨[1, 2, 2], [0, 1, 2, 3]⟩ := by decide +kernel

/-- A scan without patterns. -/
example : (edaxRead true (fun b => (leNat b : ℚ)) 1
    ((edaxFile exampleEnc 1 exampleCut).take 18) none).map Prod.fst
      = .ok ⟨[0, 2, 2], []⟩ := by decide +kernel

example : ∃ e, edaxRead true (fun b => (leNat b : ℚ)) 1
    ((edaxFile exampleEnc 1 exampleCut).take 22) (some (1, 3)) = .error e :=
  C154_edax_nav_shape true exampleCut_valid rfl (by decide +kernel)

/-- The hypotheses on files with a square grid are met (Verif/Props/EdaxBinary.lean). -/
example : ∃ e, edaxRead true (fun b => (leNat b : ℚ)) 2
    ((edaxFile exampleEnc 2 exampleEdax).take 60) none = .error e :=
  C154_edax_grid true (by
    refine ⟨by decide, by decide, by decide, by decide, by decide, by decide, by decide, by decide,
      by decide, by decide, by decide, by decide +kernel, by decide +kernel⟩)
    (by decide) rfl (by decide) (by decide) (by decide +kernel) none

/-- The hypotheses on Oxford files are met (Verif/Props/OxfordFile.lean shows the same for the whole
file): of a file with two patterns, the first 3000 bytes cannot be loaded. -/
example : ∃ e, oxRead leNat (exampleOxContent.file.take 3000) = .error e := by
  have hg : oxGuess (oxVersion exampleOxContent.file) exampleOxContent.file
      = .ok exampleOxContent.order.length := by decide +kernel
  rcases C154_oxford leNat exampleOxContent_valid hg 3000 with h | ⟨h, _⟩
  · exact h
  · exact absurd h (by decide +kernel)

end Kp
