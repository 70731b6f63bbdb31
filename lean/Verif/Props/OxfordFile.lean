import Verif.Lemmas.OxfordFile

/-
C44: Oxford binary patterns are returned in map order.
C68: The number of patterns in an Oxford binary file is determined.

Here for whole files, written as in Verif/Spec/OxfordBinary.lean.
-/

namespace Kp

open Spec

variable {K : Type} {c : OxContent}

/-- C44 (partial): a file of any version, with all patterns of the map in any order, is read as the
pattern of each map position in turn, with the beam positions of the same patterns, given the number
of patterns.  Missing: files without beam positions, and missing patterns. -/
theorem C44_round_trip_partial (dec : List Byte → K) (hc : c.Valid) {ks : List ℕ}
    (hks : c.order = ks.map some) :
    oxVersion c.file = c.version ∧
    ∃ s, oxReadN dec (oxVersion c.file) ks.length c.file = .ok s ∧ s.map1dId = List.range ks.length
      ∧ s.patterns.length = ks.length
      ∧ ∀ (i : ℕ) (r : OxRecord), (ks[i]?).bind (fun k => c.records[k]?) = some r → s.patterns[i]? = some r.pixels
        ∧ (c.version = 0 → s.beamX = none ∧ s.beamY = none)
        ∧ (c.version ≠ 0 → (∃ l, s.beamX = some l ∧ l[i]? = some (dec r.x))
          ∧ (∃ l, s.beamY = some l ∧ l[i]? = some (dec r.y))) := by
  refine ⟨oxFile_version hc, ?_⟩
  rw [oxFile_version hc]
  have hf : c.order.filterMap id = ks := by
    rw [hks, List.filterMap_map]
    exact List.filterMap_some
  have hlen : c.records.length = c.order.length := by
    have := hc.order.length_eq
    rw [hf, List.length_range] at this
    rw [← this, hks, List.length_map]
  have hl2 : c.order.length = ks.length := by rw [hks, List.length_map]
  obtain ⟨s, h1, h2, h3, h4, h5⟩ := oxReadN_file dec hc
  rw [if_pos hlen, hf] at h2
  rw [hf] at h3 h4
  rw [hl2] at h1 h5
  have hpick : ∀ {V : Type} (g : OxRecord → V), c.pick g ks = ks.map fun k =>
      g ((c.records[k]?).getD ⟨0, 0, [], [], []⟩) := by
    intro V g
    refine (oxPick_map g _ ks fun k hk => ?_).symm
    have hk' : k < c.records.length := List.mem_range.mp (hc.order.mem_iff.mp (hf ▸ hk))
    exact ⟨c.records[k], List.getElem?_eq_getElem hk', by
      rw [List.getElem?_eq_getElem hk', Option.getD_some]⟩
  have hget : ∀ {V : Type} (g : OxRecord → V) (i : ℕ) (r : OxRecord),
      (ks[i]?).bind (fun k => c.records[k]?) = some r → (c.pick g ks)[i]? = some (g r) := by
    intro V g i r hr
    rw [hpick, List.getElem?_map]
    obtain ⟨k, hk, hr⟩ := Option.bind_eq_some_iff.mp hr
    rw [hk, Option.map_some, hr, Option.getD_some]
  refine ⟨s, h1, ?_, ?_, fun i r hr => ⟨?_, fun h0 => ?_, fun h0 => ⟨?_, ?_⟩⟩⟩
  · rw [h5]
    refine List.filter_eq_self.mpr fun i hi => ?_
    rw [hks, List.getD_eq_getElem?_getD, List.getElem?_map,
      List.getElem?_eq_getElem (List.mem_range.mp hi)]
    rfl
  · rw [h2, hpick, List.length_map]
  · rw [h2]
    exact hget _ i r hr
  · rw [h3, h4, if_pos h0, if_pos h0]
    exact ⟨rfl, rfl⟩
  · rw [h3, if_neg h0]
    exact ⟨_, rfl, hget (fun r => dec r.x) i r hr⟩
  · rw [h4, if_neg h0]
    exact ⟨_, rfl, hget (fun r => dec r.y) i r hr⟩

/-- C44 is false for every file with missing patterns whose patterns are not in map order, in that
patterns are returned in the order of the file, beam positions in map order. -/
theorem C44_missing_violated (dec : List Byte → K) (hc : c.Valid) (h0 : c.version ≠ 0)
    (hm : none ∈ c.order) :
    ∃ s, oxReadN dec (oxVersion c.file) c.order.length c.file = .ok s
      ∧ s.patterns = c.records.map OxRecord.pixels
      ∧ s.beamX = some ((c.order.filterMap id).filterMap
          fun k => (c.records[k]?).map fun r => dec r.x) := by
  rw [oxFile_version hc]
  obtain ⟨s, h1, h2, h3, _⟩ := oxReadN_file dec hc
  rw [if_neg] at h2
  · rw [if_neg h0] at h3
    exact ⟨s, h1, h2, h3⟩
  · intro h
    have hl := hc.order.length_eq
    rw [List.length_range, h] at hl
    have := List.filterMap_length_eq_length.mp hl none hm
    simp at this

/-- C68 (partial): in files before version 5 of less than 4 GB, the number of patterns is found,
missing patterns included, if consecutive entries in the table of positions differ by at most twenty
times the largest size of a pattern and a pattern takes at least 1616 bytes on average (with one to
spare). -/
theorem C68_file_partial (hc : c.Valid) (hv : c.version < 5) (hs : c.file.length ≤ 4 * 10 ^ 9)
    (hl : (c.order.length + 1) * 1616 ≤ c.file.length)
    (hj : ∀ i a b : ℕ, c.table[i]? = some a → c.table[i + 1]? = some b →
      (a : ℤ) - b ≤ 20 * (1024 * 1344 * 2 + 16) ∧ (b : ℤ) - a ≤ 20 * (1024 * 1344 * 2 + 16)) :
    oxGuess (oxVersion c.file) c.file = .ok c.order.length := by
  have hmj : oxMaxJump c.version = 20 * (1024 * 1344 * 2 + 16) := by
    unfold oxMaxJump oxHeaderSize
    rw [if_pos hv]
  rw [oxFile_version hc]
  refine C68_number_partial hv ?_ (oxFile_table hc hv hl) ?_ ?_
  · refine List.length_pos_iff.mpr fun h => hc.records ?_
    have := hc.order.length_eq
    rw [h] at this
    exact List.length_eq_zero_iff.mp (by simpa using this.symm)
  · intro i a b ha hb
    rw [List.getElem?_map] at ha hb
    obtain ⟨a', ha', rfl⟩ := Option.map_eq_some_iff.mp ha
    obtain ⟨b', hb', rfl⟩ := Option.map_eq_some_iff.mp hb
    obtain ⟨h1, h2⟩ := hj i a' b' ha' hb'
    rw [hmj]
    exact abs_le.mpr ⟨by push_cast; omega, by push_cast; omega⟩
  · intro a ha
    rw [List.getLast?_map] at ha
    obtain ⟨p, hp, rfl⟩ := Option.map_eq_some_iff.mp ha
    have hp' : p ≤ c.file.length := by
      have hmem : p ∈ c.table := List.mem_of_getLast? hp
      rw [oxTable_eq hc, List.mem_map] at hmem
      obtain ⟨o, ho, rfl⟩ := hmem
      match o, ho with
      | none, _ => simp
      | some k, ho =>
        have hk : k < c.records.length := List.mem_range.mp (hc.order.mem_iff.mp
          (List.mem_filterMap.mpr ⟨some k, ho, rfl⟩))
        have h1 := oxFile_length hc
        have h3 : k * c.recordSize ≤ c.records.length * c.recordSize :=
          Nat.mul_le_mul_right _ hk.le
        simp only
        omega
    have hr := hc.shape.1
    rw [hmj]
    refine lt_of_lt_of_le ?_ (le_abs_self _)
    push_cast
    omega

/-- Both together: such a file is read as the patterns in map order. -/
theorem C44_whole_file_partial (dec : List Byte → K) (hc : c.Valid) {ks : List ℕ}
    (hks : c.order = ks.map some) (hv : c.version < 5) (hs : c.file.length ≤ 4 * 10 ^ 9)
    (hl : (c.order.length + 1) * 1616 ≤ c.file.length)
    (hj : ∀ i a b : ℕ, c.table[i]? = some a → c.table[i + 1]? = some b →
      (a : ℤ) - b ≤ 20 * (1024 * 1344 * 2 + 16) ∧ (b : ℤ) - a ≤ 20 * (1024 * 1344 * 2 + 16)) :
    ∃ s, oxRead dec c.file = .ok s ∧ s.patterns.length = ks.length ∧
      ∀ (i : ℕ) (r : OxRecord), (ks[i]?).bind (fun k => c.records[k]?) = some r → s.patterns[i]? = some r.pixels := by
  obtain ⟨_, s, h1, _, h2, h3⟩ := C44_round_trip_partial dec hc hks
  refine ⟨s, ?_, h2, fun i r hr => (h3 i r hr).1⟩
  unfold oxRead
  simp only
  rw [C68_file_partial hc hv hs hl hj, hks, List.length_map]
  exact h1

/-! ### Examples -/

/-- A file of version 4 with patterns of 40 x 41 pixels for a row of two map positions, the second
first in the file. -/
def exampleOxContent : OxContent where
  version := 4
  extra := 7
  nrows := 40
  ncols := 41
  width := 1
  order := [some 1, some 0]
  records := [⟨0, 0, List.replicate 1640 5, leBytes 8 7, leBytes 8 3⟩,
    ⟨0, 0, List.replicate 1640 9, leBytes 8 8, leBytes 8 3⟩]
  rest := List.replicate 1700 0

theorem exampleOxContent_file : exampleOxContent.file.length = 9 + 16 + 2 * (16 + 1640 + 18) + 1700 := by
  decide +kernel

theorem exampleOxContent_valid : exampleOxContent.Valid where
  version := by decide
  width := by decide
  bytes := by decide
  shape := by decide
  records := List.cons_ne_nil _ _
  pixels := by
    intro r hr
    rcases List.mem_pair.mp hr with rfl | rfl <;> exact List.length_replicate
  values := by
    intro r hr v hv
    rcases List.mem_pair.mp hr with rfl | rfl <;> rw [List.eq_of_mem_replicate hv] <;> decide
  beam := by
    intro r hr
    rcases List.mem_pair.mp hr with rfl | rfl <;> exact ⟨rfl, rfl⟩
  order := List.Perm.swap _ _ _
  length := by rw [exampleOxContent_file]; norm_num

example : ∃ s, oxRead leNat exampleOxContent.file = .ok s ∧ s.patterns.length = 2 ∧
    ∀ (i : ℕ) (r : OxRecord), (([1, 0] : List ℕ)[i]?).bind (fun k => exampleOxContent.records[k]?) = some r →
      s.patterns[i]? = some r.pixels := by
  refine C44_whole_file_partial leNat exampleOxContent_valid (ks := [1, 0]) rfl (by decide)
    (by rw [exampleOxContent_file]; norm_num)
    (by rw [exampleOxContent_file]; norm_num [exampleOxContent]) ?_
  have : exampleOxContent.table = [25 + 1674, 25] := by decide +kernel
  rw [this]
  intro i a b ha hb
  match i, ha, hb with
  | 0, ha, hb =>
    simp at ha hb
    subst ha; subst hb
    norm_num
  | i + 1, ha, hb => simp at hb

/-- A file for three map positions, the second missing, the first two patterns in the file being
those of the third and first position. -/
def exampleOxMissing : OxContent :=
  { exampleOxContent with order := [some 1, none, some 0] }

example : none ∈ exampleOxMissing.order ∧ exampleOxMissing.version ≠ 0 ∧
    (exampleOxMissing.order.filterMap id).Perm (List.range exampleOxMissing.records.length) := by
  refine ⟨by decide, by decide, List.Perm.swap _ _ _⟩

end Kp
