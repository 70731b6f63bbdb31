import Verif.Model.OxfordBinary
import Verif.Lemmas.Bytes
import Verif.Props.ExtrapolatePc
import Mathlib.Data.Rat.Floor
import Mathlib.Data.List.Range
import Mathlib.Tactic.LinearCombination
import Mathlib.Tactic.FieldSimp

/-
C44: Oxford binary patterns are returned in map order.
C68: The number of patterns in an Oxford binary file is determined.
C69: The map shape of an Oxford binary file is determined from beam positions.
-/

set_option linter.unusedSectionVars false

namespace Kp

/-- The header of the first pattern: not compressed, number of rows, columns and bytes. -/
structure Spec.OxHeader (version n : ℕ) (file : List Byte) (nrows ncols nBytes : ℕ) : Prop where
  compressed : uintAt file (oxFirst version n + oxHeaderSize version - 16) 4 = some 0
  nrows : uintAt file (oxFirst version n + oxHeaderSize version - 12) 4 = some nrows
  ncols : uintAt file (oxFirst version n + oxHeaderSize version - 8) 4 = some ncols
  nBytes : uintAt file (oxFirst version n + oxHeaderSize version - 4) 4 = some nBytes

/-- The pixels of a pattern that starts at byte position `start`: after the header, one or two bytes
per pixel. -/
def Spec.oxPixels (version : ℕ) (file : List Byte) (nrows ncols nBytes start : ℕ) : List ℕ :=
  leNats (nBytes / (nrows * ncols)) (nrows * ncols)
    (bytesAt file (start + oxHeaderSize version) nBytes)

/-- The horizontal beam position of the pattern, in its footer: from version 2 after a byte. -/
def Spec.oxBeamX {K : Type} (dec : List Byte → K) (version : ℕ) (file : List Byte)
    (nBytes start : ℕ) : K :=
  dec (bytesAt file (start + oxHeaderSize version + nBytes + if version = 1 then 0 else 1) 8)

/-- The vertical beam position. -/
def Spec.oxBeamY {K : Type} (dec : List Byte → K) (version : ℕ) (file : List Byte)
    (nBytes start : ℕ) : K :=
  dec (bytesAt file (start + oxHeaderSize version + nBytes + if version = 1 then 8 else 10) 8)

theorem takeOrder_map {V : Type} (g : ℕ → V) (n : ℕ) : ∀ ks : List ℕ, (∀ k ∈ ks, k < n) →
    takeOrder ((List.range n).map g) (ks.map fun k : ℕ => (k : ℤ)) = .ok (ks.map g)
  | [], _ => rfl
  | k :: ks, h => by
    have hk := h k List.mem_cons_self
    simp only [List.map_cons, takeOrder]
    rw [takeOrder_map g n ks fun j hj => h j (List.mem_cons_of_mem _ hj)]
    rw [if_neg (by omega)]
    simp [hk]

theorem stepsOfOne_eq : ∀ (a : ℤ) (l : List ℤ), stepsOfOne (a :: l) = true →
    ∀ i (hi : i < (a :: l).length), (a :: l)[i] = a + i
  | a, [], _, i, hi => by
    simp only [List.length_cons, List.length_nil] at hi
    have : i = 0 := by omega
    subst this; simp
  | a, b :: l, h, i, hi => by
    simp only [stepsOfOne, Bool.and_eq_true, decide_eq_true_eq] at h
    match i, hi with
    | 0, _ => simp
    | i + 1, hi =>
      have := stepsOfOne_eq b l h.2 i (by simpa using hi)
      simp only [List.getElem_cons_succ]
      rw [this]; push_cast; omega

/-- A permutation of 0, 1, ... with steps of one is sorted. -/
theorem perm_steps {n : ℕ} {ks : List ℕ} (hp : ks.Perm (List.range n))
    (hs : stepsOfOne (ks.map fun k : ℕ => (k : ℤ)) = true) : ks = List.range n := by
  have hlen : ks.length = n := by rw [hp.length_eq, List.length_range]
  match ks, hs, hp, hlen with
  | [], _, _, hlen => subst hlen; rfl
  | k :: ks, hs, hp, hlen =>
    have hget := stepsOfOne_eq (k : ℤ) (ks.map fun k : ℕ => (k : ℤ)) (by simpa using hs)
    have hget' : ∀ i (hi : i < (k :: ks).length), (k :: ks)[i] = k + i := by
      intro i hi
      have := hget i (by simpa using hi)
      have e : ((k : ℤ) :: ks.map fun k : ℕ => (k : ℤ))[i]'(by simpa using hi) = ((k :: ks)[i] : ℤ) := by
        have : ((k : ℤ) :: ks.map fun k : ℕ => (k : ℤ)) = (k :: ks).map fun k : ℕ => (k : ℤ) := rfl
        simp only [this, List.getElem_map]
      rw [e] at this
      exact_mod_cast this
    have hk0 : k = 0 := by
      have hn : 0 < n := by rw [← hlen]; simp
      have h0 : n - 1 < (k :: ks).length := by omega
      have hmem : (k :: ks)[n - 1] ∈ List.range n := hp.mem_iff.mp (List.getElem_mem h0)
      rw [hget' _ h0, List.mem_range] at hmem
      omega
    apply List.ext_getElem
    · rw [hlen, List.length_range]
    · intro i h1 h2
      rw [hget' i h1, List.getElem_range, hk0, Nat.zero_add]

theorem oxOrder_exact {first R : ℕ} (hR : R ≠ 0) (ks : List ℕ) :
    oxOrder first R (ks.map fun k => first + k * R) = ks.map fun k : ℕ => (k : ℤ) := by
  unfold oxOrder
  rw [List.map_map]
  apply List.map_congr_left
  intro k _
  simp only [Function.comp]
  push_cast
  rw [show (first : ℤ) + (k : ℤ) * (R : ℤ) - first = (k : ℤ) * (R : ℤ) by ring]
  exact Int.mul_tdiv_cancel _ (by exact_mod_cast hR)

/-- The record size of the memory map is that in the file if both beam positions are stored. -/
theorem oxFooter_size {version pos : ℕ} {file : List Byte} {f : OxFooter}
    (h : oxFooter version file pos = .ok f) (hv : version ≤ 1 ∨ (f.hasX = true ∧ f.hasY = true)) :
    f.memSize = f.size ∧ (version = 0 → f.hasX = false ∧ f.hasY = false)
      ∧ (version ≠ 0 → f.hasX = true ∧ f.hasY = true) := by
  unfold oxFooter at h
  split at h
  · rename_i h1
    injection h with h; subst h; simp [h1]
  · rename_i h1
    split at h
    · rename_i h2
      split at h
      · cases h
      · rename_i fx hfx
        simp only at h
        split at h
        · cases h
        · rename_i fy hfy
          injection h with h
          subst h
          rcases hv with hv | ⟨hx, hy⟩
          · omega
          · simp only [decide_eq_true_eq] at hx hy
            refine ⟨?_, fun h0 => by omega, fun _ => by simp [hx, hy]⟩
            simp [hx, hy]
    · rename_i h2
      injection h with h; subst h
      have : version = 0 := by omega
      simp [this]

variable {K : Type}

/-- Reading when the records of the memory map are those in the file: patterns at `ks` in the file,
some or all of the map. -/
theorem oxReadN_eq {dec : List Byte → K} {version n nrows ncols nBytes : ℕ} {file : List Byte}
    {f : OxFooter} (hh : Spec.OxHeader version n file nrows ncols nBytes)
    (hb : nBytes = nrows * ncols ∨ nBytes = nrows * ncols * 2)
    (hf : oxFooter version file (oxFirst version n + oxHeaderSize version + nBytes) = .ok f)
    (hv : version ≤ 1 ∨ (f.hasX = true ∧ f.hasY = true)) {ks : List ℕ}
    (hks : (oxStarts version n file).filter (· ≠ 0) = ks.map fun k => oxFirst version n
      + k * (oxHeaderSize version + nBytes + f.size))
    (hkn : ks.Perm (List.range ks.length))
    (hl : oxFirst version n + ks.length * (oxHeaderSize version + nBytes + f.size) ≤ file.length)
    (hall : ks.length = n → oxStarts version n file = (oxStarts version n file).filter (· ≠ 0)) :
    ∃ s, oxReadN dec version n file = .ok s
      ∧ s.patterns = (if ks.length = n then ks else List.range ks.length).map (fun k =>
          Spec.oxPixels version file nrows ncols nBytes (oxFirst version n
            + k * (oxHeaderSize version + nBytes + f.size)))
      ∧ s.beamX = (if version = 0 then none else some (ks.map fun k =>
          Spec.oxBeamX dec version file nBytes (oxFirst version n
            + k * (oxHeaderSize version + nBytes + f.size))))
      ∧ s.beamY = (if version = 0 then none else some (ks.map fun k =>
          Spec.oxBeamY dec version file nBytes (oxFirst version n
            + k * (oxHeaderSize version + nBytes + f.size))))
      ∧ s.map1dId = (List.range n).filter fun i => (oxStarts version n file).getD i 0 ≠ 0 := by
  obtain ⟨hmem, h0, h1⟩ := oxFooter_size hf hv
  have hwidth : nrows * ncols * (if nBytes = nrows * ncols then 1 else 2) = nBytes := by
    split
    · omega
    · omega
  have hh1 := hh.compressed
  have hh2 := hh.nrows
  have hh3 := hh.ncols
  have hh4 := hh.nBytes
  set R := oxHeaderSize version + nBytes + f.size with hR
  have hRpos : R ≠ 0 := by
    have : oxHeaderSize version ≠ 0 := by unfold oxHeaderSize; split <;> omega
    omega
  have hR' : nBytes + (oxHeaderSize version + f.size) = R := by omega
  have hRm : oxHeaderSize version + nBytes + f.memSize = R := by omega
  have hpos : (if nBytes = nrows * ncols then 1 else 2) * (nrows * ncols) = nBytes := by
    rw [Nat.mul_comm]; exact hwidth
  have hlt : ∀ k ∈ ks, k < ks.length := fun k hk => List.mem_range.mp (hkn.mem_iff.mp hk)
  set first := oxFirst version n with hfirst
  have hplen : ((oxStarts version n file).filter (· ≠ 0)).length = ks.length := by
    rw [hks, List.length_map]
  set g : ℕ → List ℕ := fun k => leNats (if nBytes = nrows * ncols then 1 else 2) (nrows * ncols)
    (bytesAt file (first + k * R + oxHeaderSize version) nBytes) with hg
  have hgp : ∀ k, g k = Spec.oxPixels version file nrows ncols nBytes (first + k * R) := by
    intro k
    simp only [hg, Spec.oxPixels]
    by_cases hz : nrows * ncols = 0
    · rw [hz]; rfl
    · have : nBytes / (nrows * ncols) = if nBytes = nrows * ncols then 1 else 2 := by
        conv_lhs => rw [← hpos]
        exact Nat.mul_div_cancel _ (Nat.pos_of_ne_zero hz)
      rw [this]
  -- patterns
  have hpat : (if stepsOfOne (oxOrder first R (oxStarts version n file)) = false ∧ ks.length = n
      then takeOrder ((List.range ks.length).map g) (oxOrder first R (oxStarts version n file))
      else .ok ((List.range ks.length).map g))
      = .ok ((if ks.length = n then ks else List.range ks.length).map g) := by
    by_cases hn : ks.length = n
    · have hst := hall hn
      rw [hks] at hst
      rw [hst, oxOrder_exact hRpos]
      by_cases hs : stepsOfOne (ks.map fun k : ℕ => (k : ℤ)) = true
      · rw [if_neg (by simp [hs]), if_pos hn]
        conv_rhs => rw [perm_steps hkn hs]
      · rw [if_pos ⟨by simpa using hs, hn⟩, if_pos hn, takeOrder_map g _ ks hlt]
    · rw [if_neg (fun h => hn h.2), if_neg hn]
  have hord : oxOrder first R ((oxStarts version n file).filter (· ≠ 0))
      = ks.map fun k : ℕ => (k : ℤ) := by rw [hks, oxOrder_exact hRpos]
  unfold oxReadN
  simp only [← hfirst, hh1, hh2, hh3, hh4, ne_eq, not_true_eq_false, if_false, hf]
  simp only [hplen, hwidth, hR', hRm, ne_eq] at hpat hord ⊢
  rw [if_neg (by omega)]
  have hpat' := hpat
  simp only [hg] at hpat'
  simp only [hord, hpat']
  have hfin : ∀ l : List ℕ, l.map (fun k => leNats (if nBytes = nrows * ncols then 1 else 2)
      (nrows * ncols) (bytesAt file (first + k * R + oxHeaderSize version) nBytes))
      = l.map fun k => Spec.oxPixels version file nrows ncols nBytes (first + k * R) :=
    fun l => List.map_congr_left fun k _ => hgp k
  rw [hfin]
  by_cases hv0 : version = 0
  · obtain ⟨hx, hy⟩ := h0 hv0
    simp only [hx, hy, hv0, Bool.false_eq_true, if_false, if_true]
    exact ⟨_, rfl, rfl, rfl, rfl, rfl⟩
  · obtain ⟨hx, hy⟩ := h1 hv0
    simp only [hx, hy, hv0, if_false, if_true]
    rw [takeOrder_map _ _ ks hlt, takeOrder_map _ _ ks hlt]
    refine ⟨_, rfl, rfl, rfl, ?_, rfl⟩
    · simp only [Spec.oxBeamY]
      congr 1
      apply List.map_congr_left
      intro k _
      by_cases h1 : version = 1
      · simp [h1]
      · simp [h1]

/-- C44 (partial): if all patterns of the map are in the file, in any order, one after the other,
each with its header and a footer with both beam positions (version 0: no footer), the patterns are
returned in map order: each from the byte position given for its map position in the table at the
start of the file, and the beam positions in the metadata are those of the same pattern. -/
theorem C44_map_order_partial {dec : List Byte → K} {version n nrows ncols nBytes : ℕ}
    {file : List Byte} {f : OxFooter} (hh : Spec.OxHeader version n file nrows ncols nBytes)
    (hb : nBytes = nrows * ncols ∨ nBytes = nrows * ncols * 2)
    (hf : oxFooter version file (oxFirst version n + oxHeaderSize version + nBytes) = .ok f)
    (hv : version ≤ 1 ∨ (f.hasX = true ∧ f.hasY = true)) {ks : List ℕ}
    (hks : oxStarts version n file = ks.map fun k => oxFirst version n
      + k * (oxHeaderSize version + nBytes + f.size))
    (hkn : ks.Perm (List.range n))
    (hl : oxFirst version n + n * (oxHeaderSize version + nBytes + f.size) ≤ file.length) :
    ∃ s, oxReadN dec version n file = .ok s
      ∧ s.patterns = (oxStarts version n file).map
          (Spec.oxPixels version file nrows ncols nBytes)
      ∧ s.beamX = (if version = 0 then none else
          some ((oxStarts version n file).map (Spec.oxBeamX dec version file nBytes)))
      ∧ s.beamY = (if version = 0 then none else
          some ((oxStarts version n file).map (Spec.oxBeamY dec version file nBytes)))
      ∧ s.map1dId = List.range n := by
  have hlen : ks.length = n := by rw [hkn.length_eq, List.length_range]
  have hpos : n ≠ 0 → oxFirst version n ≠ 0 := by unfold oxFirst; omega
  have hnz : ∀ s ∈ oxStarts version n file, s ≠ 0 := by
    intro s hs
    rw [hks, List.mem_map] at hs
    obtain ⟨k, hk, rfl⟩ := hs
    have := List.mem_range.mp (hkn.mem_iff.mp hk)
    have := hpos (by omega)
    omega
  have hfil : (oxStarts version n file).filter (· ≠ 0) = oxStarts version n file :=
    List.filter_eq_self.mpr fun s hs => by simpa using hnz s hs
  obtain ⟨s, h1, h2, h3, h4, h5⟩ := oxReadN_eq (dec := dec) hh hb hf hv (hfil.trans hks)
    (by rw [hlen]; exact hkn) (by rw [hlen]; exact hl) fun _ => hfil.symm
  refine ⟨s, h1, ?_, ?_, ?_, ?_⟩
  · rw [h2, if_pos hlen, hks, List.map_map]; rfl
  · rw [h3, hks, List.map_map]; rfl
  · rw [h4, hks, List.map_map]; rfl
  · rw [h5, List.filter_eq_self]
    intro i hi
    have hi' : i < (oxStarts version n file).length := by
      rw [hks, List.length_map, hlen]; exact List.mem_range.mp hi
    rw [List.getD_eq_getElem?_getD, List.getElem?_eq_getElem hi', Option.getD_some]
    simpa using hnz _ (List.getElem_mem hi')

/-- C44 (partial): the same for the file as a whole, when the number of patterns is determined right
(see C68): pattern `i` is that whose position is entry `i` of the table. -/
theorem C44_file_partial {dec : List Byte → K} {n nrows ncols nBytes : ℕ}
    {file : List Byte} {f : OxFooter} (hg : oxGuess (oxVersion file) file = .ok n)
    (hh : Spec.OxHeader (oxVersion file) n file nrows ncols nBytes)
    (hb : nBytes = nrows * ncols ∨ nBytes = nrows * ncols * 2)
    (hf : oxFooter (oxVersion file) file
      (oxFirst (oxVersion file) n + oxHeaderSize (oxVersion file) + nBytes) = .ok f)
    (hv : oxVersion file ≤ 1 ∨ (f.hasX = true ∧ f.hasY = true)) {ks : List ℕ}
    (hks : oxStarts (oxVersion file) n file = ks.map fun k => oxFirst (oxVersion file) n
      + k * (oxHeaderSize (oxVersion file) + nBytes + f.size))
    (hkn : ks.Perm (List.range n))
    (hl : oxFirst (oxVersion file) n + n * (oxHeaderSize (oxVersion file) + nBytes + f.size)
      ≤ file.length) :
    ∃ s, oxRead dec file = .ok s ∧ s.patterns.length = n
      ∧ ∀ i (hi : i < (oxStarts (oxVersion file) n file).length), s.patterns[i]? = some
          (Spec.oxPixels (oxVersion file) file nrows ncols nBytes
            (oxStarts (oxVersion file) n file)[i]) := by
  obtain ⟨s, h1, h2, _⟩ := C44_map_order_partial (dec := dec) hh hb hf hv hks hkn hl
  refine ⟨s, ?_, ?_, ?_⟩
  · unfold oxRead
    simp only [hg, h1]
  · rw [h2, hks, List.length_map, List.length_map, hkn.length_eq, List.length_range]
  · intro i hi
    rw [h2, List.getElem?_map, List.getElem?_eq_getElem hi]
    rfl

/-- C44 (partial): if patterns are missing and those present are in map order in the file, they are
returned in this order. -/
theorem C44_missing_sorted_partial {dec : List Byte → K} {version n nrows ncols nBytes : ℕ}
    {file : List Byte} {f : OxFooter} (hh : Spec.OxHeader version n file nrows ncols nBytes)
    (hb : nBytes = nrows * ncols ∨ nBytes = nrows * ncols * 2)
    (hf : oxFooter version file (oxFirst version n + oxHeaderSize version + nBytes) = .ok f)
    (hv : version ≤ 1 ∨ (f.hasX = true ∧ f.hasY = true)) {m : ℕ} (hm : m < n)
    (hks : (oxStarts version n file).filter (· ≠ 0) = (List.range m).map fun k => oxFirst version n
      + k * (oxHeaderSize version + nBytes + f.size))
    (hl : oxFirst version n + m * (oxHeaderSize version + nBytes + f.size) ≤ file.length) :
    ∃ s, oxReadN dec version n file = .ok s
      ∧ s.patterns = ((oxStarts version n file).filter (· ≠ 0)).map
          (Spec.oxPixels version file nrows ncols nBytes)
      ∧ s.beamX = (if version = 0 then none else some (((oxStarts version n file).filter (· ≠ 0)).map
          (Spec.oxBeamX dec version file nBytes)))
      ∧ s.beamY = (if version = 0 then none else some (((oxStarts version n file).filter (· ≠ 0)).map
          (Spec.oxBeamY dec version file nBytes))) := by
  obtain ⟨s, h1, h2, h3, h4, _⟩ := oxReadN_eq (dec := dec) hh hb hf hv hks
    (by rw [List.length_range]) (by rw [List.length_range]; exact hl)
    (fun h => by rw [List.length_range] at h; omega)
  rw [List.length_range, if_neg (by omega)] at h2
  refine ⟨s, h1, ?_, ?_, ?_⟩
  · rw [h2, hks, List.map_map]; rfl
  · rw [h3, hks, List.map_map]; rfl
  · rw [h4, hks, List.map_map]; rfl

/-- The code does not satisfy C44: if patterns are missing and those present are not in map order,
the patterns are returned in the order of the file, but the beam positions in the metadata are in
map order (`ks` are the positions in the file of the patterns present, in map order). -/
theorem C44_not_missing {dec : List Byte → K} {version n nrows ncols nBytes : ℕ}
    {file : List Byte} {f : OxFooter} (hh : Spec.OxHeader version n file nrows ncols nBytes)
    (hb : nBytes = nrows * ncols ∨ nBytes = nrows * ncols * 2)
    (hf : oxFooter version file (oxFirst version n + oxHeaderSize version + nBytes) = .ok f)
    (hv : version ≠ 0) (hxy : f.hasX = true ∧ f.hasY = true) {ks : List ℕ} (hm : ks.length < n)
    (hks : (oxStarts version n file).filter (· ≠ 0) = ks.map fun k => oxFirst version n
      + k * (oxHeaderSize version + nBytes + f.size))
    (hkn : ks.Perm (List.range ks.length))
    (hl : oxFirst version n + ks.length * (oxHeaderSize version + nBytes + f.size) ≤ file.length) :
    ∃ s, oxReadN dec version n file = .ok s
      ∧ s.patterns = (List.range ks.length).map (fun k =>
          Spec.oxPixels version file nrows ncols nBytes (oxFirst version n
            + k * (oxHeaderSize version + nBytes + f.size)))
      ∧ s.beamX = some (ks.map fun k =>
          Spec.oxBeamX dec version file nBytes (oxFirst version n
            + k * (oxHeaderSize version + nBytes + f.size))) := by
  obtain ⟨s, h1, h2, h3, _, _⟩ := oxReadN_eq (dec := dec) hh hb hf (Or.inr hxy) hks hkn hl
    (fun h => by omega)
  rw [if_neg (by omega)] at h2
  rw [if_neg hv] at h3
  exact ⟨s, h1, h2, h3⟩

/-! ### Number of patterns (C68) -/

theorem firstJump_spec (jump : ℕ) : ∀ (l : List ℤ) (n : ℕ),
    (∀ i, i < n → ∃ a b, l[i]? = some a ∧ l[i + 1]? = some b ∧ |b - a| ≤ jump) →
    (∃ a b, l[n]? = some a ∧ l[n + 1]? = some b ∧ (jump : ℤ) < |b - a|) →
    firstJump jump l = some n
  | [], n, _, ⟨a, b, h, _⟩ => by simp at h
  | [x], n, _, ⟨a, b, _, h, _⟩ => by simp at h
  | x :: y :: l, 0, _, ⟨a, b, ha, hb, h⟩ => by
    simp only [List.getElem?_cons_zero, List.getElem?_cons_succ, Option.some.injEq] at ha hb
    subst ha; subst hb
    simp only [firstJump, h, if_true]
  | x :: y :: l, n + 1, h1, ⟨a, b, ha, hb, h⟩ => by
    obtain ⟨a', b', ha', hb', h'⟩ := h1 0 (by omega)
    simp only [List.getElem?_cons_zero, List.getElem?_cons_succ, Option.some.injEq] at ha' hb'
    subst ha'; subst hb'
    simp only [firstJump]
    rw [if_neg (by omega), firstJump_spec jump (y :: l) n]
    · rfl
    · intro i hi
      obtain ⟨a', b', ha', hb', h'⟩ := h1 (i + 1) (by omega)
      exact ⟨a', b', by simpa using ha', by simpa using hb', h'⟩
    · exact ⟨a, b, by simpa using ha, by simpa using hb, h⟩

theorem firstJump_le (jump : ℕ) : ∀ (l : List ℤ) (n : ℕ) (a b : ℤ), l[n]? = some a →
    l[n + 1]? = some b → (jump : ℤ) < |b - a| → ∃ m ≤ n, firstJump jump l = some m
  | [], n, a, b, h, _, _ => by simp at h
  | [x], n, a, b, _, h, _ => by simp at h
  | x :: y :: l, n, a, b, ha, hb, h => by
    simp only [firstJump]
    by_cases hj : (jump : ℤ) < |y - x|
    · exact ⟨0, by omega, by rw [if_pos hj]⟩
    · rw [if_neg hj]
      match n, ha, hb with
      | 0, ha, hb =>
        simp only [List.getElem?_cons_zero, List.getElem?_cons_succ, Option.some.injEq] at ha hb
        subst ha; subst hb
        exact absurd h hj
      | n + 1, ha, hb =>
        obtain ⟨m, hm, h2⟩ := firstJump_le jump (y :: l) n a b (by simpa using ha)
          (by simpa using hb) h
        exact ⟨m + 1, by omega, by rw [h2]; rfl⟩

/-- The 64-bit integers in the file after the version: `n` positions and then the first pattern. -/
def Spec.Table (version n : ℕ) (file : List Byte) (starts : List ℤ) (next : ℤ) : Prop :=
  starts.length = n ∧ (oxAssumedStarts version file).take (n + 1) = starts ++ [next]

theorem Spec.Table.get {version n : ℕ} {file : List Byte} {starts : List ℤ} {next : ℤ}
    (h : Spec.Table version n file starts next) {i : ℕ} (hi : i ≤ n) :
    (oxAssumedStarts version file)[i]? = (starts ++ [next])[i]? := by
  rw [← h.2, List.getElem?_take, if_pos (by omega)]

/-- C68 (partial): before version 5 the number of patterns is right if consecutive positions in the
table differ by at most the assumed largest jump, the table and the first eight bytes of the first
pattern are within the part of the file looked at, and those bytes, which hold zero and the number of
rows (`nrows * 2 ^ 32` as a 64-bit integer), differ from the last position by more than the largest
jump. -/
theorem C68_number_partial {version n : ℕ} {file : List Byte} {starts : List ℤ} {next : ℤ}
    (hv : version < 5) (hn : 0 < n) (ht : Spec.Table version n file starts next)
    (hsmall : ∀ (i : ℕ) (a b : ℤ), starts[i]? = some a → starts[i + 1]? = some b →
      |b - a| ≤ oxMaxJump version)
    (hlast : ∀ a, starts.getLast? = some a → (oxMaxJump version : ℤ) < |next - a|) :
    oxGuess version file = .ok n := by
  have hl := ht.1
  have : firstJump (oxMaxJump version) (oxAssumedStarts version file) = some (n - 1) := by
    apply firstJump_spec
    · intro i hi
      rw [ht.get (by omega), ht.get (by omega), List.getElem?_append_left (by omega),
        List.getElem?_append_left (by omega)]
      refine ⟨starts[i], starts[i + 1], List.getElem?_eq_getElem _, List.getElem?_eq_getElem _, ?_⟩
      exact hsmall i _ _ (List.getElem?_eq_getElem _) (List.getElem?_eq_getElem _)
    · rw [ht.get (by omega), ht.get (by omega), List.getElem?_append_left (by omega),
        List.getElem?_append_right (by omega)]
      refine ⟨starts[n - 1], next, List.getElem?_eq_getElem _, ?_, ?_⟩
      · rw [show n - 1 + 1 - starts.length = 0 by omega]; rfl
      · apply hlast
        rw [List.getLast?_eq_getElem?, show starts.length - 1 = n - 1 by omega]
        exact List.getElem?_eq_getElem _
  unfold oxGuess
  rw [this]
  simp only [hv, if_true]
  rw [Nat.sub_add_cancel hn]

/-- The code does not satisfy C68: if somewhere in the table the position jumps by more than the
assumed largest jump (58 MB), as when a pattern is missing (position zero) in a large file, too few
patterns are found. -/
theorem C68_not_large_jump {version n : ℕ} {file : List Byte} {starts : List ℤ} {next : ℤ}
    (ht : Spec.Table version n file starts next) {i : ℕ} {a b : ℤ} (ha : starts[i]? = some a)
    (hb : starts[i + 1]? = some b) (hj : (oxMaxJump version : ℤ) < |b - a|) :
    ∃ m < n, oxGuess version file = .ok m := by
  have hi : i + 1 < starts.length := (List.getElem?_eq_some_iff.mp hb).1
  have hl := ht.1
  obtain ⟨m, hm, h⟩ := firstJump_le (oxMaxJump version) (oxAssumedStarts version file) i a b
    (by rw [ht.get (by omega), List.getElem?_append_left (by omega)]; exact ha)
    (by rw [ht.get (by omega), List.getElem?_append_left (by omega)]; exact hb) hj
  unfold oxGuess
  rw [h]
  by_cases hv : version < 5
  · exact ⟨m + 1, by omega, by simp [hv]⟩
  · exact ⟨m, by omega, by simp [hv]⟩

/-- A missing pattern after the first 58 MB of patterns. -/
theorem C68_not_missing {version n : ℕ} {file : List Byte} {starts : List ℤ} {next : ℤ}
    (ht : Spec.Table version n file starts next) {i : ℕ} {a : ℤ} (ha : starts[i]? = some a)
    (hb : starts[i + 1]? = some 0) (hj : (oxMaxJump version : ℤ) < a) :
    ∃ m < n, oxGuess version file = .ok m :=
  C68_not_large_jump ht ha hb (by rw [abs_sub_comm, sub_zero]; exact lt_of_lt_of_le hj (le_abs_self a))

/-- The code does not satisfy C68: from version 5 on the pattern header starts with the map
position, and one pattern too few is found if this (as a 64-bit integer, zero for the first pattern
of the map) differs from the last position by more than the largest jump, as in files larger than
58 MB. -/
theorem C68_not_version_five {version n : ℕ} {file : List Byte} {starts : List ℤ} {next : ℤ}
    (hv : 5 ≤ version) (hn : 0 < n) (ht : Spec.Table version n file starts next)
    (hlast : ∀ a, starts.getLast? = some a → (oxMaxJump version : ℤ) < |next - a|) :
    ∃ m < n, oxGuess version file = .ok m := by
  have hl := ht.1
  obtain ⟨m, hm, h⟩ := firstJump_le (oxMaxJump version) (oxAssumedStarts version file) (n - 1)
    starts[n - 1] next
    (by rw [ht.get (by omega), List.getElem?_append_left (by omega)]
        exact List.getElem?_eq_getElem _)
    (by rw [ht.get (by omega), List.getElem?_append_right (by omega),
          show n - 1 + 1 - starts.length = 0 by omega]; rfl)
    (hlast _ (by rw [List.getLast?_eq_getElem?, show starts.length - 1 = n - 1 by omega]; exact List.getElem?_eq_getElem _))
  refine ⟨m, by omega, ?_⟩
  unfold oxGuess
  rw [h]
  simp [show ¬ version < 5 by omega]

/-! ### Map shape (C69) -/

section shape

variable {K : Type} [Field K] [LinearOrder K] [IsStrictOrderedRing K] [FloorRing K]

/-- C69 (partial): for a map with at least two columns, with beam positions at
`x0 + j * step` and `y0 + i * step`, the numbers of rows and columns and the step size are right
unless `x0 / step` or `y0 / step` is half-way between integers. -/
theorem C69_shape_partial {x0 y0 step : K} {nrows ncols : ℕ} (hs : step ≠ 0) (hr : 1 ≤ nrows)
    (hc : 2 ≤ ncols) (hx : x0 / step - ⌊x0 / step⌋ ≠ 1 / 2)
    (hy : y0 / step - ⌊y0 / step⌋ ≠ 1 / 2) :
    oxNavShape (x0, y0) (x0 + step, y0)
      (x0 + ((ncols - 1 : ℕ) : K) * step, y0 + ((nrows - 1 : ℕ) : K) * step)
      = .ok (nrows, ncols, step) := by
  have h1 : ∀ (a : K) (m : ℕ), (a + (m : K) * step) / step = a / step + ((m : ℤ) : K) := by
    intro a m
    rw [add_div, mul_div_assoc, div_self hs, mul_one]
    simp
  unfold oxNavShape
  simp only [add_sub_cancel_left, hs, if_false, h1]
  rw [npRound_add_int hx, npRound_add_int hy, add_sub_cancel_left, add_sub_cancel_left]
  simp only [Int.natAbs_natCast]
  rw [Nat.sub_add_cancel hr, Nat.sub_add_cancel (by omega)]

/-- The code does not satisfy C69: with a single column the step is zero and reading fails. -/
theorem C69_not_single_column {x0 y0 y1 y2 : K} :
    oxNavShape (x0, y0) (x0, y1) (x0, y2) = .error .valueError := by
  simp [oxNavShape]

end shape

/-- The code does not satisfy C69: half-way between integers an even number of columns can come out
as an odd one.  Here there are two columns, at 1/2 and 3/2 steps. -/
theorem C69_not_half_step :
    oxNavShape ((1 / 2 : ℚ), (0 : ℚ)) (3 / 2, 0) (3 / 2, 1) = .ok (2, 3, 1) := by
  decide +kernel

/-- The hypotheses of C69 are met by a map with three rows and four columns from (1/4, 0). -/
example : oxNavShape ((1 / 4 : ℚ), (0 : ℚ)) (1 / 4 + 1 / 3, 0)
    (1 / 4 + ((4 - 1 : ℕ) : ℚ) * (1 / 3), 0 + ((3 - 1 : ℕ) : ℚ) * (1 / 3)) = .ok (3, 4, 1 / 3) :=
  C69_shape_partial (by decide +kernel) (by decide) (by decide) (by decide +kernel)
    (by decide +kernel)

/-! ### Examples -/

/-- A file of version 1 with one row and two columns of patterns with 1 x 2 pixels of 8 bits, the
second pattern first. -/
def exampleOxford : List Byte :=
  Spec.leBytes 8 (2 ^ 64 - 1) ++ Spec.leBytes 8 (24 + 34) ++ Spec.leBytes 8 24
    -- pattern of the second column
    ++ Spec.leBytes 4 0 ++ Spec.leBytes 4 1 ++ Spec.leBytes 4 2 ++ Spec.leBytes 4 2 ++ [21, 22]
    ++ Spec.leBytes 8 7 ++ Spec.leBytes 8 3
    -- pattern of the first column
    ++ Spec.leBytes 4 0 ++ Spec.leBytes 4 1 ++ Spec.leBytes 4 2 ++ Spec.leBytes 4 2 ++ [11, 12]
    ++ Spec.leBytes 8 5 ++ Spec.leBytes 8 3

/-- The hypotheses of C44 are met. -/
example : oxVersion exampleOxford = 1 ∧ Spec.OxHeader 1 2 exampleOxford 1 2 2
    ∧ (oxFooter 1 exampleOxford (oxFirst 1 2 + oxHeaderSize 1 + 2)).map OxFooter.size = .ok 16
    ∧ oxStarts 1 2 exampleOxford
        = ([1, 0] : List ℕ).map fun k => oxFirst 1 2 + k * (oxHeaderSize 1 + 2 + 16) := by
  refine ⟨by decide +kernel, ⟨?_, ?_, ?_, ?_⟩, ?_, ?_⟩ <;> decide +kernel

example : (oxReadN leNat 1 2 exampleOxford).map (fun s => (s.patterns, s.beamX, s.beamY))
    = .ok ([[11, 12], [21, 22]], some [5, 7], some [3, 3]) := by decide +kernel

/-- A file of version 2 with two patterns without beam positions: each footer has two bytes, zero,
which are not part of the records of the memory map. -/
def exampleNoBeam : List Byte :=
  Spec.leBytes 8 (2 ^ 64 - 2) ++ Spec.leBytes 8 24 ++ Spec.leBytes 8 (24 + 20)
    ++ Spec.leBytes 4 0 ++ Spec.leBytes 4 1 ++ Spec.leBytes 4 2 ++ Spec.leBytes 4 2 ++ [11, 12]
    ++ [0, 0]
    ++ Spec.leBytes 4 0 ++ Spec.leBytes 4 1 ++ Spec.leBytes 4 2 ++ Spec.leBytes 4 2 ++ [21, 22]
    ++ [0, 0]

/-- The code does not satisfy C44: without beam positions in files of version 2 and later, all
patterns but the first are read from wrong bytes.  Here the second pattern, at the position in the
table, has pixels 21 and 22, but 0 and 0 are returned. -/
theorem C44_not_without_beam :
    oxVersion exampleNoBeam = 2
    ∧ Spec.OxHeader 2 2 exampleNoBeam 1 2 2
    ∧ (oxStarts 2 2 exampleNoBeam).map (Spec.oxPixels 2 exampleNoBeam 1 2 2)
        = [[11, 12], [21, 22]]
    ∧ (oxReadN leNat 2 2 exampleNoBeam).map (fun s => s.patterns) = .ok [[11, 12], [0, 0]] := by
  refine ⟨by decide +kernel, ⟨?_, ?_, ?_, ?_⟩, ?_, ?_⟩ <;> decide +kernel

/-- A file of version 1 for a map with three columns, the second missing, the third first in the
file. -/
def exampleMissing : List Byte :=
  Spec.leBytes 8 (2 ^ 64 - 1) ++ Spec.leBytes 8 (32 + 34) ++ Spec.leBytes 8 0 ++ Spec.leBytes 8 32
    ++ Spec.leBytes 4 0 ++ Spec.leBytes 4 1 ++ Spec.leBytes 4 2 ++ Spec.leBytes 4 2 ++ [31, 32]
    ++ Spec.leBytes 8 9 ++ Spec.leBytes 8 3
    ++ Spec.leBytes 4 0 ++ Spec.leBytes 4 1 ++ Spec.leBytes 4 2 ++ Spec.leBytes 4 2 ++ [11, 12]
    ++ Spec.leBytes 8 5 ++ Spec.leBytes 8 3

/-- The pattern of the third column is returned first, but with the metadata of the first. -/
example : (oxReadN leNat 1 3 exampleMissing).map (fun s => (s.patterns, s.beamX, s.map1dId))
    = .ok ([[31, 32], [11, 12]], some [5, 9], [0, 2]) := by decide +kernel

/-- The hypotheses of C68 are met by such a table: two patterns of 40 x 40 pixels in a file of
version 1 (the patterns are all zero). -/
example : (oxGuess 1 (Spec.leBytes 8 (2 ^ 64 - 1) ++ Spec.leBytes 8 24 ++ Spec.leBytes 8 1656
    ++ Spec.leBytes 4 0 ++ Spec.leBytes 4 40 ++ List.replicate 5000 0)) = .ok 2 := by
  decide +kernel

end Kp
