import Verif.Props.OxfordBinary
import Verif.Spec.OxfordBinary
import Mathlib.Tactic.IntervalCases

namespace Kp

open Spec

/-- Bytes of a footer. -/
def Spec.OxContent.footerSize (c : OxContent) : ℕ :=
  match c.version with
  | 0 => 0
  | 1 => 16
  | _ + 2 => 18

/-- Bytes of a pattern. -/
def Spec.OxContent.recordSize (c : OxContent) : ℕ :=
  oxHeaderSize c.version + c.nrows * c.ncols * c.width + c.footerSize

theorem oxPrefix_length (extra : Byte) (v : ℕ) : (oxPrefix extra v).length = oxStartsPos v := by
  match v with
  | 0 => rfl
  | 1 => rfl
  | 2 => rfl
  | 3 => rfl
  | v + 4 => simp [oxPrefix, oxStartsPos]

theorem flatMap_leBytes_len (w : ℕ) : ∀ l : List ℕ, (l.flatMap (leBytes w)).length = l.length * w
  | [] => by simp
  | a :: l => by simp [flatMap_leBytes_len w l]; ring

/-- Header of a pattern. -/
def Spec.OxRecord.header (version nrows ncols width : ℕ) (r : OxRecord) : List Byte :=
  (if version ≤ 4 then [] else leBytes 4 r.mapX ++ leBytes 4 r.mapY)
    ++ leBytes 4 0 ++ leBytes 4 nrows ++ leBytes 4 ncols ++ leBytes 4 (nrows * ncols * width)

/-- Footer of a pattern. -/
def Spec.OxRecord.footer (version : ℕ) (r : OxRecord) : List Byte :=
  match version with
  | 0 => []
  | 1 => r.x ++ r.y
  | _ + 2 => [1] ++ r.x ++ [1] ++ r.y

theorem oxRecord_bytes (v nr nc w : ℕ) (r : OxRecord) : r.bytes v nr nc w =
    r.header v nr nc w ++ (r.pixels.flatMap (leBytes w) ++ r.footer v) := by
  unfold OxRecord.bytes OxRecord.header OxRecord.footer
  rw [List.append_assoc]
  match v with
  | 0 => rfl
  | 1 => rfl
  | _ + 2 => rfl

theorem oxHeader_length (v nr nc w : ℕ) (r : OxRecord) :
    (r.header v nr nc w).length = oxHeaderSize v := by
  unfold OxRecord.header oxHeaderSize
  by_cases h : v ≤ 4
  · simp [h, show v < 5 by omega]
  · simp [h, show ¬ v < 5 by omega]

variable {c : OxContent}

theorem oxFooter_length {r : OxRecord} (hx : r.x.length = 8) (hy : r.y.length = 8) :
    (r.footer c.version).length = c.footerSize := by
  unfold OxRecord.footer OxContent.footerSize
  split <;> simp [hx, hy]

theorem oxRecord_length (hc : c.Valid) {r : OxRecord} (hr : r ∈ c.records) :
    (r.bytes c.version c.nrows c.ncols c.width).length = c.recordSize := by
  obtain ⟨hx, hy⟩ := hc.beam r hr
  rw [oxRecord_bytes, List.length_append, List.length_append, oxHeader_length,
    oxFooter_length hx hy, flatMap_leBytes_len, hc.pixels r hr]
  unfold OxContent.recordSize
  omega

theorem oxRecords_sum (hc : c.Valid) : ∀ l : List OxRecord, (∀ r ∈ l, r ∈ c.records) →
    (l.map fun r => (r.bytes c.version c.nrows c.ncols c.width).length).sum
      = l.length * c.recordSize
  | [], _ => by simp
  | r :: l, h => by
    rw [List.map_cons, List.sum_cons, oxRecords_sum hc l fun q hq => h q (List.mem_cons_of_mem _ hq),
      oxRecord_length hc (h r List.mem_cons_self), List.length_cons]
    ring

theorem oxRecords_length (hc : c.Valid) (l : List OxRecord) (h : ∀ r ∈ l, r ∈ c.records) :
    (l.flatMap (OxRecord.bytes c.version c.nrows c.ncols c.width)).length
      = l.length * c.recordSize := by
  rw [List.length_flatMap, oxRecords_sum hc l h]

theorem oxFirst_eq : c.firstPos = oxFirst c.version c.order.length := by
  unfold OxContent.firstPos oxFirst
  rw [oxPrefix_length]
  ring

theorem oxTable_eq (hc : c.Valid) : c.table = c.order.map fun
    | none => 0
    | some k => oxFirst c.version c.order.length + k * c.recordSize := by
  unfold OxContent.table
  refine List.map_congr_left fun o ho => ?_
  match o, ho with
  | none, _ => rfl
  | some k, ho =>
    have hk : k < c.records.length := List.mem_range.mp (hc.order.mem_iff.mp
      (List.mem_filterMap.mpr ⟨some k, ho, rfl⟩))
    simp only
    rw [oxRecords_sum hc _ fun r hr => List.mem_of_mem_take hr, List.length_take,
      Nat.min_eq_left hk.le, oxFirst_eq]

theorem oxFile_length (hc : c.Valid) : c.file.length = oxFirst c.version c.order.length
    + c.records.length * c.recordSize + c.rest.length := by
  unfold OxContent.file
  rw [List.length_append, List.length_append, List.length_append, oxPrefix_length,
    oxRecords_length hc _ fun r hr => hr, flatMap_leBytes_len]
  unfold oxFirst OxContent.table
  rw [List.length_map]

/-- The file around pattern `k`. -/
theorem oxFile_split (hc : c.Valid) {k : ℕ} {r : OxRecord} (hr : c.records[k]? = some r) :
    ∃ a d, c.file = a ++ (r.header c.version c.nrows c.ncols c.width
        ++ (r.pixels.flatMap (leBytes c.width) ++ (r.footer c.version ++ d)))
      ∧ a.length = oxFirst c.version c.order.length + k * c.recordSize := by
  obtain ⟨hk, he⟩ := List.getElem?_eq_some_iff.mp hr
  refine ⟨oxPrefix c.extra c.version ++ c.table.flatMap (leBytes 8)
    ++ (c.records.take k).flatMap (OxRecord.bytes c.version c.nrows c.ncols c.width),
    (c.records.drop (k + 1)).flatMap (OxRecord.bytes c.version c.nrows c.ncols c.width) ++ c.rest,
    ?_, ?_⟩
  · unfold OxContent.file
    have : c.records = c.records.take k ++ r :: c.records.drop (k + 1) := by
      rw [← he, List.cons_getElem_drop_succ, List.take_append_drop]
    conv_lhs => rw [this]
    rw [List.flatMap_append, List.flatMap_cons, oxRecord_bytes]
    simp only [List.append_assoc]
  · rw [List.length_append, List.length_append, oxPrefix_length, flatMap_leBytes_len,
      oxRecords_length hc _ fun q hq => List.mem_of_mem_take hq, List.length_take,
      Nat.min_eq_left hk.le]
    unfold oxFirst OxContent.table
    rw [List.length_map]

theorem oxTable_bound (hc : c.Valid) : ∀ p ∈ c.table, p < 2 ^ 63 := by
  intro p hp
  rw [oxTable_eq hc, List.mem_map] at hp
  obtain ⟨o, ho, rfl⟩ := hp
  match o, ho with
  | none, _ => simp
  | some k, ho =>
    have hk : k < c.records.length := List.mem_range.mp (hc.order.mem_iff.mp
      (List.mem_filterMap.mpr ⟨some k, ho, rfl⟩))
    have h1 := oxFile_length hc
    have h2 := hc.length
    have h3 : k * c.recordSize ≤ c.records.length * c.recordSize := Nat.mul_le_mul_right _ hk.le
    simp only
    omega

theorem oxFile_starts (hc : c.Valid) :
    oxStarts c.version c.order.length c.file = c.table := by
  have hlen : c.table.length = c.order.length := by
    unfold OxContent.table
    rw [List.length_map]
  unfold oxStarts
  rw [bytesAt_of (a := oxPrefix c.extra c.version) (b := c.table.flatMap (leBytes 8))
    (c := c.records.flatMap (OxRecord.bytes c.version c.nrows c.ncols c.width) ++ c.rest)
    (by unfold OxContent.file; simp only [List.append_assoc]) (oxPrefix_length _ _)
    (by rw [flatMap_leBytes_len, hlen])]
  have := leNats_flatMap 8 c.table [] fun p hp => lt_of_lt_of_le (oxTable_bound hc p hp)
    (by norm_num)
  rw [List.append_nil, hlen] at this
  exact this

theorem oxFile_header (hc : c.Valid) : OxHeader c.version c.order.length c.file c.nrows c.ncols
    (c.nrows * c.ncols * c.width) := by
  obtain ⟨r, l, hl⟩ := List.exists_cons_of_ne_nil hc.records
  obtain ⟨a, d, hf, ha⟩ := oxFile_split hc (k := 0) (r := r) (by rw [hl]; rfl)
  rw [Nat.zero_mul, Nat.add_zero] at ha
  unfold OxRecord.header at hf
  obtain ⟨h1, h2⟩ := hc.shape
  have hw : 1 ≤ c.width := by rcases hc.width with h | h <;> omega
  have hb := hc.bytes
  have hrc : 0 < c.nrows * c.ncols := Nat.mul_pos h1 h2
  have hn1 : c.nrows ≤ c.nrows * c.ncols := Nat.le_mul_of_pos_right _ h2
  have hn2 : c.ncols ≤ c.nrows * c.ncols := Nat.le_mul_of_pos_left _ h1
  have hn3 : c.nrows * c.ncols ≤ c.nrows * c.ncols * c.width := Nat.le_mul_of_pos_right _ hw
  set p := (if c.version ≤ 4 then [] else leBytes 4 r.mapX ++ leBytes 4 r.mapY) with hp
  have hpl : p.length + 16 = oxHeaderSize c.version := by
    rw [hp]
    unfold oxHeaderSize
    by_cases h : c.version ≤ 4
    · simp [h, show c.version < 5 by omega]
    · simp [h, show ¬ c.version < 5 by omega]
  set e := leBytes 4 (c.nrows * c.ncols * c.width) with he
  refine ⟨?_, ?_, ?_, ?_⟩
  · exact uintAt_of (a := a ++ p) (w := 4) (c := leBytes 4 c.nrows ++ leBytes 4 c.ncols ++ e ++
      (r.pixels.flatMap (leBytes c.width) ++ (r.footer c.version ++ d)))
      (by rw [hf]; simp only [List.append_assoc])
      (by rw [List.length_append, ha]; omega) (by norm_num)
  · exact uintAt_of (a := a ++ p ++ leBytes 4 0) (w := 4) (c := leBytes 4 c.ncols ++ e ++
      (r.pixels.flatMap (leBytes c.width) ++ (r.footer c.version ++ d)))
      (by rw [hf]; simp only [List.append_assoc])
      (by rw [List.length_append, List.length_append, ha, leBytes_length]; omega) (by omega)
  · exact uintAt_of (a := a ++ p ++ leBytes 4 0 ++ leBytes 4 c.nrows) (w := 4) (c := e ++
      (r.pixels.flatMap (leBytes c.width) ++ (r.footer c.version ++ d)))
      (by rw [hf]; simp only [List.append_assoc])
      (by simp only [List.length_append, ha, leBytes_length]; omega) (by omega)
  · exact uintAt_of (a := a ++ p ++ leBytes 4 0 ++ leBytes 4 c.nrows ++ leBytes 4 c.ncols) (w := 4)
      (c := r.pixels.flatMap (leBytes c.width) ++ (r.footer c.version ++ d))
      (by rw [hf]; simp only [he, List.append_assoc])
      (by simp only [List.length_append, ha, leBytes_length]; omega) (by omega)

/-- The bytes of the footer of pattern `k`. -/
theorem oxFile_footer (hc : c.Valid) {k : ℕ} {r : OxRecord} (hr : c.records[k]? = some r) :
    ∃ a d, c.file = a ++ (r.footer c.version ++ d) ∧ a.length = oxFirst c.version c.order.length
      + k * c.recordSize + oxHeaderSize c.version + c.nrows * c.ncols * c.width := by
  obtain ⟨a, d, hf, ha⟩ := oxFile_split hc hr
  refine ⟨a ++ r.header c.version c.nrows c.ncols c.width ++ r.pixels.flatMap (leBytes c.width), d,
    by rw [hf]; simp only [List.append_assoc], ?_⟩
  rw [List.length_append, List.length_append, ha, oxHeader_length, flatMap_leBytes_len,
    hc.pixels r (List.mem_of_getElem? hr)]

theorem uintAt_one {file a d : List Byte} {b : Byte} {pos : ℕ} (h : file = a ++ (b :: d))
    (hp : a.length = pos) : uintAt file pos 1 = some b.val := by
  unfold uintAt
  rw [bytesAt_of (n := 1) (b := [b]) (c := d) h hp rfl]
  simp [leNat]

/-- The footer found in the file. -/
theorem oxFile_oxFooter (hc : c.Valid) :
    oxFooter c.version c.file (oxFirst c.version c.order.length + oxHeaderSize c.version
      + c.nrows * c.ncols * c.width)
      = .ok ⟨decide (c.version ≠ 0), decide (c.version ≠ 0), c.footerSize, c.footerSize⟩ := by
  obtain ⟨r, l, hl⟩ := List.exists_cons_of_ne_nil hc.records
  have hr : c.records[0]? = some r := by rw [hl]; rfl
  obtain ⟨a, d, hf, ha⟩ := oxFile_footer hc hr
  obtain ⟨hx, hy⟩ := hc.beam r (List.mem_of_getElem? hr)
  rw [Nat.zero_mul, Nat.add_zero] at ha
  unfold oxFooter
  by_cases h1 : c.version = 1
  · rw [if_pos h1]
    simp [OxContent.footerSize, h1]
  rw [if_neg h1]
  by_cases h2 : 1 < c.version
  · rw [if_pos h2]
    obtain ⟨v, hv⟩ : ∃ v, c.version = v + 2 := ⟨c.version - 2, by omega⟩
    have hfo : r.footer c.version = [1] ++ r.x ++ [1] ++ r.y := by rw [hv]; rfl
    rw [hfo] at hf
    have e1 := uintAt_one (file := c.file) (pos := oxFirst c.version c.order.length + oxHeaderSize c.version
      + c.nrows * c.ncols * c.width) (a := a) (b := 1) (d := r.x ++ ([1] ++ (r.y ++ d)))
      (by rw [hf]; simp) ha
    have e2 := uintAt_one (file := c.file) (pos := oxFirst c.version c.order.length + oxHeaderSize c.version
      + c.nrows * c.ncols * c.width + 1 + 8) (a := a ++ [1] ++ r.x) (b := 1) (d := r.y ++ d)
      (by rw [hf]; simp) (by simp [ha, hx])
    have h3 : ((1 : Byte).val ≠ 0) := by decide
    rw [e1]
    simp only [if_pos h3]
    rw [e2]
    simp only [if_pos h3, OxContent.footerSize, hv]
    simp
  · have h0 : c.version = 0 := by omega
    rw [if_neg h2]
    simp [OxContent.footerSize, h0]

/-- Pixels of pattern `k`. -/
theorem oxFile_pixels (hc : c.Valid) {k : ℕ} {r : OxRecord} (hr : c.records[k]? = some r) :
    oxPixels c.version c.file c.nrows c.ncols (c.nrows * c.ncols * c.width)
      (oxFirst c.version c.order.length + k * c.recordSize) = r.pixels := by
  obtain ⟨a, d, hf, ha⟩ := oxFile_split hc hr
  obtain ⟨h1, h2⟩ := hc.shape
  have hm := List.mem_of_getElem? hr
  unfold oxPixels
  rw [Nat.mul_div_cancel_left _ (Nat.mul_pos h1 h2),
    bytesAt_of (a := a ++ r.header c.version c.nrows c.ncols c.width)
      (b := r.pixels.flatMap (leBytes c.width)) (c := r.footer c.version ++ d)
      (by rw [hf]; simp only [List.append_assoc]) (by rw [List.length_append, ha, oxHeader_length])
      (by rw [flatMap_leBytes_len, hc.pixels r hm])]
  have := leNats_flatMap c.width r.pixels [] (hc.values r hm)
  rw [List.append_nil, hc.pixels r hm] at this
  exact this

theorem oxFile_beam {K : Type} (dec : List Byte → K) (hc : c.Valid) (h0 : c.version ≠ 0) {k : ℕ}
    {r : OxRecord} (hr : c.records[k]? = some r) :
    oxBeamX dec c.version c.file (c.nrows * c.ncols * c.width)
      (oxFirst c.version c.order.length + k * c.recordSize) = dec r.x ∧
    oxBeamY dec c.version c.file (c.nrows * c.ncols * c.width)
      (oxFirst c.version c.order.length + k * c.recordSize) = dec r.y := by
  obtain ⟨a, d, hf, ha⟩ := oxFile_footer hc hr
  obtain ⟨hx, hy⟩ := hc.beam r (List.mem_of_getElem? hr)
  unfold oxBeamX oxBeamY
  by_cases h1 : c.version = 1
  · have hfo : r.footer c.version = r.x ++ r.y := by rw [h1]; rfl
    rw [hfo] at hf
    rw [if_pos h1, if_pos h1, bytesAt_of (a := a) (b := r.x) (c := r.y ++ d)
      (by rw [hf]; simp only [List.append_assoc]) (by rw [ha]; rfl) hx,
      bytesAt_of (a := a ++ r.x) (b := r.y) (c := d)
      (by rw [hf]; simp only [List.append_assoc]) (by rw [List.length_append, ha, hx]) hy]
    exact ⟨rfl, rfl⟩
  · obtain ⟨v, hv⟩ : ∃ v, c.version = v + 2 := ⟨c.version - 2, by omega⟩
    have hfo : r.footer c.version = [1] ++ r.x ++ [1] ++ r.y := by rw [hv]; rfl
    rw [hfo] at hf
    rw [if_neg h1, if_neg h1, bytesAt_of (a := a ++ [1]) (b := r.x) (c := [1] ++ r.y ++ d)
      (by rw [hf]; simp only [List.append_assoc]) (by simp [ha]) hx,
      bytesAt_of (a := a ++ [1] ++ r.x ++ [1]) (b := r.y) (c := d)
      (by rw [hf]; simp only [List.append_assoc]) (by simp [ha, hx]) hy]
    exact ⟨rfl, rfl⟩

theorem oxFile_version (hc : c.Valid) : oxVersion c.file = c.version := by
  have key : ∀ v, 0 < v → v < 2 ^ 63 → (∃ d, c.file = leBytes 8 (2 ^ 64 - v) ++ d) →
      oxVersion c.file = v := by
    rintro v h0 h1 ⟨d, hf⟩
    unfold oxVersion
    rw [bytesAt_of (file := c.file) (pos := 0) (n := 8) (a := []) (b := leBytes 8 (2 ^ 64 - v)) (c := d) (by rw [hf]; rfl) rfl
      (leBytes_length _ _), leNat_leBytes _ _ (by omega)]
    unfold signed64
    rw [if_neg (by omega)]
    omega
  have hv := hc.version
  match h : c.version with
  | 0 =>
    unfold oxVersion
    by_cases hn : c.order = []
    · have := hc.order
      rw [hn] at this
      exact absurd (List.length_eq_zero_iff.mp (by simpa using this.length_eq.symm)) hc.records
    · obtain ⟨o, l, hl⟩ := List.exists_cons_of_ne_nil hn
      have ht : c.table ≠ [] := by
        unfold OxContent.table
        rw [hl]
        simp
      obtain ⟨p, t, ht'⟩ := List.exists_cons_of_ne_nil ht
      rw [bytesAt_of (file := c.file) (pos := 0) (n := 8) (a := []) (b := leBytes 8 p) (c := t.flatMap (leBytes 8)
        ++ c.records.flatMap (OxRecord.bytes c.version c.nrows c.ncols c.width) ++ c.rest)
        (by unfold OxContent.file; rw [ht', h]; simp [oxPrefix]) rfl (leBytes_length _ _)]
      have hp := oxTable_bound hc p (by rw [ht']; exact List.mem_cons_self)
      rw [leNat_leBytes _ _ (lt_of_lt_of_le hp (by norm_num))]
      unfold signed64
      rw [if_pos hp]
      omega
  | 1 => exact key 1 (by omega) (by omega) <|
      (by unfold OxContent.file; rw [h]; simp only [oxPrefix, List.append_assoc]; exact ⟨_, rfl⟩)
  | 2 => exact key 2 (by omega) (by omega) <|
      (by unfold OxContent.file; rw [h]; simp only [oxPrefix, List.append_assoc]; exact ⟨_, rfl⟩)
  | 3 => exact key 3 (by omega) (by omega) <|
      (by unfold OxContent.file; rw [h]; simp only [oxPrefix, List.append_assoc]; exact ⟨_, rfl⟩)
  | v + 4 => exact key (v + 4) (by omega) (by omega) <|
      (by unfold OxContent.file; rw [h]; simp only [oxPrefix, List.append_assoc]; exact ⟨_, rfl⟩)

/-- Patterns `ks` of the file. -/
def Spec.OxContent.pick {V : Type} (c : OxContent) (g : OxRecord → V) (ks : List ℕ) : List V :=
  ks.filterMap fun k => (c.records[k]?).map g

theorem oxPick_map {V : Type} (g : OxRecord → V) (f : ℕ → V) (ks : List ℕ)
    (h : ∀ k ∈ ks, ∃ r, c.records[k]? = some r ∧ f k = g r) : ks.map f = c.pick g ks := by
  unfold OxContent.pick
  rw [← List.filterMap_eq_map]
  refine List.filterMap_congr fun k hk => ?_
  obtain ⟨r, hr, hf⟩ := h k hk
  simp [hr, hf]

theorem oxPick_range {V : Type} (g : OxRecord → V) :
    c.pick g (List.range c.records.length) = c.records.map g := by
  rw [← oxPick_map g (fun k => ((c.records.map g)[k]?).getD (g ⟨0, 0, [], [], []⟩))]
  · refine List.ext_getElem (by simp) fun i h1 h2 => ?_
    simp at h2
    simp [h2]
  · intro k hk
    have hk' := List.mem_range.mp hk
    exact ⟨c.records[k], List.getElem?_eq_getElem hk', by simp [hk']⟩

/-- Reading the file. -/
theorem oxReadN_file {K : Type} (dec : List Byte → K) (hc : c.Valid) :
    ∃ s, oxReadN dec c.version c.order.length c.file = .ok s
      ∧ s.patterns = (if c.records.length = c.order.length
          then c.pick OxRecord.pixels (c.order.filterMap id) else c.records.map OxRecord.pixels)
      ∧ s.beamX = (if c.version = 0 then none
          else some (c.pick (fun r => dec r.x) (c.order.filterMap id)))
      ∧ s.beamY = (if c.version = 0 then none
          else some (c.pick (fun r => dec r.y) (c.order.filterMap id)))
      ∧ s.map1dId = (List.range c.order.length).filter fun i => (c.order.getD i none).isSome := by
  have hlen : (c.order.filterMap id).length = c.records.length := by
    rw [hc.order.length_eq, List.length_range]
  have hpos : ∀ k, oxFirst c.version c.order.length + k * c.recordSize ≠ 0 := by
    intro k
    have : c.order ≠ [] := by
      intro h
      rw [h] at hlen
      exact hc.records (List.length_eq_zero_iff.mp (by simpa using hlen.symm))
    have := List.length_pos_iff.mpr this
    unfold oxFirst
    omega
  have hfil : c.table.filter (· ≠ 0) = (c.order.filterMap id).map fun k =>
      oxFirst c.version c.order.length + k * c.recordSize := by
    rw [oxTable_eq hc]
    generalize hN : oxFirst c.version c.order.length = F at hpos
    generalize c.order = o
    induction o with
    | nil => rfl
    | cons a l ih =>
      match a with
      | none => simpa using ih
      | some k =>
        have := hpos k
        rw [List.map_cons, List.filter_cons_of_pos (p := fun x => decide (x ≠ 0))
          (a := F + k * c.recordSize) (decide_eq_true this), ih]
        rfl
  obtain ⟨s, h1, h2, h3, h4, h5⟩ := oxReadN_eq (dec := dec) (oxFile_header hc)
    (by rcases hc.width with h | h
        · left; rw [h, Nat.mul_one]
        · right; rw [h])
    (oxFile_oxFooter hc) (by
      by_cases h0 : c.version = 0
      · exact .inl (by omega)
      · exact .inr (by simp [h0])) (ks := c.order.filterMap id)
    (by rw [oxFile_starts hc]; exact hfil) (by rw [hlen]; exact hc.order)
    (by rw [hlen, oxFile_length hc]; exact Nat.le_add_right _ _)
    (by
      intro h
      rw [oxFile_starts hc, List.filter_eq_self.mpr]
      intro p hp
      have hno : ∀ o ∈ c.order, o.isSome := by
        have := List.filterMap_length_eq_length.mp h
        exact this
      rw [oxTable_eq hc, List.mem_map] at hp
      obtain ⟨o, ho, rfl⟩ := hp
      match o, hno o ho, ho with
      | some k, _, _ => exact decide_eq_true (hpos k))
  have hget : ∀ k ∈ c.order.filterMap id, ∃ r, c.records[k]? = some r := fun k hk =>
    ⟨_, List.getElem?_eq_getElem (List.mem_range.mp (hc.order.mem_iff.mp hk))⟩
  refine ⟨s, h1, ?_, ?_, ?_, ?_⟩
  · rw [h2, hlen]
    by_cases h : c.records.length = c.order.length
    · rw [if_pos h, if_pos h]
      refine oxPick_map _ _ _ fun k hk => ?_
      obtain ⟨r, hr⟩ := hget k hk
      exact ⟨r, hr, oxFile_pixels hc hr⟩
    · rw [if_neg h, if_neg h, ← oxPick_range]
      refine oxPick_map _ _ _ fun k hk => ?_
      have hr := List.getElem?_eq_getElem (List.mem_range.mp hk)
      exact ⟨_, hr, oxFile_pixels hc hr⟩
  · rw [h3]
    by_cases h0 : c.version = 0
    · rw [if_pos h0, if_pos h0]
    · rw [if_neg h0, if_neg h0]
      refine congrArg some (oxPick_map _ _ _ fun k hk => ?_)
      obtain ⟨r, hr⟩ := hget k hk
      exact ⟨r, hr, (oxFile_beam dec hc h0 hr).1⟩
  · rw [h4]
    by_cases h0 : c.version = 0
    · rw [if_pos h0, if_pos h0]
    · rw [if_neg h0, if_neg h0]
      refine congrArg some (oxPick_map _ _ _ fun k hk => ?_)
      obtain ⟨r, hr⟩ := hget k hk
      exact ⟨r, hr, (oxFile_beam dec hc h0 hr).2⟩
  · rw [h5, oxFile_starts hc, oxTable_eq hc]
    refine List.filter_congr fun i hi => ?_
    have hi' := List.mem_range.mp hi
    rw [List.getD_eq_getElem?_getD, List.getElem?_map, List.getD_eq_getElem?_getD,
      List.getElem?_eq_getElem hi', Option.map_some, Option.getD_some, Option.getD_some]
    match c.order[i] with
    | none => rfl
    | some k => exact decide_eq_true (hpos k)

theorem leNats_take (w : ℕ) : ∀ (k m : ℕ) (bs : List Byte), k ≤ m →
    (leNats w m bs).take k = leNats w k bs
  | 0, m, bs, _ => by simp [leNats]
  | k + 1, 0, bs, h => by omega
  | k + 1, m + 1, bs, h => by
    simp only [leNats, List.take_succ_cons]
    rw [leNats_take w k m _ (by omega)]

theorem leBytes_rows (n : ℕ) : leBytes 4 0 ++ leBytes 4 n = leBytes 8 (n * 2 ^ 32) := by
  simp only [leBytes, List.cons_append, List.nil_append, List.cons.injEq, Fin.mk.injEq, and_true]
  refine ⟨?_, ?_, ?_, ?_, ?_, ?_, ?_, ?_⟩ <;> omega

/-- The start of the file as 64-bit numbers. -/
theorem oxFile_table (hc : c.Valid) (hv : c.version < 5)
    (hl : (c.order.length + 1) * 1616 ≤ c.file.length) :
    Spec.Table c.version c.order.length c.file (c.table.map fun p : ℕ => (p : ℤ))
      ((c.nrows * 2 ^ 32 : ℕ) : ℤ) := by
  have hlen : c.table.length = c.order.length := by
    unfold OxContent.table
    rw [List.length_map]
  refine ⟨by rw [List.length_map, hlen], ?_⟩
  obtain ⟨r, l, hrl⟩ := List.exists_cons_of_ne_nil hc.records
  obtain ⟨h1, h2⟩ := hc.shape
  have hb := hc.bytes
  have hw : 1 ≤ c.width := by rcases hc.width with h | h <;> omega
  have hn1 : c.nrows ≤ c.nrows * c.ncols := Nat.le_mul_of_pos_right _ h2
  have hn3 : c.nrows * c.ncols ≤ c.nrows * c.ncols * c.width := Nat.le_mul_of_pos_right _ hw
  have hread : leNats 8 (c.order.length + 1) (c.file.drop (oxStartsPos c.version))
      = c.table ++ [c.nrows * 2 ^ 32] := by
    have : ∃ d, c.file.drop (oxStartsPos c.version)
        = (c.table ++ [c.nrows * 2 ^ 32]).flatMap (leBytes 8) ++ d := by
      refine ⟨leBytes 4 c.ncols ++ leBytes 4 (c.nrows * c.ncols * c.width)
        ++ r.pixels.flatMap (leBytes c.width) ++ r.footer c.version
        ++ l.flatMap (OxRecord.bytes c.version c.nrows c.ncols c.width) ++ c.rest, ?_⟩
      unfold OxContent.file
      rw [← oxPrefix_length c.extra, List.append_assoc, List.append_assoc, List.drop_left, hrl,
        List.flatMap_cons, oxRecord_bytes, OxRecord.header, if_pos (by omega), List.flatMap_append,
        List.flatMap_singleton, ← leBytes_rows]
      simp only [List.append_assoc, List.nil_append]
    obtain ⟨d, hd⟩ := this
    rw [hd]
    have := leNats_flatMap 8 (c.table ++ [c.nrows * 2 ^ 32]) d (by
      intro p hp
      rcases List.mem_append.mp hp with hp | hp
      · exact lt_of_lt_of_le (oxTable_bound hc p hp) (by norm_num)
      · rw [List.mem_singleton.mp hp]
        omega)
    rw [List.length_append, hlen] at this
    exact this
  unfold oxAssumedStarts
  simp only
  have hhs : oxHeaderSize c.version = 16 := by unfold oxHeaderSize; rw [if_pos hv]
  have hsp : oxStartsPos c.version ≤ 9 := by unfold oxStartsPos; split_ifs <;> omega
  rw [← List.map_take, leNats_take _ _ _ _ (by
    rw [hhs]
    refine Nat.le_min.mpr ⟨?_, ?_⟩
    · exact (Nat.le_div_iff_mul_le (by omega)).mpr hl
    · exact (Nat.le_div_iff_mul_le (by omega)).mpr (by omega)), hread, List.map_append]
  congr 1
  · refine List.map_congr_left fun p hp => ?_
    unfold signed64
    rw [if_pos (oxTable_bound hc p hp)]
  · rw [List.map_singleton]
    unfold signed64
    rw [if_pos (by omega)]

end Kp
