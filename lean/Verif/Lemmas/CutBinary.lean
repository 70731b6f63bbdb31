import Verif.Props.EdaxBinary
import Verif.Lemmas.OxfordFile

/-! Reading the first bytes of a file. -/

set_option linter.unusedSectionVars false

namespace Kp

open Spec

theorem bytesAt_cut (file : List Byte) (k pos n : ℕ) :
    bytesAt (file.take k) pos n = (bytesAt file pos n).take (k - pos) := by
  unfold bytesAt
  rw [List.drop_take, List.take_take, List.take_take, Nat.min_comm]

theorem bytesAt_cut_of_le {file : List Byte} {k pos n : ℕ} (h : pos + n ≤ k) :
    bytesAt (file.take k) pos n = bytesAt file pos n := by
  rw [bytesAt_cut, List.take_of_length_le]
  unfold bytesAt
  rw [List.length_take]
  omega

theorem uintAt_cut_of_le {file : List Byte} {k pos w : ℕ} (h : pos + w ≤ k) :
    uintAt (file.take k) pos w = uintAt file pos w := by
  unfold uintAt
  rw [bytesAt_cut_of_le h]

theorem bytesAt_cut_length (file : List Byte) (k pos n : ℕ) :
    (bytesAt (file.take k) pos n).length ≤ k - pos := by
  rw [bytesAt_cut, List.length_take]
  omega

theorem uintAt_cut_none {file : List Byte} {k pos w : ℕ} (h : k < pos + w) (hw : pos ≤ k ∨ w ≠ 0) :
    uintAt (file.take k) pos w = none := by
  unfold uintAt
  have := bytesAt_cut_length file k pos w
  rw [if_neg (by omega)]

theorem uintAt_cut (file : List Byte) (k pos w : ℕ) :
    uintAt (file.take k) pos w = none ∨ uintAt (file.take k) pos w = uintAt file pos w := by
  by_cases h : pos + w ≤ k
  · exact Or.inr (uintAt_cut_of_le h)
  · by_cases hw : w = 0
    · subst hw
      refine Or.inr ?_
      simp [uintAt, bytesAt]
    · exact Or.inl (uintAt_cut_none (by omega) (Or.inr hw))

/-! ### EDAX -/

variable {K : Type} [Field K]

/-- Position of the first pattern. -/
def Spec.EdaxContent.start (c : EdaxContent K) : ℕ :=
  (if c.version = 1 then 16 else 42) + c.gap.length

theorem edaxFile_length {enc : K → List Byte} {dec : List Byte → K} {width n : ℕ}
    {c : EdaxContent K} (h : EdaxValid enc dec width c n) :
    (edaxFile enc width c).length = c.start + c.pixels.length * width := by
  unfold edaxFile EdaxContent.start
  by_cases hv : c.version = 1
  · simp only [hv, if_true, List.length_append, leBytes_length, List.length_nil,
      flatMap_leBytes_length]
  · simp only [if_neg hv, List.length_append, leBytes_length, List.length_singleton,
      flatMap_leBytes_length, h.enc_dx, h.enc_dy]

/-- The first fields of a file. -/
theorem edaxFile_fields {enc : K → List Byte} {dec : List Byte → K} {width n : ℕ}
    {c : EdaxContent K} (h : EdaxValid enc dec width c n) :
    uintAt (edaxFile enc width c) 0 4 = some c.version
    ∧ uintAt (edaxFile enc width c) 4 4 = some c.sx
    ∧ uintAt (edaxFile enc width c) 8 4 = some c.sy
    ∧ uintAt (edaxFile enc width c) 12 4 = some c.start := by
  obtain ⟨m, hm, hs⟩ : ∃ m : List Byte, edaxFile enc width c = leBytes 4 c.version ++ (leBytes 4 c.sx
      ++ (leBytes 4 c.sy ++ (leBytes 4 c.start ++ m))) ∧ c.start < 256 ^ 4 := by
    have hg := h.gap
    refine ⟨(if c.version = 1 then [] else [0] ++ leBytes 4 c.nx ++ leBytes 4 c.ny
      ++ [if c.hex then 1 else 0] ++ enc c.dx ++ enc c.dy) ++ c.gap
      ++ c.pixels.flatMap (leBytes width), ?_, ?_⟩
    · unfold edaxFile EdaxContent.start
      by_cases hv : c.version = 1
      · simp only [hv, if_true, List.append_assoc, List.length_nil, List.nil_append, Nat.add_zero]
      · simp only [if_neg hv, List.append_assoc, List.length_append, leBytes_length,
          List.length_singleton, h.enc_dx, h.enc_dy]
    · unfold EdaxContent.start
      split <;> omega
  rw [hm]
  refine ⟨uintAt_of (a := []) rfl rfl h.version,
    uintAt_of (a := leBytes 4 c.version) rfl (leBytes_length _ _) h.sx,
    uintAt_of (a := leBytes 4 c.version ++ leBytes 4 c.sx)
      (by simp only [List.append_assoc]; rfl) (by simp only [List.length_append, leBytes_length]) h.sy,
    uintAt_of (a := leBytes 4 c.version ++ (leBytes 4 c.sx ++ leBytes 4 c.sy))
      (by simp only [List.append_assoc]; rfl) (by simp only [List.length_append, leBytes_length]) hs⟩

/-- The other fields of a file. -/
theorem edaxFile_map_fields {enc : K → List Byte} {dec : List Byte → K} {width n : ℕ}
    {c : EdaxContent K} (h : EdaxValid enc dec width c n) (hv : c.version ≠ 1) :
    uintAt (edaxFile enc width c) 17 4 = some c.nx
    ∧ uintAt (edaxFile enc width c) 21 4 = some c.ny
    ∧ uintAt (edaxFile enc width c) 25 1 = some (if c.hex then 1 else 0)
    ∧ bytesAt (edaxFile enc width c) 26 8 = enc c.dx
    ∧ bytesAt (edaxFile enc width c) 34 8 = enc c.dy
    ∧ (bytesAt (edaxFile enc width c) 26 16).length = 16 := by
  obtain ⟨a, m, hm, ha⟩ : ∃ a m : List Byte, edaxFile enc width c = a ++ (leBytes 4 c.nx ++
      (leBytes 4 c.ny ++ ((if c.hex then (1 : Byte) else 0) :: (enc c.dx ++ (enc c.dy ++ m)))))
      ∧ a.length = 17 := by
    refine ⟨leBytes 4 c.version ++ leBytes 4 c.sx ++ leBytes 4 c.sy ++ leBytes 4 c.start ++ [0],
      c.gap ++ c.pixels.flatMap (leBytes width), ?_, ?_⟩
    · unfold edaxFile EdaxContent.start
      simp only [if_neg hv, List.append_assoc, List.length_append, leBytes_length,
        List.length_singleton, h.enc_dx, h.enc_dy]
      rfl
    · simp only [List.length_append, leBytes_length, List.length_singleton]
  rw [hm]
  have hx := h.enc_dx
  have hy := h.enc_dy
  refine ⟨uintAt_of (a := a) rfl ha h.nx, uintAt_of (a := a ++ leBytes 4 c.nx)
      (by simp only [List.append_assoc]; rfl) (by simp [ha]) h.ny, ?_, ?_, ?_, ?_⟩
  · rw [uintAt_one (a := a ++ (leBytes 4 c.nx ++ leBytes 4 c.ny))
      (b := if c.hex then (1 : Byte) else 0) (by simp only [List.append_assoc]; rfl) (by simp [ha])]
    cases c.hex <;> rfl
  · exact bytesAt_of (a := a ++ (leBytes 4 c.nx ++ (leBytes 4 c.ny ++ [if c.hex then (1 : Byte) else 0])))
      (b := enc c.dx) (c := enc c.dy ++ m) (by simp only [List.append_assoc]; rfl) (by simp [ha]) hx
  · exact bytesAt_of (a := a ++ (leBytes 4 c.nx ++ (leBytes 4 c.ny ++ ([if c.hex then (1 : Byte) else 0]
      ++ enc c.dx)))) (b := enc c.dy) (c := m) (by simp only [List.append_assoc]; rfl)
      (by simp [ha, hx]) hy
  · rw [bytesAt_of (n := 16) (a := a ++ (leBytes 4 c.nx ++ (leBytes 4 c.ny ++ [if c.hex then (1 : Byte) else 0])))
      (b := enc c.dx ++ enc c.dy) (c := m) (by simp only [List.append_assoc]; rfl) (by simp [ha])
      (by simp [hx, hy])]
    simp [hx, hy]

theorem edaxHeader_cut_short {enc : K → List Byte} {dec : List Byte → K} {width : ℕ}
    {c : EdaxContent K} (b : Bool) {k : ℕ} (hk : k < 16) :
    ∃ e, edaxHeader b dec width ((edaxFile enc width c).take k) = .error e := by
  have h12 : uintAt ((edaxFile enc width c).take k) 12 4 = none :=
    uintAt_cut_none (by omega) (Or.inr (by decide))
  unfold edaxHeader
  rw [h12]
  cases h0 : uintAt ((edaxFile enc width c).take k) 0 4 with
  | none => exact ⟨_, rfl⟩
  | some v =>
    simp only
    by_cases h2 : v = 2
    · rw [if_pos h2]; exact ⟨_, rfl⟩
    · rw [if_neg h2]
      cases uintAt ((edaxFile enc width c).take k) 4 4 <;>
        cases uintAt ((edaxFile enc width c).take k) 8 4 <;> exact ⟨_, rfl⟩

theorem edaxHeader_cut_map {enc : K → List Byte} {dec : List Byte → K} {width n : ℕ}
    {c : EdaxContent K} (b : Bool) (h : EdaxValid enc dec width c n) (hv : c.version ≠ 1) {k : ℕ}
    (hk : k < 42) :
    ∃ e, edaxHeader b dec width ((edaxFile enc width c).take k) = .error e := by
  by_cases h16 : k < 16
  · exact edaxHeader_cut_short b h16
  obtain ⟨f0, f4, f8, f12⟩ := edaxFile_fields h
  have hl := bytesAt_cut_length (edaxFile enc width c) k 26 16
  unfold edaxHeader
  rw [uintAt_cut_of_le (by omega), uintAt_cut_of_le (pos := 4) (by omega),
    uintAt_cut_of_le (pos := 8) (by omega), uintAt_cut_of_le (pos := 12) (by omega), f0, f4, f8, f12]
  have hne : ¬ (bytesAt ((edaxFile enc width c).take k) 26 16).length = 16 := by omega
  simp only [if_neg h.version2, if_neg hv, if_neg hne]
  cases uintAt ((edaxFile enc width c).take k) 17 4 <;>
    cases uintAt ((edaxFile enc width c).take k) 21 4 <;>
    cases uintAt ((edaxFile enc width c).take k) 25 1 <;> exact ⟨_, rfl⟩

theorem edaxHeader_cut_grid {enc : K → List Byte} {dec : List Byte → K} {width n : ℕ}
    {c : EdaxContent K} (b : Bool) (h : EdaxValid enc dec width c n) (hv : c.version ≠ 1)
    (hh : c.hex = false) {k : ℕ} (hk : 42 ≤ k) :
    edaxHeader b dec width ((edaxFile enc width c).take k)
      = .ok ⟨c.sx, c.sy, c.start, c.nx, c.ny, c.nx * c.ny, c.dx, c.dy, false⟩ := by
  obtain ⟨f0, f4, f8, f12⟩ := edaxFile_fields h
  obtain ⟨f17, f21, f25, fx, fy, f16⟩ := edaxFile_map_fields h hv
  unfold edaxHeader
  rw [uintAt_cut_of_le (by omega), uintAt_cut_of_le (pos := 4) (by omega),
    uintAt_cut_of_le (pos := 8) (by omega), uintAt_cut_of_le (pos := 12) (by omega),
    uintAt_cut_of_le (pos := 17) (by omega), uintAt_cut_of_le (pos := 21) (by omega),
    uintAt_cut_of_le (pos := 25) (by omega), bytesAt_cut_of_le (n := 16) (by omega),
    bytesAt_cut_of_le (pos := 26) (n := 8) (by omega),
    bytesAt_cut_of_le (pos := 34) (n := 8) (by omega), f0, f4, f8, f12, f17, f21, f25, fx, fy]
  simp only [if_neg h.version2, if_neg hv]
  rw [if_pos f16]
  simp [hh, h.dec_dx, h.dec_dy]

/-- Header of a file of version 1 or with a hexagonal grid, of which the first `k` bytes are
there. -/
theorem edaxHeader_cut_lead {enc : K → List Byte} {dec : List Byte → K} {width n : ℕ}
    {c : EdaxContent K} (b : Bool) (h : EdaxValid enc dec width c n)
    (hl : c.version = 1 ∨ c.hex = true) {k : ℕ} (hk : 16 ≤ k) (hm : c.version ≠ 1 → 42 ≤ k)
    (hkl : k ≤ (edaxFile enc width c).length) :
    edaxHeader b dec width ((edaxFile enc width c).take k)
      = match edaxCount b k c.start (c.sx * c.sy * width) with
        | .error e => .error e
        | .ok q => .ok ⟨c.sx, c.sy, c.start, q, 1, q, if c.version = 1 then 1 else c.dx,
            if c.version = 1 then 1 else c.dy, decide (c.version ≠ 1)⟩ := by
  obtain ⟨f0, f4, f8, f12⟩ := edaxFile_fields h
  have hlen : ((edaxFile enc width c).take k).length = k := by
    rw [List.length_take]; omega
  unfold edaxHeader
  rw [uintAt_cut_of_le (by omega), uintAt_cut_of_le (pos := 4) (by omega),
    uintAt_cut_of_le (pos := 8) (by omega), uintAt_cut_of_le (pos := 12) (by omega), f0, f4, f8, f12,
    hlen]
  simp only [if_neg h.version2]
  by_cases hv : c.version = 1
  · simp only [if_pos hv]
    cases edaxCount b k c.start (c.sx * c.sy * width) <;> simp [hv]
  · have h42 := hm hv
    have hh : c.hex = true := hl.resolve_left hv
    obtain ⟨f17, f21, f25, fx, fy, f16⟩ := edaxFile_map_fields h hv
    rw [uintAt_cut_of_le (pos := 17) (by omega), uintAt_cut_of_le (pos := 21) (by omega),
      uintAt_cut_of_le (pos := 25) (by omega), bytesAt_cut_of_le (n := 16) (by omega),
      bytesAt_cut_of_le (pos := 26) (n := 8) (by omega),
      bytesAt_cut_of_le (pos := 34) (n := 8) (by omega), f17, f21, f25, fx, fy]
    simp only [if_neg hv]
    rw [if_pos f16]
    cases edaxCount b k c.start (c.sx * c.sy * width) <;> simp [hv, hh, h.dec_dx, h.dec_dy]

theorem edaxRead_of_header_error {dec : List Byte → K} {width : ℕ} {file : List Byte} {b : Bool}
    (h : ∃ e, edaxHeader b dec width file = .error e) (nav : Option (ℕ × ℕ)) :
    ∃ e, edaxRead b dec width file nav = .error e := by
  obtain ⟨e, h⟩ := h
  refine ⟨e, ?_⟩
  unfold edaxRead
  rw [h]

/-- The first `j` pixels. -/
theorem edaxPixels_cut {enc : K → List Byte} {dec : List Byte → K} {width n : ℕ}
    {c : EdaxContent K} (h : EdaxValid enc dec width c n) {j k : ℕ} (hj : j ≤ c.pixels.length)
    (hk : c.start + j * width ≤ k) :
    bytesAt ((edaxFile enc width c).take k) c.start (j * width)
      = (c.pixels.take j).flatMap (leBytes width) := by
  rw [bytesAt_cut_of_le hk]
  have h1 := edaxPixels h (m := c.pixels.length) rfl
  have h2 : bytesAt (edaxFile enc width c) c.start (j * width)
      = (bytesAt (edaxFile enc width c) c.start (c.pixels.length * width)).take (j * width) := by
    unfold bytesAt
    rw [List.take_take, Nat.min_eq_left (Nat.mul_le_mul_right _ hj)]
  rw [h2]
  unfold EdaxContent.start
  rw [h1]
  conv_lhs => rw [← List.take_append_drop j c.pixels, List.flatMap_append]
  rw [List.take_append_of_le_length (by rw [flatMap_leBytes_length, List.length_take,
    Nat.min_eq_left hj]), List.take_of_length_le (by rw [flatMap_leBytes_length, List.length_take,
    Nat.min_eq_left hj])]

/-! ### Oxford -/

theorem leNats_cut (w : ℕ) : ∀ (m j : ℕ) (l : List Byte), w * m ≤ j →
    leNats w m (l.take j) = leNats w m l
  | 0, _, _, _ => rfl
  | m + 1, j, l, h => by
    rw [Nat.mul_add, Nat.mul_one] at h
    simp only [leNats]
    rw [List.take_take, Nat.min_eq_left (by omega), List.drop_take,
      leNats_cut w m (j - w) (l.drop w) (by omega)]

theorem leNats_fewer (w : ℕ) : ∀ (m n : ℕ) (l : List Byte), m ≤ n →
    leNats w m l = (leNats w n l).take m
  | 0, _, _, _ => by simp [leNats]
  | m + 1, 0, _, h => by omega
  | m + 1, n + 1, l, h => by
    simp only [leNats, List.take_succ_cons]
    rw [leNats_fewer w m n _ (by omega)]

theorem leNats_count (w : ℕ) : ∀ (m : ℕ) (l : List Byte), (leNats w m l).length = m
  | 0, _ => rfl
  | m + 1, l => by simp [leNats, leNats_count w m]

theorem firstJump_prefix (j : ℕ) : ∀ (l : List ℤ) (m i : ℕ), firstJump j (l.take m) = some i →
    firstJump j l = some i ∧ i + 1 < m
  | [], m, i, h => by simp [firstJump] at h
  | [a], m, i, h => by
    match m with
    | 0 => simp [firstJump] at h
    | m + 1 => simp [firstJump] at h
  | a :: b :: l, 0, i, h => by simp [firstJump] at h
  | a :: b :: l, 1, i, h => by simp [firstJump] at h
  | a :: b :: l, m + 2, i, h => by
    rw [List.take_succ_cons, List.take_succ_cons, firstJump] at h
    rw [firstJump]
    by_cases hj : (j : ℤ) < |b - a|
    · rw [if_pos hj] at h ⊢
      simp only [Option.some.injEq] at h
      exact ⟨by rw [h], by omega⟩
    · rw [if_neg hj] at h ⊢
      obtain ⟨i', h1, h2⟩ := Option.map_eq_some_iff.mp h
      rw [← List.take_succ_cons] at h1
      obtain ⟨h3, h4⟩ := firstJump_prefix j (b :: l) (m + 1) i' h1
      rw [h3]
      exact ⟨by rw [Option.map_some, h2], by omega⟩

/-- If the number of patterns is found in the first bytes of a file, it is the number found in the
file, and the table of positions is there. -/
theorem oxGuess_cut {v k n : ℕ} {file : List Byte} (h : oxGuess v (file.take k) = .ok n) :
    oxGuess v file = .ok n ∧ oxFirst v n ≤ k ∧ 8 ≤ k := by
  have hs : oxAssumedStarts v (file.take k) = (oxAssumedStarts v file).take
      (min ((file.take k).length / (1600 + oxHeaderSize v))
        (((file.take k).length - oxStartsPos v) / 8)) := by
    have hlen : (file.take k).length = min k file.length := List.length_take
    unfold oxAssumedStarts
    simp only
    rw [hlen, List.drop_take, leNats_cut 8 (min (min k file.length / (1600 + oxHeaderSize v))
      ((min k file.length - oxStartsPos v) / 8)) (k - oxStartsPos v) _ (by omega), ← List.map_take]
    congr 1
    refine leNats_fewer _ _ _ _ ?_
    refine le_min ?_ ?_
    · exact (min_le_left _ _).trans (Nat.div_le_div_right (min_le_right _ _))
    · refine (min_le_right _ _).trans (Nat.div_le_div_right ?_)
      omega
  unfold oxGuess at h ⊢
  rw [hs] at h
  cases hj : firstJump (oxMaxJump v) ((oxAssumedStarts v file).take
      (min ((file.take k).length / (1600 + oxHeaderSize v))
        (((file.take k).length - oxStartsPos v) / 8))) with
  | none => rw [hj] at h; cases h
  | some i =>
    rw [hj] at h
    obtain ⟨h1, h2⟩ := firstJump_prefix _ _ _ _ hj
    rw [h1]
    refine ⟨h, ?_⟩
    have hlen : (file.take k).length = min k file.length := List.length_take
    have hn : n ≤ i + 1 := by
      simp only [Except.ok.injEq] at h
      rw [← h]
      split <;> omega
    unfold oxFirst
    omega

theorem oxVersion_cut {file : List Byte} {k : ℕ} (h : 8 ≤ k) :
    oxVersion (file.take k) = oxVersion file := by
  unfold oxVersion
  rw [bytesAt_cut_of_le (by omega)]

/-- Footers in the first bytes of a file. -/
theorem oxFooter_cut (v : ℕ) (file : List Byte) (k pos : ℕ) :
    (∃ e, oxFooter v (file.take k) pos = .error e)
      ∨ oxFooter v (file.take k) pos = oxFooter v file pos := by
  unfold oxFooter
  by_cases h1 : v = 1
  · rw [if_pos h1, if_pos h1]; exact Or.inr rfl
  rw [if_neg h1, if_neg h1]
  by_cases h2 : 1 < v
  · rw [if_pos h2, if_pos h2]
    rcases uintAt_cut file k pos 1 with h | h
    · rw [h]; exact Or.inl ⟨_, rfl⟩
    · rw [h]
      cases uintAt file pos 1 with
      | none => exact Or.inr rfl
      | some fx =>
        simp only
        rcases uintAt_cut file k (pos + 1 + if fx ≠ 0 then 8 else 0) 1 with h | h
        · rw [h]; exact Or.inl ⟨_, rfl⟩
        · rw [h]; exact Or.inr rfl
  · rw [if_neg h2, if_neg h2]; exact Or.inr rfl

/-- Positions of the patterns that are in the file. -/
theorem oxTable_present {c : OxContent} (hc : c.Valid) : c.table.filter (· ≠ 0)
    = (c.order.filterMap id).map fun k => oxFirst c.version c.order.length + k * c.recordSize := by
  have hlen : (c.order.filterMap id).length = c.records.length := by
    rw [hc.order.length_eq, List.length_range]
  have hpos : ∀ k, oxFirst c.version c.order.length + k * c.recordSize ≠ 0 := by
    intro k
    have : c.order ≠ [] := by
      intro h
      rw [h] at hlen
      exact hc.records (List.length_eq_zero_iff.mp (by simpa using hlen.symm))
    have := List.length_pos_iff.mpr this
    unfold oxFirst
    omega
  rw [oxTable_eq hc]
  generalize hN : oxFirst c.version c.order.length = F at hpos
  generalize c.order = o
  induction o with
  | nil => rfl
  | cons a l ih =>
    match a with
    | none => simpa using ih
    | some k =>
      have := hpos k
      rw [List.map_cons, List.filter_cons_of_pos (p := fun x => decide (x ≠ 0))
        (a := F + k * c.recordSize) (decide_eq_true this), ih]
      rfl

end Kp
