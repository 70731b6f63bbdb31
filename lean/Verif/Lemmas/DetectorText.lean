import Verif.Lemmas.DetectorFile
import Verif.Lemmas.NpRound
import Verif.Spec.DetectorText
import Mathlib.Tactic.IntervalCases
import Mathlib.Data.List.TakeWhile

namespace Kp

set_option linter.unusedSectionVars false

open Spec

/-! ### Numbers -/

theorem isDigit_digitChar : ∀ {d : ℕ}, d < 10 → (Nat.digitChar d).isDigit = true := by
  intro d h
  interval_cases d <;> decide

theorem lastDigits_isDigit : ∀ (n f : ℕ), ∀ c ∈ lastDigits n f, c.isDigit = true
  | 0, _ => by simp [lastDigits]
  | n + 1, f => by
    intro c hc
    rw [lastDigits, List.mem_cons] at hc
    rcases hc with rfl | hc
    · exact isDigit_digitChar (Nat.mod_lt _ (by omega))
    · exact lastDigits_isDigit n f c hc

theorem lastDigits_length : ∀ (n f : ℕ), (lastDigits n f).length = n
  | 0, _ => rfl
  | n + 1, f => by rw [lastDigits, List.length_cons, lastDigits_length n f]

theorem digitChar_value : ∀ {d : ℕ}, d < 10 → (Nat.digitChar d).toNat - '0'.toNat = d := by
  intro d h
  interval_cases d <;> decide

theorem ofDigitChars_lastDigits : ∀ (n f a : ℕ),
    Nat.ofDigitChars 10 (lastDigits n f) a = a * 10 ^ n + f % 10 ^ n
  | 0, f, a => by simp [lastDigits, Nat.mod_one]
  | n + 1, f, a => by
    rw [lastDigits, Nat.ofDigitChars_cons, ofDigitChars_lastDigits n f,
      digitChar_value (Nat.mod_lt _ (by omega)), pow_succ, Nat.mod_mul]
    ring

section
variable {K : Type} [Field K]

/-- Digits parse to the number. -/
theorem parseUnsigned_digits {i : List Char} (hi : ∀ c ∈ i, c.isDigit = true) (hne : i ≠ []) :
    (parseUnsigned i : Option K) = some ((Nat.ofDigitChars 10 i 0 : ℕ) : K) := by
  have h1 : i.takeWhile Char.isDigit = i := List.takeWhile_eq_self_iff.2 hi
  have h2 : i.dropWhile Char.isDigit = [] := List.dropWhile_eq_nil_iff.2 hi
  unfold parseUnsigned
  simp only [h1, h2, if_neg hne]

theorem parseUnsigned_point {i f : List Char} (hi : ∀ c ∈ i, c.isDigit = true) (hne : i ≠ [])
    (hf : ∀ c ∈ f, c.isDigit = true) :
    (parseUnsigned (i ++ '.' :: f) : Option K) =
      some (((Nat.ofDigitChars 10 i 0 : ℕ) : K) + ((Nat.ofDigitChars 10 f 0 : ℕ) : K) / (10 : K) ^ f.length) := by
  have hd : Char.isDigit '.' = false := by decide
  have h1 : (i ++ '.' :: f).takeWhile Char.isDigit = i := by
    rw [List.takeWhile_append_of_pos hi, List.takeWhile_cons, hd]
    simp
  have h2 : (i ++ '.' :: f).dropWhile Char.isDigit = '.' :: f := by
    rw [List.dropWhile_append_of_pos hi, List.dropWhile_cons, hd]
    simp
  have h3 : f.all Char.isDigit = true := by simpa using hf
  unfold parseUnsigned
  simp only [h1, h2, h3]
  simp [hne]

end

section
variable {K : Type} [Field K] [LinearOrder K] [IsStrictOrderedRing K] [FloorRing K]

theorem npRound_nonneg {x : K} (h : 0 ≤ x) : 0 ≤ npRound x := by
  by_contra hc
  have h1 : npRound x ≤ -1 := by omega
  have h2 : (npRound x : K) ≤ -1 := by exact_mod_cast h1
  have h3 := (abs_le.1 (npRound_close x)).1
  linarith

theorem npRound_nonpos {x : K} (h : x < 0) : npRound x ≤ 0 := by
  by_contra hc
  have h1 : 1 ≤ npRound x := by omega
  have h2 : (1 : K) ≤ npRound x := by exact_mod_cast h1
  have h3 := (abs_le.1 (npRound_close x)).2
  linarith

/-- A number written without its sign. -/
theorem parseUnsigned_fixed (dec n : ℕ) :
    (parseUnsigned (Nat.toDigits 10 (n / 10 ^ dec) ++
      (if dec = 0 then [] else '.' :: lastDigits dec n)) : Option K) = some ((n : K) / 10 ^ dec) := by
  have hi : ∀ c ∈ Nat.toDigits 10 (n / 10 ^ dec), c.isDigit = true := fun c hc =>
    Nat.isDigit_of_mem_toDigits (by omega) (by omega) hc
  have hv : Nat.ofDigitChars 10 (Nat.toDigits 10 (n / 10 ^ dec)) 0 = n / 10 ^ dec :=
    Nat.ofDigitChars_ten_toDigits
  by_cases hz : dec = 0
  · subst hz
    rw [if_pos rfl, List.append_nil, parseUnsigned_digits hi Nat.toDigits_ne_nil, hv]
    simp
  · rw [if_neg hz, parseUnsigned_point hi Nat.toDigits_ne_nil (lastDigits_isDigit _ _), hv,
      ofDigitChars_lastDigits, lastDigits_length]
    have hp : ((10 : K) ^ dec) ≠ 0 := pow_ne_zero _ (by norm_num)
    have h := Nat.div_add_mod n (10 ^ dec)
    have h' : ((10 : K) ^ dec) * ((n / 10 ^ dec : ℕ) : K) + ((n % 10 ^ dec : ℕ) : K) = n := by
      exact_mod_cast congrArg (Nat.cast : ℕ → K) h
    congr 1
    rw [zero_mul, zero_add, ← h', eq_div_iff hp, add_mul, div_mul_cancel₀ _ hp]
    rw [mul_comm]

/-- A written number is read as its rounded value. -/
theorem parseDecimal_fixedText (dec : ℕ) (x : K) :
    parseDecimal (fixedText dec x) = some (fixedPoint dec x) := by
  have hp : (0 : K) < (10 : K) ^ dec := pow_pos (by norm_num) dec
  unfold fixedText fixedPoint
  by_cases hx : x < 0
  · have hn := npRound_nonpos (mul_neg_of_neg_of_pos hx hp)
    simp only [if_pos hx, List.cons_append, List.nil_append, parseDecimal]
    rw [parseUnsigned_fixed, Option.map_some]
    have : (((npRound (x * (10 : K) ^ dec)).natAbs : ℕ) : K) = -(npRound (x * (10 : K) ^ dec) : K) := by
      have h : (((npRound (x * (10 : K) ^ dec)).natAbs : ℕ) : ℤ) = -npRound (x * (10 : K) ^ dec) := by omega
      have h' := congrArg (Int.cast : ℤ → K) h
      rw [Int.cast_natCast] at h'
      rw [h']
      try push_cast
      try rfl
    rw [this, neg_div, neg_neg]
  · have hn := npRound_nonneg (mul_nonneg (not_lt.1 hx) hp.le)
    simp only [if_neg hx, List.nil_append]
    set n := (npRound (x * (10 : K) ^ dec)).natAbs with hnn
    have hpar : parseDecimal (K := K) (Nat.toDigits 10 (n / 10 ^ dec) ++
        (if dec = 0 then [] else '.' :: lastDigits dec n)) = parseUnsigned (Nat.toDigits 10 (n / 10 ^ dec) ++
        (if dec = 0 then [] else '.' :: lastDigits dec n)) := by
      unfold parseDecimal
      split
      · rename_i t ht
        exfalso
        obtain ⟨c, l, hl⟩ := List.exists_cons_of_ne_nil (Nat.toDigits_ne_nil (n := n / 10 ^ dec) (b := 10))
        rw [hl, List.cons_append, List.cons.injEq] at ht
        have hc : c.isDigit = true :=
          Nat.isDigit_of_mem_toDigits (b := 10) (n := n / 10 ^ dec) (by omega) (by omega) (by rw [hl]; simp)
        rw [ht.1] at hc
        revert hc
        decide
      · rfl
    rw [hpar, parseUnsigned_fixed]
    have : ((n : ℕ) : K) = (npRound (x * (10 : K) ^ dec) : K) := by
      have h : ((n : ℕ) : ℤ) = npRound (x * (10 : K) ^ dec) := by omega
      have h' := congrArg (Int.cast : ℤ → K) h
      rw [Int.cast_natCast] at h'
      rw [h']
      try push_cast
      try rfl
    rw [this]

/-- The characters of a number. -/
theorem fixedText_chars (dec : ℕ) (x : K) :
    ∀ c ∈ fixedText dec x, c ≠ ' ' ∧ c ≠ '\n' ∧ c ≠ '#' := by
  intro c hc
  have hdig : ∀ {c : Char}, c.isDigit = true → c ≠ ' ' ∧ c ≠ '\n' ∧ c ≠ '#' := fun h =>
    ⟨isDigit_ne h (by decide), isDigit_ne h (by decide), isDigit_ne h (by decide)⟩
  unfold fixedText at hc
  simp only [List.mem_append] at hc
  rcases hc with (hc | hc) | hc
  · split at hc
    · simp only [List.mem_singleton] at hc; subst hc; decide
    · simp at hc
  · exact hdig (Nat.isDigit_of_mem_toDigits (by omega) (by omega) hc)
  · split at hc
    · simp at hc
    · rw [List.mem_cons] at hc
      rcases hc with rfl | hc
      · decide
      · exact hdig (lastDigits_isDigit _ _ c hc)

theorem fixedText_ne_nil (dec : ℕ) (x : K) : fixedText dec x ≠ [] := by
  unfold fixedText
  simp only [ne_eq, List.append_eq_nil_iff, not_and]
  intro h
  exact absurd h.2 Nat.toDigits_ne_nil

theorem rowText_chars (dec : ℕ) (p : PC K) : ∀ c ∈ rowText dec p, c ≠ '\n' ∧ c ≠ '#' := by
  intro c hc
  unfold rowText at hc
  simp only [List.mem_append, List.mem_cons] at hc
  rcases hc with hc | rfl | hc | rfl | hc
  · exact (fixedText_chars dec _ c hc).2
  · decide
  · exact (fixedText_chars dec _ c hc).2
  · decide
  · exact (fixedText_chars dec _ c hc).2

theorem rowText_ne_nil (dec : ℕ) (p : PC K) : rowText dec p ≠ [] := by
  unfold rowText; simp

end

/-! ### Lines -/

theorem joinLines_nil : joinLines [] = [] := rfl

theorem joinLines_cons (l : List Char) (ls : List (List Char)) :
    joinLines (l :: ls) = l ++ '\n' :: joinLines ls := by simp [joinLines]

theorem joinLines_append (a b : List (List Char)) : joinLines (a ++ b) = joinLines a ++ joinLines b := by
  simp [joinLines]

theorem readLines_append {a : List Char} (ha : '\n' ∉ a) (b : List Char) :
    readLines (a ++ '\n' :: b) = (a ++ ['\n']) :: readLines b := by
  induction a with
  | nil => simp [readLines]
  | cons c a ih =>
    have hc : c ≠ '\n' := fun h => ha (by simp [h])
    rw [List.cons_append, readLines, if_neg hc, ih fun h => ha (by simp [h])]
    rfl

theorem readLines_single {a : List Char} (ha : '\n' ∉ a) : readLines a = if a = [] then [] else [a] := by
  induction a with
  | nil => rfl
  | cons c a ih =>
    have hc : c ≠ '\n' := fun h => ha (by simp [h])
    rw [readLines, if_neg hc, ih fun h => ha (by simp [h])]
    by_cases h : a = []
    · simp [h]
    · simp [h]

theorem readLines_join : ∀ {ls : List (List Char)} {p : List Char}, (∀ l ∈ ls, '\n' ∉ l) → '\n' ∉ p →
    readLines (joinLines ls ++ p) = ls.map (· ++ ['\n']) ++ (if p = [] then [] else [p])
  | [], p, _, hp => by rw [joinLines_nil, List.nil_append, readLines_single hp]; rfl
  | l :: ls, p, h, hp => by
    rw [joinLines_cons, List.append_assoc, List.cons_append, readLines_append (h l (by simp)),
      readLines_join (fun x hx => h x (by simp [hx])) hp]
    rfl

/-- The beginning of a text of lines: lines, and the beginning of the next. -/
theorem prefix_joinLines : ∀ {ls : List (List Char)} {t : List Char}, t <+: joinLines ls →
    ∃ a b p, ls = a ++ b ∧ t = joinLines a ++ p ∧ (p = [] ∨ ∃ l b', b = l :: b' ∧ p <+: l)
  | [], t, h => ⟨[], [], [], rfl, by simpa [joinLines_nil] using h, Or.inl rfl⟩
  | l :: ls, t, h => by
    rw [joinLines_cons] at h
    by_cases hl : t.length ≤ l.length
    · exact ⟨[], l :: ls, t, rfl, rfl, Or.inr ⟨l, ls, rfl, List.prefix_of_prefix_length_le h ⟨_, rfl⟩ hl⟩⟩
    · obtain ⟨u, hu⟩ := List.prefix_of_prefix_length_le (l₁ := l ++ ['\n'])
        (l₃ := l ++ '\n' :: joinLines ls) ⟨joinLines ls, by simp⟩ h (by simp; omega)
      subst hu
      have hu' : u <+: joinLines ls := by
        obtain ⟨w, hw⟩ := h
        refine ⟨w, ?_⟩
        simpa using hw
      obtain ⟨a, b, p, h1, h2, h3⟩ := prefix_joinLines hu'
      refine ⟨l :: a, b, p, by rw [h1]; rfl, ?_, h3⟩
      rw [h2, joinLines_cons]
      simp

/-! ### Columns -/

theorem splitSpace_append {a : List Char} (ha : ' ' ∉ a) (b : List Char) :
    splitSpace (a ++ ' ' :: b) = a :: splitSpace b := by
  induction a with
  | nil => simp [splitSpace]
  | cons c a ih =>
    have hc : c ≠ ' ' := fun h => ha (by simp [h])
    rw [List.cons_append, splitSpace, if_neg hc, ih fun h => ha (by simp [h])]

theorem splitSpace_single {a : List Char} (ha : ' ' ∉ a) : splitSpace a = [a] := by
  induction a with
  | nil => rfl
  | cons c a ih =>
    have hc : c ≠ ' ' := fun h => ha (by simp [h])
    rw [splitSpace, if_neg hc, ih fun h => ha (by simp [h])]

/-- The columns of a line without comment, with or without its line break. -/
theorem lineColumns_plain {l : List Char} (h : ∀ c ∈ l, c ≠ '\n' ∧ c ≠ '#') :
    lineColumns l = (splitSpace l).filter (· ≠ []) ∧
      lineColumns (l ++ ['\n']) = (splitSpace l).filter (· ≠ []) := by
  have h1 : ∀ c ∈ l, (c ≠ '#' && c ≠ '\n') = true := fun c hc => by
    simp [(h c hc).1, (h c hc).2]
  constructor
  · unfold lineColumns
    rw [List.takeWhile_eq_self_iff.2 h1]
  · unfold lineColumns
    rw [List.takeWhile_append_of_pos h1]
    simp

theorem lineColumns_comment (l : List Char) (h : l.head? = some '#') : lineColumns l = [] := by
  cases l with
  | nil => simp at h
  | cons c l =>
    simp only [List.head?_cons, Option.some.injEq] at h
    subst h
    simp [lineColumns, splitSpace]

/-- The columns of the beginning of a row of three columns. -/
theorem columns_prefix {x y z p : List Char} (hx : ' ' ∉ x) (hy : ' ' ∉ y) (hz : ' ' ∉ z)
    (hxn : x ≠ []) (hyn : y ≠ []) (hp : p <+: x ++ ' ' :: (y ++ ' ' :: z)) :
    ((splitSpace p).filter (· ≠ [])).length ≤ 2 ∨
      ∃ s, s ≠ [] ∧ s <+: z ∧ p = x ++ ' ' :: (y ++ ' ' :: s) ∧
        (splitSpace p).filter (· ≠ []) = [x, y, s] := by
  have key : ∀ {a b q : List Char}, q <+: a ++ ' ' :: b → q <+: a ∨ ∃ s, q = a ++ ' ' :: s ∧ s <+: b := by
    intro a b q h
    by_cases hl : q.length ≤ a.length
    · exact Or.inl (List.prefix_of_prefix_length_le h ⟨_, rfl⟩ hl)
    · obtain ⟨u, hu⟩ := List.prefix_of_prefix_length_le (l₁ := a ++ [' '])
        (l₃ := a ++ ' ' :: b) ⟨b, by simp⟩ h (by simp; omega)
      subst hu
      obtain ⟨w, hw⟩ := h
      exact Or.inr ⟨u, by simp, w, by simpa using hw⟩
  have nsp : ∀ {a q : List Char}, ' ' ∉ a → q <+: a → ' ' ∉ q := fun h hq hm => h (hq.subset hm)
  rcases key hp with h | ⟨q, rfl, hq⟩
  · left
    rw [splitSpace_single (nsp hx h)]
    exact le_trans (List.length_filter_le _ _) (by simp)
  · rcases key hq with h | ⟨s, rfl, hs⟩
    · left
      rw [splitSpace_append hx, splitSpace_single (nsp hy h)]
      exact le_trans (List.length_filter_le _ _) (by simp)
    · rw [splitSpace_append hx, splitSpace_append hy, splitSpace_single (nsp hz hs)]
      by_cases hsn : s = []
      · left; subst hsn; simp [hxn, hyn]
      · exact Or.inr ⟨s, hsn, hs, rfl, by simp [hxn, hyn, hsn]⟩

theorem mapM_length {α β : Type} {f : α → Option β} : ∀ {l : List α} {v : List β},
    l.mapM f = some v → v.length = l.length
  | [], v, h => by cases h; rfl
  | a :: l, v, h => by
    rw [List.mapM_cons] at h
    cases ha : f a with
    | none => rw [ha] at h; cases h
    | some b =>
      cases hl : l.mapM f with
      | none => rw [ha, hl] at h; cases h
      | some w =>
        rw [ha, hl] at h
        cases h
        simp [mapM_length hl]

/-! ### Loading -/

/-- Header lines. -/
def HeaderLike (h : List (List Char)) : Prop := ∀ l ∈ h, l.head? = some '#' ∧ '\n' ∉ l

theorem head?_append_break {l : List Char} (h : l.head? = some '#') :
    (l ++ ['\n']).head? = some '#' := by
  cases l with
  | nil => simp at h
  | cons c l => simpa using h

section
variable {K : Type} [Field K]

/-- No numbers are read from the beginning of a header. -/
theorem loadTxt_header {h : List (List Char)} (hh : HeaderLike h) {t : List Char} (ht : t <+: joinLines h) :
    loadTxt (K := K) t = .ok [] := by
  obtain ⟨a, b, p, rfl, rfl, hp⟩ := prefix_joinLines ht
  have hpc : p = [] ∨ (p.head? = some '#' ∧ '\n' ∉ p) := by
    rcases hp with h | ⟨l, b', rfl, hl⟩
    · exact Or.inl h
    · obtain ⟨h1, h2⟩ := hh l (by simp)
      by_cases hn : p = []
      · exact Or.inl hn
      · right
        refine ⟨?_, fun hm => h2 (hl.subset hm)⟩
        obtain ⟨u, rfl⟩ := hl
        cases p with
        | nil => exact absurd rfl hn
        | cons c p => simpa using h1
  have hr : (((readLines (joinLines a ++ p)).map lineColumns).filter (· ≠ [])) = [] := by
    rw [readLines_join (fun l hl => (hh l (by simp [hl])).2) (by rcases hpc with rfl | h <;> simp_all)]
    rw [List.filter_eq_nil_iff]
    intro c hc
    simp only [List.map_append, List.map_map, List.mem_append, List.mem_map] at hc
    rcases hc with ⟨l, hl, rfl⟩ | ⟨l, hl, rfl⟩
    · have := lineColumns_comment _ (head?_append_break (hh l (by simp [hl])).1)
      simp [Function.comp, this]
    · split at hl
      · simp at hl
      · rename_i hne
        simp only [List.mem_singleton] at hl
        subst hl
        rcases hpc with rfl | h
        · exact absurd rfl hne
        · simp [lineColumns_comment _ h.1]
  unfold loadTxt
  rw [hr]
  rfl

end

section
variable {K : Type} [Field K] [LinearOrder K] [IsStrictOrderedRing K] [FloorRing K]

/-- The columns of a row. -/
theorem columns_row (dec : ℕ) (p : PC K) :
    (splitSpace (rowText dec p)).filter (· ≠ []) = [fixedText dec p.x, fixedText dec p.y, fixedText dec p.z] := by
  have hs : ∀ x : K, ' ' ∉ fixedText dec x := fun x h => (fixedText_chars dec x _ h).1 rfl
  unfold rowText
  rw [splitSpace_append (hs _), splitSpace_append (hs _), splitSpace_single (hs _)]
  simp [fixedText_ne_nil]

theorem rowText_no_break (dec : ℕ) (pcs : List (PC K)) : ∀ l ∈ pcs.map (rowText dec), '\n' ∉ l := by
  intro l hl
  obtain ⟨p, -, rfl⟩ := List.mem_map.1 hl
  exact fun h => (rowText_chars dec p _ h).1 rfl

/-- The lines of the header, some rows and the beginning of a line. -/
theorem readLines_file {h : List (List Char)} (hh : HeaderLike h) (dec : ℕ) (pcs : List (PC K))
    {p : List Char} (hp : ∀ c ∈ p, c ≠ '\n' ∧ c ≠ '#') :
    readLines (joinLines (h ++ pcs.map (rowText dec)) ++ p) =
      h.map (· ++ ['\n']) ++ (pcs.map (fun q => rowText dec q ++ ['\n']) ++ (if p = [] then [] else [p])) := by
  rw [readLines_join (by
    intro l hl
    rcases List.mem_append.1 hl with hl | hl
    · exact (hh l hl).2
    · exact rowText_no_break dec pcs l hl) (fun hm => (hp _ hm).1 rfl)]
  simp [Function.comp_def]

theorem headerLines_file {h : List (List Char)} (hh : HeaderLike h) (dec : ℕ) (pcs : List (PC K))
    {p : List Char} (hp : ∀ c ∈ p, c ≠ '\n' ∧ c ≠ '#') :
    headerLines (joinLines (h ++ pcs.map (rowText dec)) ++ p) = h := by
  unfold headerLines
  rw [readLines_file hh dec pcs hp, List.takeWhile_append_of_pos (by
    intro l hl
    obtain ⟨l', hl', rfl⟩ := List.mem_map.1 hl
    simpa using head?_append_break (hh l' hl').1)]
  have hn : ∀ l ∈ pcs.map (fun q => rowText dec q ++ ['\n']) ++ (if p = [] then [] else [p]),
      l.head? ≠ some '#' := by
    intro l hl he
    rcases List.mem_append.1 hl with hl | hl
    · obtain ⟨q, -, rfl⟩ := List.mem_map.1 hl
      have hm : '#' ∈ rowText dec q ++ ['\n'] := List.mem_of_mem_head? he
      rcases List.mem_append.1 hm with hm | hm
      · exact (rowText_chars dec q _ hm).2 rfl
      · revert hm; decide
    · split at hl
      · simp at hl
      · simp only [List.mem_singleton] at hl
        subst hl
        exact (hp _ (List.mem_of_mem_head? he)).2 rfl
  have ht : (pcs.map (fun q => rowText dec q ++ ['\n']) ++ (if p = [] then [] else [p])).takeWhile
      (fun line => decide (line.head? = some '#')) = [] := by
    generalize pcs.map (fun q => rowText dec q ++ ['\n']) ++ (if p = [] then [] else [p]) = r at hn
    cases r with
    | nil => rfl
    | cons l r => simp [hn l (by simp)]
  rw [ht, List.append_nil, List.map_map]
  conv_rhs => rw [← List.map_id h]
  refine List.map_congr_left fun l _ => ?_
  simp

/-- The rows of numbers. -/
def pcRows (dec : ℕ) (pcs : List (PC K)) : List (List K) :=
  pcs.map fun p => [fixedPoint dec p.x, fixedPoint dec p.y, fixedPoint dec p.z]

theorem pcRows_flatten (dec : ℕ) (pcs : List (PC K)) :
    (pcRows dec pcs).flatten = pcNumbers (pcs.map (fixedRow dec)) := by
  unfold pcRows pcNumbers
  rw [List.flatMap_map, List.flatMap_def]
  rfl

theorem columns_file {h : List (List Char)} (hh : HeaderLike h) (dec : ℕ) (pcs : List (PC K))
    {p : List Char} (hp : ∀ c ∈ p, c ≠ '\n' ∧ c ≠ '#') :
    ((readLines (joinLines (h ++ pcs.map (rowText dec)) ++ p)).map lineColumns).filter (· ≠ []) =
      pcs.map (fun q => [fixedText dec q.x, fixedText dec q.y, fixedText dec q.z]) ++
        (if (splitSpace p).filter (· ≠ []) = [] then [] else [(splitSpace p).filter (· ≠ [])]) := by
  rw [readLines_file hh dec pcs hp]
  rw [List.map_append, List.filter_append, List.map_append, List.filter_append]
  have h1 : ((h.map (· ++ ['\n'])).map lineColumns).filter (· ≠ []) = [] := by
    rw [List.filter_eq_nil_iff]
    intro c hc
    rw [List.map_map] at hc
    obtain ⟨l, hl, rfl⟩ := List.mem_map.1 hc
    simp [Function.comp, lineColumns_comment _ (head?_append_break (hh l hl).1)]
  have h2 : (pcs.map (fun q => rowText dec q ++ ['\n'])).map lineColumns =
      pcs.map (fun q => [fixedText dec q.x, fixedText dec q.y, fixedText dec q.z]) := by
    rw [List.map_map]
    refine List.map_congr_left fun q _ => ?_
    simp only [Function.comp]
    rw [(lineColumns_plain (rowText_chars dec q)).2, columns_row]
  have h3 : (pcs.map (fun q => [fixedText dec q.x, fixedText dec q.y, fixedText dec q.z])).filter (· ≠ []) =
      pcs.map (fun q => [fixedText dec q.x, fixedText dec q.y, fixedText dec q.z]) := by
    rw [List.filter_eq_self]
    intro c hc
    obtain ⟨q, -, rfl⟩ := List.mem_map.1 hc
    simp
  rw [h1, h2, h3, List.nil_append]
  congr 1
  by_cases hn : p = []
  · subst hn; simp [splitSpace]
  · rw [if_neg hn, List.map_singleton, (lineColumns_plain hp).1]
    by_cases hc : (splitSpace p).filter (· ≠ []) = []
    · rw [if_pos hc, hc]; simp
    · rw [if_neg hc, List.filter_cons_of_pos (by simpa using hc)]
      simp

theorem mapM_rows (dec : ℕ) (pcs : List (PC K)) :
    (pcs.map (fun q => [fixedText dec q.x, fixedText dec q.y, fixedText dec q.z])).mapM
      (fun r => r.mapM (parseDecimal (K := K))) = some (pcRows dec pcs) := by
  have : ∀ q : PC K, [fixedText dec q.x, fixedText dec q.y, fixedText dec q.z].mapM (parseDecimal (K := K)) =
      some [fixedPoint dec q.x, fixedPoint dec q.y, fixedPoint dec q.z] := by
    intro q
    simp only [List.mapM_cons, List.mapM_nil, parseDecimal_fixedText]
    rfl
  induction pcs with
  | nil => rfl
  | cons q pcs ih =>
    rw [List.map_cons, List.mapM_cons, this q, ih]
    rfl

theorem pcRows_equal (dec : ℕ) (pcs : List (PC K)) (w : List K) (hw : w.length = 3 ∨ pcs = []) :
    (pcRows dec pcs ++ [w]).all
      (fun r => decide (r.length = ((pcRows dec pcs ++ [w]).headD []).length)) = true := by
  rcases hw with hw | rfl
  · rw [List.all_eq_true]
    have h3 : ∀ r ∈ pcRows dec pcs ++ [w], r.length = 3 := by
      intro r hr
      rcases List.mem_append.1 hr with hr | hr
      · obtain ⟨q, -, rfl⟩ := List.mem_map.1 hr
        rfl
      · rw [List.mem_singleton.1 hr, hw]
    intro r hr
    have hd : ((pcRows dec pcs ++ [w]).headD []).length = 3 := by
      cases pcs with
      | nil => simpa [pcRows] using hw
      | cons q pcs => rfl
    exact decide_eq_true ((h3 r hr).trans hd.symm)
  · simp [pcRows]

/-- Rows and no further columns. -/
theorem loadTxt_rows {h : List (List Char)} (hh : HeaderLike h) (dec : ℕ) (pcs : List (PC K))
    {p : List Char} (hp : ∀ c ∈ p, c ≠ '\n' ∧ c ≠ '#') (hc : (splitSpace p).filter (· ≠ []) = []) :
    loadTxt (K := K) (joinLines (h ++ pcs.map (rowText dec)) ++ p) = .ok (pcRows dec pcs) := by
  unfold loadTxt
  rw [columns_file hh dec pcs hp, if_pos hc, List.append_nil, mapM_rows]
  refine (if_pos ?_).trans rfl
  rw [List.all_eq_true]
  intro r hr
  obtain ⟨q, -, rfl⟩ := List.mem_map.1 hr
  cases pcs with
  | nil => simp [pcRows] at hr
  | cons q' pcs => simp [pcRows]

/-- Rows and further columns. -/
theorem loadTxt_more {h : List (List Char)} (hh : HeaderLike h) (dec : ℕ) (pcs : List (PC K))
    {p : List Char} (hp : ∀ c ∈ p, c ≠ '\n' ∧ c ≠ '#') (hc : (splitSpace p).filter (· ≠ []) ≠ []) :
    (∃ e, loadTxt (K := K) (joinLines (h ++ pcs.map (rowText dec)) ++ p) = .error e) ∨
      ∃ w, ((splitSpace p).filter (· ≠ [])).mapM (parseDecimal (K := K)) = some w ∧
        loadTxt (joinLines (h ++ pcs.map (rowText dec)) ++ p) = .ok (pcRows dec pcs ++ [w]) := by
  unfold loadTxt
  rw [columns_file hh dec pcs hp, if_neg hc, List.mapM_append, mapM_rows, List.mapM_cons]
  cases hw : ((splitSpace p).filter (· ≠ [])).mapM (parseDecimal (K := K)) with
  | none => exact Or.inl ⟨.valueError, rfl⟩
  | some w =>
    by_cases ha : (pcRows dec pcs ++ [w]).all
      (fun r => decide (r.length = ((pcRows dec pcs ++ [w]).headD []).length)) = true
    · exact Or.inr ⟨w, rfl, if_pos ha⟩
    · exact Or.inl ⟨.valueError, if_neg ha⟩

/-- Rows and three further columns which are numbers. -/
theorem loadTxt_three {h : List (List Char)} (hh : HeaderLike h) (dec : ℕ) (pcs : List (PC K))
    {p : List Char} (hp : ∀ c ∈ p, c ≠ '\n' ∧ c ≠ '#') (hc : (splitSpace p).filter (· ≠ []) ≠ [])
    {w : List K} (hw : ((splitSpace p).filter (· ≠ [])).mapM (parseDecimal (K := K)) = some w)
    (h3 : w.length = 3) :
    loadTxt (joinLines (h ++ pcs.map (rowText dec)) ++ p) = .ok (pcRows dec pcs ++ [w]) := by
  unfold loadTxt
  rw [columns_file hh dec pcs hp, if_neg hc, List.mapM_append, mapM_rows, List.mapM_cons, hw]
  exact if_pos (pcRows_equal dec pcs w (Or.inl h3))

theorem loadDetectorText_error (ft : FloatText K) {t : List Char} {e : Err}
    (h : loadTxt (K := K) t = .error e) : loadDetectorText ft t = .error e := by
  unfold loadDetectorText
  rw [h]
  rfl

/-- The parameters are read from the whole header. -/
theorem loadDetectorText_header (ft : FloatText K) (d : Detector K) (convention : String)
    (version time : List Char) {t : List Char} {rows : List (List K)} (h : loadTxt t = .ok rows)
    (hd : headerLines t = detHeader ft d convention version time) :
    loadDetectorText ft t = (reshapePc rows (parseTuple (tupleText d.nav))).map fun nc =>
      ⟨d.nrows, d.ncols, d.pxSize, d.binning, d.tilt, d.azimuthal, d.twist, d.sampleTilt, convention, nc.1,
        nc.2, rows.flatten⟩ := by
  obtain ⟨h1, h2, h3, h4, h5, h6, h7, h8, h9⟩ := headerValue_written ft d convention version time
  have p := fun x => parse_rstrip ft x
  have e2 := parseTuple_many d.nrows d.ncols []
  unfold loadDetectorText headerShape headerFloat
  simp only [h, hd, bind, Except.bind, h1, h2, h3, h4, h5, h6, h7, h8, h9, (p _).1, (p _).2, e2,
    String.ofList_toList]
  cases reshapePc rows (parseTuple (tupleText d.nav)) <;> rfl

/-- Without numbers there are none in what is loaded. -/
theorem loadDetectorText_empty (ft : FloatText K) {t : List Char} (h : loadTxt (K := K) t = .ok [])
    {l : LoadedText K} (hl : loadDetectorText ft t = .ok l) : l.numbers = [] := by
  unfold loadDetectorText at hl
  rw [h] at hl
  simp only [bind, Except.bind] at hl
  repeat' (split at hl <;> try cases hl)
  rfl

end

end Kp
