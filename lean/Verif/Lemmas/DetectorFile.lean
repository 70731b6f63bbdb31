import Verif.Model.DetectorFile
import Verif.Lemmas.NpRound

namespace Kp

theorem isDigit_ne {c d : Char} (h : c.isDigit = true) (hd : d.isDigit = false) : c ≠ d := by
  rintro rfl; rw [h] at hd; cases hd

theorem dropWhile_of_head {α : Type} {p : α → Bool} {a : α} {l : List α} (h : p a = false) :
    (a :: l).dropWhile p = a :: l := by simp [h]

/-- Digits parse to the number. -/
theorem pyIntText_digits (n : ℕ) : pyIntText (Nat.toDigits 10 n) = some n := by
  have hd : ∀ c ∈ Nat.toDigits 10 n, c.isDigit = true := fun c hc =>
    Nat.isDigit_of_mem_toDigits (by omega) (by omega) hc
  have hne : Nat.toDigits 10 n ≠ [] := Nat.toDigits_ne_nil
  have hs : ∀ (l : List Char), (∀ c ∈ l, c.isDigit = true) → l.dropWhile (· == ' ') = l := by
    intro l hl
    cases l with
    | nil => rfl
    | cons a l =>
      apply dropWhile_of_head
      have := hl a (by simp)
      have := isDigit_ne this (d := ' ') (by decide)
      simpa using this
  unfold pyIntText
  rw [hs _ hd, hs _ (fun c hc => hd c (List.mem_reverse.1 hc)), List.reverse_reverse]
  simp only
  rw [if_pos ⟨hne, by simpa using hd⟩, Nat.ofDigitChars_toDigits (by omega) (by omega)]

/-- ... also after a space. -/
theorem pyIntText_space_digits (n : ℕ) : pyIntText (' ' :: Nat.toDigits 10 n) = some n := by
  rw [← pyIntText_digits n]
  unfold pyIntText
  simp

/-- Splitting a text without commas, followed by a comma. -/
theorem splitComma_append {a : List Char} (ha : ',' ∉ a) (b : List Char) :
    splitComma (a ++ ',' :: b) = a :: splitComma b := by
  induction a with
  | nil => simp [splitComma]
  | cons c a ih =>
    have hc : c ≠ ',' := fun h => ha (by simp [h])
    rw [List.cons_append]
    conv_lhs => rw [splitComma]
    rw [if_neg hc, ih fun h => ha (by simp [h])]

theorem splitComma_single {a : List Char} (ha : ',' ∉ a) : splitComma a = [a] := by
  induction a with
  | nil => rfl
  | cons c a ih =>
    have hc : c ≠ ',' := fun h => ha (by simp [h])
    rw [splitComma, if_neg hc, ih fun h => ha (by simp [h])]

theorem comma_not_digit (n : ℕ) : ',' ∉ Nat.toDigits 10 n := by
  intro h
  have := Nat.isDigit_of_mem_toDigits (b := 10) (by omega) (by omega) h
  revert this
  decide

theorem splitComma_rest : ∀ (a : List Char) (l : List ℕ), ',' ∉ a →
    splitComma (a ++ (l.map fun n => ',' :: ' ' :: Nat.toDigits 10 n).flatten) =
      a :: l.map fun n => ' ' :: Nat.toDigits 10 n
  | a, [], ha => by simpa using splitComma_single ha
  | a, n :: l, ha => by
    simp only [List.map_cons, List.flatten_cons, List.cons_append]
    rw [splitComma_append ha]
    congr 1
    have := splitComma_rest (' ' :: Nat.toDigits 10 n) l (by
      have := comma_not_digit n
      simp [this])
    simpa using this

/-- The text of a tuple of one number is not parsed. -/
theorem parseTuple_single (a : ℕ) : parseTuple (tupleText [a]) = none := by
  have h1 : (tupleText [a]).drop 1 = (Nat.toDigits 10 a ++ [',']) ++ [')'] := by
    simp [tupleText]
  unfold parseTuple
  rw [h1, List.dropLast_concat, splitComma_append (comma_not_digit a)]
  have h2 : splitComma ([] : List Char) = [[]] := rfl
  rw [h2, List.mapM_cons, List.mapM_cons]
  have h3 : pyIntText [] = none := by decide
  rw [pyIntText_digits, h3]
  rfl

theorem mapM_some {α β : Type} {f : α → Option β} {g : α → β} : ∀ {l : List α},
    (∀ a ∈ l, f a = some (g a)) → l.mapM f = some (l.map g)
  | [], _ => rfl
  | a :: l, h => by
    rw [List.mapM_cons, h a (by simp), mapM_some fun x hx => h x (by simp [hx])]
    rfl

/-- The text of a tuple of two or more numbers is parsed to them. -/
theorem parseTuple_many (a b : ℕ) (l : List ℕ) :
    parseTuple (tupleText (a :: b :: l)) = some (a :: b :: l) := by
  have h1 : (tupleText (a :: b :: l)).drop 1 =
      (Nat.toDigits 10 a ++ ((b :: l).map fun n => ',' :: ' ' :: Nat.toDigits 10 n).flatten) ++
        [')'] := by
    simp [tupleText]
  unfold parseTuple
  rw [h1, List.dropLast_concat, splitComma_rest _ _ (comma_not_digit a), List.mapM_cons,
    pyIntText_digits]
  have h2 : (List.map (fun n => ' ' :: Nat.toDigits 10 n) (b :: l)).mapM pyIntText =
      some (b :: l) := by
    generalize (b :: l) = m
    induction m with
    | nil => rfl
    | cons n m ih =>
      rw [List.map_cons, List.mapM_cons, pyIntText_space_digits, ih]
      rfl
  rw [h2]
  rfl

theorem rstripDeg_append {l : List Char} {c : Char} (hc : c ∉ [' ', 'd', 'e', 'g'])
    {s : List Char} (hs : ∀ x ∈ s, x ∈ [' ', 'd', 'e', 'g']) :
    rstripDeg (l ++ [c] ++ s) = l ++ [c] := by
  unfold rstripDeg
  rw [List.reverse_append, List.dropWhile_append_of_pos (by
    intro x hx
    simpa using hs x (List.mem_reverse.1 hx))]
  rw [List.reverse_append]
  simp only [List.reverse_cons, List.reverse_nil, List.nil_append, List.singleton_append]
  rw [dropWhile_of_head (by simpa using hc)]
  simp

variable {K : Type}

/-- Numbers are read back, with or without the unit. -/
theorem parse_rstrip (ft : FloatText K) (x : K) :
    ft.parse (rstripDeg (ft.repr x)) = some x ∧
      ft.parse (rstripDeg (ft.repr x ++ degText)) = some x := by
  obtain ⟨l, c, h, hc⟩ := ft.repr_last x
  have h1 := rstripDeg_append (l := l) hc (s := []) (by simp)
  have h2 := rstripDeg_append (l := l) hc (s := degText) (by simp [degText])
  rw [List.append_nil] at h1
  rw [h, h1, h2, ← h, ft.parse_repr]
  exact ⟨rfl, rfl⟩

/-- A key line is matched. -/
theorem matchKey_keyLine {key : List Char} (hk : ∀ c ∈ key, wordChar c = true) (hne : key ≠ [])
    (v : List Char) :
    matchKey (((keyLine key v).drop 2).dropWhile (· == ' ')) = some (key, v) := by
  have h1 : ((keyLine key v).drop 2).dropWhile (· == ' ') = key ++ ':' :: ' ' :: v := by
    cases key with
    | nil => exact absurd rfl hne
    | cons c key =>
      have hc := hk c (by simp)
      have : (c == ' ') = false := by
        rw [beq_eq_false_iff_ne]
        rintro rfl
        revert hc
        decide
      simp [keyLine, this]
  have hw : wordChar ':' = false := by decide
  have h2 : (key ++ ':' :: ' ' :: v).takeWhile wordChar = key := by
    rw [List.takeWhile_append_of_pos hk]
    simp [hw]
  have h3 : (key ++ ':' :: ' ' :: v).dropWhile wordChar = ':' :: ' ' :: v := by
    rw [List.dropWhile_append_of_pos hk]
    simp [hw]
  rw [h1]
  unfold matchKey
  rw [h2, h3]
  cases key with
  | nil => exact absurd rfl hne
  | cons c key => rfl

/-- The values of all keys of the written header. -/
theorem headerValue_written (ft : FloatText K) (d : Detector K) (conv : String)
    (version time : List Char) :
    let h := detHeader ft d conv version time
    headerValue h kShape = some (tupleText [d.nrows, d.ncols]) ∧
    headerValue h kPxSize = some (ft.repr d.pxSize) ∧
    headerValue h kBinning = some (ft.repr d.binning) ∧
    headerValue h kTilt = some (ft.repr d.tilt ++ degText) ∧
    headerValue h kAzimuthal = some (ft.repr d.azimuthal ++ degText) ∧
    headerValue h kTwist = some (ft.repr d.twist ++ degText) ∧
    headerValue h kSampleTilt = some (ft.repr d.sampleTilt ++ degText) ∧
    headerValue h kConvention = some conv.toList ∧
    headerValue h kNavShape = some (tupleText d.nav) := by
  have m0 : matchKey (List.dropWhile (· == ' ') (List.drop 2
      ['#', ' ', 'E', 'B', 'S', 'D', 'D', 'e', 't', 'e', 'c', 't', 'o', 'r'])) = none := by decide
  have m1 : matchKey (List.dropWhile (· == ' ') (List.drop 2 ['#', ' '])) = none := by decide
  have m2 : matchKey (List.dropWhile (· == ' ') (List.drop 2 (['#', ' ', 'k', 'i', 'k', 'u', 'c',
      'h', 'i', 'p', 'y', ' ', 'v', 'e', 'r', 's', 'i', 'o', 'n', ':', ' '] ++ version))) =
      none := by rfl
  have m3 : matchKey (List.dropWhile (· == ' ') (List.drop 2 (['#', ' ', 'T', 'i', 'm', 'e', ':',
      ' '] ++ time))) = some (['T', 'i', 'm', 'e'], time) := by rfl
  have m4 : matchKey (List.dropWhile (· == ' ') (List.drop 2 ['#', ' ', 'C', 'o', 'l', 'u', 'm',
      'n', ' ', 'n', 'a', 'm', 'e', 's', ':', ' ', 'P', 'C', 'x', ',', ' ', 'P', 'C', 'y', ',',
      ' ', 'P', 'C', 'z'])) = none := by decide
  have k1 := fun v => matchKey_keyLine (key := kShape) (by decide) (by decide) v
  have k2 := fun v => matchKey_keyLine (key := kPxSize) (by decide) (by decide) v
  have k3 := fun v => matchKey_keyLine (key := kBinning) (by decide) (by decide) v
  have k4 := fun v => matchKey_keyLine (key := kTilt) (by decide) (by decide) v
  have k5 := fun v => matchKey_keyLine (key := kAzimuthal) (by decide) (by decide) v
  have k6 := fun v => matchKey_keyLine (key := kTwist) (by decide) (by decide) v
  have k7 := fun v => matchKey_keyLine (key := kSampleTilt) (by decide) (by decide) v
  have k8 := fun v => matchKey_keyLine (key := kConvention) (by decide) (by decide) v
  have k9 := fun v => matchKey_keyLine (key := kNavShape) (by decide) (by decide) v
  intro h
  have key : ∀ k : List Char, headerValue h k = ([(kShape, tupleText [d.nrows, d.ncols]),
      (kPxSize, ft.repr d.pxSize), (kBinning, ft.repr d.binning),
      (kTilt, ft.repr d.tilt ++ degText), (kAzimuthal, ft.repr d.azimuthal ++ degText),
      (kTwist, ft.repr d.twist ++ degText), (kSampleTilt, ft.repr d.sampleTilt ++ degText),
      (kConvention, conv.toList), (kNavShape, tupleText d.nav),
      (['T', 'i', 'm', 'e'], time)].filterMap fun p =>
        if p.1 = k then some p.2 else none).getLast? := by
    intro k
    show headerValue (detHeader ft d conv version time) k = _
    unfold headerValue detHeader
    congr 1
  refine ⟨?_, ?_, ?_, ?_, ?_, ?_, ?_, ?_, ?_⟩ <;> rw [key] <;> rfl

variable [Field K] [LinearOrder K] [IsStrictOrderedRing K] [FloorRing K]

/-- A written number is within half a unit of its last decimal. -/
theorem fixedPoint_close (dec : ℕ) (x : K) :
    |fixedPoint dec x - x| ≤ 1 / (2 * (10 : K) ^ dec) := by
  have hp : (0 : K) < (10 : K) ^ dec := pow_pos (by norm_num) dec
  have h := npRound_close (x * (10 : K) ^ dec)
  unfold fixedPoint
  have e : (npRound (x * (10 : K) ^ dec) : K) / (10 : K) ^ dec - x =
      ((npRound (x * (10 : K) ^ dec) : K) - x * (10 : K) ^ dec) / (10 : K) ^ dec := by
    field_simp
  rw [e, abs_div, abs_of_pos hp, div_le_iff₀ hp]
  refine h.trans (le_of_eq ?_)
  field_simp

end Kp
