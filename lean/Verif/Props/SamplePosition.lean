import Verif.Model.SamplePosition
import Verif.Props.PcConventions

/-
C92: coordinates at one sample position.
-/

namespace Kp

variable {K : Type} [Field K]

/-- Specification: `j` is the position along an axis of `n` items which Python means by `i`:
counted from the start, or from the end if negative. -/
def MeansIndex (n : ℕ) (i : ℤ) (j : ℕ) : Prop :=
  j < n ∧ (i = j ∨ i = (j : ℤ) - n)

/-- Specification: `pos` names the map position `j` of a map of shape `nav`: an integer or a tuple
of one integer in a line, a tuple of two integers in a plane. -/
def NamesPosition : List ℕ → PyPos → List ℕ → Prop
  | [n], .int i, j => ∃ a, j = [a] ∧ MeansIndex n i a
  | [n], .tuple [.int i], j => ∃ a, j = [a] ∧ MeansIndex n i a
  | [ny, nx], .tuple [.int y, .int x], j =>
    ∃ a b, j = [a, b] ∧ MeansIndex ny y a ∧ MeansIndex nx x b
  | _, _, _ => False

theorem axisIndex_iff (n : ℕ) (i : ℤ) (j : ℕ) : axisIndex n (.int i) = .ok j ↔ MeansIndex n i j := by
  unfold axisIndex MeansIndex
  by_cases h1 : 0 ≤ i ∧ i < n
  · simp only [if_pos h1, Except.ok.injEq]
    omega
  · simp only [if_neg h1]
    by_cases h2 : -(n : ℤ) ≤ i ∧ i < 0
    · simp only [if_pos h2, Except.ok.injEq]
      omega
    · simp only [if_neg h2, reduceCtorEq, false_iff]
      omega

theorem arrayIndex_one (n : ℕ) (x : PosItem) (j : List ℕ) :
    arrayIndex [n] [x] = .ok j ↔ ∃ a, j = [a] ∧ axisIndex n x = .ok a := by
  unfold arrayIndex
  cases h : axisIndex n x with
  | error e => simp [List.mapM_cons, h, bind, Except.bind]
  | ok a => simp [List.mapM_cons, h, bind, Except.bind, pure, Except.pure, eq_comm]

theorem arrayIndex_two (n m : ℕ) (x y : PosItem) (j : List ℕ) :
    arrayIndex [n, m] [x, y] = .ok j ↔
      ∃ a b, j = [a, b] ∧ axisIndex n x = .ok a ∧ axisIndex m y = .ok b := by
  unfold arrayIndex
  cases h : axisIndex n x with
  | error e => simp [List.mapM_cons, h, bind, Except.bind]
  | ok a =>
    cases h' : axisIndex m y with
    | error e => simp [List.mapM_cons, h, h', bind, Except.bind]
    | ok b => simp [List.mapM_cons, h, h', bind, Except.bind, pure, Except.pure, eq_comm]

/-- What `to_gnomonic_coords` and `to_pixel_coords` do with `pos`. -/
theorem convertPos_ok (nav : List ℕ) (f : List ℕ → Factors K) (c out : Coords K) (pos : PyPos)
    (hp : pos ≠ .none) :
    (match parseSamplePosition nav.length pos with
      | .error e => .error e
      | .ok p => convertCoordinatesIndexed nav f c p) = Except.ok out ↔
    ∃ j, NamesPosition nav pos j ∧ out = convertCoordinatesAt (f j) c := by
  have key : ∀ items, convertCoordinatesIndexed nav f c (some items) = .ok out ↔
      ∃ j, arrayIndex nav items = .ok j ∧ out = convertCoordinatesAt (f j) c := by
    intro items
    cases h : arrayIndex nav items with
    | error e => simp [convertCoordinatesIndexed, h]
    | ok i => simp [convertCoordinatesIndexed, h, eq_comm]
  have one : ∀ n x, (∃ j, arrayIndex [n] [x] = .ok j ∧ out = convertCoordinatesAt (f j) c) ↔
      ∃ j, (∃ a, j = [a] ∧ axisIndex n x = .ok a) ∧ out = convertCoordinatesAt (f j) c := by
    intro n x
    simp only [arrayIndex_one]
  cases pos with
  | none => exact absurd rfl hp
  | other => simp [parseSamplePosition, NamesPosition]
  | int i =>
    unfold parseSamplePosition
    by_cases hn : nav.length = 1
    · obtain ⟨n, rfl⟩ := List.length_eq_one_iff.1 hn
      simp only [List.length_singleton, ne_eq, not_true_eq_false, if_false, key, one,
        axisIndex_iff, NamesPosition]
    · simp only [ne_eq, hn, not_false_eq_true, if_true, reduceCtorEq, false_iff, not_exists, not_and]
      intro j hj
      rcases nav with _ | ⟨n, _ | ⟨m, t⟩⟩ <;> simp_all [NamesPosition]
  | tuple items =>
    rcases items with _ | ⟨x, _ | ⟨y, _ | ⟨z, t⟩⟩⟩
    · rcases nav with _ | ⟨n, _ | ⟨m, _ | ⟨k, t⟩⟩⟩ <;> simp [parseSamplePosition, NamesPosition]
    · rcases nav with _ | ⟨n, _ | ⟨m, t⟩⟩
      · simp [parseSamplePosition, NamesPosition]
      · cases x with
        | int i =>
          simp only [parseSamplePosition, List.length_singleton, ne_eq, not_true_eq_false, if_false,
            key, one, axisIndex_iff, NamesPosition]
        | other => simp [parseSamplePosition, NamesPosition]
      · rcases t with _ | ⟨k, t⟩ <;> simp [parseSamplePosition, NamesPosition]
    · rcases nav with _ | ⟨n, _ | ⟨m, _ | ⟨k, t⟩⟩⟩
      · simp [parseSamplePosition, NamesPosition]
      · simp [parseSamplePosition, NamesPosition]
      · simp only [parseSamplePosition, List.length_cons, List.length_nil, Nat.zero_add,
          Nat.reduceAdd, ne_eq, not_true_eq_false, if_false, key, arrayIndex_two]
        cases x with
        | int i =>
          cases y with
          | int j => simp only [axisIndex_iff, NamesPosition]
          | other => simp [axisIndex, NamesPosition]
        | other => simp [axisIndex, NamesPosition]
      · simp [parseSamplePosition, NamesPosition]
    · rcases nav with _ | ⟨n, _ | ⟨m, _ | ⟨k, t'⟩⟩⟩ <;> simp [parseSamplePosition, NamesPosition]

/-- C92: a call with a sample position succeeds exactly if the argument names a position of the
map, and then converts every coordinate pair with the projection centre of that position, in an
array of the shape of the given one. -/
theorem C92_position (d : Detector K) (pcAt : List ℕ → PC K) (c out : Coords K) (pos : PyPos)
    (hp : pos ≠ .none) :
    (d.toGnomonicCoordsPos pcAt c pos = .ok out ↔
      ∃ j, NamesPosition d.nav pos j ∧
        out = { shape := c.shape, val := fun i => d.toGnomonic (pcAt j) (c.val i) }) ∧
    (d.toPixelCoordsPos pcAt c pos = .ok out ↔
      ∃ j, NamesPosition d.nav pos j ∧
        out = { shape := c.shape, val := fun i => d.toPixel (pcAt j) (c.val i) }) :=
  ⟨convertPos_ok d.nav _ c out pos hp, convertPos_ok d.nav _ c out pos hp⟩

/-- C92: at most one position is named. -/
theorem C92_position_unique (nav : List ℕ) (pos : PyPos) (j j' : List ℕ)
    (h : NamesPosition nav pos j) (h' : NamesPosition nav pos j') : j = j' := by
  have key : ∀ n i a b, MeansIndex n i a → MeansIndex n i b → a = b := by
    unfold MeansIndex
    intro n i a b h1 h2
    omega
  unfold NamesPosition at h h'
  split at h
  · obtain ⟨a, rfl, ha⟩ := h
    obtain ⟨b, rfl, hb⟩ := h'
    rw [key _ _ _ _ ha hb]
  · obtain ⟨a, rfl, ha⟩ := h
    obtain ⟨b, rfl, hb⟩ := h'
    rw [key _ _ _ _ ha hb]
  · obtain ⟨a, a', rfl, ha, ha'⟩ := h
    obtain ⟨b, b', rfl, hb, hb'⟩ := h'
    rw [key _ _ _ _ ha hb, key _ _ _ _ ha' hb']
  · exact h.elim

/-- C92: which error a refused argument gives, for both directions. -/
theorem C92_position_errors (d : Detector K) (pcAt : List ℕ → PC K) (c : Coords K)
    (convert : (List ℕ → PC K) → Coords K → PyPos → Except Err (Coords K))
    (hconvert : convert = d.toGnomonicCoordsPos ∨ convert = d.toPixelCoordsPos) :
    (convert pcAt c .other = .error .typeError) ∧
    (∀ i, d.nav.length ≠ 1 → convert pcAt c (.int i) = .error .valueError) ∧
    (∀ items, items.length ≠ d.nav.length →
      convert pcAt c (.tuple items) = .error .valueError) ∧
    (∀ n, d.nav = [n] → convert pcAt c (.tuple [.other]) = .error .typeError) ∧
    (∀ n i, d.nav = [n] → (i < -(n : ℤ) ∨ (n : ℤ) ≤ i) →
      convert pcAt c (.int i) = .error .indexError) := by
  rcases hconvert with rfl | rfl
  all_goals
    refine ⟨rfl, ?_, ?_, ?_, ?_⟩
    · intro i h
      simp [Detector.toGnomonicCoordsPos, Detector.toPixelCoordsPos, parseSamplePosition, h]
    · intro items h
      simp only [Detector.toGnomonicCoordsPos, Detector.toPixelCoordsPos]
      rcases items with _ | ⟨x, _ | ⟨y, _ | ⟨z, t⟩⟩⟩
      · rfl
      · have : d.nav.length ≠ 1 := fun e => h (by simp [e])
        simp only [parseSamplePosition, if_pos this]
      · have : d.nav.length ≠ 2 := fun e => h (by simp [e])
        simp only [parseSamplePosition, if_pos this]
      · rfl
    · intro n h
      simp [Detector.toGnomonicCoordsPos, Detector.toPixelCoordsPos, parseSamplePosition, h]
    · intro n i h hi
      have h1 : ¬ (0 ≤ i ∧ i < (n : ℤ)) := by omega
      have h2 : ¬ (-(n : ℤ) ≤ i ∧ i < 0) := by omega
      simp [Detector.toGnomonicCoordsPos, Detector.toPixelCoordsPos, parseSamplePosition, h, convertCoordinatesIndexed,
        arrayIndex, List.mapM_cons, axisIndex, h1, h2, bind, Except.bind]

/-- C92 (partial): the coordinates at one position are those at that position in the result for all
positions, unless the shape of the given coordinates starts with the shape of the map
(see `C92_all_positions_violated`). -/
theorem C92_all_positions_partial (d : Detector K) (pcAt : List ℕ → PC K) (c out all : Coords K)
    (pos : PyPos) (j : List ℕ) (hj : NamesPosition d.nav pos j)
    (hs : ¬ ∃ rest, rest ≠ [] ∧ c.shape = d.nav ++ rest)
    (h : d.toGnomonicCoordsPos pcAt c pos = .ok out)
    (hall : d.toGnomonicCoordsPos pcAt c .none = .ok all) :
    all.shape = d.nav ++ out.shape ∧ ∀ i, all.val (j ++ i) = out.val i := by
  have hp : pos ≠ .none := by
    rintro rfl
    unfold NamesPosition at hj
    split at hj <;> simp_all
  obtain ⟨j', hj', rfl⟩ := ((C92_position d pcAt c out pos hp).1).1 h
  obtain rfl := C92_position_unique _ _ _ _ hj hj'
  have hlen : j.length = d.nav.length := by
    unfold NamesPosition at hj
    split at hj
    · obtain ⟨a, rfl, _⟩ := hj; simp_all
    · obtain ⟨a, rfl, _⟩ := hj; simp_all
    · obtain ⟨a, b, rfl, _⟩ := hj; simp_all
    · exact hj.elim
  have hcond : ¬ (c.shape.length ≥ d.nav.length + 1 ∧ c.shape.take d.nav.length = d.nav) := by
    rintro ⟨h1, h2⟩
    refine hs ⟨c.shape.drop d.nav.length, ?_, ?_⟩
    · intro h
      have := congrArg List.length h
      simp at this
      omega
    · conv_lhs => rw [← List.take_append_drop d.nav.length c.shape, h2]
  simp only [Detector.toGnomonicCoordsPos, parseSamplePosition, convertCoordinatesIndexed,
    convertCoordinates, if_neg hcond, Except.ok.injEq] at hall
  subst hall
  refine ⟨rfl, fun i => ?_⟩
  simp only [Detector.toGnomonic]
  rw [← hlen, List.take_left, List.drop_left]

/-- Witness: a detector for a line of two map positions with different projection centres. -/
def lineDet : Detector ℚ := { exDet with nav := [2] }

/-- Witness: one projection centre for each position. -/
def linePc : List ℕ → PC ℚ := fun i => if i = [0] then ⟨1/2, 1/2, 1/2⟩ else ⟨1/4, 1/2, 1/2⟩

/-- Witness: a 2 by 3 array of coordinate pairs. -/
def gridCoords : Coords ℚ := { shape := [2, 3], val := fun i => ((i.headD 0 : ℚ), 1) }

/-- C92 (violated): with two map positions, a 2 by 3 array of coordinates is converted at all
positions into an array of the same shape, its first row with the first projection centre and its
second row with the second; the result for position 0 is not part of it. -/
theorem C92_all_positions_violated :
    ∃ out all : Coords ℚ, lineDet.toGnomonicCoordsPos linePc gridCoords (.int 0) = .ok out ∧
      lineDet.toGnomonicCoordsPos linePc gridCoords .none = .ok all ∧
      all.shape ≠ lineDet.nav ++ out.shape ∧ all.shape = out.shape ∧
      all.val [1, 0] ≠ out.val [1, 0] :=
  ⟨convertCoordinatesAt (lineDet.pixToGn (linePc [0])) gridCoords,
    convertCoordinates [2] (fun i => lineDet.pixToGn (linePc i)) gridCoords,
    rfl, rfl, by decide +kernel, by decide +kernel, by decide +kernel⟩

/-- The hypotheses of `C92_position` and `C92_all_positions_partial` are met: position -1 of the
line is its last one. -/
example : NamesPosition lineDet.nav (.int (-1)) [1] ∧
    (∃ out, lineDet.toGnomonicCoordsPos linePc { gridCoords with shape := [3] } (.int (-1)) =
      .ok out) ∧ ¬ ∃ rest, rest ≠ [] ∧ [3] = lineDet.nav ++ rest := by
  refine ⟨⟨1, rfl, by decide, Or.inr (by norm_num)⟩, ⟨_, rfl⟩, ?_⟩
  rintro ⟨rest, _, h⟩
  simp [lineDet] at h

end Kp
