/-
C55: chunks cover the data, and signal axes are not split.
C73: chunks of learning results are of limited size and not empty.
-/
import Verif.Lemmas.Chunking

namespace Kp

/-- The chunks of one axis are right for an axis of size `n`: they add up to it and, unless it
is empty, none of them is. -/
def ChunksOf (n : ℕ) (l : List ℕ) : Prop := l.sum = n ∧ (0 < n → ∀ x ∈ l, 0 < x)

theorem chunksOf_blockDims {n c : ℕ} (hc : 0 < c) : ChunksOf n (blockDims n c) :=
  ⟨blockDims_sum n c, fun hn => blockDims_pos hn hc⟩

theorem chunksOf_single (n : ℕ) : ChunksOf n [n] := ⟨by simp, fun hn x hx => by simp_all⟩

/-- C55: for every data shape, numbers of navigation and signal axes and chunk shape (a positive
number, -1 or not given), `get_chunking` gives chunks for every axis, which add up to the data
shape and are not empty; signal axes (and any axes after them) are a single chunk, and
navigation chunks are no larger than the chunk shape, all but the last of exactly that size. -/
theorem C55_chunks_cover (auto : ℕ → ℕ) (hauto : ∀ i, 0 < auto i) (shape : List ℕ)
    (navDim sigDim : ℕ) (chunkShape : Option ℤ)
    (hc : ∀ c, chunkShape = some c → 0 < c ∨ c = -1) :
    ∃ ch, getChunking auto shape navDim sigDim chunkShape = .ok ch ∧
      ch.length = shape.length ∧
      ∀ (i n : ℕ), shape[i]? = some n → ∃ l, ch[i]? = some l ∧ ChunksOf n l ∧
        (navDim ≤ i → l = [n]) ∧
        (i < navDim → ∀ c : ℕ, 0 < c → chunkShape = some (c : ℤ) →
          (∀ x ∈ l, x ≤ c) ∧ (0 < n → ∀ x ∈ l.dropLast, x = c)) := by
  have hax : ∀ (n i : ℕ), ∃ l, (match chunksDict navDim sigDim chunkShape i with
      | some s => normalizeAxis (auto i) n s
      | none => .ok [n]) = .ok l ∧ ChunksOf n l ∧ (navDim ≤ i → l = [n]) ∧
        (i < navDim → ∀ c : ℕ, 0 < c → chunkShape = some (c : ℤ) →
          (∀ x ∈ l, x ≤ c) ∧ (0 < n → ∀ x ∈ l.dropLast, x = c)) := by
    intro n i
    unfold chunksDict
    by_cases h1 : i < navDim
    · rw [if_pos h1]
      cases chunkShape with
      | none =>
        exact ⟨blockDims n (auto i), rfl, chunksOf_blockDims (hauto i), by omega,
          fun _ c _ h => by simp at h⟩
      | some z =>
        simp only [normalizeAxis]
        by_cases h2 : z = -1
        · refine ⟨[n], by simp [h2], chunksOf_single n, fun _ => rfl, ?_⟩
          intro _ c hc0 he
          simp only [Option.some.injEq] at he
          omega
        · have hz : 0 < z := by
            rcases hc z rfl with h | h
            · exact h
            · exact absurd h h2
          by_cases h3 : n = 0
          · subst h3
            refine ⟨[0], by simp [h2], chunksOf_single 0, by omega, ?_⟩
            intro _ c hc0 he
            simp
          · refine ⟨blockDims n z.toNat, ?_, chunksOf_blockDims (by omega), by omega, ?_⟩
            · rw [if_neg h2, if_neg h3, if_neg (by omega), if_neg (by omega)]
            · intro _ c hc0 he
              simp only [Option.some.injEq] at he
              have : z.toNat = c := by omega
              rw [this]
              exact ⟨blockDims_le hc0, fun hn => blockDims_dropLast hn⟩
    · rw [if_neg h1]
      by_cases h2 : i < navDim + sigDim
      · rw [if_pos h2]
        exact ⟨[n], by simp [normalizeAxis], chunksOf_single n, fun _ => rfl, by omega⟩
      · rw [if_neg h2]
        exact ⟨[n], rfl, chunksOf_single n, fun _ => rfl, by omega⟩
  obtain ⟨ch, hch⟩ := mapM_exists_ok (l := shape.zipIdx)
    (f := fun p : ℕ × ℕ => match chunksDict navDim sigDim chunkShape p.2 with
      | some s => normalizeAxis (auto p.2) p.1 s
      | none => .ok [p.1])
    (fun p _ => by obtain ⟨l, hl, -⟩ := hax p.1 p.2; exact ⟨l, hl⟩)
  obtain ⟨hlen, hget⟩ := mapM_ok_get hch
  refine ⟨ch, hch, by simpa using hlen, ?_⟩
  intro i n hi
  have hz : shape.zipIdx[i]? = some (n, i) := by simp [List.getElem?_zipIdx, hi]
  obtain ⟨l, hl1, hl2⟩ := hget i (n, i) hz
  obtain ⟨l', hl', hspec⟩ := hax n i
  simp only at hl2
  rw [hl'] at hl2
  cases hl2
  exact ⟨l, hl1, hspec⟩

/-- Non-vacuity: a map of 55 x 75 patterns of 60 x 60 pixels in navigation chunks of 20. -/
example : getChunking (fun _ => 7) [55, 75, 60, 60] 2 2 (some 20) =
    .ok [[20, 20, 15], [20, 20, 20, 15], [60], [60]] := by decide +kernel

example : getChunking (fun _ => 30) [55, 75, 60, 60] 2 2 none =
    .ok [[30, 25], [30, 30, 15], [60], [60]] := by decide +kernel

/-- C55, errors: a chunk shape of 0 is a division by zero for every signal with a non-empty first
navigation axis, and other negative numbers but -1 are rejected. -/
theorem C55_bad_chunk_shape (auto : ℕ → ℕ) (n : ℕ) (shape : List ℕ) (navDim sigDim : ℕ) (c : ℤ)
    (hn : 0 < n) (hnav : 0 < navDim) (hc : c ≤ 0) (hc1 : c ≠ -1) :
    getChunking auto (n :: shape) navDim sigDim (some c) =
      .error (if c = 0 then .zeroDivision else .valueError) := by
  unfold getChunking normalizeChunks
  rw [List.zipIdx_cons, List.mapM_cons]
  have : chunksDict navDim sigDim (some c) 0 = some (.size c) := by simp [chunksDict, hnav]
  simp only [this, normalizeAxis]
  rw [if_neg hc1, if_neg (by omega)]
  by_cases h0 : c = 0
  · simp only [h0, if_true]; rfl
  · rw [if_neg h0, if_pos (by omega), if_neg h0]; rfl

example : getChunking (fun _ => 7) [55, 75, 60, 60] 2 2 (some 0) = .error .zeroDivision ∧
    getChunking (fun _ => 7) [55, 75, 60, 60] 2 2 (some (-2)) = .error .valueError := by
  decide +kernel

/-- C55 for lazy signals (`get_dask_array(rechunk=True)`): the new chunks cover the same axes,
and the last two (signal) axes keep their chunks, whatever the number of axes. -/
theorem C55_rechunk_covers (auto : ℕ → ℕ) (hauto : ∀ i, 0 < auto i) (chunks : List (List ℕ))
    (hch : ∀ l ∈ chunks, ChunksOf l.sum l) (hnd : 2 ≤ chunks.length) (chunkBytes : ℕ) :
    ∃ new, reduceChunks auto chunks chunkBytes = .ok new ∧ new.length = chunks.length ∧
      ∀ (i : ℕ) (old : List ℕ), chunks[i]? = some old → ∃ l, new[i]? = some l ∧
        ChunksOf old.sum l ∧ (chunks.length - 2 ≤ i → l = old) := by
  have hspec : ∀ i, reduceSpec chunks chunkBytes i = some .auto ∨
      reduceSpec chunks chunkBytes i = some (.size (-1)) ∨
      reduceSpec chunks chunkBytes i = none := by
    intro i
    unfold reduceSpec
    simp only
    split
    · repeat' split
      all_goals first | exact Or.inl rfl | exact Or.inr (Or.inl rfl)
    · split
      · exact Or.inr (Or.inl rfl)
      · exact Or.inr (Or.inr rfl)
  have hax : ∀ n i : ℕ, ∃ l, (match reduceSpec chunks chunkBytes i with
      | some s => normalizeAxis (auto i) n s
      | none => .ok [n]) = .ok l ∧ ChunksOf n l := by
    intro n i
    rcases hspec i with h | h | h <;> rw [h]
    · exact ⟨_, rfl, chunksOf_blockDims (hauto i)⟩
    · exact ⟨[n], by simp [normalizeAxis], chunksOf_single n⟩
    · exact ⟨_, rfl, chunksOf_single n⟩
  obtain ⟨nw, hnw⟩ := mapM_exists_ok (l := (chunks.map List.sum).zipIdx)
    (f := fun p : ℕ × ℕ => match reduceSpec chunks chunkBytes p.2 with
      | some s => normalizeAxis (auto p.2) p.1 s
      | none => .ok [p.1])
    (fun p _ => by obtain ⟨l, hl, -⟩ := hax p.1 p.2; exact ⟨l, hl⟩)
  obtain ⟨hlen, hget⟩ := mapM_ok_get hnw
  have hlen' : nw.length = chunks.length := by simpa using hlen
  refine ⟨(chunks.zip nw).zipIdx.map fun p =>
      if reduceSpec chunks chunkBytes p.2 = some (.size (-1)) then p.1.1 else p.1.2, ?_, ?_, ?_⟩
  · have e : normalizeChunks auto (reduceSpec chunks chunkBytes) (chunks.map List.sum) = .ok nw :=
      hnw
    unfold reduceChunks
    rw [e]
    rfl
  · simp [hlen']
  · intro i old hi
    have hilt : i < chunks.length := (List.getElem?_eq_some_iff.1 hi).1
    have hz : (chunks.map List.sum).zipIdx[i]? = some (old.sum, i) := by
      simp [List.getElem?_zipIdx, hi]
    obtain ⟨l, hl1, hl2⟩ := hget i (old.sum, i) hz
    obtain ⟨l', hl', hs⟩ := hax old.sum i
    simp only at hl2
    rw [hl'] at hl2
    cases hl2
    have hold := hch old (List.mem_of_getElem? hi)
    have hzip : (chunks.zip nw).zipIdx[i]? = some ((old, l), i) := by
      have : (chunks.zip nw)[i]? = some (old, l) := by
        rw [List.getElem?_zip_eq_some]; exact ⟨hi, hl1⟩
      simp [List.getElem?_zipIdx, this]
    refine ⟨if reduceSpec chunks chunkBytes i = some (.size (-1)) then old else l, ?_, ?_, ?_⟩
    · rw [List.getElem?_map, hzip]; rfl
    · split
      · exact hold
      · exact hs
    · intro hge
      have : reduceSpec chunks chunkBytes i = some (.size (-1)) := by
        unfold reduceSpec
        simp only
        rw [if_neg (by omega), if_pos (by omega)]
      rw [if_pos this]

/-- Non-vacuity. -/
example : reduceChunks (fun _ => 4) [[10, 10], [3], [60], [60]] 1000000 =
    .ok [[4, 4, 4, 4, 4], [3], [60], [60]] := by decide +kernel

/-! ### Arrays of signals -/

/-- C55 (part): the array of a signal covers its data, and each pattern is in one chunk if this is
so for the data of a lazy signal. Missing: patterns split in chunks stay split
(`C55_split_patterns_violated`). -/
theorem C55_dask_array_partial (auto : ℕ → ℕ) (hauto : ∀ i, 0 < auto i) (shape : List ℕ)
    (navDim : ℕ) (hdim : shape.length = navDim + 2) (chunks : Option (List (List ℕ)))
    (hch : ∀ ch, chunks = some ch → ch.map List.sum = shape ∧ (∀ l ∈ ch, ChunksOf l.sum l) ∧
      ∀ (i : ℕ) (l : List ℕ), navDim ≤ i → ch[i]? = some l → l = [l.sum])
    (rechunk : Bool) (chunkShape : Option ℤ) (hc : ∀ c, chunkShape = some c → 0 < c ∨ c = -1)
    (chunkBytes : Option ℕ) :
    ∃ ch, getDaskArray auto shape chunks navDim 2 rechunk chunkShape chunkBytes = .ok ch ∧
      ch.length = shape.length ∧
      ∀ (i n : ℕ), shape[i]? = some n → ∃ l, ch[i]? = some l ∧ ChunksOf n l ∧
        (navDim ≤ i → l = [n]) := by
  unfold getDaskArray
  cases chunks with
  | none =>
    obtain ⟨ch, h1, h2, h3⟩ := C55_chunks_cover auto hauto shape navDim 2 chunkShape hc
    refine ⟨ch, h1, h2, ?_⟩
    intro i n hi
    obtain ⟨l, h4, h5, h6, -⟩ := h3 i n hi
    exact ⟨l, h4, h5, h6⟩
  | some old =>
    obtain ⟨hs, hcov, hone⟩ := hch old rfl
    have hlen : old.length = shape.length := by rw [← hs, List.length_map]
    have hget : ∀ (i n : ℕ), shape[i]? = some n → ∃ l, old[i]? = some l ∧ l.sum = n := by
      intro i n hi
      rw [← hs, List.getElem?_map] at hi
      cases ho : old[i]? with
      | none => rw [ho] at hi; simp at hi
      | some l => rw [ho] at hi; exact ⟨l, rfl, by simpa using hi⟩
    cases rechunk with
    | false =>
      refine ⟨old, by simp, hlen, ?_⟩
      intro i n hi
      obtain ⟨l, h1, rfl⟩ := hget i n hi
      exact ⟨l, h1, hcov l (List.mem_of_getElem? h1), fun hn => hone i l hn h1⟩
    | true =>
      obtain ⟨new, h1, h2, h3⟩ := C55_rechunk_covers auto hauto old hcov (by omega)
        (chunkBytes.getD 8000000)
      refine ⟨new, by simpa using h1, by omega, ?_⟩
      intro i n hi
      obtain ⟨l, h4, rfl⟩ := hget i n hi
      obtain ⟨l', h5, h6, h7⟩ := h3 i l h4
      refine ⟨l', h5, h6, fun hn => ?_⟩
      rw [h7 (by omega)]
      exact hone i l hn h4

/-- A lazy signal with a map of one row whose patterns of four columns are in two chunks each. -/
example : ChunksOf 2 [2] ∧ ChunksOf 4 [2, 2] ∧
    ([[1], [3], [2], [4]] : List (List ℕ)).map List.sum = [1, 3, 2, 4] := by
  refine ⟨?_, ?_, rfl⟩ <;> (unfold ChunksOf; decide)

/-- C55 violated: patterns of a lazy signal which are split in chunks are split in the array too,
whether or not it is chunked again, so that functions of a pattern get parts of patterns. -/
theorem C55_split_patterns_violated (auto : ℕ → ℕ) (hauto : ∀ i, 0 < auto i)
    (shape : List ℕ) (old : List (List ℕ)) (hch : ∀ l ∈ old, ChunksOf l.sum l)
    (navDim : ℕ) (hdim : old.length = navDim + 2) (rechunk : Bool) (chunkShape : Option ℤ)
    (chunkBytes : Option ℕ) :
    ∃ ch, getDaskArray auto shape (some old) navDim 2 rechunk chunkShape chunkBytes = .ok ch ∧
      ∀ i, navDim ≤ i → i < old.length → ch[i]? = old[i]? := by
  unfold getDaskArray
  cases rechunk with
  | false => exact ⟨old, by simp, fun _ _ _ => rfl⟩
  | true =>
    obtain ⟨new, h1, h2, h3⟩ := C55_rechunk_covers auto hauto old hch (by omega)
      (chunkBytes.getD 8000000)
    refine ⟨new, by simpa using h1, ?_⟩
    intro i hn hi
    obtain ⟨l, h4, -, h5⟩ := h3 i old[i] (List.getElem?_eq_getElem hi)
    rw [h4, List.getElem?_eq_getElem hi, h5 (by omega)]

/-- C55 violated: the shape and the size asked for are documented to control the chunks, but for a
lazy signal the shape is never used, and the size only if chunking again is asked for. -/
theorem C55_lazy_chunk_shape_violated (auto : ℕ → ℕ) (shape : List ℕ) (old : List (List ℕ))
    (navDim : ℕ) :
    (∀ (rechunk : Bool) (c c' : Option ℤ) (b : Option ℕ),
      getDaskArray auto shape (some old) navDim 2 rechunk c b =
        getDaskArray auto shape (some old) navDim 2 rechunk c' b) ∧
    ∀ (c : Option ℤ) (b : Option ℕ),
      getDaskArray auto shape (some old) navDim 2 false c b = .ok old := by
  refine ⟨fun _ _ _ _ => rfl, fun _ _ => rfl⟩

/-! ### Learning results (C73) -/

/-- C73, the loop ends: for factors and loadings of any shapes and every positive limit, chunks
are returned or an error is raised, after at most as many halvings as there are bytes. -/
theorem C73_loop_ends (f l s : ℕ) (hs : 0 < s) :
    ∃ f' l', halveSizes s (f + l + 1) f l = some (f', l') ∧ f' + l' < s := by
  obtain ⟨f', l', h, h2, -⟩ := halveSizes_some hs (f + l + 1) f l (by omega)
  exact ⟨f', l', h, h2⟩

/-- C73: chunks are returned for non-empty factors and loadings with the same number of
components, and a limit of at least four bytes. -/
theorem C73_chunks_returned (n0 c n2 item s : ℕ) (h0 : 0 < n0) (hc : 0 < c) (h2 : 0 < n2)
    (hi : 0 < item) (hs : 4 ≤ s) : ∃ r, rechunkLearning n0 c n2 c item s = .ok r := by
  have hf : 0 < n0 * c * item := Nat.mul_pos (Nat.mul_pos h0 hc) hi
  have hl : 0 < n2 * c * item := Nat.mul_pos (Nat.mul_pos h2 hc) hi
  unfold rechunkLearning
  simp only [ne_eq, not_true, if_false]
  rw [if_neg (by omega)]
  split
  · have := ceilDiv_pos (a := n0 * c * item + n2 * c * item) (b := s) (by omega) (by omega)
    rw [if_neg (by omega)]
    exact ⟨_, rfl⟩
  · obtain ⟨f', l', h, -⟩ := C73_loop_ends (n0 * c * item) (n2 * c * item) s (by omega)
    rw [h]
    have hp := halveSizes_pos hs _ _ _ _ _ hf hl h
    have k1 := ceilDiv_pos hf hp.1
    have k2 := ceilDiv_pos hl hp.2
    simp only
    rw [if_neg (by omega), if_neg (by omega)]
    exact ⟨_, rfl⟩

/-- Bytes of one chunk of rows of `w` bytes: of all `n` rows if unchunked. -/
def chunkBytesOf (n w : ℕ) : Option ℕ → ℕ
  | none => n * w
  | some k => k * w

/-- C73: no suggested chunk of factors or loadings is larger than the wanted number of bytes; if
the factors are chunked too, a chunk of factors and a chunk of loadings together are smaller. -/
theorem C73_chunk_size_limited (n0 c n2 item s : ℕ) (hs : 0 < s) (fc lc : Option ℕ)
    (h : rechunkLearning n0 c n2 c item s = .ok (fc, lc)) :
    chunkBytesOf n0 (c * item) fc ≤ s ∧ chunkBytesOf n2 (c * item) lc ≤ s ∧
      (fc ≠ none →
        chunkBytesOf n0 (c * item) fc + chunkBytesOf n2 (c * item) lc < s) := by
  unfold rechunkLearning at h
  simp only [ne_eq, not_true, if_false] at h
  rw [if_neg (by omega)] at h
  split at h
  · rename_i hfs
    split at h
    · cases h
    · rename_i hk
      cases h
      refine ⟨by simpa [chunkBytesOf, mul_assoc] using hfs, ?_, fun h => absurd rfl h⟩
      rcases Nat.eq_zero_or_pos (n2 * (c * item)) with hz | hz
      · rcases Nat.mul_eq_zero.1 hz with h | h <;> simp [chunkBytesOf, h]
      · have h1 := rows_le (n := n2) (w := c * item) hs
        have hle : ceilDiv (n2 * (c * item)) s ≤ ceilDiv (n0 * c * item + n2 * c * item) s := by
          unfold ceilDiv
          apply Nat.div_le_div_right
          rw [mul_assoc n2]
          omega
        have h2 : n2 / ceilDiv (n0 * c * item + n2 * c * item) s ≤
            n2 / ceilDiv (n2 * (c * item)) s :=
          Nat.div_le_div_left hle (ceilDiv_pos hz hs)
        exact (Nat.mul_le_mul_right _ h2).trans h1
  · obtain ⟨f', l', hh, hsum⟩ := C73_loop_ends (n0 * c * item) (n2 * c * item) s hs
    rw [hh] at h
    simp only at h
    split at h
    · cases h
    · split at h
      · cases h
      · rename_i hne _
        cases h
        have a1 := rows_le (n := n0) (w := c * item) (z := f') (by omega)
        have a2 := rows_le (n := n2) (w := c * item) (z := l') (by omega)
        rw [← mul_assoc] at a1 a2
        simp only [chunkBytesOf]
        rw [mul_assoc] at a1 a2
        refine ⟨?_, ?_, fun _ => ?_⟩ <;> simp only [mul_assoc] at * <;> omega

/-- C73 (partial): no suggested chunk is empty when there are at least two loadings (map
positions) and a row of components takes at most a fourth of the limit.  Missing: a single map
position (false, see below) and wider rows. -/
theorem C73_chunks_not_empty_partial (n0 c n2 item s : ℕ) (h0 : 0 < n0) (hw : 0 < c * item)
    (h2 : 2 ≤ n2) (hs : 4 * (c * item) ≤ s) (fc lc : Option ℕ)
    (h : rechunkLearning n0 c n2 c item s = .ok (fc, lc)) : fc ≠ some 0 ∧ lc ≠ some 0 := by
  have hs0 : 0 < s := by omega
  unfold rechunkLearning at h
  simp only [ne_eq, not_true, if_false] at h
  rw [if_neg (by omega)] at h
  simp only [mul_assoc] at h
  set w := c * item with hwdef
  split at h
  · rename_i hfs
    split at h
    · cases h
    · cases h
      refine ⟨by simp, ?_⟩
      have : 0 < n2 / ceilDiv (n0 * w + n2 * w) s := by
        apply Nat.div_pos
        · have := (ceilDiv_spec (a := n0 * w + n2 * w) hs0).2
          by_contra hlt
          push Not at hlt
          have h3 : (n2 + 1) * s ≤ ceilDiv (n0 * w + n2 * w) s * s :=
            Nat.mul_le_mul_right s hlt
          have h4 : 4 * (n2 * w) ≤ n2 * s := by
            have := Nat.mul_le_mul_left n2 hs
            linarith [this]
          have h5 : 2 * s ≤ n2 * s := Nat.mul_le_mul_right s h2
          have h6 : (n2 + 1) * s = n2 * s + s := by ring
          omega
        · apply ceilDiv_pos _ hs0
          have := Nat.mul_pos h0 hw
          omega
      simp only [ne_eq, Option.some.injEq]
      omega
  · obtain ⟨f', l', hh, hsum⟩ := C73_loop_ends (n0 * w) (n2 * w) s hs0
    rw [hh] at h
    simp only at h
    split at h
    · cases h
    · split at h
      · cases h
      · cases h
        have hl := halveSizes_large _ _ _ _ _ hh
        have w1 : w ≤ f' := by
          rcases hl.1 with e | e
          · rw [e]; exact Nat.le_mul_of_pos_left w h0
          · omega
        have w2 : w ≤ l' := by
          rcases hl.2 with e | e
          · rw [e]; exact Nat.le_mul_of_pos_left w (by omega)
          · omega
        have p1 := rows_pos (n := n0) h0 hw w1
        have p2 := rows_pos (n := n2) (by omega) hw w2
        simp only [ne_eq, Option.some.injEq]
        omega

/-- Non-vacuity: 3600 pixels, 10 components of 4 bytes, 4125 patterns, 100 kB: factors are
chunked too; and with 1 MiB they are not. -/
example : rechunkLearning 3600 10 4125 10 4 100000 = .ok (some 900, some 1031) ∧
    rechunkLearning 3600 10 4125 10 4 (2 ^ 20) = .ok (none, some 4125) := by decide +kernel

/-- C73 is false for a single map position: 2^18 pixels with one component of 4 bytes and a
limit of 1 MiB gives an empty chunk, which Dask does not accept. -/
theorem C73_empty_chunk_violated :
    rechunkLearning (2 ^ 18) 1 1 1 4 (2 ^ 20) = .ok (none, some 0) := by decide +kernel

/-- ... and for every single map position when the factors fill the limit exactly. -/
theorem C73_single_position_empty (n0 w : ℕ) (h0 : 0 < n0) (hw : 0 < w) :
    rechunkLearning n0 1 1 1 w (n0 * w) = .ok (none, some 0) := by
  have hp := Nat.mul_pos h0 hw
  have h1 := ceilDiv_spec (a := n0 * w + w) hp
  have hk : 2 ≤ ceilDiv (n0 * w + w) (n0 * w) := by
    by_contra hlt
    push Not at hlt
    have : ceilDiv (n0 * w + w) (n0 * w) * (n0 * w) ≤ 1 * (n0 * w) :=
      Nat.mul_le_mul_right _ (by omega)
    omega
  unfold rechunkLearning
  simp only [ne_eq, not_true, if_false, mul_one, one_mul]
  rw [if_neg (by omega), if_pos le_rfl, if_neg (by omega), Nat.div_eq_of_lt (by omega)]

/-- Different numbers of components are rejected. -/
theorem C73_components_mismatch (n0 c n2 c' item s : ℕ) (h : c ≠ c') :
    rechunkLearning n0 c n2 c' item s = .error .valueError := by
  unfold rechunkLearning
  exact if_pos h

end Kp
