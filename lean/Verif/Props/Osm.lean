import Verif.Model.Osm
import Verif.Lemmas.Neighbours
import Mathlib.Algebra.Order.Ring.Rat
import Mathlib.Data.Finset.Dedup

/-
C27: the orientation similarity map counts shared best matches.
-/

set_option linter.unusedSectionVars false

namespace Kp

namespace Spec

/-- The set of the `n` best matching simulation indices in map point `(r, c)`. -/
def bestSet (cols : ℕ) (sims : ℕ → ℕ → ℤ) (n r c : ℕ) : Finset ℤ :=
  (Finset.range n).image (sims (r * cols + c))

/-- The map points under the footprint placed on `(r, c)`, in the map and not `(r, c)`. -/
def footNeighbours (rows cols : ℕ) (foot : Img Bool) (r c : ℕ) : List (ℕ × ℕ) :=
  (flatPositions foot.rows foot.cols).filterMap (fun ij =>
    let y : ℤ := (r : ℤ) + ij.1 - (foot.rows / 2 : ℕ)
    let x : ℤ := (c : ℤ) + ij.2 - (foot.cols / 2 : ℕ)
    if foot.val ij.1 ij.2 = true ∧ ij ≠ (foot.rows / 2, foot.cols / 2) ∧
        0 ≤ y ∧ y < rows ∧ 0 ≤ x ∧ x < cols then
      some (y.toNat, x.toNat)
    else none)

/-- Orientation similarity: average number of shared indices with the neighbours. -/
def similarity {K : Type*} [Field K] (rows cols : ℕ) (sims : ℕ → ℕ → ℤ) (foot : Img Bool)
    (n r c : ℕ) : K :=
  let nb := footNeighbours rows cols foot r c
  (nb.map (fun p => (((bestSet cols sims n r c) ∩ (bestSet cols sims n p.1 p.2)).card : K))).sum /
    nb.length

end Spec

open Spec

theorem interCount_eq (a b : List ℤ) : interCount a b = (a.toFinset ∩ b.toFinset).card := by
  unfold interCount
  have h : (a.dedup.filter (fun x => decide (x ∈ b))).Nodup := (List.nodup_dedup a).filter _
  rw [← List.toFinset_card_of_nodup h]
  congr 1
  ext x
  simp

section
variable {K : Type*} [Field K] [LinearOrder K] [IsStrictOrderedRing K]

theorem toFinset_map_range (n : ℕ) (f : ℕ → ℤ) :
    ((List.range n).map f).toFinset = (Finset.range n).image f := by
  ext x; simp

/-- The value of one map point. -/
theorem osmPixel_eq {rows cols : ℕ} {sims : ℕ → ℕ → ℤ} {foot : Img Bool} {center n : ℕ}
    (hcen : centerIndex foot = .ok center) {r c : ℕ} (hr : r < rows) (hc : c < cols)
    (normalize : Bool) :
    osmPixel (K := K) (filterIndices rows cols foot r c) center (rows * cols)
        (fun p => (List.range n).map (sims p)) n normalize =
      if footNeighbours rows cols foot r c = [] then none
      else some (if normalize then similarity (K := K) rows cols sims foot n r c / n
        else similarity rows cols sims foot n r c) := by
  obtain ⟨_, hget, h3⟩ := centerIndex_ok hcen
  obtain ⟨a, ha⟩ : ∃ a : Img (List ℤ), a =
    { rows := rows, cols := cols, val := fun r c => (List.range n).map (sims (r * cols + c)) } :=
    ⟨_, rfl⟩
  have har : a.rows = rows := by rw [ha]
  have hac : a.cols = cols := by rw [ha]
  have hflat : ∀ i : ℤ, 0 ≤ i → (List.range n).map (sims (pyRow (rows * cols) i)) =
      patternAtFlat a i := by
    intro i hi
    unfold patternAtFlat pyRow
    rw [if_neg (by omega), ha]
    simp only
    lift i to ℕ using hi
    have : ((i : ℤ) / (cols : ℤ)).toNat * cols + ((i : ℤ) % (cols : ℤ)).toNat = i := by
      have h1 : ((i : ℤ) / (cols : ℤ)).toNat = i / cols := by
        rw [← Int.natCast_ediv, Int.toNat_natCast]
      have h2 : ((i : ℤ) % (cols : ℤ)).toNat = i % cols := by
        rw [← Int.natCast_emod, Int.toNat_natCast]
      rw [h1, h2, Nat.mul_comm]
      exact Nat.div_add_mod i cols
    rw [this]
    simp
  have hv0 : ∀ i ∈ filterIndices rows cols foot r c, i ≠ -1 → 0 ≤ i := by
    intro i hi hne
    rw [filterIndices_eq, List.mem_map] at hi
    obtain ⟨k, _, rfl⟩ := hi
    unfold flatUnder at hne ⊢
    simp only at hne ⊢
    split at hne
    · rename_i hh
      rw [if_pos hh]
      have := mul_nonneg hh.1 (by omega : (0 : ℤ) ≤ cols)
      omega
    · exact absurd rfl hne
  have hcv : ∀ d, (filterIndices rows cols foot r c).getD center d = (r : ℤ) * cols + c := by
    intro d
    rw [filterIndices_eq, List.getD_eq_getElem?_getD, List.getElem?_map, hget]
    exact flatUnder_origin h3 hr hc
  have hcv0 : (0 : ℤ) ≤ (r : ℤ) * cols + c := by positivity
  -- counts as dot products
  have hcounts : ((filterIndices rows cols foot r c).filter (fun i => decide (i ≠ -1) &&
        decide (i ≠ (filterIndices rows cols foot r c).getD center 0))).map (fun i =>
      (interCount ((List.range n).map (sims (pyRow (rows * cols)
          ((filterIndices rows cols foot r c).getD center 0))))
        ((List.range n).map (sims (pyRow (rows * cols) i))) : K)) =
      neighbourDots (fun x y => (interCount y x : K)) a (filterIndices a.rows a.cols foot r c)
        center := by
    unfold neighbourDots neighbourIdx
    simp only [har, hac]
    rw [hcv, hcv, filter_range_map (filterIndices rows cols foot r c) (-1)
      (fun i => decide (i ≠ (r : ℤ) * cols + c) && decide (i ≠ -1))
      (fun i => (interCount (patternAtFlat a ((r : ℤ) * cols + c)) (patternAtFlat a i) : K))]
    have hf : (filterIndices rows cols foot r c).filter (fun i => decide (i ≠ -1) &&
        decide (i ≠ (r : ℤ) * cols + c)) = (filterIndices rows cols foot r c).filter
          (fun i => decide (i ≠ (r : ℤ) * cols + c) && decide (i ≠ -1)) := by
      refine List.filter_congr fun i _ => ?_
      rw [Bool.and_comm]
    rw [hf]
    refine List.map_congr_left fun i hi => ?_
    rw [List.mem_filter] at hi
    have hne : i ≠ -1 := by
      have := hi.2
      simp at this
      exact this.2
    rw [hflat i (hv0 i hi.1 hne), hflat _ hcv0]
  have hspec : neighbourDots (fun x y => (interCount y x : K)) a
      (filterIndices a.rows a.cols foot r c) center =
      (footNeighbours rows cols foot r c).map (fun p =>
        (((bestSet cols sims n r c) ∩ (bestSet cols sims n p.1 p.2)).card : K)) := by
    rw [neighbourDots_eq hcen a _ (by omega) (by omega)]
    unfold footNeighbours
    rw [flatPositions_eq _ _ h3, List.filterMap_map, List.map_filterMap]
    refine List.filterMap_congr fun k _ => ?_
    simp only [Function.comp]
    have hiff : k = foot.rows / 2 * foot.cols + foot.cols / 2 ↔
        (k / foot.cols, k % foot.cols) = (foot.rows / 2, foot.cols / 2) := by
      rw [Prod.mk.injEq]
      constructor
      · rintro rfl
        exact origin_div h3
      · rintro ⟨h1, h2⟩
        rw [← h1, ← h2, Nat.mul_comm]
        exact (Nat.div_add_mod k foot.cols).symm
    unfold neighbourDot
    simp only [har, hac]
    by_cases hko : k = foot.rows / 2 * foot.cols + foot.cols / 2
    · rw [if_pos hko, if_neg (fun hh => hh.2.1 (hiff.1 hko))]
      rfl
    · rw [if_neg hko]
      have hne : (k / foot.cols, k % foot.cols) ≠ (foot.rows / 2, foot.cols / 2) :=
        fun hh => hko (hiff.2 hh)
      simp only [hne, ne_eq, not_false_eq_true, true_and]
      split
      · simp only [Option.map_some, ha, interCount_eq, toFinset_map_range, bestSet]
      · rfl
  unfold osmPixel nanmean
  simp only
  rw [hcounts, hspec]
  by_cases h0 : footNeighbours rows cols foot r c = []
  · simp [h0]
  · rw [if_neg (by simpa using h0), if_neg h0]
    simp [similarity]

/-- C27: for a footprint with a `True` origin whose position among the `True` values is
`center_index`, every map point with neighbours gets the average number of indices shared
with its in-map neighbours, divided by `n` if normalized, for each `n` from `n_best` down to
`from_n_best`; points without neighbours get NaN. Partial: maps with one axis raise, see
`C27_one_axis`. -/
theorem C27_similarity_partial {rows cols keepN n fromN : ℕ} {sims : ℕ → ℕ → ℤ} {foot : Img Bool}
    {center : ℕ} (hn : n ≤ keepN) (hcen : centerIndex foot = .ok center) (normalize : Bool) :
    ∃ out : List (Img (Option K)),
      orientationSimilarityMap [rows, cols] (rows * cols) keepN sims (some n) normalize
        (some fromN) foot center = .ok out ∧ out.length = n - fromN + 1 ∧
      ∀ i m, out[i]? = some m → ∀ r c, r < rows → c < cols →
        m.val r c = if footNeighbours rows cols foot r c = [] then none
          else some (if normalize then similarity (K := K) rows cols sims foot (n - i) r c / (n - i : ℕ)
            else similarity rows cols sims foot (n - i) r c) := by
  have hlt : center < (truthyIndices foot).length := by
    obtain ⟨_, h, _⟩ := centerIndex_ok hcen
    exact (List.getElem?_eq_some_iff.1 h).1
  unfold orientationSimilarityMap
  simp only [Option.getD_some]
  rw [if_neg (by omega), if_neg (by simp), if_neg (by omega)]
  refine ⟨_, rfl, by simp, fun i m hm r c hr hc => ?_⟩
  rw [List.getElem?_map] at hm
  obtain ⟨i', hi', rfl⟩ := Option.map_eq_some_iff.1 hm
  obtain ⟨_, rfl⟩ := List.getElem?_eq_some_iff.1 hi'
  simp only [List.getElem_range]
  exact osmPixel_eq hcen hr hc normalize

theorem card_bestSet_le (cols : ℕ) (sims : ℕ → ℕ → ℤ) (n r c : ℕ) :
    (bestSet cols sims n r c).card ≤ n := by
  unfold bestSet
  exact Finset.card_image_le.trans (by simp)

/-- C27: the normalized similarity is in [0, 1]. -/
theorem C27_bounded {rows cols : ℕ} (sims : ℕ → ℕ → ℤ) (foot : Img Bool) {n : ℕ} (hn : 0 < n)
    (r c : ℕ) :
    0 ≤ similarity (K := K) rows cols sims foot n r c / n ∧
      similarity (K := K) rows cols sims foot n r c / n ≤ 1 := by
  have hn' : (0 : K) < n := by exact_mod_cast hn
  unfold similarity
  simp only
  obtain ⟨nb, hnb⟩ : ∃ nb, nb = footNeighbours rows cols foot r c := ⟨_, rfl⟩
  rw [← hnb]
  have h0 : ∀ l : List (ℕ × ℕ), 0 ≤ (l.map (fun p =>
      (((bestSet cols sims n r c) ∩ (bestSet cols sims n p.1 p.2)).card : K))).sum ∧
      (l.map (fun p => (((bestSet cols sims n r c) ∩
        (bestSet cols sims n p.1 p.2)).card : K))).sum ≤ n * l.length := by
    intro l
    induction l with
    | nil => simp
    | cons p l ih =>
      have hc : (((bestSet cols sims n r c) ∩ (bestSet cols sims n p.1 p.2)).card : K) ≤ n := by
        exact_mod_cast (Finset.card_le_card Finset.inter_subset_left).trans
          (card_bestSet_le cols sims n r c)
      have hc0 : (0 : K) ≤ (((bestSet cols sims n r c) ∩
        (bestSet cols sims n p.1 p.2)).card : K) := Nat.cast_nonneg _
      rw [List.map_cons, List.sum_cons, List.length_cons]
      push_cast
      constructor
      · linarith [ih.1]
      · nlinarith [ih.2]
  obtain ⟨h1, h2⟩ := h0 nb
  have hl : (0 : K) ≤ nb.length := Nat.cast_nonneg _
  refine ⟨div_nonneg (div_nonneg h1 hl) hn'.le, ?_⟩
  rw [div_le_one hn']
  rcases hl.lt_or_eq with hl | hl
  · rw [div_le_iff₀ hl]; exact h2
  · rw [← hl, div_zero]; exact hn'.le

/-- C27: the normalized similarity is 1 where all neighbours have the same `n` different
best matches (in any order). -/
theorem C27_same_matches {rows cols : ℕ} {sims : ℕ → ℕ → ℤ} {foot : Img Bool} {n : ℕ}
    (hn : 0 < n) {r c : ℕ} (hne : footNeighbours rows cols foot r c ≠ [])
    (hcard : (bestSet cols sims n r c).card = n)
    (hsame : ∀ p ∈ footNeighbours rows cols foot r c,
      bestSet cols sims n p.1 p.2 = bestSet cols sims n r c) :
    similarity (K := K) rows cols sims foot n r c / n = 1 := by
  have hn' : (n : K) ≠ 0 := by exact_mod_cast hn.ne'
  unfold similarity
  simp only
  have h1 : (footNeighbours rows cols foot r c).map (fun p =>
      (((bestSet cols sims n r c) ∩ (bestSet cols sims n p.1 p.2)).card : K)) =
      (footNeighbours rows cols foot r c).map (fun _ => (n : K)) := by
    refine List.map_congr_left fun p hp => ?_
    rw [hsame p hp, Finset.inter_self, hcard]
  rw [h1, List.map_const', List.sum_replicate, nsmul_eq_mul]
  have hl : ((footNeighbours rows cols foot r c).length : K) ≠ 0 := by
    exact_mod_cast (List.length_pos_of_ne_nil hne).ne'
  rw [mul_div_cancel_left₀ _ hl, div_self hn']

/-- C27 is false for maps with one axis: `IndexError`, whatever the data. -/
theorem C27_one_axis (cols keepN : ℕ) (sims : ℕ → ℕ → ℤ) (normalize : Bool)
    (fromN : Option ℕ) (foot : Img Bool) (center : ℕ) :
    orientationSimilarityMap (K := K) [cols] cols keepN sims none normalize fromN foot center =
      .error .indexError := by
  unfold orientationSimilarityMap
  simp

end

/-- The default footprint and `center_index` meet the hypothesis. -/
example : centerIndex osmFootprint = .ok 2 := by decide

/-- A 2 × 2 map where the first two columns share one of two indices. -/
example : (orientationSimilarityMap (K := ℚ) [2, 2] 4 2
    (fun p n => if p % 2 = 0 then (n : ℤ) else n + 1) none true none osmFootprint 2).toOption.map
      (fun l => l.map (fun m => [m.val 0 0, m.val 0 1])) =
    some [[some (3 / 4), some (3 / 4)]] := by decide +kernel

/-- A map with one point has no neighbours: NaN. -/
example : footNeighbours 1 1 osmFootprint 0 0 = [] ∧
    footNeighbours 2 2 osmFootprint 0 0 = [(0, 1), (1, 0)] := by decide

end Kp
