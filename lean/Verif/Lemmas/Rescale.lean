import Verif.Model.Rescale
import Verif.Spec.Rescale
import Mathlib.Algebra.Order.Floor.Ring
import Mathlib.Tactic.Ring
import Mathlib.Tactic.FieldSimp
import Mathlib.Tactic.Linarith
import Mathlib.Tactic.Positivity
import Mathlib.Tactic.NormNum

set_option linter.unusedSectionVars false

namespace Kp

section
variable {K : Type*} [Field K] [LinearOrder K] [IsStrictOrderedRing K]

theorem listMin_mem {l : List K} (h : l ≠ []) : listMin l ∈ l := by
  induction l with
  | nil => simp at h
  | cons a l ih =>
    cases l with
    | nil => simp [listMin]
    | cons b l =>
      simp only [listMin]
      rcases le_total a (listMin (b :: l)) with h1 | h1
      · rw [min_eq_left h1]; simp
      · rw [min_eq_right h1]; exact List.mem_cons_of_mem _ (ih (by simp))

theorem listMin_le {l : List K} : ∀ x ∈ l, listMin l ≤ x := by
  induction l with
  | nil => simp
  | cons a l ih =>
    cases l with
    | nil => simp [listMin]
    | cons b l =>
      intro x hx
      simp only [listMin]
      rcases List.mem_cons.1 hx with rfl | hx
      · exact min_le_left _ _
      · exact (min_le_right _ _).trans (ih x hx)

theorem listMax_mem {l : List K} (h : l ≠ []) : listMax l ∈ l := by
  induction l with
  | nil => simp at h
  | cons a l ih =>
    cases l with
    | nil => simp [listMax]
    | cons b l =>
      simp only [listMax]
      rcases le_total a (listMax (b :: l)) with h1 | h1
      · rw [max_eq_right h1]; exact List.mem_cons_of_mem _ (ih (by simp))
      · rw [max_eq_left h1]; simp

theorem le_listMax {l : List K} : ∀ x ∈ l, x ≤ listMax l := by
  induction l with
  | nil => simp
  | cons a l ih =>
    cases l with
    | nil => simp [listMax]
    | cons b l =>
      intro x hx
      simp only [listMax]
      rcases List.mem_cons.1 hx with rfl | hx
      · exact le_max_left _ _
      · exact (ih x hx).trans (le_max_right _ _)

theorem listMin_lt_listMax {l : List K} {x y : K} (hx : x ∈ l) (hy : y ∈ l) (h : x ≠ y) :
    listMin l < listMax l := by
  have h1 := listMin_le x hx
  have h2 := listMin_le y hy
  have h3 := le_listMax x hx
  have h4 := le_listMax y hy
  rcases lt_or_gt_of_ne h with h | h
  · linarith
  · linarith

theorem rescalePixel_min {imin imax omin omax : K} :
    rescalePixel imin imax omin omax imin = omin := by
  simp [rescalePixel]

theorem rescalePixel_max {imin imax omin omax : K} (h : imin < imax) :
    rescalePixel imin imax omin omax imax = omax := by
  have : imax - imin ≠ 0 := (sub_pos.2 h).ne'
  simp [rescalePixel, div_self this]

theorem rescalePixel_mono {imin imax omin omax : K} (h : imin < imax) (ho : omin ≤ omax) :
    Monotone (rescalePixel imin imax omin omax) := by
  intro x y hxy
  unfold rescalePixel
  have h1 : 0 < imax - imin := sub_pos.2 h
  have h2 : 0 ≤ omax - omin := sub_nonneg.2 ho
  have h3 : (x - imin) / (imax - imin) ≤ (y - imin) / (imax - imin) := by
    gcongr
  have h4 := mul_le_mul_of_nonneg_right h3 h2
  linarith

theorem rescalePixel_strictMono {imin imax omin omax : K} (h : imin < imax) (ho : omin < omax) :
    StrictMono (rescalePixel imin imax omin omax) := by
  intro x y hxy
  unfold rescalePixel
  have h1 : 0 < imax - imin := sub_pos.2 h
  have h2 : 0 < omax - omin := sub_pos.2 ho
  have h3 : (x - imin) / (imax - imin) < (y - imin) / (imax - imin) := by
    gcongr
  have h4 := mul_lt_mul_of_pos_right h3 h2
  linarith

theorem clip_mono {lo hi : K} : Monotone (clip lo hi) := by
  intro x y h
  unfold clip
  exact min_le_min_right _ (max_le_max_right _ h)

theorem clip_within {lo hi : K} (h : lo ≤ hi) (x : K) : lo ≤ clip lo hi x ∧ clip lo hi x ≤ hi := by
  unfold clip
  exact ⟨le_min (le_max_right _ _) h, min_le_right _ _⟩

theorem clip_of_within {lo hi x : K} (h1 : lo ≤ x) (h2 : x ≤ hi) : clip lo hi x = x := by
  unfold clip
  rw [max_eq_left h1, min_eq_left h2]

variable [FloorRing K]

theorem truncate_int (z : ℤ) : truncate (z : K) = z := by
  unfold truncate
  split <;> simp

theorem truncate_mono : Monotone (truncate (K := K)) := by
  intro x y h
  unfold truncate
  split <;> split
  · exact_mod_cast Int.floor_le_floor h
  · rename_i h1 h2; exact absurd (h1.trans h) h2
  · rename_i h1 h2
    have : ⌈x⌉ ≤ 0 := Int.ceil_le.2 (by push_cast; exact (not_le.1 h1).le)
    have h3 : 0 ≤ ⌊y⌋ := Int.floor_nonneg.2 h2
    exact_mod_cast this.trans h3
  · exact_mod_cast Int.ceil_le_ceil h

/-- A value is exactly representable in the type (integers for integer types). -/
def Representable (d : DType) (x : K) : Prop :=
  match d with
  | .float _ | .other => True
  | .uint _ | .int _ => ∃ z : ℤ, x = z

theorem castTo_repr {d : DType} {x : K} (h : Representable d x) : castTo d x = x := by
  cases d <;> simp only [castTo]
  all_goals
    obtain ⟨z, rfl⟩ := h
    exact truncate_int z

theorem castTo_mono (d : DType) : Monotone (castTo (K := K) d) := by
  cases d
  case float => exact monotone_id
  case other => exact monotone_id
  all_goals exact truncate_mono

theorem representable_range {d : DType} {lo hi : ℤ} (_h : dtypeRange d = some (lo, hi)) :
    Representable d (lo : K) ∧ Representable d (hi : K) := by
  cases d <;> simp [Representable]

theorem fillsRange_of_map {p : List K} {x y : K} (hx : x ∈ p) (hy : y ∈ p) (hxy : x ≠ y)
    {d : DType} {omin omax : K} (ho : omin ≤ omax) (h1 : Representable d omin)
    (h2 : Representable d omax) :
    FillsRange omin omax
      ((rescaleWithMinMax p (listMin p) (listMax p) omin omax).map (castTo d)) := by
  have hne : p ≠ [] := by rintro rfl; simp at hx
  have hlt := listMin_lt_listMax hx hy hxy
  have hm := (castTo_mono d).comp (rescalePixel_mono hlt ho)
  refine ⟨?_, ?_, ?_⟩
  · simp only [rescaleWithMinMax, List.map_map, List.mem_map]
    exact ⟨_, listMin_mem hne, by simp [rescalePixel_min, castTo_repr h1]⟩
  · simp only [rescaleWithMinMax, List.map_map, List.mem_map]
    exact ⟨_, listMax_mem hne, by simp [rescalePixel_max hlt, castTo_repr h2]⟩
  · intro z hz
    simp only [rescaleWithMinMax, List.map_map, List.mem_map] at hz
    obtain ⟨a, ha, rfl⟩ := hz
    have l1 := hm (listMin_le a ha)
    have l2 := hm (le_listMax a ha)
    simp only [Function.comp, rescalePixel_min, rescalePixel_max hlt, castTo_repr h1,
      castTo_repr h2] at l1 l2
    exact ⟨l1, l2⟩

omit [FloorRing K] in
theorem orderKept_map {p : List K} {f : K → K} (hf : Monotone f) : OrderKept p (p.map f) := by
  refine ⟨by simp, ?_⟩
  intro i j x y x' y' hx hy hx' hy' hxy
  simp only [List.getElem?_map, hx, hy, Option.map_some, Option.some.injEq] at hx' hy'
  subst hx' hy'
  exact hf hxy

/-! Percentiles. -/

theorem getD_sorted_le {s : List K} (hs : s.Pairwise (· ≤ ·)) {i j : ℕ} (hij : i ≤ j)
    (hj : j < s.length) : s.getD i 0 ≤ s.getD j 0 := by
  have hi : i < s.length := by omega
  simp only [List.getD_eq_getElem?_getD, List.getElem?_eq_getElem hi,
    List.getElem?_eq_getElem hj, Option.getD_some]
  rcases Nat.lt_or_eq_of_le hij with h | h
  · exact List.pairwise_iff_getElem.1 hs i j (by omega) hj h
  · subst h; rfl

/-- Linear interpolation in a sorted list at position `v`. -/
def lerpAt (s : List K) (v : K) : K :=
  s.getD ⌊v⌋.toNat 0 + (v - ((⌊v⌋.toNat : ℕ) : K)) *
    (s.getD (min (⌊v⌋.toNat + 1) (s.length - 1)) 0 - s.getD ⌊v⌋.toNat 0)

theorem lerpAt_bounds {s : List K} (hs : s.Pairwise (· ≤ ·)) {v : K} (h0 : 0 ≤ v)
    (h1 : v ≤ (s.length : K) - 1) (_hn : 0 < s.length) :
    s.getD ⌊v⌋.toNat 0 ≤ lerpAt s v ∧
      lerpAt s v ≤ s.getD (min (⌊v⌋.toNat + 1) (s.length - 1)) 0 ∧ ⌊v⌋.toNat < s.length := by
  have hf0 : 0 ≤ ⌊v⌋ := Int.floor_nonneg.2 h0
  have hcast : ((⌊v⌋.toNat : ℕ) : K) = ((⌊v⌋ : ℤ) : K) := by
    have : ((⌊v⌋.toNat : ℕ) : ℤ) = ⌊v⌋ := Int.toNat_of_nonneg hf0
    exact_mod_cast congrArg (Int.cast (R := K)) this
  have hlt : ⌊v⌋.toNat < s.length := by
    have : ((⌊v⌋.toNat : ℕ) : K) ≤ (s.length : K) - 1 := by
      rw [hcast]; exact (Int.floor_le v).trans h1
    have h2 : ((⌊v⌋.toNat + 1 : ℕ) : K) ≤ (s.length : K) := by push_cast; linarith
    have := Nat.cast_le.1 h2
    omega
  have hle : s.getD ⌊v⌋.toNat 0 ≤ s.getD (min (⌊v⌋.toNat + 1) (s.length - 1)) 0 :=
    getD_sorted_le hs (by omega) (by omega)
  have hfrac0 : 0 ≤ v - ((⌊v⌋.toNat : ℕ) : K) := by
    rw [hcast]; linarith [Int.floor_le v]
  have hfrac1 : v - ((⌊v⌋.toNat : ℕ) : K) ≤ 1 := by
    rw [hcast]; linarith [Int.lt_floor_add_one v]
  refine ⟨?_, ?_, hlt⟩
  · unfold lerpAt
    have := mul_nonneg hfrac0 (sub_nonneg.2 hle)
    linarith
  · unfold lerpAt
    have := mul_le_mul_of_nonneg_right hfrac1 (sub_nonneg.2 hle)
    linarith

theorem lerpAt_mono {s : List K} (hs : s.Pairwise (· ≤ ·)) {v w : K} (h0 : 0 ≤ v) (hvw : v ≤ w)
    (h1 : w ≤ (s.length : K) - 1) (hn : 0 < s.length) : lerpAt s v ≤ lerpAt s w := by
  have bv := lerpAt_bounds hs h0 (hvw.trans h1) hn
  have bw := lerpAt_bounds hs (h0.trans hvw) h1 hn
  have hfl : ⌊v⌋ ≤ ⌊w⌋ := Int.floor_le_floor hvw
  rcases eq_or_lt_of_le hfl with he | hl
  · unfold lerpAt
    rw [he]
    rw [he] at bv
    have hle : s.getD ⌊w⌋.toNat 0 ≤ s.getD (min (⌊w⌋.toNat + 1) (s.length - 1)) 0 :=
      bv.1.trans bv.2.1
    have := mul_le_mul_of_nonneg_right
      (sub_le_sub_right hvw ((⌊w⌋.toNat : ℕ) : K)) (sub_nonneg.2 hle)
    linarith
  · have hf0 : 0 ≤ ⌊v⌋ := Int.floor_nonneg.2 h0
    refine bv.2.1.trans (le_trans ?_ bw.1)
    exact getD_sorted_le hs (by omega) bw.2.2

theorem percentile_eq (p : List K) (q : K) :
    percentile p q = lerpAt (p.insertionSort (· ≤ ·)) (q / 100 * ((p.length : K) - 1)) := by
  simp [percentile, lerpAt, List.length_insertionSort]

theorem percentile_mono {p : List K} (hp : p ≠ []) {q r : K} (h0 : 0 ≤ q) (hqr : q ≤ r)
    (h1 : r ≤ 100) : percentile p q ≤ percentile p r := by
  have hn : 0 < p.length := List.length_pos_iff.2 hp
  have hn1 : (0 : K) ≤ (p.length : K) - 1 := by
    have : (1 : K) ≤ p.length := by exact_mod_cast hn
    linarith
  rw [percentile_eq, percentile_eq]
  refine lerpAt_mono (List.pairwise_insertionSort _ _) ?_ ?_ ?_ ?_
  · have : 0 ≤ q / 100 := by linarith [div_nonneg h0 (by norm_num : (0 : K) ≤ 100)]
    exact mul_nonneg this hn1
  · refine mul_le_mul_of_nonneg_right ?_ hn1
    gcongr
  · rw [List.length_insertionSort]
    have : r / 100 ≤ 1 := by rw [div_le_one (by norm_num)]; exact h1
    have := mul_le_mul_of_nonneg_right this hn1
    linarith
  · simpa [List.length_insertionSort] using hn

end
end Kp
