import Verif.Model.NanNeighbours
import Verif.Spec.NanNeighbours
import Verif.Lemmas.NanScores
import Verif.Props.Neighbours
import Verif.Props.FloatSimilarity

/-
C113: neighbour dot products of maps with patterns without contrast, and their data type.
-/

set_option linter.unusedSectionVars false

namespace Kp

open Spec

section
variable {ι : Type*} [Fintype ι]

/-- The map with all pixels converted to a floating point type. -/
noncomputable def Spec.converted (t : MetricType) (map : Img (ι → ℝ)) : Img (ι → ℝ) :=
  { rows := map.rows
    cols := map.cols
    val := fun r c i => t.fl (map.val r c i) }

theorem centeredNorm_ne (p : ι → ℝ) : centeredNorm p ≠ 0 ↔ NotFlat p := by
  rw [Ne, sqrt_dev_eq_zero]
  unfold NotFlat
  push Not
  rfl

open Classical in
/-- One product, with the default arguments. -/
theorem neighbourProduct_default (t : MetricType) (a b : ι → ℝ) :
    neighbourProduct t true true a b =
      if NotFlat (fun i => t.fl (a i)) ∧ NotFlat (fun i => t.fl (b i)) then
        some (corrCoef (fun i => t.fl (a i)) (fun i => t.fl (b i)))
      else none := by
  unfold neighbourProduct prepareNeighbour
  simp only [if_true]
  set a' : ι → ℝ := fun i => t.fl (a i)
  set b' : ι → ℝ := fun i => t.fl (b i)
  have h (p : ι → ℝ) : normalizeNan (zeroMean p) =
      if NotFlat p then some (fun i => (p i - mean p) / centeredNorm p) else none := by
    unfold normalizeNan
    have e : plainNorm (zeroMean p) = centeredNorm p := rfl
    rw [e]
    by_cases hc : NotFlat p
    · rw [if_neg ((centeredNorm_ne p).2 hc), if_pos hc]
      rfl
    · rw [if_pos (by by_contra h; exact hc ((centeredNorm_ne p).1 h)), if_neg hc]
  rw [h a', h b']
  by_cases ha : NotFlat a'
  · by_cases hb : NotFlat b'
    · rw [if_pos ha, if_pos hb, if_pos ⟨ha, hb⟩]
      simp only [Option.some.injEq]
      unfold dotPatterns corrCoef
      rw [Finset.sum_div]
      refine Finset.sum_congr rfl fun i _ => ?_
      rw [div_mul_div_comm]
      rfl
    · rw [if_pos ha, if_neg hb, if_neg (show ¬ (NotFlat a' ∧ NotFlat b') from
        fun h => hb h.2)]
  · rw [if_neg ha, if_neg (show ¬ (NotFlat a' ∧ NotFlat b') from fun h => ha h.1)]

theorem dotPatterns_bound {a b : ι → ℝ} (ha : ∑ i, a i ^ 2 = 1) (hb : ∑ i, b i ^ 2 = 1) :
    |dotPatterns a b| ≤ 1 := by
  have h := Finset.sum_mul_sq_le_sq_mul_sq Finset.univ a b
  rw [ha, hb] at h
  rw [abs_le]
  exact ⟨by unfold dotPatterns; nlinarith, by unfold dotPatterns; nlinarith⟩

/-- Normalized patterns have products between -1 and 1. -/
theorem neighbourProduct_bound {t : MetricType} {z : Bool} {a b : ι → ℝ} {x : ℝ}
    (h : neighbourProduct t z true a b = some x) : |x| ≤ 1 := by
  have key (p q : ι → ℝ) (hq : normalizeNan p = some q) : ∑ i, q i ^ 2 = 1 := by
    unfold normalizeNan at hq
    split_ifs at hq with h0
    obtain rfl := Option.some.inj hq
    simp only [div_pow]
    rw [← Finset.sum_div]
    have hs : plainNorm p ^ 2 = ∑ i, p i ^ 2 :=
      Real.sq_sqrt (Finset.sum_nonneg fun i _ => sq_nonneg _)
    rw [← hs]
    exact div_self (pow_ne_zero 2 h0)
  unfold neighbourProduct at h
  split at h
  · rename_i a' b' h1 h2
    obtain rfl := Option.some.inj h
    unfold prepareNeighbour at h1 h2
    simp only [if_true] at h1 h2
    exact dotPatterns_bound (key _ _ h1) (key _ _ h2)
  · cases h

/-! ### Lists of neighbours -/

theorem neighbourDots_neighbours {V K : Type*} (dp : V → V → K) (map : Img V) (w : Img Bool)
    (r c : ℕ) :
    (flatPositions w.rows w.cols).filterMap (fun ij =>
        if ij = (w.rows / 2, w.cols / 2) then none else neighbourDot dp map w r c ij.1 ij.2) =
      (neighboursOf map w r c).map (fun q => dp q (map.val r c)) := by
  unfold neighboursOf
  rw [List.map_filterMap]
  refine List.filterMap_congr fun ij _ => ?_
  unfold neighbourDot
  by_cases h : ij = (w.rows / 2, w.cols / 2)
  · rw [if_pos h, if_neg (fun hh => hh.1 h)]
    rfl
  · rw [if_neg h]
    simp only
    split_ifs with h1 h2 h2
    · rfl
    · exact absurd ⟨h, h1⟩ h2
    · exact absurd h2.2 h1
    · rfl

theorem neighboursOf_map {V W : Type*} (f : V → W) (map : Img V) (w : Img Bool) (r c : ℕ) :
    neighboursOf { rows := map.rows, cols := map.cols, val := fun r c => f (map.val r c) } w r c =
      (neighboursOf map w r c).map f := by
  unfold neighboursOf
  rw [List.map_filterMap]
  refine List.filterMap_congr fun ij _ => ?_
  simp only
  split_ifs <;> rfl

open Classical in
theorem reduceOption_default (t : MetricType) (p : ι → ℝ) (l : List (ι → ℝ)) :
    (l.map (fun q => neighbourProduct t true true q p)).reduceOption =
      if NotFlat (fun i => t.fl (p i)) then
        ((l.map (fun q i => t.fl (q i))).filter (fun q => NotFlat q)).map
          (fun q => corrCoef q (fun i => t.fl (p i)))
      else [] := by
  induction l with
  | nil => simp
  | cons q l ih =>
    rw [List.map_cons, neighbourProduct_default]
    by_cases hp : NotFlat (fun i => t.fl (p i))
    · rw [if_pos hp] at ih ⊢
      by_cases hq : NotFlat (fun i => t.fl (q i))
      · rw [if_pos ⟨hq, hp⟩, List.reduceOption_cons_of_some, ih]
        simp [hq]
      · rw [if_neg (fun h => hq h.1), List.reduceOption_cons_of_none, ih]
        simp [hq]
    · rw [if_neg hp] at ih ⊢
      rw [if_neg (fun h => hp h.2), List.reduceOption_cons_of_none, ih]

open Classical in
theorem nanmean_default (t : MetricType) (map : Img (ι → ℝ)) (w : Img Bool) (r c : ℕ) :
    nanmeanNan ((neighboursOf map w r c).map
      (fun q => neighbourProduct t true true q (map.val r c))) =
        averageCorrelation (converted t map) w r c := by
  unfold nanmeanNan averageCorrelation
  rw [reduceOption_default]
  have e : neighboursOf (converted t map) w r c =
      (neighboursOf map w r c).map (fun q i => t.fl (q i)) := by
    have e0 : converted t map = Img.mk map.rows map.cols
      (fun r c => (fun (q : ι → ℝ) i => t.fl (q i)) (map.val r c)) := rfl
    rw [e0]
    exact neighboursOf_map (V := ι → ℝ) (W := ι → ℝ) (fun q i => t.fl (q i)) map w r c
  have e' : (converted t map).val r c = fun i => t.fl (map.val r c i) := rfl
  simp only [e, e']
  generalize ((neighboursOf map w r c).map (fun q i => t.fl (q i))).filter
    (fun q => decide (NotFlat q)) = l
  unfold nanmean
  by_cases hp : NotFlat (fun i => t.fl (map.val r c i))
  · rw [if_pos hp]
    by_cases hl : l = []
    · rw [hl]; simp
    · rw [if_neg (by simpa using hl), if_pos ⟨hp, hl⟩, List.length_map]
  · rw [if_neg hp]
    simp [hp]

/-! ### The property -/

/-- C113: with the default arguments, the average neighbour dot product map has, in every map point
and whatever the chunking, the mean correlation with the neighbours that have contrast. It is NaN
exactly if the pattern has none itself or no such neighbour: patterns without contrast do not
disturb their neighbours. Missing: windows with an even axis on chunked maps (`C19_even_window`). -/
theorem C113_average_map_partial (t : MetricType) {map : Img (ι → ℝ)} {w : Img Bool}
    {rowChunks colChunks : List ℕ} (hr0 : 0 < w.rows) (hc0 : 0 < w.cols)
    (ho : w.val (w.rows / 2) (w.cols / 2) = true)
    (hr : rowChunks.sum = map.rows) (hc : colChunks.sum = map.cols)
    (hrodd : w.rows % 2 = 1 ∨ map.rows ∈ rowChunks)
    (hcodd : w.cols % 2 = 1 ∨ map.cols ∈ colChunks) :
    ∃ avg, adpMapNan t true true map w rowChunks colChunks = .ok avg ∧
      ∀ r c, r < map.rows → c < map.cols →
        avg.val r c = averageCorrelation (converted t map) w r c := by
  obtain ⟨center, hcen⟩ := centerIndex_origin hr0 hc0 ho
  unfold adpMapNan
  rw [hcen]
  refine ⟨_, rfl, fun r c hr' hc' => ?_⟩
  obtain ⟨-, h2⟩ := chunk_dots (neighbourProduct t true true) hcen hc0 hr hc hrodd hcodd hr' hc'
  simp only [mapOverlap, adpChunkNan]
  rw [h2, neighbourDots_neighbours, nanmean_default]

/-- C113: the dot product matrices have the correlation with every neighbour under the window where
both have contrast, and NaN elsewhere. Missing: even windows, and `dtype_out` (see
`C113_dtype_violated`). -/
theorem C113_matrices_partial (t : MetricType) {map : Img (ι → ℝ)} {w : Img Bool}
    {rowChunks colChunks : List ℕ} (hr0 : 0 < w.rows) (hc0 : 0 < w.cols)
    (ho : w.val (w.rows / 2) (w.cols / 2) = true)
    (hr : rowChunks.sum = map.rows) (hc : colChunks.sum = map.cols)
    (hrodd : w.rows % 2 = 1 ∨ map.rows ∈ rowChunks)
    (hcodd : w.cols % 2 = 1 ∨ map.cols ∈ colChunks) :
    ∃ mats, dpMatricesNan t true true map w rowChunks colChunks = .ok mats ∧
      ∀ r c, r < map.rows → c < map.cols → ∀ i j, i < w.rows → j < w.cols →
        mats.val r c (i * w.cols + j) = correlationAt (converted .float32 map) w r c i j := by
  obtain ⟨center, hcen⟩ := centerIndex_origin hr0 hc0 ho
  unfold dpMatricesNan
  rw [hcen]
  refine ⟨_, rfl, fun r c hr' hc' i j hi hj => ?_⟩
  obtain ⟨h1, -⟩ := chunk_dots (neighbourProduct .float32 true true) hcen hc0 hr hc hrodd hcodd hr'
    hc'
  simp only [mapOverlap, dpMatricesChunkNan]
  rw [h1 i j hi hj]
  unfold neighbourDot correlationAt
  simp only [neighbourProduct_default]
  split
  · rename_i g1
    split
    · rename_i g2
      rw [if_pos ⟨g1.1, g1.2.1, g1.2.2.1, g1.2.2.2.1, g1.2.2.2.2, g2⟩]
      rfl
    · rename_i g2
      rw [if_neg (fun g3 => g2 g3.2.2.2.2.2)]
      rfl
  · rename_i g1
    rw [if_neg (fun g3 => g1 ⟨g3.1, g3.2.1, g3.2.2.1, g3.2.2.2.1, g3.2.2.2.2.1⟩)]
    rfl

theorem nanmeanNan_bound {l : List (Option ℝ)} (h : ∀ x, some x ∈ l → |x| ≤ 1) {m : ℝ}
    (hm : nanmeanNan l = some m) : |m| ≤ 1 := by
  unfold nanmeanNan nanmean at hm
  split_ifs at hm with h0
  obtain rfl := Option.some.inj hm
  have key : ∀ l : List ℝ, (∀ x ∈ l, |x| ≤ 1) → |l.sum| ≤ l.length := by
    intro l hl
    induction l with
    | nil => simp
    | cons x l ih =>
      have h1 := hl x (by simp)
      have h2 := ih (fun y hy => hl y (by simp [hy]))
      rw [List.sum_cons, List.length_cons]
      have := abs_add_le x l.sum
      push_cast
      linarith
  have hs := key l.reduceOption (fun x hx => h x (List.reduceOption_mem_iff.1 hx))
  have hpos : (0 : ℝ) < l.reduceOption.length := by
    exact_mod_cast List.length_pos_iff.2 h0
  rw [abs_div, abs_of_pos hpos, div_le_one hpos]
  exact hs

/-- C113: with normalization, centered or not, all averages are between -1 and 1, for every window
and chunking. -/
theorem C113_bounds {t : MetricType} {z : Bool} {map : Img (ι → ℝ)} {w : Img Bool}
    {rowChunks colChunks : List ℕ} {avg : Img (Option ℝ)}
    (h : adpMapNan t z true map w rowChunks colChunks = .ok avg) {r c : ℕ} {x : ℝ}
    (hx : avg.val r c = some x) : -1 ≤ x ∧ x ≤ 1 := by
  unfold adpMapNan at h
  split at h
  · cases h
  · have h := Except.ok.inj h
    subst h
    rw [← abs_le]
    simp only [mapOverlap, adpChunkNan] at hx
    refine nanmeanNan_bound (fun y hy => ?_) hx
    unfold neighbourDots at hy
    obtain ⟨k, -, hk⟩ := List.mem_map.1 hy
    exact neighbourProduct_bound hk

/-! ### Brightness and contrast -/

theorem notFlat_affine {p : ι → ℝ} {g o : ℝ} (hg : 0 < g) :
    NotFlat (fun i => g * p i + o) ↔ NotFlat p := by
  unfold NotFlat
  constructor
  · rintro ⟨i, j, h⟩
    exact ⟨i, j, fun e => h (by simp only [e])⟩
  · rintro ⟨i, j, h⟩
    refine ⟨i, j, fun e => h ?_⟩
    have := add_right_cancel e
    exact mul_left_cancel₀ hg.ne' this

theorem corrCoef_affine {p q : ι → ℝ} {g o g' o' : ℝ} (hg : 0 < g) (hg' : 0 < g')
    (hp : NotFlat p) :
    corrCoef (fun i => g * p i + o) (fun i => g' * q i + o') = corrCoef p q := by
  have hc : (Fintype.card ι : ℝ) ≠ 0 := by
    have : Nonempty ι := ⟨hp.choose⟩
    exact_mod_cast Fintype.card_ne_zero
  have hm (f : ι → ℝ) (a b : ℝ) : meanOf (fun i => a * f i + b) = a * meanOf f + b := by
    unfold meanOf
    rw [Finset.sum_add_distrib, ← Finset.mul_sum, Finset.sum_const, Finset.card_univ,
      nsmul_eq_mul]
    field_simp
  have hd (f : ι → ℝ) (a b : ℝ) (i : ι) :
      a * f i + b - meanOf (fun i => a * f i + b) = a * (f i - meanOf f) := by
    rw [hm]; ring
  have hs (f : ι → ℝ) {a b : ℝ} (ha : 0 < a) :
      Real.sqrt (∑ i, (a * f i + b - meanOf (fun i => a * f i + b)) ^ 2) =
        a * Real.sqrt (∑ i, (f i - meanOf f) ^ 2) := by
    have : ∑ i, (a * f i + b - meanOf (fun i => a * f i + b)) ^ 2 =
        a ^ 2 * ∑ i, (f i - meanOf f) ^ 2 := by
      rw [Finset.mul_sum]
      refine Finset.sum_congr rfl fun i _ => ?_
      rw [hd]; ring
    rw [this, Real.sqrt_mul (by positivity), Real.sqrt_sq ha.le]
  unfold corrCoef
  rw [hs p hg, hs q hg']
  have hn : ∑ i, (g * p i + o - meanOf (fun i => g * p i + o)) *
      (g' * q i + o' - meanOf (fun i => g' * q i + o')) =
        (g * g') * ∑ i, (p i - meanOf p) * (q i - meanOf q) := by
    rw [Finset.mul_sum]
    refine Finset.sum_congr rfl fun i _ => ?_
    rw [hd, hd]; ring
  rw [hn]
  have e : ∀ A B : ℝ, g * A * (g' * B) = (g * g') * (A * B) := fun A B => by ring
  rw [e, mul_div_mul_left _ _ (mul_pos hg hg').ne']

open Classical in
theorem averageCorrelation_affine {map map' : Img (ι → ℝ)} (w : Img Bool) {g o : ℕ → ℕ → ℝ}
    (hrows : map'.rows = map.rows) (hcols : map'.cols = map.cols)
    (hg : ∀ r c, 0 < g r c) (h : ∀ r c i, map'.val r c i = g r c * map.val r c i + o r c)
    (r c : ℕ) : averageCorrelation map' w r c = averageCorrelation map w r c := by
  let pts : Img (ℕ × ℕ) := { rows := map.rows, cols := map.cols, val := fun r c => (r, c) }
  have e1 : neighboursOf map w r c =
      (neighboursOf pts w r c).map (fun rc => map.val rc.1 rc.2) :=
    neighboursOf_map (fun rc : ℕ × ℕ => map.val rc.1 rc.2) pts w r c
  have e2 : neighboursOf map' w r c =
      (neighboursOf pts w r c).map (fun rc => map'.val rc.1 rc.2) := by
    have := neighboursOf_map (fun rc : ℕ × ℕ => map'.val rc.1 rc.2) pts w r c
    have hm : map' = Img.mk pts.rows pts.cols
        (fun r c => (fun rc : ℕ × ℕ => map'.val rc.1 rc.2) (pts.val r c)) := by
      cases map'
      simp only at hrows hcols
      subst hrows hcols
      rfl
    rw [← hm] at this
    exact this
  have hv : ∀ r c, map'.val r c = fun i => g r c * map.val r c i + o r c :=
    fun r c => funext (h r c)
  have hcon : ∀ r c, NotFlat (map'.val r c) ↔ NotFlat (map.val r c) := by
    intro r c
    rw [hv]
    exact notFlat_affine (hg r c)
  unfold averageCorrelation
  simp only [e1, e2, List.filter_map, List.map_map, List.length_map]
  have hf : (neighboursOf pts w r c).filter
        ((fun q => decide (NotFlat q)) ∘ fun rc : ℕ × ℕ => map'.val rc.1 rc.2) =
      (neighboursOf pts w r c).filter
        ((fun q => decide (NotFlat q)) ∘ fun rc : ℕ × ℕ => map.val rc.1 rc.2) := by
    refine List.filter_congr fun rc _ => ?_
    simp only [Function.comp, hcon]
  rw [hf]
  have hm : ∀ rc ∈ (neighboursOf pts w r c).filter
        ((fun q => decide (NotFlat q)) ∘ fun rc : ℕ × ℕ => map.val rc.1 rc.2),
      ((fun q => corrCoef q (map'.val r c)) ∘ fun rc : ℕ × ℕ => map'.val rc.1 rc.2) rc =
        ((fun q => corrCoef q (map.val r c)) ∘ fun rc : ℕ × ℕ => map.val rc.1 rc.2) rc := by
    intro rc hrc
    have := (List.mem_filter.1 hrc).2
    simp only [Function.comp, decide_eq_true_eq] at this
    simp only [Function.comp]
    rw [hv, hv]
    exact corrCoef_affine (hg _ _) (hg _ _) this
  rw [List.map_congr_left hm]
  simp only [hcon, ne_eq, List.map_eq_nil_iff]

/-- C113: the map does not depend on the brightness and contrast of each pattern: scaling every pattern
by its own positive factor and adding its own constant changes nothing, as long as all pixels are
numbers of the floating point type. -/
theorem C113_brightness_partial (t : MetricType) {map map' : Img (ι → ℝ)} {w : Img Bool}
    {rowChunks colChunks rowChunks' colChunks' : List ℕ} {g o : ℕ → ℕ → ℝ} (hr0 : 0 < w.rows)
    (hc0 : 0 < w.cols) (ho : w.val (w.rows / 2) (w.cols / 2) = true)
    (hr : rowChunks.sum = map.rows) (hc : colChunks.sum = map.cols)
    (hr' : rowChunks'.sum = map.rows) (hc' : colChunks'.sum = map.cols)
    (hrodd : w.rows % 2 = 1) (hcodd : w.cols % 2 = 1)
    (hrows : map'.rows = map.rows) (hcols : map'.cols = map.cols)
    (hrep : ∀ r c i, t.fl (map.val r c i) = map.val r c i)
    (hrep' : ∀ r c i, t.fl (map'.val r c i) = map'.val r c i)
    (hg : ∀ r c, 0 < g r c) (h : ∀ r c i, map'.val r c i = g r c * map.val r c i + o r c) :
    ∃ avg avg', adpMapNan t true true map w rowChunks colChunks = .ok avg ∧
      adpMapNan t true true map' w rowChunks' colChunks' = .ok avg' ∧
      ∀ r c, r < map.rows → c < map.cols → avg'.val r c = avg.val r c := by
  obtain ⟨avg, h1, h2⟩ := C113_average_map_partial t (map := map) hr0 hc0 ho hr hc (.inl hrodd)
    (.inl hcodd)
  obtain ⟨avg', h1', h2'⟩ := C113_average_map_partial t (map := map') hr0 hc0 ho
    (hr'.trans hrows.symm) (hc'.trans hcols.symm) (.inl hrodd) (.inl hcodd)
  refine ⟨avg, avg', h1, h1', fun r c hr2 hc2 => ?_⟩
  rw [h2 r c hr2 hc2, h2' r c (hrows ▸ hr2) (hcols ▸ hc2)]
  have e : ∀ m : Img (ι → ℝ), (∀ r c i, t.fl (m.val r c i) = m.val r c i) → converted t m = m := by
    intro m hm
    unfold converted
    simp only [hm]
  rw [e map hrep, e map' hrep']
  exact averageCorrelation_affine w hrows hcols hg h r c

/-! ### From matrices -/

/-- C113: the map computed from the matrices is the one computed directly, with all choices of the
arguments and all windows and chunkings, if pixels are the same numbers in `float32` as in
`dtype_out`. -/
theorem C113_from_matrices_partial (t : MetricType) (z n : Bool) {map : Img (ι → ℝ)} {w : Img Bool}
    {rowChunks colChunks : List ℕ} (hr0 : 0 < w.rows) (hc0 : 0 < w.cols)
    (ho : w.val (w.rows / 2) (w.cols / 2) = true)
    (hr : rowChunks.sum = map.rows) (hc : colChunks.sum = map.cols)
    (hrep : ∀ r c i, MetricType.float32.fl (map.val r c i) = t.fl (map.val r c i)) :
    ∃ mats avg, dpMatricesNan t z n map w rowChunks colChunks = .ok mats ∧
      adpMapNan t z n map w rowChunks colChunks = .ok avg ∧
      ∀ r c, r < map.rows → c < map.cols →
        (adpFromMatrices w mats).val r c = avg.val r c := by
  obtain ⟨center, hcen⟩ := centerIndex_origin hr0 hc0 ho
  unfold dpMatricesNan adpMapNan
  rw [hcen]
  refine ⟨_, _, rfl, rfl, fun r c hr' hc' => ?_⟩
  have hrb := overlapBounds_spec rowChunks map.rows (dpDepth w.rows rowChunks map.rows) r hr hr'
  have hcb := overlapBounds_spec colChunks map.cols (dpDepth w.cols colChunks map.cols) c hc hc'
  simp only [mapOverlap, adpFromMatrices, adpChunkNan, dpMatricesChunkNan]
  obtain ⟨rb, hrbd⟩ : ∃ rb, rb = overlapBounds rowChunks map.rows
    (dpDepth w.rows rowChunks map.rows) r := ⟨_, rfl⟩
  obtain ⟨cb, hcbd⟩ : ∃ cb, cb = overlapBounds colChunks map.cols
    (dpDepth w.cols colChunks map.cols) c := ⟨_, rfl⟩
  rw [← hrbd] at hrb ⊢
  rw [← hcbd] at hcb ⊢
  have hin1 : r - rb.1 < (subImg map rb.1 rb.2 cb.1 cb.2).rows := by
    show r - rb.1 < rb.2 - rb.1
    omega
  have hin2 : c - cb.1 < (subImg map rb.1 rb.2 cb.1 cb.2).cols := by
    show c - cb.1 < cb.2 - cb.1
    omega
  rw [neighbourDots_eq hcen _ _ hin1 hin2]
  unfold nanmeanNan
  congr 1
  rw [List.reduceOption, List.filterMap_filterMap]
  refine List.filterMap_congr fun k hk => ?_
  rw [List.mem_range] at hk
  rw [dpMatricesChunk_eq hcen _ _ hin1 hin2 hk]
  by_cases hko : k = w.rows / 2 * w.cols + w.cols / 2
  · rw [if_pos hko, if_pos hko]
    rfl
  · rw [if_neg hko, if_neg hko]
    have e : ∀ r c r2 c2, neighbourProduct .float32 z n ((subImg map rb.1 rb.2 cb.1 cb.2).val r c)
        ((subImg map rb.1 rb.2 cb.1 cb.2).val r2 c2) =
          neighbourProduct t z n ((subImg map rb.1 rb.2 cb.1 cb.2).val r c)
            ((subImg map rb.1 rb.2 cb.1 cb.2).val r2 c2) := by
      intro r c r2 c2
      have hpre : ∀ r c, prepareNeighbour .float32 z n ((subImg map rb.1 rb.2 cb.1 cb.2).val r c) =
          prepareNeighbour t z n ((subImg map rb.1 rb.2 cb.1 cb.2).val r c) := by
        intro r c
        unfold prepareNeighbour
        simp only [subImg, hrep]
      unfold neighbourProduct
      rw [hpre, hpre]
    unfold neighbourDot
    simp only [e]
    split_ifs <;> rfl

end

/-! ### Data type -/

theorem averageCorrelation_single {ι : Type*} [Fintype ι] {map : Img (ι → ℝ)} {w : Img Bool}
    {r c : ℕ} {q : ι → ℝ} (hn : neighboursOf map w r c = [q]) (hq : NotFlat q)
    (hp : NotFlat (map.val r c)) :
    averageCorrelation map w r c = some (corrCoef q (map.val r c)) := by
  classical
  unfold averageCorrelation
  simp only
  have hl : (neighboursOf map w r c).filter (fun q => decide (NotFlat q)) = [q] := by
    rw [hn]
    simp [hq]
  generalize (neighboursOf map w r c).filter (fun q => decide (NotFlat q)) = l at hl ⊢
  subst hl
  rw [if_pos ⟨hp, by simp⟩]
  simp

/-- A window of one row and three columns. -/
def rowWindow : Img Bool := { rows := 1, cols := 3, val := fun _ _ => true }

/-- Two patterns of two pixels with large intensities in the first. -/
noncomputable def twoPatterns : Img (Fin 2 → ℝ) :=
  { rows := 1
    cols := 2
    val := fun _ c i => if c = 0 then (if i = 0 then 2 ^ 25 else 2 ^ 25 + 1)
      else (if i = 0 then 0 else 1) }

theorem fl_twoPatterns :
    MetricType.float32.fl (2 ^ 25) = 2 ^ 25 ∧ MetricType.float32.fl (2 ^ 25 + 1) = 2 ^ 25 ∧
      MetricType.float64.fl (2 ^ 25) = 2 ^ 25 ∧ MetricType.float64.fl (2 ^ 25 + 1) = 2 ^ 25 + 1 ∧
      MetricType.float64.fl 0 = 0 ∧ MetricType.float64.fl 1 = 1 := by
  have h32 : ∀ x : ℝ, 2 ^ 25 ≤ x → x < 2 ^ 25 + 2 → MetricType.float32.fl x = 2 ^ 25 := by
    intro x h1 h2
    have := binaryRound_eq (K := ℝ) (p := 24) (emin := -149) (e := 25) (x := x) (2 ^ 23)
      (by norm_num at h1 ⊢; linarith) (by norm_num at h2 ⊢; linarith) (by norm_num) (by
        rw [abs_lt]
        norm_num at h1 h2 ⊢
        constructor <;> linarith)
    rw [show MetricType.float32.fl x = binaryRound 24 (-149) x from rfl, this]
    norm_num
  have h64 : ∀ z : ℤ, |z| ≤ 2 ^ 53 → MetricType.float64.fl (z : ℝ) = z :=
    fun z h => fl_int .float64 h
  refine ⟨h32 _ le_rfl (by norm_num), h32 _ (by norm_num) (by norm_num), ?_, ?_, ?_, ?_⟩
  · have := h64 (2 ^ 25) (by norm_num)
    norm_num at this ⊢
    exact this
  · have := h64 (2 ^ 25 + 1) (by norm_num)
    norm_num at this ⊢
    exact this
  · simpa using h64 0 (by norm_num)
  · simpa using h64 1 (by norm_num)

/-- C113 is false for `dtype_out`: the dot product matrices asked for in `float64` are computed from
patterns in `float32`. Here the average of the matrices is NaN, since the first pattern has no
contrast in `float32`, but the map computed directly in `float64` has 1. -/
theorem C113_dtype_violated :
    ∃ mats avg, dpMatricesNan .float64 true true twoPatterns rowWindow [1] [2] = .ok mats ∧
      adpMapNan .float64 true true twoPatterns rowWindow [1] [2] = .ok avg ∧
      avg.val 0 0 = some 1 ∧ (adpFromMatrices rowWindow mats).val 0 0 = none := by
  obtain ⟨f1, f2, f3, f4, f5, f6⟩ := fl_twoPatterns
  obtain ⟨avg, h1, h2⟩ := C113_average_map_partial .float64 (map := twoPatterns) (w := rowWindow)
    (rowChunks := [1]) (colChunks := [2]) (by decide) (by decide) rfl rfl rfl (.inl rfl) (.inl rfl)
  obtain ⟨avg', h1', h2'⟩ := C113_average_map_partial .float32 (map := twoPatterns)
    (w := rowWindow) (rowChunks := [1]) (colChunks := [2]) (by decide) (by decide) rfl rfl rfl
    (.inl rfl) (.inl rfl)
  obtain ⟨mats, avg2, m1, m2, m3⟩ := C113_from_matrices_partial .float32 true true
    (map := twoPatterns) (w := rowWindow) (rowChunks := [1]) (colChunks := [2]) (by decide)
    (by decide) rfl rfl rfl (fun _ _ _ => rfl)
  have e2 : avg' = avg2 := Except.ok.inj (h1'.symm.trans m2)
  have n1 (t : MetricType) : neighboursOf (converted t twoPatterns) rowWindow 0 0 =
      [fun i => t.fl (if i = 0 then 0 else 1)] := by
    unfold neighboursOf
    simp [rowWindow, flatPositions, converted, twoPatterns, List.range_succ]
  have v64 : (converted .float64 twoPatterns).val 0 0 =
      fun i => if i = 0 then 2 ^ 25 else 2 ^ 25 + 1 := by
    funext i
    unfold converted twoPatterns
    simp only [if_true]
    split_ifs <;> simp [f3, f4]
  have w64 : (fun i : Fin 2 => MetricType.float64.fl (if i = 0 then 0 else 1)) =
      fun i => if i = 0 then 0 else 1 := by
    funext i
    split_ifs <;> simp [f5, f6]
  refine ⟨mats, avg, m1, h1, ?_, ?_⟩
  · rw [h2 0 0 (by decide) (by decide)]
    have c1 : NotFlat (fun i : Fin 2 => if i = 0 then (0 : ℝ) else 1) := ⟨0, 1, by norm_num⟩
    have c2 : NotFlat (fun i : Fin 2 => if i = 0 then (2 ^ 25 : ℝ) else 2 ^ 25 + 1) :=
      ⟨0, 1, by norm_num⟩
    rw [averageCorrelation_single ((n1 .float64).trans (by rw [w64])) c1 (by rw [v64]; exact c2),
      v64]
    congr 1
    unfold corrCoef meanOf
    simp only [Fin.sum_univ_two, Fintype.card_fin]
    norm_num
    rw [← mul_inv, Real.mul_self_sqrt (by norm_num)]
    norm_num
  · rw [m3 0 0 (by decide) (by decide), ← e2, h2' 0 0 (by decide) (by decide)]
    unfold averageCorrelation
    simp only
    rw [if_neg]
    rintro ⟨⟨i, j, hij⟩, -⟩
    refine hij ?_
    have : ∀ i, (converted .float32 twoPatterns).val 0 0 i = 2 ^ 25 := by
      intro i
      unfold converted twoPatterns
      simp only [if_true]
      split_ifs <;> simp [f1, f2]
    rw [this, this]

/-! ### Concrete cases -/

/-- A row of three patterns: the middle one has no contrast. -/
noncomputable def flatMiddle : Img (Fin 2 → ℝ) :=
  { rows := 1
    cols := 3
    val := fun _ c i => if c = 1 then 7 else ((i : ℕ) : ℝ) }

example : ¬ NotFlat (flatMiddle.val 0 1) ∧ NotFlat (flatMiddle.val 0 0) := by
  constructor
  · rintro ⟨i, j, h⟩
    exact h rfl
  · exact ⟨0, 1, by simp [flatMiddle]⟩

-- the hypotheses of C113_brightness are met by 8-bit patterns
example : ∃ avg avg', adpMapNan .float32 true true flatMiddle rowWindow [1] [3] = .ok avg ∧
    adpMapNan .float32 true true
      { rows := 1, cols := 3, val := fun r c i => 2 * flatMiddle.val r c i + 5 } rowWindow [1]
      [1, 1, 1] = .ok avg' ∧
    ∀ r c, r < 1 → c < 3 → avg'.val r c = avg.val r c := by
  have hi (r c : ℕ) (i : Fin 2) : ∃ n : ℕ, n ≤ 7 ∧ flatMiddle.val r c i = n := by
    unfold flatMiddle
    by_cases h : c = 1
    · exact ⟨7, le_rfl, by simp [h]⟩
    · exact ⟨i, by omega, by simp [h]⟩
  have hf (n : ℕ) (hn : n ≤ 100) : MetricType.float32.fl n = n := by
    have := fl_int .float32 (z := (n : ℤ)) (by
      rw [Nat.abs_cast]
      have : (2 : ℤ) ^ MetricType.float32.digits = 16777216 := by norm_num [MetricType.digits]
      rw [this]
      omega)
    simpa using this
  refine C113_brightness_partial .float32 (map := flatMiddle) (g := fun _ _ => 2)
    (o := fun _ _ => 5) (by decide) (by decide) rfl rfl rfl rfl rfl rfl
    rfl rfl rfl ?_ ?_ (fun _ _ => by norm_num) (fun _ _ _ => rfl)
  · intro r c i
    obtain ⟨n, hn, e⟩ := hi r c i
    rw [e]
    have := hf n (by omega)
    simpa using this
  · intro r c i
    obtain ⟨n, hn, e⟩ := hi r c i
    simp only [e]
    have := hf (2 * n + 5) (by omega)
    push_cast at this
    exact this

end Kp
