import Verif.Lemmas.Downsample
import Mathlib.Algebra.Order.Ring.Rat
import Mathlib.Data.Rat.Floor

/-
C14: downsampling.
-/

set_option linter.unusedSectionVars false

namespace Kp
open Finset

section
variable {K : Type*} [Field K] [LinearOrder K] [IsStrictOrderedRing K]

/-- C14: every pixel of a binned pattern is the sum of its own block of pixels. -/
theorem C14_block_sums (p : Img K) (f : ℕ) :
    (bin2d p f).rows = p.rows / f ∧ (bin2d p f).cols = p.cols / f ∧
    ∀ r c, r < p.rows / f → c < p.cols / f →
      (bin2d p f).val r c =
        ∑ i ∈ range f, ∑ j ∈ range f, p.val (r * f + i) (c * f + j) :=
  ⟨rfl, rfl, fun r c hr hc => bin2d_val p f r c hr hc⟩

/-- C14: for a factor dividing the shape, every pixel is in exactly one block. -/
theorem C14_blocks_partition (rows cols f : ℕ) (hr : f ∣ rows) (hc : f ∣ cols) (y x : ℕ)
    (hy : y < rows) (hx : x < cols) :
    ∃! rc : ℕ × ℕ, rc.1 < rows / f ∧ rc.2 < cols / f ∧
      ∃ i < f, ∃ j < f, y = rc.1 * f + i ∧ x = rc.2 * f + j := by
  obtain ⟨n, rfl⟩ := hr
  obtain ⟨m, rfl⟩ := hc
  have hf : 0 < f := Nat.pos_of_ne_zero (by rintro rfl; simp at hy)
  rw [Nat.mul_div_cancel_left _ hf, Nat.mul_div_cancel_left _ hf]
  refine ⟨(y / f, x / f), ⟨?_, ?_, y % f, Nat.mod_lt _ hf, x % f, Nat.mod_lt _ hf, ?_, ?_⟩, ?_⟩
  · exact (Nat.div_lt_iff_lt_mul hf).2 (by rwa [Nat.mul_comm])
  · exact (Nat.div_lt_iff_lt_mul hf).2 (by rwa [Nat.mul_comm])
  · rw [Nat.mul_comm]; exact (Nat.div_add_mod y f).symm
  · rw [Nat.mul_comm]; exact (Nat.div_add_mod x f).symm
  · rintro ⟨r, c⟩ ⟨-, -, i, hi, j, hj, e1, e2⟩
    simp only at e1 e2
    subst e1 e2
    have d : ∀ a b, b < f → (a * f + b) / f = a := by
      intro a b hb
      rw [Nat.mul_comm, Nat.mul_add_div hf, Nat.div_eq_of_lt hb, Nat.add_zero]
    rw [d r i hi, d c j hj]

/-- C14: the total intensity is unchanged by binning. -/
theorem C14_total_intensity (p : Img K) (f : ℕ) (hr : f ∣ p.rows) (hc : f ∣ p.cols) :
    ∑ r ∈ range (bin2d p f).rows, ∑ c ∈ range (bin2d p f).cols, (bin2d p f).val r c =
      ∑ y ∈ range p.rows, ∑ x ∈ range p.cols, p.val y x := by
  have h1 : ∑ r ∈ range (p.rows / f), ∑ c ∈ range (p.cols / f), (bin2d p f).val r c =
      ∑ r ∈ range (p.rows / f), ∑ i ∈ range f, ∑ x ∈ range (p.cols / f * f),
        p.val (r * f + i) x := by
    apply sum_congr rfl
    intro r hr'
    rw [mem_range] at hr'
    rw [sum_congr rfl (fun c hc' => bin2d_val p f r c hr' (mem_range.1 hc')), sum_comm]
    apply sum_congr rfl
    intro i _
    exact sum_blocks _ _ (fun x => p.val (r * f + i) x)
  change ∑ r ∈ range (p.rows / f), ∑ c ∈ range (p.cols / f), (bin2d p f).val r c = _
  rw [h1, sum_blocks _ _ (fun y => ∑ x ∈ range (p.cols / f * f), p.val y x),
    Nat.div_mul_cancel hr, Nat.div_mul_cancel hc]

/-- C14: binning by `a` and then by `b` is binning by `a * b`, whenever `a * b` divides the
shape. -/
theorem C14_binning_composes (p : Img K) (a b : ℕ) :
    (bin2d (bin2d p a) b).rows = (bin2d p (a * b)).rows ∧
    (bin2d (bin2d p a) b).cols = (bin2d p (a * b)).cols ∧
    ∀ r c, r < p.rows / (a * b) → c < p.cols / (a * b) →
      (bin2d (bin2d p a) b).val r c = (bin2d p (a * b)).val r c := by
  have e1 : p.rows / a / b = p.rows / (a * b) := Nat.div_div_eq_div_mul _ _ _
  have e2 : p.cols / a / b = p.cols / (a * b) := Nat.div_div_eq_div_mul _ _ _
  refine ⟨e1, e2, ?_⟩
  intro r c hr hc
  rw [bin2d_val p (a * b) r c hr hc, bin2d_val (bin2d p a) b r c (by rw [← e1] at hr; exact hr)
    (by rw [← e2] at hc; exact hc)]
  have inside : ∀ (n i r : ℕ), i < b → r < n / (a * b) → r * b + i < n / a := by
    intro n i r hi hr
    have h1 : (r + 1) * b ≤ n / a := by
      rw [← Nat.div_div_eq_div_mul] at hr
      calc (r + 1) * b ≤ (n / a / b) * b := Nat.mul_le_mul_right _ hr
        _ ≤ n / a := Nat.div_mul_le_self _ _
    rw [Nat.add_mul, Nat.one_mul] at h1
    omega
  have h2 : ∑ i ∈ range b, ∑ j ∈ range b, (bin2d p a).val (r * b + i) (c * b + j) =
      ∑ i ∈ range b, ∑ j ∈ range b, ∑ k ∈ range a, ∑ l ∈ range a,
        p.val ((r * b + i) * a + k) ((c * b + j) * a + l) := by
    apply sum_congr rfl; intro i hi
    apply sum_congr rfl; intro j hj
    rw [mem_range] at hi hj
    exact bin2d_val p a _ _ (inside _ _ _ hi hr) (inside _ _ _ hj hc)
  rw [h2]
  have h3 : ∀ i, ∑ j ∈ range b, ∑ k ∈ range a, ∑ l ∈ range a,
      p.val ((r * b + i) * a + k) ((c * b + j) * a + l) =
      ∑ k ∈ range a, ∑ x ∈ range (b * a), p.val ((r * b + i) * a + k) (c * b * a + x) := by
    intro i
    rw [sum_comm]
    apply sum_congr rfl; intro k _
    rw [← sum_blocks b a (fun x => p.val ((r * b + i) * a + k) (c * b * a + x))]
    apply sum_congr rfl; intro j _
    apply sum_congr rfl; intro l _
    congr 1; ring
  rw [sum_congr rfl (fun i _ => h3 i)]
  have h4 : ∑ i ∈ range b, ∑ k ∈ range a, ∑ x ∈ range (b * a),
      p.val ((r * b + i) * a + k) (c * b * a + x) =
      ∑ y ∈ range (b * a), ∑ x ∈ range (b * a), p.val (r * b * a + y) (c * b * a + x) := by
    rw [← sum_blocks b a (fun y => ∑ x ∈ range (b * a), p.val (r * b * a + y) (c * b * a + x))]
    apply sum_congr rfl; intro j _
    apply sum_congr rfl; intro l _
    apply sum_congr rfl; intro x _
    congr 1; ring
  rw [h4, Nat.mul_comm b a]
  apply sum_congr rfl; intro y _
  apply sum_congr rfl; intro x _
  congr 1 <;> ring

private theorem listMin_map {f : K → K} (hf : Monotone f) {l : List K} (h : l ≠ []) :
    listMin (l.map f) = f (listMin l) := by
  apply le_antisymm
  · exact listMin_le _ (List.mem_map.2 ⟨_, listMin_mem h, rfl⟩)
  · obtain ⟨a, ha, e⟩ := List.mem_map.1 (listMin_mem (l := l.map f) (by simpa using h))
    rw [← e]
    exact hf (listMin_le a ha)

private theorem listMax_map {f : K → K} (hf : Monotone f) {l : List K} (h : l ≠ []) :
    listMax (l.map f) = f (listMax l) := by
  apply le_antisymm
  · obtain ⟨a, ha, e⟩ := List.mem_map.1 (listMax_mem (l := l.map f) (by simpa using h))
    rw [← e]
    exact hf (le_listMax a ha)
  · exact le_listMax _ (List.mem_map.2 ⟨_, listMax_mem h, rfl⟩)

private theorem pixels_map {p q : Img K} {f : K → K} (h1 : q.rows = p.rows) (h2 : q.cols = p.cols)
    (h : ∀ r c, r < p.rows → c < p.cols → q.val r c = f (p.val r c)) :
    q.pixels = p.pixels.map f := by
  unfold Img.pixels
  rw [h1, h2, List.map_flatMap]
  apply List.flatMap_congr
  intro r hr
  rw [List.map_map]
  apply List.map_congr_left
  intro c hc
  exact h r c (List.mem_range.1 hr) (List.mem_range.1 hc)

variable [FloorRing K]

/-- C14 for the returned, rescaled patterns of floating point type: downsampling by `a` and
then by `b` gives the same pattern as downsampling by `a * b`, if that pattern is not
constant. -/
theorem C14_downsampling_composes (p : Img K) (a b bits bits' bits'' : ℕ) (omin omax : K)
    (ho : omin < omax) (r c r' c' : ℕ)
    (hr : r < p.rows / (a * b)) (hc : c < p.cols / (a * b)) (hr' : r' < p.rows / (a * b))
    (hc' : c' < p.cols / (a * b))
    (hne : (bin2d p (a * b)).val r c ≠ (bin2d p (a * b)).val r' c') :
    ∀ y x, y < p.rows / (a * b) → x < p.cols / (a * b) →
      (downsample2d (downsample2d p a omin omax (.float bits)) b omin omax (.float bits')).val y x =
        (downsample2d p (a * b) omin omax (.float bits'')).val y x := by
  obtain ⟨er, ec, ev⟩ := C14_binning_composes p a b
  have e1 : p.rows / a / b = p.rows / (a * b) := Nat.div_div_eq_div_mul _ _ _
  have e2 : p.cols / a / b = p.cols / (a * b) := Nat.div_div_eq_div_mul _ _ _
  -- the first downsampling rescales by a positive affine function
  set m := listMin (bin2d p a).pixels with hm
  set M := listMax (bin2d p a).pixels with hM
  have hmM : m < M := by
    by_contra hle
    have hconst : ∀ r c, r < p.rows / a → c < p.cols / a → (bin2d p a).val r c = m := by
      intro r c hr hc
      have hmem : (bin2d p a).val r c ∈ (bin2d p a).pixels := mem_pixels.2 ⟨r, hr, c, hc, rfl⟩
      have l1 := listMin_le _ hmem
      have l2 := le_listMax _ hmem
      rw [← hm] at l1
      rw [← hM] at l2
      exact le_antisymm (l2.trans (not_lt.1 hle)) l1
    have inside : ∀ (n i r : ℕ), i < b → r < n / (a * b) → r * b + i < n / a := by
      intro n i r hi hr
      have h1 : (r + 1) * b ≤ n / a := by
        rw [← Nat.div_div_eq_div_mul] at hr
        calc (r + 1) * b ≤ (n / a / b) * b := Nat.mul_le_mul_right _ hr
          _ ≤ n / a := Nat.div_mul_le_self _ _
      rw [Nat.add_mul, Nat.one_mul] at h1
      omega
    have hall : ∀ r c, r < p.rows / (a * b) → c < p.cols / (a * b) →
        (bin2d p (a * b)).val r c = ∑ i ∈ range b, ∑ j ∈ range b, m := by
      intro r c hr hc
      rw [← ev r c hr hc, bin2d_val (bin2d p a) b r c (by rw [← e1] at hr; exact hr)
        (by rw [← e2] at hc; exact hc)]
      apply sum_congr rfl; intro i hi
      apply sum_congr rfl; intro j hj
      exact hconst _ _ (inside _ _ _ (mem_range.1 hi) hr) (inside _ _ _ (mem_range.1 hj) hc)
    exact hne ((hall r c hr hc).trans (hall r' c' hr' hc').symm)
  set α := (omax - omin) / (M - m) with hα
  have hαpos : 0 < α := div_pos (sub_pos.2 ho) (sub_pos.2 hmM)
  have hD : ∀ y x, (downsample2d p a omin omax (.float bits)).val y x =
      α * (bin2d p a).val y x + (omin - α * m) := by
    intro y x
    change rescalePixel m M omin omax ((bin2d p a).val y x) = _
    have : M - m ≠ 0 := (sub_pos.2 hmM).ne'
    rw [rescalePixel, hα]
    field_simp
    ring
  -- so the second binning is the same affine function of the full binning
  let β : K := (b : K) * ((b : K) * (omin - α * m))
  have hB : ∀ y x, y < p.rows / (a * b) → x < p.cols / (a * b) →
      (bin2d (downsample2d p a omin omax (.float bits)) b).val y x =
        α * (bin2d p (a * b)).val y x + β := by
    intro y x hy hx
    rw [← ev y x hy hx]
    have hy' : y < p.rows / a / b := by rw [e1]; exact hy
    have hx' : x < p.cols / a / b := by rw [e2]; exact hx
    rw [bin2d_val _ b y x hy' hx', bin2d_val (bin2d p a) b y x hy' hx', mul_sum]
    simp only [hD, mul_sum, sum_add_distrib, sum_const, card_range, nsmul_eq_mul, β]
  have hpix : (bin2d (downsample2d p a omin omax (.float bits)) b).pixels =
      (bin2d p (a * b)).pixels.map (fun v => α * v + β) :=
    pixels_map er ec (fun r c hr hc => hB r c hr hc)
  have hmono : Monotone (fun v : K => α * v + β) := by
    intro u v huv
    have := mul_le_mul_of_nonneg_left huv hαpos.le
    simpa using this
  have hpne : (bin2d p (a * b)).pixels ≠ [] := by
    intro h
    have : (bin2d p (a * b)).val r c ∈ (bin2d p (a * b)).pixels := mem_pixels.2 ⟨r, hr, c, hc, rfl⟩
    rw [h] at this
    simp at this
  have hlt : listMin (bin2d p (a * b)).pixels < listMax (bin2d p (a * b)).pixels :=
    listMin_lt_listMax (mem_pixels.2 ⟨r, hr, c, hc, rfl⟩) (mem_pixels.2 ⟨r', hr', c', hc', rfl⟩) hne
  intro y x hy hx
  change rescalePixel (listMin (bin2d (downsample2d p a omin omax (.float bits)) b).pixels)
      (listMax (bin2d (downsample2d p a omin omax (.float bits)) b).pixels) omin omax
      ((bin2d (downsample2d p a omin omax (.float bits)) b).val y x) =
    rescalePixel (listMin (bin2d p (a * b)).pixels) (listMax (bin2d p (a * b)).pixels) omin omax
      ((bin2d p (a * b)).val y x)
  rw [hpix, listMin_map hmono hpne, listMax_map hmono hpne, hB y x hy hx]
  generalize listMin (bin2d p (a * b)).pixels = u at hlt
  generalize listMax (bin2d p (a * b)).pixels = w at hlt
  generalize (bin2d p (a * b)).val y x = v
  unfold rescalePixel
  have h1 : α * v + β - (α * u + β) = α * (v - u) := by ring
  have h2 : α * w + β - (α * u + β) = α * (w - u) := by ring
  rw [h1, h2, mul_div_mul_left _ _ hαpos.ne']

/-- C14 for the signal method: accepted exactly if the factor is larger than 1 and divides
both detector dimensions, otherwise `ValueError`. -/
theorem C14_factor_accepted (s : DsSignal K) (factor : ℤ) (dtypeOut : Option DType)
    (hd : (dtypeRange (dtypeOut.getD s.dtype)).isSome) :
    ((∃ t, downsample s factor dtypeOut = .ok t) ↔
      1 < factor ∧ factor ∣ (s.rows : ℤ) ∧ factor ∣ (s.cols : ℤ)) ∧
    (¬ (1 < factor ∧ factor ∣ (s.rows : ℤ) ∧ factor ∣ (s.cols : ℤ)) →
      downsample s factor dtypeOut = .error .valueError) := by
  obtain ⟨⟨lo, hi⟩, hr⟩ := Option.isSome_iff_exists.1 hd
  have key : 1 < factor → ((s.cols % factor.toNat = 0 ∧ s.rows % factor.toNat = 0) ↔
      (factor ∣ (s.rows : ℤ) ∧ factor ∣ (s.cols : ℤ))) := by
    intro h
    have hf : factor = (factor.toNat : ℤ) := by omega
    rw [hf]
    simp only [Int.toNat_natCast, Int.natCast_dvd_natCast]
    rw [Nat.dvd_iff_mod_eq_zero, Nat.dvd_iff_mod_eq_zero]
    tauto
  unfold downsample
  by_cases h1 : factor ≤ 1
  · rw [if_pos h1]
    have : ¬ 1 < factor := by omega
    simp [this]
  · rw [if_neg h1]
    simp only
    have h1' : 1 < factor := by omega
    by_cases h2 : s.cols % factor.toNat = 0 ∧ s.rows % factor.toNat = 0
    · have h3 := (key h1').1 h2
      rw [if_neg (by simpa using h2), hr]
      simp [h1', h3]
    · have h3 : ¬ (factor ∣ (s.rows : ℤ) ∧ factor ∣ (s.cols : ℤ)) := fun h => h2 ((key h1').2 h)
      rw [if_pos h2]
      simp [h3]

/-- C14 for the signal method: the new patterns, static background and detector all have the
new shape, and the detector's physical height and width are unchanged. -/
theorem C14_signal_consistent (s t : DsSignal K) (factor : ℤ) (dtypeOut : Option DType)
    (h : downsample s factor dtypeOut = .ok t)
    (hs : ∀ p ∈ s.patterns, p.rows = s.rows ∧ p.cols = s.cols)
    (hb : ∀ p, s.staticBg = some p → p.rows = s.rows ∧ p.cols = s.cols) :
    (t.rows : ℤ) * factor = s.rows ∧ (t.cols : ℤ) * factor = s.cols ∧
    t.patterns.length = s.patterns.length ∧
    (∀ p ∈ t.patterns, p.rows = t.rows ∧ p.cols = t.cols) ∧
    (∀ p, t.staticBg = some p → p.rows = t.rows ∧ p.cols = t.cols) ∧
    t.detector.nrows = t.rows ∧ t.detector.ncols = t.cols ∧
    t.detector.pc = s.detector.pc ∧ t.detector.pxSize = s.detector.pxSize ∧
    (t.rows : K) * (t.detector.pxSize * t.detector.binning) =
      (s.rows : K) * (s.detector.pxSize * s.detector.binning) ∧
    (t.cols : K) * (t.detector.pxSize * t.detector.binning) =
      (s.cols : K) * (s.detector.pxSize * s.detector.binning) := by
  unfold downsample at h
  split at h
  · exact absurd h (by simp)
  · rename_i h1
    simp only at h
    split at h
    · exact absurd h (by simp)
    · rename_i h2
      push Not at h2
      split at h
      · exact absurd h (by simp)
      · simp only [Except.ok.injEq] at h
        subst h
        have hf : factor = (factor.toNat : ℤ) := by omega
        have d1 : s.rows / factor.toNat * factor.toNat = s.rows :=
          Nat.div_mul_cancel (Nat.dvd_of_mod_eq_zero h2.2)
        have d2 : s.cols / factor.toNat * factor.toNat = s.cols :=
          Nat.div_mul_cancel (Nat.dvd_of_mod_eq_zero h2.1)
        have k1 : ((s.rows / factor.toNat : ℕ) : K) * (factor.toNat : K) = s.rows := by
          exact_mod_cast congrArg (Nat.cast (R := K)) d1
        have k2 : ((s.cols / factor.toNat : ℕ) : K) * (factor.toNat : K) = s.cols := by
          exact_mod_cast congrArg (Nat.cast (R := K)) d2
        refine ⟨?_, ?_, by simp, ?_, ?_, rfl, rfl, rfl, rfl, ?_, ?_⟩
        · rw [hf]; simp only [Int.toNat_natCast]; exact_mod_cast d1
        · rw [hf]; simp only [Int.toNat_natCast]; exact_mod_cast d2
        · intro q hq
          simp only [List.mem_map] at hq
          obtain ⟨p, hp, rfl⟩ := hq
          obtain ⟨e1, e2⟩ := hs p hp
          simp [downsample2d, Img.mapVal, bin2d, e1, e2]
        · intro q hq
          simp only [Option.map_eq_some_iff] at hq
          obtain ⟨p, hp, rfl⟩ := hq
          obtain ⟨e1, e2⟩ := hb p hp
          simp [downsample2d, Img.mapVal, bin2d, e1, e2]
        · simp only
          rw [← k1]; ring
        · simp only
          rw [← k2]; ring

/-- Sum of the pixels in the block in row `r` and column `c`. -/
def Spec.blockSum (p : Img K) (f r c : ℕ) : K :=
  ∑ i ∈ range f, ∑ j ∈ range f, p.val (r * f + i) (c * f + j)

/-- Pattern `q` has the block sums of `p`, with a common gain and offset with which they fill the range
from `omin` to `omax`. Intensities of integer types are rounded toward zero. -/
def Spec.IsDownsampled (f : ℕ) (omin omax : K) (d : DType) (p q : Img K) : Prop :=
  ∃ gain offset : K, 0 < gain ∧
    (∀ r c, r < p.rows / f → c < p.cols / f →
      let v := gain * Spec.blockSum p f r c + offset
      omin ≤ v ∧ v ≤ omax ∧ match d with
        | .float _ => q.val r c = v
        | _ => (∃ z : ℤ, q.val r c = z) ∧ |q.val r c - v| < 1 ∧ |q.val r c| ≤ |v|) ∧
    (∃ r c, r < p.rows / f ∧ c < p.cols / f ∧ gain * Spec.blockSum p f r c + offset = omin) ∧
    ∃ r c, r < p.rows / f ∧ c < p.cols / f ∧ gain * Spec.blockSum p f r c + offset = omax

theorem truncate_near (x : K) :
    (∃ z : ℤ, truncate x = z) ∧ |truncate x - x| < 1 ∧ |truncate x| ≤ |x| := by
  unfold truncate
  split
  · rename_i h
    have h1 := Int.floor_le x
    have h2 := Int.lt_floor_add_one x
    have h3 : (0 : K) ≤ (⌊x⌋ : ℤ) := by exact_mod_cast Int.floor_nonneg.2 h
    refine ⟨⟨_, rfl⟩, ?_, ?_⟩
    · rw [abs_lt]
      constructor <;> linarith
    · rw [abs_of_nonneg h3, abs_of_nonneg h]
      exact h1
  · rename_i h
    have h1 := Int.le_ceil x
    have h2 := Int.ceil_lt_add_one x
    have h3 : ((⌈x⌉ : ℤ) : K) ≤ 0 := by exact_mod_cast Int.ceil_le.2 (by simpa using (not_le.1 h).le)
    refine ⟨⟨_, rfl⟩, ?_, ?_⟩
    · rw [abs_lt]
      constructor <;> linarith
    · rw [abs_of_nonpos h3, abs_of_nonpos (not_le.1 h).le]
      linarith

theorem downsample2d_spec (p : Img K) (f : ℕ) {omin omax : K} (ho : omin < omax) (d : DType)
    (hd : d ≠ .other) {r c r' c' : ℕ} (hr : r < p.rows / f) (hc : c < p.cols / f)
    (hr' : r' < p.rows / f) (hc' : c' < p.cols / f)
    (hne : Spec.blockSum p f r c ≠ Spec.blockSum p f r' c') :
    Spec.IsDownsampled f omin omax d p (downsample2d p f omin omax d) := by
  have hv : ∀ r c, r < p.rows / f → c < p.cols / f → (bin2d p f).val r c = Spec.blockSum p f r c :=
    (C14_block_sums p f).2.2
  have hmem : ∀ r c, r < p.rows / f → c < p.cols / f → Spec.blockSum p f r c ∈ (bin2d p f).pixels := by
    intro r c hr hc
    rw [← hv r c hr hc]
    exact mem_pixels.2 ⟨r, hr, c, hc, rfl⟩
  set m := listMin (bin2d p f).pixels with hm
  set M := listMax (bin2d p f).pixels with hM
  have hmM : m < M := listMin_lt_listMax (hmem r c hr hc) (hmem r' c' hr' hc') hne
  have hpos := sub_pos.2 hmM
  have hgain : 0 < (omax - omin) / (M - m) := div_pos (sub_pos.2 ho) hpos
  have haff : ∀ x, rescalePixel m M omin omax x =
      (omax - omin) / (M - m) * x + (omin - (omax - omin) / (M - m) * m) := by
    intro x
    rw [rescalePixel]
    field_simp
    ring
  have hnn : (bin2d p f).pixels ≠ [] := List.ne_nil_of_mem (hmem r c hr hc)
  refine ⟨_, omin - (omax - omin) / (M - m) * m, hgain, fun r c hr hc => ?_, ?_, ?_⟩
  · simp only
    rw [← haff]
    have hq : (downsample2d p f omin omax d).val r c =
        castTo d (rescalePixel m M omin omax (Spec.blockSum p f r c)) := by
      rw [← hv r c hr hc]
      rfl
    refine ⟨?_, ?_, ?_⟩
    · have := rescalePixel_mono hmM ho.le (listMin_le _ (hmem r c hr hc))
      rwa [← hm, rescalePixel_min] at this
    · have := rescalePixel_mono hmM ho.le (le_listMax _ (hmem r c hr hc))
      rwa [← hM, rescalePixel_max hmM] at this
    · rw [hq]
      cases d with
      | float b => rfl
      | uint b => exact truncate_near _
      | int b => exact truncate_near _
      | other => exact absurd rfl hd
  · obtain ⟨r, hr, c, hc, e⟩ := mem_pixels.1 (listMin_mem hnn)
    refine ⟨r, c, hr, hc, ?_⟩
    rw [← haff, ← hv r c hr hc, e, ← hm, rescalePixel_min]
  · obtain ⟨r, hr, c, hc, e⟩ := mem_pixels.1 (listMax_mem hnn)
    refine ⟨r, c, hr, hc, ?_⟩
    rw [← haff, ← hv r c hr hc, e, ← hM, rescalePixel_max hmM]

/-- C14 for the signal method: the new patterns and static background have the data type asked for, or that
of the old patterns, and each has the block sums of its own old pattern, rescaled to fill the range of the
data type, unless they are all the same. -/
theorem C14_signal_intensities (s t : DsSignal K) (factor : ℤ) (dtypeOut : Option DType)
    (h : downsample s factor dtypeOut = .ok t) (omin omax : ℤ)
    (hd : dtypeRange (dtypeOut.getD s.dtype) = some (omin, omax)) (ho : omin < omax) :
    t.dtype = dtypeOut.getD s.dtype ∧
    (∀ (i : ℕ) (p : Img K), s.patterns[i]? = some p → ∃ q, t.patterns[i]? = some q ∧
      ∀ r c r' c', r < p.rows / factor.toNat → c < p.cols / factor.toNat → r' < p.rows / factor.toNat →
        c' < p.cols / factor.toNat →
        Spec.blockSum p factor.toNat r c ≠ Spec.blockSum p factor.toNat r' c' →
        Spec.IsDownsampled factor.toNat (omin : K) omax t.dtype p q) ∧
    (s.staticBg = none → t.staticBg = none) ∧
    ∀ p, s.staticBg = some p → ∃ q, t.staticBg = some q ∧
      ∀ r c r' c', r < p.rows / factor.toNat → c < p.cols / factor.toNat → r' < p.rows / factor.toNat →
        c' < p.cols / factor.toNat →
        Spec.blockSum p factor.toNat r c ≠ Spec.blockSum p factor.toNat r' c' →
        Spec.IsDownsampled factor.toNat (omin : K) omax t.dtype p q := by
  have hno : dtypeOut.getD s.dtype ≠ .other := by
    intro e
    rw [e] at hd
    cases hd
  have ho' : (omin : K) < omax := by exact_mod_cast ho
  unfold downsample at h
  simp only [hd] at h
  split at h
  · cases h
  · split at h
    · cases h
    · cases h
      refine ⟨rfl, fun i p hp => ⟨_, by rw [List.getElem?_map, hp]; rfl, ?_⟩, fun e => by simp [e],
        fun p hp => ⟨_, by simp only [hp]; rfl, ?_⟩⟩
      · intro r c r' c' hr hc hr' hc' hne
        exact downsample2d_spec p _ ho' _ hno hr hc hr' hc' hne
      · intro r c r' c' hr hc hr' hc' hne
        exact downsample2d_spec p _ ho' _ hno hr hc hr' hc' hne

end

/-! Concrete cases. -/

/-- A 4 x 4 test pattern. -/
def exImg : Img ℚ := ⟨4, 4, fun r c => (r * 5 + c * c : ℕ)⟩

example : (bin2d exImg 2).pixels = [12, 36, 52, 76] := by decide +kernel
example : (bin2d exImg 2).pixels.sum = exImg.pixels.sum := by decide +kernel
example : (downsample2d exImg 2 0 255 (.uint 8)).pixels = [0, 95, 159, 255] := by decide +kernel
example : (bin2d exImg 2).val 0 0 ≠ (bin2d exImg 2).val 1 1 := by decide +kernel

/-- An 8 x 8 test pattern. -/
def exImg8 : Img ℚ := ⟨8, 8, fun r c => (r * 7 + c * c * c : ℕ)⟩

example : (downsample2d exImg8 4 (-1) 1 (.float 32)).pixels =
    (downsample2d (downsample2d exImg8 2 (-1) 1 (.float 32)) 2 (-1) 1 (.float 32)).pixels := by
  decide +kernel

/-- C14: for integer patterns, rounding after the first downsampling makes a difference. -/
theorem C14_integer_downsampling_does_not_compose :
    (downsample2d exImg8 4 0 255 (.uint 8)).pixels ≠
      (downsample2d (downsample2d exImg8 2 0 255 (.uint 8)) 2 0 255 (.uint 8)).pixels := by
  decide +kernel

/-- A signal with one pattern meets the hypotheses of `C14_signal_intensities`. -/
example : ∃ t, downsample ⟨.uint 8, 4, 4, [exImg], none, ⟨4, 4, 1, 1, 0, 0, 0, 70, [1], [⟨1 / 2, 1 / 2, 1⟩]⟩⟩ 2
    none = .ok t ∧ t.patterns.map Img.pixels = [[0, 95, 159, 255]] ∧
    dtypeRange (.uint 8) = some (0, 255) ∧ Spec.blockSum exImg 2 0 0 ≠ Spec.blockSum exImg 2 0 1 := by
  exact ⟨_, rfl, by decide +kernel, rfl, by decide +kernel⟩

end Kp
