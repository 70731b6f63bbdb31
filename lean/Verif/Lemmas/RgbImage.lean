import Verif.Model.RgbImage
import Verif.Lemmas.Rescale
import Verif.Lemmas.FitPc
import Mathlib.Tactic.Linarith
import Mathlib.Tactic.FieldSimp

/-! Lemmas for RGB images: rescaling does not see a gain and an offset of all values. -/

set_option linter.unusedSectionVars false

namespace Kp

section
variable {K : Type*} [Field K] [LinearOrder K] [IsStrictOrderedRing K]

theorem listMin_affine (a b : K) (ha : 0 < a) (l : List K) (h : l ≠ []) :
    listMin (l.map fun x => a * x + b) = a * listMin l + b := by
  induction l with
  | nil => exact absurd rfl h
  | cons x l ih =>
    rcases l with _ | ⟨y, l⟩
    · rfl
    · have hrec := ih (by simp)
      simp only [List.map_cons] at hrec ⊢
      simp only [listMin, hrec]
      rcases le_total x (listMin (y :: l)) with hle | hle
      · rw [min_eq_left hle, min_eq_left (by nlinarith)]
      · rw [min_eq_right hle, min_eq_right (by nlinarith)]

theorem listMax_affine (a b : K) (ha : 0 < a) (l : List K) (h : l ≠ []) :
    listMax (l.map fun x => a * x + b) = a * listMax l + b := by
  induction l with
  | nil => exact absurd rfl h
  | cons x l ih =>
    rcases l with _ | ⟨y, l⟩
    · rfl
    · have hrec := ih (by simp)
      simp only [List.map_cons] at hrec ⊢
      simp only [listMax, hrec]
      rcases le_total x (listMax (y :: l)) with hle | hle
      · rw [max_eq_right hle, max_eq_right (by nlinarith)]
      · rw [max_eq_left hle, max_eq_left (by nlinarith)]

theorem rescaleRgbPixel_affine (a b imin imax omin omax x : K) (ha : 0 < a) :
    rescalePixel (a * imin + b) (a * imax + b) omin omax (a * x + b) =
      rescalePixel imin imax omin omax x := by
  unfold rescalePixel
  have h1 : a * x + b - (a * imin + b) = a * (x - imin) := by ring
  have h2 : a * imax + b - (a * imin + b) = a * (imax - imin) := by ring
  rw [h1, h2, mul_div_mul_left _ _ ha.ne']

theorem clip_affine (a b lo hi x : K) (ha : 0 < a) :
    clip (a * lo + b) (a * hi + b) (a * x + b) = a * clip lo hi x + b := by
  unfold clip
  have hmax : max (a * x + b) (a * lo + b) = a * max x lo + b := by
    rcases le_total x lo with h | h
    · rw [max_eq_right h, max_eq_right (by nlinarith)]
    · rw [max_eq_left h, max_eq_left (by nlinarith)]
  rw [hmax]
  rcases le_total (max x lo) hi with h | h
  · rw [min_eq_left h, min_eq_left (by nlinarith)]
  · rw [min_eq_right h, min_eq_right (by nlinarith)]

variable [FloorRing K]

theorem percentile_affine (a b : K) (ha : 0 < a) (l : List K) (hl : l ≠ []) (q : K) (h0 : 0 ≤ q)
    (h1 : q ≤ 100) : percentile (l.map fun x => a * x + b) q = a * percentile l q + b := by
  have hs : (l.map fun x => a * x + b).insertionSort (· ≤ ·) =
      (l.insertionSort (· ≤ ·)).map fun x => a * x + b := by
    symm
    apply List.map_insertionSort
    intro x _ y _
    constructor
    · intro h; nlinarith
    · intro h
      by_contra hlt
      push Not at hlt
      nlinarith
  have hn : 0 < l.length := List.length_pos_iff.2 hl
  have hn1 : (1 : K) ≤ (l.length : K) := by exact_mod_cast hn
  have hv : q / 100 * ((l.length : K) - 1) ≤ (l.length : K) - 1 := by
    have : q / 100 ≤ 1 := by rw [div_le_one (by norm_num)]; exact h1
    nlinarith
  have hv0 : 0 ≤ q / 100 * ((l.length : K) - 1) := by
    have : 0 ≤ q / 100 := by positivity
    nlinarith
  have hi : ⌊q / 100 * ((l.length : K) - 1)⌋.toNat < l.length := by
    have h2 : ⌊q / 100 * ((l.length : K) - 1)⌋ ≤ (l.length : ℤ) - 1 := by
      have : ((⌊q / 100 * ((l.length : K) - 1)⌋ : ℤ) : K) ≤ (l.length : K) - 1 :=
        le_trans (Int.floor_le _) hv
      have h3 : ((⌊q / 100 * ((l.length : K) - 1)⌋ : ℤ) : K) ≤ (((l.length : ℤ) - 1 : ℤ) : K) := by
        push_cast
        exact this
      exact_mod_cast h3
    have h4 : 0 ≤ ⌊q / 100 * ((l.length : K) - 1)⌋ := Int.floor_nonneg.2 hv0
    omega
  have hget : ∀ i : ℕ, i < l.length →
      ((l.insertionSort (· ≤ ·)).map fun x => a * x + b).getD i 0 =
        a * (l.insertionSort (· ≤ ·)).getD i 0 + b := by
    intro i hi
    rw [List.getD_eq_getElem?_getD, List.getElem?_map, List.getD_eq_getElem?_getD,
      List.getElem?_eq_getElem (by rw [List.length_insertionSort]; exact hi)]
    rfl
  unfold percentile
  simp only [List.length_map]
  rw [hs, hget _ hi, hget _ (by omega)]
  ring

/-- Rescaling does not see a gain and an offset of all values, neither without ranges nor with
percentiles. -/
theorem rescaleIntensity_affine (a b : K) (ha : 0 < a) (p : List K) (hp : p ≠ []) (dtypeIn : DType)
    (dtypeOut : Option DType) (percentiles : Option (K × K))
    (hq : ∀ q ∈ percentiles, 0 ≤ q.1 ∧ q.1 ≤ 100 ∧ 0 ≤ q.2 ∧ q.2 ≤ 100) :
    let image := p.map fun x => a * x + b
    rescaleIntensity image dtypeIn
        (percentiles.map fun q => (percentile image q.1, percentile image q.2)) none dtypeOut none =
      rescaleIntensity p dtypeIn
        (percentiles.map fun q => (percentile p q.1, percentile p q.2)) none dtypeOut none := by
  intro image
  rcases percentiles with _ | ⟨q, r⟩
  · simp only [Option.map_none, rescaleIntensity]
    have e1 : listMin image = a * listMin p + b := listMin_affine a b ha p hp
    have e2 : listMax image = a * listMax p + b := listMax_affine a b ha p hp
    rcases dtypeRange (dtypeOut.getD dtypeIn) with _ | ⟨lo, hi⟩
    · rfl
    · simp only
      congr 1
      rw [e1, e2]
      unfold rescaleWithMinMax
      rw [List.map_map, List.map_map, List.map_map]
      apply List.map_congr_left
      intro x _
      simp only [Function.comp]
      rw [rescaleRgbPixel_affine _ _ _ _ _ _ _ ha]
  · obtain ⟨h1, h2, h3, h4⟩ := hq (q, r) rfl
    simp only [Option.map_some, rescaleIntensity]
    have e1 : percentile image q = a * percentile p q + b := percentile_affine a b ha p hp q h1 h2
    have e2 : percentile image r = a * percentile p r + b := percentile_affine a b ha p hp r h3 h4
    rcases dtypeRange (dtypeOut.getD dtypeIn) with _ | ⟨lo, hi⟩
    · rfl
    · simp only
      congr 1
      rw [e1, e2]
      unfold rescaleWithMinMax
      rw [List.map_map, List.map_map, List.map_map, List.map_map, List.map_map]
      apply List.map_congr_left
      intro x _
      simp only [Function.comp]
      rw [clip_affine _ _ _ _ _ ha, rescaleRgbPixel_affine _ _ _ _ _ _ _ ha]

end

section

theorem imageMedian_affine (a b : ℝ) (ha : 0 < a) (l : List ℝ) (hl : l ≠ []) :
    imageMedian (l.map fun x => a * x + b) = a * imageMedian l + b :=
  percentile_affine a b ha l hl 50 (by norm_num) (by norm_num)

theorem imageStd_affine (a b : ℝ) (ha : 0 < a) (l : List ℝ) (hl : l ≠ []) :
    imageStd (l.map fun x => a * x + b) = a * imageStd l := by
  have hm : listMean (l.map fun x => a * x + b) = a * listMean l + b := by
    have := listMean_affine b a l hl
    have e : (l.map fun x => b + a * x) = l.map fun x => a * x + b := by
      apply List.map_congr_left
      intro x _
      ring
    rw [e] at this
    rw [this]
    ring
  unfold imageStd
  rw [hm, List.map_map]
  have e : (l.map ((fun x => (x - (a * listMean l + b)) ^ 2) ∘ fun x => a * x + b)) =
      (l.map fun x => (x - listMean l) ^ 2).map fun y => 0 + a ^ 2 * y := by
    rw [List.map_map]
    apply List.map_congr_left
    intro x _
    simp only [Function.comp]
    ring
  rw [e, listMean_affine 0 (a ^ 2) _ (by simpa using hl), zero_add,
    Real.sqrt_mul (by positivity), Real.sqrt_sq ha.le]

theorem normalizedPixel_affine (bits : ℕ) (bright : ℤ) (contrast a b : ℝ) (ha : 0 < a)
    (l : List ℝ) (hl : l ≠ []) (x : ℝ) :
    normalizedPixel bits bright contrast (l.map fun x => a * x + b) (a * x + b) =
      normalizedPixel bits bright contrast l x := by
  unfold normalizedPixel
  rw [imageMedian_affine a b ha l hl, imageStd_affine a b ha l hl]
  have h1 : a * x + b - (a * imageMedian l + b) = a * (x - imageMedian l) := by ring
  rw [h1]
  congr 1
  rw [show contrast * ((2 ^ bits - 1) * (3125 / 10000)) * (a * (x - imageMedian l)) =
    a * (contrast * ((2 ^ bits - 1) * (3125 / 10000)) * (x - imageMedian l)) by ring,
    mul_div_mul_left _ _ ha.ne']

theorem normalizeImage_affine (bits : ℕ) (bright : ℤ) (contrast a b : ℝ) (ha : 0 < a)
    (l : List ℝ) :
    normalizeImage bits bright contrast (l.map fun x => a * x + b) =
      normalizeImage bits bright contrast l := by
  by_cases hl : l = []
  · subst hl; rfl
  · unfold normalizeImage
    rw [List.map_map]
    apply List.map_congr_left
    intro x _
    simp only [Function.comp]
    rw [normalizedPixel_affine bits bright contrast a b ha l hl]

theorem rgbFlat_length (n : ℕ) (channels : List (List ℝ)) : (rgbFlat n channels).length = 3 * n := by
  unfold rgbFlat
  simp

theorem rgbFlat_get (n k c : ℕ) (hk : k < n) (hc : c < 3) (channels : List (List ℝ)) :
    (rgbFlat n channels)[3 * k + c]? = some ((channels.getD c []).getD k 0) := by
  unfold rgbFlat
  rw [List.getElem?_map, List.getElem?_range (by omega), Option.map_some]
  have h1 : (3 * k + c) % 3 = c := by omega
  have h2 : (3 * k + c) / 3 = k := by omega
  rw [h1, h2]

end

end Kp
