import Verif.Lemmas.FloatMasterPattern
import Verif.Props.FloatSimilarity

/-!
C157: Master patterns in the Lambert projection read from EMsoft files are, in floating point
arithmetic and whatever the order of additions (lazy or not), the sum over asymmetric positions up to a
small relative error.
-/

namespace Kp
open Spec

noncomputable section

set_option linter.unusedSectionVars false

variable {K : Type*} [Field K] [LinearOrder K]

/-- What is read in one pixel, with the intensities in the file. -/
theorem positions_of_slice (f : EmFile K MpImage) (south : Bool) {a b k : ℕ} (hk : k < b - a)
    (r c : ℕ) :
    (List.range (if south then f.lpSouth else f.lpNorth).length).map
        (positionIntensity ((if south then f.lpSouth else f.lpNorth).map fun l => sliceList l a b) k r c)
      = positionsInFile f south (a + k) r c := by
  unfold positionsInFile
  generalize (if south then f.lpSouth else f.lpNorth) = L
  apply List.ext_getElem?
  intro p
  by_cases hp : p < L.length
  · simp only [List.getElem?_map, List.getElem?_range hp, Option.map_some,
      List.getElem?_eq_getElem hp, positionIntensity, List.getD_eq_getElem?_getD, Option.getD_some,
      sliceList_get _ hk]
  · rw [List.getElem?_eq_none (by simpa using hp), List.getElem?_eq_none (by simpa using hp)]

/-- The intensities read are non-negative numbers of type float32. -/
theorem positions_float {f : EmFile K MpImage} (hfl : Float32Intensities f)
    (south : Bool) (k r c : ℕ) : ∀ v ∈ positionsInFile f south k r c,
      0 ≤ v ∧ MetricType.float32.fl v = v := by
  intro v hv
  obtain ⟨images, hi, rfl⟩ := List.mem_map.mp hv
  rw [List.getD_eq_getElem?_getD]
  cases h : images[k]? with
  | none =>
    refine ⟨le_rfl, ?_⟩
    have := fl_int .float32 (z := 0) (by norm_num)
    simpa using this
  | some image =>
    exact hfl south images hi image (List.mem_of_getElem? h) r c

/-- What is stored in a pixel of the Lambert projection. -/
theorem lambert_pixel {f : EmFile K MpImage} (hfl : Float32Intensities f)
    {flip : MpImage → MpImage} {order : PositionOrder} (ho : AddsEveryPosition f order)
    (south : Bool) {a b k : ℕ} (hk : k < b - a) :
    ∃ img, (hemisphereImagesFl flip order f .lambert south a b)[k]? = some img ∧ ∀ r c : ℕ,
      let values := positionsInFile f south (a + k) r c
      (∀ v ∈ values, v ≤ img r c) ∧ 0 ≤ values.sum ∧
      (1 - 1 / 2 ^ 24) ^ (values.length - 1) * values.sum ≤ img r c ∧
      img r c ≤ (1 + 1 / 2 ^ 24) ^ (values.length - 1) * values.sum ∧
      (values.length ≤ 2 → img r c = MetricType.float32.fl values.sum) := by
  refine ⟨_, by rw [hemisphereImagesFl, sumPositionsFl, List.getElem?_map, List.getElem?_range hk];
                rfl, ?_⟩
  intro r c
  have hp := ho south k r c
  have hpos := positions_of_slice f south hk r c
  set A := positionIntensity ((if south then f.lpSouth else f.lpNorth).map fun l => sliceList l a b)
    k r c with hA
  have hperm : ((order south k r c).pixels.map A).Perm (positionsInFile f south (a + k) r c) := by
    rw [← hpos]
    exact hp.map _
  have hmem : ∀ i ∈ (order south k r c).pixels, 0 ≤ A i ∧ MetricType.float32.fl (A i) = A i :=
    fun i hi => positions_float hfl south (a + k) r c _
      (hperm.mem_iff.mp (List.mem_map_of_mem hi))
  obtain ⟨-, h2, h3, h4, h5⟩ := sum32_bounds _ hmem
  have hlen : (order south k r c).pixels.length = (positionsInFile f south (a + k) r c).length := by
    rw [← hperm.length_eq, List.length_map]
  rw [hperm.sum_eq] at h3 h4 h5
  rw [hlen] at h4 h5
  refine ⟨?_, h3, h4, h5, ?_⟩
  · intro v hv
    obtain ⟨i, hi, rfl⟩ := List.mem_map.mp (hperm.mem_iff.mpr hv)
    exact h2 i hi
  · intro hl
    have h := sum32_two _ (fun i hi => (hmem i hi).2) (by rw [hlen]; exact hl)
    rw [hperm.sum_eq] at h
    exact h

/-- How the two ways of reading are related. -/
theorem emReadFl_eq {flip : MpImage → MpImage} (order : PositionOrder)
    {f : EmFile K MpImage} {sel : EnergySelection K} {proj : MpProjection} {hemi : MpHemisphere}
    {a b : ℕ} (h : energySlice f.energies sel = .ok (a, b)) {m : EmMasterPattern K MpImage}
    (hm : emRead flip f sel proj hemi = .ok m) :
    emReadFl flip order f sel proj hemi = .ok
      ⟨(hemispheres hemi).map fun s => hemisphereImagesFl flip order f proj s a b, m.axes⟩ := by
  unfold emReadFl
  rw [h, hm]
  cases hemi <;> rfl

theorem emRead_ok {flip : MpImage → MpImage} {f : EmFile K MpImage} {sel : EnergySelection K}
    (proj : MpProjection) (hemi : MpHemisphere) {a b : ℕ}
    (h : energySlice f.energies sel = .ok (a, b)) (ha : a < f.energies.length) :
    ∃ m, emRead flip f sel proj hemi = .ok m := by
  unfold emRead
  rw [h]
  simp only [List.getElem?_eq_getElem ha]
  exact ⟨_, rfl⟩

/-- C157. A master pattern in the Lambert projection of a file whose intensities are non-negative numbers
of type float32 is read for all orders in which asymmetric positions are added. It has the axes of the
sum in exact arithmetic (C71). It has one image for each hemisphere asked for and each energy from
number `a` up to, not including, `b` (the energies selected, C47). Every pixel is the sum over the
`n` asymmetric positions in the file, at this hemisphere, energy, row and column, up to `n - 1`
relative errors of `2⁻²⁴`, and at least as bright as in each of the asymmetric positions. -/
theorem C157_sum {f : EmFile K MpImage} (hfl : Float32Intensities f) {flip : MpImage → MpImage}
    {order : PositionOrder} (ho : AddsEveryPosition f order)
    {sel : EnergySelection K} {a b : ℕ} (h : energySlice f.energies sel = .ok (a, b))
    (ha : a < f.energies.length) (hemi : MpHemisphere) :
    ∃ m m₀, emReadFl flip order f sel .lambert hemi = .ok m ∧
      emRead flip f sel .lambert hemi = .ok m₀ ∧ m.axes = m₀.axes ∧
      m.images.length = (hemispheres hemi).length ∧
      ∀ (i : ℕ) (south : Bool), (hemispheres hemi)[i]? = some south →
        ∃ images : List MpImage, m.images[i]? = some images ∧ images.length = b - a ∧
          ∀ k < b - a, ∃ image : MpImage, images[k]? = some image ∧ ∀ r c : ℕ,
            let values := positionsInFile f south (a + k) r c
            (∀ v ∈ values, v ≤ image r c) ∧
            (1 - 1 / 2 ^ 24) ^ (values.length - 1) * values.sum ≤ image r c ∧
            image r c ≤ (1 + 1 / 2 ^ 24) ^ (values.length - 1) * values.sum := by
  obtain ⟨m₀, hm₀⟩ := emRead_ok (flip := flip) .lambert hemi h ha
  refine ⟨_, m₀, emReadFl_eq order h hm₀, hm₀, rfl, by simp, ?_⟩
  intro i south hi
  refine ⟨_, by rw [List.getElem?_map, hi]; rfl, by simp [hemisphereImagesFl, sumPositionsFl], ?_⟩
  intro k hk
  obtain ⟨img, h1, h2⟩ := lambert_pixel hfl (flip := flip) ho south hk
  exact ⟨img, h1, fun r c => ⟨(h2 r c).1, (h2 r c).2.2.1, (h2 r c).2.2.2.1⟩⟩

/-- C157. Two orders of additions, for example those of a lazy and a non-lazy signal, give master
patterns with the same axes whose pixels differ by at most `n 2⁻²²` of the sum over the `n` asymmetric
positions (of which there are at most `2¹⁸`). Master patterns with at most two asymmetric positions
are the same. -/
theorem C157_lazy {f : EmFile K MpImage} (hfl : Float32Intensities f) {flip : MpImage → MpImage}
    {order order' : PositionOrder} (ho : AddsEveryPosition f order) (ho' : AddsEveryPosition f order')
    {sel : EnergySelection K} {a b : ℕ} (h : energySlice f.energies sel = .ok (a, b))
    (ha : a < f.energies.length) (hemi : MpHemisphere)
    (hn : f.lpNorth.length ≤ 2 ^ 18 ∧ f.lpSouth.length ≤ 2 ^ 18) :
    ∃ m m', emReadFl flip order f sel .lambert hemi = .ok m ∧
      emReadFl flip order' f sel .lambert hemi = .ok m' ∧ m.axes = m'.axes ∧
      (f.lpNorth.length ≤ 2 → f.lpSouth.length ≤ 2 → m = m') ∧
      ∀ (i : ℕ) (south : Bool), (hemispheres hemi)[i]? = some south → ∀ k < b - a,
        ∃ image image' : MpImage, m.images[i]?.bind (·[k]?) = some image ∧
          m'.images[i]?.bind (·[k]?) = some image' ∧ ∀ r c : ℕ,
            let values := positionsInFile f south (a + k) r c
            |image r c - image' r c| ≤ values.length / 2 ^ 22 * values.sum := by
  obtain ⟨m₀, hm₀⟩ := emRead_ok (flip := flip) .lambert hemi h ha
  have len : ∀ (south : Bool) (k r c : ℕ), (positionsInFile f south k r c).length =
      if south then f.lpSouth.length else f.lpNorth.length := by
    intro south k r c
    cases south <;> simp [positionsInFile]
  refine ⟨_, _, emReadFl_eq order h hm₀, emReadFl_eq order' h hm₀, rfl, ?_, ?_⟩
  · intro h1 h2
    congr 1
    apply List.map_congr_left
    intro south _
    apply List.ext_getElem?
    intro k
    by_cases hk : k < b - a
    · obtain ⟨img, e1, p1⟩ := lambert_pixel hfl (flip := flip) ho south hk
      obtain ⟨img', e2, p2⟩ := lambert_pixel hfl (flip := flip) ho' south hk
      rw [e1, e2]
      congr 1
      funext r c
      have hl : (positionsInFile f south (a + k) r c).length ≤ 2 := by
        rw [len]
        cases south
        · exact h1
        · exact h2
      rw [(p1 r c).2.2.2.2 hl, (p2 r c).2.2.2.2 hl]
    · rw [List.getElem?_eq_none (by simpa [hemisphereImagesFl, sumPositionsFl] using hk),
        List.getElem?_eq_none (by simpa [hemisphereImagesFl, sumPositionsFl] using hk)]
  · intro i south hi k hk
    obtain ⟨img, e1, p1⟩ := lambert_pixel hfl (flip := flip) ho south hk
    obtain ⟨img', e2, p2⟩ := lambert_pixel hfl (flip := flip) ho' south hk
    refine ⟨img, img', by simp [List.getElem?_map, hi, e1], by simp [List.getElem?_map, hi, e2], ?_⟩
    intro r c
    obtain ⟨-, s0, l1, u1, -⟩ := p1 r c
    obtain ⟨-, -, l2, u2, -⟩ := p2 r c
    have hl : (positionsInFile f south (a + k) r c).length ≤ 2 ^ 18 := by
      rw [len]
      cases south
      · exact hn.1
      · exact hn.2
    dsimp only
    generalize positionsInFile f south (a + k) r c = values at *
    rcases Nat.eq_zero_or_pos values.length with h0 | h0
    · rw [List.length_eq_zero_iff.mp h0] at l1 u1 l2 u2 ⊢
      simp only [List.sum_nil, mul_zero] at l1 u1 l2 u2 ⊢
      rw [abs_le]
      constructor <;> linarith
    obtain ⟨n, hn1⟩ : ∃ n, values.length = n + 1 := ⟨values.length - 1, by omega⟩
    rw [hn1] at l1 u1 l2 u2 hl ⊢
    simp only [Nat.add_sub_cancel] at l1 u1 l2 u2
    have hnr : (n : ℝ) ≤ 2 ^ 18 := by
      have : n ≤ 2 ^ 18 := by omega
      exact_mod_cast this
    have g : (1 + (1 : ℝ) / 2 ^ 24) ^ n - 1 ≤ 64 / 63 * (n * (1 / 2 ^ 24)) :=
      one_add_pow_le (by positivity) (by linarith)
    have d : 1 + (n : ℝ) * (-(1 / 2 ^ 24)) ≤ (1 + -(1 / 2 ^ 24)) ^ n :=
      one_add_mul_le_pow (by norm_num) n
    have d' : 1 - (n : ℝ) * (1 / 2 ^ 24) ≤ (1 - 1 / 2 ^ 24) ^ n := by
      rw [sub_eq_add_neg (1 : ℝ) (1 / 2 ^ 24)]
      linarith
    have U : (1 + (1 : ℝ) / 2 ^ 24) ^ n * values.sum ≤
        (1 + 64 / 63 * (n * (1 / 2 ^ 24))) * values.sum :=
      mul_le_mul_of_nonneg_right (by linarith) s0
    have L : (1 - (n : ℝ) * (1 / 2 ^ 24)) * values.sum ≤ (1 - 1 / 2 ^ 24) ^ n * values.sum :=
      mul_le_mul_of_nonneg_right d' s0
    have key : (1 + 64 / 63 * (n * (1 / 2 ^ 24))) * values.sum -
        (1 - (n : ℝ) * (1 / 2 ^ 24)) * values.sum ≤ ((n + 1 : ℕ) : ℝ) / 2 ^ 22 * values.sum := by
      rw [← sub_mul]
      apply mul_le_mul_of_nonneg_right _ s0
      push_cast
      have : (0 : ℝ) ≤ n := Nat.cast_nonneg n
      linarith
    rw [abs_le]
    constructor <;> linarith

/-- C157. Master patterns in the stereographic projection do not depend on the order: nothing is
added. -/
theorem C157_stereographic {flip : MpImage → MpImage} (order : PositionOrder) (f : EmFile K MpImage)
    (sel : EnergySelection K) (hemi : MpHemisphere) :
    emReadFl flip order f sel .stereographic hemi = emRead flip f sel .stereographic hemi := by
  unfold emReadFl
  cases h : energySlice f.energies sel with
  | error e =>
    simp only [emRead, h]
  | ok ab =>
    obtain ⟨a, b⟩ := ab
    cases h2 : f.energies[a]? with
    | none => simp only [emRead, h, h2]
    | some e => cases hemi <;> simp only [emRead, h, h2, hemisphereImages, hemisphereImagesFl]

/-! ### A file with three asymmetric positions -/

/-- Intensities of three asymmetric positions at one energy. -/
def threePositions : EmFile ℚ MpImage :=
  ⟨[20], 1, 1, [0], [0], [[fun _ _ => 2 ^ 26], [fun _ _ => 3], [fun _ _ => 3]],
    [[fun _ _ => 2 ^ 26], [fun _ _ => 3], [fun _ _ => 3]]⟩

/-- One after another, as NumPy does. -/
def oneByOne : PositionOrder := fun _ _ _ _ => .plus (.plus (.term 0) (.term 1)) (.term 2)

/-- With a chunk of the first and a chunk of the other two positions, as Dask does. -/
def inChunks : PositionOrder := fun _ _ _ _ => .plus (.term 0) (.plus (.term 1) (.term 2))

theorem threePositions_rounding :
    MetricType.float32.fl 3 = 3 ∧ MetricType.float32.fl 6 = 6 ∧
    MetricType.float32.fl 67108864 = 67108864 ∧ MetricType.float32.fl 67108867 = 67108864 ∧
    MetricType.float32.fl 67108870 = 67108872 := by
  have i : ∀ z : ℤ, |z| ≤ 2 ^ 24 → MetricType.float32.fl z = z := fun z hz => fl_int _ hz
  have big : ∀ (x : ℝ) (m : ℤ), 2 ^ 26 ≤ x → x < 2 ^ 27 → |x / 8 - m| < 1 / 2 →
      MetricType.float32.fl x = m * 8 := by
    intro x m h1 h2 h3
    have := binaryRound_eq (K := ℝ) (p := 24) (emin := -149) (e := 26) (x := x) m
      (by norm_num at h1 ⊢; exact h1) (by norm_num at h2 ⊢; exact h2) (by norm_num)
      (by norm_num at h3 ⊢; exact h3)
    rw [MetricType.fl, MetricType.digits, MetricType.emin, this]
    norm_num
  refine ⟨by simpa using i 3 (by norm_num), by simpa using i 6 (by norm_num), ?_, ?_, ?_⟩
  · rw [big 67108864 8388608 (by norm_num) (by norm_num) (by norm_num)]; norm_num
  · rw [big 67108867 8388608 (by norm_num) (by norm_num) (by rw [abs_lt]; norm_num)]; norm_num
  · rw [big 67108870 8388609 (by norm_num) (by norm_num) (by rw [abs_lt]; norm_num)]; norm_num

/-- The hypotheses of C157 are met by this file and both orders. -/
theorem threePositions_valid : Float32Intensities threePositions ∧
    AddsEveryPosition threePositions oneByOne ∧ AddsEveryPosition threePositions inChunks ∧
    energySlice threePositions.energies .all = .ok (0, 1) ∧ 0 < threePositions.energies.length := by
  obtain ⟨h3, -, hb, -, -⟩ := threePositions_rounding
  have hb' : MetricType.float32.fl (2 ^ 26) = 2 ^ 26 := by norm_num [hb]
  refine ⟨?_, ?_, ?_, rfl, by decide⟩
  · intro south images hi image him r c
    have hi' : images ∈ ([[fun _ _ => 2 ^ 26], [fun _ _ => 3], [fun _ _ => 3]] :
        List (List MpImage)) := by
      cases south <;> exact hi
    simp only [List.mem_cons, List.not_mem_nil, or_false] at hi'
    rcases hi' with rfl | rfl | rfl <;>
      (rw [List.mem_singleton.mp him]) <;>
      first
        | exact ⟨by norm_num, hb'⟩
        | exact ⟨by norm_num, h3⟩
  · intro south k r c
    cases south <;> exact List.Perm.refl _
  · intro south k r c
    cases south <;> exact List.Perm.refl _

/-- C157. With three asymmetric positions, a lazy and a non-lazy signal need not be the same: the sum of
`2²⁶`, 3 and 3 is `2²⁶` when added one after another, and `2²⁶ + 8` when the last two are in a chunk
of their own. -/
theorem C157_not_same :
    (∃ m, emReadFl id oneByOne threePositions .all .lambert .upper = .ok m ∧
      ∃ image : MpImage, m.images[0]?.bind (·[0]?) = some image ∧ ∀ r c, image r c = 2 ^ 26) ∧
    (∃ m, emReadFl id inChunks threePositions .all .lambert .upper = .ok m ∧
      ∃ image : MpImage, m.images[0]?.bind (·[0]?) = some image ∧ ∀ r c, image r c = 2 ^ 26 + 8) := by
  obtain ⟨h3, h6, hb, hb3, hb6⟩ := threePositions_rounding
  obtain ⟨m₀, hm₀⟩ := emRead_ok (flip := id) (f := threePositions) (sel := .all) .lambert .upper
    (a := 0) (b := 1) rfl (by decide)
  constructor
  · refine ⟨_, emReadFl_eq oneByOne rfl hm₀, _, rfl, fun r c => ?_⟩
    change MetricType.float32.fl (MetricType.float32.fl (MetricType.float32.fl (2 ^ 26 * 1) +
      MetricType.float32.fl (3 * 1)) + MetricType.float32.fl (3 * 1)) = _
    norm_num [h3, hb, hb3]
  · refine ⟨_, emReadFl_eq inChunks rfl hm₀, _, rfl, fun r c => ?_⟩
    change MetricType.float32.fl (MetricType.float32.fl (2 ^ 26 * 1) + MetricType.float32.fl
      (MetricType.float32.fl (3 * 1) + MetricType.float32.fl (3 * 1))) = _
    norm_num [h3, h6, hb, hb6]

example : threePositions.lpNorth.length = 3 ∧ positionsInFile threePositions false 0 0 0 =
    [2 ^ 26, 3, 3] := ⟨rfl, rfl⟩

end
end Kp
