import Verif.Model.RgbNavigator
import Verif.Props.AdaptiveEqualization

/-!
C100: navigators made from colour images.
-/

set_option linter.unusedSectionVars false

namespace Kp

section
variable {K : Type} [Field K] [LinearOrder K] [IsStrictOrderedRing K] [FloorRing K]

/-- The value of a channel of a pixel. -/
def Spec.channel (image : List (List (List K))) (r c k : ℕ) : Option K :=
  ((image[r]?.bind (·[c]?)).bind (·[k]?))

/-- `x` is a value of the image. -/
def Spec.InImage (image : List (List (List K))) (x : K) : Prop :=
  ∃ r c k, Spec.channel image r c k = some x

theorem inImage_iff (image : List (List (List K))) (x : K) :
    Spec.InImage image x ↔ x ∈ image.flatten.flatten := by
  unfold Spec.InImage Spec.channel
  simp only [List.mem_flatten]
  constructor
  · rintro ⟨r, c, k, h⟩
    rw [Option.bind_eq_some_iff] at h
    obtain ⟨px, h1, h2⟩ := h
    rw [Option.bind_eq_some_iff] at h1
    obtain ⟨row, h3, h4⟩ := h1
    exact ⟨px, ⟨row, List.mem_of_getElem? h3, List.mem_of_getElem? h4⟩, List.mem_of_getElem? h2⟩
  · rintro ⟨px, ⟨row, h1, h2⟩, h3⟩
    obtain ⟨r, hr⟩ := List.getElem?_of_mem h1
    obtain ⟨c, hc⟩ := List.getElem?_of_mem h2
    obtain ⟨k, hk⟩ := List.getElem?_of_mem h3
    exact ⟨r, c, k, by rw [hr, Option.bind_some, hc, Option.bind_some, hk]⟩

theorem channel_map (image : List (List (List K))) (f : K → K) (r c k : ℕ) :
    Spec.channel (image.map fun row => row.map fun px => px.map f) r c k =
      (Spec.channel image r c k).map f := by
  unfold Spec.channel
  rw [List.getElem?_map]
  cases image[r]? with
  | none => rfl
  | some row =>
    simp only [Option.map_some, Option.bind_some, List.getElem?_map]
    cases row[c]? with
    | none => rfl
    | some px => simp [List.getElem?_map]

theorem getRgbNavigator_ok (image : List (List (List K))) (b : ℕ) (hb : b = 8 ∨ b = 16)
    (hch : ∀ row ∈ image, ∀ px ∈ row, px.length = 3 ∨ px.length = 4) :
    getRgbNavigator image (.uint b) = .ok (image.map fun row => row.map fun px => px.map fun x =>
      castTo (.uint b) (skimageRescale (listMin image.flatten.flatten)
        (listMax image.flatten.flatten) ((0 : ℤ) : K) ((2 ^ b - 1 : ℤ) : K) x)) := by
  unfold getRgbNavigator
  simp only [dtypeRange]
  rw [if_neg (by rcases hb with rfl | rfl <;> simp), if_neg]
  rintro ⟨row, h2, px, h3, h4, h5⟩
  rcases hch row h2 px h3 with h | h
  · exact h4 h
  · exact h5 h

/-- C100: for an image of RGB (or RGBA) pixels with values from 0 to 1, both of which occur, and an
allowed data type, the colours are kept: every channel of every pixel is the same part of the
largest value of the type, rounded down. -/
theorem C100_colours_partial (image : List (List (List K))) (b : ℕ) (hb : b = 8 ∨ b = 16)
    (hch : ∀ row ∈ image, ∀ px ∈ row, px.length = 3 ∨ px.length = 4)
    (h01 : ∀ x, Spec.InImage image x → 0 ≤ x ∧ x ≤ 1) (h0 : Spec.InImage image 0)
    (h1 : Spec.InImage image 1) :
    ∃ out, getRgbNavigator image (.uint b) = .ok out ∧
      ∀ r c k, Spec.channel out r c k =
        (Spec.channel image r c k).map fun x => ((⌊x * (2 ^ b - 1)⌋ : ℤ) : K) := by
  have hmin : listMin image.flatten.flatten = 0 := eq_listMin
    ⟨(inImage_iff _ _).1 h0, fun x hx => (h01 x ((inImage_iff _ _).2 hx)).1⟩
  have hmax : listMax image.flatten.flatten = 1 := eq_listMax
    ⟨(inImage_iff _ _).1 h1, fun x hx => (h01 x ((inImage_iff _ _).2 hx)).2⟩
  refine ⟨_, getRgbNavigator_ok image b hb hch, ?_⟩
  · intro r c k
    rw [channel_map, hmin, hmax]
    cases hx : Spec.channel image r c k with
    | none => rfl
    | some x =>
      obtain ⟨hx0, -⟩ := h01 x ⟨r, c, k, hx⟩
      simp only [Option.map_some, Option.some.injEq, skimageRescale, le_refl, if_true, castTo]
      rw [if_pos (by norm_num)]
      have h2 : ((2 ^ b - 1 : ℤ) : K) = 2 ^ b - 1 := by push_cast; ring
      simp only [sub_zero, div_one, add_zero]
      rw [h2]
      unfold truncate
      rw [if_pos]
      apply mul_nonneg hx0
      have : (1 : K) ≤ 2 ^ b := one_le_pow₀ (by norm_num)
      linarith

/-- A pixel of pure red and a grey one. -/
example : (getRgbNavigator (K := ℚ) [[[1, 0, 0], [1 / 2, 1 / 2, 1 / 2]]] (.uint 8)).toOption =
    some [[[255, 0, 0], [127, 127, 127]]] := by
  decide +kernel

/-- C100 for all images: one map, which keeps the order of values, is used for all channels and
pixels, so that the brightest value of a pixel stays the brightest and two pixels of the same colour
keep the same colour; the values of an image which are not all equal are spread over the whole
range of the type. -/
theorem C100_one_map (image : List (List (List K))) (b : ℕ) (hb : b = 8 ∨ b = 16)
    (hch : ∀ row ∈ image, ∀ px ∈ row, px.length = 3 ∨ px.length = 4) :
    ∃ (f : K → K) (out : List (List (List K))), Monotone f ∧
      getRgbNavigator image (.uint b) = .ok out ∧
      (∀ r c k, Spec.channel out r c k = (Spec.channel image r c k).map f) ∧
      ∀ mn mx, IsLeast {x | Spec.InImage image x} mn → IsGreatest {x | Spec.InImage image x} mx →
        mn < mx → f mn = 0 ∧ f mx = 2 ^ b - 1 := by
  have hrange : ((2 ^ b - 1 : ℤ) : K) = 2 ^ b - 1 := by push_cast; ring
  have hone : (0 : K) ≤ 2 ^ b - 1 := by
    have : (1 : K) ≤ 2 ^ b := one_le_pow₀ (by norm_num)
    linarith
  set mn := listMin image.flatten.flatten with hmn
  set mx := listMax image.flatten.flatten with hmx
  have hle : mn ≤ mx := by
    rcases eq_or_ne image.flatten.flatten [] with h | h
    · rw [hmn, hmx, h]; rfl
    · exact listMin_le _ (listMax_mem h)
  refine ⟨fun x => castTo (.uint b) (skimageRescale mn mx (0 : ℤ) (2 ^ b - 1 : ℤ) x), _, ?_, ?_,
    fun r c k => channel_map image _ r c k, ?_⟩
  · intro x y hxy
    apply castTo_mono
    unfold skimageRescale
    simp only [Int.cast_zero, ite_self]
    split
    · rename_i h
      have : mn < mx := lt_of_le_of_ne hle h
      have h2 : (x - mn) / (mx - mn) ≤ (y - mn) / (mx - mn) :=
        div_le_div_of_nonneg_right (by linarith) (by linarith)
      have := mul_le_mul_of_nonneg_right h2 (b := (x - mn) / (mx - mn))
        (a := ((2 ^ b - 1 : ℤ) : K) - 0) (by rw [hrange]; linarith)
      linarith
    · exact min_le_min (max_le_max hxy le_rfl) le_rfl
  · exact getRgbNavigator_ok image b hb hch
  · intro mn' mx' h1 h2 hlt
    have e1 : mn = mn' := eq_listMin (by simpa only [inImage_iff] using h1)
    have e2 : mx = mx' := eq_listMax (by simpa only [inImage_iff] using h2)
    subst e1 e2
    have hne : mx - mn ≠ 0 := by linarith
    constructor
    · unfold skimageRescale
      simp only [Int.cast_zero, ite_self]
      rw [if_pos hlt.ne]
      simp [castTo, truncate]
    · unfold skimageRescale
      simp only [Int.cast_zero, ite_self]
      rw [if_pos hlt.ne, div_self hne, one_mul, sub_zero, add_zero]
      simp only [castTo, truncate]
      rw [if_pos (by rw [hrange]; exact hone), Int.floor_intCast, hrange]

/-- C100: other data types and numbers of channels are refused. -/
theorem C100_refused (image : List (List (List K))) (d : DType) :
    (d ≠ .uint 8 → d ≠ .uint 16 → ∃ e, getRgbNavigator image d = .error e) ∧
    ((∃ row ∈ image, ∃ px ∈ row, px.length ≠ 3 ∧ px.length ≠ 4) →
      ∃ e, getRgbNavigator image d = .error e) := by
  refine ⟨fun h1 h2 => ?_, fun h => ?_⟩
  · unfold getRgbNavigator
    split
    · exact ⟨_, rfl⟩
    · rw [if_pos ⟨h1, h2⟩]
      exact ⟨_, rfl⟩
  · unfold getRgbNavigator
    split
    · exact ⟨_, rfl⟩
    · split
      · exact ⟨_, rfl⟩
      · exact ⟨_, rfl⟩

/-- C100 is false: colours change. A dark red map becomes bright red, and one colour out of two can
become black. -/
theorem C100_colours_violated :
    (getRgbNavigator (K := ℚ) [[[1 / 4, 0, 0], [1 / 4, 0, 0]]] (.uint 8)).toOption =
      some [[[255, 0, 0], [255, 0, 0]]] ∧
    (getRgbNavigator (K := ℚ) [[[1 / 2, 1 / 2, 1 / 2], [3 / 4, 3 / 4, 3 / 4]]] (.uint 8)).toOption =
      some [[[0, 0, 0], [255, 255, 255]]] := by
  decide +kernel

/-- C100 is false: an image in one tone of grey is black, unless it is white, when it is as good as
black. -/
theorem C100_grey_violated (image : List (List (List K))) (b : ℕ) (hb : b = 8 ∨ b = 16)
    (hch : ∀ row ∈ image, ∀ px ∈ row, px.length = 3 ∨ px.length = 4) (g : K) (hg0 : 0 ≤ g)
    (hg1 : g < 1) (hg : ∀ x, Spec.InImage image x → x = g) :
    ∃ out, getRgbNavigator image (.uint b) = .ok out ∧
      ∀ r c k, Spec.channel out r c k = (Spec.channel image r c k).map fun _ => 0 := by
  have hrange : ((2 ^ b - 1 : ℤ) : K) = 2 ^ b - 1 := by push_cast; ring
  refine ⟨_, getRgbNavigator_ok image b hb hch, fun r c k => ?_⟩
  · rw [channel_map]
    cases hx : Spec.channel image r c k with
    | none => rfl
    | some x =>
      have hin : Spec.InImage image x := ⟨r, c, k, hx⟩
      have hgx := hg x hin
      subst hgx
      have h1 : listMin image.flatten.flatten = x := eq_listMin
        ⟨(inImage_iff _ _).1 hin, fun y hy => (hg y ((inImage_iff _ _).2 hy)).ge⟩
      have h2 : listMax image.flatten.flatten = x := eq_listMax
        ⟨(inImage_iff _ _).1 hin, fun y hy => (hg y ((inImage_iff _ _).2 hy)).le⟩
      simp only [Option.map_some, Option.some.injEq, skimageRescale, h1, h2, ne_eq, not_true,
        if_false, hg0, if_true, castTo, clip, max_eq_left hg0]
      have : x ≤ ((2 ^ b - 1 : ℤ) : K) := by
        rw [hrange]
        have : (2 : K) ^ 1 ≤ 2 ^ b := pow_le_pow_right₀ (by norm_num) (by omega)
        linarith
      rw [min_eq_left this, truncate, if_pos hg0]
      rw [Int.floor_eq_zero_iff.2 ⟨hg0, hg1⟩]
      simp

example : (getRgbNavigator (K := ℚ) [[[1 / 2, 1 / 2, 1 / 2]]] (.uint 16)).toOption =
    some [[[0, 0, 0]]] := by
  decide +kernel

end

end Kp
