import Verif.Model.FloatBackground
import Verif.Props.FloatBinning

/-
C111: removal of a background in the arithmetic of the machine.
-/

namespace Kp
set_option linter.unusedSectionVars false

section
variable {K : Type} [Field K] [LinearOrder K] [IsStrictOrderedRing K] [FloorRing K]

/-- The exact values of pixels minus (over) the background. -/
def Spec.corrected (divide : Bool) (pattern background : List K) : List K :=
  List.zipWith (fun x b => if divide then x / b else x - b) pattern background

/-- Limits of the output are numbers of the formats. -/
structure Spec.OutputInFormat (F : Formats K) (dtype : DType) (omin omax : K) : Prop where
  order : omin ≤ omax
  low : F.add.fl omin = omin
  high : F.add.fl omax = omax
  width : F.mul.fl (omax - omin) = omax - omin
  lowCast : castFl F dtype omin = omin
  highCast : castFl F dtype omax = omax

/-- The first difference in rescaling keeps 32-bit numbers. -/
def Spec.KeepsSingle (B : BackgroundFormats K) (r : Rounding K) : Prop :=
  ∀ x, r.fl (B.single.fl x) = B.single.fl x

theorem orderKept_trans {l m n : List K} (h₁ : OrderKept l m) (h₂ : OrderKept m n) : OrderKept l n := by
  refine ⟨h₂.1.trans h₁.1, ?_⟩
  intro i j x y x' y' hx hy hx' hy' hxy
  have li : i < m.length := by
    rw [h₁.1]; exact (List.getElem?_eq_some_iff.1 hx).1
  have lj : j < m.length := by
    rw [h₁.1]; exact (List.getElem?_eq_some_iff.1 hy).1
  have a := h₁.2 i j x y _ _ hx hy (List.getElem?_eq_getElem li) (List.getElem?_eq_getElem lj) hxy
  exact h₂.2 i j _ _ x' y' (List.getElem?_eq_getElem li) (List.getElem?_eq_getElem lj) hx' hy' a

theorem corrected_map (B : BackgroundFormats K) (divide : Bool) (p bg : List K) :
    List.zipWith (correctPixelFl B divide) p bg =
      (Spec.corrected divide p bg).map fun x => B.single.fl (B.op.fl x) := by
  rw [Spec.corrected, List.map_zipWith]
  rfl

theorem corrected_order (B : BackgroundFormats K) (divide : Bool) (p bg : List K) :
    OrderKept (Spec.corrected divide p bg) (List.zipWith (correctPixelFl B divide) p bg) := by
  rw [corrected_map]
  exact orderKept_map (B.single.mono.comp B.op.mono)

/-- Rescaling of a list of 32-bit numbers which differ. -/
theorem rescaled_range (F : Formats K) (e : Evaluation) (c : List K) (d : DType) (omin omax : K)
    (hc : ∀ x ∈ c, F.sub.fl x = x) (hne : listMin c ≠ listMax c) (ho : Spec.OutputInFormat F d omin omax) :
    let out := c.map fun x => castFl F d (rescalePixelFl F e (listMin c) (listMax c) omin omax x)
    OrderKept c out ∧ omin ∈ out ∧ (∀ z ∈ out, omin ≤ z) ∧
      (e = .written ∨ e = .fused → FillsRange omin omax out) := by
  have h0 : c ≠ [] := by
    rintro rfl
    exact hne rfl
  have hlt : listMin c < listMax c := lt_of_le_of_ne (listMin_le _ (listMax_mem h0)) hne
  have h1 := hc _ (listMin_mem h0)
  have h2 := hc _ (listMax_mem h0)
  have hmono := (castFl_mono F d).comp (rescalePixelFl_mono F e h1 h2 hlt ho.order)
  have hmin := rescalePixelFl_min F e (imin := listMin c) (imax := listMax c) (omax := omax) ho.low
  have mem_low : omin ∈ c.map fun x => castFl F d (rescalePixelFl F e (listMin c) (listMax c) omin omax x) :=
    List.mem_map.2 ⟨_, listMin_mem h0, by simp only [hmin, ho.lowCast]⟩
  have low : ∀ z ∈ c.map fun x => castFl F d (rescalePixelFl F e (listMin c) (listMax c) omin omax x),
      omin ≤ z := by
    intro z hz
    obtain ⟨w, hw, rfl⟩ := List.mem_map.1 hz
    have a := hmono (listMin_le w hw)
    simp only [Function.comp, hmin, ho.lowCast] at a
    exact a
  refine ⟨orderKept_map hmono, mem_low, low, ?_⟩
  intro he
  have hmax := rescalePixelFl_max F e he h1 h2 hlt ho.high ho.width
  refine ⟨mem_low, List.mem_map.2 ⟨_, listMax_mem h0, by simp only [hmax, ho.highCast]⟩, ?_⟩
  intro z hz
  refine ⟨low z hz, ?_⟩
  obtain ⟨w, hw, rfl⟩ := List.mem_map.1 hz
  have a := hmono (le_listMax w hw)
  simp only [Function.comp, hmax, ho.highCast] at a
  exact a

/-- C111 (any background): if the result is a pattern at all, its pixels are ordered as the *exact*
values of pixel minus (over) background, none is below the lower limit and some is at it; with a
division in rescaling the output range is filled. -/
theorem C111_remove_background_partial (B : BackgroundFormats K) (e : Evaluation) (divide : Bool)
    (p bg : List K) (d : DType) (omin omax : K) (hk : Spec.KeepsSingle B B.rescale.sub)
    (ho : Spec.OutputInFormat B.rescale d omin omax) (out : List K)
    (h : removeBackgroundFl B e divide p bg d omin omax = some out) :
    OrderKept (Spec.corrected divide p bg) out ∧ omin ∈ out ∧ (∀ z ∈ out, omin ≤ z) ∧
      (e = .written ∨ e = .fused → FillsRange omin omax out) := by
  unfold removeBackgroundFl at h
  simp only at h
  split_ifs at h with h0 h1
  have hc : ∀ x ∈ List.zipWith (correctPixelFl B divide) p bg, B.rescale.sub.fl x = x := by
    intro x hx
    rw [corrected_map] at hx
    obtain ⟨w, _, rfl⟩ := List.mem_map.1 hx
    exact hk _
  obtain ⟨a, b, c, f⟩ := rescaled_range B.rescale e _ d omin omax hc h1 ho
  rw [← Option.some.inj h]
  exact ⟨orderKept_trans (corrected_order B divide p bg) a, b, c, f⟩

/-- When there is a result: no pixel is divided by zero, and two corrected pixels differ after
rounding. -/
theorem removeBackgroundFl_isSome (B : BackgroundFormats K) (e : Evaluation) (divide : Bool)
    (p bg : List K) (d : DType) (omin omax : K) (h0 : divide = true → 0 ∉ bg) {x y : K}
    (hx : x ∈ Spec.corrected divide p bg) (hy : y ∈ Spec.corrected divide p bg)
    (hxy : B.single.fl (B.op.fl x) ≠ B.single.fl (B.op.fl y)) :
    ∃ out, removeBackgroundFl B e divide p bg d omin omax = some out := by
  unfold removeBackgroundFl
  simp only
  rw [if_neg (fun h => h0 h.1 h.2), if_neg]
  · exact ⟨_, rfl⟩
  · rw [corrected_map]
    exact (listMin_lt_listMax (List.mem_map.2 ⟨x, hx, rfl⟩) (List.mem_map.2 ⟨y, hy, rfl⟩) hxy).ne

/-- C111 (dynamic background): the same for the blurred pattern computed by either filter. -/
theorem C111_dynamic_partial (B : BackgroundFormats K) (e : Evaluation) (filterFunc : List K → List K)
    (divide : Bool) (pattern : List K) (d : DType) (omin omax : K)
    (hk : Spec.KeepsSingle B B.rescale.sub) (ho : Spec.OutputInFormat B.rescale d omin omax)
    (hp : ∀ x ∈ pattern, B.single.fl x = x) (out : List K)
    (h : removeDynamicFl B e filterFunc divide pattern d omin omax = some out) :
    OrderKept (Spec.corrected divide pattern (filterFunc pattern)) out ∧ omin ∈ out ∧
      (∀ z ∈ out, omin ≤ z) ∧ (e = .written ∨ e = .fused → FillsRange omin omax out) := by
  have hpm : pattern.map B.single.fl = pattern := by
    conv_rhs => rw [← List.map_id pattern]
    exact List.map_congr_left hp
  unfold removeDynamicFl at h
  simp only [hpm] at h
  exact C111_remove_background_partial B e divide _ _ d omin omax hk ho out h

/-- C111 (static background): the same for a static background, which, if scaled, first gets the
smallest and largest intensity of the pattern and keeps its order. -/
theorem C111_static_partial (B : BackgroundFormats K) (ebg e : Evaluation) (divide : Bool)
    (pattern bg : List K) (d : DType) (omin omax : K) (scale : Bool)
    (hk : Spec.KeepsSingle B B.rescale.sub) (ho : Spec.OutputInFormat B.rescale d omin omax)
    (hp : ∀ x ∈ pattern, B.single.fl x = x) (hb : ∀ x ∈ bg, B.single.fl x = x)
    (he : ebg = .written ∨ ebg = .fused) (hne : pattern ≠ [])
    (hka : Spec.KeepsSingle B B.rescale.add)
    (hw : B.rescale.mul.fl (listMax pattern - listMin pattern) = listMax pattern - listMin pattern)
    (out : List K)
    (h : removeStaticFl B ebg e divide pattern bg d omin omax scale = some out) :
    ∃ bg', (if scale = true then OrderKept bg bg' ∧ FillsRange (listMin pattern) (listMax pattern) bg'
        else bg' = bg) ∧
      OrderKept (Spec.corrected divide pattern bg') out ∧ omin ∈ out ∧ (∀ z ∈ out, omin ≤ z) ∧
      (e = .written ∨ e = .fused → FillsRange omin omax out) := by
  have map_self : ∀ {l : List K}, (∀ x ∈ l, B.single.fl x = x) → l.map B.single.fl = l := by
    intro l hl
    conv_rhs => rw [← List.map_id l]
    exact List.map_congr_left hl
  unfold removeStaticFl at h
  simp only [map_self hp, map_self hb] at h
  split at h
  · cases h
  next bg' hbg =>
    refine ⟨bg', ?_, C111_remove_background_partial B e divide _ _ d omin omax hk ho out h⟩
    cases scale with
    | false =>
      simp only [scaledBackgroundFl, Bool.false_eq_true, if_false, Option.some.injEq] at hbg ⊢
      exact hbg.symm
    | true =>
      unfold scaledBackgroundFl at hbg
      rw [if_pos rfl] at hbg ⊢
      split_ifs at hbg with hc
      have hF : ∀ x ∈ bg, B.rescale.sub.fl x = x := fun x hx => by
        have := hk x
        rwa [hb x hx] at this
      have hA : ∀ x ∈ pattern, B.rescale.add.fl x = x := fun x hx => by
        have := hka x
        rwa [hp x hx] at this
      -- output limits are the pattern's, without the final cast
      have h0 : bg ≠ [] := by
        rintro rfl
        exact hc rfl
      have hlt : listMin bg < listMax bg := lt_of_le_of_ne (listMin_le _ (listMax_mem h0)) hc
      have h1 := hF _ (listMin_mem h0)
      have h2 := hF _ (listMax_mem h0)
      have hmono := rescalePixelFl_mono B.rescale ebg h1 h2 hlt
        (listMin_le _ (listMax_mem hne) : listMin pattern ≤ listMax pattern)
      have hmin := rescalePixelFl_min B.rescale ebg (imin := listMin bg) (imax := listMax bg)
        (omax := listMax pattern) (hA _ (listMin_mem hne))
      have hmax := rescalePixelFl_max B.rescale ebg he h1 h2 hlt (hA _ (listMax_mem hne)) hw
      rw [← Option.some.inj hbg]
      refine ⟨orderKept_map hmono, List.mem_map.2 ⟨_, listMin_mem h0, hmin⟩,
        List.mem_map.2 ⟨_, listMax_mem h0, hmax⟩, ?_⟩
      intro z hz
      obtain ⟨w, hw', rfl⟩ := List.mem_map.1 hz
      have a := hmono (listMin_le w hw')
      have b := hmono (le_listMax w hw')
      rw [hmin] at a
      rw [hmax] at b
      exact ⟨a, b⟩

/-- C111 (subtraction of integers): for integers of at most 16 bits and a background which is not
scaled, there is a result as soon as two exact differences differ; pixels are ordered as the
differences. -/
theorem C111_subtract_integers (B : BackgroundFormats K) (ebg e : Evaluation)
    (pattern bg : List ℤ) (d : DType) (omin omax : K)
    (hk : Spec.KeepsSingle B B.rescale.sub) (ho : Spec.OutputInFormat B.rescale d omin omax)
    (hs : ∀ z : ℤ, |z| ≤ 2 ^ 24 → B.single.fl (z : K) = z)
    (hop : ∀ z : ℤ, |z| ≤ 2 ^ 24 → B.op.fl (z : K) = z)
    (hp : ∀ x ∈ pattern, |x| ≤ 2 ^ 16) (hb : ∀ x ∈ bg, |x| ≤ 2 ^ 16) {x y : ℤ}
    (hx : x ∈ List.zipWith (· - ·) pattern bg) (hy : y ∈ List.zipWith (· - ·) pattern bg) (hxy : x ≠ y) :
    ∃ out, removeStaticFl B ebg e false (pattern.map Int.cast) (bg.map Int.cast) d omin omax false =
        some out ∧
      OrderKept ((List.zipWith (· - ·) pattern bg).map Int.cast) out ∧ omin ∈ out ∧
      (∀ z ∈ out, omin ≤ z) ∧ (e = .written ∨ e = .fused → FillsRange omin omax out) := by
  have small : ∀ {l : List ℤ}, (∀ x ∈ l, |x| ≤ 2 ^ 16) →
      (l.map (Int.cast : ℤ → K)).map B.single.fl = l.map Int.cast := by
    intro l hl
    rw [List.map_map]
    exact List.map_congr_left fun z hz => hs z ((hl z hz).trans (by norm_num))
  have hcor : Spec.corrected false (pattern.map (Int.cast : ℤ → K)) (bg.map Int.cast) =
      (List.zipWith (· - ·) pattern bg).map Int.cast := by
    simp [Spec.corrected, List.zipWith_map, List.map_zipWith]
  have hd : ∀ z ∈ List.zipWith (· - ·) pattern bg, |z| ≤ 2 ^ 24 := by
    intro z hz
    rw [← List.map_uncurry_zip_eq_zipWith] at hz
    obtain ⟨⟨a, b⟩, hab, rfl⟩ := List.mem_map.1 hz
    have ha := hp a (List.of_mem_zip hab).1
    have hb' := hb b (List.of_mem_zip hab).2
    have := abs_sub a b
    simp only [Function.uncurry]
    omega
  have fx : ∀ z : ℤ, z ∈ List.zipWith (· - ·) pattern bg → B.single.fl (B.op.fl (z : K)) = z := by
    intro z hz
    rw [hop z (hd z hz), hs z (hd z hz)]
  obtain ⟨out, hout⟩ := removeBackgroundFl_isSome B e false (pattern.map (Int.cast : ℤ → K))
    (bg.map Int.cast) d omin omax (by simp) (x := (x : K)) (y := (y : K))
    (by rw [hcor]; exact List.mem_map.2 ⟨x, hx, rfl⟩) (by rw [hcor]; exact List.mem_map.2 ⟨y, hy, rfl⟩)
    (by rw [fx x hx, fx y hy]; exact_mod_cast hxy)
  refine ⟨out, ?_, ?_⟩
  · unfold removeStaticFl
    simp only [small hp, small hb, scaledBackgroundFl, Bool.false_eq_true, if_false]
    exact hout
  · rw [← hcor]
    exact C111_remove_background_partial B e false _ _ d omin omax hk ho out hout

/-- Different fractions of integers up to 255 differ by more than rounding, for `u ≤ 2⁻²⁰`. -/
theorem fractions_differ {a b a' b' : ℤ} {u : K} (hu : u ≤ 1 / 2 ^ 20) (hu0 : 0 ≤ u)
    (ha : 0 ≤ a) (hb : 0 < b) (ha' : a' ≤ 255) (hb' : 0 < b') (h255 : b ≤ 255)
    (hlt : (a : K) / b < a' / b') :
    (1 + u) * (1 + u) * ((a : K) / b) < (1 - u) * (1 - u) * (a' / b') := by
  have hbK : (0 : K) < b := by exact_mod_cast hb
  have hbK' : (0 : K) < b' := by exact_mod_cast hb'
  have haK : (0 : K) ≤ a := by exact_mod_cast ha
  rw [div_lt_div_iff₀ hbK hbK'] at hlt
  have hi : a * b' + 1 ≤ a' * b := by
    have : a * b' < a' * b := by exact_mod_cast hlt
    omega
  have hiK : (a : K) * b' + 1 ≤ a' * b := by exact_mod_cast hi
  have hmax : (a' : K) * b ≤ 255 * 255 := by
    have h1 : (a' : K) ≤ 255 := by exact_mod_cast ha'
    have h2 : (b : K) ≤ 255 := by exact_mod_cast h255
    calc (a' : K) * b ≤ 255 * b := mul_le_mul_of_nonneg_right h1 hbK.le
      _ ≤ 255 * 255 := mul_le_mul_of_nonneg_left h2 (by norm_num)
  have hu' : u ≤ 1 / 1048576 := by
    have : (2 : K) ^ 20 = 1048576 := by norm_num
    rwa [this] at hu
  rw [← mul_div_assoc, ← mul_div_assoc, div_lt_div_iff₀ hbK hbK']
  have hm0 : 0 ≤ (a : K) * b' := mul_nonneg haK hbK'.le
  have key : (1 + u) * (1 + u) * (a * b') < (1 - u) * (1 - u) * ((a' : K) * b) := by
    set m := (a : K) * b'
    set n := (a' : K) * b
    have hn : m ≤ n - 1 := by linarith
    have h1 : (1 + u) * (1 + u) * m ≤ (1 + u) * (1 + u) * (n - 1) :=
      mul_le_mul_of_nonneg_left hn (by positivity)
    have h2 : u * n ≤ 65025 / 1048576 := by
      calc u * n ≤ 1 / 1048576 * n := mul_le_mul_of_nonneg_right hu' (by linarith)
        _ ≤ 1 / 1048576 * (255 * 255) := mul_le_mul_of_nonneg_left hmax (by norm_num)
        _ = 65025 / 1048576 := by norm_num
    have e : (1 - u) * (1 - u) * n - (1 + u) * (1 + u) * (n - 1) = (1 + u) * (1 + u) - 4 * (u * n) := by
      ring
    have h3 : 1 ≤ (1 + u) * (1 + u) := by nlinarith
    have h4 : (0 : K) < 1 - 4 * (65025 / 1048576) := by norm_num
    linarith
  calc (1 + u) * (1 + u) * a * b' = (1 + u) * (1 + u) * (a * b') := by ring
    _ < (1 - u) * (1 - u) * ((a' : K) * b) := key
    _ = (1 - u) * (1 - u) * a' * b := by ring

/-- C111 (division, 8 bits): for patterns of 8 bits and a background which is nowhere zero and not
scaled, there is a result as soon as two exact quotients differ; pixels are ordered as the
quotients. -/
theorem C111_divide_eight_bits (B : BackgroundFormats K) (ebg e : Evaluation)
    (pattern bg : List ℤ) (d : DType) (omin omax : K)
    (hk : Spec.KeepsSingle B B.rescale.sub) (ho : Spec.OutputInFormat B.rescale d omin omax)
    (hs : ∀ z : ℤ, |z| ≤ 2 ^ 24 → B.single.fl (z : K) = z)
    {u : K} (hu0 : 0 ≤ u) (hu : u ≤ 1 / 2 ^ 20)
    (has : Spec.Accurate B.single u (1 / 1000)) (hao : Spec.Accurate B.op u (1 / 1000))
    (hp : ∀ x ∈ pattern, 0 ≤ x ∧ x ≤ 255) (hb : ∀ x ∈ bg, 0 < x ∧ x ≤ 255) {x y : K}
    (hx : x ∈ Spec.corrected true (pattern.map (Int.cast : ℤ → K)) (bg.map Int.cast))
    (hy : y ∈ Spec.corrected true (pattern.map (Int.cast : ℤ → K)) (bg.map Int.cast)) (hxy : x ≠ y) :
    ∃ out, removeStaticFl B ebg e true (pattern.map Int.cast) (bg.map Int.cast) d omin omax false =
        some out ∧
      OrderKept (Spec.corrected true (pattern.map (Int.cast : ℤ → K)) (bg.map Int.cast)) out ∧
      omin ∈ out ∧ (∀ z ∈ out, omin ≤ z) ∧ (e = .written ∨ e = .fused → FillsRange omin omax out) := by
  have hu' : u ≤ 1 / 1048576 := by
    have : (2 : K) ^ 20 = 1048576 := by norm_num
    rwa [this] at hu
  have small : ∀ {l : List ℤ}, (∀ x ∈ l, 0 ≤ x ∧ x ≤ 255) →
      (l.map (Int.cast : ℤ → K)).map B.single.fl = l.map Int.cast := by
    intro l hl
    rw [List.map_map]
    refine List.map_congr_left fun z hz => hs z ?_
    have := hl z hz
    rw [abs_of_nonneg this.1]
    omega
  have form : ∀ x ∈ Spec.corrected true (pattern.map (Int.cast : ℤ → K)) (bg.map Int.cast),
      ∃ a b : ℤ, 0 ≤ a ∧ a ≤ 255 ∧ 0 < b ∧ b ≤ 255 ∧ x = a / b := by
    intro x hx
    simp only [Spec.corrected, if_true, List.zipWith_map] at hx
    rw [← List.map_uncurry_zip_eq_zipWith] at hx
    obtain ⟨⟨a, b⟩, hab, rfl⟩ := List.mem_map.1 hx
    have ha := hp a (List.of_mem_zip hab).1
    have hb' := hb b (List.of_mem_zip hab).2
    exact ⟨a, b, ha.1, ha.2, hb'.1, hb'.2, rfl⟩
  -- rounding of a positive quotient
  have near : ∀ q : K, 1 / 255 ≤ q → (1 - u) * (1 - u) * q ≤ B.single.fl (B.op.fl q) ∧
      B.single.fl (B.op.fl q) ≤ (1 + u) * (1 + u) * q := by
    intro q hq
    have hq0 : (0 : K) < q := lt_of_lt_of_le (by norm_num) hq
    obtain ⟨l1, b1⟩ := hao.bounds (x := q) (le_trans (by norm_num) hq)
    have h2 : (1 : K) / 1000 ≤ B.op.fl q := by
      have : (1 - u) * (1 / 255) ≤ (1 - u) * q := mul_le_mul_of_nonneg_left hq (by linarith)
      linarith
    obtain ⟨l2, b2⟩ := has.step hu0 (by linarith) l1 b1 h2
    exact ⟨by linarith, by linarith⟩
  have sep : ∀ x ∈ Spec.corrected true (pattern.map (Int.cast : ℤ → K)) (bg.map Int.cast),
      ∀ y ∈ Spec.corrected true (pattern.map (Int.cast : ℤ → K)) (bg.map Int.cast), x < y →
      B.single.fl (B.op.fl x) ≠ B.single.fl (B.op.fl y) := by
    intro x hx y hy hlt
    obtain ⟨a, b, ha, ha5, hb, hb5, rfl⟩ := form x hx
    obtain ⟨a', b', ha', ha5', hb', hb5', rfl⟩ := form y hy
    have lower : ∀ {a b : ℤ}, 1 ≤ a → 0 < b → b ≤ 255 → (1 : K) / 255 ≤ a / b := by
      intro a b h1 h2 h3
      rw [div_le_div_iff₀ (by norm_num) (by exact_mod_cast h2)]
      have : (b : ℤ) ≤ a * 255 := by nlinarith
      have : (b : K) ≤ a * 255 := by exact_mod_cast this
      linarith
    have hbK : (0 : K) < b := by exact_mod_cast hb
    have hbK' : (0 : K) < b' := by exact_mod_cast hb'
    have ha1 : 1 ≤ a' := by
      by_contra hcon
      have : a' = 0 := by omega
      subst this
      have : (0 : K) ≤ (a : K) / b := div_nonneg (by exact_mod_cast ha) hbK.le
      simp only [Int.cast_zero, zero_div] at hlt
      exact absurd hlt (not_lt.2 this)
    have hy1 := (near _ (lower ha1 hb' hb5')).1
    have hfr := fractions_differ hu hu0 ha hb ha5' hb' hb5 hlt
    rcases eq_or_lt_of_le ha with h | h
    · rw [← h]
      simp only [Int.cast_zero, zero_div, B.op.zero, B.single.zero]
      rw [← h] at hfr
      simp only [Int.cast_zero, zero_div, mul_zero] at hfr
      exact (lt_of_lt_of_le hfr hy1).ne
    · have hx1 := (near _ (lower h hb hb5)).2
      exact (lt_of_le_of_lt hx1 (lt_of_lt_of_le hfr hy1)).ne
  have hdiff : B.single.fl (B.op.fl x) ≠ B.single.fl (B.op.fl y) := by
    rcases lt_or_gt_of_ne hxy with h | h
    · exact sep x hx y hy h
    · exact (sep y hy x hx h).symm
  obtain ⟨out, hout⟩ := removeBackgroundFl_isSome B e true (pattern.map (Int.cast : ℤ → K))
    (bg.map Int.cast) d omin omax (by
      intro _ hmem
      obtain ⟨z, hz, hz0⟩ := List.mem_map.1 hmem
      have : z = 0 := by exact_mod_cast hz0
      have := (hb z hz).1
      omega) hx hy hdiff
  refine ⟨out, ?_, C111_remove_background_partial B e true _ _ d omin omax hk ho out hout⟩
  unfold removeStaticFl
  simp only [small hp, small (fun z hz => ⟨(hb z hz).1.le, (hb z hz).2⟩), scaledBackgroundFl,
    Bool.false_eq_true, if_false]
  exact hout

end

/-! ### Formats of the machine -/

/-- Rounding to 32-bit numbers. -/
def single32 : Rounding ℚ := .binary 24 (-149) (by norm_num) (by norm_num)

/-- 32-bit patterns and backgrounds, rescaling with results in some format. -/
def backgroundFormats (w : Rounding ℚ) : BackgroundFormats ℚ where
  single := single32
  op := single32
  rescale := { sub := w, div := w, mul := w, add := w, out := single32 }

theorem single_int {z : ℤ} (h : |z| ≤ 2 ^ 24) : single32.fl (z : ℚ) = z := by
  have := binaryRound_format (K := ℚ) (p := 24) (emin := -149) (m := z) (j := 0) (by norm_num)
    (by norm_num) (by
      simp only [zpow_zero, mul_one, zero_add]
      exact_mod_cast h)
  simpa [single32, Rounding.binary] using this

theorem single_accurate : Spec.Accurate single32 (1 / 2 ^ 24) (1 / 1000) := by
  intro x hx
  have hx0 : 0 < x := lt_of_lt_of_le (by norm_num) hx
  have := binaryRound_error (K := ℚ) 24 (-149) (x := x) (by
    rw [abs_of_pos hx0]
    refine le_trans ?_ hx
    norm_num)
  rw [abs_of_pos hx0] at this
  refine this.trans (le_of_eq ?_)
  rw [zpow_neg, one_div]
  rfl

/-- 64-bit results in rescaling keep 32-bit numbers. -/
theorem double_keeps_single :
    Spec.KeepsSingle (backgroundFormats (.binary 53 (-1074) (by norm_num) (by norm_num)))
      (.binary 53 (-1074) (by norm_num) (by norm_num)) := by
  intro x
  obtain ⟨m, j, hj, hle, hm⟩ := binaryRound_multiple (K := ℚ) 24 (-149) x
  change binaryRound 53 (-1074) (binaryRound 24 (-149) x) = binaryRound 24 (-149) x
  rw [hm]
  refine binaryRound_format (by norm_num) (by omega) ?_
  exact hle.trans (zpow_le_zpow_right₀ (by norm_num) (by push_cast; omega))

theorem eight_bits_limits :
    Spec.OutputInFormat (backgroundFormats (.binary 53 (-1074) (by norm_num) (by norm_num))).rescale
      (.uint 8) 0 255 := by
  have h255 : binaryRound 53 (-1074) (255 : ℚ) = 255 := by simpa using double_nat 255 (by norm_num)
  refine ⟨by norm_num, Rounding.zero _, h255, ?_, by simp [castFl, truncate], by simp [castFl, truncate]⟩
  rw [sub_zero]
  exact h255

/-- The hypotheses are met by patterns of 8 bits, subtracting a background, -/
example (ebg e : Evaluation) : ∃ out,
    removeStaticFl (backgroundFormats (.binary 53 (-1074) (by norm_num) (by norm_num))) ebg e false
      [200, 30, 77] [100, 20, 20] (.uint 8) 0 255 false = some out ∧
      OrderKept [100, 10, 57] out := by
  obtain ⟨out, h, ho, _⟩ := C111_subtract_integers
    (backgroundFormats (.binary 53 (-1074) (by norm_num) (by norm_num))) ebg e [200, 30, 77] [100, 20, 20]
    (.uint 8) 0 255 double_keeps_single eight_bits_limits (fun z hz => single_int hz)
    (fun z hz => single_int hz) (by decide) (by decide) (x := 100) (y := 10) (by decide) (by decide)
    (by decide)
  refine ⟨out, by simpa using h, by simpa using ho⟩

/-- or dividing by it. -/
example (ebg e : Evaluation) : ∃ out,
    removeStaticFl (backgroundFormats (.binary 53 (-1074) (by norm_num) (by norm_num))) ebg e true
      [200, 30, 77] [100, 20, 20] (.uint 8) 0 255 false = some out ∧
      OrderKept [2, 3 / 2, 77 / 20] out := by
  obtain ⟨out, h, ho, _⟩ := C111_divide_eight_bits
    (backgroundFormats (.binary 53 (-1074) (by norm_num) (by norm_num))) ebg e [200, 30, 77] [100, 20, 20]
    (.uint 8) 0 255 double_keeps_single eight_bits_limits (fun z hz => single_int hz)
    (u := 1 / 2 ^ 24) (by norm_num) (by norm_num) single_accurate single_accurate
    (by decide) (by decide) (x := 2) (y := 3 / 2) (by norm_num [Spec.corrected])
    (by norm_num [Spec.corrected]) (by norm_num)
  refine ⟨out, by simpa using h, ?_⟩
  norm_num [Spec.corrected] at ho
  exact ho

/-- A scaled background: all hypotheses, and that there is a result, with values. -/
example : let B := backgroundFormats (.binary 53 (-1074) (by norm_num) (by norm_num))
    Spec.KeepsSingle B B.rescale.add ∧ (∀ x ∈ [(10 : ℚ), 20, 30], B.single.fl x = x) ∧
    B.rescale.mul.fl (listMax [(10 : ℚ), 20, 30] - listMin [(10 : ℚ), 20, 30]) =
      listMax [(10 : ℚ), 20, 30] - listMin [(10 : ℚ), 20, 30] ∧
    removeStaticFl B .written .written false [10, 20, 30] [1, 1, 3] (.uint 8) 0 255 true =
      some [0, 255, 0] := by
  have hs : ∀ z : ℤ, |z| ≤ 2 ^ 24 → binaryRound 24 (-149) (z : ℚ) = z := fun z hz => single_int hz
  have d1 := double_nat 1 (by norm_num)
  have d2 := double_nat 2 (by norm_num)
  have d0 := double_nat 0 (by norm_num)
  have d10 := double_nat 10 (by norm_num)
  have d20 := double_nat 20 (by norm_num)
  have d30 := double_nat 30 (by norm_num)
  have d255 := double_nat 255 (by norm_num)
  have s0 := hs 0 (by norm_num)
  have s1 := hs 1 (by norm_num)
  have s3 := hs 3 (by norm_num)
  have s10 := hs 10 (by norm_num)
  have s20 := hs 20 (by norm_num)
  have s30 := hs 30 (by norm_num)
  norm_num at d1 d2 d0 d10 d20 d30 d255 s0 s1 s3 s10 s20 s30
  have t0 : truncate (0 : ℚ) = 0 := by exact_mod_cast truncate_int (K := ℚ) 0
  have t255 : truncate (255 : ℚ) = 255 := by exact_mod_cast truncate_int (K := ℚ) 255
  refine ⟨double_keeps_single, ?_, ?_, ?_⟩
  · intro x hx
    simp only [List.mem_cons, List.not_mem_nil, or_false] at hx
    rcases hx with rfl | rfl | rfl
    · exact s10
    · exact s20
    · exact s30
  · norm_num [listMax, listMin, backgroundFormats, Rounding.binary, d20]
  · norm_num [removeStaticFl, scaledBackgroundFl, removeBackgroundFl, correctPixelFl, listMax, listMin,
      backgroundFormats, single32, Rounding.binary, rescalePixelFl, castFl, d1, d2, d0, d10, d20, d30, d255,
      s0, s1, s3, s10, s20, s30, t0, t255]

/-! ### Violations -/

/-- C111 (violation): a background with a pixel of zero gives no pattern in a division, whatever the
patterns. -/
theorem C111_zero_background_violated {K : Type} [Field K] [LinearOrder K] [FloorRing K]
    (B : BackgroundFormats K) (ebg e : Evaluation) (pattern bg : List K) (d : DType) (omin omax : K)
    (h : 0 ∈ bg) : removeStaticFl B ebg e true pattern bg d omin omax false = none := by
  have h' : 0 ∈ bg.map B.single.fl := List.mem_map.2 ⟨0, h, B.single.zero⟩
  unfold removeStaticFl
  simp only [scaledBackgroundFl, Bool.false_eq_true, if_false]
  unfold removeBackgroundFl
  simp only [h', and_self, if_true]

/-- C111 (violation, 16 bits): two pixels with different quotients of pixel and background become the
same, and the result is not a pattern. -/
theorem C111_divide_violated (w : Rounding ℚ) (ebg e : Evaluation) :
    (65534 / 65535 : ℚ) ≠ 65533 / 65534 ∧
    removeStaticFl (backgroundFormats w) ebg e true [65534, 65533] [65535, 65534] (.uint 16) 0 65535 false =
      none := by
  have hs : ∀ z : ℤ, |z| ≤ 2 ^ 24 → binaryRound 24 (-149) (z : ℚ) = z := fun z hz => single_int hz
  have a := hs 65533 (by norm_num)
  have b := hs 65534 (by norm_num)
  have c := hs 65535 (by norm_num)
  norm_num at a b c
  have r1 : binaryRound 24 (-149) (65534 / 65535 : ℚ) = 16776960 / 2 ^ 24 := by
    rw [binaryRound_eq (e := -1) 16776960 (by norm_num) (by norm_num) (by norm_num)
      (by norm_num [abs_lt])]
    norm_num
  have r2 : binaryRound 24 (-149) (65533 / 65534 : ℚ) = 16776960 / 2 ^ 24 := by
    rw [binaryRound_eq (e := -1) 16776960 (by norm_num) (by norm_num) (by norm_num)
      (by norm_num [abs_lt])]
    norm_num
  refine ⟨by norm_num, ?_⟩
  simp [removeStaticFl, scaledBackgroundFl, removeBackgroundFl, correctPixelFl, listMax, listMin,
    backgroundFormats, single32, Rounding.binary, a, b, c, r1, r2]

/-- C111 (violation, 32 bits): a pattern of 32-bit integers loses its contrast in the conversion to
32-bit floating point numbers. -/
theorem C111_convert_violated (w : Rounding ℚ) (ebg e : Evaluation) :
    removeStaticFl (backgroundFormats w) ebg e false [2 ^ 26, 2 ^ 26 + 1] [0, 0] (.uint 32) 0 (2 ^ 32 - 1)
      false = none := by
  have r1 : binaryRound 24 (-149) (67108864 : ℚ) = 67108864 := by
    rw [binaryRound_eq (e := 26) 8388608 (by norm_num) (by norm_num) (by norm_num)
      (by norm_num [abs_lt])]
    norm_num
  have r2 : binaryRound 24 (-149) (67108865 : ℚ) = 67108864 := by
    rw [binaryRound_eq (e := 26) 8388608 (by norm_num) (by norm_num) (by norm_num)
      (by norm_num [abs_lt])]
    norm_num
  have r0 : binaryRound 24 (-149) (0 : ℚ) = 0 := single32.zero
  norm_num [removeStaticFl, scaledBackgroundFl, removeBackgroundFl, correctPixelFl, listMax, listMin,
    backgroundFormats, single32, Rounding.binary, r0, r1, r2]

/-- C111 (violation, 32 bits): if rescaling is done in 32-bit floating point, the brightest pixel of a
pattern of 32-bit integers gets an intensity outside the range of these integers. -/
theorem C111_range_violated :
    removeStaticFl (backgroundFormats single32) .written .written false [0, 5] [0, 0] (.uint 32) 0
      (2 ^ 32 - 1) false = some [0, 2 ^ 32] := by
  have r0 : binaryRound 24 (-149) (0 : ℚ) = 0 := single32.zero
  have r1 : binaryRound 24 (-149) (1 : ℚ) = 1 := single32.one
  have r5 := single_int (z := 5) (by norm_num)
  norm_num [single32, Rounding.binary] at r5
  have big : binaryRound 24 (-149) (4294967295 : ℚ) = 4294967296 := by
    rw [binaryRound_eq (e := 31) 16777216 (by norm_num) (by norm_num) (by norm_num)
      (by norm_num [abs_lt])]
    norm_num
  have big' : binaryRound 24 (-149) (4294967296 : ℚ) = 4294967296 := by
    rw [binaryRound_eq (e := 32) 8388608 (by norm_num) (by norm_num) (by norm_num)
      (by norm_num [abs_lt])]
    norm_num
  have t0 : truncate (0 : ℚ) = 0 := by exact_mod_cast truncate_int (K := ℚ) 0
  have t1 : truncate (4294967296 : ℚ) = 4294967296 := by exact_mod_cast truncate_int (K := ℚ) 4294967296
  norm_num [removeStaticFl, scaledBackgroundFl, removeBackgroundFl, correctPixelFl, listMax, listMin,
    backgroundFormats, single32, Rounding.binary, rescalePixelFl, castFl, r0, r1, r5, big, big', t0, t1]

end Kp
