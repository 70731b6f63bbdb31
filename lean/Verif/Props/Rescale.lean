import Verif.Lemmas.Rescale
import Mathlib.Algebra.Order.Ring.Rat
import Mathlib.Data.Rat.Floor

/-
C11, C13, C59: intensity rescaling and background removal.
-/

namespace Kp

section
variable {K : Type*} [Field K] [LinearOrder K] [IsStrictOrderedRing K] [FloorRing K]

/-- C11 with an input range: every pixel is mapped by one and the same function, which maps
the input range to the output range, clips, stays inside, and keeps order.  For integer
types the limits must be integers. -/
theorem C11_rescale_in_range (pattern : List K) (dtypeIn : DType) (imin imax omin omax : K)
    (dtypeOut : Option DType) (hi : imin < imax) (ho : omin ≤ omax)
    (h1 : Representable (dtypeOut.getD dtypeIn) omin)
    (h2 : Representable (dtypeOut.getD dtypeIn) omax) :
    ∃ f, RangeMap imin imax omin omax f ∧
      rescaleIntensity pattern dtypeIn (some (imin, imax)) (some (omin, omax)) dtypeOut none =
        .ok (pattern.map f) := by
  refine ⟨fun x => castTo (dtypeOut.getD dtypeIn)
    (rescalePixel imin imax omin omax (clip imin imax x)), ⟨?_, ?_, ?_, ?_⟩, ?_⟩
  · intro x hx
    have : clip imin imax x = imin := by
      unfold clip; rw [max_eq_right hx, min_eq_left hi.le]
    simp only [this, rescalePixel_min, castTo_repr h1]
  · intro x hx
    have : clip imin imax x = imax := by
      unfold clip; rw [max_eq_left (hi.le.trans hx), min_eq_right hx]
    simp only [this, rescalePixel_max hi, castTo_repr h2]
  · intro x
    have hc := clip_within hi.le x
    have hm := (castTo_mono (dtypeOut.getD dtypeIn)).comp (rescalePixel_mono hi ho)
    have l1 := hm hc.1
    have l2 := hm hc.2
    simp only [Function.comp, rescalePixel_min, rescalePixel_max hi, castTo_repr h1,
      castTo_repr h2] at l1 l2
    exact ⟨l1, l2⟩
  · exact (castTo_mono _).comp ((rescalePixel_mono hi ho).comp clip_mono)
  · simp [rescaleIntensity, rescaleWithMinMax, List.map_map, Function.comp_def]

/-- C11 for floating point output: inside the input range the map is linear. -/
theorem C11_rescale_linear (pattern : List K) (dtypeIn : DType) (imin imax omin omax : K)
    (bits : ℕ) (hi : imin < imax) (i : ℕ) (t : K) (h0 : 0 ≤ t) (h1 : t ≤ 1)
    (hx : pattern[i]? = some (imin + t * (imax - imin))) :
    ∃ out, rescaleIntensity pattern dtypeIn (some (imin, imax)) (some (omin, omax))
        (some (.float bits)) none = .ok out ∧
      out[i]? = some (omin + t * (omax - omin)) := by
  refine ⟨_, rfl, ?_⟩
  have hpos : 0 < imax - imin := sub_pos.2 hi
  have hc : clip imin imax (imin + t * (imax - imin)) = imin + t * (imax - imin) := by
    apply clip_of_within
    · have := mul_nonneg h0 hpos.le; linarith
    · have := mul_le_mul_of_nonneg_right h1 hpos.le; linarith
  simp only [rescaleWithMinMax, List.map_map, List.getElem?_map, hx, Option.map_some,
    Function.comp, hc, castTo, rescalePixel, Option.some.injEq, Option.getD_some]
  field_simp
  ring

/-- C11 without an input range: a pattern that is not constant fills the whole output
range and keeps the order of its pixels. -/
theorem C11_rescale_own_range (pattern : List K) (dtypeIn : DType) (omin omax : K)
    (dtypeOut : Option DType) (x y : K) (hx : x ∈ pattern) (hy : y ∈ pattern) (hxy : x ≠ y)
    (ho : omin ≤ omax) (h1 : Representable (dtypeOut.getD dtypeIn) omin)
    (h2 : Representable (dtypeOut.getD dtypeIn) omax) :
    ∃ out, rescaleIntensity pattern dtypeIn none (some (omin, omax)) dtypeOut none = .ok out ∧
      FillsRange omin omax out ∧ OrderKept pattern out := by
  refine ⟨_, rfl, fillsRange_of_map hx hy hxy ho h1 h2, ?_⟩
  unfold rescaleWithMinMax
  rw [List.map_map]
  exact orderKept_map ((castTo_mono _).comp
    (rescalePixel_mono (listMin_lt_listMax hx hy hxy) ho))

/-- C11 without ranges: a known data type's range is filled; an unknown one raises
`KeyError`. -/
theorem C11_rescale_dtype_range (pattern : List K) (dtypeIn : DType) (dtypeOut : Option DType)
    (x y : K) (hx : x ∈ pattern) (hy : y ∈ pattern) (hxy : x ≠ y) :
    match dtypeRange (dtypeOut.getD dtypeIn) with
    | some (lo, hi) => lo ≤ hi → ∃ out, rescaleIntensity pattern dtypeIn none none dtypeOut none =
        .ok out ∧ FillsRange (lo : K) hi out ∧ OrderKept pattern out
    | none => rescaleIntensity pattern dtypeIn none none dtypeOut none = .error .keyError := by
  cases h : dtypeRange (dtypeOut.getD dtypeIn) with
  | none => simp [rescaleIntensity, h]
  | some r =>
    obtain ⟨lo, hi⟩ := r
    intro hle
    obtain ⟨h1, h2⟩ := representable_range (K := K) h
    obtain ⟨out, ho, hf, hk⟩ := C11_rescale_own_range pattern dtypeIn (lo : K) hi dtypeOut x y hx hy
      hxy (by exact_mod_cast hle) h1 h2
    refine ⟨out, ?_, hf, hk⟩
    rw [← ho]
    simp [rescaleIntensity, h]

/-- C11 with percentiles: the output stays within the output range and keeps the order of
the pixels, with pixels outside the percentiles at the limits. -/
theorem C11_rescale_percentiles (pattern : List K) (dtypeIn : DType)
    (inRange : Option (K × K)) (q r omin omax : K) (dtypeOut : Option DType)
    (_hq : 0 ≤ q) (_hqr : q ≤ r) (_hr : r ≤ 100)
    (hne : percentile pattern q ≠ percentile pattern r) (hp : pattern ≠ [])
    (ho : omin ≤ omax) (h1 : Representable (dtypeOut.getD dtypeIn) omin)
    (h2 : Representable (dtypeOut.getD dtypeIn) omax) :
    ∃ f, RangeMap (percentile pattern q) (percentile pattern r) omin omax f ∧
      rescaleIntensity pattern dtypeIn inRange (some (omin, omax)) dtypeOut (some (q, r)) =
        .ok (pattern.map f) := by
  have hlt : percentile pattern q < percentile pattern r :=
    lt_of_le_of_ne (percentile_mono hp _hq _hqr _hr) hne
  obtain ⟨f, hf, he⟩ := C11_rescale_in_range pattern dtypeIn (percentile pattern q)
    (percentile pattern r) omin omax dtypeOut hlt ho h1 h2
  refine ⟨f, hf, ?_⟩
  rw [← he]
  simp [rescaleIntensity]

/-! C13 -/

/-- C13 for one pattern: whatever the background, if the corrected pixels are not all the
same, the result fills the output range and is ordered as pixel minus (or over) background.
-/
theorem C13_remove_background (divide : Bool) (pattern background : List K) (d : DType)
    (omin omax : K) (ho : omin ≤ omax) (h1 : Representable d omin) (h2 : Representable d omax)
    (x y : K)
    (hx : x ∈ List.zipWith (fun p b => if divide then p / b else p - b) pattern background)
    (hy : y ∈ List.zipWith (fun p b => if divide then p / b else p - b) pattern background)
    (hxy : x ≠ y) :
    FillsRange omin omax
        ((removeBackground divide pattern background omin omax).map (castTo d)) ∧
      OrderKept (List.zipWith (fun p b => if divide then p / b else p - b) pattern background)
        ((removeBackground divide pattern background omin omax).map (castTo d)) := by
  refine ⟨fillsRange_of_map hx hy hxy ho h1 h2, ?_⟩
  unfold removeBackground rescaleWithMinMax
  rw [List.map_map]
  exact orderKept_map ((castTo_mono _).comp
    (rescalePixel_mono (listMin_lt_listMax hx hy hxy) ho))

/-- C13, static background of a signal: accepted exactly if a background of the patterns'
type and shape is given as an argument or, if not, is stored with the signal. -/
theorem C13_static_background_accepted (dtype : DType) (shape : ℕ × ℕ)
    (patterns : List (List K)) (operation : String) (staticBg attr : Option (Background K))
    (scaleBg : Bool) (hd : (dtypeRange dtype).isSome) :
    ((∃ out, signalRemoveStatic dtype shape patterns operation staticBg attr scaleBg = .ok out) ↔
      ∃ bg, (staticBg = some bg ∨ (staticBg = none ∧ attr = some bg)) ∧ bg.dtype = dtype ∧
        bg.shape = shape) ∧
    ((¬ ∃ out, signalRemoveStatic dtype shape patterns operation staticBg attr scaleBg = .ok out)
      → signalRemoveStatic dtype shape patterns operation staticBg attr scaleBg =
        .error .valueError) := by
  obtain ⟨⟨omin, omax⟩, hr⟩ := Option.isSome_iff_exists.1 hd
  unfold signalRemoveStatic
  rw [hr]
  simp only
  cases staticBg with
  | some bg =>
    simp only
    by_cases ht : dtype = bg.dtype
    · by_cases hs : bg.shape = shape
      · simp [ht, hs]
      · simp [ht, hs]
    · have : ¬ bg.dtype = dtype := fun h => ht h.symm
      simp [ht, this]
  | none =>
    cases attr with
    | none => simp
    | some bg =>
      simp only
      by_cases ht : dtype = bg.dtype
      · by_cases hs : bg.shape = shape
        · simp [ht, hs]
        · simp [ht, hs]
      · have : ¬ bg.dtype = dtype := fun h => ht h.symm
        simp [ht, this]

/-- C13, static background of a signal: every pattern that is not constant after correction
fills the range of the data type. -/
theorem C13_static_background (dtype : DType) (shape : ℕ × ℕ) (patterns : List (List K))
    (operation : String) (bg : Background K) (attr : Option (Background K)) (scaleBg : Bool)
    (lo hi : ℤ) (hd : dtypeRange dtype = some (lo, hi)) (hle : lo ≤ hi)
    (out : List (List K))
    (hout : signalRemoveStatic dtype shape patterns operation (some bg) attr scaleBg = .ok out) :
    out.length = patterns.length ∧
    ∀ (i : ℕ) (p : List K), patterns[i]? = some p →
      let b := if scaleBg then rescaleWithMinMax bg.data (listMin bg.data) (listMax bg.data)
          (listMin p) (listMax p) else bg.data
      let corrected := List.zipWith (fun x b => if operation = "subtract" then x - b else x / b) p b
      (∃ x ∈ corrected, ∃ y ∈ corrected, x ≠ y) →
      ∃ q, out[i]? = some q ∧ FillsRange (lo : K) hi q ∧ OrderKept corrected q := by
  unfold signalRemoveStatic at hout
  rw [hd] at hout
  simp only at hout
  split at hout
  · exact absurd hout (by simp)
  · split at hout
    · exact absurd hout (by simp)
    · simp only [Except.ok.injEq] at hout
      subst hout
      refine ⟨by simp, ?_⟩
      intro i p hp b corrected ⟨x, hx, y, hy, hxy⟩
      refine ⟨_, by rw [List.getElem?_map, hp, Option.map_some], ?_⟩
      obtain ⟨h1, h2⟩ := representable_range (K := K) hd
      have hop : corrected =
          List.zipWith (fun p b => if (operation != "subtract") then p / b else p - b) p b := by
        by_cases ho : operation = "subtract" <;> simp [corrected, ho]
      rw [hop] at hx hy ⊢
      have hlo : (lo : K) ≤ hi := by exact_mod_cast hle
      exact C13_remove_background (operation != "subtract") p b dtype lo hi hlo h1 h2 x y
        hx hy hxy

/-- C13, dynamic background of a signal, for whatever filter. -/
theorem C13_dynamic_background (fftFilter gaussian : List K → List K) (dtype : DType)
    (patterns : List (List K)) (operation filterDomain : String)
    (lo hi : ℤ) (hd : dtypeRange dtype = some (lo, hi)) (hle : lo ≤ hi) :
    (filterDomain ≠ "frequency" → filterDomain ≠ "spatial" →
      signalRemoveDynamic fftFilter gaussian dtype patterns operation filterDomain =
        .error .valueError) ∧
    (∀ f, (filterDomain = "frequency" ∧ f = fftFilter ∨
        filterDomain = "spatial" ∧ f = gaussian) →
      ∃ out, signalRemoveDynamic fftFilter gaussian dtype patterns operation filterDomain =
          .ok out ∧ out.length = patterns.length ∧
        ∀ (i : ℕ) (p : List K), patterns[i]? = some p →
          let corrected := List.zipWith
            (fun x b => if operation = "subtract" then x - b else x / b) p (f p)
          (∃ x ∈ corrected, ∃ y ∈ corrected, x ≠ y) →
          ∃ q, out[i]? = some q ∧ FillsRange (lo : K) hi q ∧ OrderKept corrected q) := by
  constructor
  · intro h1 h2
    simp [signalRemoveDynamic, h1, h2]
  · intro f hf
    have : signalRemoveDynamic fftFilter gaussian dtype patterns operation filterDomain =
        .ok (patterns.map (fun p =>
          removeDynamic f (operation != "subtract") p dtype (lo : K) hi)) := by
      rcases hf with ⟨rfl, rfl⟩ | ⟨rfl, rfl⟩ <;> simp [signalRemoveDynamic, hd]
    refine ⟨_, this, by simp, ?_⟩
    intro i p hp corrected ⟨x, hx, y, hy, hxy⟩
    refine ⟨_, by rw [List.getElem?_map, hp, Option.map_some], ?_⟩
    obtain ⟨h1, h2⟩ := representable_range (K := K) hd
    have hop : corrected =
        List.zipWith (fun p b => if (operation != "subtract") then p / b else p - b) p (f p) := by
      by_cases ho : operation = "subtract" <;> simp [corrected, ho]
    rw [hop] at hx hy ⊢
    exact C13_remove_background (operation != "subtract") p (f p) dtype lo hi
      (by exact_mod_cast hle) h1 h2 x y hx hy hxy

/-! C59 -/

/-- C59, part.  With `relative=True` and no percentiles, all patterns are mapped by the same
order-keeping function, so intensities of different patterns stay comparable.  Missing (and
false, see below): percentiles are given too, which is not rejected. -/
theorem C59_relative_rescaling_partial (patterns : List (List K)) (dtypeIn : DType)
    (omin omax : K) (dtypeOut : Option DType) (x y : K) (hx : x ∈ patterns.flatten)
    (hy : y ∈ patterns.flatten) (hxy : x ≠ y) (ho : omin ≤ omax)
    (h1 : Representable (dtypeOut.getD dtypeIn) omin)
    (h2 : Representable (dtypeOut.getD dtypeIn) omax) :
    ∃ f : K → K, Monotone f ∧ FillsRange omin omax ((patterns.map (·.map f)).flatten) ∧
      signalRescaleIntensity patterns dtypeIn true none (some (omin, omax)) dtypeOut none =
        .ok (patterns.map (·.map f)) := by
  have hlt := listMin_lt_listMax hx hy hxy
  have hne : patterns.flatten ≠ [] := by intro h; rw [h] at hx; simp at hx
  let g : K → K := fun x => castTo (dtypeOut.getD dtypeIn) (rescalePixel
    (listMin patterns.flatten) (listMax patterns.flatten) omin omax
    (clip (listMin patterns.flatten) (listMax patterns.flatten) x))
  have hg : ∀ p, rescaleIntensity p dtypeIn
      (some (listMin patterns.flatten, listMax patterns.flatten)) (some (omin, omax))
      (some (dtypeOut.getD dtypeIn)) none = .ok (p.map g) := by
    intro p
    simp [rescaleIntensity, rescaleWithMinMax, List.map_map, Function.comp_def, g]
  obtain ⟨f, hf, -⟩ := C11_rescale_in_range ([] : List K) dtypeIn (listMin patterns.flatten)
    (listMax patterns.flatten) omin omax dtypeOut hlt ho h1 h2
  have hgm : Monotone g :=
    (castTo_mono _).comp ((rescalePixel_mono hlt ho).comp clip_mono)
  refine ⟨g, hgm, ?_, ?_⟩
  · have e : (patterns.map (·.map g)).flatten = patterns.flatten.map g := by
      rw [List.map_flatten]
    rw [e]
    have gmin : g (listMin patterns.flatten) = omin := by
      simp only [g]
      rw [clip_of_within le_rfl hlt.le, rescalePixel_min, castTo_repr h1]
    have gmax : g (listMax patterns.flatten) = omax := by
      simp only [g]
      rw [clip_of_within hlt.le le_rfl, rescalePixel_max hlt, castTo_repr h2]
    refine ⟨List.mem_map.2 ⟨_, listMin_mem hne, gmin⟩,
      List.mem_map.2 ⟨_, listMax_mem hne, gmax⟩, ?_⟩
    intro z hz
    obtain ⟨a, ha, rfl⟩ := List.mem_map.1 hz
    have l1 := hgm (listMin_le a ha)
    have l2 := hgm (le_listMax a ha)
    rw [gmin] at l1
    rw [gmax] at l2
    exact ⟨l1, l2⟩
  · have key : ∀ l : List (List K), l.mapM (fun p => rescaleIntensity p dtypeIn
        (some (listMin patterns.flatten, listMax patterns.flatten)) (some (omin, omax))
        (some (dtypeOut.getD dtypeIn)) none) = (.ok (l.map (·.map g)) : Except Err _) := by
      intro l
      induction l with
      | nil => rfl
      | cons a l ih =>
        rw [List.mapM_cons, hg, ih]
        rfl
    simp only [signalRescaleIntensity, Option.isSome_none, Bool.false_and, Bool.and_false,
      Bool.false_eq_true, if_false, if_true]
    exact key patterns

/-- C59, error branches: an input range is not accepted with `relative=True` nor with
percentiles. -/
theorem C59_conflicting_arguments_rejected (patterns : List (List K)) (dtypeIn : DType)
    (relative : Bool) (inRange outRange : Option (K × K)) (dtypeOut : Option DType)
    (percentiles : Option (K × K)) (h : inRange.isSome)
    (h2 : relative = true ∨ percentiles.isSome) :
    signalRescaleIntensity patterns dtypeIn relative inRange outRange dtypeOut percentiles =
      .error .valueError := by
  unfold signalRescaleIntensity
  rcases h2 with h2 | h2
  · by_cases h3 : percentiles.isSome <;> simp [h, h2, h3]
  · simp [h, h2]

end

/-- Negation of C59: `relative=True` with percentiles is accepted although documented as not
allowed, and then intensities of different patterns are no longer comparable: here the
second pattern is brighter everywhere, but its darkest pixel becomes darker than the first
pattern's brightest. -/
theorem C59_relative_with_percentiles_is_not_relative :
    signalRescaleIntensity (K := ℚ) [[0, 1], [2, 3]] (.float 32) true none none none
      (some (0, 100)) = .ok [[-1, 1], [-1, 1]] := by decide +kernel

/-- C13: an operation that is neither of the documented ones divides. -/
theorem C13_unknown_operation_divides {K : Type*} [Field K] [LinearOrder K] [FloorRing K]
    (dtype : DType) (shape : ℕ × ℕ) (patterns : List (List K)) (operation : String)
    (bg attr : Option (Background K)) (scaleBg : Bool) (h : operation ≠ "subtract") :
    signalRemoveStatic dtype shape patterns operation bg attr scaleBg =
      signalRemoveStatic dtype shape patterns "divide" bg attr scaleBg := by
  have h1 : (operation != "subtract") = true := by simpa using h
  have h2 : ("divide" != "subtract") = true := by decide
  simp only [signalRemoveStatic, h1, h2]

-- Concrete cases meeting the hypotheses
example : rescaleIntensity (K := ℚ) [10, 20, 35] (.uint 8) (some (10, 30)) none none none =
    .ok [0, 127, 255] := by decide +kernel
example : rescaleIntensity (K := ℚ) [10, 20, 35] (.uint 8) none none (some (.float 32)) none =
    .ok [-1, -1/5, 1] := by decide +kernel
example : rescaleIntensity (K := ℚ) [10, 20, 35] .other none none none none =
    .error .keyError := by decide +kernel
example : Representable (K := ℚ) (.uint 8) 255 := ⟨255, by norm_num⟩
example : percentile (K := ℚ) [4, 1, 3, 2, 5] 25 = 2 ∧ percentile (K := ℚ) [4, 1, 3, 2, 5] 90 = 23/5 :=
  by decide +kernel
example : signalRemoveStatic (K := ℚ) (.uint 8) (1, 3) [[10, 20, 35]] "subtract"
    (some ⟨.uint 8, (1, 3), [5, 5, 15]⟩) none false = .ok [[0, 170, 255]] := by decide +kernel
example : signalRemoveStatic (K := ℚ) (.uint 8) (1, 3) [[10, 20, 35]] "divide"
    (some ⟨.uint 8, (1, 3), [5, 5, 15]⟩) none true = .ok [[0, 255, 0]] := by decide +kernel
example : signalRemoveDynamic (K := ℚ) (fun l => l.map (fun _ => 1)) id (.float 32)
    [[10, 20, 35]] "subtract" "frequency" = .ok [[-1, -1/5, 1]] := by decide +kernel
example : signalRescaleIntensity (K := ℚ) [[0, 1], [2, 4]] (.float 32) true none none none none =
    .ok [[-1, -1/2], [0, 1]] := by decide +kernel

end Kp
