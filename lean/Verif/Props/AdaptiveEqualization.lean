import Verif.Model.AdaptiveEqualization
import Verif.Props.Rescale
import Verif.Props.DynamicBackground
import Mathlib.Order.Bounds.Basic

/-!
C99: local contrast enhancement of patterns.
-/

set_option linter.unusedSectionVars false

namespace Kp

section
variable {K : Type} [Field K] [LinearOrder K] [IsStrictOrderedRing K] [FloorRing K]

/-- `out` is `ref` stretched linearly to the range from `lo` to `hi`, and stored as the data
type. -/
def Spec.Stretched (d : DType) (lo hi : K) (ref out : List K) : Prop :=
  ∀ mn mx : K, IsLeast {x | x ∈ ref} mn → IsGreatest {x | x ∈ ref} mx → mn < mx →
    out = ref.map fun x => castTo d (lo + (x - mn) / (mx - mn) * (hi - lo))

/-- The regions documented: a number for both sizes, or (rows, columns), by default a quarter of the
height and of the width. -/
def Spec.region (rows cols : ℕ) : KernelArg → Option (ℤ × ℤ)
  | .none => some (rows / 4, cols / 4)
  | .number k => some (pyInt k, pyInt k)
  | .seq [a, b] => some (pyInt a, pyInt b)
  | .seq _ => none

theorem eq_listMin {l : List K} {m : K} (h : IsLeast {x | x ∈ l} m) : listMin l = m := by
  obtain ⟨h1, h2⟩ := h
  have h3 := listMin_le (l := l) m h1
  have h4 : listMin l ∈ l := listMin_mem (List.ne_nil_of_mem h1)
  exact le_antisymm h3 (h2 h4)

theorem eq_listMax {l : List K} {m : K} (h : IsGreatest {x | x ∈ l} m) : listMax l = m := by
  obtain ⟨h1, h2⟩ := h
  have h3 := le_listMax (l := l) m h1
  have h4 : listMax l ∈ l := listMax_mem (List.ne_nil_of_mem h1)
  exact le_antisymm (h2 h4) h3

/-- C99 (partial: the default region only for square patterns, see `C99_default_region_violated`,
and patterns of at least four rows, see `C99_small_patterns_violated`): every pattern of the result is the equalized pattern, with the given
region of rows and columns, stretched over the whole range of the data type. Each depends on
itself only, and the signal is otherwise kept. -/
theorem C99_equalized_partial (e : Equalizer K) (s : GraySignal K) (kernel : KernelArg) (k : ℤ × ℤ)
    (hk : Spec.region s.rows s.cols kernel = some k) (hk1 : k.1 ≠ 0) (hk2 : k.2 ≠ 0)
    (hdef : kernel = .none → s.rows = s.cols) (clipLimit : K) (nbins : ℕ) (inplace : Bool)
    (lazyOutput : Option Bool) (hl : lazyOutput = some true → inplace = false) (lo hi : ℤ)
    (hr : dtypeRange s.dtype = some (lo, hi)) (hlo : lo ≤ hi) :
    ∃ out, signalEqualize e s kernel clipLimit nbins inplace lazyOutput = .ok out ∧
      out.dtype = s.dtype ∧ out.rows = s.rows ∧ out.cols = s.cols ∧
      out.lazy = (if inplace then s.lazy else lazyOutput.getD s.lazy) ∧
      out.patterns.length = s.patterns.length ∧
      ∀ (i : ℕ) (p : List K), s.patterns[i]? = some p → ∃ q, out.patterns[i]? = some q ∧
        OrderKept (e s.rows s.cols p k clipLimit nbins) q ∧
        Spec.Stretched s.dtype (lo : K) hi (e s.rows s.cols p k clipLimit nbins) q ∧
        ∀ x ∈ e s.rows s.cols p k clipLimit nbins, ∀ y ∈ e s.rows s.cols p k clipLimit nbins,
          x ≠ y → FillsRange (lo : K) hi q := by
  have hreg : contextualRegion s.rows s.cols kernel = .ok k := by
    cases kernel with
    | none =>
      simp only [Spec.region, Option.some.injEq] at hk
      subst hk
      simp only [contextualRegion, hdef rfl]
      rfl
    | number q =>
      simp only [Spec.region, Option.some.injEq] at hk
      rw [contextualRegion, hk]
    | seq l =>
      match l with
      | [a, b] =>
        simp only [Spec.region, Option.some.injEq] at hk
        rw [contextualRegion, hk]
      | [] => simp [Spec.region] at hk
      | [_] => simp [Spec.region] at hk
      | _ :: _ :: _ :: _ => simp [Spec.region] at hk
  have key : ∀ p ∈ s.patterns, ∃ q,
      adaptiveEqualization e s.dtype s.rows s.cols p k clipLimit nbins = .ok q ∧
        (OrderKept (e s.rows s.cols p k clipLimit nbins) q ∧
        Spec.Stretched s.dtype (lo : K) hi (e s.rows s.cols p k clipLimit nbins) q ∧
        ∀ x ∈ e s.rows s.cols p k clipLimit nbins, ∀ y ∈ e s.rows s.cols p k clipLimit nbins,
          x ≠ y → FillsRange (lo : K) hi q) := by
    intro p _
    set w := e s.rows s.cols p k clipLimit nbins with hw
    have he : adaptiveEqualization e s.dtype s.rows s.cols p k clipLimit nbins =
        .ok ((rescaleWithMinMax w (listMin w) (listMax w) lo hi).map (castTo s.dtype)) := by
      unfold adaptiveEqualization equalizeAdapthist
      rw [if_neg (by tauto)]
      show rescaleIntensity w s.dtype none none (some s.dtype) none = _
      simp [rescaleIntensity, hr]
    refine ⟨_, he, ?_, ?_, ?_⟩
    · by_cases hc : ∃ x ∈ w, ∃ y ∈ w, x ≠ y
      · obtain ⟨x, hx, y, hy, hxy⟩ := hc
        have := C11_rescale_dtype_range w s.dtype (some s.dtype) x y hx hy hxy
        simp only [Option.getD_some, hr] at this
        obtain ⟨out, h1, -, h3⟩ := this hlo
        have h4 : rescaleIntensity w s.dtype none none (some s.dtype) none =
          .ok ((rescaleWithMinMax w (listMin w) (listMax w) lo hi).map (castTo s.dtype)) := by
          simp [rescaleIntensity, hr]
        rw [h4, Except.ok.injEq] at h1
        rw [h1]
        exact h3
      · push Not at hc
        refine ⟨by simp [rescaleWithMinMax], ?_⟩
        intro i j x y x' y' hx hy hx' hy' _
        have hxy := hc x (List.mem_of_getElem? hx) y (List.mem_of_getElem? hy)
        subst hxy
        simp only [rescaleWithMinMax, List.map_map, List.getElem?_map, hx, hy, Option.map_some,
          Option.some.injEq] at hx' hy'
        rw [← hx', ← hy']
    · intro mn mx hmn hmx _
      rw [rescaleWithMinMax, List.map_map, eq_listMin hmn, eq_listMax hmx]
      apply List.map_congr_left
      intro x _
      simp only [Function.comp, rescalePixel]
      rw [add_comm]
    · intro x hx y hy hxy
      have := C11_rescale_dtype_range w s.dtype (some s.dtype) x y hx hy hxy
      simp only [Option.getD_some, hr] at this
      obtain ⟨out, h1, h2, -⟩ := this hlo
      have h4 : rescaleIntensity w s.dtype none none (some s.dtype) none =
        .ok ((rescaleWithMinMax w (listMin w) (listMax w) lo hi).map (castTo s.dtype)) := by
        simp [rescaleIntensity, hr]
      rw [h4, Except.ok.injEq] at h1
      rw [h1]
      exact h2
  obtain ⟨bs, hb, hlen, hget⟩ := mapM_ok_of key
  refine ⟨{ s with
    patterns := bs
    nan := false
    lazy := if inplace then s.lazy else lazyOutput.getD s.lazy }, ?_, rfl, rfl, rfl, rfl, hlen,
    hget⟩
  unfold signalEqualize
  rw [if_neg (by rintro ⟨h1, h2⟩; rw [hl h1] at h2; exact Bool.noConfusion h2), hreg]
  simp only [hb]

/-- Two patterns of 2 x 2 pixels, an equalizer giving other values than the pattern's, and regions of
one row and two columns. -/
example : Spec.region 2 2 (.seq [1, 5 / 2]) = some (1, 2) ∧
    (signalEqualize (K := ℚ) (fun _ _ p k _ _ => p.map fun x => k.2 * x) ⟨.uint 8, false, false, 2, 2,
      [[1, 2, 3, 4], [0, 0, 0, 1]]⟩ (.seq [1, 5 / 2]) 0 128 true none).toOption.map
        GraySignal.patterns = some [[0, 85, 170, 255], [0, 0, 0, 255]] := by
  decide +kernel

/-- C99 is false of the default: regions of patterns which are not square have a quarter of the
width as their height and a quarter of the height as their width, whatever the equalizer. -/
theorem C99_default_region_violated (e : Equalizer K) (d : DType) (lazy nan inplace : Bool)
    (lazyOutput : Option Bool) (ps : List (List K)) (clipLimit : K) (nbins : ℕ) :
    Spec.region 8 40 .none = some (2, 10) ∧
    signalEqualize e ⟨d, lazy, nan, 8, 40, ps⟩ .none clipLimit nbins inplace lazyOutput =
      signalEqualize e ⟨d, lazy, nan, 8, 40, ps⟩ (.seq [10, 2]) clipLimit nbins inplace
        lazyOutput := by
  refine ⟨by decide, ?_⟩
  unfold signalEqualize
  have : contextualRegion 8 40 .none = contextualRegion 8 40 (.seq [10, 2]) := by
    have h1 : pyInt 10 = 10 := by decide +kernel
    have h2 : pyInt 2 = 2 := by decide +kernel
    simp only [contextualRegion, h1, h2]
    rfl
  simp only [this]

/-- ... and there are equalizers, for which this matters: the pattern returned is another one. -/
example : (signalEqualize (K := ℚ) (fun _ _ p k _ _ => p.zipIdx.map fun x => if x.2 < k.1 then 0
    else 1) ⟨.uint 8, false, false, 8, 40, [List.replicate 320 1]⟩ .none 0 128 true none).toOption.map
      GraySignal.patterns ≠
    (signalEqualize (K := ℚ) (fun _ _ p k _ _ => p.zipIdx.map fun x => if x.2 < k.1 then 0
    else 1) ⟨.uint 8, false, false, 8, 40, [List.replicate 320 1]⟩ (.seq [2, 10]) 0 128 true
      none).toOption.map GraySignal.patterns := by
  decide +kernel

/-- C99 is false of small patterns: with the default region, patterns of less than four rows or
columns are an error. -/
theorem C99_small_patterns_violated (e : Equalizer K) (s : GraySignal K)
    (hsmall : s.rows < 4 ∨ s.cols < 4) (hp : s.patterns ≠ []) (clipLimit : K) (nbins : ℕ)
    (inplace : Bool) (lazyOutput : Option Bool)
    (hl : lazyOutput = some true → inplace = false) :
    signalEqualize e s .none clipLimit nbins inplace lazyOutput = .error .zeroDivision := by
  unfold signalEqualize
  rw [if_neg (by rintro ⟨h1, h2⟩; rw [hl h1] at h2; exact Bool.noConfusion h2)]
  simp only [contextualRegion]
  obtain ⟨p, ps, h⟩ := List.exists_cons_of_ne_nil hp
  rw [h, List.mapM_cons]
  have : adaptiveEqualization e s.dtype s.rows s.cols p
      (((s.cols / 4 : ℕ) : ℤ), ((s.rows / 4 : ℕ) : ℤ)) clipLimit nbins = .error .zeroDivision := by
    unfold adaptiveEqualization equalizeAdapthist
    rw [if_pos]
    · rfl
    · simp only [Nat.cast_eq_zero]
      omega
  rw [this]
  rfl

/-- C99: what is refused: `lazy_output` with `inplace`, regions of other than two sizes, and data
types without a range. -/
theorem C99_refused (e : Equalizer K) (s : GraySignal K) (kernel : KernelArg) (clipLimit : K)
    (nbins : ℕ) (inplace : Bool) (lazyOutput : Option Bool) :
    (lazyOutput = some true → inplace = true →
      signalEqualize e s kernel clipLimit nbins inplace lazyOutput = .error .valueError) ∧
    (∀ l, kernel = .seq l → l.length ≠ 2 →
      signalEqualize e s kernel clipLimit nbins inplace lazyOutput = .error .valueError) ∧
    (dtypeRange s.dtype = none → s.patterns ≠ [] →
      ∃ err, signalEqualize e s kernel clipLimit nbins inplace lazyOutput = .error err) := by
  refine ⟨?_, ?_, ?_⟩
  · intro h1 h2
    unfold signalEqualize
    rw [if_pos ⟨h1, h2⟩]
  · intro l h1 h2
    unfold signalEqualize
    split
    · rfl
    · subst h1
      match l, h2 with
      | [], _ => rfl
      | [_], _ => rfl
      | [_, _], h2 => simp at h2
      | _ :: _ :: _ :: _, _ => rfl
  · intro h1 h2
    unfold signalEqualize
    split
    · exact ⟨_, rfl⟩
    · split
      · exact ⟨_, rfl⟩
      · rename_i k _
        obtain ⟨p, ps, h⟩ := List.exists_cons_of_ne_nil h2
        rw [h, List.mapM_cons]
        have : ∃ err, adaptiveEqualization e s.dtype s.rows s.cols p k clipLimit nbins =
            .error err := by
          unfold adaptiveEqualization equalizeAdapthist
          split
          · exact ⟨_, rfl⟩
          · refine ⟨.keyError, ?_⟩
            show rescaleIntensity _ s.dtype none none (some s.dtype) none = _
            simp [rescaleIntensity, h1]
        obtain ⟨err, herr⟩ := this
        rw [herr]
        exact ⟨err, rfl⟩

/-- C99: as only floating point data can have NaN, a warning is given exactly for floating point
data. -/
theorem C99_warning (s : GraySignal K) (hnan : s.nan = true → ∃ b, s.dtype = .float b) :
    equalizationWarns s = true ↔ ∃ b, s.dtype = .float b := by
  unfold equalizationWarns
  obtain ⟨d, lz, n, r, c, ps⟩ := s
  constructor
  · intro h
    by_cases h1 : (!lz && n) = true
    · exact hnan (by simp only [Bool.and_eq_true] at h1; exact h1.2)
    · simp only at h
      rw [if_neg h1] at h
      cases d with
      | float b => exact ⟨b, rfl⟩
      | _ => simp at h
  · rintro ⟨b, h⟩
    simp only at h ⊢
    subst h
    split <;> rfl

example : equalizationWarns (K := ℚ) ⟨.float 32, true, true, 2, 2, []⟩ = true ∧
    equalizationWarns (K := ℚ) ⟨.uint 8, false, false, 2, 2, []⟩ = false := by decide

end

end Kp
