import Verif.Spec.SignalFftFilter
import Verif.Model.SignalFftFilter
import Verif.Props.Fft
import Verif.Props.FftFilter
import Verif.Props.GainOffset
import Verif.Props.PartOfMap

/-
C125: what the patterns of a signal are after filtering in the frequency domain.
-/

set_option linter.unusedSectionVars false

namespace Kp

open Spec ZMod Finset

/-! ### Components of patterns -/

section
variable {sy sx : ℕ} [NeZero sy] [NeZero sx]

theorem sum_zmod_complex {n : ℕ} [NeZero n] (f : ℕ → ℂ) :
    ∑ u : ZMod n, f u.val = ∑ i ∈ range n, f i := by
  obtain ⟨m, rfl⟩ := Nat.exists_eq_succ_of_ne_zero (NeZero.ne n)
  exact Fin.sum_univ_eq_sum_range f (m + 1)

theorem wave_eq {n : ℕ} [NeZero n] (y : ZMod n) (u : ℤ) :
    (stdAddChar (-(y * (u : ZMod n))) : ℂ) =
      Complex.exp (-(2 * Real.pi * Complex.I) * ((u : ℂ) * y.val / n)) := by
  have : -(y * (u : ZMod n)) = ((-(y.val * u) : ℤ) : ZMod n) := by
    push_cast
    rw [ZMod.natCast_zmod_val]
  rw [this, stdAddChar_coe]
  congr 1
  push_cast
  ring

theorem component_eq (v : ℕ → ℕ → ℝ) (k l : ℤ) :
    component { rows := sy, cols := sx, val := v } k l =
      dft2 (fun (y : ZMod sy) (x : ZMod sx) => (v y.val x.val : ℂ)) k l := by
  rw [dft2_apply]
  unfold component
  dsimp only
  rw [← sum_zmod_complex]
  refine sum_congr rfl fun y _ => ?_
  rw [← sum_zmod_complex]
  refine sum_congr rfl fun x _ => ?_
  rw [wave_eq, wave_eq, mul_add, Complex.exp_add]
  ring

theorem dft2_re (z : ZMod sy → ZMod sx → ℂ) (k : ZMod sy) (l : ZMod sx) :
    dft2 (fun y x => (((z y x).re : ℝ) : ℂ)) k l =
      (dft2 z k l + (starRingEnd ℂ) (dft2 z (-k) (-l))) / 2 := by
  have hchar : ∀ {n : ℕ} [NeZero n] (a b : ZMod n),
      (starRingEnd ℂ) (stdAddChar (-(a * -b)) : ℂ) = stdAddChar (-(a * b)) := by
    intro n _ a b
    rw [← AddChar.map_neg_eq_conj]
    congr 1
    ring
  simp only [dft2_apply, map_sum, map_mul, hchar]
  rw [← sum_add_distrib, sum_div]
  refine sum_congr rfl fun u _ => ?_
  rw [← sum_add_distrib, sum_div]
  refine sum_congr rfl fun v _ => ?_
  rw [Complex.re_eq_add_conj]
  ring

theorem component_inj {v w : ℕ → ℕ → ℝ}
    (h : ∀ k l : ℤ, component { rows := sy, cols := sx, val := v } k l =
      component { rows := sy, cols := sx, val := w } k l) {r c : ℕ} (hr : r < sy) (hc : c < sx) :
    v r c = w r c := by
  have e : dft2 (fun (y : ZMod sy) (x : ZMod sx) => (v y.val x.val : ℂ)) =
      dft2 (fun (y : ZMod sy) (x : ZMod sx) => (w y.val x.val : ℂ)) := by
    funext k l
    have := h (k.val : ℤ) (l.val : ℤ)
    rw [component_eq, component_eq] at this
    simpa using this
  have e2 : (fun (y : ZMod sy) (x : ZMod sx) => (v y.val x.val : ℂ)) =
      fun y x => (w y.val x.val : ℂ) := by
    have h1 := dft.injective e
    funext y
    exact dft.injective (congrFun h1 y)
  have := congrFun (congrFun e2 (r : ZMod sy)) (c : ZMod sx)
  simpa [ZMod.val_cast_of_lt hr, ZMod.val_cast_of_lt hc] using this

theorem component_affine (a b : ℝ) (v : ℕ → ℕ → ℝ) (k l : ℤ) :
    component { rows := sy, cols := sx, val := fun r c => a * v r c + b } k l =
      a * component { rows := sy, cols := sx, val := v } k l +
        b * component { rows := sy, cols := sx, val := fun _ _ => 1 } k l := by
  unfold component
  rw [mul_sum, mul_sum, ← sum_add_distrib]
  refine sum_congr rfl fun r _ => ?_
  rw [mul_sum, mul_sum, ← sum_add_distrib]
  refine sum_congr rfl fun c _ => ?_
  push_cast
  ring

/-- A constant pattern only has the component of zero frequency. -/
theorem component_one (k l : ℤ) :
    component { rows := sy, cols := sx, val := fun _ _ => 1 } k l =
      if (k : ZMod sy) = 0 ∧ (l : ZMod sx) = 0 then ((sy * sx : ℕ) : ℂ) else 0 := by
  rw [component_eq, dft2_apply]
  have hone : ∀ {n : ℕ} [NeZero n] (a : ZMod n), ∑ u : ZMod n, (stdAddChar (-(u * a)) : ℂ) =
      if a = 0 then (n : ℂ) else 0 := by
    intro n _ a
    have := AddChar.sum_mulShift (R := ZMod n) (R' := ℂ) (-a) (isPrimitive_stdAddChar n)
    simp only [neg_eq_zero, ZMod.card] at this
    push_cast at this
    rw [← this]
    refine sum_congr rfl fun u _ => ?_
    congr 1
    ring
  simp only [Complex.ofReal_one, mul_one]
  rw [show ∑ u : ZMod sy, ∑ v : ZMod sx, (stdAddChar (-(u * (k : ZMod sy))) : ℂ) *
      stdAddChar (-(v * (l : ZMod sx))) = (∑ u : ZMod sy, (stdAddChar (-(u * (k : ZMod sy))) : ℂ)) *
      ∑ v : ZMod sx, (stdAddChar (-(v * (l : ZMod sx))) : ℂ) from (sum_mul_sum ..).symm, hone, hone]
  split_ifs <;> simp_all

theorem frequencyIndex_eq (n : ℕ) [NeZero n] (shift : Bool) (u : ℤ) :
    frequencyIndex n shift u =
      if shift then ((u : ZMod n).val + n / 2) % n else (u : ZMod n).val := by
  have hn : (n : ℤ) ≠ 0 := by exact_mod_cast NeZero.ne n
  unfold frequencyIndex
  cases shift
  · simp only [Bool.false_eq_true, if_false]
    rw [← ZMod.val_intCast, Int.toNat_natCast]
  · simp only [if_true]
    apply Int.ofNat.inj
    change ((_ : ℕ) : ℤ) = ((_ : ℕ) : ℤ)
    rw [Int.toNat_of_nonneg (Int.emod_nonneg _ hn)]
    push_cast
    rw [ZMod.val_intCast, Int.emod_add_emod]

end

/-- `fft_filter` of one pattern multiplies the components by the transfer function. -/
theorem patternFftFilter_filtered (p t : Img ℝ) (hr : 0 < p.rows) (hc : 0 < p.cols)
    (htr : t.rows = p.rows) (htc : t.cols = p.cols) (shift : Bool) :
    ∃ g, patternFftFilter p (fun r c => (t.val r c : ℂ)) none shift = .ok g ∧
      FrequencyFiltered t shift p g := by
  have : NeZero p.rows := ⟨by omega⟩
  have : NeZero p.cols := ⟨by omega⟩
  obtain ⟨g, hg, h1, h2, h3⟩ := ifft_mul_fft p shift fun r c => (t.val r c : ℂ)
  refine ⟨g, hg, h1, h2, fun u v => ?_⟩
  set X : ZMod p.rows → ZMod p.cols → ℂ := fun y x =>
    fft2 p.rows p.cols (fun y x => (p.val y.val x.val : ℂ)) y x *
      (if shift then (t.val ((y.val + p.rows / 2) % p.rows) ((x.val + p.cols / 2) % p.cols) : ℂ)
        else t.val y.val x.val) with hX
  have hXv : ∀ u v : ℤ, X u v = component p u v * (transferAt t shift u v : ℂ) := by
    intro u v
    have hp := component_eq (sy := p.rows) (sx := p.cols) p.val u v
    simp only [hX]
    rw [show component p u v = component { rows := p.rows, cols := p.cols, val := p.val } u v from rfl,
      hp]
    congr 1
    unfold transferAt
    rw [htr, htc, frequencyIndex_eq, frequencyIndex_eq]
    split_ifs <;> rfl
  have hinv : dft2 (ifft2 p.rows p.cols X) = X := by
    unfold dft2 ifft2
    simp only [LinearEquiv.apply_symm_apply]
  have hg' : component g u v = component { rows := p.rows, cols := p.cols, val := g.val } u v := by
    unfold component
    rw [h1, h2]
  rw [hg', component_eq]
  have e : (fun (y : ZMod p.rows) (x : ZMod p.cols) => (g.val y.val x.val : ℂ)) =
      fun y x => (((ifft2 p.rows p.cols X y x).re : ℝ) : ℂ) := by
    funext y x
    rw [h3]
    simp [hX]
  have hconj : (starRingEnd ℂ) (component p (-u) (-v)) = component p u v := by
    unfold component
    simp only [map_sum, map_mul, Complex.conj_ofReal, ← Complex.exp_conj]
    refine sum_congr rfl fun r _ => sum_congr rfl fun c _ => ?_
    congr 2
    simp only [map_neg, map_mul, map_add, map_div₀, map_natCast, map_intCast, Complex.conj_I,
      Complex.conj_ofReal, map_ofNat]
    push_cast
    ring
  rw [e, dft2_re, hinv]
  have hn : X (-(u : ZMod p.rows)) (-(v : ZMod p.cols)) = X ((-u : ℤ) : ZMod p.rows) ((-v : ℤ)) := by
    push_cast
    rfl
  rw [hn, hXv, hXv, map_mul, hconj, Complex.conj_ofReal]
  push_cast
  ring

/-! ### Rescaling -/

theorem rescaleToType_stretched {d : DType} (hd : dtypeRange d ≠ none) {g : Img ℝ}
    (hr : 0 < g.rows) (hc : 0 < g.cols) : ∃ q, rescaleToType d g = .ok q ∧ StretchedTo d g q := by
  obtain ⟨rg, hd⟩ := Option.ne_none_iff_exists'.1 hd
  have hne : g.pixels ≠ [] := List.ne_nil_of_mem (mem_pixels.2 ⟨0, hr, 0, hc, rfl⟩)
  unfold rescaleToType
  rw [hd]
  refine ⟨_, rfl, rfl, rfl, listMin g.pixels, listMax g.pixels, rg, hd, ⟨?_, ?_⟩, ⟨?_, ?_⟩,
    fun r c _ _ => rfl⟩
  · obtain ⟨r, hr, c, hc, h⟩ := mem_pixels.1 (listMin_mem hne)
    exact ⟨r, c, hr, hc, h⟩
  · rintro x ⟨r, c, hr, hc, rfl⟩
    exact listMin_le _ (mem_pixels.2 ⟨r, hr, c, hc, rfl⟩)
  · obtain ⟨r, hr, c, hc, h⟩ := mem_pixels.1 (listMax_mem hne)
    exact ⟨r, c, hr, hc, h⟩
  · rintro x ⟨r, c, hr, hc, rfl⟩
    exact le_listMax _ (mem_pixels.2 ⟨r, hr, c, hc, rfl⟩)

/-- Stretching determines the pattern, and does not depend on the gain and offset. -/
theorem StretchedTo_same {d : DType} {g g' q q' : Img ℝ} {k o : ℝ} (h : ImageRecorded k o g g')
    (hq : StretchedTo d g q) (hq' : StretchedTo d g' q') : SamePattern q q' := by
  obtain ⟨hk, h1, h2, hv⟩ := h
  obtain ⟨a1, a2, lo, hi, rg, hrg, hlo, hhi, hval⟩ := hq
  obtain ⟨b1, b2, lo', hi', rg', hrg', hlo', hhi', hval'⟩ := hq'
  rw [hrg] at hrg'
  cases hrg'
  have elo : lo' = k * lo + o := by
    apply le_antisymm
    · obtain ⟨r, c, hr, hc, e⟩ := hlo.1
      have := hlo'.2 ⟨r, c, by omega, by omega, rfl⟩
      rw [hv r c hr hc, e] at this
      exact this
    · obtain ⟨r, c, hr, hc, e⟩ := hlo'.1
      rw [← e, hv r c (by omega) (by omega)]
      have := hlo.2 ⟨r, c, by omega, by omega, rfl⟩
      nlinarith
  have ehi : hi' = k * hi + o := by
    apply le_antisymm
    · obtain ⟨r, c, hr, hc, e⟩ := hhi'.1
      rw [← e, hv r c (by omega) (by omega)]
      have := hhi.2 ⟨r, c, by omega, by omega, rfl⟩
      nlinarith
    · obtain ⟨r, c, hr, hc, e⟩ := hhi.1
      have := hhi'.2 ⟨r, c, by omega, by omega, rfl⟩
      rw [hv r c hr hc, e] at this
      exact this
  refine ⟨by omega, by omega, fun r c hr hc => ?_⟩
  rw [hval r c (by omega) (by omega), hval' r c (by omega) (by omega), hv r c (by omega) (by omega),
    elo, ehi]
  have := rescalePixel_gain hk o lo hi (rg.1 : ℝ) rg.2 (g.val r c)
  unfold rescalePixel at this
  rw [this]

theorem rescalePixel_ends {lo hi : ℝ} (h : lo < hi) (a b : ℝ) :
    rescalePixel lo hi a b lo = a ∧ rescalePixel lo hi a b hi = b := by
  unfold rescalePixel
  rw [sub_self, zero_div, zero_mul, zero_add, div_self (sub_pos.2 h).ne']
  exact ⟨rfl, by ring⟩

/-- C125: a stretched pattern which is not constant uses the whole range of the data type, and only
that, and brighter pixels stay brighter. (For constant patterns the code divides zero by zero.) -/
theorem C125_full_range {d : DType} {g q : Img ℝ} (h : StretchedTo d g q) {omin omax : ℤ}
    (hd : dtypeRange d = some (omin, omax))
    (hv : ∃ r c r' c', r < g.rows ∧ c < g.cols ∧ r' < g.rows ∧ c' < g.cols ∧
      g.val r c ≠ g.val r' c') :
    (∃ r c, r < q.rows ∧ c < q.cols ∧ q.val r c = omin) ∧
    (∃ r c, r < q.rows ∧ c < q.cols ∧ q.val r c = omax) ∧
    ∀ r c, r < q.rows → c < q.cols → omin ≤ q.val r c ∧ q.val r c ≤ omax ∧
      ∀ r' c', r' < q.rows → c' < q.cols → g.val r c ≤ g.val r' c' → q.val r c ≤ q.val r' c' := by
  obtain ⟨a1, a2, lo, hi, rg, b1, b2, b3, b4⟩ := h
  rw [hd] at b1
  cases b1
  dsimp only at b4
  have hlt : lo < hi := by
    obtain ⟨r, c, r', c', h1, h2, h3, h4, hne⟩ := hv
    have x1 := b2.2 ⟨r, c, h1, h2, rfl⟩
    have x2 := b2.2 ⟨r', c', h3, h4, rfl⟩
    have x3 := b3.2 ⟨r, c, h1, h2, rfl⟩
    have x4 := b3.2 ⟨r', c', h3, h4, rfl⟩
    rcases lt_or_gt_of_ne hne with h | h <;> linarith
  have ho : (omin : ℝ) ≤ omax := by
    have : omin ≤ omax := by
      cases d with
      | float b => simp only [dtypeRange, Option.some.injEq, Prod.mk.injEq] at hd; omega
      | uint b =>
        simp only [dtypeRange, Option.some.injEq, Prod.mk.injEq] at hd
        have : (0 : ℤ) < 2 ^ b := by positivity
        omega
      | int b =>
        simp only [dtypeRange, Option.some.injEq, Prod.mk.injEq] at hd
        have : (0 : ℤ) < 2 ^ (b - 1) := by positivity
        omega
      | other => simp [dtypeRange] at hd
    exact_mod_cast this
  have hends := rescalePixel_ends hlt (omin : ℝ) omax
  have hm := (castTo_mono (K := ℝ) d).comp (rescalePixel_mono hlt ho)
  obtain ⟨r1, r2⟩ := representable_range (K := ℝ) hd
  have hval : ∀ r c, r < g.rows → c < g.cols →
      q.val r c = castTo d (rescalePixel lo hi omin omax (g.val r c)) := b4
  refine ⟨?_, ?_, fun r c hr hc => ?_⟩
  · obtain ⟨r, c, hr, hc, e⟩ := b2.1
    exact ⟨r, c, by omega, by omega, by rw [hval r c hr hc, e, hends.1, castTo_repr r1]⟩
  · obtain ⟨r, c, hr, hc, e⟩ := b3.1
    exact ⟨r, c, by omega, by omega, by rw [hval r c hr hc, e, hends.2, castTo_repr r2]⟩
  · rw [a1] at hr
    rw [a2] at hc
    refine ⟨?_, ?_, fun r' c' hr' hc' hle => ?_⟩
    · have := hm (b2.2 ⟨r, c, hr, hc, rfl⟩)
      simp only [Function.comp_apply, hends.1, castTo_repr r1] at this
      rw [hval r c hr hc]
      exact this
    · have := hm (b3.2 ⟨r, c, hr, hc, rfl⟩)
      simp only [Function.comp_apply, hends.2, castTo_repr r2] at this
      rw [hval r c hr hc]
      exact this
    · rw [hval r c hr hc, hval r' c' (by omega) (by omega)]
      exact hm hle

/-! ### Signals -/

theorem chunks_forall₂ {P Q : Type} {f : P → Except Err Q} {R : P → Q → Prop} {ok : P → Prop}
    (h : ∀ p, ok p → ∃ q, f p = .ok q ∧ R p q) {chunks : List (List P)}
    (hok : ∀ ps ∈ chunks, ∀ p ∈ ps, ok p) :
    ∃ out, chunks.mapM (fun ps => ps.mapM f) = .ok out ∧
      List.Forall₂ (List.Forall₂ R) chunks out := by
  have one : ∀ ps : List P, (∀ p ∈ ps, ok p) → ∃ qs, ps.mapM f = .ok qs ∧ List.Forall₂ R ps qs := by
    intro ps
    induction ps with
    | nil => exact fun _ => ⟨[], rfl, .nil⟩
    | cons p ps ih =>
      intro hp
      obtain ⟨q, hq, hR⟩ := h p (hp p (by simp))
      obtain ⟨qs, hqs, hall⟩ := ih fun p' hp' => hp p' (by simp [hp'])
      exact ⟨q :: qs, by rw [List.mapM_cons, hq, hqs]; rfl, .cons hR hall⟩
  induction chunks with
  | nil => exact ⟨[], rfl, .nil⟩
  | cons ps chunks ih =>
    obtain ⟨qs, hqs, hR⟩ := one ps (hok ps (by simp))
    obtain ⟨out, ho, hall⟩ := ih fun ps' h' => hok ps' (by simp [h'])
    exact ⟨qs :: out, by rw [List.mapM_cons, hqs, ho]; rfl, .cons hR hall⟩

/-- The patterns in all chunks have the shape `(rows, cols)`, which is not empty. -/
def Spec.NonEmptyPatterns (rows cols : ℕ) (chunks : List (List (Img ℝ))) : Prop :=
  0 < rows ∧ 0 < cols ∧ ∀ ps ∈ chunks, ∀ p ∈ ps, p.rows = rows ∧ p.cols = cols

section
variable (nfl : ℕ → ℕ) (d : DType)

/-- C125, `function_domain="frequency"`: the patterns of the filtered signal, in the same chunks, are
the patterns with each component multiplied by the transfer function, stretched to the range of the
data type of the signal. -/
theorem C125_frequency (hd : dtypeRange d ≠ none) {rows cols : ℕ} {chunks : List (List (Img ℝ))}
    (hp : NonEmptyPatterns rows cols chunks) {t : Img ℝ} (ht : t.rows = rows ∧ t.cols = cols)
    (shift inplace lazyOutput : Bool) (hl : ¬ (lazyOutput ∧ inplace)) :
    ∃ out, signalFftFilter nfl d chunks "frequency" shift t inplace lazyOutput = .ok out ∧
      List.Forall₂ (List.Forall₂ fun p q => ∃ g, FrequencyFiltered t shift p g ∧ StretchedTo d g q)
        chunks out := by
  unfold signalFftFilter fftFilterFunction
  rw [if_neg (by simpa using hl)]
  simp only [if_true]
  refine chunks_forall₂ (fun p hpk => ?_) hp.2.2
  obtain ⟨g, hg, hf⟩ := patternFftFilter_filtered p t (by rw [hpk.1]; exact hp.1)
    (by rw [hpk.2]; exact hp.2.1) (by rw [ht.1, hpk.1]) (by rw [ht.2, hpk.2]) shift
  obtain ⟨q, hq, hs⟩ := rescaleToType_stretched hd (g := g) (by rw [hf.1, hpk.1]; exact hp.1)
    (by rw [hf.2.1, hpk.2]; exact hp.2.1)
  exact ⟨q, by simp only [hg]; exact hq, g, hf, hs⟩

/-- C125, `function_domain="spatial"`: the patterns of the filtered signal are the window-weighted
sums of the patterns, with edge values replicated outside, stretched to the range of the data type of
the signal. -/
theorem C125_spatial (hnfl : ∀ n, n ≤ nfl n) (hd : dtypeRange d ≠ none) {rows cols : ℕ}
    {chunks : List (List (Img ℝ))} (hp : NonEmptyPatterns rows cols chunks) {w : Img ℝ}
    (hw : 0 < w.rows ∧ 0 < w.cols) (shift inplace lazyOutput : Bool)
    (hl : ¬ (lazyOutput ∧ inplace)) :
    ∃ out, signalFftFilter nfl d chunks "spatial" shift w inplace lazyOutput = .ok out ∧
      List.Forall₂ (List.Forall₂ fun p q =>
        StretchedTo d { rows := rows, cols := cols, val := correlate p w } q) chunks out := by
  unfold signalFftFilter fftFilterFunction
  rw [if_neg (by simpa using hl)]
  simp only [show "spatial" ≠ "frequency" by decide, if_false, if_true]
  refine chunks_forall₂ (fun p hpk => ?_) hp.2.2
  obtain ⟨g, hg, h1, h2, h3⟩ := C15_fft_filter_eq_correlate nfl hnfl p w (by rw [hpk.1]; exact hp.1)
    (by rw [hpk.2]; exact hp.2.1) hw.1 hw.2
  obtain ⟨q, hq, hs⟩ := rescaleToType_stretched hd (g := g) (by rw [h1, hpk.1]; exact hp.1)
    (by rw [h2, hpk.2]; exact hp.2.1)
  refine ⟨q, by simp only [hg]; exact hq, ?_⟩
  obtain ⟨a1, a2, lo, hi, rg, b1, b2, b3, b4⟩ := hs
  have hset : {x | ∃ r c, r < g.rows ∧ c < g.cols ∧ g.val r c = x} =
      {x | ∃ r c, r < rows ∧ c < cols ∧ correlate p w r c = x} := by
    ext x
    constructor <;> rintro ⟨r, c, hr, hc, e⟩
    · exact ⟨r, c, by rw [← hpk.1, ← h1]; exact hr, by rw [← hpk.2, ← h2]; exact hc, by
        rw [← h3 r c (h1 ▸ hr) (h2 ▸ hc)]; exact e⟩
    · exact ⟨r, c, by rw [h1, hpk.1]; exact hr, by rw [h2, hpk.2]; exact hc, by
        rw [h3 r c (hpk.1 ▸ hr) (hpk.2 ▸ hc)]; exact e⟩
  refine ⟨by rw [a1, h1, hpk.1], by rw [a2, h2, hpk.2], lo, hi, rg, b1, hset ▸ b2, hset ▸ b3,
    fun r c hr hc => ?_⟩
  dsimp only at hr hc ⊢
  rw [b4 r c (by rw [h1, hpk.1]; exact hr) (by rw [h2, hpk.2]; exact hc),
    h3 r c (hpk.1 ▸ hr) (hpk.2 ▸ hc)]

/-- C125: any other domain is refused, and so is lazy output in place. -/
theorem C125_refused (chunks : List (List (Img ℝ))) (functionDomain : String) (shift : Bool)
    (t : Img ℝ) (inplace lazyOutput : Bool)
    (h : (functionDomain ≠ "frequency" ∧ functionDomain ≠ "spatial") ∨ (lazyOutput ∧ inplace)) :
    signalFftFilter nfl d chunks functionDomain shift t inplace lazyOutput = .error .valueError := by
  unfold signalFftFilter fftFilterFunction
  split_ifs <;> simp_all

/-! ### Consequences -/

theorem filtered_affine {t t' p p' g g' : Img ℝ} {shift : Bool} {k o : ℝ} (hr : 0 < p.rows)
    (hc : 0 < p.cols) (hpr : p'.rows = p.rows) (hpc : p'.cols = p.cols) (hk : 0 < k)
    (hg : FrequencyFiltered t shift p g) (hg' : FrequencyFiltered t' shift p' g')
    (h : ∀ u v : ℤ,
      (((transferAt t' shift u v + transferAt t' shift (-u) (-v)) / 2 : ℝ) : ℂ) * component p' u v =
      k * ((((transferAt t shift u v + transferAt t shift (-u) (-v)) / 2 : ℝ) : ℂ) *
        component p u v) + o * component { rows := p.rows, cols := p.cols, val := fun _ _ => 1 } u v) :
    ImageRecorded k o g g' := by
  have : NeZero p.rows := ⟨by omega⟩
  have : NeZero p.cols := ⟨by omega⟩
  obtain ⟨a1, a2, a3⟩ := hg
  obtain ⟨b1, b2, b3⟩ := hg'
  refine ⟨hk, by omega, by omega, fun y x hy hx => ?_⟩
  refine component_inj (sy := p.rows) (sx := p.cols) (v := g'.val)
    (w := fun r c => k * g.val r c + o) (fun u v => ?_) (by omega) (by omega)
  rw [component_affine]
  have e1 : component { rows := p.rows, cols := p.cols, val := g'.val } u v = component g' u v := by
    unfold component
    rw [b1, b2, hpr, hpc]
  have e2 : component { rows := p.rows, cols := p.cols, val := g.val } u v = component g u v := by
    unfold component
    rw [a1, a2]
  rw [e1, e2, b3, a3, h]

/-- The patterns of two signals, in the same chunks, are related. -/
def Spec.ChunkWise (R : Img ℝ → Img ℝ → Prop) (a b : List (List (Img ℝ))) : Prop :=
  List.Forall₂ (List.Forall₂ R) a b

theorem chunkWise_out {R R1 R2 S : Img ℝ → Img ℝ → Prop} {a a' b b' : List (List (Img ℝ))}
    (h : ChunkWise R a b) (h1 : ChunkWise R1 a a') (h2 : ChunkWise R2 b b')
    (hS : ∀ p p' q q', (∃ ps ∈ a, p ∈ ps) → R p p' → R1 p q → R2 p' q' → S q q') :
    ChunkWise S a' b' := by
  have one : ∀ {l l' m m' : List (Img ℝ)}, List.Forall₂ R l m → List.Forall₂ R1 l l' →
      List.Forall₂ R2 m m' → (∀ p ∈ l, ∃ ps ∈ a, p ∈ ps) → List.Forall₂ S l' m' := by
    intro l l' m m' h h1 h2 hl
    induction h generalizing l' m' with
    | nil => cases h1; cases h2; exact .nil
    | cons hh _ ih =>
      cases h1 with
      | cons x1 y1 =>
        cases h2 with
        | cons x2 y2 =>
          exact .cons (hS _ _ _ _ (hl _ (by simp)) hh x1 x2) (ih y1 y2 fun p hp => hl p (by simp [hp]))
  have two : ∀ {l l' m m' : List (List (Img ℝ))}, ChunkWise R l m → ChunkWise R1 l l' →
      ChunkWise R2 m m' → (∀ ps ∈ l, ps ∈ a) → ChunkWise S l' m' := by
    intro l l' m m' h h1 h2 hl
    induction h generalizing l' m' with
    | nil => cases h1; cases h2; exact .nil
    | cons hh _ ih =>
      cases h1 with
      | cons x1 y1 =>
        cases h2 with
        | cons x2 y2 =>
          exact .cons (one hh x1 x2 fun p hp => ⟨_, hl _ (by simp), hp⟩)
            (ih y1 y2 fun p hp => hl p (by simp [hp]))
  exact two h h1 h2 fun _ h => h

theorem chunkWise_self {R : Img ℝ → Img ℝ → Prop} (hR : ∀ p, R p p) (a : List (List (Img ℝ))) :
    ChunkWise R a a :=
  List.forall₂_same.2 fun _ _ => List.forall₂_same.2 fun p _ => hR p

theorem transferAt_of_zero {rows cols : ℕ} [NeZero rows] [NeZero cols] {t : Img ℝ}
    (ht : t.rows = rows ∧ t.cols = cols) (shift : Bool) {u v : ℤ} (hu : (u : ZMod rows) = 0)
    (hv : (v : ZMod cols) = 0) : transferAt t shift u v = transferAt t shift 0 0 := by
  unfold transferAt
  rw [ht.1, ht.2]
  simp only [frequencyIndex_eq, hu, hv, Int.cast_zero]

/-- C125: patterns recorded with other gains and offsets are filtered to the same patterns, in the
frequency domain. -/
theorem C125_gain_offset_frequency (hd : dtypeRange d ≠ none) {rows cols : ℕ}
    {chunks chunks' : List (List (Img ℝ))} (hp : NonEmptyPatterns rows cols chunks)
    (h : ChunkWise (fun p p' => ∃ k o, ImageRecorded k o p p') chunks chunks')
    (hp' : NonEmptyPatterns rows cols chunks')
    {t : Img ℝ} (ht : t.rows = rows ∧ t.cols = cols)
    (shift inplace lazyOutput : Bool) (hl : ¬ (lazyOutput ∧ inplace)) :
    ∃ out out', signalFftFilter nfl d chunks "frequency" shift t inplace lazyOutput = .ok out ∧
      signalFftFilter nfl d chunks' "frequency" shift t inplace lazyOutput = .ok out' ∧
      ChunkWise SamePattern out out' := by
  obtain ⟨out, e1, h1⟩ := C125_frequency nfl d hd hp ht shift inplace lazyOutput hl
  obtain ⟨out', e2, h2⟩ := C125_frequency nfl d hd hp' ht shift inplace lazyOutput hl
  refine ⟨out, out', e1, e2, chunkWise_out h h1 h2 ?_⟩
  rintro p p' q q' ⟨ps, hps, hmem⟩ ⟨k, o, hrec⟩ ⟨g, hg, hs⟩ ⟨g', hg', hs'⟩
  obtain ⟨hpr, hpc⟩ := hp.2.2 ps hps p hmem
  have n1 : NeZero p.rows := ⟨by rw [hpr]; exact hp.1.ne'⟩
  have n2 : NeZero p.cols := ⟨by rw [hpc]; exact hp.2.1.ne'⟩
  refine StretchedTo_same (filtered_affine (by rw [hpr]; exact hp.1) (by rw [hpc]; exact hp.2.1)
    hrec.2.1 hrec.2.2.1 hrec.1 hg hg' (o := o * transferAt t shift 0 0) fun u v => ?_) hs hs'
  have e : component p' u v = component
      { rows := p.rows, cols := p.cols, val := fun r c => k * p.val r c + o } u v := by
    unfold component
    rw [hrec.2.1, hrec.2.2.1]
    refine sum_congr rfl fun r hr => sum_congr rfl fun c hc => ?_
    rw [hrec.2.2.2 r c (mem_range.1 hr) (mem_range.1 hc)]
  rw [e, component_affine, component_one]
  split_ifs with h0
  · have t1 := transferAt_of_zero (t := t) ⟨by rw [ht.1, hpr], by rw [ht.2, hpc]⟩ shift h0.1 h0.2
    have t2 := transferAt_of_zero (t := t) (rows := p.rows) (cols := p.cols)
      ⟨by rw [ht.1, hpr], by rw [ht.2, hpc]⟩ shift
      (u := -u) (v := -v) (by push_cast; rw [h0.1, neg_zero]) (by push_cast; rw [h0.2, neg_zero])
    rw [t1, t2]
    push_cast
    ring
  · push_cast
    ring

/-- C125: the same in the spatial domain. -/
theorem C125_gain_offset_spatial (hnfl : ∀ n, n ≤ nfl n) (hd : dtypeRange d ≠ none) {rows cols : ℕ}
    {chunks chunks' : List (List (Img ℝ))} (hp : NonEmptyPatterns rows cols chunks)
    (h : ChunkWise (fun p p' => ∃ k o, ImageRecorded k o p p') chunks chunks')
    (hp' : NonEmptyPatterns rows cols chunks')
    {w : Img ℝ} (hw : 0 < w.rows ∧ 0 < w.cols)
    (shift inplace lazyOutput : Bool) (hl : ¬ (lazyOutput ∧ inplace)) :
    ∃ out out', signalFftFilter nfl d chunks "spatial" shift w inplace lazyOutput = .ok out ∧
      signalFftFilter nfl d chunks' "spatial" shift w inplace lazyOutput = .ok out' ∧
      ChunkWise SamePattern out out' := by
  obtain ⟨out, e1, h1⟩ := C125_spatial nfl d hnfl hd hp hw shift inplace lazyOutput hl
  obtain ⟨out', e2, h2⟩ := C125_spatial nfl d hnfl hd hp' hw shift inplace lazyOutput hl
  refine ⟨out, out', e1, e2, chunkWise_out h h1 h2 ?_⟩
  rintro p p' q q' ⟨ps, hps, hmem⟩ ⟨k, o, hk, hr, hc, hv⟩ hs hs'
  obtain ⟨hpr, hpc⟩ := hp.2.2 ps hps p hmem
  refine StretchedTo_same (k := k) (g := ⟨rows, cols, correlate p w⟩) (g' := ⟨rows, cols, correlate p' w⟩)
    (o := o * ∑ i ∈ range w.rows, ∑ j ∈ range w.cols, w.val i j) ⟨hk, rfl, rfl, fun y x _ _ => ?_⟩
    hs hs'
  dsimp only
  unfold correlate
  rw [mul_sum, mul_sum, ← sum_add_distrib]
  refine sum_congr rfl fun i _ => ?_
  rw [mul_sum, mul_sum, ← sum_add_distrib]
  refine sum_congr rfl fun j _ => ?_
  rw [hr, hc, hv _ _ (clampIdx_lt (by rw [hpr]; exact hp.1) _)
    (clampIdx_lt (by rw [hpc]; exact hp.2.1) _)]
  ring

/-- C125: multiplying the transfer function, or the window, by a positive number does not matter. -/
theorem C125_transfer_gain (hnfl : ∀ n, n ≤ nfl n) (hd : dtypeRange d ≠ none) {rows cols : ℕ}
    {chunks : List (List (Img ℝ))} (hp : NonEmptyPatterns rows cols chunks) {k : ℝ} (hk : 0 < k)
    {t : Img ℝ} (functionDomain : String)
    (ht : functionDomain = "frequency" ∧ t.rows = rows ∧ t.cols = cols ∨
      functionDomain = "spatial" ∧ 0 < t.rows ∧ 0 < t.cols)
    (shift inplace lazyOutput : Bool) (hl : ¬ (lazyOutput ∧ inplace)) :
    ∃ out out', signalFftFilter nfl d chunks functionDomain shift t inplace lazyOutput = .ok out ∧
      signalFftFilter nfl d chunks functionDomain shift
        { t with val := fun r c => k * t.val r c } inplace lazyOutput = .ok out' ∧
      ChunkWise SamePattern out out' := by
  rcases ht with ⟨rfl, ht⟩ | ⟨rfl, ht⟩
  · obtain ⟨out, e1, h1⟩ := C125_frequency nfl d hd hp ht shift inplace lazyOutput hl
    obtain ⟨out', e2, h2⟩ := C125_frequency nfl d hd hp
      (t := { t with val := fun r c => k * t.val r c }) ht shift inplace lazyOutput hl
    refine ⟨out, out', e1, e2, chunkWise_out (chunkWise_self (R := Eq) (fun _ => rfl) chunks) h1 h2 ?_⟩
    rintro p p' q q' ⟨ps, hps, hmem⟩ rfl ⟨g, hg, hs⟩ ⟨g', hg', hs'⟩
    obtain ⟨hpr, hpc⟩ := hp.2.2 ps hps p hmem
    refine StretchedTo_same (filtered_affine (by rw [hpr]; exact hp.1) (by rw [hpc]; exact hp.2.1)
      rfl rfl hk hg hg' (o := 0) fun u v => ?_) hs hs'
    unfold transferAt
    push_cast
    ring
  · obtain ⟨out, e1, h1⟩ := C125_spatial nfl d hnfl hd hp ht shift inplace lazyOutput hl
    obtain ⟨out', e2, h2⟩ := C125_spatial nfl d hnfl hd hp
      (w := { t with val := fun r c => k * t.val r c }) ht shift inplace lazyOutput hl
    refine ⟨out, out', e1, e2, chunkWise_out (chunkWise_self (R := Eq) (fun _ => rfl) chunks) h1 h2 ?_⟩
    rintro p p' q q' - rfl hs hs'
    refine StretchedTo_same (k := k) (o := 0) (g := ⟨rows, cols, correlate p t⟩)
      (g' := ⟨rows, cols, correlate p ⟨t.rows, t.cols, fun r c => k * t.val r c⟩⟩) ⟨hk, rfl, rfl, fun y x _ _ => ?_⟩ hs hs'
    dsimp only
    unfold correlate
    rw [mul_sum, add_zero]
    refine sum_congr rfl fun i _ => ?_
    rw [mul_sum]
    refine sum_congr rfl fun j _ => ?_
    ring

/-- C125: the coefficient of a transfer function for the zero frequency does not matter. -/
theorem C125_zero_frequency (hd : dtypeRange d ≠ none) {rows cols : ℕ}
    {chunks : List (List (Img ℝ))} (hp : NonEmptyPatterns rows cols chunks)
    {t t' : Img ℝ} (ht : t.rows = rows ∧ t.cols = cols) (ht' : t'.rows = rows ∧ t'.cols = cols)
    (shift inplace lazyOutput : Bool) (hl : ¬ (lazyOutput ∧ inplace))
    (h : ∀ r c, r < rows → c < cols →
      (r, c) ≠ (if shift then (rows / 2, cols / 2) else (0, 0)) → t'.val r c = t.val r c) :
    ∃ out out', signalFftFilter nfl d chunks "frequency" shift t inplace lazyOutput = .ok out ∧
      signalFftFilter nfl d chunks "frequency" shift t' inplace lazyOutput = .ok out' ∧
      ChunkWise SamePattern out out' := by
  obtain ⟨out, e1, h1⟩ := C125_frequency nfl d hd hp ht shift inplace lazyOutput hl
  obtain ⟨out', e2, h2⟩ := C125_frequency nfl d hd hp ht' shift inplace lazyOutput hl
  refine ⟨out, out', e1, e2, chunkWise_out (chunkWise_self (R := Eq) (fun _ => rfl) chunks) h1 h2 ?_⟩
  rintro p p' q q' ⟨ps, hps, hmem⟩ rfl ⟨g, hg, hs⟩ ⟨g', hg', hs'⟩
  obtain ⟨rfl, rfl⟩ := hp.2.2 ps hps p hmem
  have n1 : NeZero p.rows := ⟨hp.1.ne'⟩
  have n2 : NeZero p.cols := ⟨hp.2.1.ne'⟩
  set S : ℝ := ∑ r ∈ range p.rows, ∑ c ∈ range p.cols, p.val r c with hS
  have ne : ∀ u v : ℤ, ¬ ((u : ZMod p.rows) = 0 ∧ (v : ZMod p.cols) = 0) →
      transferAt t' shift u v = transferAt t shift u v := by
    intro u v h0
    have key : ∀ (n : ℕ) [NeZero n] (u : ℤ), frequencyIndex n shift u < n ∧
        (frequencyIndex n shift u = (if shift then n / 2 else 0) → (u : ZMod n) = 0) := by
      intro n _ u
      rw [frequencyIndex_eq]
      have hlt := ZMod.val_lt (u : ZMod n)
      have hn : 0 < n := Nat.pos_of_ne_zero (NeZero.ne n)
      cases shift
      · simp only [Bool.false_eq_true, if_false]
        exact ⟨hlt, fun e => (ZMod.val_eq_zero _).1 e⟩
      · simp only [if_true]
        refine ⟨Nat.mod_lt _ hn, fun e => ?_⟩
        by_contra hu
        have hv : (u : ZMod n).val ≠ 0 := fun e => hu ((ZMod.val_eq_zero _).1 e)
        rcases Nat.lt_or_ge ((u : ZMod n).val + n / 2) n with hlt' | hge
        · rw [Nat.mod_eq_of_lt hlt'] at e
          omega
        · rw [Nat.mod_eq_sub_mod hge, Nat.mod_eq_of_lt (by omega)] at e
          omega
    unfold transferAt
    rw [ht.1, ht.2, ht'.1, ht'.2]
    refine h _ _ (key _ u).1 (key _ v).1 fun e => h0 ?_
    rw [Prod.ext_iff] at e
    refine ⟨(key _ u).2 ?_, (key _ v).2 ?_⟩
    · have := e.1
      dsimp only at this
      rw [this]
      split_ifs <;> rfl
    · have := e.2
      dsimp only at this
      rw [this]
      split_ifs <;> rfl
  refine StretchedTo_same (filtered_affine hp.1 hp.2.1 rfl rfl one_pos hg hg'
    (o := (transferAt t' shift 0 0 - transferAt t shift 0 0) * S / (p.rows * p.cols : ℕ))
    fun u v => ?_) hs hs'
  rw [component_one]
  by_cases h0 : (u : ZMod p.rows) = 0 ∧ (v : ZMod p.cols) = 0
  · have h0' : ((-u : ℤ) : ZMod p.rows) = 0 ∧ ((-v : ℤ) : ZMod p.cols) = 0 := by
      push_cast
      rw [h0.1, h0.2, neg_zero, neg_zero]
      exact ⟨rfl, rfl⟩
    rw [if_pos h0, transferAt_of_zero ht' shift h0.1 h0.2, transferAt_of_zero ht' shift h0'.1 h0'.2,
      transferAt_of_zero ht shift h0.1 h0.2, transferAt_of_zero ht shift h0'.1 h0'.2]
    have hcomp : component p u v = (S : ℂ) := by
      have := component_eq (sy := p.rows) (sx := p.cols) p.val u v
      rw [show component p u v = component { rows := p.rows, cols := p.cols, val := p.val } u v
        from rfl, this, h0.1, h0.2, ← Int.cast_zero (R := ZMod p.rows),
        ← Int.cast_zero (R := ZMod p.cols), ← component_eq, hS]
      unfold component
      simp
    rw [hcomp]
    have hA : (p.rows : ℂ) ≠ 0 := by exact_mod_cast hp.1.ne'
    have hB : (p.cols : ℂ) ≠ 0 := by exact_mod_cast hp.2.1.ne'
    push_cast
    field_simp
    ring
  · rw [if_neg h0, ne u v h0, ne (-u) (-v) (by push_cast; simpa using h0)]
    push_cast
    ring

/-- C125: filtering with a transfer function of the same number everywhere only stretches the
patterns. -/
theorem C125_all_pass (hd : dtypeRange d ≠ none) {rows cols : ℕ}
    {chunks : List (List (Img ℝ))} (hp : NonEmptyPatterns rows cols chunks) {k : ℝ} (hk : 0 < k)
    (shift inplace lazyOutput : Bool) (hl : ¬ (lazyOutput ∧ inplace)) :
    ∃ out, signalFftFilter nfl d chunks "frequency" shift ⟨rows, cols, fun _ _ => k⟩ inplace
        lazyOutput = .ok out ∧
      ChunkWise (StretchedTo d) chunks out := by
  obtain ⟨out, e1, h1⟩ := C125_frequency nfl d hd hp (t := ⟨rows, cols, fun _ _ => k⟩) ⟨rfl, rfl⟩ shift
    inplace lazyOutput hl
  refine ⟨out, e1, ?_⟩
  have hall : ∀ ps ∈ chunks, ∀ p ∈ ps, p.rows = rows ∧ p.cols = cols := hp.2.2
  have one : ∀ p q, (p.rows = rows ∧ p.cols = cols) → (∃ g, FrequencyFiltered
      ⟨rows, cols, fun _ _ => k⟩ shift p g ∧ StretchedTo d g q) → StretchedTo d p q := by
    rintro p q ⟨rfl, rfl⟩ ⟨g, ⟨hr, hc, hg⟩, hs⟩
    have n1 : NeZero p.rows := ⟨hp.1.ne'⟩
    have n2 : NeZero p.cols := ⟨hp.2.1.ne'⟩
    have hrec : ImageRecorded k 0 p g := by
      refine ⟨hk, hr, hc, fun y x hy hx => ?_⟩
      refine component_inj (sy := p.rows) (sx := p.cols) (v := g.val)
        (w := fun r c => k * p.val r c + 0) (fun u v => ?_) hy hx
      rw [component_affine]
      have e1 : component { rows := p.rows, cols := p.cols, val := g.val } u v = component g u v := by
        unfold component
        rw [hr, hc]
      rw [e1, hg]
      unfold transferAt
      push_cast
      ring
    obtain ⟨q0, -, h0⟩ := rescaleToType_stretched hd (g := p) hp.1 hp.2.1
    obtain ⟨s1, s2, s3⟩ := StretchedTo_same hrec h0 hs
    obtain ⟨a1, a2, lo, hi, rg, b1, b2, b3, b4⟩ := h0
    refine ⟨by omega, by omega, lo, hi, rg, b1, b2, b3, fun r c hr hc => ?_⟩
    rw [← s3 r c (by omega) (by omega), b4 r c hr hc]
  refine chunkWise_out (R := Eq) (R1 := Eq) (R2 := fun p q => ∃ g, FrequencyFiltered
    ⟨rows, cols, fun _ _ => k⟩ shift p g ∧ StretchedTo d g q)
    (chunkWise_self (fun _ => rfl) chunks) (chunkWise_self (fun _ => rfl) chunks) h1 ?_
  rintro p p' q q' ⟨ps, hps, hmem⟩ rfl rfl h
  exact one _ _ (hall ps hps _ hmem) h

/-! ### The hypotheses are met -/

/-- Two chunks, of two patterns and of one, and a transfer function which is zero at zero frequency,
in the centre. -/
def twoChunks : List (List (Img ℝ)) :=
  [[⟨2, 2, fun r c => r + 2 * c⟩, ⟨2, 2, fun r c => 3 * r * c⟩], [⟨2, 2, fun _ c => c⟩]]

example : NonEmptyPatterns 2 2 twoChunks ∧
    ∃ out, signalFftFilter id (.uint 8) twoChunks "frequency" true
        ⟨2, 2, fun r c => if r = 1 ∧ c = 1 then 0 else 1⟩ true false = .ok out ∧
      ChunkWise (StretchedTo (.uint 8)) twoChunks out := by
  have h : NonEmptyPatterns 2 2 twoChunks := by
    refine ⟨by norm_num, by norm_num, ?_⟩
    simp [twoChunks]
  refine ⟨h, ?_⟩
  obtain ⟨out, e, hs⟩ := C125_all_pass id (.uint 8) (by simp [dtypeRange]) h one_pos true true false
    (by simp)
  obtain ⟨out', out'', e', e'', hs'⟩ := C125_zero_frequency id (.uint 8) (by simp [dtypeRange]) h
    (t := ⟨2, 2, fun _ _ => 1⟩) (t' := ⟨2, 2, fun r c => if r = 1 ∧ c = 1 then 0 else 1⟩) ⟨rfl, rfl⟩
    ⟨rfl, rfl⟩ true true false (by simp) (by
      intro r c hr hc hne
      simp only [if_true, ne_eq, Prod.mk.injEq] at hne
      simp only [ite_eq_right_iff]
      exact fun h => absurd h hne)
  rw [e] at e'
  cases e'
  refine ⟨out'', e'', chunkWise_out (R := Eq) (chunkWise_self (fun _ => rfl) out)
    (R1 := fun q p => StretchedTo (.uint 8) p q) (R2 := SamePattern)
    ?_ hs' ?_⟩
  · exact hs.flip.imp fun _ _ h => h.flip
  · rintro q q' p r - rfl ⟨a1, a2, lo, hi, rg, b1, b2, b3, b4⟩ ⟨s1, s2, s3⟩
    refine ⟨by omega, by omega, lo, hi, rg, b1, b2, b3, fun y x hy hx => ?_⟩
    rw [← s3 y x (by omega) (by omega), b4 y x hy hx]

end
end Kp
