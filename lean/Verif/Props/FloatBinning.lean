import Verif.Model.FloatBinning
import Verif.Props.Downsample
import Verif.Props.FloatRescale
import Verif.Props.FloatSimilarity
import Verif.Lemmas.Neighbours
import Mathlib.Tactic.FinCases
import Mathlib.Algebra.BigOperators.Fin

/-!
C109: downsampling and averaging of neighbours in floating point arithmetic.
-/

namespace Kp
open Finset Spec

noncomputable section

/-! ### Sums of integers -/

section
variable {ι : Type*} [Fintype ι]

/-- A sum of products of integers is exact in any order while it is small enough. -/
theorem eval_int (t : MetricType) (a b : ι → ℤ) (hp : ∑ i, |a i * b i| ≤ 2 ^ t.digits)
    (s : SumOrder ι) (hs : AddsEveryPixelOnce s) :
    s.eval t.fl (fun i => (a i : ℝ)) (fun i => (b i : ℝ)) = ((∑ i, a i * b i : ℤ) : ℝ) := by
  have key : ∀ s : SumOrder ι, (s.pixels.map fun i => |a i * b i|).sum ≤ 2 ^ t.digits →
      s.eval t.fl (fun i => (a i : ℝ)) (fun i => (b i : ℝ)) =
          ((s.pixels.map fun i => a i * b i).sum : ℤ) ∧
        |(s.pixels.map fun i => a i * b i).sum| ≤ (s.pixels.map fun i => |a i * b i|).sum := by
    intro s
    have nn : ∀ l : List ι, 0 ≤ (l.map fun i => |a i * b i|).sum := fun l => List.sum_nonneg (by
      intro x hx
      obtain ⟨i, -, rfl⟩ := List.mem_map.mp hx
      exact abs_nonneg _)
    induction s with
    | term i =>
      intro h
      simp only [SumOrder.pixels, SumOrder.eval, List.map_cons, List.map_nil, List.sum_cons,
        List.sum_nil, add_zero] at h ⊢
      refine ⟨?_, le_rfl⟩
      rw [← Int.cast_mul]
      exact fl_int t h
    | plus l r ihl ihr =>
      intro h
      simp only [SumOrder.pixels, SumOrder.eval, List.map_append, List.sum_append] at h ⊢
      have h1 := nn l.pixels
      have h2 := nn r.pixels
      obtain ⟨el, al⟩ := ihl (by linarith)
      obtain ⟨er, ar⟩ := ihr (by linarith)
      have ha := (abs_add_le _ _).trans (add_le_add al ar)
      refine ⟨?_, ha⟩
      rw [el, er, ← Int.cast_add]
      exact fl_int t (ha.trans h)
    | fused l i ih =>
      intro h
      simp only [SumOrder.pixels, SumOrder.eval, List.map_append, List.sum_append, List.map_cons,
        List.map_nil, List.sum_cons, List.sum_nil, add_zero] at h ⊢
      obtain ⟨el, al⟩ := ih (by linarith [abs_nonneg (a i * b i)])
      have ha := (abs_add_le (l.pixels.map fun i => a i * b i).sum (a i * b i)).trans
        (add_le_add al le_rfl)
      refine ⟨?_, ha⟩
      rw [el, ← Int.cast_mul, ← Int.cast_add]
      exact fl_int t (ha.trans h)
  have hsum : ∀ f : ι → ℤ, (s.pixels.map f).sum = ∑ i, f i := fun f => by
    rw [(List.Perm.map f hs).sum_eq, Finset.sum_map_toList]
  have h := (key s (by rw [hsum]; exact hp)).1
  rwa [hsum] at h

end

/-! ### Downsampling -/

/-- The sum of a block of an image of integers. -/
def blockTotal (f : ℕ) (p : ℕ → ℕ → ℤ) (r c : ℕ) : ℤ :=
  ∑ i ∈ range f, ∑ j ∈ range f, p (r * f + i) (c * f + j)

/-- An image of integers. -/
def intImg (rows cols : ℕ) (p : ℕ → ℕ → ℤ) : Img ℝ := ⟨rows, cols, fun r c => (p r c : ℝ)⟩

theorem sum_block {M : Type*} [AddCommMonoid M] (f : ℕ) (g : ℕ → ℕ → M) :
    ∑ i : BlockIndex f f, g i.1 i.2 = ∑ i ∈ range f, ∑ j ∈ range f, g i j := by
  rw [Fintype.sum_prod_type, Finset.sum_range]
  refine Finset.sum_congr rfl fun i _ => ?_
  rw [Finset.sum_range]

/-- C109. Blocks of integer pixels whose absolute values sum up to at most `2²⁴` are summed exactly in
float32, whatever the order: the binned pattern is the one of exact arithmetic (C14). -/
theorem C109_blocks_exact (f rows cols : ℕ) (p : ℕ → ℕ → ℤ)
    (order : ℕ → ℕ → SumOrder (BlockIndex f f)) (r c : ℕ) (hr : r < rows / f) (hc : c < cols / f)
    (ho : AddsEveryPixelOnce (order r c))
    (hp : blockTotal f (fun y x => |p y x|) r c ≤ 2 ^ 24) :
    (binFl f order (intImg rows cols p)).val r c = (blockTotal f p r c : ℝ) ∧
      (binFl f order (intImg rows cols p)).val r c = (bin2d (intImg rows cols p) f).val r c := by
  have hsum := sum_block f fun i j => |p (r * f + i) (c * f + j)|
  have hle : ∀ i : BlockIndex f f, |p (r * f + i.1) (c * f + i.2)| ≤ 2 ^ 24 := fun i =>
    ((Finset.single_le_sum (f := fun i : BlockIndex f f => |p (r * f + i.1) (c * f + i.2)|)
      (fun _ _ => abs_nonneg _) (mem_univ i)).trans_eq hsum).trans hp
  have h1 : (binFl f order (intImg rows cols p)).val r c = (blockTotal f p r c : ℝ) := by
    have e : (fun i : BlockIndex f f => MetricType.float32.fl
        ((intImg rows cols p).val (r * f + i.1) (c * f + i.2))) =
        fun i => ((p (r * f + i.1) (c * f + i.2) : ℤ) : ℝ) := by
      funext i
      exact fl_int .float32 (hle i)
    have h := eval_int .float32 (fun i : BlockIndex f f => p (r * f + i.1) (c * f + i.2))
      (fun _ => 1) (by simp only [mul_one]; exact hsum.trans_le hp) (order r c) ho
    simp only [binFl]
    rw [e]
    simp only [mul_one, Int.cast_one] at h
    rw [h, blockTotal, sum_block f fun i j => p (r * f + i) (c * f + j)]
  refine ⟨h1, ?_⟩
  rw [h1, (C14_block_sums (intImg rows cols p) f).2.2 r c hr hc, blockTotal]
  simp only [intImg]
  push_cast
  rfl

/-- C109. In particular, for patterns of unsigned integers of some bits and factors `f` with
`f² 2^bits ≤ 2²⁴`: up to 256 for 8 bits and up to 16 for 16 bits. -/
theorem C109_unsigned_exact (bits f rows cols : ℕ) (hbits : f * f * 2 ^ bits ≤ 2 ^ 24)
    (p : ℕ → ℕ → ℤ) (hp : ∀ y x, 0 ≤ p y x ∧ p y x < 2 ^ bits)
    (order : ℕ → ℕ → SumOrder (BlockIndex f f)) (ho : ∀ r c, AddsEveryPixelOnce (order r c))
    (r c : ℕ) (hr : r < rows / f) (hc : c < cols / f) :
    (binFl f order (intImg rows cols p)).val r c = (blockTotal f p r c : ℝ) := by
  refine (C109_blocks_exact f rows cols p order r c hr hc (ho r c) ?_).1
  unfold blockTotal
  calc ∑ i ∈ range f, ∑ j ∈ range f, |p (r * f + i) (c * f + j)|
      ≤ ∑ _i ∈ range f, ∑ _j ∈ range f, (2 ^ bits : ℤ) :=
        Finset.sum_le_sum fun i _ => Finset.sum_le_sum fun j _ => by
          rw [abs_of_nonneg (hp _ _).1]
          exact (hp _ _).2.le
    _ = ((f * f * 2 ^ bits : ℕ) : ℤ) := by
        simp only [sum_const, card_range, nsmul_eq_mul]
        push_cast
        ring
    _ ≤ 2 ^ 24 := by exact_mod_cast hbits

/-- C109. Downsampled patterns of integers with exact block sums, whatever the order of the sums and the
evaluation of the rescaling: a block that is at least as bright as another one is not darker after
downsampling, no pixel is below the lower limit, and the darkest block has the lower limit. With a
division, the brightest block has the upper limit, and all pixels are within the limits. -/
theorem C109_downsample (F : Formats ℝ) (e : Evaluation) (f rows cols : ℕ) (p : ℕ → ℕ → ℤ)
    (order : ℕ → ℕ → SumOrder (BlockIndex f f)) (ho : ∀ r c, AddsEveryPixelOnce (order r c))
    (hp : ∀ r < rows / f, ∀ c < cols / f, blockTotal f (fun y x => |p y x|) r c ≤ 2 ^ 24)
    (hsub : ∀ z : ℤ, |z| ≤ 2 ^ 24 → F.sub.fl (z : ℝ) = z)
    {r₀ c₀ r₁ c₁ : ℕ} (h₀ : r₀ < rows / f ∧ c₀ < cols / f) (h₁ : r₁ < rows / f ∧ c₁ < cols / f)
    (hne : blockTotal f p r₀ c₀ ≠ blockTotal f p r₁ c₁)
    (omin omax : ℝ) (hom : omin ≤ omax) (d : DType)
    (hlow : F.add.fl omin = omin) (hlc : castFl F d omin = omin) :
    let out := downsample2dFl F e f order (intImg rows cols p) omin omax d
    (∀ r < rows / f, ∀ c < cols / f, ∀ r' < rows / f, ∀ c' < cols / f,
      blockTotal f p r c ≤ blockTotal f p r' c' → out.val r c ≤ out.val r' c') ∧
    (∀ r < rows / f, ∀ c < cols / f, omin ≤ out.val r c) ∧
    (∀ r < rows / f, ∀ c < cols / f, (∀ r' < rows / f, ∀ c' < cols / f,
      blockTotal f p r c ≤ blockTotal f p r' c') → out.val r c = omin) ∧
    (e = .written ∨ e = .fused → F.add.fl omax = omax → F.mul.fl (omax - omin) = omax - omin →
      castFl F d omax = omax → (∀ r < rows / f, ∀ c < cols / f, out.val r c ≤ omax) ∧
      ∀ r < rows / f, ∀ c < cols / f, (∀ r' < rows / f, ∀ c' < cols / f,
        blockTotal f p r' c' ≤ blockTotal f p r c) → out.val r c = omax) := by
  intro out
  set b := binFl f order (intImg rows cols p) with hb
  have hval : ∀ r < rows / f, ∀ c < cols / f, b.val r c = (blockTotal f p r c : ℝ) :=
    fun r hr c hc => (C109_blocks_exact f rows cols p order r c hr hc (ho r c) (hp r hr c hc)).1
  have hint : ∀ r < rows / f, ∀ c < cols / f, F.sub.fl (b.val r c) = b.val r c := by
    intro r hr c hc
    rw [hval r hr c hc]
    refine hsub _ (le_trans ?_ (hp r hr c hc))
    exact (Finset.abs_sum_le_sum_abs _ _).trans
      (Finset.sum_le_sum fun i _ => Finset.abs_sum_le_sum_abs _ _)
  have hmemiff : ∀ x, x ∈ b.pixels ↔ ∃ r < b.rows, ∃ c < b.cols, b.val r c = x :=
    fun _ => mem_pixels
  have hmem : ∀ r < rows / f, ∀ c < cols / f, b.val r c ∈ b.pixels := fun r hr c hc =>
    (hmemiff _).mpr ⟨r, hr, c, hc, rfl⟩
  have hne0 : b.pixels ≠ [] := List.ne_nil_of_mem (hmem r₀ h₀.1 c₀ h₀.2)
  have hlt : listMin b.pixels < listMax b.pixels := by
    refine listMin_lt_listMax (hmem r₀ h₀.1 c₀ h₀.2) (hmem r₁ h₁.1 c₁ h₁.2) ?_
    rw [hval _ h₀.1 _ h₀.2, hval _ h₁.1 _ h₁.2]
    exact_mod_cast hne
  have hf : ∀ x ∈ b.pixels, F.sub.fl x = x := by
    intro x hx
    obtain ⟨r, hr, c, hc, rfl⟩ := (hmemiff x).mp hx
    exact hint r hr c hc
  have hmin := hf _ (listMin_mem hne0)
  have hmax := hf _ (listMax_mem hne0)
  have hmono : Monotone fun x => castFl F d
      (rescalePixelFl F e (listMin b.pixels) (listMax b.pixels) omin omax x) :=
    (castFl_mono F d).comp (rescalePixelFl_mono F e hmin hmax hlt hom)
  have hout : ∀ r c, out.val r c = castFl F d
      (rescalePixelFl F e (listMin b.pixels) (listMax b.pixels) omin omax (b.val r c)) :=
    fun r c => rfl
  have elow : castFl F d (rescalePixelFl F e (listMin b.pixels) (listMax b.pixels) omin omax
      (listMin b.pixels)) = omin := by
    rw [rescalePixelFl_min F e hlow, hlc]
  refine ⟨?_, ?_, ?_, ?_⟩
  · intro r hr c hc r' hr' c' hc' h
    rw [hout, hout]
    refine hmono ?_
    rw [hval r hr c hc, hval r' hr' c' hc']
    exact_mod_cast h
  · intro r hr c hc
    have := hmono (listMin_le _ (hmem r hr c hc))
    simp only [elow] at this
    rw [hout]
    exact this
  · intro r hr c hc h
    have : b.val r c = listMin b.pixels := by
      refine le_antisymm ?_ (listMin_le _ (hmem r hr c hc))
      obtain ⟨r', hr', c', hc', e'⟩ := (hmemiff _).mp (listMin_mem hne0)
      rw [← e', hval r hr c hc, hval r' hr' c' hc']
      exact_mod_cast h r' hr' c' hc'
    rw [hout, this, elow]
  · intro he ha hw hca
    have ehigh : castFl F d (rescalePixelFl F e (listMin b.pixels) (listMax b.pixels) omin omax
        (listMax b.pixels)) = omax := by
      rw [rescalePixelFl_max F e he hmin hmax hlt ha hw, hca]
    refine ⟨?_, ?_⟩
    · intro r hr c hc
      have := hmono (le_listMax _ (hmem r hr c hc))
      simp only [ehigh] at this
      rw [hout]
      exact this
    · intro r hr c hc h
      have : b.val r c = listMax b.pixels := by
        refine le_antisymm (le_listMax _ (hmem r hr c hc)) ?_
        obtain ⟨r', hr', c', hc', e'⟩ := (hmemiff _).mp (listMax_mem hne0)
        rw [← e', hval r hr c hc, hval r' hr' c' hc']
        exact_mod_cast h r' hr' c' hc'
      rw [hout, this, ehigh]

/-- Everything in float64, and output of floating point type in float32, over the real numbers. -/
def realFormats : Formats ℝ where
  sub := .binary 53 (-1074) (by norm_num) (by norm_num)
  div := .binary 53 (-1074) (by norm_num) (by norm_num)
  mul := .binary 53 (-1074) (by norm_num) (by norm_num)
  add := .binary 53 (-1074) (by norm_num) (by norm_num)
  out := .binary 24 (-149) (by norm_num) (by norm_num)

theorem double_int {z : ℤ} (h : |z| ≤ 2 ^ 53) : binaryRound 53 (-1074) (z : ℝ) = z :=
  fl_int .float64 h

/-- Some order of the pixels of each block. -/
theorem exists_orders (f : ℕ) (hf : 0 < f) :
    ∃ order : ℕ → ℕ → SumOrder (BlockIndex f f), ∀ r c, AddsEveryPixelOnce (order r c) := by
  have : Nonempty (BlockIndex f f) := ⟨(⟨0, hf⟩, ⟨0, hf⟩)⟩
  obtain ⟨s, hs⟩ := exists_order (ι := BlockIndex f f)
  exact ⟨fun _ _ => s, fun _ _ => hs⟩

/-- An 8-bit pattern of 4 x 4 pixels downsampled by 2 to 8-bit integers meets the conditions. -/
example : let p : ℕ → ℕ → ℤ := fun r c => 60 * r + 5 * c
    (∃ order : ℕ → ℕ → SumOrder (BlockIndex 2 2), ∀ r c, AddsEveryPixelOnce (order r c)) ∧
    (∀ r < 4 / 2, ∀ c < 4 / 2, blockTotal 2 (fun y x => |p y x|) r c ≤ 2 ^ 24) ∧
    (∀ z : ℤ, |z| ≤ 2 ^ 24 → realFormats.sub.fl (z : ℝ) = z) ∧
    blockTotal 2 p 0 0 ≠ blockTotal 2 p 1 1 ∧ (0 : ℝ) ≤ 255 ∧
    realFormats.add.fl 0 = 0 ∧ castFl realFormats (.uint 8) 0 = 0 ∧
    realFormats.add.fl 255 = 255 ∧ realFormats.mul.fl (255 - 0) = 255 - 0 ∧
    castFl realFormats (.uint 8) 255 = 255 := by
  have h255 : binaryRound 53 (-1074) (255 : ℝ) = 255 := by
    simpa using double_int (z := 255) (by norm_num)
  refine ⟨exists_orders 2 two_pos, by decide, fun z hz => double_int (hz.trans (by norm_num)), by decide,
    by norm_num, realFormats.add.zero, by simp [castFl, truncate], h255, ?_, ?_⟩
  · rw [sub_zero]
    exact h255
  · simp [castFl, truncate]

/-- C109. Any pattern: a computed block sum differs from the exact sum by at most `3 (f² + 1) u` times the
sum of the absolute values, for `u = 2⁻²⁴`, besides underflow, for factors up to 512. -/
theorem C109_blocks_error (f : ℕ) (hf : 0 < f) (hf' : f ≤ 512) (p : Img ℝ)
    (order : ℕ → ℕ → SumOrder (BlockIndex f f)) (r c : ℕ)
    (ho : AddsEveryPixelOnce (order r c)) :
    |(binFl f order p).val r c - ∑ i ∈ range f, ∑ j ∈ range f, p.val (r * f + i) (c * f + j)| ≤
      3 * (f ^ 2 + 1) * unitRoundoff .float32 *
        ∑ i ∈ range f, ∑ j ∈ range f, |p.val (r * f + i) (c * f + j)| + 2 ^ (-70 : ℤ) := by
  rw [← sum_block f fun i j => p.val (r * f + i) (c * f + j),
    ← sum_block f fun i j => |p.val (r * f + i) (c * f + j)|]
  set x : BlockIndex f f → ℝ := fun i => p.val (r * f + i.1) (c * f + i.2) with hx
  have hcard : Fintype.card (BlockIndex f f) = f * f := by simp
  have hfR : (1 : ℝ) ≤ f := by exact_mod_cast hf
  have hfR' : (f : ℝ) ≤ 512 := by exact_mod_cast hf'
  have hff : (f : ℝ) * f ≤ 512 * 512 := mul_le_mul hfR' hfR' (by linarith) (by norm_num)
  have hu : unitRoundoff .float32 = 1 / 2 ^ 24 := unitRoundoff_float32
  have hS := smallError .float32 (n := Fintype.card (BlockIndex f f))
    (by rw [hcard]; exact Nat.mul_pos hf hf) (by
      rw [hcard, hu]
      push_cast
      linarith)
  have e := hS.sum_error ho (fun i => MetricType.float32.fl (x i)) (fun _ => 1)
  simp only [mul_one] at e
  have e1 : ∀ i, |MetricType.float32.fl (x i) - x i| ≤ unitRoundoff .float32 * |x i| + 2 ^ (-150 : ℤ) :=
    fun i => by
      have := binaryRound_abs_error 24 (-149) (x i)
      simpa [MetricType.fl, unitRoundoff, MetricType.digits, MetricType.emin] using this
  have e2 : |∑ i, MetricType.float32.fl (x i) - ∑ i, x i| ≤
      unitRoundoff .float32 * ∑ i, |x i| + f * f * 2 ^ (-150 : ℤ) := by
    rw [← Finset.sum_sub_distrib]
    refine (Finset.abs_sum_le_sum_abs _ _).trans ((Finset.sum_le_sum fun i _ => e1 i).trans_eq ?_)
    rw [Finset.sum_add_distrib, ← Finset.mul_sum, Finset.sum_const, Finset.card_univ, hcard,
      nsmul_eq_mul]
    push_cast
    ring
  have e3 : ∑ i, |MetricType.float32.fl (x i)| ≤
      (1 + unitRoundoff .float32) * ∑ i, |x i| + f * f * 2 ^ (-150 : ℤ) := by
    have : ∀ i, |MetricType.float32.fl (x i)| ≤
        (1 + unitRoundoff .float32) * |x i| + 2 ^ (-150 : ℤ) := fun i => by
      have h := abs_sub_abs_le_abs_sub (MetricType.float32.fl (x i)) (x i)
      linarith [e1 i]
    refine (Finset.sum_le_sum fun i _ => this i).trans_eq ?_
    rw [Finset.sum_add_distrib, ← Finset.mul_sum, Finset.sum_const, Finset.card_univ, hcard,
      nsmul_eq_mul]
    push_cast
    ring
  have hA : 0 ≤ ∑ i, |x i| := Finset.sum_nonneg fun _ _ => abs_nonneg _
  have hval : (binFl f order p).val r c = (order r c).eval MetricType.float32.fl
      (fun i => MetricType.float32.fl (x i)) fun _ => 1 := rfl
  rw [hval]
  rw [hcard, hu] at e
  rw [hu] at e2 e3 ⊢
  set A := ∑ i, |x i|
  push_cast at e
  have t : |(order r c).eval MetricType.float32.fl (fun i => MetricType.float32.fl (x i)) (fun _ => 1) -
      ∑ i, x i| ≤ 64 / 63 * ((f : ℝ) * f * (1 / 2 ^ 24)) * ∑ i, |MetricType.float32.fl (x i)| +
        (1 / 2 ^ 24) ^ 3 / 16 + (1 / 2 ^ 24 * A + f * f * 2 ^ (-150 : ℤ)) := by
    refine (abs_sub_le _ (∑ i, MetricType.float32.fl (x i)) _).trans ?_
    exact add_le_add e e2
  have m1 : 64 / 63 * ((f : ℝ) * f * (1 / 2 ^ 24)) * ∑ i, |MetricType.float32.fl (x i)| ≤
      64 / 63 * ((f : ℝ) * f * (1 / 2 ^ 24)) *
        ((1 + 1 / 2 ^ 24) * A + f * f * 2 ^ (-150 : ℤ)) :=
    mul_le_mul_of_nonneg_left e3 (by positivity)
  have hfA : 0 ≤ (f : ℝ) * f * A := by positivity
  have hz : (2 : ℝ) ^ (-150 : ℤ) = 1 / 2 ^ 150 := by norm_num
  have hz' : (2 : ℝ) ^ (-70 : ℤ) = 1 / 2 ^ 70 := by norm_num
  rw [hz] at t m1
  rw [hz']
  have q1 : (f : ℝ) * f * (1 / 2 ^ 150) ≤ 1 / 2 ^ 132 := by
    calc (f : ℝ) * f * (1 / 2 ^ 150) ≤ 512 * 512 * (1 / 2 ^ 150) :=
          mul_le_mul_of_nonneg_right hff (by norm_num)
      _ = 1 / 2 ^ 132 := by norm_num
  have q2 : (f : ℝ) * f * (f * f * (1 / 2 ^ 150)) ≤ 512 * 512 * (1 / 2 ^ 132) :=
    mul_le_mul hff q1 (by positivity) (by norm_num)
  nlinarith

/-- Row by row and from left to right, as written in `_bin2d`. -/
def rowByRow : SumOrder (BlockIndex 2 2) :=
  .plus (.plus (.plus (.term (0, 0)) (.term (0, 1))) (.term (1, 0))) (.term (1, 1))

/-- A pattern of 2 x 4 pixels with 32-bit integers. -/
def brightBlocks : ℕ → ℕ → ℤ := fun r c =>
  if r = 0 then (if c = 0 then 2 ^ 26 else 3)
  else if c = 2 then 2 ^ 26 else if c = 3 then 0 else 3

theorem rowByRow_all : AddsEveryPixelOnce rowByRow := by
  unfold AddsEveryPixelOnce
  rw [List.perm_ext_iff_of_nodup (by decide) (Finset.nodup_toList _)]
  intro i
  simp only [mem_toList, mem_univ, iff_true]
  revert i
  decide

theorem brightBlocks_sums (order : ℕ → ℕ → SumOrder (BlockIndex 2 2)) (h0 : order 0 0 = rowByRow)
    (h1 : order 0 1 = rowByRow) : (binFl 2 order (intImg 2 4 brightBlocks)).pixels =
      [2 ^ 26, 2 ^ 26 + 8] := by
  have i : ∀ z : ℤ, |z| ≤ 2 ^ 24 → MetricType.float32.fl z = z := fun z hz => fl_int _ hz
  have i0 : MetricType.float32.fl 0 = 0 := by simpa using i 0 (by norm_num)
  have i3 : MetricType.float32.fl 3 = 3 := by simpa using i 3 (by norm_num)
  have i6 : MetricType.float32.fl 6 = 6 := by simpa using i 6 (by norm_num)
  have big : ∀ (x : ℝ) (m : ℤ), 2 ^ 26 ≤ x → x < 2 ^ 27 → |x / 8 - m| < 1 / 2 →
      MetricType.float32.fl x = m * 8 := by
    intro x m h1 h2 h3
    have := binaryRound_eq (K := ℝ) (p := 24) (emin := -149) (e := 26) (x := x) m
      (by norm_num at h1 ⊢; exact h1) (by norm_num at h2 ⊢; exact h2) (by norm_num)
      (by norm_num at h3 ⊢; exact h3)
    rw [MetricType.fl, MetricType.digits, MetricType.emin, this]
    norm_num
  have b0 : MetricType.float32.fl 67108864 = 67108864 := by
    rw [big 67108864 8388608 (by norm_num) (by norm_num) (by norm_num)]; norm_num
  have b3 : MetricType.float32.fl 67108867 = 67108864 := by
    rw [big 67108867 8388608 (by norm_num) (by norm_num) (by rw [abs_lt]; norm_num)]; norm_num
  have b6 : MetricType.float32.fl 67108870 = 67108872 := by
    rw [big 67108870 8388609 (by norm_num) (by norm_num) (by rw [abs_lt]; norm_num)]; norm_num
  have b8 : MetricType.float32.fl 67108872 = 67108872 := by
    rw [big 67108872 8388609 (by norm_num) (by norm_num) (by norm_num)]; norm_num
  have e0 : (binFl 2 order (intImg 2 4 brightBlocks)).val 0 0 = 2 ^ 26 := by
    simp only [binFl, h0, rowByRow, SumOrder.eval, intImg, brightBlocks]
    norm_num [b0, b3, i3]
  have e1 : (binFl 2 order (intImg 2 4 brightBlocks)).val 0 1 = 2 ^ 26 + 8 := by
    simp only [binFl, h1, rowByRow, SumOrder.eval, intImg, brightBlocks]
    norm_num [b0, b6, b8, i3, i6, i0]
  have : (binFl 2 order (intImg 2 4 brightBlocks)).pixels =
      [(binFl 2 order (intImg 2 4 brightBlocks)).val 0 0, (binFl 2 order (intImg 2 4 brightBlocks)).val 0 1] := by
    rfl
  rw [this, e0, e1]

/-- C109 (violation): in a pattern of 32-bit integers, the first block is brighter than the second. Summed
in float32 in the order in which `_bin2d` is written, the first becomes the darkest, and is black after
downsampling, while the second is white. -/
theorem C109_brightness_violated (F : Formats ℝ)
    (hF : LimitsInFormat F (.uint 8) (2 ^ 26) (2 ^ 26 + 8) 0 255) :
    (∀ y x, 0 ≤ brightBlocks y x ∧ brightBlocks y x < 2 ^ 32) ∧ AddsEveryPixelOnce rowByRow ∧
    blockTotal 2 brightBlocks 0 1 < blockTotal 2 brightBlocks 0 0 ∧
    let out := downsample2dFl F .written 2 (fun _ _ => rowByRow) (intImg 2 4 brightBlocks) 0 255 (.uint 8)
    out.val 0 0 = 0 ∧ out.val 0 1 = 255 := by
  refine ⟨?_, rowByRow_all, by decide, ?_⟩
  · intro y x
    unfold brightBlocks
    split_ifs <;> norm_num
  · have hp := brightBlocks_sums (fun _ _ => rowByRow) rfl rfl
    have hl : (binFl 2 (fun _ _ => rowByRow) (intImg 2 4 brightBlocks)).pixels =
      [(binFl 2 (fun _ _ => rowByRow) (intImg 2 4 brightBlocks)).val 0 0,
        (binFl 2 (fun _ _ => rowByRow) (intImg 2 4 brightBlocks)).val 0 1] := by rfl
    have hp' := hl.symm.trans hp
    simp only [List.cons.injEq, and_true] at hp'
    have hmin : listMin [(2 : ℝ) ^ 26, 2 ^ 26 + 8] = 2 ^ 26 := by norm_num [listMin]
    have hmax : listMax [(2 : ℝ) ^ 26, 2 ^ 26 + 8] = 2 ^ 26 + 8 := by norm_num [listMax]
    simp only [downsample2dFl, Img.mapVal, hp, hmin, hmax, hp'.1, hp'.2]
    constructor
    · rw [rescalePixelFl_min F .written hF.outLow, hF.lowCast]
    · rw [rescalePixelFl_max F .written (.inl rfl) hF.inLow hF.inHigh (by norm_num) hF.outHigh hF.width,
        hF.highCast]

example : LimitsInFormat realFormats (.uint 8) (2 ^ 26) (2 ^ 26 + 8) 0 255 := by
  have h255 : binaryRound 53 (-1074) (255 : ℝ) = 255 := by
    simpa using double_int (z := 255) (by norm_num)
  refine ⟨?_, ?_, realFormats.add.zero, h255, ?_, by simp [castFl, truncate], by simp [castFl, truncate]⟩
  · have := double_int (z := 67108864) (by norm_num)
    rw [show (2 : ℝ) ^ 26 = ((67108864 : ℤ) : ℝ) by norm_num]
    exact this
  · have := double_int (z := 67108872) (by norm_num)
    rw [show (2 : ℝ) ^ 26 + 8 = ((67108872 : ℤ) : ℝ) by norm_num]
    exact this
  · rw [sub_zero]
    exact h255

/-! ### Averaging of neighbours -/

/-- A window of integer coefficients which are not negative, such as a circular or rectangular one. -/
def intWindow (rows cols : ℕ) (w : ℕ → ℕ → ℕ) : Img ℝ := ⟨rows, cols, fun r c => (w r c : ℝ)⟩

theorem sum_block' {M : Type*} [AddCommMonoid M] (m n : ℕ) (g : ℕ → ℕ → M) :
    ∑ i : BlockIndex m n, g i.1 i.2 = ∑ i ∈ range m, ∑ j ∈ range n, g i j := by
  rw [Fintype.sum_prod_type, Finset.sum_range]
  refine Finset.sum_congr rfl fun i _ => ?_
  rw [Finset.sum_range]

/-- Coefficients of the window where it is inside the map. -/
def insideWeight (map : Img (ℕ → ℝ)) (wr wc : ℕ) (w : ℕ → ℕ → ℕ) (r c : ℕ) (i : BlockIndex wr wc) : ℤ :=
  let y : ℤ := (r : ℤ) + i.1 - (wr / 2 : ℕ)
  let x : ℤ := (c : ℤ) + i.2 - (wc / 2 : ℕ)
  if 0 ≤ y ∧ y < map.rows ∧ 0 ≤ x ∧ x < map.cols then (w i.1 i.2 : ℤ) else 0

theorem neighbourSum_eq (map : Img (ℕ → ℝ)) (wr wc : ℕ) (w : ℕ → ℕ → ℕ) (f : ℕ → ℕ → ℝ) (r c : ℕ) :
    neighbourSum map.rows map.cols (intWindow wr wc w) f r c =
      ∑ i : BlockIndex wr wc, (insideWeight map wr wc w r c i : ℝ) *
        f ((r : ℤ) + i.1 - (wr / 2 : ℕ)).toNat ((c : ℤ) + i.2 - (wc / 2 : ℕ)).toNat := by
  unfold neighbourSum insideWeight intWindow
  simp only
  rw [← sum_block']
  refine Finset.sum_congr rfl fun i _ => ?_
  split_ifs <;> simp

theorem windowSums_int (map : Img (ℕ → ℝ)) (wr wc : ℕ) (w : ℕ → ℕ → ℕ) (r c : ℕ) :
    (windowSums map.rows map.cols (intWindow wr wc w) r c : ℝ) =
        neighbourSum map.rows map.cols (intWindow wr wc w) (fun _ _ => 1) r c ∧
      (windowSums map.rows map.cols (intWindow wr wc w) r c : ℤ) =
        ∑ i : BlockIndex wr wc, insideWeight map wr wc w r c i := by
  have h := neighbourSum_eq map wr wc w (fun _ _ => 1) r c
  simp only [mul_one] at h
  rw [← Int.cast_sum] at h
  have e : windowSums map.rows map.cols (intWindow wr wc w) r c =
      ∑ i : BlockIndex wr wc, insideWeight map wr wc w r c i := by
    unfold windowSums
    rw [correlateConst_eq]
    change truncInt (neighbourSum map.rows map.cols (intWindow wr wc w) (fun _ _ => 1) r c) = _
    rw [h]
    generalize ∑ i : BlockIndex wr wc, insideWeight map wr wc w r c i = z
    unfold truncInt
    split_ifs <;> simp
  exact ⟨by rw [e, h], e⟩

/-- A map of patterns of integers. -/
def intMap (rows cols : ℕ) (p : ℕ → ℕ → ℕ → ℤ) : Img (ℕ → ℝ) :=
  ⟨rows, cols, fun y x px => (p y x px : ℝ)⟩

/-- The sum of a pixel under the window, of integers. -/
theorem average_sum (rows cols wr wc : ℕ) (w : ℕ → ℕ → ℕ) (p : ℕ → ℕ → ℕ → ℤ) (px r c : ℕ)
    (order : SumOrder (BlockIndex wr wc)) (ho : AddsEveryPixelOnce order)
    (hp : neighbourSum rows cols (intWindow wr wc w) (fun y x => |(p y x px : ℝ)|) r c ≤ 2 ^ 24)
    (hpx : ∀ y < rows, ∀ x < cols, |p y x px| ≤ 2 ^ 24) :
    MetricType.float32.fl (order.eval MetricType.float64.fl (fun i => (intWindow wr wc w).val i.1 i.2)
      (underWindow (intMap rows cols p) px wr wc r c)) =
      neighbourSum rows cols (intWindow wr wc w) (fun y x => (p y x px : ℝ)) r c := by
  set Y : BlockIndex wr wc → ℕ := fun i => ((r : ℤ) + i.1 - (wr / 2 : ℕ)).toNat
  set X : BlockIndex wr wc → ℕ := fun i => ((c : ℤ) + i.2 - (wc / 2 : ℕ)).toNat
  set b : BlockIndex wr wc → ℤ := fun i =>
    if 0 ≤ (r : ℤ) + i.1 - (wr / 2 : ℕ) ∧ (r : ℤ) + i.1 - (wr / 2 : ℕ) < rows ∧
      0 ≤ (c : ℤ) + i.2 - (wc / 2 : ℕ) ∧ (c : ℤ) + i.2 - (wc / 2 : ℕ) < cols
    then p (Y i) (X i) px else 0 with hb
  have hu : underWindow (intMap rows cols p) px wr wc r c = fun i => (b i : ℝ) := by
    funext i
    change ((if 0 ≤ (r : ℤ) + i.1 - (wr / 2 : ℕ) ∧ (r : ℤ) + i.1 - (wr / 2 : ℕ) < rows ∧
      0 ≤ (c : ℤ) + i.2 - (wc / 2 : ℕ) ∧ (c : ℤ) + i.2 - (wc / 2 : ℕ) < cols
      then some (fun px => (p (Y i) (X i) px : ℝ)) else none).map
        fun p => MetricType.float32.fl (p px)).getD 0 = (b i : ℝ)
    simp only [hb]
    split_ifs with h
    · simp only [Option.map_some, Option.getD_some]
      exact fl_int .float32 (hpx _ (by simp only [Y]; omega) _ (by simp only [X]; omega))
    · simp
  have key : ∀ g : ℤ → ℤ, g 0 = 0 → ∀ G : ℝ → ℝ, (∀ z : ℤ, G z = (g z : ℤ)) →
      neighbourSum rows cols (intWindow wr wc w) (fun y x => G (p y x px : ℝ)) r c =
        ((∑ i, (w i.1 i.2 : ℤ) * g (b i) : ℤ) : ℝ) := by
    intro g g0 G hG
    have := neighbourSum_eq (intMap rows cols p) wr wc w (fun y x => G (p y x px : ℝ)) r c
    refine this.trans ?_
    push_cast
    refine Finset.sum_congr rfl fun i _ => ?_
    change ((if 0 ≤ (r : ℤ) + i.1 - (wr / 2 : ℕ) ∧ (r : ℤ) + i.1 - (wr / 2 : ℕ) < rows ∧
      0 ≤ (c : ℤ) + i.2 - (wc / 2 : ℕ) ∧ (c : ℤ) + i.2 - (wc / 2 : ℕ) < cols
      then (w i.1 i.2 : ℤ) else 0 : ℤ) : ℝ) * G (p (Y i) (X i) px) = _
    simp only [hb, hG]
    split_ifs with h <;> simp [g0]
  have k1 := key (fun z => |z|) abs_zero (fun x => |x|) (fun z => by push_cast; rfl)
  have k2 := key (fun z => z) rfl (fun x => x) (fun z => rfl)
  rw [k1] at hp
  have hp' : ∑ i : BlockIndex wr wc, |(w i.1 i.2 : ℤ) * b i| ≤ 2 ^ 24 := by
    have : ∑ i : BlockIndex wr wc, (w i.1 i.2 : ℤ) * |b i| ≤ 2 ^ 24 := by exact_mod_cast hp
    refine le_trans (le_of_eq ?_) this
    refine Finset.sum_congr rfl fun i _ => ?_
    rw [abs_mul, Nat.abs_cast]
  have h := eval_int .float64 (fun i : BlockIndex wr wc => (w i.1 i.2 : ℤ)) b
    (hp'.trans (by norm_num [MetricType.digits])) order ho
  have hw : (fun i : BlockIndex wr wc => (intWindow wr wc w).val i.1 i.2) =
      fun i => (((w i.1 i.2 : ℕ) : ℤ) : ℝ) := by
    funext i
    simp [intWindow]
  rw [hu, hw, h, k2]
  exact fl_int .float32 ((Finset.abs_sum_le_sum_abs _ _).trans hp')

theorem averageFl_int (reciprocal : Bool) (rows cols wr wc : ℕ) (w : ℕ → ℕ → ℕ)
    (p : ℕ → ℕ → ℕ → ℤ) (px r c : ℕ) (order : SumOrder (BlockIndex wr wc))
    (ho : AddsEveryPixelOnce order)
    (hp : neighbourSum rows cols (intWindow wr wc w) (fun y x => |(p y x px : ℝ)|) r c ≤ 2 ^ 24)
    (hpx : ∀ y < rows, ∀ x < cols, |p y x px| ≤ 2 ^ 24) :
    averageFl reciprocal (intWindow wr wc w) order (intMap rows cols p) px r c =
      if reciprocal then
        MetricType.float64.fl
          (neighbourSum rows cols (intWindow wr wc w) (fun y x => (p y x px : ℝ)) r c *
            MetricType.float64.fl (1 / (windowSums rows cols (intWindow wr wc w) r c : ℝ)))
      else MetricType.float64.fl
        (neighbourSum rows cols (intWindow wr wc w) (fun y x => (p y x px : ℝ)) r c /
          (windowSums rows cols (intWindow wr wc w) r c : ℝ)) := by
  have e : averageFl reciprocal (intWindow wr wc w) order (intMap rows cols p) px r c =
      (fun s n : ℝ => if reciprocal then MetricType.float64.fl (s * MetricType.float64.fl (1 / n))
        else MetricType.float64.fl (s / n))
        (MetricType.float32.fl (order.eval MetricType.float64.fl
          (fun i => (intWindow wr wc w).val i.1 i.2) (underWindow (intMap rows cols p) px wr wc r c)))
        (windowSums rows cols (intWindow wr wc w) r c) := rfl
  rw [e, average_sum rows cols wr wc w p px r c order ho hp hpx]

/-- C109. A map of patterns of integers and a window of integers, such that the sum of absolute values
under the window is at most `2²⁴`: whatever the order of the sums, and also at the edges of the map, an
averaged pixel is the weighted mean over the points inside the map, rounded once to float64. -/
theorem C109_average_rounded_once (rows cols wr wc : ℕ) (w : ℕ → ℕ → ℕ) (p : ℕ → ℕ → ℕ → ℤ)
    (px r c : ℕ) (order : SumOrder (BlockIndex wr wc)) (ho : AddsEveryPixelOnce order)
    (hp : neighbourSum rows cols (intWindow wr wc w) (fun y x => |(p y x px : ℝ)|) r c ≤ 2 ^ 24)
    (hpx : ∀ y < rows, ∀ x < cols, |p y x px| ≤ 2 ^ 24) :
    averageFl false (intWindow wr wc w) order (intMap rows cols p) px r c =
      MetricType.float64.fl
        (neighbourMean rows cols (intWindow wr wc w) (fun y x => (p y x px : ℝ)) r c) := by
  have hn : (windowSums rows cols (intWindow wr wc w) r c : ℝ) =
    neighbourSum rows cols (intWindow wr wc w) (fun _ _ => 1) r c :=
      (windowSums_int (intMap rows cols p) wr wc w r c).1
  rw [averageFl_int false rows cols wr wc w p px r c order ho hp hpx, if_neg (by decide), hn]
  rfl

/-- C109. If all patterns have the same intensity in a pixel, averaging does not change it, neither inside the
map nor at its edges. -/
theorem C109_average_identical (rows cols wr wc : ℕ) (w : ℕ → ℕ → ℕ) (p : ℕ → ℕ → ℕ → ℤ) (v : ℤ)
    (px r c : ℕ) (order : SumOrder (BlockIndex wr wc)) (ho : AddsEveryPixelOnce order)
    (hv : ∀ y < rows, ∀ x < cols, p y x px = v)
    (hw : 0 < neighbourSum rows cols (intWindow wr wc w) (fun _ _ => 1) r c)
    (hp : |v| * neighbourSum rows cols (intWindow wr wc w) (fun _ _ => 1) r c ≤ 2 ^ 24) :
    averageFl false (intWindow wr wc w) order (intMap rows cols p) px r c = v := by
  set n := neighbourSum rows cols (intWindow wr wc w) (fun _ _ => 1) r c with hn
  have hsum : ∀ G : ℝ → ℝ, neighbourSum rows cols (intWindow wr wc w)
      (fun y x => G (p y x px : ℝ)) r c = G v * n := by
    intro G
    rw [hn]
    unfold neighbourSum
    rw [Finset.mul_sum]
    refine Finset.sum_congr rfl fun i _ => ?_
    rw [Finset.mul_sum]
    refine Finset.sum_congr rfl fun j _ => ?_
    simp only
    split_ifs with h
    · rw [hv _ (by omega) _ (by omega)]
      ring
    · rw [mul_zero]
  have h1 : (1 : ℝ) ≤ n := by
    have e := windowSums_int (intMap rows cols p) wr wc w r c
    have e1 : (windowSums rows cols (intWindow wr wc w) r c : ℝ) = n := e.1
    rw [← e1] at hw ⊢
    have : (0 : ℤ) < windowSums rows cols (intWindow wr wc w) r c := by exact_mod_cast hw
    exact_mod_cast this
  have hv' : |v| ≤ 2 ^ 24 := by
    have h0 : (0 : ℝ) ≤ |(v : ℝ)| := abs_nonneg _
    have : |(v : ℝ)| ≤ 2 ^ 24 := by
      push_cast at hp
      nlinarith
    exact_mod_cast this
  rw [C109_average_rounded_once rows cols wr wc w p px r c order ho
    (by rw [hsum fun x => |x|]; push_cast at hp; exact hp)
    (fun y hy x hx => by rw [hv y hy x hx]; exact hv')]
  unfold neighbourMean
  rw [hsum fun x => x, ← hn, mul_div_assoc, div_self (by linarith), mul_one]
  exact fl_int .float64 (hv'.trans (by norm_num [MetricType.digits]))

/-- C109. Averaged and rescaled patterns of integers: whatever the orders of the sums and the evaluations, a
pixel whose mean is at least that of another pixel is not darker, and no pixel is below the lower
limit. -/
theorem C109_average_order (F : Formats ℝ) (e : Evaluation) (reciprocal : Bool) (rows cols wr wc : ℕ)
    (w : ℕ → ℕ → ℕ) (p : ℕ → ℕ → ℕ → ℤ) (m r c : ℕ) (order : ℕ → SumOrder (BlockIndex wr wc))
    (ho : ∀ px, AddsEveryPixelOnce (order px))
    (hp : ∀ px < m, neighbourSum rows cols (intWindow wr wc w) (fun y x => |(p y x px : ℝ)|) r c ≤ 2 ^ 24)
    (hpx : ∀ px < m, ∀ y < rows, ∀ x < cols, |p y x px| ≤ 2 ^ 24)
    (hsub : ∀ x, F.sub.fl (MetricType.float64.fl x) = MetricType.float64.fl x)
    (d : DType) (omin omax : ℝ) (hom : omin ≤ omax) (hlow : F.add.fl omin = omin)
    (hlc : castFl F d omin = omin) {px₀ px₁ : ℕ} (h₀ : px₀ < m) (h₁ : px₁ < m)
    (hne : averageFl reciprocal (intWindow wr wc w) (order px₀) (intMap rows cols p) px₀ r c ≠
      averageFl reciprocal (intWindow wr wc w) (order px₁) (intMap rows cols p) px₁ r c) :
    ∃ out, averagePatternFl F e reciprocal (intWindow wr wc w) order (intMap rows cols p) m r c d omin
        omax = out ∧ out.length = m ∧ (∀ x ∈ out, omin ≤ x) ∧
      ∀ a < m, ∀ b < m,
        neighbourMean rows cols (intWindow wr wc w) (fun y x => (p y x a : ℝ)) r c ≤
          neighbourMean rows cols (intWindow wr wc w) (fun y x => (p y x b : ℝ)) r c →
        ∀ u v, out[a]? = some u → out[b]? = some v → u ≤ v := by
  set avg : ℕ → ℝ := fun px =>
    averageFl reciprocal (intWindow wr wc w) (order px) (intMap rows cols p) px r c with havg
  set l := (List.range m).map avg with hl
  have hmem : ∀ px < m, avg px ∈ l := fun px h => List.mem_map_of_mem (List.mem_range.mpr h)
  have hfl : ∀ x ∈ l, F.sub.fl x = x := by
    intro x hx
    obtain ⟨px, -, rfl⟩ := List.mem_map.mp hx
    simp only [havg, averageFl]
    split_ifs <;> exact hsub _
  have hne0 : l ≠ [] := List.ne_nil_of_mem (hmem _ h₀)
  have hlt : listMin l < listMax l := listMin_lt_listMax (hmem _ h₀) (hmem _ h₁) hne
  have hmono : Monotone fun x => castFl F d (rescalePixelFl F e (listMin l) (listMax l) omin omax x) :=
    (castFl_mono F d).comp
      (rescalePixelFl_mono F e (hfl _ (listMin_mem hne0)) (hfl _ (listMax_mem hne0)) hlt hom)
  refine ⟨l.map fun x => castFl F d (rescalePixelFl F e (listMin l) (listMax l) omin omax x), rfl,
    by simp [hl], ?_, ?_⟩
  · intro x hx
    obtain ⟨y, hy, rfl⟩ := List.mem_map.mp hx
    have := hmono (listMin_le _ hy)
    simp only [rescalePixelFl_min F e hlow, hlc] at this
    exact this
  · intro a ha b hb hab u v hu hv
    have mono64 : Monotone MetricType.float64.fl := binaryRound_mono (by norm_num [MetricType.digits]) _
    have sa := averageFl_int reciprocal rows cols wr wc w p a r c (order a) (ho a) (hp a ha) (hpx a ha)
    have sb := averageFl_int reciprocal rows cols wr wc w p b r c (order b) (ho b) (hp b hb) (hpx b hb)
    have hn := (windowSums_int (intMap rows cols p) wr wc w r c)
    have hn0 : (0 : ℝ) ≤ windowSums rows cols (intWindow wr wc w) r c := by
      have : (0 : ℤ) ≤ windowSums rows cols (intWindow wr wc w) r c := by
        have e2 := hn.2
        change windowSums rows cols (intWindow wr wc w) r c = _ at e2
        rw [e2]
        refine Finset.sum_nonneg fun i _ => ?_
        unfold insideWeight
        simp only
        split_ifs
        · exact Int.natCast_nonneg _
        · exact le_rfl
      exact_mod_cast this
    have e1 : (windowSums rows cols (intWindow wr wc w) r c : ℝ) =
      neighbourSum rows cols (intWindow wr wc w) (fun _ _ => 1) r c := hn.1
    have hle : avg a ≤ avg b := by
      rw [neighbourMean, neighbourMean, ← e1] at hab
      simp only [havg]
      rw [sa, sb]
      split_ifs with hr
      · rcases hn0.lt_or_eq with hpos | h0
        · refine mono64 (mul_le_mul_of_nonneg_right ?_ ?_)
          · exact (div_le_div_iff_of_pos_right hpos).mp hab
          · exact binaryRound_nonneg _ _ (by positivity)
        · rw [← h0]
          have z : MetricType.float64.fl (1 / 0) = 0 := by
            simpa using fl_int .float64 (z := 0) (by norm_num)
          rw [z, mul_zero, mul_zero]
      · exact mono64 hab
    have := hmono hle
    simp only [hl, List.map_map, List.getElem?_map, List.getElem?_range ha, List.getElem?_range hb,
      Option.map_some, Option.some.injEq, Function.comp] at hu hv
    rw [← hu, ← hv]
    exact this

/-- C109. Patterns of any numbers, and windows of integers with up to `2²¹` coefficients: an averaged pixel
differs from the mean over the points inside the map by at most `2⁻²²` times the mean of the absolute
values, besides underflow, whatever the order of the sums. -/
theorem C109_average_error (map : Img (ℕ → ℝ)) (wr wc : ℕ) (w : ℕ → ℕ → ℕ) (px r c : ℕ)
    (order : SumOrder (BlockIndex wr wc)) (ho : AddsEveryPixelOnce order)
    (hsize : wr * wc ≤ 2 ^ 21)
    (hw : 0 < neighbourSum map.rows map.cols (intWindow wr wc w) (fun _ _ => 1) r c) :
    |averageFl false (intWindow wr wc w) order map px r c -
        neighbourMean map.rows map.cols (intWindow wr wc w) (fun y x => map.val y x px) r c| ≤
      1 / 2 ^ 22 *
        neighbourMean map.rows map.cols (intWindow wr wc w) (fun y x => |map.val y x px|) r c +
          1 / 2 ^ 140 := by
  have e := windowSums_int map wr wc w r c
  set n := neighbourSum map.rows map.cols (intWindow wr wc w) (fun _ _ => 1) r c with hn
  have h1 : (1 : ℝ) ≤ n := by
    rw [← e.1] at hw ⊢
    have : (0 : ℤ) < windowSums map.rows map.cols (intWindow wr wc w) r c := by exact_mod_cast hw
    exact_mod_cast this
  have hA0 := neighbourSum_eq map wr wc w (fun y x => |map.val y x px|) r c
  have hN0 := neighbourSum_eq map wr wc w (fun y x => map.val y x px) r c
  have hn0 := neighbourSum_eq map wr wc w (fun _ _ => 1) r c
  simp only [mul_one] at hn0
  rw [← hn] at hn0
  unfold neighbourMean
  rw [← hn]
  set A := neighbourSum map.rows map.cols (intWindow wr wc w) (fun y x => |map.val y x px|) r c
  set N := neighbourSum map.rows map.cols (intWindow wr wc w) (fun y x => map.val y x px) r c
  set W : BlockIndex wr wc → ℝ := fun i => (insideWeight map wr wc w r c i : ℝ) with hW
  set v : BlockIndex wr wc → ℝ := fun i =>
    map.val ((r : ℤ) + i.1 - (wr / 2 : ℕ)).toNat ((c : ℤ) + i.2 - (wc / 2 : ℕ)).toNat px with hv
  change A = ∑ i, W i * |v i| at hA0
  change N = ∑ i, W i * v i at hN0
  change n = ∑ i, W i at hn0
  have hW0 : ∀ i, 0 ≤ W i := by
    intro i
    simp only [hW, insideWeight]
    split_ifs <;> simp
  have hterm : ∀ i : BlockIndex wr wc, (intWindow wr wc w).val i.1 i.2 *
      underWindow map px wr wc r c i = W i * MetricType.float32.fl (v i) := by
    intro i
    simp only [underWindow, atZ, hW, insideWeight, hv, intWindow]
    split_ifs <;> simp
  have e1 : ∀ i, |MetricType.float32.fl (v i) - v i| ≤ 1 / 2 ^ 24 * |v i| + 1 / 2 ^ 150 := fun i => by
    have := binaryRound_abs_error 24 (-149) (v i)
    norm_num [MetricType.fl, MetricType.digits, MetricType.emin] at this ⊢
    exact this
  have hA : 0 ≤ A := by
    rw [hA0]
    exact Finset.sum_nonneg fun i _ => mul_nonneg (hW0 i) (abs_nonneg _)
  have e2 : |∑ i, W i * MetricType.float32.fl (v i) - N| ≤ 1 / 2 ^ 24 * A + 1 / 2 ^ 150 * n := by
    rw [hN0, hA0, hn0, ← Finset.sum_sub_distrib, Finset.mul_sum, Finset.mul_sum,
      ← Finset.sum_add_distrib]
    refine (Finset.abs_sum_le_sum_abs _ _).trans (Finset.sum_le_sum fun i _ => ?_)
    rw [← mul_sub, abs_mul, abs_of_nonneg (hW0 i)]
    have := mul_le_mul_of_nonneg_left (e1 i) (hW0 i)
    linarith
  have e3 : ∑ i, |W i * MetricType.float32.fl (v i)| ≤ (1 + 1 / 2 ^ 24) * A + 1 / 2 ^ 150 * n := by
    rw [hA0, hn0, Finset.mul_sum, Finset.mul_sum, ← Finset.sum_add_distrib]
    refine Finset.sum_le_sum fun i _ => ?_
    rw [abs_mul, abs_of_nonneg (hW0 i)]
    have h := abs_sub_abs_le_abs_sub (MetricType.float32.fl (v i)) (v i)
    have := mul_le_mul_of_nonneg_left (h.trans (e1 i)) (hW0 i)
    linarith
  have hu : unitRoundoff .float64 = 1 / 2 ^ 53 := by
    unfold unitRoundoff MetricType.digits
    norm_num
  have hcard : Fintype.card (BlockIndex wr wc) = wr * wc := by simp
  have hk : ((wr : ℝ) * wc) ≤ 2 ^ 21 := by exact_mod_cast hsize
  have hpos : 0 < wr * wc := by
    rcases Nat.eq_zero_or_pos (wr * wc) with h | h
    · exfalso
      rw [hn0] at h1
      have : IsEmpty (BlockIndex wr wc) := Fintype.card_eq_zero_iff.mp (hcard.trans h)
      rw [Finset.univ_eq_empty, Finset.sum_empty] at h1
      linarith
    · exact h
  have hS := smallError .float64 (n := Fintype.card (BlockIndex wr wc)) (by rw [hcard]; exact hpos) (by
    rw [hcard, hu]
    push_cast
    linarith)
  have e4 := hS.sum_error ho (fun i => (intWindow wr wc w).val i.1 i.2) (underWindow map px wr wc r c)
  simp only [hterm] at e4
  rw [hcard, hu] at e4
  push_cast at e4
  set S := order.eval MetricType.float64.fl (fun i => (intWindow wr wc w).val i.1 i.2)
    (underWindow map px wr wc r c) with hSdef
  have ht : averageFl false (intWindow wr wc w) order map px r c =
      MetricType.float64.fl (MetricType.float32.fl S / n) := by
    rw [← e.1]
    rfl
  rw [ht]
  have m1 : 64 / 63 * ((wr : ℝ) * wc * (1 / 2 ^ 53)) * ∑ i, |W i * MetricType.float32.fl (v i)| ≤
      1 / 2 ^ 31 * ((1 + 1 / 2 ^ 24) * A + 1 / 2 ^ 150 * n) :=
    mul_le_mul (by linarith) e3 (Finset.sum_nonneg fun _ _ => abs_nonneg _) (by norm_num)
  have t1 : |S - N| ≤ (1 / 2 ^ 24 + 1 / 2 ^ 30) * A + 1 / 2 ^ 149 * n := by
    have := abs_sub_le S (∑ i, W i * MetricType.float32.fl (v i)) N
    nlinarith
  have hNA : |N| ≤ A := by
    rw [hN0, hA0]
    refine (Finset.abs_sum_le_sum_abs _ _).trans_eq (Finset.sum_congr rfl fun i _ => ?_)
    rw [abs_mul, abs_of_nonneg (hW0 i)]
  have t2 : |MetricType.float32.fl S - N| ≤ (1 / 2 ^ 23 + 1 / 2 ^ 28) * A + 1 / 2 ^ 147 * n := by
    have h2 := binaryRound_abs_error 24 (-149) S
    have h3 : |MetricType.float32.fl S - S| ≤ 1 / 2 ^ 24 * |S| + 1 / 2 ^ 150 := by
      norm_num [MetricType.fl, MetricType.digits, MetricType.emin] at h2 ⊢
      exact h2
    have h4 := abs_sub_abs_le_abs_sub S N
    have h5 := abs_sub_le (MetricType.float32.fl S) S N
    have h6 : |S| ≤ A + ((1 / 2 ^ 24 + 1 / 2 ^ 30) * A + 1 / 2 ^ 149 * n) := by linarith
    linarith
  set s := MetricType.float32.fl S
  have hn1 : (0 : ℝ) < n := by linarith
  have hAn : 0 ≤ A / n := div_nonneg hA hn1.le
  have t3 : |s / n - N / n| ≤ (1 / 2 ^ 23 + 1 / 2 ^ 28) * (A / n) + 1 / 2 ^ 147 := by
    rw [← sub_div, abs_div, abs_of_pos hn1, div_le_iff₀ hn1]
    have : ((1 / 2 ^ 23 + 1 / 2 ^ 28) * (A / n) + 1 / 2 ^ 147) * n =
        (1 / 2 ^ 23 + 1 / 2 ^ 28) * A + 1 / 2 ^ 147 * n := by
      field_simp
    rw [this]
    exact t2
  have hNn : |N / n| ≤ A / n := by
    rw [abs_div, abs_of_pos hn1]
    exact div_le_div_of_nonneg_right hNA hn1.le
  have h7 := binaryRound_abs_error 53 (-1074) (s / n)
  have h8 : |MetricType.float64.fl (s / n) - s / n| ≤ 1 / 2 ^ 53 * |s / n| + 1 / 2 ^ 150 := by
    have hz : (2 : ℝ) ^ ((-1074 : ℤ) - 1) ≤ 1 / 2 ^ 150 := by
      rw [show (1 : ℝ) / 2 ^ 150 = 2 ^ (-150 : ℤ) by norm_num]
      exact zpow_le_zpow_right₀ (by norm_num) (by norm_num)
    have hz2 : (2 : ℝ) ^ (-((53 : ℕ) : ℤ)) = 1 / 2 ^ 53 := by norm_num
    rw [hz2] at h7
    simp only [MetricType.fl, MetricType.digits, MetricType.emin]
    linarith
  have h9 := abs_sub_abs_le_abs_sub (s / n) (N / n)
  have h10 := abs_sub_le (MetricType.float64.fl (s / n)) (s / n) (N / n)
  linarith

/-- Patterns of 8-bit integers on a map of 2 x 3 points averaged with a window of 3 x 3 ones: the conditions
in the corner. -/
example : let w : ℕ → ℕ → ℕ := fun _ _ => 1
    let p : ℕ → ℕ → ℕ → ℤ := fun y x px => 100 * y + 7 * x + px
    neighbourSum 2 3 (intWindow 3 3 w) (fun y x => |(p y x 0 : ℝ)|) 0 0 = 214 ∧
    neighbourSum 2 3 (intWindow 3 3 w) (fun _ _ => 1) 0 0 = 4 ∧
    (∃ order : SumOrder (BlockIndex 3 3), AddsEveryPixelOnce order) ∧
    (∀ y < 2, ∀ x < 3, |p y x 0| ≤ 2 ^ 24) ∧
    (∀ x, realFormats.sub.fl (MetricType.float64.fl x) = MetricType.float64.fl x) := by
  refine ⟨?_, ?_, ?_, by decide, fun x => binaryRound_idem (by norm_num [MetricType.digits]) _ x⟩
  · simp [neighbourSum, intWindow, Finset.sum_range_succ]
    norm_num
  · simp only [neighbourSum, intWindow, Finset.sum_range_succ, Finset.sum_range_zero]
    norm_num
  · have : Nonempty (BlockIndex 3 3) := ⟨(0, 0)⟩
    exact exists_order

end
end Kp
