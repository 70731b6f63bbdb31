import Verif.Lemmas.FftFilter
import Mathlib.Tactic.NormNum
import Mathlib.Tactic.FinCases

/-
C15: filtering via the FFT equals direct correlation with edge values replicated.
-/

namespace Kp
open Finset

/-- C15: for every non-empty image and window (of any relative size, odd or even) and every
FFT padding at least as large as required, `fft_filter` returns an image of the same shape
whose value in each pixel is the window-weighted sum of the image, with edge values
replicated outside. -/
theorem C15_fft_filter_eq_correlate (nfl : ℕ → ℕ) (hnfl : ∀ n, n ≤ nfl n) (p w : Img ℝ)
    (hy : 0 < p.rows) (hx : 0 < p.cols) (hwy : 0 < w.rows) (hwx : 0 < w.cols) :
    ∃ out, fftFilter nfl p w = .ok out ∧ out.rows = p.rows ∧ out.cols = p.cols ∧
      ∀ y x, y < p.rows → x < p.cols → out.val y x = Spec.correlate p w y x := by
  have h1 := hnfl (p.rows + w.rows - 1)
  have h2 := hnfl (p.cols + w.cols - 1)
  have hne : nfl (p.rows + w.rows - 1) ≠ 0 ∧ nfl (p.cols + w.cols - 1) ≠ 0 := by omega
  unfold fftFilter
  simp only [hne, ne_eq, not_false_eq_true, and_self, dif_pos]
  refine ⟨_, rfl, rfl, rfl, fun y x hyr hxr => ?_⟩
  have : NeZero (nfl (p.rows + w.rows - 1)) := ⟨hne.1⟩
  have : NeZero (nfl (p.cols + w.cols - 1)) := ⟨hne.2⟩
  dsimp only
  rw [irfft2_mul_rfft2]
  exact circConv_eq_correlate p w hy hx hwy hwx h1 h2 y x hyr hxr

/-- An image with 3 rows and 2 columns. -/
private def exImg : Img ℝ := { rows := 3, cols := 2, val := fun r c => (10 * r + c : ℕ) }
/-- A window with 2 rows and 3 columns. -/
private def exWin : Img ℝ := { rows := 2, cols := 3, val := fun r c => (3 * r + c : ℕ) }

/-- The hypotheses of `C15_fft_filter_eq_correlate` hold, with a window wider than the
image, and the value in the upper left corner uses replicated edge values. -/
example : ∃ out, fftFilter (fun n => n + 1) exImg exWin = .ok out ∧
    out.val 0 0 = 0 * 0 + 1 * 0 + 2 * 1 + 3 * 0 + 4 * 0 + 5 * 1 := by
  obtain ⟨out, h, _, _, hv⟩ := C15_fft_filter_eq_correlate (fun n => n + 1) (fun n => by omega)
    exImg exWin (by decide) (by decide) (by decide) (by decide)
  refine ⟨out, h, ?_⟩
  rw [hv 0 0 (by decide) (by decide)]
  simp [Spec.correlate, exImg, exWin, sum_range_succ, Spec.clampIdx]
  norm_num

/-- C15: the result does not depend on the padded FFT shape chosen. -/
theorem C15_padding_independent (nfl nfl' : ℕ → ℕ) (h : ∀ n, n ≤ nfl n) (h' : ∀ n, n ≤ nfl' n)
    (p w : Img ℝ) (hy : 0 < p.rows) (hx : 0 < p.cols) (hwy : 0 < w.rows) (hwx : 0 < w.cols) :
    ∃ out out', fftFilter nfl p w = .ok out ∧ fftFilter nfl' p w = .ok out' ∧
      ∀ y x, y < p.rows → x < p.cols → out.val y x = out'.val y x := by
  obtain ⟨o, e, _, _, hv⟩ := C15_fft_filter_eq_correlate nfl h p w hy hx hwy hwx
  obtain ⟨o', e', _, _, hv'⟩ := C15_fft_filter_eq_correlate nfl' h' p w hy hx hwy hwx
  exact ⟨o, o', e, e', fun y x h1 h2 => by rw [hv y x h1 h2, hv' y x h1 h2]⟩

/-- C15: filtering with a window whose coefficients sum to 1 leaves a constant image
unchanged (no darkening towards the edges), and the average of any image within its
smallest and largest value for non-negative coefficients. -/
theorem C15_averaging_window (nfl : ℕ → ℕ) (hnfl : ∀ n, n ≤ nfl n) (p w : Img ℝ)
    (hy : 0 < p.rows) (hx : 0 < p.cols) (hwy : 0 < w.rows) (hwx : 0 < w.cols)
    (hsum : ∑ i ∈ range w.rows, ∑ j ∈ range w.cols, w.val i j = 1)
    (hnn : ∀ i j, i < w.rows → j < w.cols → 0 ≤ w.val i j)
    (lo hi : ℝ) (hp : ∀ r c, r < p.rows → c < p.cols → lo ≤ p.val r c ∧ p.val r c ≤ hi) :
    ∃ out, fftFilter nfl p w = .ok out ∧
      ∀ y x, y < p.rows → x < p.cols → lo ≤ out.val y x ∧ out.val y x ≤ hi := by
  obtain ⟨out, e, _, _, hv⟩ := C15_fft_filter_eq_correlate nfl hnfl p w hy hx hwy hwx
  refine ⟨out, e, fun y x h1 h2 => ?_⟩
  rw [hv y x h1 h2]
  have hc : ∀ n : ℕ, 0 < n → ∀ i : ℤ, Spec.clampIdx n i < n := by
    intro n hn i
    unfold Spec.clampIdx
    omega
  unfold Spec.correlate
  constructor
  · calc lo = ∑ i ∈ range w.rows, ∑ j ∈ range w.cols, w.val i j * lo := by
          simp only [← sum_mul, hsum, one_mul]
      _ ≤ _ := by
          refine sum_le_sum fun i hi' => sum_le_sum fun j hj => ?_
          rw [mem_range] at hi' hj
          exact mul_le_mul_of_nonneg_left (hp _ _ (hc _ hy _) (hc _ hx _)).1 (hnn i j hi' hj)
  · calc _ ≤ ∑ i ∈ range w.rows, ∑ j ∈ range w.cols, w.val i j * hi := by
          refine sum_le_sum fun i hi' => sum_le_sum fun j hj => ?_
          rw [mem_range] at hi' hj
          exact mul_le_mul_of_nonneg_left (hp _ _ (hc _ hy _) (hc _ hx _)).2 (hnn i j hi' hj)
      _ = hi := by simp only [← sum_mul, hsum, one_mul]

/-- The hypotheses of `C15_averaging_window` hold for a 2 x 1 mean filter. -/
example : ∃ w : Img ℝ, w.rows = 2 ∧ w.cols = 1 ∧
    ∑ i ∈ range w.rows, ∑ j ∈ range w.cols, w.val i j = 1 ∧
    (∀ i j, i < w.rows → j < w.cols → 0 ≤ w.val i j) ∧
    (∀ r c, r < exImg.rows → c < exImg.cols → 0 ≤ exImg.val r c ∧ exImg.val r c ≤ 21) := by
  refine ⟨{ rows := 2, cols := 1, val := fun _ _ => 1 / 2 }, rfl, rfl, ?_, ?_, ?_⟩
  · simp
  · intro i j _ _; norm_num
  · intro r c hr hc
    simp only [exImg] at hr hc ⊢
    exact ⟨by positivity, by norm_cast; omega⟩

end Kp
