import Verif.Model.FftFilter
import Verif.Spec.FftFilter
import Mathlib.Tactic.Ring
import Mathlib.Tactic.Linarith

namespace Kp
open ZMod Finset

/-- Circular convolution of two real arrays. -/
noncomputable def circConv (fy fx : ℕ) [NeZero fy] [NeZero fx] (a b : ℕ → ℕ → ℝ)
    (y : ZMod fy) (x : ZMod fx) : ℝ :=
  ∑ u : ZMod fy, ∑ v : ZMod fx, a u.val v.val * b (y - u).val (x - v).val

variable {fy fx : ℕ} [NeZero fy] [NeZero fx]

/-- The full two-dimensional transform. -/
noncomputable def dft2 (a : ZMod fy → ZMod fx → ℂ) : ZMod fy → ZMod fx → ℂ :=
  dft (fun y => dft (a y))

theorem dft2_apply (a : ZMod fy → ZMod fx → ℂ) (k : ZMod fy) (l : ZMod fx) :
    dft2 a k l = ∑ u, ∑ v, stdAddChar (-(u * k)) * stdAddChar (-(v * l)) * a u v := by
  simp only [dft2, dft_apply, Finset.sum_apply, Pi.smul_apply, smul_eq_mul, mul_sum]
  refine sum_congr rfl fun u _ => sum_congr rfl fun v _ => by ring

theorem dft2_conv (a b : ZMod fy → ZMod fx → ℂ) (k : ZMod fy) (l : ZMod fx) :
    dft2 (fun y x => ∑ u, ∑ v, a u v * b (y - u) (x - v)) k l = dft2 a k l * dft2 b k l := by
  simp only [dft2_apply]
  have h : ∀ u v, ∑ y : ZMod fy, ∑ x : ZMod fx,
      stdAddChar (-(y * k)) * stdAddChar (-(x * l)) * (a u v * b (y - u) (x - v)) =
      stdAddChar (-(u * k)) * stdAddChar (-(v * l)) * a u v *
        ∑ y : ZMod fy, ∑ x : ZMod fx,
          stdAddChar (-(y * k)) * stdAddChar (-(x * l)) * b y x := by
    intro u v
    rw [← Equiv.sum_comp (Equiv.addRight u), mul_sum]
    refine sum_congr rfl fun y _ => ?_
    rw [← Equiv.sum_comp (Equiv.addRight v), mul_sum]
    refine sum_congr rfl fun x _ => ?_
    simp only [Equiv.coe_addRight, add_sub_cancel_right, add_mul, neg_add]
    rw [AddChar.map_add_eq_mul, AddChar.map_add_eq_mul]
    ring
  rw [sum_mul]
  have h2 : ∀ u, (∑ v, stdAddChar (-(u * k)) * stdAddChar (-(v * l)) * a u v) *
      (∑ y : ZMod fy, ∑ x : ZMod fx, stdAddChar (-(y * k)) * stdAddChar (-(x * l)) * b y x) =
      ∑ v, ∑ y : ZMod fy, ∑ x : ZMod fx,
      stdAddChar (-(y * k)) * stdAddChar (-(x * l)) * (a u v * b (y - u) (x - v)) := by
    intro u
    rw [sum_mul]
    exact sum_congr rfl fun v _ => (h u v).symm
  simp only [h2, mul_sum]
  have e1 : ∀ y : ZMod fy, ∑ x : ZMod fx, ∑ u, ∑ v,
      stdAddChar (-(y * k)) * stdAddChar (-(x * l)) * (a u v * b (y - u) (x - v)) =
      ∑ u, ∑ v, ∑ x : ZMod fx,
      stdAddChar (-(y * k)) * stdAddChar (-(x * l)) * (a u v * b (y - u) (x - v)) := by
    intro y
    rw [sum_comm]
    exact sum_congr rfl fun u _ => sum_comm
  simp only [e1]
  rw [sum_comm]
  exact sum_congr rfl fun u _ => sum_comm

theorem conj_stdAddChar {n : ℕ} [NeZero n] (j : ZMod n) :
    (starRingEnd ℂ) (stdAddChar j) = stdAddChar (-j) := by
  rw [AddChar.map_neg_eq_conj]

/-- The transform of a real sequence is Hermitian. -/
theorem dft_real_herm {n : ℕ} [NeZero n] (f : ZMod n → ℝ) (k : ZMod n) :
    (starRingEnd ℂ) (dft (fun x => (f x : ℂ)) (-k)) = dft (fun x => (f x : ℂ)) k := by
  simp only [dft_apply, map_sum, smul_eq_mul, map_mul, conj_stdAddChar, Complex.conj_ofReal]
  simp

theorem rfft2_apply (a : ℕ → ℕ → ℝ) (k : ZMod fy) (l : ZMod fx) :
    rfft2 fy fx a k l =
      if l.val ≤ fx / 2 then dft2 (fun y x => (a y.val x.val : ℂ)) k l else 0 := by
  unfold rfft2 dft2
  split_ifs with h
  · rw [dft_apply, dft_apply]
    simp only [Finset.sum_apply, Pi.smul_apply, h, if_true]
  · rw [dft_apply]
    simp only [Finset.sum_apply, Pi.smul_apply, h, if_false, smul_zero, sum_const_zero]

theorem irfft2_mul_rfft2 (a b : ℕ → ℕ → ℝ) (y x : ℕ) :
    irfft2 fy fx (fun ky kx => rfft2 fy fx a ky kx * rfft2 fy fx b ky kx) y x =
      circConv fy fx a b y x := by
  set c : ZMod fy → ZMod fx → ℝ := circConv fy fx a b with hc
  have hX : (fun ky kx => rfft2 fy fx a ky kx * rfft2 fy fx b ky kx) =
      dft (fun y : ZMod fy => fun k : ZMod fx =>
        if k.val ≤ fx / 2 then dft (fun x : ZMod fx => (c y x : ℂ)) k else 0) := by
    funext ky kx
    rw [rfft2_apply, rfft2_apply]
    split_ifs with h
    · rw [← dft2_conv]
      unfold dft2
      rw [dft_apply, dft_apply]
      simp only [Finset.sum_apply, Pi.smul_apply, h, if_true]
      refine sum_congr rfl fun u _ => ?_
      congr 2
      rw [hc]
      simp [circConv]
    · rw [dft_apply]
      simp only [Finset.sum_apply, Pi.smul_apply, h, if_false, smul_zero, sum_const_zero, mul_zero]
  rw [hX]
  unfold irfft2
  simp only [LinearEquiv.symm_apply_apply]
  have hrow : (fun k : ZMod fx => if k.val ≤ fx / 2 then
      (if k.val ≤ fx / 2 then dft (fun x : ZMod fx => (c y x : ℂ)) k else 0)
      else (starRingEnd ℂ) (if (-k).val ≤ fx / 2 then
        dft (fun x : ZMod fx => (c y x : ℂ)) (-k) else 0)) =
      dft (fun x : ZMod fx => (c y x : ℂ)) := by
    funext k
    split_ifs with h h2
    · rfl
    · exact dft_real_herm _ _
    · exfalso
      have hk : k ≠ 0 := by
        rintro rfl
        exact h (by simp)
      have : NeZero k := ⟨hk⟩
      have h3 := ZMod.val_neg_of_ne_zero k
      have h4 := ZMod.val_lt k
      omega
  rw [hrow, LinearEquiv.symm_apply_apply]
  simp

/-- Row (or column) membership of a wrapped index. -/
theorem wrap_cases {n f w : ℕ} (hn : 0 < n) (hf : n + w - 1 ≤ f) (hw : 0 < w) (a : ℤ)
    (h1 : -((w / 2 : ℕ) : ℤ) ≤ a) (h2 : a < n + ((w - 1) / 2 : ℕ)) (r : ℕ)
    (hr : (r : ℤ) = a % f) :
    (a < 0 ∧ n + (w - 1) / 2 ≤ r ∧ f - offsetBeforeFft w ≤ r ∧ r < f ∧ Spec.clampIdx n a = 0) ∨
    (0 ≤ a ∧ r < n ∧ r < f - offsetBeforeFft w ∧ Spec.clampIdx n a = r) ∨
    (n ≤ r ∧ r < n + (w - 1) / 2 ∧ r < f - offsetBeforeFft w ∧ Spec.clampIdx n a = n - 1) := by
  unfold Spec.clampIdx offsetBeforeFft
  rcases lt_or_ge a 0 with h | h
  · have : a % f = a + f := by
      rw [← Int.add_emod_right]
      exact Int.emod_eq_of_lt (by omega) (by omega)
    left; omega
  · have : a % f = a := Int.emod_eq_of_lt (by omega) (by omega)
    right; omega

theorem padImage_wrap (p : Img ℝ) {fy fx wy wx : ℕ} (hy : 0 < p.rows) (hx : 0 < p.cols)
    (hwy : 0 < wy) (hwx : 0 < wx) (hfy : p.rows + wy - 1 ≤ fy) (hfx : p.cols + wx - 1 ≤ fx)
    (a b : ℤ) (ha1 : -((wy / 2 : ℕ) : ℤ) ≤ a) (ha2 : a < p.rows + ((wy - 1) / 2 : ℕ))
    (hb1 : -((wx / 2 : ℕ) : ℤ) ≤ b) (hb2 : b < p.cols + ((wx - 1) / 2 : ℕ)) (r c : ℕ)
    (hr : (r : ℤ) = a % fy) (hc : (c : ℤ) = b % fx) :
    padImage p fy fx wy wx (offsetBeforeFft wy) (offsetBeforeFft wx) r c =
      p.val (Spec.clampIdx p.rows a) (Spec.clampIdx p.cols b) := by
  rcases wrap_cases hy hfy hwy a ha1 ha2 r hr with ⟨_, r1, r2, r3, r4⟩ | ⟨_, r1, r2, r4⟩ | ⟨r1, r2, r3, r4⟩ <;>
  rcases wrap_cases hx hfx hwx b hb1 hb2 c hc with ⟨_, c1, c2, c3, c4⟩ | ⟨_, c1, c2, c4⟩ | ⟨c1, c2, c3, c4⟩ <;>
  rw [r4, c4] <;>
  simp only [padImage, setBlock] <;>
  repeat first
    | rw [if_pos (by omega)]
    | rw [if_neg (by omega)]

theorem sum_zmod {n : ℕ} [NeZero n] (f : ℕ → ℝ) :
    ∑ u : ZMod n, f u.val = ∑ i ∈ range n, f i := by
  obtain ⟨m, rfl⟩ := Nat.exists_eq_succ_of_ne_zero (NeZero.ne n)
  exact Fin.sum_univ_eq_sum_range f (m + 1)

theorem val_sub_cast {n : ℕ} [NeZero n] (y : ℕ) (u : ZMod n) :
    ((((y : ZMod n) - u).val : ℕ) : ℤ) = ((y : ℤ) - u.val) % n := by
  rw [← ZMod.val_intCast]
  congr 2
  simp

theorem circConv_eq_correlate (p w : Img ℝ) {fy fx : ℕ} [NeZero fy] [NeZero fx]
    (hy : 0 < p.rows) (hx : 0 < p.cols)
    (hwy : 0 < w.rows) (hwx : 0 < w.cols) (hfy : p.rows + w.rows - 1 ≤ fy)
    (hfx : p.cols + w.cols - 1 ≤ fx) (y x : ℕ) (hyr : y < p.rows) (hxr : x < p.cols) :
    circConv fy fx (padImage p fy fx w.rows w.cols
      (offsetBeforeFft w.rows) (offsetBeforeFft w.cols)) (padWindow w)
      ((offsetAfterIfft w.rows + y : ℕ) : ZMod fy) ((offsetAfterIfft w.cols + x : ℕ) : ZMod fx) =
      Spec.correlate p w y x := by
  unfold circConv
  rw [← Equiv.sum_comp (Equiv.subLeft ((offsetAfterIfft w.rows + y : ℕ) : ZMod fy))]
  simp only [Equiv.subLeft_apply, sub_sub_cancel]
  have inner : ∀ u : ZMod fy, ∀ g : ℕ → ℕ → ℝ, ∑ v : ZMod fx,
      g (((offsetAfterIfft w.rows + y : ℕ) : ZMod fy) - u).val v.val *
      padWindow w u.val (((offsetAfterIfft w.cols + x : ℕ) : ZMod fx) - v).val =
      ∑ v : ZMod fx, g (((offsetAfterIfft w.rows + y : ℕ) : ZMod fy) - u).val
        (((offsetAfterIfft w.cols + x : ℕ) : ZMod fx) - v).val *
      padWindow w u.val v.val := by
    intro u g
    rw [← Equiv.sum_comp (Equiv.subLeft ((offsetAfterIfft w.cols + x : ℕ) : ZMod fx))]
    simp only [Equiv.subLeft_apply, sub_sub_cancel]
  simp only [inner]
  -- replace by sums over natural numbers
  obtain ⟨G, hG⟩ : ∃ G : ℕ → ℕ → ℝ, G = (fun i j : ℕ => if i < w.rows ∧ j < w.cols then
        w.val (w.rows - 1 - i) (w.cols - 1 - j) *
        p.val (Spec.clampIdx p.rows ((y : ℤ) + (w.rows - 1 - i : ℕ) - (w.rows / 2 : ℕ)))
          (Spec.clampIdx p.cols ((x : ℤ) + (w.cols - 1 - j : ℕ) - (w.cols / 2 : ℕ)))
        else 0) := ⟨_, rfl⟩
  have step : ∀ (u : ZMod fy) (v : ZMod fx),
      padImage p fy fx w.rows w.cols (offsetBeforeFft w.rows) (offsetBeforeFft w.cols)
        (((offsetAfterIfft w.rows + y : ℕ) : ZMod fy) - u).val
        (((offsetAfterIfft w.cols + x : ℕ) : ZMod fx) - v).val * padWindow w u.val v.val =
      G u.val v.val := by
    intro u v
    by_cases h : u.val < w.rows ∧ v.val < w.cols
    · have e : padWindow w u.val v.val =
          w.val (w.rows - 1 - u.val) (w.cols - 1 - v.val) := by
        simp [padWindow, setBlock, h.1, h.2]
      simp only [hG, h, and_self, if_true, e]
      rw [mul_comm]
      congr 1
      obtain ⟨h1, h2⟩ := h
      refine padImage_wrap p hy hx hwy hwx hfy hfx _ _ (by omega) (by omega) (by omega)
        (by omega) _ _ ?_ ?_
      · rw [val_sub_cast]
        congr 1
        unfold offsetAfterIfft
        omega
      · rw [val_sub_cast]
        congr 1
        unfold offsetAfterIfft
        omega
    · have e : padWindow w u.val v.val = 0 := by
        simp only [padWindow, setBlock]
        rw [if_neg (by omega)]
      simp only [hG, h, if_false, e, mul_zero]
  rw [sum_congr rfl fun u _ => sum_congr rfl fun v _ => step u v]
  have s1 : ∀ F : ℕ → ℕ → ℝ, ∑ u : ZMod fy, ∑ v : ZMod fx, F u.val v.val =
      ∑ i ∈ range fy, ∑ j ∈ range fx, F i j := by
    intro F
    rw [← sum_zmod (n := fy) (fun i => ∑ j ∈ range fx, F i j)]
    exact sum_congr rfl fun u _ => sum_zmod (n := fx) (fun j => F u.val j)
  rw [s1 G, hG]
  unfold Spec.correlate
  have hsr : range w.rows ⊆ range fy := range_subset_range.2 (by omega)
  have hsc : range w.cols ⊆ range fx := range_subset_range.2 (by omega)
  rw [← sum_subset hsr]
  · rw [← sum_range_reflect]
    refine sum_congr rfl fun i hi => ?_
    rw [← sum_subset hsc]
    · rw [← sum_range_reflect]
      refine sum_congr rfl fun j hj => ?_
      rw [mem_range] at hi hj
      dsimp only
      rw [if_pos (by omega)]
      have e1 : w.rows - 1 - (w.rows - 1 - i) = i := by omega
      have e2 : w.cols - 1 - (w.cols - 1 - j) = j := by omega
      rw [e1, e2]
    · intro j _ hj
      rw [mem_range] at hj
      dsimp only
      rw [if_neg (by omega)]
  · intro i _ hi
    rw [mem_range] at hi
    refine sum_eq_zero fun j _ => ?_
    dsimp only
    rw [if_neg (by omega)]

end Kp
