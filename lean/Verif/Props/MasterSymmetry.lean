import Verif.Spec.MasterSymmetry
import Verif.Props.MasterPattern
import Verif.Props.TiltFrames
import Verif.Props.PseudoSymmetry

/-
C137: simulated patterns have the symmetry of the master pattern.
-/

namespace Kp
open Spec

/-! ### Interpolation as a weighted mean -/

theorem hat_neg (t : ℝ) : hat (-t) = hat t := by unfold hat; rw [abs_neg]

theorem hat_far {t : ℝ} (h : 1 ≤ |t|) : hat t = 0 := by
  unfold hat
  exact max_eq_left (by linarith)

/-- One axis: of all pixels only the two neighbours have weights. -/
theorem sum_hat {n k k' : ℕ} {d : ℝ} (hk : k < n) (hk' : k' < n) (h0 : 0 ≤ d) (h1 : d < 1)
    (h : k' = k + 1 ∨ k' = k ∧ d = 0) (f : ℕ → ℝ) :
    ∑ r ∈ Finset.range n, f r * hat ((k : ℝ) + d - r) = f k * (1 - d) + f k' * d := by
  have hhat : hat ((k : ℝ) + d - k) = 1 - d := by
    unfold hat
    rw [add_sub_cancel_left, abs_of_nonneg h0]
    exact max_eq_right (by linarith)
  have hoff : ∀ r : ℕ, r ≠ k → r ≠ k + 1 → hat ((k : ℝ) + d - r) = 0 := by
    intro r h2 h3
    apply hat_far
    rcases lt_or_ge r k with h4 | h4
    · have : (r : ℝ) + 1 ≤ k := by exact_mod_cast h4
      rw [abs_of_nonneg (by linarith)]
      linarith
    · have : (k : ℝ) + 2 ≤ r := by
        have : k + 2 ≤ r := by omega
        exact_mod_cast this
      rw [abs_of_nonpos (by linarith)]
      linarith
  rcases h with rfl | ⟨rfl, rfl⟩
  · rw [Finset.sum_eq_add k (k + 1) (by omega)
      (fun r _ hr => by rw [hoff r hr.1 hr.2, mul_zero])
      (fun h => absurd (Finset.mem_range.2 hk) h) (fun h => absurd (Finset.mem_range.2 hk') h), hhat]
    congr 2
    unfold hat
    push_cast
    rw [show (k : ℝ) + d - (k + 1) = -(1 - d) by ring, abs_neg, abs_of_nonneg (by linarith)]
    rw [max_eq_right (by linarith)]
    ring
  · rw [Finset.sum_eq_single k' (fun r _ hr => ?_) (fun h => absurd (Finset.mem_range.2 hk) h), hhat]
    · ring
    · by_cases h3 : r = k' + 1
      · subst h3
        rw [hat_far, mul_zero]
        push_cast
        rw [show (k' : ℝ) + 0 - (k' + 1) = -1 by ring]
        norm_num
      · rw [hoff r hr h3, mul_zero]

/-- Position on the grid along one axis of a Lambert coordinate. -/
noncomputable def gridAt (n : ℕ) (x : ℝ) : ℝ := ((n : ℝ) - 1) / 2 * x / sqrtPiHalf + ((n : ℝ) - 1) / 2


theorem normalizeV_cases (v : V3 ℝ) : (normalizeV v).IsUnit ∨ normalizeV v = ⟨0, 0, 0⟩ := by
  by_cases h : v.x * v.x + v.y * v.y + v.z * v.z = 0
  · right
    unfold normalizeV
    simp only [h, Real.sqrt_zero, div_zero]
  · left
    have h0 : 0 ≤ v.x * v.x + v.y * v.y + v.z * v.z := by nlinarith [sq_nonneg v.x, sq_nonneg v.y, sq_nonneg v.z]
    have hs := Real.sq_sqrt h0
    have hp : Real.sqrt (v.x * v.x + v.y * v.y + v.z * v.z) ≠ 0 := by
      intro h1
      rw [h1] at hs
      exact h (by rw [← hs]; ring)
    unfold normalizeV V3.IsUnit
    simp only [div_pow, hs]
    rw [← add_div, ← add_div, div_eq_one_iff_eq h]
    ring

/-- The projection without normalisation. -/
noncomputable def lam (w : V3 ℝ) : ℝ × ℝ :=
  if |w.z| = 1 then (0, 0) else if |w.y| ≤ |w.x| then fwdX w else (fwdX w.swap).swap

theorem vector2lambert_lam (v : V3 ℝ) : vector2lambert v = lam (normalizeV v) := rfl

theorem lam_zero : lam ⟨0, 0, 0⟩ = (0, 0) := by
  simp [lam, fwdX]

/-- The Lambert coordinates of every vector (also of zero) are in the square. -/
theorem lambert_in_square (v : V3 ℝ) :
    |(vector2lambert v).1| ≤ sqrtPiHalf ∧ |(vector2lambert v).2| ≤ sqrtPiHalf := by
  rcases normalizeV_cases v with h | h
  · have := C28_in_square h
    rw [vector2lambert_lam, normalizeV_isUnit h, ← vector2lambert_lam] at this
    exact this
  · rw [vector2lambert_lam, h, lam_zero]
    simp only [abs_zero]
    exact ⟨Real.sqrt_nonneg _, Real.sqrt_nonneg _⟩

theorem masterPixel_bilinear {n : ℕ} (hn : 0 < n) (img : Img ℝ) (v : V3 ℝ) :
    masterPixel img (lambertInterp v n n (((n : ℝ) - 1) / 2)) =
      bilinearAt n img.val (gridAt n (vector2lambert v).2) (gridAt n (vector2lambert v).1) := by
  obtain ⟨h1, h2⟩ := lambert_in_square v
  have hs : 0 < sqrtPiHalf := Real.sqrt_pos.2 (by positivity)
  have hn1 : (1 : ℝ) ≤ n := by exact_mod_cast hn
  have key : ∀ x : ℝ, |x| ≤ sqrtPiHalf → |((n : ℝ) - 1) / 2 * x / sqrtPiHalf| ≤ ((n : ℝ) - 1) / 2 := by
    intro x hx
    rw [abs_div, abs_mul, abs_of_nonneg (by linarith : (0 : ℝ) ≤ ((n : ℝ) - 1) / 2), abs_of_pos hs,
      div_le_iff₀ hs]
    exact mul_le_mul_of_nonneg_left hx (by linarith)
  obtain ⟨r, c, r', c', di, dj, hr, hc, hr', hc', a1, a2, a3, a4, e1, e2, b1, b2, e⟩ :=
    interpAt_eq hn (key _ h2) (key _ h1)
  unfold lambertInterp
  rw [e]
  unfold masterPixel bilinearAt
  simp only [Int.toNat_natCast]
  have g1 : gridAt n (vector2lambert v).2 = r + di := by unfold gridAt; rw [e1]; ring
  have g2 : gridAt n (vector2lambert v).1 = c + dj := by unfold gridAt; rw [e2]; ring
  rw [g1, g2]
  have inner : ∀ k : ℕ, ∑ x ∈ Finset.range n, img.val k x * (hat ((r : ℝ) + di - k) * hat ((c : ℝ) + dj - x)) =
      (img.val k c * (1 - dj) + img.val k c' * dj) * hat ((r : ℝ) + di - k) := by
    intro k
    rw [← sum_hat hc hc' a3 a4 b2 (img.val k), Finset.sum_mul]
    exact Finset.sum_congr rfl fun x _ => by ring
  simp only [inner]
  rw [sum_hat hr hr' a1 a2 b1 (fun k => img.val k c * (1 - dj) + img.val k c' * dj)]
  ring

/-! ### Directions under the operations -/

theorem sign_neg' (x : ℝ) : Real.sign (-x) = -Real.sign x := Real.sign_neg

theorem lam_flipZ (w : V3 ℝ) : lam ⟨w.x, w.y, -w.z⟩ = lam w := by
  simp only [lam, fwdX, V3.swap, abs_neg]

theorem lam_flipX (w : V3 ℝ) : lam ⟨-w.x, w.y, w.z⟩ = (-(lam w).1, (lam w).2) := by
  simp only [lam, fwdX, V3.swap, abs_neg, Prod.swap]
  split_ifs
  · simp
  · simp only [Real.sign_neg, div_neg, Real.arctan_neg, Prod.mk.injEq]
    constructor <;> ring
  · simp only [neg_div, Real.arctan_neg, mul_neg]

theorem lam_flipY (w : V3 ℝ) : lam ⟨w.x, -w.y, w.z⟩ = ((lam w).1, -(lam w).2) := by
  simp only [lam, fwdX, V3.swap, abs_neg, Prod.swap]
  split_ifs
  · simp
  · simp only [neg_div, Real.arctan_neg, mul_neg]
  · simp only [Real.sign_neg, div_neg, Real.arctan_neg, Prod.mk.injEq]
    constructor <;> ring

/-- On the diagonals both formulas agree. -/
theorem fwdX_diag {w : V3 ℝ} (h : |w.y| = |w.x|) : fwdX w.swap = (fwdX w).swap := by
  have hpi := sqrt_pi_mul_self
  have hp : 0 < Real.sqrt Real.pi := Real.sqrt_pos.2 Real.pi_pos
  have hc : twoOverSqrtPi * (Real.pi / 4) = sqrtPiOver2 := by
    unfold twoOverSqrtPi sqrtPiOver2
    field_simp
    nlinarith
  by_cases h0 : w.x = 0
  · have h1 : w.y = 0 := by rw [h0, abs_zero] at h; exact abs_eq_zero.1 h
    simp [fwdX, V3.swap, h0, h1]
  · rcases abs_eq_abs.1 h with h1 | h1
    · simp only [fwdX, V3.swap, h1, div_self h0, Real.arctan_one, Prod.swap, mul_assoc, hc]
    · simp only [fwdX, V3.swap, h1, div_neg, neg_div, div_self h0, Real.arctan_neg, Real.arctan_one, Prod.swap,
        mul_assoc, Real.sign_neg, mul_neg, hc, neg_mul, neg_neg]

theorem lam_swap (w : V3 ℝ) : lam w.swap = (lam w).swap := by
  unfold lam
  have e1 : w.swap.z = w.z := rfl
  have e2 : w.swap.y = w.x := rfl
  have e3 : w.swap.x = w.y := rfl
  have e4 : w.swap.swap = w := rfl
  rw [e1, e2, e3, e4]
  by_cases h : |w.z| = 1
  · rw [if_pos h, if_pos h]; rfl
  · rw [if_neg h, if_neg h]
    rcases lt_trichotomy |w.y| |w.x| with h1 | h1 | h1
    · rw [if_neg (not_le.2 h1), if_pos h1.le]
    · rw [if_pos h1.ge, if_pos h1.le]
      exact fwdX_diag h1
    · rw [if_pos h1.le, if_neg (not_le.2 h1)]
      rfl

/-- What an operation does to coordinates in the square. -/
def GridOp.square (g : GridOp) (p : ℝ × ℝ) : ℝ × ℝ :=
  let q := if g.swap then p.swap else p
  (if g.flipX then -q.1 else q.1, if g.flipY then -q.2 else q.2)

theorem normalizeV_act (g : GridOp) (v : V3 ℝ) : normalizeV (g.act v) = g.act (normalizeV v) := by
  obtain ⟨a, b, c, d⟩ := g
  have e : (GridOp.act ⟨a, b, c, d⟩ v).x * (GridOp.act ⟨a, b, c, d⟩ v).x +
      (GridOp.act ⟨a, b, c, d⟩ v).y * (GridOp.act ⟨a, b, c, d⟩ v).y +
      (GridOp.act ⟨a, b, c, d⟩ v).z * (GridOp.act ⟨a, b, c, d⟩ v).z = v.x * v.x + v.y * v.y + v.z * v.z := by
    cases a <;> cases b <;> cases c <;> cases d <;> simp [GridOp.act] <;> ring
  unfold normalizeV
  rw [e]
  cases a <;> cases b <;> cases c <;> cases d <;> simp [GridOp.act, neg_div]

theorem lam_act (g : GridOp) (w : V3 ℝ) : lam (g.act w) = GridOp.square g (lam w) := by
  obtain ⟨a, b, c, d⟩ := g
  have h1 := lam_swap
  have step : ∀ (b c d : Bool) (u : V3 ℝ), lam ⟨if b then -u.x else u.x, if c then -u.y else u.y,
      if d then -u.z else u.z⟩ = (if b then -(lam u).1 else (lam u).1, if c then -(lam u).2 else (lam u).2) := by
    intro b c d u
    have hx := lam_flipX
    have hy := lam_flipY
    have hz := lam_flipZ
    cases b <;> cases c <;> cases d <;> simp only [Bool.false_eq_true, if_false, if_true]
    · exact hz u
    · exact hy u
    · rw [hz ⟨u.x, -u.y, u.z⟩, hy]
    · exact hx u
    · rw [hz ⟨-u.x, u.y, u.z⟩, hx]
    · rw [hx ⟨u.x, -u.y, u.z⟩, hy]
    · rw [hz ⟨-u.x, -u.y, u.z⟩, hx ⟨u.x, -u.y, u.z⟩, hy]
  cases a
  · exact step b c d w
  · have := step b c d w.swap
    rw [lam_swap] at this
    exact this

theorem lambert_act (g : GridOp) (v : V3 ℝ) :
    vector2lambert (g.act v) = GridOp.square g (vector2lambert v) := by
  rw [vector2lambert_lam, normalizeV_act, lam_act, ← vector2lambert_lam]

/-! ### Images under the operations -/

theorem gridAt_neg (n : ℕ) (x : ℝ) : gridAt n (-x) = (n : ℝ) - 1 - gridAt n x := by
  unfold gridAt; ring

theorem hat_mirror {n r : ℕ} (hr : r < n) (x : ℝ) :
    hat ((n : ℝ) - 1 - x - (n - 1 - r : ℕ)) = hat (x - r) := by
  rw [Nat.cast_sub (by omega), Nat.cast_sub (by omega), ← hat_neg]
  congr 1
  push_cast
  ring

/-- The intensity of an operated image at the operated point. -/
theorem bilinearAt_act {n : ℕ} (g : GridOp) {img img' : ℕ → ℕ → ℝ}
    (h : ∀ r c, r < n → c < n → img' (g.pixel n r c).1 (g.pixel n r c).2 = img r c) (p : ℝ × ℝ) :
    bilinearAt n img' (gridAt n (GridOp.square g p).2) (gridAt n (GridOp.square g p).1) =
      bilinearAt n img (gridAt n p.2) (gridAt n p.1) := by
  -- mirror one index
  have refl : ∀ f : ℕ → ℝ, ∑ r ∈ Finset.range n, f (n - 1 - r) = ∑ r ∈ Finset.range n, f r :=
    fun f => Finset.sum_range_reflect f n
  have mirror : ∀ (b : Bool) (x : ℝ) (f : ℕ → ℝ),
      ∑ r ∈ Finset.range n, f r * hat (gridAt n (if b then -x else x) - r) =
        ∑ r ∈ Finset.range n, f (if b then n - 1 - r else r) * hat (gridAt n x - r) := by
    intro b x f
    cases b
    · rfl
    · rw [← refl]
      refine Finset.sum_congr rfl fun r hr => ?_
      simp only [if_true]
      rw [gridAt_neg, hat_mirror (Finset.mem_range.1 hr)]
  have both : ∀ (bx bY : Bool) (x y : ℝ) (f : ℕ → ℕ → ℝ),
      bilinearAt n f (gridAt n (if bY then -y else y)) (gridAt n (if bx then -x else x)) =
        bilinearAt n (fun r c => f (if bY then n - 1 - r else r) (if bx then n - 1 - c else c))
          (gridAt n y) (gridAt n x) := by
    intro bx bY x y f
    unfold bilinearAt
    have e : ∀ (a : ℝ) (k : ℕ) (F : ℕ → ℝ), ∑ c ∈ Finset.range n, F c * (a * hat (gridAt n (if bx then -x else x) - c)) =
        a * ∑ c ∈ Finset.range n, F (if bx then n - 1 - c else c) * hat (gridAt n x - c) := by
      intro a k F
      rw [← mirror, Finset.mul_sum]
      exact Finset.sum_congr rfl fun c _ => by ring
    simp only [e _ 0]
    have := mirror bY y fun r => ∑ c ∈ Finset.range n, f r (if bx then n - 1 - c else c) * hat (gridAt n x - c)
    refine ((Finset.sum_congr rfl fun r _ => mul_comm _ _).trans this).trans ?_
    refine Finset.sum_congr rfl fun r _ => ?_
    rw [Finset.sum_mul]
    exact Finset.sum_congr rfl fun c _ => by ring
  obtain ⟨a, b, c, d⟩ := g
  unfold GridOp.square
  simp only
  rw [both]
  unfold bilinearAt
  cases a
  · refine Finset.sum_congr rfl fun r hr => Finset.sum_congr rfl fun k hk => ?_
    rw [← h r k (Finset.mem_range.1 hr) (Finset.mem_range.1 hk)]
    rfl
  · rw [Finset.sum_comm]
    refine Finset.sum_congr rfl fun r hr => Finset.sum_congr rfl fun k hk => ?_
    rw [← h r k (Finset.mem_range.1 hr) (Finset.mem_range.1 hk)]
    simp only [if_true, GridOp.pixel, Prod.fst_swap, Prod.snd_swap]
    rw [mul_comm (hat _)]

/-- On the border only pixels of the border have weights. -/
theorem bilinearAt_border {n : ℕ} (hn : 0 < n) {img img' : ℕ → ℕ → ℝ}
    (h : ∀ r c, r < n → c < n → (r = 0 ∨ r = n - 1 ∨ c = 0 ∨ c = n - 1) → img r c = img' r c) {y x : ℝ}
    (hb : y = 0 ∨ y = (n : ℝ) - 1 ∨ x = 0 ∨ x = (n : ℝ) - 1) :
    bilinearAt n img y x = bilinearAt n img' y x := by
  have h0 : ∀ r : ℕ, r ≠ 0 → hat (0 - (r : ℝ)) = 0 := by
    intro r hr
    apply hat_far
    have : (1 : ℝ) ≤ r := by exact_mod_cast Nat.pos_of_ne_zero hr
    rw [abs_of_nonpos (by linarith)]
    linarith
  have h1 : ∀ r : ℕ, r < n → r ≠ n - 1 → hat ((n : ℝ) - 1 - (r : ℝ)) = 0 := by
    intro r hr hr1
    apply hat_far
    have : (r : ℝ) + 2 ≤ n := by
      have : r + 2 ≤ n := by omega
      exact_mod_cast this
    rw [abs_of_nonneg (by linarith)]
    linarith
  unfold bilinearAt
  refine Finset.sum_congr rfl fun r hr => Finset.sum_congr rfl fun c hc => ?_
  have hr := Finset.mem_range.1 hr
  have hc := Finset.mem_range.1 hc
  by_cases hbd : r = 0 ∨ r = n - 1 ∨ c = 0 ∨ c = n - 1
  · rw [h r c hr hc hbd]
  · push Not at hbd
    obtain ⟨p1, p2, p3, p4⟩ := hbd
    rcases hb with rfl | rfl | rfl | rfl
    · rw [h0 r p1]; ring
    · rw [h1 r hr p2]; ring
    · rw [h0 c p3]; ring
    · rw [h1 c hc p4]; ring

/-- Directions on the equator are on the border of the square. -/
theorem lambert_equator {v : V3 ℝ} (hz : v.z = 0) (hv : v ≠ ⟨0, 0, 0⟩) (n : ℕ) :
    gridAt n (vector2lambert v).2 = 0 ∨ gridAt n (vector2lambert v).2 = (n : ℝ) - 1 ∨
      gridAt n (vector2lambert v).1 = 0 ∨ gridAt n (vector2lambert v).1 = (n : ℝ) - 1 := by
  have hs : 0 < sqrtPiHalf := Real.sqrt_pos.2 (by positivity)
  have hc : Real.sqrt 2 * sqrtPiOver2 = sqrtPiHalf := by
    unfold sqrtPiHalf sqrtPiOver2
    rw [Real.sqrt_div Real.pi_pos.le]
    have h2 : Real.sqrt 2 * Real.sqrt 2 = 2 := Real.mul_self_sqrt (by norm_num)
    have h0 : Real.sqrt 2 ≠ 0 := (Real.sqrt_pos.2 (by norm_num)).ne'
    field_simp
    nlinarith
  have edge : ∀ t : ℝ, t ≠ 0 → gridAt n (Real.sign t * Real.sqrt (2 * (1 - |(0 : ℝ)|)) * sqrtPiOver2) = 0 ∨
      gridAt n (Real.sign t * Real.sqrt (2 * (1 - |(0 : ℝ)|)) * sqrtPiOver2) = (n : ℝ) - 1 := by
    intro t ht
    rw [abs_zero, sub_zero, mul_one, mul_assoc, hc]
    unfold gridAt
    rcases lt_or_gt_of_ne ht with h | h
    · left
      rw [Real.sign_of_neg h]
      field_simp
      ring
    · right
      rw [Real.sign_of_pos h]
      field_simp
      ring
  have hw : (normalizeV v).z = 0 := by simp [normalizeV, hz]
  rw [vector2lambert_lam]
  have hne : ¬ ((normalizeV v).x = 0 ∧ (normalizeV v).y = 0) := by
    rintro ⟨h1, h2⟩
    have hpos : Real.sqrt (v.x * v.x + v.y * v.y + v.z * v.z) ≠ 0 := by
      intro h
      have h0 : v.x * v.x + v.y * v.y + v.z * v.z ≤ 0 := Real.sqrt_eq_zero'.1 h
      refine hv ?_
      have e1 : v.x = 0 := by nlinarith [mul_self_nonneg v.x, mul_self_nonneg v.y, mul_self_nonneg v.z]
      have e2 : v.y = 0 := by nlinarith [mul_self_nonneg v.x, mul_self_nonneg v.y, mul_self_nonneg v.z]
      ext <;> simp only
      · exact e1
      · exact e2
      · exact hz
    simp only [normalizeV, div_eq_zero_iff, hpos, or_false] at h1 h2
    refine hv ?_
    ext <;> simp only
    · exact h1
    · exact h2
    · exact hz
  generalize normalizeV v = w at hw hne
  unfold lam
  rw [if_neg (by rw [hw]; norm_num)]
  split
  · rename_i hxy
    have hx : w.x ≠ 0 := by
      intro h
      rw [h, abs_zero] at hxy
      exact hne ⟨h, abs_nonpos_iff.1 hxy⟩
    have := edge w.x hx
    simp only [fwdX, hw]
    exact Or.inr (Or.inr this)
  · rename_i hxy
    have hy : w.y ≠ 0 := by
      intro h
      rw [h, abs_zero] at hxy
      exact hxy (abs_nonneg _)
    simp only [fwdX, V3.swap, Prod.swap, hw]
    rcases edge w.y hy with h | h
    · exact Or.inl h
    · exact Or.inr (Or.inl h)

/-! ### Intensities -/

theorem intensityIn_bilinear {u l : Img ℝ} (hpos : 0 < u.cols) (hsq : u.rows = u.cols) (v : V3 ℝ) :
    intensityIn u l v = bilinearAt u.cols (if 0 ≤ v.z then u.val else l.val)
      (gridAt u.cols (vector2lambert v).2) (gridAt u.cols (vector2lambert v).1) := by
  unfold intensityIn
  simp only [hsq]
  split
  · exact masterPixel_bilinear hpos u v
  · exact masterPixel_bilinear hpos l v

/-- C137: the intensity in a direction of a master pattern after one of the operations is the intensity of
the master pattern in the direction before it. Only the zero vector is excluded, and this only when the
hemispheres are exchanged. -/
theorem C137_intensity {g : GridOp} {u l u' l' : Img ℝ} (h : TurnedHemispheres g u l u' l') {v : V3 ℝ}
    (hv : g.flipZ = true → v ≠ ⟨0, 0, 0⟩) : intensityIn u' l' (g.act v) = intensityIn u l v := by
  rw [intensityIn_bilinear h.pos h.square, intensityIn_bilinear (by rw [h.cols]; exact h.pos)
    (by rw [h.rows, h.cols]), h.cols, lambert_act]
  cases hz : g.flipZ with
  | false =>
    have e : (g.act v).z = v.z := by
      unfold GridOp.act
      simp only [hz, Bool.false_eq_true, if_false]
      split <;> rfl
    rw [e]
    refine bilinearAt_act g (fun r c hr hc => ?_) _
    have h1 := h.upper r c hr hc
    have h2 := h.lower r c hr hc
    rw [hz] at h1 h2
    split
    · simpa using h1
    · simpa using h2
  | true =>
    have e : (g.act v).z = -v.z := by
      unfold GridOp.act
      simp only [hz, if_true]
      split <;> rfl
    rw [e]
    have hu : ∀ r c, r < u.cols → c < u.cols →
        u'.val (g.pixel u.cols r c).1 (g.pixel u.cols r c).2 = l.val r c := by
      intro r c hr hc
      have := h.upper r c hr hc
      rw [hz] at this
      simpa using this
    have hl : ∀ r c, r < u.cols → c < u.cols →
        l'.val (g.pixel u.cols r c).1 (g.pixel u.cols r c).2 = u.val r c := by
      intro r c hr hc
      have := h.lower r c hr hc
      rw [hz] at this
      simpa using this
    rcases lt_trichotomy v.z 0 with h0 | h0 | h0
    · rw [if_pos (by linarith), if_neg (by linarith)]
      exact bilinearAt_act g hu _
    · rw [if_pos (by linarith), if_pos h0.ge, bilinearAt_act g hu _]
      exact (bilinearAt_border h.pos (h.equator hz) (lambert_equator h0 (hv hz) _)).symm
    · rw [if_neg (by linarith), if_pos h0.le]
      exact bilinearAt_act g hl _

/-- C137: every rotation among the operations is the rotation by a quaternion of length one. -/
theorem C137_rotations {g : GridOp} (hg : g.IsRotation) : ∃ s : Quat, Spec.lenSq s = 1 ∧ ActsAs s g := by
  have h2 : (Real.sqrt 2 / 2) ^ 2 = 1 / 2 := by
    rw [div_pow, Real.sq_sqrt (by norm_num)]; norm_num
  obtain ⟨a, b, c, d⟩ := g
  generalize Real.sqrt 2 / 2 = k at h2
  unfold GridOp.IsRotation at hg
  have key : ∀ (s : Quat) (g : GridOp) (v : V3 ℝ), (rotateVector s v).x = (g.act v).x →
      (rotateVector s v).y = (g.act v).y → (rotateVector s v).z = (g.act v).z → rotateVector s v = g.act v :=
    fun s g v h1 h2 h3 => V3.ext h1 h2 h3
  cases a <;> cases b <;> cases c <;> cases d <;> simp at hg
  · refine ⟨⟨1, 0, 0, 0⟩, by simp [lenSq], fun v => ?_⟩
    simp only [rotateVector, GridOp.act]; ext <;> simp
  · refine ⟨⟨0, 1, 0, 0⟩, by simp [lenSq], fun v => ?_⟩
    simp only [rotateVector, GridOp.act]; ext <;> simp
  · refine ⟨⟨0, 0, 1, 0⟩, by simp [lenSq], fun v => ?_⟩
    simp only [rotateVector, GridOp.act]; ext <;> simp
  · refine ⟨⟨0, 0, 0, 1⟩, by simp [lenSq], fun v => ?_⟩
    simp only [rotateVector, GridOp.act]; ext <;> simp
  · refine ⟨⟨0, k, k, 0⟩, by simp [lenSq]; linarith, fun v => ?_⟩
    exact key _ _ v (by simp [rotateVector, GridOp.act]; linear_combination (2 * v.y) * h2)
      (by simp [rotateVector, GridOp.act]; linear_combination (2 * v.x) * h2)
      (by simp [rotateVector, GridOp.act]; linear_combination (-2 * v.z) * h2)
  · refine ⟨⟨k, 0, 0, -k⟩, by simp [lenSq]; linarith, fun v => ?_⟩
    exact key _ _ v (by simp [rotateVector, GridOp.act]; linear_combination (2 * v.y) * h2)
      (by simp [rotateVector, GridOp.act]; linear_combination (2 * v.x) * h2)
      (by simp [rotateVector, GridOp.act]; linear_combination (2 * v.z) * h2)
  · refine ⟨⟨k, 0, 0, k⟩, by simp [lenSq]; linarith, fun v => ?_⟩
    exact key _ _ v (by simp [rotateVector, GridOp.act]; linear_combination (2 * v.y) * h2)
      (by simp [rotateVector, GridOp.act]; linear_combination (2 * v.x) * h2)
      (by simp [rotateVector, GridOp.act]; linear_combination (2 * v.z) * h2)
  · refine ⟨⟨0, k, -k, 0⟩, by simp [lenSq]; linarith, fun v => ?_⟩
    exact key _ _ v (by simp [rotateVector, GridOp.act]; linear_combination (2 * v.y) * h2)
      (by simp [rotateVector, GridOp.act]; linear_combination (2 * v.x) * h2)
      (by simp [rotateVector, GridOp.act]; linear_combination (-2 * v.z) * h2)

/-! ### Patterns -/

theorem rotate_ne_zero {q : Quat} (hq : Spec.lenSq q = 1) {v : V3 ℝ} (hv : v ≠ ⟨0, 0, 0⟩) :
    rotateVector q v ≠ ⟨0, 0, 0⟩ := by
  intro h
  have e := C31_rotate_isometry hq v v
  rw [h] at e
  unfold V3.dot at e
  simp only [mul_zero, add_zero] at e
  refine hv ?_
  ext <;> simp only <;> nlinarith [mul_self_nonneg v.x, mul_self_nonneg v.y, mul_self_nonneg v.z]

theorem pcDirections_ne_zero (d : Detector ℝ) {m : M3} (hm : ProperRotation m) {p : PC ℝ} (hz : 0 < p.z)
    (mask : List Bool) : ∀ v ∈ pcDirections d m mask p, v ≠ ⟨0, 0, 0⟩ := by
  intro v hv h0
  unfold pcDirections directionCosinesFixed at hv
  simp only [List.mem_map] at hv
  obtain ⟨i, _, hi⟩ := hv
  generalize hw : (⟨_, _, p.z⟩ : V3 ℝ) = w at hi
  have hwz : w.z = p.z := by rw [← hw]
  have hpos : 0 < (m.transpose.apply w).dot (m.transpose.apply w) := by
    rw [hm.transpose_dot]
    unfold V3.dot
    rw [hwz]
    nlinarith [mul_self_nonneg w.x, mul_self_nonneg w.y, mul_pos hz hz]
  generalize m.transpose.apply w = z at hi hpos
  rw [h0] at hi
  unfold V3.dot at hpos
  have hs : Real.sqrt (z.x * z.x + z.y * z.y + z.z * z.z) ≠ 0 := (Real.sqrt_pos.2 hpos).ne'
  unfold normalizeV at hi
  simp only [V3.mk.injEq, div_eq_zero_iff, hs, or_false] at hi
  obtain ⟨h1, h2, h3⟩ := hi
  rw [h1, h2, h3] at hpos
  simp at hpos

theorem projectPattern_turned {g : GridOp} {u l u' l' : Img ℝ} (h : TurnedHemispheres g u l u' l') {s : Quat}
    (hs : ActsAs s g) {q : Quat} (hq : Spec.lenSq q = 1) {dcs : List (V3 ℝ)}
    (hd : ∀ v ∈ dcs, v ≠ ⟨0, 0, 0⟩) (rescale : Bool) (omin omax : ℝ) (dt : DType) :
    projectPattern q u l u.cols u.rows (((u.cols : ℝ) - 1) / 2) dcs rescale omin omax dt =
      projectPattern (s.mul q) u' l' u'.cols u'.rows (((u'.cols : ℝ) - 1) / 2) dcs rescale omin omax dt := by
  unfold projectPattern
  have e : dcs.map (projectPixel q u l u.cols u.rows (((u.cols : ℝ) - 1) / 2)) =
      dcs.map (projectPixel (s.mul q) u' l' u'.cols u'.rows (((u'.cols : ℝ) - 1) / 2)) := by
    refine List.map_congr_left fun v hv => ?_
    rw [projectPixel_intensity, projectPixel_intensity, rotateVector_mul, hs]
    exact (C137_intensity h fun _ => rotate_ne_zero hq (hd v hv)).symm
  rw [e]

theorem arraysFromEnergy_turned {g : GridOp} {mp mp' : MasterPattern} (h : TurnedMaster g mp mp')
    (energy : Option ℝ) :
    (mp.arraysFromEnergy energy = none ∧ mp'.arraysFromEnergy energy = none) ∨
      ∃ a a', mp.arraysFromEnergy energy = some a ∧ mp'.arraysFromEnergy energy = some a' ∧
        TurnedHemispheres g a.1 a.2 a'.1 a'.2 := by
  obtain ⟨_, _, hb, _, ha⟩ := h
  have hlen := ha.length_eq
  have henergy : mp'.arrays.map Prod.fst = mp.arrays.map Prod.fst := by
    symm
    rw [← List.forall₂_eq_eq_eq, List.forall₂_map_left_iff, List.forall₂_map_right_iff]
    exact ha.imp fun a a' h => h.1.symm
  have pick : ∀ i : ℕ, (mp.arrays[i]? = none ∧ mp'.arrays[i]? = none) ∨
      ∃ a a', mp.arrays[i]? = some a ∧ mp'.arrays[i]? = some a' ∧
        TurnedHemispheres g (hemispheresAt mp a).1 (hemispheresAt mp a).2 (hemispheresAt mp' a').1
        (hemispheresAt mp' a').2 := by
    intro i
    by_cases hi : i < mp.arrays.length
    · have hi' : i < mp'.arrays.length := hlen ▸ hi
      right
      exact ⟨_, _, List.getElem?_eq_getElem hi, List.getElem?_eq_getElem hi',
        (List.forall₂_iff_get.1 ha |>.2 i hi hi').2⟩
    · left
      exact ⟨List.getElem?_eq_none (by omega), List.getElem?_eq_none (by omega)⟩
  have hemi : ∀ (mp : MasterPattern) (a : ℝ × Img ℝ × Img ℝ),
      (if mp.both then a.2 else (a.2.1, a.2.1)) = hemispheresAt mp a := by
    intro mp a
    unfold hemispheresAt
    cases mp.both <;> rfl
  have index : ∃ i : ℕ, mp.arraysFromEnergy energy = mp.arrays[i]?.map (hemispheresAt mp) ∧
      mp'.arraysFromEnergy energy = mp'.arrays[i]?.map (hemispheresAt mp') := by
    unfold MasterPattern.arraysFromEnergy
    simp only [hemi]
    rw [← hlen]
    split
    · cases energy with
      | none => exact ⟨mp.arrays.length - 1, by rw [List.getLast?_eq_getElem?], by
          rw [List.getLast?_eq_getElem?, hlen]⟩
      | some e => exact ⟨nearestEnergy (mp.arrays.map Prod.fst) e, rfl, by rw [henergy]⟩
    · exact ⟨0, by rw [List.head?_eq_getElem?], by rw [List.head?_eq_getElem?]⟩
  obtain ⟨i, e, e'⟩ := index
  rw [e, e']
  rcases pick i with ⟨h1, h2⟩ | ⟨a, a', h1, h2, h3⟩
  · left
    rw [h1, h2]
    exact ⟨rfl, rfl⟩
  · right
    rw [h1, h2]
    exact ⟨_, _, rfl, rfl, h3⟩

theorem getPatterns_turned {g : GridOp} {mp mp' : MasterPattern} (h : TurnedMaster g mp mp') {s : Quat}
    (hs : ActsAs s g) {rots : List Quat} (hr : ∀ q ∈ rots, Spec.lenSq q = 1) {d : Detector ℝ}
    (hlen : d.pc.length = d.nav.prod) (hz : ∀ p ∈ d.pc, 0 < p.z) {m : M3} (hm : ProperRotation m)
    (rotShape : List ℕ) (energy : Option ℝ) (dtypeOut : DType) (chunks : List ℕ) :
    mp'.getPatterns rotShape (rots.map s.mul) d m energy dtypeOut chunks =
      mp.getPatterns rotShape rots d m energy dtypeOut chunks := by
  have hsuit : mp'.checkSuitable = mp.checkSuitable := by
    obtain ⟨h1, h2, h3, _⟩ := h
    unfold MasterPattern.checkSuitable
    rw [h1, h2, h3]
  have hdt : mp'.dtype = mp.dtype := h.2.2.2.1
  unfold MasterPattern.getPatterns
  rw [hsuit, hdt]
  simp only
  cases mp.checkSuitable with
  | error e => rfl
  | ok _ =>
    simp only
    split
    · rfl
    · split
      · rfl
      · rcases arraysFromEnergy_turned h energy with ⟨e, e'⟩ | ⟨a, a', e, e', ht⟩
        · rw [e, e']
          cases (if decide (dtypeOut ≠ mp.dtype) then dtypeRange dtypeOut else some (1, 2)) <;> rfl
        · rw [e, e']
          generalize (if decide (dtypeOut ≠ mp.dtype) then dtypeRange dtypeOut else some (1, 2)) = r
          cases r with
          | none => rfl
          | some r =>
            simp only
            refine (getPatternsCore_congr (A := fun q q' => Spec.lenSq q = 1 ∧ q' = s.mul q)
              (B := fun x x' => x' = x ∧ ∀ v ∈ x, v ≠ ⟨0, 0, 0⟩) ?_ ?_ ?_ _ _ _).symm
            · rintro q q' x x' ⟨hq, rfl⟩ ⟨rfl, hx⟩
              exact projectPattern_turned ht hs hq hx _ _ _ _
            · rw [List.forall₂_map_right_iff, List.forall₂_same]
              exact fun q hq => ⟨hr q hq, rfl⟩
            · rw [List.forall₂_same, C30_each_pc hlen]
              intro x hx
              obtain ⟨p, hp, rfl⟩ := List.mem_map.1 hx
              exact ⟨rfl, pcDirections_ne_zero d hm (hz p hp) _⟩

/-- C137: turning the master pattern and the crystal together changes nothing: with the master pattern after
the operation and all orientations followed by it, the simulated patterns are the same, for every detector
with PCs in front of it, energy, data type, shape and chunks, also in that the same errors are raised. -/
theorem C137_turned {g : GridOp} {mp mp' : MasterPattern} (h : TurnedMaster g mp mp') {s : Quat}
    (hs : ActsAs s g) {rots : List Quat} (hr : ∀ q ∈ rots, Spec.lenSq q = 1) {d : Detector ℝ}
    (hlen : d.pc.length = d.nav.prod) (hz : ∀ p ∈ d.pc, 0 < p.z) (rotShape : List ℕ)
    (energy : Option ℝ) (dtypeOut : DType) (chunks : List ℕ) :
    mp'.simulate rotShape (rots.map s.mul) d energy dtypeOut chunks =
      mp.simulate rotShape rots d energy dtypeOut chunks :=
  getPatterns_turned h hs hr hlen hz (C08_sample_to_detector_is_proper_rotation _ _ _ _) _ _ _ _

/-- C137: orientations which differ by a rotation that the master pattern is unchanged by have the same
simulated patterns. Missing: other symmetry operations of crystals, such as three-fold axes, for which this is
false (`C137_three_fold_violated`). -/
theorem C137_symmetric_partial {g : GridOp} {mp : MasterPattern} (h : TurnedMaster g mp mp) {s : Quat}
    (hs : ActsAs s g) {rots : List Quat} (hr : ∀ q ∈ rots, Spec.lenSq q = 1) {d : Detector ℝ}
    (hlen : d.pc.length = d.nav.prod) (hz : ∀ p ∈ d.pc, 0 < p.z) (rotShape : List ℕ)
    (energy : Option ℝ) (dtypeOut : DType) (chunks : List ℕ) :
    mp.simulate rotShape (rots.map s.mul) d energy dtypeOut chunks =
      mp.simulate rotShape rots d energy dtypeOut chunks :=
  C137_turned h hs hr hlen hz _ _ _ _

/-- C137: refinement cannot tell such orientations apart: they have the same simulated patterns, the same
scores for every pattern, and explain the same patterns. Missing: as for `C137_symmetric_partial`. -/
theorem C137_same_scores_partial {g : GridOp} {a : RefineArgs} (hm : a.m = a.det.sampleToDetector)
    (h : TurnedMaster g a.mp a.mp) {s : Quat} (hs : ActsAs s g) {q : Quat} (hq : Spec.lenSq q = 1) {p : PC ℝ}
    (hz : 0 < p.z) :
    (∀ sim, IsSimulated a (s.mul q) p sim ↔ IsSimulated a q p sim) ∧
      (∀ pattern x, IsScore a pattern (s.mul q) p x ↔ IsScore a pattern q p x) ∧
      ∀ pattern, Explains a (s.mul q) p pattern ↔ Explains a q p pattern := by
  have key : ∀ sim, IsSimulated a (s.mul q) p sim ↔ IsSimulated a q p sim := by
    intro sim
    have := C137_symmetric_partial h hs (rots := [q]) (by simpa using hq) (d := { a.det with nav := [1], pc := [p] })
      rfl (by simpa using hz) [1] a.energy (.float 32) [1]
    unfold IsSimulated
    rw [hm]
    exact Eq.congr_left this
  refine ⟨key, fun pattern x => ?_, fun pattern => ?_⟩
  · exact ⟨fun ⟨sim, h1, h2⟩ => ⟨sim, (key sim).1 h1, h2⟩, fun ⟨sim, h1, h2⟩ => ⟨sim, (key sim).2 h1, h2⟩⟩
  · exact ⟨fun ⟨sim, h1, h2⟩ => ⟨sim, (key sim).1 h1, h2⟩, fun ⟨sim, h1, h2⟩ => ⟨sim, (key sim).2 h1, h2⟩⟩

/-- C137: the intensity of a square master pattern in every direction is the mean of its pixels weighted by
their distances to the point of the direction in the square of side `n - 1`. -/
theorem C137_weighted_mean {u l : Img ℝ} (hpos : 0 < u.cols) (hsq : u.rows = u.cols) (v : V3 ℝ) :
    ∃ y x : ℝ, (0 ≤ y ∧ y ≤ (u.cols : ℝ) - 1) ∧ (0 ≤ x ∧ x ≤ (u.cols : ℝ) - 1) ∧
      (y, x) = (((u.cols : ℝ) - 1) / 2 * ((vector2lambert v).2 / Real.sqrt (Real.pi / 2) + 1),
        ((u.cols : ℝ) - 1) / 2 * ((vector2lambert v).1 / Real.sqrt (Real.pi / 2) + 1)) ∧
      intensityIn u l v = bilinearAt u.cols (if 0 ≤ v.z then u.val else l.val) y x := by
  have hs : 0 < sqrtPiHalf := Real.sqrt_pos.2 (by positivity)
  have hn1 : (1 : ℝ) ≤ u.cols := by exact_mod_cast hpos
  obtain ⟨h1, h2⟩ := lambert_in_square v
  have key : ∀ x : ℝ, |x| ≤ sqrtPiHalf → 0 ≤ gridAt u.cols x ∧ gridAt u.cols x ≤ (u.cols : ℝ) - 1 := by
    intro x hx
    have hx1 : |x / sqrtPiHalf| ≤ 1 := by
      rw [abs_div, abs_of_pos hs, div_le_one hs]
      exact hx
    obtain ⟨h3, h4⟩ := abs_le.1 hx1
    have e : gridAt u.cols x = ((u.cols : ℝ) - 1) / 2 * (x / sqrtPiHalf + 1) := by unfold gridAt; ring
    rw [e]
    constructor
    · exact mul_nonneg (by linarith) (by linarith)
    · nlinarith
  refine ⟨_, _, key _ h2, key _ h1, ?_, intensityIn_bilinear hpos hsq v⟩
  unfold gridAt sqrtPiHalf
  simp only [Prod.mk.injEq]
  constructor <;> ring

/-- C137 is false of three-fold axes: there is a master pattern sampled exactly, on the grid, from a function
with the full symmetry of a cube, and a direction in which its intensity is not the intensity in the direction
turned by a third of a turn about the body diagonal. -/
theorem C137_three_fold_violated :
    ∃ f : V3 ℝ → ℝ, IsCubic f ∧ ∃ u : Img ℝ, u.rows = 3 ∧ u.cols = 3 ∧
      (∀ r c, r < 3 → c < 3 → u.val r c = f (lambert2vector ((c : ℝ) - 1) ((r : ℝ) - 1))) ∧
      ∃ v : V3 ℝ, v.IsUnit ∧ intensityIn u u v = 1 ∧ intensityIn u u ⟨v.y, v.z, v.x⟩ = 0 := by
  let f : V3 ℝ → ℝ := fun v => 4 * ((v.x * v.y) ^ 2 + (v.y * v.z) ^ 2 + (v.z * v.x) ^ 2)
  have hpi := Real.pi_pos
  have hs : Real.sqrt (Real.pi / 2) ^ 2 = Real.pi / 2 := Real.sq_sqrt (by positivity)
  have hs0 : 0 < Real.sqrt (Real.pi / 2) := Real.sqrt_pos.2 (by positivity)
  have hmid : ∀ x : ℝ, x = 0 ∨ x ^ 2 = 1 → f (lambert2vector x 0) = 0 := by
    intro x hx
    rcases hx with rfl | hx
    · simp [lambert2vector, f]
    · have hx0 : x ≠ 0 := by rintro rfl; norm_num at hx
      have h1 : (x * Real.sqrt (Real.pi / 2)) ^ 2 = Real.pi / 2 := by rw [mul_pow, hx, hs, one_mul]
      unfold lambert2vector
      simp only [zero_mul, abs_zero]
      rw [if_neg, if_neg]
      · simp only [zero_mul, zero_div, Real.sin_zero, mul_zero, h1, f]
        field_simp
        ring
      · rw [abs_nonpos_iff]
        exact mul_ne_zero hx0 hs0.ne'
      · intro h
        have := le_max_left |x * Real.sqrt (Real.pi / 2)| 0
        rw [h, abs_nonpos_iff] at this
        exact mul_ne_zero hx0 hs0.ne' this
  have hcorner : lambert2vector 1 1 = ⟨Real.sqrt 2 / 2, Real.sqrt 2 / 2, 0⟩ := by
    unfold lambert2vector
    simp only [one_mul, max_self, le_refl, if_true, hs]
    rw [if_neg (by rw [abs_eq_zero]; exact hs0.ne')]
    have h1 : Real.pi - Real.pi / 2 = Real.pi / 2 := by ring
    have h2 : 2 * Real.sqrt (Real.pi / 2) * Real.sqrt (Real.pi / 2) / Real.pi = 1 := by
      rw [mul_assoc, ← pow_two, hs]
      field_simp
    have h3 : Real.sqrt (Real.pi / 2) * Real.pi * (1 / 4) / Real.sqrt (Real.pi / 2) = Real.pi / 4 := by
      field_simp
    rw [h1, h2, h3, Real.sin_pi_div_four, Real.cos_pi_div_four]
    ext <;> simp only
    · ring
    · ring
    · field_simp
      ring
  have h2 : Real.sqrt 2 ^ 2 = 2 := Real.sq_sqrt (by norm_num)
  let u : Img ℝ := ⟨3, 3, fun r c => f (lambert2vector ((c : ℝ) - 1) ((r : ℝ) - 1))⟩
  refine ⟨f, ⟨fun x y z => ?_, fun x y z => ?_, fun x y z => ?_⟩, u, rfl, rfl, fun _ _ _ _ => rfl,
    ⟨Real.sqrt 2 / 2, Real.sqrt 2 / 2, 0⟩, ?_, ?_, ?_⟩
  · simp only [f]; ring
  · simp only [f]; ring
  · simp only [f]; ring
  · unfold V3.IsUnit
    simp only
    nlinarith
  · have := C29_grid_points (n := 3) (by norm_num) u u (r := 2) (c := 2) (by norm_num) (by norm_num)
    have e : 2 * ((2 : ℕ) : ℝ) / (((3 : ℕ) : ℝ) - 1) - 1 = 1 := by norm_num
    rw [e, hcorner] at this
    have hi : projectPixel ⟨1, 0, 0, 0⟩ u u (3 : ℕ) (3 : ℕ) ((((3 : ℕ) : ℝ) - 1) / 2)
        ⟨Real.sqrt 2 / 2, Real.sqrt 2 / 2, 0⟩ = intensityIn u u (rotateVector ⟨1, 0, 0, 0⟩
        ⟨Real.sqrt 2 / 2, Real.sqrt 2 / 2, 0⟩) := projectPixel_intensity u u _ _
    rw [hi] at this
    have e1 : rotateVector ⟨1, 0, 0, 0⟩ ⟨Real.sqrt 2 / 2, Real.sqrt 2 / 2, 0⟩ =
        (⟨Real.sqrt 2 / 2, Real.sqrt 2 / 2, 0⟩ : V3 ℝ) := by
      unfold rotateVector
      ext <;> simp
    rw [e1] at this
    rw [this]
    have e2 : ((2 : ℕ) : ℝ) - 1 = 1 := by norm_num
    simp only [u, e2, hcorner, f]
    nlinarith
  · rw [intensityIn_bilinear (by simp [u]) (by simp [u])]
    have hy : gridAt u.cols (vector2lambert ⟨Real.sqrt 2 / 2, 0, Real.sqrt 2 / 2⟩).2 = 1 := by
      have hu : V3.IsUnit ⟨Real.sqrt 2 / 2, 0, Real.sqrt 2 / 2⟩ := by
        unfold V3.IsUnit
        simp only
        nlinarith
      have hz : (vector2lambert ⟨Real.sqrt 2 / 2, 0, Real.sqrt 2 / 2⟩).2 = 0 := by
        rw [vector2lambert_eq hu]
        split
        · rfl
        · rw [if_pos (by simp)]
          simp [fwdX]
      rw [hz]
      simp only [gridAt, u]
      norm_num
    rw [hy]
    unfold bilinearAt
    refine Finset.sum_eq_zero fun r hr => Finset.sum_eq_zero fun c hc => ?_
    have hc : c < 3 := Finset.mem_range.1 hc
    by_cases hr1 : r = 1
    · subst hr1
      have : u.val 1 c = 0 := by
        simp only [u, Nat.cast_one, sub_self]
        apply hmid
        interval_cases c <;> norm_num
      simp only [ite_self, this, zero_mul]
    · have hr : r < 3 := Finset.mem_range.1 hr
      have : hat (1 - (r : ℝ)) = 0 := by
        apply hat_far
        interval_cases r
        · norm_num
        · exact absurd rfl hr1
        · norm_num
      rw [this]
      ring

/-- No quaternion acts as an operation which mirrors, so that nothing is said of these: the converse of
`C137_rotations`. -/
theorem C137_only_rotations {g : GridOp} {s : Quat} (hs : ActsAs s g) : g.IsRotation := by
  have hx := hs ⟨1, 0, 0⟩
  have hy := hs ⟨0, 1, 0⟩
  have hz := hs ⟨0, 0, 1⟩
  have hl : Spec.lenSq s ^ 2 = 1 := by
    have e : Spec.lenSq s ^ 2 = (rotateVector s ⟨1, 0, 0⟩).x ^ 2 + (rotateVector s ⟨1, 0, 0⟩).y ^ 2 +
        (rotateVector s ⟨1, 0, 0⟩).z ^ 2 := by
      simp only [Spec.lenSq, rotateVector]
      ring
    rw [e, hx]
    obtain ⟨a, b, c, d⟩ := g
    cases a <;> cases b <;> cases c <;> cases d <;> simp [GridOp.act]
  have hpos : Spec.lenSq s = 1 := by
    have h0 : 0 ≤ Spec.lenSq s := by unfold Spec.lenSq; positivity
    nlinarith
  have hdet : (rotateVector s ⟨1, 0, 0⟩).x * ((rotateVector s ⟨0, 1, 0⟩).y * (rotateVector s ⟨0, 0, 1⟩).z -
        (rotateVector s ⟨0, 1, 0⟩).z * (rotateVector s ⟨0, 0, 1⟩).y) -
      (rotateVector s ⟨1, 0, 0⟩).y * ((rotateVector s ⟨0, 1, 0⟩).x * (rotateVector s ⟨0, 0, 1⟩).z -
        (rotateVector s ⟨0, 1, 0⟩).z * (rotateVector s ⟨0, 0, 1⟩).x) +
      (rotateVector s ⟨1, 0, 0⟩).z * ((rotateVector s ⟨0, 1, 0⟩).x * (rotateVector s ⟨0, 0, 1⟩).y -
        (rotateVector s ⟨0, 1, 0⟩).y * (rotateVector s ⟨0, 0, 1⟩).x) = Spec.lenSq s ^ 3 := by
    simp only [Spec.lenSq, rotateVector]
    ring
  rw [hpos, hx, hy, hz] at hdet
  obtain ⟨a, b, c, d⟩ := g
  unfold GridOp.IsRotation
  cases a <;> cases b <;> cases c <;> cases d <;> simp [GridOp.act] at hdet ⊢ <;> norm_num at hdet

/-- A quarter turn about the axis of the master pattern, and a half turn about `x`. -/
example : (⟨true, true, false, false⟩ : GridOp).IsRotation ∧ (⟨false, false, true, true⟩ : GridOp).IsRotation ∧
    (⟨true, true, false, false⟩ : GridOp).act ⟨1, 2, 3⟩ = ⟨-2, 1, 3⟩ ∧
    (⟨true, true, false, false⟩ : GridOp).pixel 5 1 0 = (0, 3) := by
  refine ⟨rfl, rfl, ?_, rfl⟩
  simp [GridOp.act]

/-- A master pattern of 3 x 3 pixels with two energies, unchanged by a quarter turn, with different
hemispheres, so that all hypotheses are met. -/
example : ∃ mp : MasterPattern, TurnedMaster ⟨true, true, false, false⟩ mp mp ∧ mp.arrays.length = 2 ∧
    mp.both = true := by
  let u : Img ℝ := ⟨3, 3, fun r c => if r = 1 ∧ c = 1 then 5 else if r = 1 ∨ c = 1 then 2 else 1⟩
  let l : Img ℝ := ⟨3, 3, fun r c => if r = 1 ∧ c = 1 then 4 else if r = 1 ∨ c = 1 then 2 else 1⟩
  refine ⟨⟨true, some true, true, [(10, u, l), (20, l, u)], .float 32⟩, ⟨rfl, rfl, rfl, rfl, ?_⟩, rfl, rfl⟩
  have key : ∀ k : ℝ, ∀ r c, r < 3 → c < 3 →
      (fun r c : ℕ => if r = 1 ∧ c = 1 then k else if r = 1 ∨ c = 1 then (2 : ℝ) else 1)
        (GridOp.pixel ⟨true, true, false, false⟩ 3 r c).1 (GridOp.pixel ⟨true, true, false, false⟩ 3 r c).2 =
      (fun r c : ℕ => if r = 1 ∧ c = 1 then k else if r = 1 ∨ c = 1 then (2 : ℝ) else 1) r c := by
    intro k r c hr hc
    interval_cases r <;> interval_cases c <;> simp [GridOp.pixel]
  refine .cons ⟨rfl, ⟨by norm_num [hemispheresAt, u], rfl, rfl, rfl, key 5, key 4, fun h => by cases h⟩⟩
    (.cons ⟨rfl, ⟨by norm_num [hemispheresAt, l], rfl, rfl, rfl, key 4, key 5, fun h => by cases h⟩⟩ .nil)

/-- With the half turn about `x` the hemispheres are exchanged. -/
example : ∃ u l u' l' : Img ℝ, TurnedHemispheres ⟨false, false, true, true⟩ u l u' l' ∧ u.val 1 1 ≠ l.val 1 1 ∧
    u.val 0 1 ≠ u.val 2 1 := by
  refine ⟨⟨3, 3, fun r c => if r = 1 ∧ c = 1 then 5 else r⟩, ⟨3, 3, fun r c => if r = 1 ∧ c = 1 then 4 else r⟩,
    ⟨3, 3, fun r c => if r = 1 ∧ c = 1 then 4 else 2 - (r : ℝ)⟩,
    ⟨3, 3, fun r c => if r = 1 ∧ c = 1 then 5 else 2 - (r : ℝ)⟩, ⟨by norm_num, rfl, rfl, rfl, ?_, ?_, ?_⟩, ?_, ?_⟩
  · intro r c hr hc
    simp only at hr hc
    interval_cases r <;> interval_cases c <;> norm_num [GridOp.pixel]
  · intro r c hr hc
    simp only at hr hc
    interval_cases r <;> interval_cases c <;> norm_num [GridOp.pixel]
  · intro _ r c hr hc hb
    simp only at hr hc
    interval_cases r <;> interval_cases c <;> simp at hb ⊢
  · norm_num
  · norm_num

end Kp
