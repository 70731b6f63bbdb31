import Verif.Props.Lambert
import Verif.Props.Rotations

/-
C29: interpolation in master patterns. C62: one hemisphere of a centrosymmetric phase.
-/

namespace Kp

/-- Fractional position on the grid of a point in the square. -/
theorem interpAt_spec {n : ℕ} {i : ℝ} (h : |i| ≤ ((n : ℝ) - 1) / 2) :
    ∃ k : ℕ, k < n ∧ toInt32 (i + ((n : ℝ) - 1) / 2) = k ∧
      0 ≤ i - (k : ℝ) + ((n : ℝ) - 1) / 2 ∧ i - (k : ℝ) + ((n : ℝ) - 1) / 2 < 1 ∧
      (k + 1 = n → i - (k : ℝ) + ((n : ℝ) - 1) / 2 = 0) := by
  rw [abs_le] at h
  have h0 : 0 ≤ i + ((n : ℝ) - 1) / 2 := by linarith
  have h1 : i + ((n : ℝ) - 1) / 2 ≤ (n : ℝ) - 1 := by linarith
  obtain ⟨k, hk⟩ : ∃ k : ℕ, (k : ℤ) = ⌊i + ((n : ℝ) - 1) / 2⌋ :=
    Int.eq_ofNat_of_zero_le (Int.floor_nonneg.2 h0) |>.imp fun _ => Eq.symm
  have hle : (k : ℝ) ≤ i + ((n : ℝ) - 1) / 2 := by
    have := Int.floor_le (i + ((n : ℝ) - 1) / 2)
    rw [← hk] at this
    exact_mod_cast this
  have hlt : i + ((n : ℝ) - 1) / 2 < (k : ℝ) + 1 := by
    have := Int.lt_floor_add_one (i + ((n : ℝ) - 1) / 2)
    rw [← hk] at this
    exact_mod_cast this
  have hkn : k < n := by
    have : (k : ℝ) < n := by linarith
    exact_mod_cast this
  refine ⟨k, hkn, ?_, by linarith, by linarith, ?_⟩
  · unfold toInt32
    rw [if_pos h0, ← hk]
  · intro hk1
    have : (k : ℝ) + 1 = n := by exact_mod_cast hk1
    linarith

/-- What the interpolation parameters of a point of the square are. -/
theorem interpAt_eq {n : ℕ} (hn : 0 < n) {i j : ℝ} (hi : |i| ≤ ((n : ℝ) - 1) / 2)
    (hj : |j| ≤ ((n : ℝ) - 1) / 2) :
    ∃ r c r' c' : ℕ, ∃ di dj : ℝ, r < n ∧ c < n ∧ r' < n ∧ c' < n ∧
      0 ≤ di ∧ di < 1 ∧ 0 ≤ dj ∧ dj < 1 ∧
      di = i - r + ((n : ℝ) - 1) / 2 ∧ dj = j - c + ((n : ℝ) - 1) / 2 ∧
      (r' = r + 1 ∨ r' = r ∧ di = 0) ∧ (c' = c + 1 ∨ c' = c ∧ dj = 0) ∧
      interpAt i j n n (((n : ℝ) - 1) / 2) =
        { nii := r, nij := c, niip := r', nijp := c', di := di, dj := dj, dim := 1 - di,
          djm := 1 - dj } := by
  obtain ⟨r, hr, er, h0, h1, h2⟩ := interpAt_spec hi
  obtain ⟨c, hc, ec, g0, g1, g2⟩ := interpAt_spec hj
  have key : ∀ (k : ℕ), k < n → ∃ k' : ℕ, k' < n ∧ (k' = k + 1 ∨ (k' = k ∧ k + 1 = n)) ∧
      (if (n : ℤ) ≤ (k : ℤ) + 1 then (k : ℤ) else (k : ℤ) + 1) = (k' : ℤ) := by
    intro k hk
    by_cases h : k + 1 = n
    · exact ⟨k, hk, Or.inr ⟨rfl, h⟩, by rw [if_pos (by omega)]⟩
    · exact ⟨k + 1, by omega, Or.inl rfl, by rw [if_neg (by omega)]; push_cast; rfl⟩
  obtain ⟨r', hr', hr'2, er'⟩ := key r hr
  obtain ⟨c', hc', hc'2, ec'⟩ := key c hc
  refine ⟨r, c, r', c', _, _, hr, hc, hr', hc', h0, h1, g0, g1, rfl, rfl, ?_, ?_, ?_⟩
  · exact hr'2.imp id fun h => ⟨h.1, h2 h.2⟩
  · exact hc'2.imp id fun h => ⟨h.1, g2 h.2⟩
  · unfold interpAt
    simp only [er, ec, er', ec']
    rw [if_neg (by omega), if_neg (by omega)]
    simp

/-- The scaled projection is on the grid. -/
theorem scaled_lambert {n : ℕ} (hn : 0 < n) {v : V3 ℝ} (h : v.IsUnit) :
    |((n : ℝ) - 1) / 2 * (vector2lambert v).2 / sqrtPiHalf| ≤ ((n : ℝ) - 1) / 2 ∧
      |((n : ℝ) - 1) / 2 * (vector2lambert v).1 / sqrtPiHalf| ≤ ((n : ℝ) - 1) / 2 := by
  obtain ⟨h1, h2⟩ := C28_in_square h
  have hs : 0 < sqrtPiHalf := Real.sqrt_pos.2 (by positivity)
  have hn1 : (1 : ℝ) ≤ n := by exact_mod_cast hn
  have key : ∀ x : ℝ, |x| ≤ sqrtPiHalf → |((n : ℝ) - 1) / 2 * x / sqrtPiHalf| ≤ ((n : ℝ) - 1) / 2 := by
    intro x hx
    rw [abs_div, abs_mul, abs_of_nonneg (by linarith : (0 : ℝ) ≤ ((n : ℝ) - 1) / 2), abs_of_pos hs,
      div_le_iff₀ hs]
    exact mul_le_mul_of_nonneg_left hx (by linarith)
  exact ⟨key _ h2, key _ h1⟩

/-- C29: for a square master pattern with `n x n` pixels and every direction, the four pixels
read exist. -/
theorem C29_in_bounds {n : ℕ} (hn : 0 < n) {v : V3 ℝ} (h : v.IsUnit) :
    let p := lambertInterp v n n (((n : ℝ) - 1) / 2)
    (0 ≤ p.nii ∧ p.nii < n) ∧ (0 ≤ p.nij ∧ p.nij < n) ∧ (0 ≤ p.niip ∧ p.niip < n) ∧
      (0 ≤ p.nijp ∧ p.nijp < n) := by
  obtain ⟨hi, hj⟩ := scaled_lambert hn h
  obtain ⟨r, c, r', c', di, dj, hr, hc, hr', hc', _, _, _, _, _, _, _, _, e⟩ := interpAt_eq hn hi hj
  intro p
  have hp : p = _ := e
  rw [hp]
  refine ⟨⟨?_, ?_⟩, ⟨?_, ?_⟩, ⟨?_, ?_⟩, ⟨?_, ?_⟩⟩ <;> simp only <;> omega

/-- Bilinear interpolation is between bounds of the four values. -/
theorem bilinear_bounds {a b c d x y lo hi : ℝ} (hx0 : 0 ≤ x) (hx1 : x ≤ 1) (hy0 : 0 ≤ y)
    (hy1 : y ≤ 1) (ha : lo ≤ a ∧ a ≤ hi) (hb : lo ≤ b ∧ b ≤ hi) (hc : lo ≤ c ∧ c ≤ hi)
    (hd : lo ≤ d ∧ d ≤ hi) :
    lo ≤ a * (1 - x) * (1 - y) + b * x * (1 - y) + c * (1 - x) * y + d * x * y ∧
      a * (1 - x) * (1 - y) + b * x * (1 - y) + c * (1 - x) * y + d * x * y ≤ hi := by
  have w1 : 0 ≤ (1 - x) * (1 - y) := mul_nonneg (by linarith) (by linarith)
  have w2 : 0 ≤ x * (1 - y) := mul_nonneg hx0 (by linarith)
  have w3 : 0 ≤ (1 - x) * y := mul_nonneg (by linarith) hy0
  have w4 : 0 ≤ x * y := mul_nonneg hx0 hy0
  constructor
  · have e1 := mul_le_mul_of_nonneg_right ha.1 w1
    have e2 := mul_le_mul_of_nonneg_right hb.1 w2
    have e3 := mul_le_mul_of_nonneg_right hc.1 w3
    have e4 := mul_le_mul_of_nonneg_right hd.1 w4
    nlinarith
  · have e1 := mul_le_mul_of_nonneg_right ha.2 w1
    have e2 := mul_le_mul_of_nonneg_right hb.2 w2
    have e3 := mul_le_mul_of_nonneg_right hc.2 w3
    have e4 := mul_le_mul_of_nonneg_right hd.2 w4
    nlinarith

/-- C29: every simulated intensity is within any bounds that all pixels of the master pattern
(both hemispheres) are within. -/
theorem C29_convex {n : ℕ} (hn : 0 < n) {upper lower : Img ℝ} {lo hi : ℝ}
    (hu : ∀ r c, r < n → c < n → lo ≤ upper.val r c ∧ upper.val r c ≤ hi)
    (hl : ∀ r c, r < n → c < n → lo ≤ lower.val r c ∧ lower.val r c ≤ hi)
    {rot : Quat} (hrot : Spec.lenSq rot = 1) {dc : V3 ℝ} (hdc : dc.IsUnit) :
    lo ≤ projectPixel rot upper lower n n (((n : ℝ) - 1) / 2) dc ∧
      projectPixel rot upper lower n n (((n : ℝ) - 1) / 2) dc ≤ hi := by
  have hv : (rotateVector rot dc).IsUnit := by
    have := C31_rotate_isometry hrot dc dc
    unfold V3.dot at this
    unfold V3.IsUnit at hdc ⊢
    nlinarith
  obtain ⟨h1, h2⟩ := scaled_lambert hn hv
  obtain ⟨r, c, r', c', di, dj, hr, hc, hr', hc', a1, a2, a3, a4, _, _, _, _, e⟩ :=
    interpAt_eq hn h1 h2
  have key : ∀ mp : Img ℝ, (∀ r c, r < n → c < n → lo ≤ mp.val r c ∧ mp.val r c ≤ hi) →
      lo ≤ masterPixel mp (lambertInterp (rotateVector rot dc) n n (((n : ℝ) - 1) / 2)) ∧
      masterPixel mp (lambertInterp (rotateVector rot dc) n n (((n : ℝ) - 1) / 2)) ≤ hi := by
    intro mp hmp
    unfold lambertInterp
    rw [e]
    unfold masterPixel
    simp only [Int.toNat_natCast]
    exact bilinear_bounds a1 a2.le a3 a4.le (hmp _ _ hr hc) (hmp _ _ hr' hc) (hmp _ _ hr hc')
      (hmp _ _ hr' hc')
  unfold projectPixel
  simp only
  split
  · exact key _ hu
  · exact key _ hl

/-- C29: in the direction of pixel `(r, c)` of a master pattern of at least 2 x 2 pixels, the
value of the pixel is returned. -/
theorem C29_grid_points {n : ℕ} (hn : 1 < n) (upper lower : Img ℝ) {r c : ℕ} (hr : r < n)
    (hc : c < n) :
    projectPixel ⟨1, 0, 0, 0⟩ upper lower n n (((n : ℝ) - 1) / 2)
      (lambert2vector (2 * (c : ℝ) / ((n : ℝ) - 1) - 1) (2 * (r : ℝ) / ((n : ℝ) - 1) - 1)) =
      upper.val r c := by
  have hn1 : (1 : ℝ) < n := by exact_mod_cast hn
  have hs : 0 < sqrtPiHalf := Real.sqrt_pos.2 (by positivity)
  have hb : ∀ {k : ℕ}, k < n → |2 * (k : ℝ) / ((n : ℝ) - 1) - 1| ≤ 1 := by
    intro k hk
    have hk1 : (k : ℝ) ≤ (n : ℝ) - 1 := by
      have : (k : ℝ) + 1 ≤ n := by exact_mod_cast hk
      linarith
    have h2 : 2 * (k : ℝ) / ((n : ℝ) - 1) ≤ 2 := by
      rw [div_le_iff₀ (by linarith)]; linarith
    have h3 : 0 ≤ 2 * (k : ℝ) / ((n : ℝ) - 1) := div_nonneg (by positivity) (by linarith)
    rw [abs_le]
    constructor <;> linarith
  obtain ⟨hu, hz, hv⟩ := C28_surjective (hb hc) (hb hr)
  have hrot : ∀ v : V3 ℝ, rotateVector ⟨1, 0, 0, 0⟩ v = v := by
    intro v
    unfold rotateVector
    ext <;> simp
  unfold projectPixel
  simp only [hrot]
  rw [if_pos hz]
  have hgrid : ∀ k : ℕ, ((n : ℝ) - 1) / 2 * ((2 * (k : ℝ) / ((n : ℝ) - 1) - 1) *
      Real.sqrt (Real.pi / 2)) / sqrtPiHalf = (k : ℝ) - ((n : ℝ) - 1) / 2 := by
    intro k
    change ((n : ℝ) - 1) / 2 * (_ * sqrtPiHalf) / sqrtPiHalf = _
    have h0 : (n : ℝ) - 1 ≠ 0 := by linarith
    field_simp
  have hint : ∀ k : ℕ, toInt32 ((k : ℝ) - ((n : ℝ) - 1) / 2 + ((n : ℝ) - 1) / 2) = k := by
    intro k
    unfold toInt32
    rw [sub_add_cancel, if_pos (by positivity)]
    simp
  unfold lambertInterp
  simp only [hv, hgrid]
  unfold interpAt masterPixel
  simp only [hint]
  rw [if_neg (by omega : ¬ (r : ℤ) < 0), if_neg (by omega : ¬ (c : ℤ) < 0)]
  have e : ∀ k : ℕ, (k : ℝ) - ((n : ℝ) - 1) / 2 - ((k : ℤ) : ℝ) + ((n : ℝ) - 1) / 2 = 0 := by
    intro k
    push_cast
    ring
  simp only [e, Int.toNat_natCast]
  ring

/-- C29 needs a square master pattern, which is not checked: with 3 rows and 5 columns a row
outside the array is read in the direction of the `y` axis. -/
theorem C29_not_square : (lambertInterp ⟨0, 1, 0⟩ 5 3 ((5 - 1) / 2)).nii = 4 := by
  have hu : V3.IsUnit ⟨0, 1, 0⟩ := by simp [V3.IsUnit]
  have hs : 0 < sqrtPiHalf := Real.sqrt_pos.2 (by positivity)
  have hv : (vector2lambert ⟨0, 1, 0⟩).2 = sqrtPiHalf := by
    rw [vector2lambert_eq hu]
    have h2 : Real.sqrt 2 * (Real.sqrt Real.pi / 2) = sqrtPiHalf := by
      unfold sqrtPiHalf
      rw [Real.sqrt_div Real.pi_pos.le]
      have h22 : Real.sqrt 2 * Real.sqrt 2 = 2 := Real.mul_self_sqrt (by norm_num)
      field_simp
      rw [sq, h22]
    have h10 : ¬ ((1 : ℝ) ≤ 0) := by norm_num
    simp [fwdX, V3.swap, Real.sign_of_pos, sqrtPiOver2, h2, h10]
  unfold lambertInterp interpAt
  simp only [hv]
  have e : (5 - 1) / 2 * sqrtPiHalf / sqrtPiHalf + (5 - 1) / 2 = (4 : ℝ) := by
    rw [mul_div_assoc, div_self hs.ne']; norm_num
  have e4 : toInt32 4 = 4 := by
    unfold toInt32
    rw [if_pos (by norm_num)]
    have : ((4 : ℤ) : ℝ) = 4 := by norm_num
    rw [← this, Int.floor_intCast]
  simp [e, e4]

/-! ### One hemisphere -/

theorem vector2lambert_mirror {v : V3 ℝ} (h : v.IsUnit) :
    vector2lambert ⟨v.x, v.y, -v.z⟩ = vector2lambert v := by
  have h' : V3.IsUnit ⟨v.x, v.y, -v.z⟩ := by
    unfold V3.IsUnit at *
    simp only
    linarith
  rw [vector2lambert_eq h, vector2lambert_eq h']
  unfold fwdX V3.swap
  simp only [abs_neg]

theorem rotateVector_one (v : V3 ℝ) : rotateVector ⟨1, 0, 0, 0⟩ v = v := by
  unfold rotateVector
  ext <;> simp

/-- C62: with one hemisphere (used as both `upper` and `lower`), intensities are the same in
directions mirrored in the equatorial plane, whatever the point group of the phase. -/
theorem C62_mirror (mp : Img ℝ) (npx npy : ℤ) (scale : ℝ) {v : V3 ℝ} (h : v.IsUnit) :
    projectPixel ⟨1, 0, 0, 0⟩ mp mp npx npy scale ⟨v.x, v.y, -v.z⟩ =
      projectPixel ⟨1, 0, 0, 0⟩ mp mp npx npy scale v := by
  unfold projectPixel lambertInterp
  simp only [rotateVector_one, ite_self, vector2lambert_mirror h]

/-- C62: opposite directions have the same intensity when the master pattern is unchanged by
half a turn. Partial: this is not so for every centrosymmetric phase, see
`C62_not_inversion`. -/
theorem C62_inversion_partial {n : ℕ} (hn : 0 < n) {mp : Img ℝ}
    (hmp : ∀ r c, r < n → c < n → mp.val (n - 1 - r) (n - 1 - c) = mp.val r c)
    {v : V3 ℝ} (h : v.IsUnit) :
    projectPixel ⟨1, 0, 0, 0⟩ mp mp n n (((n : ℝ) - 1) / 2) ⟨-v.x, -v.y, -v.z⟩ =
      projectPixel ⟨1, 0, 0, 0⟩ mp mp n n (((n : ℝ) - 1) / 2) v := by
  have h' : V3.IsUnit ⟨-v.x, -v.y, -v.z⟩ := by
    unfold V3.IsUnit at *
    simp only
    linarith
  have hn1 : ((n - 1 : ℕ) : ℝ) = (n : ℝ) - 1 := by rw [Nat.cast_sub hn]; simp
  -- one-dimensional interpolation weights at opposite positions
  obtain ⟨hi, hj⟩ := scaled_lambert hn h
  obtain ⟨hi', hj'⟩ := scaled_lambert hn h'
  have e2 : ((n : ℝ) - 1) / 2 * (vector2lambert ⟨-v.x, -v.y, -v.z⟩).2 / sqrtPiHalf =
      -(((n : ℝ) - 1) / 2 * (vector2lambert v).2 / sqrtPiHalf) := by
    rw [C28_antipodal h]; simp only; ring
  have e1 : ((n : ℝ) - 1) / 2 * (vector2lambert ⟨-v.x, -v.y, -v.z⟩).1 / sqrtPiHalf =
      -(((n : ℝ) - 1) / 2 * (vector2lambert v).1 / sqrtPiHalf) := by
    rw [C28_antipodal h]; simp only; ring
  unfold projectPixel lambertInterp
  simp only [rotateVector_one, ite_self]
  rw [e1, e2]
  rw [e1] at hj'
  rw [e2] at hi'
  generalize ((n : ℝ) - 1) / 2 * (vector2lambert v).2 / sqrtPiHalf = i at *
  generalize ((n : ℝ) - 1) / 2 * (vector2lambert v).1 / sqrtPiHalf = j at *
  obtain ⟨r, c, r', c', di, dj, hr, hc, hr', hc', a1, a2, a3, a4, hdi, hdj, hrr, hcc, e⟩ :=
    interpAt_eq hn hi hj
  obtain ⟨s, d, s', d', ei, ej, hs, hd, hs', hd', b1, b2, b3, b4, hei, hej, hss, hdd, e'⟩ :=
    interpAt_eq hn hi' hj'
  rw [e, e']
  unfold masterPixel
  simp only [Int.toNat_natCast]
  -- positions: ei + s = (n - 1) - (r + di)
  have key : ∀ {k k' l l' : ℕ} {x y t : ℝ}, k < n → l < n → 0 ≤ x → x < 1 → 0 ≤ y → y < 1 →
      x = t - k + ((n : ℝ) - 1) / 2 → y = -t - l + ((n : ℝ) - 1) / 2 →
      (k' = k + 1 ∨ k' = k ∧ x = 0) → (l' = l + 1 ∨ l' = l ∧ y = 0) → k' < n → l' < n →
      (x = 0 ∧ y = 0 ∧ l = n - 1 - k) ∨
      (0 < x ∧ y = 1 - x ∧ k' = k + 1 ∧ l' = l + 1 ∧ l = n - 1 - k' ∧ l' = n - 1 - k) := by
    intro k k' l l' x y t hk hl hx0 hx1 hy0 hy1 hx hy hk' hl' hkn hln
    have hsum : x + y + k + l = n - 1 := by rw [hx, hy]; ring
    rcases hx0.lt_or_eq with hx0 | hx0
    · right
      have hsum' : ((k + l + 1 : ℕ) : ℝ) < ((n - 1 : ℕ) : ℝ) + 1 := by
        rw [hn1]; push_cast; linarith
      have hsum'' : ((n - 1 : ℕ) : ℝ) < ((k + l + 2 : ℕ) : ℝ) := by
        rw [hn1]; push_cast; linarith
      have i1 : k + l + 1 < n - 1 + 1 := by exact_mod_cast hsum'
      have i2 : n - 1 < k + l + 2 := by exact_mod_cast hsum''
      have hkl : k + l + 1 = n - 1 := by omega
      have hkl' : (k : ℝ) + l + 1 = n - 1 := by rw [← hn1, ← hkl]; push_cast; ring
      have hy' : y = 1 - x := by linarith
      have hk1 : k' = k + 1 := hk'.resolve_right fun h => hx0.ne' h.2
      have hl1 : l' = l + 1 := hl'.resolve_right fun h => by linarith [h.2]
      exact ⟨hx0, hy', hk1, hl1, by omega, by omega⟩
    · left
      have h1 : ((k + l : ℕ) : ℝ) ≤ ((n - 1 : ℕ) : ℝ) := by rw [hn1]; push_cast; linarith
      have h2 : ((n - 1 : ℕ) : ℝ) < ((k + l + 1 : ℕ) : ℝ) := by rw [hn1]; push_cast; linarith
      have i1 : k + l ≤ n - 1 := by exact_mod_cast h1
      have i2 : n - 1 < k + l + 1 := by exact_mod_cast h2
      have hkl : k + l = n - 1 := by omega
      have hkl' : (k : ℝ) + l = n - 1 := by rw [← hn1, ← hkl]; push_cast; ring
      exact ⟨hx0.symm, by linarith, by omega⟩
  rcases key hr hs a1 a2 b1 b2 hdi hei hrr hss hr' hs' with ⟨x0, y0, es⟩ |
      ⟨_, ey, ek, el, es, es'⟩ <;>
    rcases key hc hd a3 a4 b3 b4 hdj hej hcc hdd hc' hd' with ⟨x1, y1, ed⟩ |
      ⟨_, ey1, ek1, el1, ed, ed'⟩
  · rw [x0, y0, x1, y1, es, ed, hmp r c hr hc]; ring
  · rw [x0, y0, ey1, es, ed, ed', hmp r c' hr hc', hmp r c hr hc]; ring
  · rw [x1, y1, ey, es, es', ed, hmp r' c hr' hc, hmp r c hr hc]; ring
  · rw [ey, ey1, es, es', ed, ed', hmp r' c' hr' hc', hmp r c' hr hc', hmp r' c hr' hc,
      hmp r c hr hc]; ring

/-- C62 is false: a master pattern with one bright pixel off the pole (as the upper hemisphere
of a phase with inversion but no two-fold axis or mirror plane along the pole can have) has
different simulated intensities in opposite directions. -/
theorem C62_not_inversion :
    ∃ (mp : Img ℝ) (v : V3 ℝ), v.IsUnit ∧ 0 < v.z ∧
      projectPixel ⟨1, 0, 0, 0⟩ mp mp 5 5 ((5 - 1) / 2) v = 1 ∧
      projectPixel ⟨1, 0, 0, 0⟩ mp mp 5 5 ((5 - 1) / 2) ⟨-v.x, -v.y, -v.z⟩ = 0 := by
  have hb : ∀ {k : ℕ}, k < 5 → |2 * (k : ℝ) / ((5 : ℕ) - 1 : ℝ) - 1| ≤ 1 := by
    intro k hk
    have hk' : (k : ℝ) ≤ 4 := by exact_mod_cast Nat.le_of_lt_succ hk
    have hk0 : (0 : ℝ) ≤ k := Nat.cast_nonneg k
    rw [abs_le]
    constructor <;> norm_num <;> linarith
  obtain ⟨mp, hmp⟩ : ∃ mp : Img ℝ, mp =
    { rows := 5, cols := 5, val := fun r c => if r = 3 ∧ c = 2 then 1 else 0 } := ⟨_, rfl⟩
  have g1 := C29_grid_points (n := 5) (by norm_num) mp mp (r := 3) (c := 2) (by norm_num) (by norm_num)
  have g2 := C29_grid_points (n := 5) (by norm_num) mp mp (r := 1) (c := 2) (by norm_num) (by norm_num)
  obtain ⟨u1, z1, l1⟩ := C28_surjective (hb (k := 2) (by norm_num)) (hb (k := 3) (by norm_num))
  obtain ⟨u2, z2, l2⟩ := C28_surjective (hb (k := 2) (by norm_num)) (hb (k := 1) (by norm_num))
  obtain ⟨v, hv⟩ : ∃ v, v = lambert2vector (2 * ((2 : ℕ) : ℝ) / (((5 : ℕ) : ℝ) - 1) - 1)
    (2 * ((3 : ℕ) : ℝ) / (((5 : ℕ) : ℝ) - 1) - 1) := ⟨_, rfl⟩
  obtain ⟨w, hw⟩ : ∃ w, w = lambert2vector (2 * ((2 : ℕ) : ℝ) / (((5 : ℕ) : ℝ) - 1) - 1)
    (2 * ((1 : ℕ) : ℝ) / (((5 : ℕ) : ℝ) - 1) - 1) := ⟨_, rfl⟩
  rw [← hv] at g1 u1 z1 l1
  rw [← hw] at g2 u2 z2 l2
  have um : V3.IsUnit ⟨-v.x, -v.y, v.z⟩ := by
    unfold V3.IsUnit at *
    simp only
    linarith
  -- the mirrored opposite direction is the other grid direction
  have hlam : vector2lambert ⟨-v.x, -v.y, v.z⟩ = vector2lambert w := by
    rw [← vector2lambert_mirror um, C28_antipodal u1, l1, l2]
    ext <;> norm_num
  have hvw : (⟨-v.x, -v.y, v.z⟩ : V3 ℝ) = w := C28_injective um u2 z1 z2 hlam
  have hm := C62_mirror mp 5 5 ((5 - 1) / 2) um
  simp only at hm
  refine ⟨mp, v, u1, ?_, ?_, ?_⟩
  · -- not on the equator: its projection is inside the square
    have hpi := Real.pi_pos
    have hsq : Real.sqrt (Real.pi / 2) ^ 2 = Real.pi / 2 := Real.sq_sqrt (by positivity)
    rw [hv, lambert2vector_of_le' (by norm_num) (by norm_num)]
    simp only [V3.swap, invX, sqrtPiHalf, mul_pow, hsq]
    norm_num
    field_simp
    norm_num
  · have := g1
    rw [hmp] at this ⊢
    norm_num at this ⊢
    exact this
  · rw [hm, hvw]
    have := g2
    rw [hmp] at this ⊢
    norm_num at this ⊢
    exact this

/-- A direction, a rotation and a master pattern meeting the hypotheses. -/
example : V3.IsUnit ⟨3 / 5, 0, 4 / 5⟩ ∧ Spec.lenSq ⟨1 / 2, 1 / 2, -1 / 2, 1 / 2⟩ = 1 := by
  unfold V3.IsUnit Spec.lenSq
  norm_num

end Kp
