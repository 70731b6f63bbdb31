import Verif.Model.FitPcProjective
import Verif.Props.FitPc

/-
C103: the default fit of a plane to projection centers.
-/

namespace Kp
set_option linter.unusedSectionVars false
noncomputable section

/-! ### Turning -/

theorem turnX_inv (a : ℝ) (v : V3 ℝ) : turnX (-a) (turnX a v) = v := by
  have h := Real.sin_sq_add_cos_sq a
  unfold turnX
  apply V3.ext <;> simp only [Real.cos_neg, Real.sin_neg]
  · linear_combination v.y * h
  · linear_combination v.z * h

theorem turnZ_inv (a : ℝ) (v : V3 ℝ) : turnZ (-a) (turnZ a v) = v := by
  have h := Real.sin_sq_add_cos_sq a
  unfold turnZ
  apply V3.ext <;> simp only [Real.cos_neg, Real.sin_neg]
  · linear_combination v.x * h
  · linear_combination v.y * h

theorem fromPlane_toPlane (n v : V3 ℝ) : fromPlane n (toPlane n v) = v := by
  unfold fromPlane toPlane
  rw [turnX_inv, turnZ_inv]

theorem toPlane_fromPlane (n v : V3 ℝ) : toPlane n (fromPlane n v) = v := by
  unfold fromPlane toPlane
  have h1 := turnZ_inv (-(tiltsFromNormal n).2) (turnX (-(tiltsFromNormal n).1) v)
  have h2 := turnX_inv (-(tiltsFromNormal n).1) v
  rw [neg_neg] at h1 h2
  rw [h1, h2]

/-- The normal with its z component upwards. -/
def upward (n : V3 ℝ) : V3 ℝ := if n.z < 0 then ⟨-n.x, -n.y, -n.z⟩ else n

theorem upward_dot (n v : V3 ℝ) : (upward n).dot v = n.dot v ∨ (upward n).dot v = -n.dot v := by
  unfold upward
  split
  · right; simp only [V3.dot]; ring
  · left; rfl

theorem upward_unit (n : V3 ℝ) (h : n.dot n = 1) : (upward n).dot (upward n) = 1 := by
  unfold upward
  split
  · rw [← h]; simp only [V3.dot]; ring
  · exact h

/-- The height above the plane is the component along the normal. -/
theorem toPlane_z (n v : V3 ℝ) (h : n.dot n = 1) : (toPlane n v).z = (upward n).dot v := by
  have hu := upward_unit n h
  have hz0 : 0 ≤ (upward n).z := by
    unfold upward
    split
    · simp only; linarith
    · linarith
  have ht : tiltsFromNormal n = (Real.arccos (upward n).z,
      Real.pi / 2 - Complex.arg ⟨(upward n).x, (upward n).y⟩) := by
    unfold tiltsFromNormal upward
    rfl
  generalize upward n = m at *
  simp only [V3.dot] at hu
  have hz1 : m.z ≤ 1 := by nlinarith [sq_nonneg m.x, sq_nonneg m.y]
  have hcos : Real.cos (Real.arccos m.z) = m.z := Real.cos_arccos (by linarith) hz1
  have hnorm : ‖(⟨m.x, m.y⟩ : ℂ)‖ = Real.sqrt (1 - m.z ^ 2) := by
    rw [Complex.norm_def, Complex.normSq_mk]
    congr 1
    linarith
  have hsin : Real.sin (Real.arccos m.z) = ‖(⟨m.x, m.y⟩ : ℂ)‖ := by
    rw [Real.sin_arccos, hnorm]
  have hx : ‖(⟨m.x, m.y⟩ : ℂ)‖ * Real.cos (Complex.arg ⟨m.x, m.y⟩) = m.x :=
    Complex.norm_mul_cos_arg _
  have hy : ‖(⟨m.x, m.y⟩ : ℂ)‖ * Real.sin (Complex.arg ⟨m.x, m.y⟩) = m.y :=
    Complex.norm_mul_sin_arg _
  unfold toPlane turnX turnZ
  rw [ht]
  simp only [V3.dot, Real.sin_pi_div_two_sub, Real.cos_pi_div_two_sub, hcos, hsin]
  linear_combination v.x * hx + v.y * hy

/-! ### Projective transformations -/

/-- A transformation takes positions to points. -/
def Spec.TakesAll (h : Homography) (data : List ((ℝ × ℝ) × (ℝ × ℝ))) : Prop :=
  ∀ x ∈ data, h.den x.1 ≠ 0 ∧ h.at x.1 = x.2

/-- Four positions, no three of which are on a line. -/
def Spec.GeneralPosition (p q r s : ℝ × ℝ) : Prop :=
  NotCollinear p q r ∧ NotCollinear p q s ∧ NotCollinear p r s ∧ NotCollinear q r s

/-- What is known of `ProjectiveTransform.from_estimate`: if the points are an affine function of the
positions, and four positions are in general position, then it finds a transformation which takes
all positions to the points. -/
def IsProjectiveEstimate (est : Option Homography) (data : List ((ℝ × ℝ) × (ℝ × ℝ))) : Prop :=
  (∃ p q r s, p ∈ data.map Prod.fst ∧ q ∈ data.map Prod.fst ∧ r ∈ data.map Prod.fst ∧
    s ∈ data.map Prod.fst ∧ Spec.GeneralPosition p q r s) →
  (∃ G : Homography, G.w = ⟨0, 0, 1⟩ ∧ Spec.TakesAll G data) →
  ∃ h, est = some h ∧ Spec.TakesAll h data

/-- Two conics through four points, in coordinates where three of them are the origin and the ends
of the unit vectors. -/
theorem conic_four (X0 X1 X2 C A B W0 W1 W2 x y : ℝ)
    (h0 : X0 = C * W0) (h1 : X0 + X1 = (C + A) * (W0 + W1)) (h2 : X0 + X2 = (C + B) * (W0 + W2))
    (h3 : X0 + x * X1 + y * X2 = (C + x * A + y * B) * (W0 + x * W1 + y * W2)) :
    A * (x * (W1 * (x - 1) + W2 * y)) + B * (y * (W1 * x + W2 * (y - 1))) = 0 := by
  linear_combination (1 - x - y) * h0 + x * h1 + y * h2 - h3

/-- A projective transformation which agrees with an affine one in four positions in general
position, three of which have independent images, is this affine one. -/
theorem projective_unique (h : Homography) (a1 b1 c1 a2 b2 c2 : ℝ) (p q r s : ℝ × ℝ)
    (hg : Spec.GeneralPosition p q r s)
    (hdet : a1 * b2 - a2 * b1 ≠ 0)
    (hp : h.den p ≠ 0 ∧ h.at p = (p.1 * a1 + p.2 * b1 + c1, p.1 * a2 + p.2 * b2 + c2))
    (hq : h.den q ≠ 0 ∧ h.at q = (q.1 * a1 + q.2 * b1 + c1, q.1 * a2 + q.2 * b2 + c2))
    (hr : h.den r ≠ 0 ∧ h.at r = (r.1 * a1 + r.2 * b1 + c1, r.1 * a2 + r.2 * b2 + c2))
    (hs : h.den s ≠ 0 ∧ h.at s = (s.1 * a1 + s.2 * b1 + c1, s.1 * a2 + s.2 * b2 + c2))
    (t : ℝ × ℝ) :
    h.den t ≠ 0 ∧ h.at t = (t.1 * a1 + t.2 * b1 + c1, t.1 * a2 + t.2 * b2 + c2) := by
  -- products instead of quotients
  have mul : ∀ u : ℝ × ℝ,
      (h.den u ≠ 0 ∧ h.at u = (u.1 * a1 + u.2 * b1 + c1, u.1 * a2 + u.2 * b2 + c2)) →
      h.x.x * u.1 + h.x.y * u.2 + h.x.z = (u.1 * a1 + u.2 * b1 + c1) * h.den u ∧
      h.y.x * u.1 + h.y.y * u.2 + h.y.z = (u.1 * a2 + u.2 * b2 + c2) * h.den u := by
    rintro u ⟨h0, h1⟩
    rw [Homography.at, Prod.mk.injEq, div_eq_iff h0, div_eq_iff h0] at h1
    simp only [V3.dot, mul_one] at h1
    exact h1
  have P := mul p hp
  have Q := mul q hq
  have R := mul r hr
  have S := mul s hs
  have dp := hp.1
  unfold Homography.den V3.dot at P Q R S dp
  simp only [mul_one] at P Q R S dp
  obtain ⟨g1, g2, g3, g4⟩ := hg
  unfold NotCollinear at g1 g2 g3 g4
  obtain ⟨⟨x1, x2, x3⟩, ⟨y1, y2, y3⟩, ⟨w1, w2, w3⟩⟩ := h
  obtain ⟨p1, p2⟩ := p
  obtain ⟨q1, q2⟩ := q
  obtain ⟨r1, r2⟩ := r
  obtain ⟨s1, s2⟩ := s
  simp only at *
  have hD : (q1 - p1) * (r2 - p2) - (q2 - p2) * (r1 - p1) ≠ 0 := g1
  -- coordinates of the fourth position
  obtain ⟨x, hx⟩ : ∃ x, x * ((q1 - p1) * (r2 - p2) - (q2 - p2) * (r1 - p1)) =
      (s1 - p1) * (r2 - p2) - (s2 - p2) * (r1 - p1) := ⟨_, div_mul_cancel₀ _ hD⟩
  obtain ⟨y, hy⟩ : ∃ y, y * ((q1 - p1) * (r2 - p2) - (q2 - p2) * (r1 - p1)) =
      (q1 - p1) * (s2 - p2) - (q2 - p2) * (s1 - p1) := ⟨_, div_mul_cancel₀ _ hD⟩
  have x0 : x ≠ 0 := by
    rintro rfl
    apply g3
    linear_combination hx
  have y0 : y ≠ 0 := by
    rintro rfl
    apply g2
    linear_combination -hy
  have xy : 1 - x - y ≠ 0 := by
    intro h0
    apply g4
    linear_combination ((q1 - p1) * (r2 - p2) - (q2 - p2) * (r1 - p1)) * h0 + hx + hy
  have e1 : s1 = p1 + x * (q1 - p1) + y * (r1 - p1) := by
    apply mul_right_cancel₀ hD
    linear_combination (-(q1 - p1)) * hx - (r1 - p1) * hy
  have e2 : s2 = p2 + x * (q2 - p2) + y * (r2 - p2) := by
    apply mul_right_cancel₀ hD
    linear_combination (-(q2 - p2)) * hx - (r2 - p2) * hy
  rw [e1, e2] at S
  have k1 := conic_four (x1 * p1 + x2 * p2 + x3) (x1 * (q1 - p1) + x2 * (q2 - p2))
    (x1 * (r1 - p1) + x2 * (r2 - p2)) (p1 * a1 + p2 * b1 + c1) ((q1 - p1) * a1 + (q2 - p2) * b1)
    ((r1 - p1) * a1 + (r2 - p2) * b1) (w1 * p1 + w2 * p2 + w3) (w1 * (q1 - p1) + w2 * (q2 - p2))
    (w1 * (r1 - p1) + w2 * (r2 - p2)) x y (by linear_combination P.1)
    (by linear_combination Q.1) (by linear_combination R.1) (by linear_combination S.1)
  have k2 := conic_four (y1 * p1 + y2 * p2 + y3) (y1 * (q1 - p1) + y2 * (q2 - p2))
    (y1 * (r1 - p1) + y2 * (r2 - p2)) (p1 * a2 + p2 * b2 + c2) ((q1 - p1) * a2 + (q2 - p2) * b2)
    ((r1 - p1) * a2 + (r2 - p2) * b2) (w1 * p1 + w2 * p2 + w3) (w1 * (q1 - p1) + w2 * (q2 - p2))
    (w1 * (r1 - p1) + w2 * (r2 - p2)) x y (by linear_combination P.2)
    (by linear_combination Q.2) (by linear_combination R.2) (by linear_combination S.2)
  have hdet' : ((q1 - p1) * a1 + (q2 - p2) * b1) * ((r1 - p1) * a2 + (r2 - p2) * b2) -
      ((q1 - p1) * a2 + (q2 - p2) * b2) * ((r1 - p1) * a1 + (r2 - p2) * b1) ≠ 0 := by
    have e : ((q1 - p1) * a1 + (q2 - p2) * b1) * ((r1 - p1) * a2 + (r2 - p2) * b2) -
      ((q1 - p1) * a2 + (q2 - p2) * b2) * ((r1 - p1) * a1 + (r2 - p2) * b1) =
      ((q1 - p1) * (r2 - p2) - (q2 - p2) * (r1 - p1)) * (a1 * b2 - a2 * b1) := by ring
    rw [e]
    exact mul_ne_zero hD hdet
  generalize (q1 - p1) * a1 + (q2 - p2) * b1 = A1 at k1 k2 hdet'
  generalize (q1 - p1) * a2 + (q2 - p2) * b2 = A2 at k1 k2 hdet'
  generalize (r1 - p1) * a1 + (r2 - p2) * b1 = B1 at k1 k2 hdet'
  generalize (r1 - p1) * a2 + (r2 - p2) * b2 = B2 at k1 k2 hdet'
  have m1 : x * ((w1 * (q1 - p1) + w2 * (q2 - p2)) * (x - 1) +
      (w1 * (r1 - p1) + w2 * (r2 - p2)) * y) = 0 := by
    apply (mul_eq_zero.mp (?_ : (A1 * B2 - A2 * B1) * _ = 0)).resolve_left hdet'
    linear_combination B2 * k1 - B1 * k2
  have m2 : y * ((w1 * (q1 - p1) + w2 * (q2 - p2)) * x +
      (w1 * (r1 - p1) + w2 * (r2 - p2)) * (y - 1)) = 0 := by
    apply (mul_eq_zero.mp (?_ : (A1 * B2 - A2 * B1) * _ = 0)).resolve_left hdet'
    linear_combination A1 * k2 - A2 * k1
  have m1' := (mul_eq_zero.mp m1).resolve_left x0
  have m2' := (mul_eq_zero.mp m2).resolve_left y0
  have v1 : w1 * (q1 - p1) + w2 * (q2 - p2) = 0 := by
    apply (mul_eq_zero.mp (?_ : (1 - x - y) * _ = 0)).resolve_left xy
    linear_combination (y - 1) * m1' - y * m2'
  have v2 : w1 * (r1 - p1) + w2 * (r2 - p2) = 0 := by
    apply (mul_eq_zero.mp (?_ : (1 - x - y) * _ = 0)).resolve_left xy
    linear_combination (x - 1) * m2' - x * m1'
  have u1 : w1 = 0 := by
    apply (mul_eq_zero.mp (?_ : ((q1 - p1) * (r2 - p2) - (q2 - p2) * (r1 - p1)) * _ = 0)).resolve_left hD
    linear_combination (r2 - p2) * v1 - (q2 - p2) * v2
  have u2 : w2 = 0 := by
    apply (mul_eq_zero.mp (?_ : ((q1 - p1) * (r2 - p2) - (q2 - p2) * (r1 - p1)) * _ = 0)).resolve_left hD
    linear_combination (q1 - p1) * v2 - (r1 - p1) * v1
  subst u1 u2
  have w0 : w3 ≠ 0 := by
    intro h0
    apply dp
    rw [h0]
    ring
  have z1 := affine_zero (x1 - a1 * w3) (x2 - b1 * w3) (x3 - c1 * w3) (p1, p2) (q1, q2) (r1, r2) g1
    (by linear_combination P.1) (by linear_combination Q.1) (by linear_combination R.1) t
  have z2 := affine_zero (y1 - a2 * w3) (y2 - b2 * w3) (y3 - c2 * w3) (p1, p2) (q1, q2) (r1, r2) g1
    (by linear_combination P.2) (by linear_combination Q.2) (by linear_combination R.2) t
  have hden : Homography.den ⟨⟨x1, x2, x3⟩, ⟨y1, y2, y3⟩, ⟨0, 0, w3⟩⟩ t = w3 := by
    simp [Homography.den, V3.dot]
  refine ⟨by rw [hden]; exact w0, ?_⟩
  rw [Homography.at, hden, Prod.mk.injEq, div_eq_iff w0, div_eq_iff w0]
  simp only [V3.dot]
  constructor
  · linear_combination z1
  · linear_combination z2

/-! ### The fit -/

theorem toPlane_dot (n u v : V3 ℝ) : (toPlane n u).dot (toPlane n v) = u.dot v := by
  have h1 := Real.sin_sq_add_cos_sq (tiltsFromNormal n).1
  have h2 := Real.sin_sq_add_cos_sq (tiltsFromNormal n).2
  have e1 : ∀ a b : V3 ℝ, (turnX (tiltsFromNormal n).1 a).dot (turnX (tiltsFromNormal n).1 b) =
      a.dot b := by
    intro a b
    simp only [turnX, V3.dot]
    linear_combination (a.y * b.y + a.z * b.z) * h1
  have e2 : (turnZ (tiltsFromNormal n).2 u).dot (turnZ (tiltsFromNormal n).2 v) = u.dot v := by
    simp only [turnZ, V3.dot]
    linear_combination (u.x * v.x + u.y * v.y) * h2
  unfold toPlane
  rw [e1, e2]

/-- An affine function of a map position. -/
def affV (r c k : V3 ℝ) (ij : ℝ × ℝ) : V3 ℝ :=
  ⟨ij.1 * r.x + ij.2 * c.x + k.x, ij.1 * r.y + ij.2 * c.y + k.y, ij.1 * r.z + ij.2 * c.z + k.z⟩

theorem toPlane_affV (n r c k : V3 ℝ) (ij : ℝ × ℝ) :
    toPlane n (affV r c k ij) = affV (toPlane n r) (toPlane n c) (toPlane n k) ij := by
  unfold toPlane turnX turnZ affV
  apply V3.ext <;> simp only <;> ring

theorem centeredPcs_eq (pcs : List (PC ℝ)) : centeredPcs pcs = pcs.map fun p =>
    ⟨p.x - (pcMean pcs).x - (trimPoint pcs).x, p.y - (pcMean pcs).y - (trimPoint pcs).y,
      p.z - (pcMean pcs).z - (trimPoint pcs).z⟩ := by
  simp only [centeredPcs, trimPoint, List.map_map, Function.comp_def]

/-- PCs as vectors. -/
def pcV3 (p : PC ℝ) : V3 ℝ := ⟨p.x, p.y, p.z⟩

/-- A plane contains the PCs and the point the singular value decomposition is centered on. -/
def Spec.CenterInPlane (pcs : List (PC ℝ)) : Prop :=
  ∃ m : V3 ℝ, ∃ c : ℝ, m.dot m = 1 ∧ (∀ p ∈ pcs, m.dot (pcV3 p) = c) ∧
    m.dot ((pcV3 (pcMean pcs)).add (trimPoint pcs)) = c

/-- The projective transformation found for PCs which are an affine function of the position. -/
theorem projective_exact (pcs : List (PC ℝ)) (idx : List (ℝ × ℝ)) (hlen : idx.length = pcs.length)
    (B : AffineFit) (n : V3 ℝ) (est : Option Homography)
    (hB : ∀ x ∈ idx.zip pcs, x.2 = B.at x.1)
    (hsvd : IsLeastDirection n (centeredPcs pcs)) (hc : Spec.CenterInPlane pcs)
    (hest : IsProjectiveEstimate est
      (idx.zip ((centeredPcs pcs).map fun v => ((toPlane n v).x, (toPlane n v).y))))
    (p q r s : ℝ × ℝ) (hp : p ∈ idx) (hq : q ∈ idx) (hr : r ∈ idx) (hs : s ∈ idx)
    (hg : Spec.GeneralPosition p q r s)
    (hspan : (pcV3 B.row).cross (pcV3 B.col) ≠ ⟨0, 0, 0⟩) :
    ∃ h, est = some h ∧ ∀ ij, projectivePc pcs n h ij = B.at ij := by
  obtain ⟨hunit, hmin⟩ := hsvd
  -- the least direction is perpendicular to the centered PCs
  have hperp : ∀ v ∈ centeredPcs pcs, n.dot v = 0 := by
    obtain ⟨m, c, hm1, hm2, hm3⟩ := hc
    have hzero : ((centeredPcs pcs).map fun v => m.dot v ^ 2).sum = 0 := by
      apply List.sum_eq_zero
      intro x hx
      obtain ⟨v, hv, rfl⟩ := List.mem_map.mp hx
      rw [centeredPcs_eq] at hv
      obtain ⟨a, ha, rfl⟩ := List.mem_map.mp hv
      have h1 := hm2 a ha
      simp only [V3.dot, V3.add, pcV3] at h1 hm3 ⊢
      rw [pow_eq_zero_iff two_ne_zero]
      linear_combination h1 - hm3
    have hle := hmin m hm1
    rw [hzero] at hle
    have := sum_nonneg_eq_zero _ (fun x hx => by
      obtain ⟨v, _, rfl⟩ := List.mem_map.mp hx
      positivity) hle
    exact fun v hv => pow_eq_zero_iff two_ne_zero |>.mp (this _ (List.mem_map_of_mem hv))
  set k : V3 ℝ := ⟨B.const.x - (pcMean pcs).x - (trimPoint pcs).x,
    B.const.y - (pcMean pcs).y - (trimPoint pcs).y,
    B.const.z - (pcMean pcs).z - (trimPoint pcs).z⟩ with hk
  -- the data, as affine functions of the position
  have hdata : idx.zip (centeredPcs pcs) =
      idx.map fun ij => (ij, affV (pcV3 B.row) (pcV3 B.col) k ij) := by
    have e1 : idx.zip pcs = idx.map fun ij => (ij, B.at ij) := by
      clear hmin hperp hest hk hc k hp hq hr hs
      induction idx generalizing pcs with
      | nil => simp
      | cons a l ih => cases pcs with
        | nil => simp at hlen
        | cons b m =>
          simp only [List.zip_cons_cons, List.map_cons, List.cons.injEq, Prod.mk.injEq, true_and]
          refine ⟨hB (a, b) (by simp), ih m (by simpa using hlen) fun x hx => hB x (by simp [hx])⟩
    rw [centeredPcs_eq, List.zip_map_right, e1, List.map_map]
    refine List.map_congr_left fun ij _ => ?_
    simp only [Function.comp, Prod.map, id, affV, AffineFit.at, pcV3, hk, Prod.mk.injEq, true_and]
    apply V3.ext <;> simp only <;> ring
  have hmem : ∀ ij ∈ idx, affV (pcV3 B.row) (pcV3 B.col) k ij ∈ centeredPcs pcs := by
    intro ij hij
    have : (ij, affV (pcV3 B.row) (pcV3 B.col) k ij) ∈ idx.zip (centeredPcs pcs) := by
      rw [hdata]
      exact List.mem_map_of_mem hij
    exact (List.of_mem_zip this).2
  have hz : ∀ ij, n.dot (affV (pcV3 B.row) (pcV3 B.col) k ij) = 0 := by
    intro ij
    have e : ∀ ij, n.dot (affV (pcV3 B.row) (pcV3 B.col) k ij) =
        ij.1 * n.dot (pcV3 B.row) + ij.2 * n.dot (pcV3 B.col) + n.dot k := by
      intro ij
      simp only [V3.dot, affV]
      ring
    rw [e]
    apply affine_zero _ _ _ p q r hg.1
    · rw [← e]; exact hperp _ (hmem p hp)
    · rw [← e]; exact hperp _ (hmem q hq)
    · rw [← e]; exact hperp _ (hmem r hr)
  have hz' : ∀ ij, (toPlane n (affV (pcV3 B.row) (pcV3 B.col) k ij)).z = 0 := by
    intro ij
    rw [toPlane_z n _ hunit]
    rcases upward_dot n (affV (pcV3 B.row) (pcV3 B.col) k ij) with h | h <;> rw [h, hz] <;> simp
  have hflat : (toPlane n (pcV3 B.row)).z = 0 ∧ (toPlane n (pcV3 B.col)).z = 0 := by
    have h00 := hz' (0, 0)
    have h10 := hz' (1, 0)
    have h01 := hz' (0, 1)
    rw [toPlane_affV] at h00 h10 h01
    simp only [affV] at h00 h10 h01
    constructor <;> linarith
  -- the images of the two steps are independent
  have hdet : (toPlane n (pcV3 B.row)).x * (toPlane n (pcV3 B.col)).y -
      (toPlane n (pcV3 B.row)).y * (toPlane n (pcV3 B.col)).x ≠ 0 := by
    intro h0
    apply hspan
    have d1 := toPlane_dot n (pcV3 B.row) (pcV3 B.row)
    have d2 := toPlane_dot n (pcV3 B.row) (pcV3 B.col)
    have d3 := toPlane_dot n (pcV3 B.col) (pcV3 B.col)
    have hsq : ((pcV3 B.row).cross (pcV3 B.col)).dot ((pcV3 B.row).cross (pcV3 B.col)) = 0 := by
      have lag : ((pcV3 B.row).cross (pcV3 B.col)).dot ((pcV3 B.row).cross (pcV3 B.col)) =
          (pcV3 B.row).dot (pcV3 B.row) * (pcV3 B.col).dot (pcV3 B.col) -
          (pcV3 B.row).dot (pcV3 B.col) ^ 2 := by
        simp only [V3.dot, V3.cross]
        ring
      rw [lag, ← d1, ← d2, ← d3]
      simp only [V3.dot, hflat.1, hflat.2]
      linear_combination ((toPlane n (pcV3 B.row)).x * (toPlane n (pcV3 B.col)).y -
        (toPlane n (pcV3 B.row)).y * (toPlane n (pcV3 B.col)).x) * h0
    generalize (pcV3 B.row).cross (pcV3 B.col) = w at hsq
    simp only [V3.dot] at hsq
    apply V3.ext <;> simp only <;> nlinarith [mul_self_nonneg w.x, mul_self_nonneg w.y,
      mul_self_nonneg w.z]
  set R := toPlane n (pcV3 B.row) with hR
  set C := toPlane n (pcV3 B.col) with hC
  set K := toPlane n k with hK
  have hplane : idx.zip ((centeredPcs pcs).map fun v => ((toPlane n v).x, (toPlane n v).y)) =
      idx.map fun ij => (ij, (ij.1 * R.x + ij.2 * C.x + K.x, ij.1 * R.y + ij.2 * C.y + K.y)) := by
    rw [List.zip_map_right, hdata, List.map_map]
    refine List.map_congr_left fun ij _ => ?_
    simp only [Function.comp, Prod.map, id]
    rw [toPlane_affV]
    rfl
  rw [hplane] at hest
  have hpos : ∀ a ∈ idx, a ∈ (idx.map fun ij => (ij, (ij.1 * R.x + ij.2 * C.x + K.x,
      ij.1 * R.y + ij.2 * C.y + K.y))).map Prod.fst := by
    intro a ha
    simpa using ha
  obtain ⟨h, hh, hfit⟩ := hest
    ⟨p, q, r, s, hpos p hp, hpos q hq, hpos r hr, hpos s hs, hg⟩
    ⟨⟨⟨R.x, C.x, K.x⟩, ⟨R.y, C.y, K.y⟩, ⟨0, 0, 1⟩⟩, rfl, by
      intro x hx
      obtain ⟨ij, _, rfl⟩ := List.mem_map.mp hx
      have hden : Homography.den ⟨⟨R.x, C.x, K.x⟩, ⟨R.y, C.y, K.y⟩, ⟨0, 0, 1⟩⟩ ij = 1 := by
        simp [Homography.den, V3.dot]
      refine ⟨by rw [hden]; exact one_ne_zero, ?_⟩
      rw [Homography.at, hden]
      simp only [V3.dot, Prod.mk.injEq]
      constructor <;> ring⟩
  refine ⟨h, hh, fun ij => ?_⟩
  have hat : ∀ a ∈ idx, h.den a ≠ 0 ∧ h.at a = (a.1 * R.x + a.2 * C.x + K.x,
      a.1 * R.y + a.2 * C.y + K.y) := fun a ha =>
    hfit (a, _) (List.mem_map.mpr ⟨a, ha, rfl⟩)
  have key := (projective_unique h R.x C.x K.x R.y C.y K.y p q r s hg (by rwa [mul_comm R.y] at *)
    (hat p hp) (hat q hq) (hat r hr) (hat s hs) ij).2
  have back : fromPlane n ⟨(h.at ij).1, (h.at ij).2, 0⟩ = affV (pcV3 B.row) (pcV3 B.col) k ij := by
    rw [← fromPlane_toPlane n (affV (pcV3 B.row) (pcV3 B.col) k ij)]
    congr 1
    have hz0 := hz' ij
    rw [toPlane_affV] at hz0 ⊢
    rw [key]
    apply V3.ext
    · rfl
    · rfl
    · exact hz0.symm
  unfold projectivePc
  simp only [back]
  simp only [affV, pcV3, hk, AffineFit.at]
  apply PC.ext <;> simp only <;> ring

theorem inliers_length {α β : Type} (o : Option (List Bool)) (l : List α) (m : List β)
    (hl : l.length = m.length) : (inliers o l).length = (inliers o m).length := by
  cases o with
  | none => simpa [inliers] using hl
  | some o =>
    simp only [inliers]
    induction l generalizing m o with
    | nil => cases m with
      | nil => simp
      | cons b m => simp at hl
    | cons a l ih => cases m with
      | nil => simp at hl
      | cons b m => cases o with
        | nil => simp
        | cons c o =>
          have := ih m (by simpa using hl) o
          cases c <;> simp [this]

/-- C103 (exact on a plane): if the PCs of a detector which are not outliers are an affine function
`B` of the map position (so they lie on a plane), four of their positions are in general position,
rows and columns move the PC in different directions, and the trimmed mean of the PCs lies on the
plane, then the default, projective fit succeeds if and only if the affine fit does, and returns the
same detector, whose PCs are those of `B`. -/
theorem C103_same_as_affine_partial (d : Detector ℝ) (pcIdx mapIdx : List (ℝ × ℝ))
    (o : Option (List Bool)) (svd : List (V3 ℝ) → V3 ℝ)
    (estimate : List ((ℝ × ℝ) × (ℝ × ℝ)) → Option Homography)
    (lstsq : List ((ℝ × ℝ) × PC ℝ) → AffineFit) (B : AffineFit)
    (hlen : pcIdx.length = d.pc.length)
    (hol : (o.map List.length).getD d.pc.length = d.pc.length)
    (hls : IsLeastSquares (lstsq ((inliers o pcIdx).zip (inliers o d.pc)))
      ((inliers o pcIdx).zip (inliers o d.pc)))
    (hsvd : IsLeastDirection (svd (centeredPcs (inliers o d.pc))) (centeredPcs (inliers o d.pc)))
    (hest : ∀ l, IsProjectiveEstimate (estimate l) l)
    (hB : ∀ x ∈ (inliers o pcIdx).zip (inliers o d.pc), x.2 = B.at x.1)
    (hc : Spec.CenterInPlane (inliers o d.pc))
    (p q r s : ℝ × ℝ) (hp : p ∈ inliers o pcIdx) (hq : q ∈ inliers o pcIdx)
    (hr : r ∈ inliers o pcIdx) (hs : s ∈ inliers o pcIdx) (hg : Spec.GeneralPosition p q r s)
    (hspan : (pcV3 B.row).cross (pcV3 B.col) ≠ ⟨0, 0, 0⟩) :
    d.fitPcProjective pcIdx mapIdx o svd estimate = d.fitPcAffine pcIdx mapIdx o lstsq ∧
    ∀ d', d.fitPcProjective pcIdx mapIdx o svd estimate = .ok d' → d'.pc = mapIdx.map B.at := by
  have hlen' := inliers_length o pcIdx d.pc hlen
  obtain ⟨h, hh, hall⟩ := projective_exact (inliers o d.pc) (inliers o pcIdx) hlen' B
    (svd (centeredPcs (inliers o d.pc))) _ hB hsvd hc (hest _) p q r s hp hq hr hs hg hspan
  have heq : d.fitPcProjective pcIdx mapIdx o svd estimate = d.fitPcAffine pcIdx mapIdx o lstsq := by
    have hA := leastSquares_exact _ B _ hls hB
    have key : ∀ s, (lstsq ((inliers o pcIdx).zip (inliers o d.pc))).at s = B.at s := by
      have h3 : (o.map List.length).getD pcIdx.length = pcIdx.length := by rw [hlen]; exact hol
      obtain ⟨p', hp'⟩ := mem_inliers_of_zip o pcIdx d.pc hlen h3 p hp
      obtain ⟨q', hq'⟩ := mem_inliers_of_zip o pcIdx d.pc hlen h3 q hq
      obtain ⟨r', hr'⟩ := mem_inliers_of_zip o pcIdx d.pc hlen h3 r hr
      exact affine_unique _ B p q r hg.1 (hA _ hp') (hA _ hq') (hA _ hr')
    have key' : (lstsq ((inliers o pcIdx).zip (inliers o d.pc))).at = B.at := funext key
    have hall' : projectivePc (inliers o d.pc) (svd (centeredPcs (inliers o d.pc))) h = B.at :=
      funext hall
    unfold Detector.fitPcProjective Detector.fitPcAffine
    simp only [hh, key', hall']
    split_ifs
    · rfl
    · rfl
    · rfl
    · cases linregressSlope (List.map PC.z (List.map B.at (inliers o pcIdx)))
        (List.map PC.y (List.map B.at (inliers o pcIdx))) <;> rfl
  refine ⟨heq, fun d' hd' => ?_⟩
  rw [heq] at hd'
  exact (C76_affine_fit d pcIdx mapIdx o lstsq B d' hls hB p q r hp hq hr hg.1 hd').1

/-- The mean of few numbers is not trimmed. -/
theorem trimMean_few (l : List ℝ) (h : l.length < 10) : trimMean l = listMean l := by
  unfold trimMean
  have h0 : l.length / 10 = 0 := Nat.div_eq_of_lt h
  have hl : (l.insertionSort (· ≤ ·)).length = l.length := List.length_insertionSort _ _
  simp only [h0, Nat.sub_zero, List.drop_zero]
  rw [← hl, List.take_length]
  have hp := List.perm_insertionSort (· ≤ ·) l
  simp only [listMean, hp.sum_eq, hp.length_eq]

/-- With fewer than ten PCs, the center is their mean, which lies on their plane. -/
theorem center_few (pcs : List (PC ℝ)) (hne : pcs ≠ []) (h : pcs.length < 10) (m : V3 ℝ) (c : ℝ)
    (hm : m.dot m = 1) (hp : ∀ p ∈ pcs, m.dot (pcV3 p) = c) : Spec.CenterInPlane pcs := by
  have hlen : (pcs.length : ℝ) ≠ 0 := by
    have := List.length_pos_iff.mpr hne
    positivity
  have hz : ∀ f : PC ℝ → ℝ, trimMean (pcs.map fun p => f p - listMean (pcs.map f)) = 0 := by
    intro f
    rw [trimMean_few _ (by simpa using h)]
    have e := listMean_affine (-(listMean (pcs.map f))) 1 (pcs.map f) (by simpa using hne)
    rw [List.map_map] at e
    have e2 : (pcs.map fun p => f p - listMean (pcs.map f)) =
        pcs.map ((fun x => -(listMean (pcs.map f)) + 1 * x) ∘ f) :=
      List.map_congr_left fun p _ => by simp only [Function.comp]; ring
    rw [e2, e]
    ring
  have hx := hz PC.x
  have hy := hz PC.y
  have hzz := hz PC.z
  have hsum : m.x * (pcs.map PC.x).sum + m.y * (pcs.map PC.y).sum + m.z * (pcs.map PC.z).sum =
      c * pcs.length := by
    clear hx hy hzz hz h hlen hne
    induction pcs with
    | nil => simp
    | cons a l ih =>
      have h1 := hp a (by simp)
      have h2 := ih fun p hp' => hp p (by simp [hp'])
      simp only [V3.dot, pcV3] at h1
      simp only [List.map_cons, List.sum_cons, List.length_cons, Nat.cast_add, Nat.cast_one]
      linear_combination h1 + h2
  refine ⟨m, c, hm, hp, ?_⟩
  simp only [trimPoint, pcMean, V3.dot, V3.add, pcV3, hx, hy, hzz, add_zero]
  simp only [listMean, List.length_map]
  field_simp
  linarith

/-- C103 (few PCs): if fewer than ten PCs of a detector are not outliers and they are an affine
function `B` of the map position, then the default fit gives the same as the affine fit, whatever
the plane is. -/
theorem C103_few_partial (d : Detector ℝ) (pcIdx mapIdx : List (ℝ × ℝ))
    (o : Option (List Bool)) (svd : List (V3 ℝ) → V3 ℝ)
    (estimate : List ((ℝ × ℝ) × (ℝ × ℝ)) → Option Homography)
    (lstsq : List ((ℝ × ℝ) × PC ℝ) → AffineFit) (B : AffineFit)
    (hlen : pcIdx.length = d.pc.length)
    (hol : (o.map List.length).getD d.pc.length = d.pc.length)
    (hls : IsLeastSquares (lstsq ((inliers o pcIdx).zip (inliers o d.pc)))
      ((inliers o pcIdx).zip (inliers o d.pc)))
    (hsvd : IsLeastDirection (svd (centeredPcs (inliers o d.pc))) (centeredPcs (inliers o d.pc)))
    (hest : ∀ l, IsProjectiveEstimate (estimate l) l)
    (hB : ∀ x ∈ (inliers o pcIdx).zip (inliers o d.pc), x.2 = B.at x.1)
    (hfew : (inliers o d.pc).length < 10)
    (p q r s : ℝ × ℝ) (hp : p ∈ inliers o pcIdx) (hq : q ∈ inliers o pcIdx)
    (hr : r ∈ inliers o pcIdx) (hs : s ∈ inliers o pcIdx) (hg : Spec.GeneralPosition p q r s)
    (hspan : (pcV3 B.row).cross (pcV3 B.col) ≠ ⟨0, 0, 0⟩) :
    d.fitPcProjective pcIdx mapIdx o svd estimate = d.fitPcAffine pcIdx mapIdx o lstsq ∧
    ∀ d', d.fitPcProjective pcIdx mapIdx o svd estimate = .ok d' → d'.pc = mapIdx.map B.at := by
  have hlen' := inliers_length o pcIdx d.pc hlen
  have hw : 0 < ((pcV3 B.row).cross (pcV3 B.col)).dot ((pcV3 B.row).cross (pcV3 B.col)) := by
    generalize (pcV3 B.row).cross (pcV3 B.col) = w at hspan
    by_contra h0
    apply hspan
    simp only [V3.dot] at h0
    apply V3.ext <;> simp only <;> nlinarith [mul_self_nonneg w.x, mul_self_nonneg w.y,
      mul_self_nonneg w.z]
  obtain ⟨w, hwd⟩ : ∃ w, w = (pcV3 B.row).cross (pcV3 B.col) := ⟨_, rfl⟩
  have hr0 : w.dot (pcV3 B.row) = 0 := by rw [hwd]; simp only [V3.dot, V3.cross]; ring
  have hc0 : w.dot (pcV3 B.col) = 0 := by rw [hwd]; simp only [V3.dot, V3.cross]; ring
  rw [← hwd] at hw
  have hsq := Real.mul_self_sqrt hw.le
  have hpos := Real.sqrt_pos.mpr hw
  have hc : Spec.CenterInPlane (inliers o d.pc) := by
    apply center_few (inliers o d.pc) _ hfew (w.smul (1 / Real.sqrt (w.dot w)))
      (w.dot (pcV3 B.const) / Real.sqrt (w.dot w))
    · have e : (w.smul (1 / Real.sqrt (w.dot w))).dot (w.smul (1 / Real.sqrt (w.dot w))) =
          w.dot w / (Real.sqrt (w.dot w) * Real.sqrt (w.dot w)) := by
        simp only [V3.smul]
        generalize Real.sqrt (w.dot w) = k at *
        simp only [V3.dot]
        field_simp
      rw [e, hsq, div_self hw.ne']
    · intro a ha
      obtain ⟨k, hk, rfl⟩ := List.mem_iff_getElem.mp ha
      have hx := hB ((inliers o pcIdx)[k]'(hlen' ▸ hk), (inliers o d.pc)[k])
        (List.mem_iff_getElem.mpr ⟨k, by simp [hlen', hk], by simp⟩)
      simp only at hx
      rw [hx]
      have e : (w.smul (1 / Real.sqrt (w.dot w))).dot (pcV3 (B.at ((inliers o pcIdx)[k]'(hlen' ▸ hk)))) =
          w.dot (pcV3 (B.at ((inliers o pcIdx)[k]'(hlen' ▸ hk)))) / Real.sqrt (w.dot w) := by
        simp only [V3.smul]
        generalize Real.sqrt (w.dot w) = k at *
        simp only [V3.dot]
        field_simp
      rw [e]
      congr 1
      simp only [V3.dot, pcV3, AffineFit.at] at hr0 hc0 ⊢
      linear_combination ((inliers o pcIdx)[k]'(hlen' ▸ hk)).1 * hr0 +
        ((inliers o pcIdx)[k]'(hlen' ▸ hk)).2 * hc0
    · rintro h0
      rw [h0, List.length_nil] at hlen'
      rw [List.length_eq_zero_iff.mp hlen'] at hp
      simp at hp
  exact C103_same_as_affine_partial d pcIdx mapIdx o svd estimate lstsq B hlen hol hls hsvd hest hB hc
    p q r s hp hq hr hs hg hspan

/-- C103 (sample plane): if the PCs of a detector which are not outliers lie on the sample plane the
detector describes and four of their map positions are in general position, then the default fit of
any number of PCs gives the PCs of the plane in all map positions. If the detector is not tilted, the
sample tilt is kept. -/
theorem C103_map_plane_partial (d : Detector ℝ) (hd : TiltedDetector d) (htilt : d.tilt = 0)
    (dy dx : ℝ) (hdy : dy ≠ 0) (hdx : dx ≠ 0) (mean : PC ℝ) (pos : ℤ × ℤ)
    (pcIdx mapIdx : List (ℕ × ℕ)) (o : Option (List Bool)) (svd : List (V3 ℝ) → V3 ℝ)
    (estimate : List ((ℝ × ℝ) × (ℝ × ℝ)) → Option Homography)
    (hsvd : IsLeastDirection (svd (centeredPcs (inliers o d.pc))) (centeredPcs (inliers o d.pc)))
    (hest : ∀ l, IsProjectiveEstimate (estimate l) l)
    (hlen : pcIdx.length = d.pc.length)
    (hol : (o.map List.length).getD d.pc.length = d.pc.length)
    (hpc : ∀ x ∈ (inliers o pcIdx).zip (inliers o d.pc), x.2 = planePc d dy dx mean pos x.1)
    (p q r s : ℕ × ℕ) (hp : p ∈ inliers o pcIdx) (hq : q ∈ inliers o pcIdx)
    (hr : r ∈ inliers o pcIdx) (hs : s ∈ inliers o pcIdx)
    (hg : Spec.GeneralPosition (posR p) (posR q) (posR r) (posR s)) :
    d.fitPcProjective (pcIdx.map posR) (mapIdx.map posR) o svd estimate =
      .ok { d with nav := [mapIdx.length], pc := mapIdx.map (planePc d dy dx mean pos) } := by
  have hin : inliers o (pcIdx.map posR) = (inliers o pcIdx).map posR := inliers_map o posR pcIdx
  have hlen' := inliers_length o pcIdx d.pc hlen
  have hB : ∀ x ∈ (inliers o (pcIdx.map posR)).zip (inliers o d.pc),
      x.2 = (planeFit d dy dx mean pos).at x.1 := by
    intro x hx
    rw [hin, List.zip_map_left] at hx
    obtain ⟨y, hy, rfl⟩ := List.mem_map.mp hx
    simp only [Prod.map, id]
    rw [planeFit_at]
    exact hpc y hy
  have hls : IsLeastSquares ((fun _ => planeFit d dy dx mean pos)
      ((inliers o (pcIdx.map posR)).zip (inliers o d.pc)))
      ((inliers o (pcIdx.map posR)).zip (inliers o d.pc)) := leastSquares_of_exact _ _ hB
  have hsin := Real.sin_pos_of_pos_of_lt_pi hd.angle.1 hd.angle.2
  have hcs := Real.sin_sq_add_cos_sq (deg2radR (90 - d.sampleTilt + d.tilt))
  have hc : Spec.CenterInPlane (inliers o d.pc) := by
    have hline : ∀ a ∈ inliers o d.pc, a.y =
        (mean.y + Real.cos (deg2radR (90 - d.sampleTilt + d.tilt)) /
        Real.sin (deg2radR (90 - d.sampleTilt + d.tilt)) * mean.z) +
      -(Real.cos (deg2radR (90 - d.sampleTilt + d.tilt)) /
        Real.sin (deg2radR (90 - d.sampleTilt + d.tilt))) * a.z := by
      intro a ha
      obtain ⟨k, hk, rfl⟩ := List.mem_iff_getElem.mp ha
      have hx := hpc ((inliers o pcIdx)[k]'(hlen' ▸ hk), (inliers o d.pc)[k])
        (List.mem_iff_getElem.mpr ⟨k, by simp [hlen', hk], by simp⟩)
      simp only at hx
      rw [hx]
      exact planePc_line d hd dy dx mean pos _
    have hcen := centered_normal _ _ _ hline
    rw [centeredPcs_eq] at hcen
    generalize Real.sin (deg2radR (90 - d.sampleTilt + d.tilt)) = sa at *
    generalize Real.cos (deg2radR (90 - d.sampleTilt + d.tilt)) = ca at *
    obtain ⟨a, ha⟩ : ∃ a, a ∈ inliers o d.pc := by
      apply List.exists_mem_of_length_pos
      rw [← hlen']
      exact List.length_pos_of_mem hp
    have h1 := hline a ha
    have h2 := hcen _ (List.mem_map_of_mem ha)
    refine ⟨⟨0, sa, ca⟩, sa * (mean.y + ca / sa * mean.z), ?_, ?_, ?_⟩
    · simp only [V3.dot]; linarith
    · intro b hb
      simp only [V3.dot, pcV3]
      rw [hline b hb]
      field_simp
      ring
    · simp only [V3.dot, V3.add, pcV3] at h2 ⊢
      rw [h1] at h2
      field_simp at h2 ⊢
      linarith
  have hspan : (pcV3 (planeFit d dy dx mean pos).row).cross (pcV3 (planeFit d dy dx mean pos).col) ≠
      ⟨0, 0, 0⟩ := by
    intro h
    have hrow : (d.nrows : ℝ) ≠ 0 := by have := hd.rows; positivity
    have hcol : (d.ncols : ℝ) ≠ 0 := by have := hd.cols; positivity
    have h2 := congrArg V3.y h
    simp only [V3.cross, pcV3, planeFit] at h2
    have hpx := hd.px
    have hbin := hd.bin
    simp [hdy, hdx, hrow, hcol, hpx, hbin, hsin.ne'] at h2
  have hmem : ∀ a ∈ inliers o pcIdx, posR a ∈ inliers o (pcIdx.map posR) := by
    intro a ha
    rw [hin]
    exact List.mem_map_of_mem ha
  rw [(C103_same_as_affine_partial d (pcIdx.map posR) (mapIdx.map posR) o svd estimate
    (fun _ => planeFit d dy dx mean pos) _ (by simpa using hlen) hol hls hsvd hest hB hc
    _ _ _ _ (hmem p hp) (hmem q hq) (hmem r hr) (hmem s hs) hg hspan).1]
  exact C76_map_plane_partial d hd htilt dy dx hdy mean pos pcIdx mapIdx o _ hls hlen hol hpc p q r
    hp hq hr hg.1

/-! ### Where the default fit is not exact -/

/-- Ten map positions in a triangle. -/
def triIdx : List (ℕ × ℕ) :=
  [(0, 0), (0, 1), (0, 2), (0, 3), (1, 0), (1, 1), (1, 2), (2, 0), (2, 1), (3, 0)]

/-- The PC in a map position, on a plane which is inclined to all axes of the detector. -/
def triFit : AffineFit :=
  ⟨⟨1 / 100, 0, -1 / 100⟩, ⟨0, 1 / 100, -1 / 100⟩, ⟨1 / 2, 1 / 2, 1 / 2⟩⟩

/-- A detector with the PCs of the ten positions. -/
def triDetector : Detector ℝ :=
  ⟨60, 60, 70, 8, 0, 0, 0, 70, [10], (triIdx.map posR).map triFit.at⟩

theorem tri_mean : pcMean triDetector.pc = ⟨51 / 100, 51 / 100, 48 / 100⟩ := by
  norm_num [pcMean, triDetector, triIdx, posR, triFit, AffineFit.at, listMean]

theorem tri_trim : trimPoint triDetector.pc = ⟨-1 / 800, -1 / 800, -1 / 800⟩ := by
  unfold trimPoint
  rw [tri_mean]
  norm_num [trimMean, triDetector, triIdx, posR, triFit, AffineFit.at, listMean, List.insertionSort,
    List.orderedInsert]

/-- C103 (violation): the point the plane is centered on need not lie on it, as the smallest and
largest tenth of each coordinate are left out separately. The PCs of these ten positions lie on a
plane and are an affine function of the position, but the default fit does not give them back,
whichever unit vector the singular value decomposition and whichever transformation the estimation
return. The affine fit gives them back. -/
theorem C103_trim_violated (svd : List (V3 ℝ) → V3 ℝ) (hunit : ∀ l, (svd l).dot (svd l) = 1)
    (estimate : List ((ℝ × ℝ) × (ℝ × ℝ)) → Option Homography)
    (lstsq : List ((ℝ × ℝ) × PC ℝ) → AffineFit)
    (hls : ∀ l, IsLeastSquares (lstsq l) l) :
    (∀ d', triDetector.fitPcProjective (triIdx.map posR) (triIdx.map posR) none svd estimate = .ok d' →
      d'.pc ≠ triDetector.pc) ∧
    ∃ d', triDetector.fitPcAffine (triIdx.map posR) (triIdx.map posR) none lstsq = .ok d' ∧
      d'.pc = triDetector.pc := by
  constructor
  · intro d' h
    unfold Detector.fitPcProjective at h
    have hl : (triIdx.map posR).length = triDetector.pc.length := by simp [triDetector]
    have h10 : triDetector.pc.length = 10 := by simp [triDetector, triIdx]
    rw [if_neg (by rw [h10]; decide), if_neg (by simpa using hl), if_neg (by simp)] at h
    simp only [inliers] at h
    split at h
    · simp at h
    rename_i hg _
    split at h
    · simp at h
    injection h with h
    subst h
    simp only
    intro he
    generalize hn : svd (centeredPcs triDetector.pc) = n at he
    have hn1 : n.dot n = 1 := by rw [← hn]; exact hunit _
    have key : ∀ ij ∈ triIdx, projectivePc triDetector.pc n hg (posR ij) = triFit.at (posR ij) := by
      intro ij hij
      have e : (triIdx.map posR).map (projectivePc triDetector.pc n hg) =
          (triIdx.map posR).map triFit.at := he
      exact List.map_inj_left.mp e (posR ij) (List.mem_map_of_mem hij)
    have hflat : ∀ ij ∈ triIdx, (upward n).dot
        ⟨(triFit.at (posR ij)).x - 51 / 100 + 1 / 800, (triFit.at (posR ij)).y - 51 / 100 + 1 / 800,
          (triFit.at (posR ij)).z - 48 / 100 + 1 / 800⟩ = 0 := by
      intro ij hij
      have hk := key ij hij
      have hz : (toPlane n (fromPlane n ⟨(hg.at (posR ij)).1, (hg.at (posR ij)).2, 0⟩)).z = 0 := by
        rw [toPlane_fromPlane]
      rw [toPlane_z n _ hn1] at hz
      rw [← hz, ← hk]
      unfold projectivePc
      simp only [tri_mean, tri_trim]
      congr 1
      apply V3.ext <;> simp only <;> ring
    have f1 := hflat (0, 0) (by simp [triIdx])
    have f2 := hflat (1, 0) (by simp [triIdx])
    have f3 := hflat (0, 1) (by simp [triIdx])
    have hu := upward_unit n hn1
    simp only [V3.dot, triFit, AffineFit.at, posR, Nat.cast_zero, Nat.cast_one] at f1 f2 f3 hu
    have c0 : (upward n).z = 0 := by linarith
    have a0 : (upward n).x = 0 := by linarith
    have b0 : (upward n).y = 0 := by linarith
    rw [a0, b0, c0] at hu
    norm_num at hu
  · have hB : ∀ x ∈ (inliers none (triIdx.map posR)).zip (inliers none triDetector.pc),
        x.2 = triFit.at x.1 := by
      intro x hx
      simp only [inliers, triDetector, zip_map_self, List.mem_map] at hx
      obtain ⟨a, _, rfl⟩ := hx
      rfl
    have hex : ∃ d', triDetector.fitPcAffine (triIdx.map posR) (triIdx.map posR) none lstsq = .ok d' := by
      have hA := leastSquares_exact _ triFit _ (hls _) hB
      have hpq : ∀ a ∈ triIdx, (lstsq ((inliers none (triIdx.map posR)).zip
          (inliers none triDetector.pc))).at (posR a) = triFit.at (posR a) := by
        intro a ha
        obtain ⟨b, hb⟩ := mem_inliers_of_zip none (triIdx.map posR) triDetector.pc
          (by simp [triDetector]) (by simp) (posR a) (List.mem_map_of_mem ha)
        exact hA _ hb
      have hfit : (triIdx.map posR).map (lstsq ((inliers none (triIdx.map posR)).zip
          (inliers none triDetector.pc))).at = (triIdx.map posR).map triFit.at := by
        rw [List.map_map, List.map_map]
        exact List.map_congr_left fun a ha => hpq a ha
      unfold Detector.fitPcAffine
      have hl : (triIdx.map posR).length = triDetector.pc.length := by simp [triDetector]
      have h10 : triDetector.pc.length = 10 := by simp [triDetector, triIdx]
      rw [if_neg (by rw [h10]; decide), if_neg (by simpa using hl), if_neg (by simp)]
      simp only [inliers] at hfit ⊢
      rw [hfit]
      unfold linregressSlope
      rw [if_neg]
      · exact ⟨_, rfl⟩
      · intro hz
        have := hz (1 / 2) (by norm_num [triIdx, posR, triFit, AffineFit.at]) (49 / 100)
          (by norm_num [triIdx, posR, triFit, AffineFit.at])
        norm_num at this
    obtain ⟨d', hd'⟩ := hex
    refine ⟨d', hd', ?_⟩
    have := (C76_affine_fit triDetector (triIdx.map posR) (triIdx.map posR) none lstsq triFit d' (hls _)
      hB (posR (0, 0)) (posR (1, 0)) (posR (0, 1)) (List.mem_map_of_mem (by simp [triIdx]))
      (List.mem_map_of_mem (by simp [triIdx])) (List.mem_map_of_mem (by simp [triIdx]))
      (by norm_num [NotCollinear, posR]) hd').1
    rw [this]
    rfl

/-! ### Examples -/

open Classical in
/-- An estimation which finds a transformation whenever there is one. -/
def exEstimate (l : List ((ℝ × ℝ) × (ℝ × ℝ))) : Option Homography :=
  if h : ∃ G : Homography, Spec.TakesAll G l then some h.choose else none

theorem exEstimate_spec (l : List ((ℝ × ℝ) × (ℝ × ℝ))) : IsProjectiveEstimate (exEstimate l) l := by
  rintro _ ⟨G, _, hG⟩
  unfold exEstimate
  have h : ∃ G : Homography, Spec.TakesAll G l := ⟨G, hG⟩
  rw [dif_pos h]
  exact ⟨_, rfl, h.choose_spec⟩

/-- A direction with no variation is a least direction. -/
theorem least_of_perp (n : V3 ℝ) (l : List (V3 ℝ)) (h1 : n.dot n = 1) (h : ∀ v ∈ l, n.dot v = 0) :
    IsLeastDirection n l := by
  refine ⟨h1, fun m _ => ?_⟩
  rw [List.sum_eq_zero]
  · apply List.sum_nonneg
    intro x hx
    obtain ⟨v, _, rfl⟩ := List.mem_map.mp hx
    positivity
  · intro x hx
    obtain ⟨v, hv, rfl⟩ := List.mem_map.mp hx
    rw [h v hv]
    norm_num

/-- A 60 x 60 detector with a sample tilted 70 degrees, with the PCs of the corners of a map and one
failed calibration. -/
def exProj : Detector ℝ :=
  let d : Detector ℝ := ⟨60, 60, 70, 8, 0, 0, 0, 70, [5], []⟩
  { d with pc := [planePc d 1 1 ⟨1/2, 1/4, 1/2⟩ (0, 0) (0, 0),
      planePc d 1 1 ⟨1/2, 1/4, 1/2⟩ (0, 0) (9, 0), planePc d 1 1 ⟨1/2, 1/4, 1/2⟩ (0, 0) (0, 9), ⟨5, 5, 5⟩,
      planePc d 1 1 ⟨1/2, 1/4, 1/2⟩ (0, 0) (9, 9)] }

def exProjIdx : List (ℕ × ℕ) := [(0, 0), (9, 0), (0, 9), (5, 5), (9, 9)]

def exProjOutlier : List Bool := [false, false, false, true, false]

theorem exProj_tilted : TiltedDetector exProj := by
  constructor <;> norm_num [exProj]

theorem exProj_pcs : inliers (some exProjOutlier) exProj.pc =
    [(0, 0), (9, 0), (0, 9), (9, 9)].map (planePc exProj 1 1 ⟨1/2, 1/4, 1/2⟩ (0, 0)) := rfl

theorem exProj_idx : inliers (some exProjOutlier) exProjIdx = [(0, 0), (9, 0), (0, 9), (9, 9)] := rfl

theorem exProj_least : IsLeastDirection
    ⟨0, Real.sin (deg2radR (90 - exProj.sampleTilt + exProj.tilt)),
      Real.cos (deg2radR (90 - exProj.sampleTilt + exProj.tilt))⟩
    (centeredPcs (inliers (some exProjOutlier) exProj.pc)) := by
  have hs := Real.sin_pos_of_pos_of_lt_pi exProj_tilted.angle.1 exProj_tilted.angle.2
  apply least_of_perp
  · have := Real.sin_sq_add_cos_sq (deg2radR (90 - exProj.sampleTilt + exProj.tilt))
    simp only [V3.dot]
    linarith
  · intro v hv
    have hcen := centered_normal _ _ _ (fun a ha => by
      rw [exProj_pcs] at ha
      obtain ⟨ij, _, rfl⟩ := List.mem_map.mp ha
      exact planePc_line exProj exProj_tilted 1 1 ⟨1/2, 1/4, 1/2⟩ (0, 0) ij) v hv
    simp only [V3.dot, hcen]
    field_simp
    ring

example : exProj.fitPcProjective (exProjIdx.map posR) ([(0, 0), (5, 5)].map posR) (some exProjOutlier)
    (fun _ => ⟨0, Real.sin (deg2radR (90 - exProj.sampleTilt + exProj.tilt)),
      Real.cos (deg2radR (90 - exProj.sampleTilt + exProj.tilt))⟩) exEstimate =
    .ok { exProj with
      nav := [2]
      pc := [(0, 0), (5, 5)].map (planePc exProj 1 1 ⟨1/2, 1/4, 1/2⟩ (0, 0)) } :=
  C103_map_plane_partial exProj exProj_tilted rfl 1 1 one_ne_zero one_ne_zero ⟨1/2, 1/4, 1/2⟩ (0, 0)
    exProjIdx [(0, 0), (5, 5)] (some exProjOutlier) _ exEstimate exProj_least exEstimate_spec rfl rfl
    (by
      rw [exProj_idx, exProj_pcs, zip_map_self]
      intro x hx
      obtain ⟨a, _, rfl⟩ := List.mem_map.mp hx
      rfl)
    (0, 0) (9, 0) (0, 9) (9, 9) (by simp [exProj_idx]) (by simp [exProj_idx]) (by simp [exProj_idx])
    (by simp [exProj_idx]) (by norm_num [Spec.GeneralPosition, NotCollinear, posR])

/-- Four positions of the plane inclined to all axes. -/
def exFewIdx : List (ℕ × ℕ) := [(0, 0), (9, 0), (0, 9), (9, 9)]

def exFew : Detector ℝ := ⟨60, 60, 70, 8, 0, 0, 0, 70, [4], (exFewIdx.map posR).map triFit.at⟩

theorem exFew_least : IsLeastDirection
    ⟨1 / Real.sqrt 3, 1 / Real.sqrt 3, 1 / Real.sqrt 3⟩ (centeredPcs (inliers none exFew.pc)) := by
  have h3 : Real.sqrt 3 * Real.sqrt 3 = 3 := Real.mul_self_sqrt (by norm_num)
  have h0 : Real.sqrt 3 ≠ 0 := by positivity
  have hm : pcMean exFew.pc = ⟨545 / 1000, 545 / 1000, 41 / 100⟩ := by
    norm_num [pcMean, exFew, exFewIdx, posR, triFit, AffineFit.at, listMean]
  have ht : trimPoint exFew.pc = ⟨0, 0, 0⟩ := by
    unfold trimPoint
    rw [hm]
    norm_num [trimMean, exFew, exFewIdx, posR, triFit, AffineFit.at, listMean, List.insertionSort,
      List.orderedInsert]
  apply least_of_perp
  · simp only [V3.dot]
    field_simp
    nlinarith
  · intro v hv
    simp only [inliers] at hv
    rw [centeredPcs_eq, hm, ht] at hv
    simp only [exFew, exFewIdx, List.map_map, Function.comp_def, List.map_cons, List.map_nil, posR, triFit,
      AffineFit.at, List.mem_cons, List.not_mem_nil, or_false] at hv
    rcases hv with rfl | rfl | rfl | rfl <;> simp only [V3.dot] <;> field_simp <;> norm_num

example : exFew.fitPcProjective (exFewIdx.map posR) [(5, 5)] none
    (fun _ => ⟨1 / Real.sqrt 3, 1 / Real.sqrt 3, 1 / Real.sqrt 3⟩) exEstimate =
    exFew.fitPcAffine (exFewIdx.map posR) [(5, 5)] none (fun _ => triFit) := by
  have hB : ∀ x ∈ (inliers none (exFewIdx.map posR)).zip (inliers none exFew.pc), x.2 = triFit.at x.1 := by
    intro x hx
    simp only [inliers, exFew, zip_map_self, List.mem_map] at hx
    obtain ⟨a, _, rfl⟩ := hx
    rfl
  refine (C103_few_partial exFew (exFewIdx.map posR) [(5, 5)] none _ exEstimate (fun _ => triFit) triFit
    (by simp [exFew]) (by simp) (leastSquares_of_exact _ _ hB) exFew_least exEstimate_spec hB
    (by simp [inliers, exFew, exFewIdx]) (posR (0, 0)) (posR (9, 0)) (posR (0, 9)) (posR (9, 9))
    (List.mem_map_of_mem (by simp [exFewIdx])) (List.mem_map_of_mem (by simp [exFewIdx]))
    (List.mem_map_of_mem (by simp [exFewIdx])) (List.mem_map_of_mem (by simp [exFewIdx]))
    (by norm_num [Spec.GeneralPosition, NotCollinear, posR]) ?_).1
  intro h
  have := congrArg V3.z h
  norm_num [V3.cross, pcV3, triFit] at this

end
end Kp
