import Verif.Model.FitPc
import Mathlib.Tactic.FieldSimp
import Mathlib.Tactic.Ring
import Mathlib.Tactic.Linarith
import Mathlib.Tactic.LinearCombination
import Mathlib.Tactic.Positivity
import Mathlib.Tactic.NormNum

/-
Lemmas on least squares fits and regression lines for data without errors.
-/

namespace Kp
set_option linter.unusedSectionVars false
noncomputable section

/-- Three positions on a map are not on one line. -/
def NotCollinear (p q r : ℝ × ℝ) : Prop :=
  (q.1 - p.1) * (r.2 - p.2) - (q.2 - p.2) * (r.1 - p.1) ≠ 0

/-! ### Least squares -/

theorem pcSqDist_nonneg (p q : PC ℝ) : 0 ≤ pcSqDist p q := by unfold pcSqDist; positivity

theorem pcSqDist_self (p : PC ℝ) : pcSqDist p p = 0 := by simp [pcSqDist]

theorem eq_of_pcSqDist (p q : PC ℝ) (h : pcSqDist p q = 0) : p = q := by
  unfold pcSqDist at h
  have hx := sq_nonneg (p.x - q.x)
  have hy := sq_nonneg (p.y - q.y)
  have hz := sq_nonneg (p.z - q.z)
  have ex : p.x - q.x = 0 := by apply pow_eq_zero_iff (two_ne_zero) |>.mp; linarith
  have ey : p.y - q.y = 0 := by apply pow_eq_zero_iff (two_ne_zero) |>.mp; linarith
  have ez : p.z - q.z = 0 := by apply pow_eq_zero_iff (two_ne_zero) |>.mp; linarith
  exact PC.ext (by linarith) (by linarith) (by linarith)

theorem sum_nonneg_eq_zero (l : List ℝ) (h0 : ∀ x ∈ l, 0 ≤ x) (hs : l.sum ≤ 0) :
    ∀ x ∈ l, x = 0 := by
  induction l with
  | nil => simp
  | cons a l ih =>
    have ha := h0 a (by simp)
    have hl : 0 ≤ l.sum := List.sum_nonneg (fun x hx => h0 x (by simp [hx]))
    simp only [List.sum_cons] at hs
    intro x hx
    rcases List.mem_cons.mp hx with rfl | hx
    · linarith
    · exact ih (fun y hy => h0 y (by simp [hy])) (by linarith) x hx

/-- A least squares fit of data without error has no error. -/
theorem leastSquares_exact (A B : AffineFit) (data : List ((ℝ × ℝ) × PC ℝ))
    (hA : IsLeastSquares A data) (hB : ∀ p ∈ data, p.2 = B.at p.1) :
    ∀ p ∈ data, A.at p.1 = B.at p.1 := by
  have hB0 : B.sqErr data = 0 := by
    unfold AffineFit.sqErr
    apply List.sum_eq_zero
    intro x hx
    obtain ⟨p, hp, rfl⟩ := List.mem_map.mp hx
    rw [hB p hp]
    exact pcSqDist_self _
  have h := hA B
  rw [hB0] at h
  intro p hp
  have := sum_nonneg_eq_zero _ (fun x hx => by
    obtain ⟨q, _, rfl⟩ := List.mem_map.mp hx
    exact pcSqDist_nonneg _ _) h (pcSqDist (A.at p.1) p.2) (List.mem_map.mpr ⟨p, hp, rfl⟩)
  rw [eq_of_pcSqDist _ _ this, hB p hp]

theorem affine_zero (a b c : ℝ) (p q r : ℝ × ℝ) (h : NotCollinear p q r)
    (hp : p.1 * a + p.2 * b + c = 0) (hq : q.1 * a + q.2 * b + c = 0)
    (hr : r.1 * a + r.2 * b + c = 0) (s : ℝ × ℝ) : s.1 * a + s.2 * b + c = 0 := by
  unfold NotCollinear at h
  have ha : a = 0 := by
    have : ((q.1 - p.1) * (r.2 - p.2) - (q.2 - p.2) * (r.1 - p.1)) * a = 0 := by
      linear_combination (r.2 - p.2) * (hq - hp) - (q.2 - p.2) * (hr - hp)
    exact (mul_eq_zero.mp this).resolve_left h
  have hb : b = 0 := by
    have : ((q.1 - p.1) * (r.2 - p.2) - (q.2 - p.2) * (r.1 - p.1)) * b = 0 := by
      linear_combination (q.1 - p.1) * (hr - hp) - (r.1 - p.1) * (hq - hp)
    exact (mul_eq_zero.mp this).resolve_left h
  subst ha hb
  linarith

/-- Affine functions which are the same in three positions not on a line are the same. -/
theorem affine_unique (A B : AffineFit) (p q r : ℝ × ℝ) (h : NotCollinear p q r)
    (hp : A.at p = B.at p) (hq : A.at q = B.at q) (hr : A.at r = B.at r) (s : ℝ × ℝ) :
    A.at s = B.at s := by
  have e := fun (t : ℝ × ℝ) (ht : A.at t = B.at t) => (PC.ext_iff.mp ht)
  simp only [AffineFit.at] at e
  obtain ⟨p1, p2, p3⟩ := e p hp
  obtain ⟨q1, q2, q3⟩ := e q hq
  obtain ⟨r1, r2, r3⟩ := e r hr
  have hx := affine_zero (A.row.x - B.row.x) (A.col.x - B.col.x) (A.const.x - B.const.x) p q r h
    (by linarith) (by linarith) (by linarith) s
  have hy := affine_zero (A.row.y - B.row.y) (A.col.y - B.col.y) (A.const.y - B.const.y) p q r h
    (by linarith) (by linarith) (by linarith) s
  have hz := affine_zero (A.row.z - B.row.z) (A.col.z - B.col.z) (A.const.z - B.const.z) p q r h
    (by linarith) (by linarith) (by linarith) s
  simp only [AffineFit.at]
  apply PC.ext <;> simp only <;> linarith

/-! ### Regression -/

theorem sum_map_sub (l : List ℝ) (m : ℝ) : (l.map fun x => x - m).sum = l.sum - l.length * m := by
  induction l with
  | nil => simp
  | cons a l ih => simp only [List.map_cons, List.sum_cons, ih, List.length_cons]; push_cast; ring

theorem listMean_affine (a b : ℝ) (l : List ℝ) (h : l ≠ []) :
    listMean (l.map fun x => a + b * x) = a + b * listMean l := by
  have hl : (l.length : ℝ) ≠ 0 := by
    have := List.length_pos_iff.mpr h
    positivity
  have hs : (l.map fun x => a + b * x).sum = l.length * a + b * l.sum := by
    clear h hl
    induction l with
    | nil => simp
    | cons c l ih => simp only [List.map_cons, List.sum_cons, ih, List.length_cons]; push_cast; ring
  unfold listMean
  rw [hs, List.length_map]
  field_simp

theorem zip_map_self {α β : Type} (l : List α) (f : α → β) :
    l.zip (l.map f) = l.map fun x => (x, f x) := by
  induction l with
  | nil => rfl
  | cons a l ih => simp [ih]

theorem zip_self' {α : Type} (l : List α) : l.zip l = l.map fun x => (x, x) := by
  have := zip_map_self l id
  simpa using this

theorem codeviation_affine (a b : ℝ) (l : List ℝ) (h : l ≠ []) :
    codeviation l (l.map fun x => a + b * x) = b * codeviation l l := by
  unfold codeviation
  rw [listMean_affine a b l h, zip_map_self, zip_self', List.map_map, List.map_map]
  generalize listMean l = m
  clear h
  induction l with
  | nil => simp
  | cons c l ih =>
    simp only [List.map_cons, List.sum_cons, ih, Function.comp]
    ring

theorem codeviation_self_ne_zero (l : List ℝ) (h : ¬ ∀ a ∈ l, ∀ b ∈ l, a = b) :
    codeviation l l ≠ 0 := by
  intro h0
  apply h
  unfold codeviation at h0
  rw [zip_self', List.map_map] at h0
  have := sum_nonneg_eq_zero _ (fun x hx => by
    obtain ⟨c, _, rfl⟩ := List.mem_map.mp hx
    simp only [Function.comp]
    exact mul_self_nonneg _) (le_of_eq h0)
  have e : ∀ a ∈ l, a = listMean l := by
    intro a ha
    have h1 := this _ (List.mem_map.mpr ⟨a, ha, rfl⟩)
    simp only [Function.comp] at h1
    have := mul_self_eq_zero.mp h1
    linarith
  intro a ha b hb
  rw [e a ha, e b hb]

theorem linregress_affine (a b : ℝ) (l : List ℝ) (h : ¬ ∀ x ∈ l, ∀ y ∈ l, x = y) :
    linregressSlope l (l.map fun x => a + b * x) = .ok b := by
  have hl : l ≠ [] := by rintro rfl; exact h (by simp)
  have := codeviation_self_ne_zero l h
  unfold linregressSlope
  rw [if_neg h, codeviation_affine a b l hl]
  congr 1
  field_simp

theorem regressor_affine (a b : ℝ) (l : List ℝ) (h : ¬ ∀ x ∈ l, ∀ y ∈ l, x = y) :
    regressorSlope l (l.map fun x => a + b * x) = b := by
  have hl : l ≠ [] := by rintro rfl; exact h (by simp)
  have := codeviation_self_ne_zero l h
  unfold regressorSlope
  rw [if_neg h, codeviation_affine a b l hl]
  field_simp

/-- A line with slope `-cot α` is tilted by `α`. -/
theorem tilt_of_slope (α : ℝ) (h0 : 0 < α) (h1 : α < Real.pi) :
    Real.pi / 2 + Real.arctan (-(Real.cos α / Real.sin α)) = α := by
  have hs : 0 < Real.sin α := Real.sin_pos_of_pos_of_lt_pi h0 h1
  have e : -(Real.cos α / Real.sin α) = Real.tan (α - Real.pi / 2) := by
    rw [Real.tan_eq_sin_div_cos, Real.sin_sub, Real.cos_sub]
    simp
    ring
  rw [e, Real.arctan_tan (by linarith) (by linarith)]
  ring

/-! ### Trimmed means -/

theorem insertionSort_map_mono (b : ℝ) (hb : 0 ≤ b) (l : List ℝ) :
    (l.map fun x => b * x).insertionSort (· ≤ ·) =
      (l.insertionSort (· ≤ ·)).map fun x => b * x := by
  refine List.Perm.eq_of_pairwise' (r := (· ≤ ·)) (List.pairwise_insertionSort _ _) ?_ ?_
  · rw [List.pairwise_map]
    exact (List.pairwise_insertionSort (· ≤ ·) l).imp fun h => mul_le_mul_of_nonneg_left h hb
  · exact (List.perm_insertionSort _ _).trans ((List.perm_insertionSort (· ≤ ·) l).symm.map _)

theorem insertionSort_map_anti (b : ℝ) (hb : b ≤ 0) (l : List ℝ) :
    (l.map fun x => b * x).insertionSort (· ≤ ·) =
      ((l.insertionSort (· ≤ ·)).map fun x => b * x).reverse := by
  refine List.Perm.eq_of_pairwise' (r := (· ≤ ·)) (List.pairwise_insertionSort _ _) ?_ ?_
  · rw [List.pairwise_reverse, List.pairwise_map]
    exact (List.pairwise_insertionSort (· ≤ ·) l).imp fun h => mul_le_mul_of_nonpos_left h hb
  · exact (List.perm_insertionSort _ _).trans
      (((List.perm_insertionSort (· ≤ ·) l).symm.map _).trans (List.reverse_perm _).symm)

theorem listMean_smul (b : ℝ) (l : List ℝ) : listMean (l.map fun x => b * x) = b * listMean l := by
  unfold listMean
  rw [List.sum_map_mul_left, List.length_map]
  simp
  ring

theorem listMean_reverse (l : List ℝ) : listMean l.reverse = listMean l := by
  unfold listMean
  rw [List.sum_reverse, List.length_reverse]

theorem trim_reverse (l : List ℝ) (c : ℕ) (hc : c ≤ l.length) :
    (l.reverse.take (l.length - c)).drop c = ((l.take (l.length - c)).drop c).reverse := by
  rw [List.take_reverse, List.drop_reverse, List.drop_take]
  congr 2
  · simp; omega
  · congr 1; omega

/-- The trimmed mean of multiples, also negative ones, is the multiple of the trimmed mean. -/
theorem trimMean_smul (b : ℝ) (l : List ℝ) : trimMean (l.map fun x => b * x) = b * trimMean l := by
  unfold trimMean
  simp only [List.length_map]
  have hl : ((l.insertionSort (· ≤ ·)).map fun x => b * x).length = l.length := by simp
  rcases le_total 0 b with hb | hb
  · rw [insertionSort_map_mono b hb, ← List.map_take, ← List.map_drop, listMean_smul]
  · rw [insertionSort_map_anti b hb]
    have := trim_reverse ((l.insertionSort (· ≤ ·)).map fun x => b * x) (l.length / 10)
      (by rw [hl]; exact Nat.div_le_self _ _)
    rw [hl] at this
    rw [this, listMean_reverse, ← List.map_take, ← List.map_drop, listMean_smul]

end
end Kp
