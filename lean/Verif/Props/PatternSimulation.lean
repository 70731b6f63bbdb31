/-
C88: simulations over a map show every pattern its own lines and zone axes.
-/
import Verif.Model.PatternSimulation
import Verif.Props.GeometricalSimulation
import Mathlib.Tactic.Positivity
import Mathlib.Tactic.NormNum

namespace Kp
noncomputable section

/-! ### Specification -/

/-- Rotations and detector are as they should be: a 1D or 2D map of orientations, and one PC for all
patterns or one for each. -/
structure SimulationArgs.WF (a : SimulationArgs) : Prop where
  shape : (∃ n, a.shape = [n] ∧ a.orientations.length = n) ∨
    ∃ ny nx, a.shape = [ny, nx] ∧ a.orientations.length = ny * nx
  onePc : a.detector.nav = [1] → a.detector.pc.length = 1
  pcs : a.detector.nav ≠ [1] → a.detector.nav = a.shape →
    a.detector.pc.length = a.orientations.length

/-- The PC of pattern `i`: its own, or the only one. -/
def SimulationArgs.pcOf (a : SimulationArgs) (i : ℕ) (p : PC ℝ) : Prop :=
  (a.detector.nav = [1] ∧ a.detector.pc = [p]) ∨
    (a.detector.nav ≠ [1] ∧ a.detector.pc[i]? = some p)

/-! ### Lines -/

theorem lineTrace_isTrace {r : ℝ} {n : V3 ℝ} {b : BandTrace} (h : lineTrace r n = some b) :
    IsTraceOf n r b := by
  unfold lineTrace at h
  simp only at h
  split_ifs at h with h1 h2 h3
  push Not at h1 h3
  have hs : Real.sqrt (n.x * n.x + n.y * n.y) = ‖(⟨n.x, n.y⟩ : ℂ)‖ := by
    rw [Complex.norm_def, Complex.normSq_mk]
  rw [hs] at h h2 h3
  set s := ‖(⟨n.x, n.y⟩ : ℂ)‖ with hsdef
  have hs0 : 0 < s := lt_of_le_of_ne (norm_nonneg _) (Ne.symm h2)
  have hr : 0 < r := lt_of_le_of_lt (abs_nonneg _) h3
  obtain ⟨hl, hu⟩ := abs_lt.1 h3
  have hl1 : -1 < n.z / s / r := by rw [lt_div_iff₀ hr]; linarith
  have hu1 : n.z / s / r < 1 := by rw [div_lt_one hr]; exact hu
  set al := Real.arccos (n.z / s / r) with hal
  set ph := Complex.arg ⟨n.x, n.y⟩ with hph
  have hcos : Real.cos al = n.z / s / r := Real.cos_arccos hl1.le hu1.le
  have hsinpos : 0 < Real.sin al := by
    rw [hal, Real.sin_arccos]
    apply Real.sqrt_pos.2
    nlinarith
  have hx : n.x = s * Real.cos ph := by
    rw [hsdef, hph]
    exact (Complex.norm_mul_cos_arg (⟨n.x, n.y⟩ : ℂ)).symm
  have hy : n.y = s * Real.sin ph := by
    rw [hsdef, hph]
    exact (Complex.norm_mul_sin_arg (⟨n.x, n.y⟩ : ℂ)).symm
  have hz' : n.z = r * s * Real.cos al := by rw [hcos]; field_simp
  obtain rfl := Option.some.inj h
  refine ⟨?_, ?_, ?_, ?_, ?_⟩
  · have c1 : Real.cos (ph - Real.pi + al) = -Real.cos (ph + al) := by
      rw [show ph - Real.pi + al = ph + al - Real.pi by ring, Real.cos_sub_pi]
    have s1 : Real.sin (ph - Real.pi + al) = -Real.sin (ph + al) := by
      rw [show ph - Real.pi + al = ph + al - Real.pi by ring, Real.sin_sub_pi]
    have hd : Real.cos ph * Real.cos (ph + al) + Real.sin ph * Real.sin (ph + al) =
        Real.cos al := by
      rw [← Real.cos_sub, show ph - (ph + al) = -al by ring, Real.cos_neg]
    unfold OnTrace
    simp only
    rw [c1, s1, hz', ← hd, hx, hy]
    ring
  · have c1 : Real.cos (ph - Real.pi - al) = -Real.cos (ph - al) := by
      rw [show ph - Real.pi - al = ph - al - Real.pi by ring, Real.cos_sub_pi]
    have s1 : Real.sin (ph - Real.pi - al) = -Real.sin (ph - al) := by
      rw [show ph - Real.pi - al = ph - al - Real.pi by ring, Real.sin_sub_pi]
    have hd : Real.cos ph * Real.cos (ph - al) + Real.sin ph * Real.sin (ph - al) =
        Real.cos al := by
      rw [← Real.cos_sub, show ph - (ph - al) = al by ring]
    unfold OnTrace
    simp only
    rw [c1, s1, hz', ← hd, hx, hy]
    ring
  · have := Real.cos_sq_add_sin_sq (ph - Real.pi + al)
    simp only [mul_pow]
    linear_combination r ^ 2 * this
  · have := Real.cos_sq_add_sin_sq (ph - Real.pi - al)
    simp only [mul_pow]
    linear_combination r ^ 2 * this
  · intro h
    simp only [Prod.mk.injEq] at h
    obtain ⟨h1, h2⟩ := h
    have h1' := mul_left_cancel₀ hr.ne' h1
    have h2' := mul_left_cancel₀ hr.ne' h2
    rw [Real.cos_add, Real.cos_sub (ph - Real.pi)] at h1'
    rw [Real.sin_add, Real.sin_sub (ph - Real.pi)] at h2'
    have a1 : Real.sin (ph - Real.pi) * Real.sin al = 0 := by linarith
    have a2 : Real.cos (ph - Real.pi) * Real.sin al = 0 := by linarith
    have b1 := (mul_eq_zero.1 a1).resolve_right hsinpos.ne'
    have b2 := (mul_eq_zero.1 a2).resolve_right hsinpos.ne'
    have := Real.cos_sq_add_sin_sq (ph - Real.pi)
    rw [b1, b2] at this
    norm_num at this

/-- A line is left out only if the normal points away from the detector or the trace does not enter
the circle. -/
theorem lineTrace_none {r : ℝ} {n : V3 ℝ} (h : lineTrace r n = none)
    (hz : -(1 / 100000) < n.z) (h0 : n ≠ ⟨0, 0, 0⟩) (x y : ℝ) (hon : OnTrace n x y) :
    ¬ x ^ 2 + y ^ 2 < r ^ 2 ∨ r ≤ 0 := by
  by_contra hcon
  push Not at hcon
  obtain ⟨hin, hr⟩ := hcon
  have hs2 : Real.sqrt (n.x * n.x + n.y * n.y) ^ 2 = n.x ^ 2 + n.y ^ 2 := by
    rw [Real.sq_sqrt (by nlinarith [sq_nonneg n.x, sq_nonneg n.y])]; ring
  unfold OnTrace at hon
  unfold lineTrace at h
  simp only at h
  rw [if_neg (not_le.2 hz)] at h
  by_cases hs : Real.sqrt (n.x * n.x + n.y * n.y) = 0
  · rw [hs] at hs2
    have hx : n.x = 0 := by nlinarith [sq_nonneg n.x, sq_nonneg n.y]
    have hy : n.y = 0 := by nlinarith [sq_nonneg n.x, sq_nonneg n.y]
    apply h0
    rw [hx, hy] at hon
    ext
    · exact hx
    · exact hy
    · simpa using hon
  · rw [if_neg hs] at h
    have hs0 : 0 < Real.sqrt (n.x * n.x + n.y * n.y) :=
      lt_of_le_of_ne (Real.sqrt_nonneg _) (Ne.symm hs)
    by_cases hd : r ≤ |n.z / Real.sqrt (n.x * n.x + n.y * n.y)|
    · rw [abs_div, abs_of_pos hs0, le_div_iff₀ hs0] at hd
      have h1 : (r * Real.sqrt (n.x * n.x + n.y * n.y)) ^ 2 ≤ n.z ^ 2 := by
        rw [← sq_abs n.z]
        exact pow_le_pow_left₀ (by positivity) hd 2
      rw [mul_pow, hs2] at h1
      have h2 : n.z = -(n.x * x + n.y * y) := by linarith
      have h3 : n.z ^ 2 ≤ (n.x ^ 2 + n.y ^ 2) * (x ^ 2 + y ^ 2) := by
        rw [h2]
        nlinarith [sq_nonneg (n.x * y - n.y * x)]
      have h4 : 0 < n.x ^ 2 + n.y ^ 2 := by rw [← hs2]; positivity
      nlinarith
    · rw [if_neg hd] at h
      cases h

theorem foldl_max_le (l : List ℝ) (m : ℝ) : m ≤ l.foldl max m ∧ ∀ c ∈ l, c ≤ l.foldl max m := by
  induction l generalizing m with
  | nil => simp
  | cons b l ih =>
    obtain ⟨h1, h2⟩ := ih (max m b)
    rw [List.foldl_cons]
    refine ⟨(le_max_left _ _).trans h1, fun c hc => ?_⟩
    rcases List.mem_cons.1 hc with rfl | hc
    · exact (le_max_right _ _).trans h1
    · exact h2 c hc

/-- The circle is at least as large as that of every pattern. -/
theorem rMax_le_maxR (a : SimulationArgs) {i : ℕ} {p : PC ℝ} (h : a.pcOf i p) :
    a.detector.rMax p ≤ a.maxR := by
  have hm : p ∈ a.detector.pc := by
    rcases h with ⟨-, h⟩ | ⟨-, h⟩
    · rw [h]; simp
    · exact List.mem_of_getElem? h
  exact (foldl_max_le _ 0).2 _ (List.mem_map_of_mem hm)

theorem onDetector_ok {a : SimulationArgs} {s : PatternSimulation} (h : onDetector a = .ok s) :
    (a.detector.nav = [1] ∨ a.detector.nav = a.shape) ∧ s.detector = a.detector ∧
    s.shape = a.shape ∧ s.pcs = a.pcs ∧ s.reflectors = a.visibleReflectors ∧
    s.zoneAxes = a.visibleZoneAxes ∧
    s.lines = (a.orientations.map fun u => a.visibleReflectors.map fun v =>
        lineTrace a.maxR (a.normal v u)) ∧
    s.zonePoints = a.orientations.map fun u => a.visibleZoneAxes.map fun w =>
        zonePoint a.maxR (a.direction w u) := by
  unfold onDetector at h
  split_ifs at h with h1
  obtain rfl := Except.ok.inj h
  refine ⟨?_, rfl, rfl, rfl, rfl, rfl, rfl, rfl⟩
  by_contra hc
  push Not at hc
  exact h1 hc

/-- C88: a simulation is made exactly if the detector has one PC or one for every rotation. -/
theorem C88_shapes (a : SimulationArgs) :
    (∃ s, onDetector a = .ok s ∧ s.shape = a.shape) ↔
      a.detector.nav = [1] ∨ a.detector.nav = a.shape := by
  constructor
  · rintro ⟨s, h, -⟩
    exact (onDetector_ok h).1
  · intro h
    unfold onDetector
    rw [if_neg (by tauto)]
    exact ⟨_, rfl, rfl⟩

/-- C88: the lines of every pattern are those of the simulation's reflectors, one by one: the part
within a circle of the trace of the plane in this very pattern, and missing only if the plane normal
points away from the detector or the trace does not enter the circle, which is at least as large as
the pattern's. -/
theorem C88_lines {a : SimulationArgs} {s : PatternSimulation} (h : onDetector a = .ok s)
    {i k : ℕ} {u : M3} {v : Miller} {p : PC ℝ} (hu : a.orientations[i]? = some u)
    (hp : a.pcOf i p) (hv : s.reflectors[k]? = some v) :
    ∃ l, s.lines[i]? = some l ∧ l.length = s.reflectors.length ∧ ∃ r, a.detector.rMax p ≤ r ∧
      ((∃ b, l[k]? = some (some b) ∧ IsTraceOf (a.normal v u) r b) ∨
        l[k]? = some none ∧ ((a.normal v u).z ≤ -(1 / 100000) ∨ a.normal v u = ⟨0, 0, 0⟩ ∨
          ∀ x y, OnTrace (a.normal v u) x y → ¬ x ^ 2 + y ^ 2 < r ^ 2)) := by
  obtain ⟨-, -, -, -, hr, -, hl, -⟩ := onDetector_ok h
  rw [hr] at hv ⊢
  refine ⟨a.visibleReflectors.map fun v => lineTrace a.maxR (a.normal v u), by
    rw [hl, List.getElem?_map, hu]; rfl, by simp, a.maxR, rMax_le_maxR a hp, ?_⟩
  rw [List.getElem?_map, hv]
  simp only [Option.map_some, Option.some.injEq]
  cases ht : lineTrace a.maxR (a.normal v u) with
  | some b => exact .inl ⟨b, rfl, lineTrace_isTrace ht⟩
  | none =>
    refine .inr ⟨rfl, ?_⟩
    by_cases hz : (a.normal v u).z ≤ -(1 / 100000)
    · exact .inl hz
    by_cases h0 : a.normal v u = ⟨0, 0, 0⟩
    · exact .inr (.inl h0)
    refine .inr (.inr fun x y hon => ?_)
    rcases lineTrace_none ht (not_le.1 hz) h0 x y hon with h' | h'
    · exact h'
    · have h1 : a.maxR = 0 := le_antisymm h' ((foldl_max_le _ 0).1)
      rw [h1]
      intro hc
      nlinarith [sq_nonneg x, sq_nonneg y]

/-- C88: a reflector whose plane normal points to the detector in some pattern is kept. -/
theorem C88_reflectors_kept {a : SimulationArgs} {s : PatternSimulation}
    (h : onDetector a = .ok s) (v : Miller) :
    v ∈ s.reflectors ↔ v ∈ a.reflectors ∧ ∃ u ∈ a.orientations, 0 < (a.normal v u).z := by
  obtain ⟨-, -, -, -, hr, -⟩ := onDetector_ok h
  rw [hr]
  simp [SimulationArgs.visibleReflectors]

/-! ### Zone axes -/

theorem zonePoint_eq_some {r : ℝ} {t : V3 ℝ} {g : ℝ × ℝ} :
    zonePoint r t = some g ↔ -(1 / 100000) < t.z ∧ t.z ≠ 0 ∧ g = (t.x / t.z, t.y / t.z) ∧
      Real.sqrt (g.1 ^ 2 + g.2 ^ 2) < r := by
  unfold zonePoint
  split_ifs with h1 h2
  · simp only [false_iff, not_and, reduceCtorEq]
    intro h3 h4
    rcases h1 with h1 | h1
    · exact absurd h3 (not_lt.2 h1)
    · exact absurd h1 h4
  · simp only [false_iff, not_and, reduceCtorEq]
    rintro - - rfl
    exact not_lt.2 h2
  · push Not at h1 h2
    constructor
    · intro h
      obtain rfl := Option.some.inj h
      exact ⟨h1.1, h1.2, rfl, h2⟩
    · rintro ⟨-, -, rfl, -⟩
      rfl

/-- C88: the coordinates of the zone axes of every pattern, one by one, are those of the direction
in this very pattern. -/
theorem C88_zone_axes {a : SimulationArgs} {s : PatternSimulation} (h : onDetector a = .ok s)
    {i k : ℕ} {u : M3} {w : Miller} (hu : a.orientations[i]? = some u)
    (hw : s.zoneAxes[k]? = some w) :
    ∃ l, s.zonePoints[i]? = some l ∧ l.length = s.zoneAxes.length ∧ ∃ o, l[k]? = some o ∧
      ∀ g, o = some g → g = ((a.direction w u).x / (a.direction w u).z,
        (a.direction w u).y / (a.direction w u).z) := by
  obtain ⟨-, -, -, -, -, hz, -, hl⟩ := onDetector_ok h
  rw [hz] at hw ⊢
  refine ⟨_, by rw [hl, List.getElem?_map, hu]; rfl, by simp, _, by
    rw [List.getElem?_map, hw]; rfl, ?_⟩
  intro g hg
  exact (zonePoint_eq_some.1 hg).2.2.1

/-- C88 (partial): a zone axis with coordinates points to the detector, unless the vector is
tiny. -/
theorem C88_zone_axes_upper_partial {r : ℝ} {t : V3 ℝ} {g : ℝ × ℝ}
    (h : zonePoint r t = some g) (hr : 0 ≤ r)
    (hlen : 1 / 10 ^ 10 * (1 + r ^ 2) ≤ t.x ^ 2 + t.y ^ 2 + t.z ^ 2) : 0 < t.z := by
  obtain ⟨h1, h2, rfl, h4⟩ := zonePoint_eq_some.1 h
  by_contra hneg
  have hz : t.z < 0 := lt_of_le_of_ne (not_lt.1 hneg) h2
  simp only at h4
  have h5 : (t.x / t.z) ^ 2 + (t.y / t.z) ^ 2 < r ^ 2 := by
    have := Real.sqrt_lt_sqrt (Real.sqrt_nonneg _) h4
    have h6 := Real.sq_sqrt (show 0 ≤ (t.x / t.z) ^ 2 + (t.y / t.z) ^ 2 by positivity)
    nlinarith [Real.sqrt_nonneg ((t.x / t.z) ^ 2 + (t.y / t.z) ^ 2)]
  have h7 : t.x ^ 2 + t.y ^ 2 = t.z ^ 2 * ((t.x / t.z) ^ 2 + (t.y / t.z) ^ 2) := by
    field_simp
  have h8 : t.z ^ 2 < 1 / 10 ^ 10 := by nlinarith
  have h9 : 0 < t.z ^ 2 := by positivity
  nlinarith [sq_nonneg r]

theorem normal_dot (a : SimulationArgs) (hdual : DualBases a.base a.recbase) {u : M3}
    (hu : KeepsDot u) (v w : Miller) :
    (a.normal v u).dot (a.direction w u) = v.real.dot w.real := by
  unfold SimulationArgs.normal SimulationArgs.direction
  rw [vecMul_matMul, vecMul_matMul, hu, hdual]

/-- C88: in every pattern, every zone axis is on the traces of two different planes of the
simulation, if indices are reduced without changing directions. -/
theorem C88_zone_axes_on_lines {a : SimulationArgs} {s : PatternSimulation}
    (h : onDetector a = .ok s) (hdual : DualBases a.base a.recbase)
    (hrot : ∀ u ∈ a.orientations, KeepsDot u)
    (hred : ∀ w : Miller, ∃ c : ℤ, 0 < c ∧ w = ⟨c * (a.reduce w).x, c * (a.reduce w).y,
      c * (a.reduce w).z⟩)
    {i k : ℕ} {w : Miller} {g : ℝ × ℝ} {l : List (Option (ℝ × ℝ))}
    (hw : s.zoneAxes[k]? = some w) (hl : s.zonePoints[i]? = some l) (hg : l[k]? = some (some g)) :
    ∃ u v1 v2, a.orientations[i]? = some u ∧ v1 ∈ s.reflectors ∧ v2 ∈ s.reflectors ∧
      v1.cross v2 ≠ ⟨0, 0, 0⟩ ∧
      OnTrace (a.normal v1 u) g.1 g.2 ∧ OnTrace (a.normal v2 u) g.1 g.2 := by
  obtain ⟨-, -, -, -, hr, hz, -, hl'⟩ := onDetector_ok h
  rw [hl', List.getElem?_map] at hl
  cases hu : a.orientations[i]? with
  | none => rw [hu] at hl; simp at hl
  | some u =>
    rw [hu] at hl
    simp only [Option.map_some, Option.some.injEq] at hl
    subst hl
    rw [hz] at hw
    rw [List.getElem?_map, hw] at hg
    simp only [Option.map_some, Option.some.injEq] at hg
    obtain ⟨-, ht0, hgt, -⟩ := zonePoint_eq_some.1 hg
    have hmem : w ∈ a.allZoneAxes := by
      have := List.mem_of_getElem? hw
      unfold SimulationArgs.visibleZoneAxes at this
      exact (List.mem_filter.1 this).1
    unfold SimulationArgs.allZoneAxes at hmem
    simp only [List.mem_dedup, List.mem_map, List.mem_filter, List.mem_flatMap,
      decide_eq_true_eq] at hmem
    obtain ⟨c, ⟨⟨v1, hv1, v2, hv2, rfl⟩, hne⟩, rfl⟩ := hmem
    refine ⟨u, v1, v2, rfl, hr ▸ hv1, hr ▸ hv2, hne, ?_, ?_⟩
    all_goals
      obtain ⟨c, hc, hcw⟩ := hred (v1.cross v2)
      have huk := hrot u (List.mem_of_getElem? hu)
    · have hd := normal_dot a hdual huk v1 (a.reduce (v1.cross v2))
      have h0 : v1.real.dot (a.reduce (v1.cross v2)).real = 0 := by
        have h1 : v1.dot (a.reduce (v1.cross v2)) = 0 := by
          have h2 : c * v1.dot (a.reduce (v1.cross v2)) = 0 := by
            have h3 : v1.dot (v1.cross v2) = 0 := by simp only [V3.dot, V3.cross]; ring
            rw [hcw] at h3
            simp only [V3.dot] at h3 ⊢
            linear_combination h3
          exact (mul_eq_zero.1 h2).resolve_left hc.ne'
        simp only [V3.dot, Miller.real] at h1 ⊢
        exact_mod_cast h1
      rw [h0] at hd
      unfold V3.dot at hd
      unfold OnTrace
      rw [hgt]
      simp only
      field_simp
      linarith
    · have hd := normal_dot a hdual huk v2 (a.reduce (v1.cross v2))
      have h0 : v2.real.dot (a.reduce (v1.cross v2)).real = 0 := by
        have h1 : v2.dot (a.reduce (v1.cross v2)) = 0 := by
          have h2 : c * v2.dot (a.reduce (v1.cross v2)) = 0 := by
            have h3 : v2.dot (v1.cross v2) = 0 := by simp only [V3.dot, V3.cross]; ring
            rw [hcw] at h3
            simp only [V3.dot] at h3 ⊢
            linear_combination h3
          exact (mul_eq_zero.1 h2).resolve_left hc.ne'
        simp only [V3.dot, Miller.real] at h1 ⊢
        exact_mod_cast h1
      rw [h0] at hd
      unfold V3.dot at hd
      unfold OnTrace
      rw [hgt]
      simp only
      field_simp
      linarith

theorem pcs_getElem {a : SimulationArgs} (wf : a.WF)
    (hn : a.detector.nav = [1] ∨ a.detector.nav = a.shape) {i : ℕ} {u : M3}
    (hu : a.orientations[i]? = some u) {p : PC ℝ} : a.pcs[i]? = some p ↔ a.pcOf i p := by
  unfold SimulationArgs.pcs SimulationArgs.pcOf
  by_cases h1 : a.detector.nav = [1]
  · obtain ⟨q, hq⟩ := List.length_eq_one_iff.1 (wf.onePc h1)
    have hi := (List.getElem?_eq_some_iff.1 hu).1
    simp [h1, hq, List.getElem?_replicate, hi]
  · simp [h1]

/-- C88 (partial): every zone axis of two reflectors of the simulation which hits the detector (or
is less than a pixel outside) in a pattern is shown there, in pixel coordinates, at its place in the
list of zone axes.  Missing: zone axes further away than `r_max`, which need not be that of the
furthest corner, see `C07_r_max_too_small_in_lower_right_quadrant`. -/
theorem C88_zone_axes_shown_partial {a : SimulationArgs} (wf : a.WF) {s : PatternSimulation}
    (h : onDetector a = .ok s) {v1 v2 : Miller} (h1 : v1 ∈ s.reflectors) (h2 : v2 ∈ s.reflectors)
    (hne : v1.cross v2 ≠ ⟨0, 0, 0⟩) {i : ℕ} {u : M3} {p : PC ℝ} (hu : a.orientations[i]? = some u)
    (hp : a.pcOf i p) {t : V3 ℝ} (ht : t = a.direction (a.reduce (v1.cross v2)) u) (hz : 0 < t.z)
    (hb : withinBounds a.detector p (t.x / t.z, t.y / t.z))
    (hr : Real.sqrt ((t.x / t.z) ^ 2 + (t.y / t.z) ^ 2) < a.detector.rMax p) :
    ∃ (k : ℕ) (l : List (Option (ℝ × ℝ))), s.zoneAxes[k]? = some (a.reduce (v1.cross v2)) ∧
      s.zonePixel[i]? = some l ∧ l[k]? = some (some (simToPixel a.detector p (t.x / t.z, t.y / t.z))) := by
  obtain ⟨hn, hd, -, hpc, hrf, hza, -, hzp⟩ := onDetector_ok h
  have hpi := (pcs_getElem wf hn hu).2 hp
  have hmem : a.reduce (v1.cross v2) ∈ s.zoneAxes := by
    rw [hza]
    unfold SimulationArgs.visibleZoneAxes
    simp only [List.mem_filter, Bool.and_eq_true, List.any_eq_true, decide_eq_true_eq]
    refine ⟨?_, ⟨u, List.mem_of_getElem? hu, ht ▸ hz⟩, (u, p), ?_, ?_⟩
    · unfold SimulationArgs.allZoneAxes
      simp only [List.mem_dedup, List.mem_map, List.mem_filter, List.mem_flatMap,
        decide_eq_true_eq]
      exact ⟨_, ⟨⟨v1, hrf ▸ h1, v2, hrf ▸ h2, rfl⟩, hne⟩, rfl⟩
    · apply List.mem_of_getElem? (i := i)
      rw [List.getElem?_zip_eq_some]
      exact ⟨hu, hpi⟩
    · simp only
      rw [← ht]
      exact ⟨hz.ne', hb⟩
  obtain ⟨k, hk⟩ := List.mem_iff_getElem?.1 hmem
  have hpt : zonePoint a.maxR (a.direction (a.reduce (v1.cross v2)) u) =
      some (t.x / t.z, t.y / t.z) := by
    rw [← ht, zonePoint_eq_some]
    refine ⟨by linarith [show (0 : ℝ) < 1 / 100000 by norm_num], hz.ne', rfl,
      lt_of_lt_of_le hr (rMax_le_maxR a hp)⟩
  have hl : s.zonePixel[i]? = some ((a.visibleZoneAxes.map fun w =>
      zonePoint a.maxR (a.direction w u)).map fun o => o.bind fun g =>
        if withinBounds s.detector p g then some (simToPixel s.detector p g) else none) := by
    unfold PatternSimulation.zonePixel
    rw [List.getElem?_zipWith, hzp, List.getElem?_map, hu, hpc, hpi]
    rfl
  refine ⟨k, _, hk, hl, ?_⟩
  · rw [hza] at hk
    rw [List.getElem?_map, List.getElem?_map, hk]
    rw [Option.map_some, Option.map_some, hpt, Option.bind_some, hd, if_pos hb]

/-- C88: zone axes given in pixels are the gnomonic ones which are within the bounds of the
detector (extended by one pixel) of the pattern, converted with the PC of the pattern. -/
theorem C88_pixel_partial {a : SimulationArgs} (wf : a.WF) {s : PatternSimulation}
    (h : onDetector a = .ok s) {i : ℕ} {u : M3} {p : PC ℝ} (hu : a.orientations[i]? = some u)
    (hp : a.pcOf i p) (q : ℝ × ℝ) :
    q ∈ s.zoneAxesCoordinates i ↔ ∃ g ∈ s.zoneAxesGnomonic i, withinBounds a.detector p g ∧
      q = simToPixel a.detector p g := by
  obtain ⟨hn, hd, -, hpc, -, hza, -, hzp⟩ := onDetector_ok h
  have hpi := (pcs_getElem wf hn hu).2 hp
  unfold PatternSimulation.zoneAxesCoordinates PatternSimulation.zoneAxesGnomonic
    PatternSimulation.zonePixel
  rw [List.getD_eq_getElem?_getD, List.getD_eq_getElem?_getD, List.getElem?_zipWith, hpc, hpi]
  have hl : s.zonePoints[i]? = some (a.visibleZoneAxes.map fun w =>
      zonePoint a.maxR (a.direction w u)) := by rw [hzp, List.getElem?_map, hu]; rfl
  rw [hl]
  simp only [Option.getD_some, List.mem_filterMap, id]
  constructor
  · rintro ⟨o, ho, rfl⟩
    obtain ⟨o', ho', heq⟩ := List.mem_map.1 ho
    cases o' with
    | none => simp at heq
    | some g =>
      simp only [Option.bind_some, hd] at heq
      split_ifs at heq with hb
      exact ⟨g, ⟨_, ho', rfl⟩, hb, (Option.some.inj heq).symm⟩
  · rintro ⟨g, ⟨o, ho, rfl⟩, hb, rfl⟩
    refine ⟨_, List.mem_map.2 ⟨_, ho, rfl⟩, ?_⟩
    rw [Option.bind_some, hd, if_pos hb]

/-! ### Markers -/

theorem mem_ndindex {shape idx : List ℕ} :
    idx ∈ ndindex shape ↔ List.Forall₂ (fun i n => i < n) idx shape := by
  induction shape generalizing idx with
  | nil => simp [ndindex]
  | cons n s ih =>
    simp only [ndindex, List.mem_flatMap, List.mem_range, List.mem_map]
    constructor
    · rintro ⟨i, hi, t, ht, rfl⟩
      exact List.Forall₂.cons hi (ih.1 ht)
    · intro h
      cases h with
      | cons hi ht => exact ⟨_, hi, _, ih.2 ht, rfl⟩

theorem lookup_map_self {α β : Type*} [BEq α] [LawfulBEq α] (f : α → β) (l : List α) (x : α)
    (hx : x ∈ l) : (l.map fun i => (i, f i)).lookup x = some (f x) := by
  induction l with
  | nil => simp at hx
  | cons b l ih =>
    rw [List.map_cons, List.lookup_cons]
    by_cases h : x = b
    · simp [h]
    · have h' : (x == b) = false := by simpa using h
      rw [h']
      exact ih ((List.mem_cons.1 hx).resolve_left h)

/-- Markers drawn at a position of the navigator. -/
theorem markerArray_drawnAt {α : Type*} {shape : List ℕ} {coords : List (List (Option α))}
    {idx : List ℕ} (hidx : idx ∈ ndindex shape) (h1 : shape = [1] → coords.length = 1) :
    (markerArray shape coords).drawnAt idx.reverse =
      (coords.getD (ravelIndex shape idx) []).filterMap id := by
  unfold markerArray
  split_ifs with h
  · subst h
    obtain ⟨c, rfl⟩ := List.length_eq_one_iff.1 (h1 rfl)
    have : idx = [0] := by simpa [ndindex] using hidx
    subst this
    simp [MarkerData.drawnAt, ravelIndex]
  · unfold MarkerData.drawnAt
    simp only
    rw [lookup_map_self _ _ _ ?_]
    · simp
    · rw [mem_ndindex] at hidx ⊢
      exact List.rel_reverse hidx

theorem ravelIndex_two (ny nx y x : ℕ) : ravelIndex [ny, nx] [y, x] = y * nx + x := by
  simp [ravelIndex]

theorem ravelIndex_one (n x : ℕ) : ravelIndex [n] [x] = x := by simp [ravelIndex]

theorem linesPixel_length {a : SimulationArgs} (wf : a.WF) {s : PatternSimulation}
    (h : onDetector a = .ok s) : s.linesPixel.length = a.orientations.length ∧
      s.zonePixel.length = a.orientations.length := by
  obtain ⟨hn, -, -, hpc, -, -, hl, hz⟩ := onDetector_ok h
  have hp : a.pcs.length = a.orientations.length := by
    unfold SimulationArgs.pcs
    by_cases h1 : a.detector.nav = [1]
    · obtain ⟨q, hq⟩ := List.length_eq_one_iff.1 (wf.onePc h1)
      simp [h1, hq]
    · simp only [h1, if_false]
      exact wf.pcs h1 (hn.resolve_left h1)
  unfold PatternSimulation.linesPixel PatternSimulation.zonePixel
  simp [hl, hz, hpc, hp]

/-- C88: at position `(x, y)` of the navigator, the lines and zone axes of the pattern in row `y` and
column `x` are drawn; at position `x` of a line scan, those of pattern `x`. -/
theorem C88_markers {a : SimulationArgs} (wf : a.WF) {s : PatternSimulation}
    (h : onDetector a = .ok s) :
    (∀ ny nx y x, a.shape = [ny, nx] → y < ny → x < nx →
      s.lineMarkers.drawnAt [x, y] = s.linesCoordinates (y * nx + x) ∧
      s.zoneMarkers.drawnAt [x, y] = s.zoneAxesCoordinates (y * nx + x)) ∧
    (∀ n x, a.shape = [n] → x < n →
      s.lineMarkers.drawnAt [x] = s.linesCoordinates x ∧
      s.zoneMarkers.drawnAt [x] = s.zoneAxesCoordinates x) := by
  obtain ⟨hlen1, hlen2⟩ := linesPixel_length wf h
  obtain ⟨-, -, hsh, -⟩ := onDetector_ok h
  have hone : s.shape = [1] → a.orientations.length = 1 := by
    intro h1
    rw [hsh] at h1
    rcases wf.shape with ⟨n, hn, hl⟩ | ⟨ny, nx, hn, hl⟩
    · rw [h1] at hn
      obtain rfl : 1 = n := by simpa using hn
      exact hl
    · rw [h1] at hn
      simp at hn
  constructor
  · intro ny nx y x hs hy hx
    have hm : [y, x] ∈ ndindex s.shape := by
      rw [hsh, hs, mem_ndindex]
      exact .cons hy (.cons hx .nil)
    have e1 := markerArray_drawnAt (coords := s.linesPixel) hm fun h1 => by rw [hlen1, hone h1]
    have e2 := markerArray_drawnAt (coords := s.zonePixel) hm fun h1 => by rw [hlen2, hone h1]
    rw [hsh, hs, ravelIndex_two] at e1 e2
    unfold PatternSimulation.lineMarkers PatternSimulation.zoneMarkers
    rw [hsh, hs]
    exact ⟨e1, e2⟩
  · intro n x hs hx
    have hm : [x] ∈ ndindex s.shape := by
      rw [hsh, hs, mem_ndindex]
      exact .cons hx .nil
    have e1 := markerArray_drawnAt (coords := s.linesPixel) hm fun h1 => by rw [hlen1, hone h1]
    have e2 := markerArray_drawnAt (coords := s.zonePixel) hm fun h1 => by rw [hlen2, hone h1]
    rw [hsh, hs, ravelIndex_one] at e1 e2
    unfold PatternSimulation.lineMarkers PatternSimulation.zoneMarkers
    rw [hsh, hs]
    exact ⟨e1, e2⟩

/-- Labels drawn at a position of the navigator. -/
theorem labelMarkers_drawnAt {α : Type*} {shape : List ℕ} {labels : List (List Char)}
    {coords : List (List (Option α))} {m : MarkerData (α × List Char)}
    (hm : labelMarkers shape labels coords = .ok m) {idx : List ℕ} (hidx : idx ∈ ndindex shape)
    (h1 : shape = [1] → coords.length = 1) :
    m.drawnAt idx.reverse = (List.zipWith (fun c l => c.map (·, l))
      (coords.getD (ravelIndex shape idx) []) labels).filterMap id := by
  unfold labelMarkers at hm
  split_ifs at hm with h h2
  · obtain rfl := Except.ok.inj hm
    subst h
    obtain ⟨c, rfl⟩ := List.length_eq_one_iff.1 (h1 rfl)
    have : idx = [0] := by simpa [ndindex] using hidx
    subst this
    simp [MarkerData.drawnAt, ravelIndex]
  · obtain rfl := Except.ok.inj hm
    unfold MarkerData.drawnAt
    simp only
    rw [lookup_map_self _ _ _ ?_]
    · simp
    · rw [mem_ndindex] at hidx ⊢
      exact List.rel_reverse hidx

/-- C88: every label drawn at position `(x, y)` is that of the zone axis drawn there. -/
theorem C88_labels {a : SimulationArgs} (wf : a.WF) {s : PatternSimulation}
    (h : onDetector a = .ok s) {m : MarkerData ((ℝ × ℝ) × List Char)}
    (hm : s.zoneLabelMarkers = .ok m) {ny nx y x : ℕ} (hs : a.shape = [ny, nx]) (hy : y < ny)
    (hx : x < nx) {l : List (Option (ℝ × ℝ))} (hl : s.zonePixel[y * nx + x]? = some l)
    (c : ℝ × ℝ) (t : List Char) :
    (c, t) ∈ m.drawnAt [x, y] ↔
      ∃ (k : ℕ) (w : Miller), l[k]? = some (some c) ∧ s.zoneAxes[k]? = some w ∧
        t = zoneAxisLabel w := by
  obtain ⟨-, hlen2⟩ := linesPixel_length wf h
  obtain ⟨-, -, hsh, -, -, hza, -, hzp⟩ := onDetector_ok h
  have hidx : [y, x] ∈ ndindex s.shape := by
    rw [hsh, hs, mem_ndindex]
    exact .cons hy (.cons hx .nil)
  have e := labelMarkers_drawnAt hm hidx fun h1 => by rw [hsh, hs] at h1; simp at h1
  rw [hsh, hs, ravelIndex_two] at e
  simp only [List.reverse_cons, List.reverse_nil, List.nil_append, List.cons_append] at e
  rw [e, List.getD_eq_getElem?_getD, hl, Option.getD_some]
  have hll : l.length = s.zoneAxes.length := by
    unfold PatternSimulation.zonePixel at hl
    rw [List.getElem?_zipWith, hzp, List.getElem?_map] at hl
    cases hu : a.orientations[y * nx + x]? with
    | none => rw [hu] at hl; simp at hl
    | some u =>
      rw [hu] at hl
      cases hp : s.pcs[y * nx + x]? with
      | none => rw [hp] at hl; simp at hl
      | some p =>
        rw [hp] at hl
        simp only [Option.map_some, Option.some.injEq] at hl
        rw [← hl, hza]
        simp
  simp only [List.mem_filterMap, id, exists_eq_right]
  constructor
  · intro hmem
    obtain ⟨k, hk⟩ := List.mem_iff_getElem?.1 hmem
    rw [List.getElem?_zipWith] at hk
    cases hlk : l[k]? with
    | none => rw [hlk] at hk; simp at hk
    | some o =>
      have hkl : k < s.zoneAxes.length := by
        rw [← hll]; exact (List.getElem?_eq_some_iff.1 hlk).1
      have hne : s.zoneAxes ≠ [] := by
        intro h0; rw [h0] at hkl; simp at hkl
      rw [hlk, zoneAxisLabels, if_neg hne, List.getElem?_map, List.getElem?_eq_getElem hkl] at hk
      simp only [Option.map_some, Option.some.injEq] at hk
      cases o with
      | none => simp at hk
      | some c' =>
        simp only [Option.map_some, Option.some.injEq, Prod.mk.injEq] at hk
        exact ⟨k, _, by rw [hlk, hk.1], List.getElem?_eq_getElem hkl, hk.2.symm⟩
  · rintro ⟨k, w, hk, hw, rfl⟩
    apply List.mem_of_getElem? (i := k)
    have hne : s.zoneAxes ≠ [] := by
      intro h0; rw [h0] at hw; simp at hw
    rw [List.getElem?_zipWith, hk, zoneAxisLabels, if_neg hne, List.getElem?_map, hw]
    rfl

/-! ### Projection centers -/

/-- The PC in pixels is where the gnomonic origin is. -/
theorem pcPixel_eq (s : PatternSimulation) (p : PC ℝ) (hr : s.detector.nrows ≠ 0)
    (hc : s.detector.ncols ≠ 0) (hz : p.z ≠ 0) :
    s.pcPixel p = simToPixel s.detector p (0, 0) := by
  have hr' : (s.detector.nrows : ℝ) ≠ 0 := by exact_mod_cast hr
  have hc' : (s.detector.ncols : ℝ) ≠ 0 := by exact_mod_cast hc
  have ex : s.detector.xMax p - s.detector.xMin p = s.detector.ncols / (s.detector.nrows * p.z) := by
    simp only [Detector.xMax, Detector.xMin, Detector.aspect]; field_simp; ring
  have ey : s.detector.yMax p - s.detector.yMin p = 1 / p.z := by
    simp only [Detector.yMax, Detector.yMin]; field_simp; ring
  unfold PatternSimulation.pcPixel simToPixel Detector.xScale Detector.yScale
  rw [ex, ey]
  simp only [Detector.aspect]
  refine Prod.ext ?_ ?_
  · simp only
    by_cases h1 : s.detector.ncols = 1
    · rw [if_neg (by omega), if_pos h1, h1]
      field_simp
      simp
    · have h2 : (s.detector.ncols : ℝ) - 1 ≠ 0 := by
        intro h; apply h1; exact_mod_cast (by linarith : (s.detector.ncols : ℝ) = 1)
      rw [if_pos (by omega), if_neg h1]
      field_simp
      ring
  · simp only
    by_cases h1 : s.detector.nrows = 1
    · rw [if_neg (by omega), if_pos h1]
      field_simp
      ring
    · have h2 : (s.detector.nrows : ℝ) - 1 ≠ 0 := by
        intro h; apply h1; exact_mod_cast (by linarith : (s.detector.nrows : ℝ) = 1)
      rw [if_pos (by omega), if_neg h1]
      field_simp
      ring

/-- C88: the PC drawn at position `(x, y)` is that of the pattern in row `y` and column `x`, in the
same coordinates as lines and zone axes. -/
theorem C88_pc_markers {a : SimulationArgs} (wf : a.WF) {s : PatternSimulation}
    (h : onDetector a = .ok s) {ny nx y x : ℕ} (hs : a.shape = [ny, nx]) (hy : y < ny)
    (hx : x < nx) {p : PC ℝ} (hp : a.pcOf (y * nx + x) p) (hr : a.detector.nrows ≠ 0)
    (hc : a.detector.ncols ≠ 0) (hz : p.z ≠ 0) :
    s.pcMarkers.drawnAt [x, y] = [simToPixel a.detector p (0, 0)] := by
  obtain ⟨hn, hd, hsh, -⟩ := onDetector_ok h
  rw [← hd, ← pcPixel_eq s p (by rw [hd]; exact hr) (by rw [hd]; exact hc) hz]
  unfold PatternSimulation.pcMarkers
  rw [hd, hsh]
  by_cases h1 : a.detector.nav = [1]
  · have hne : ¬ (a.detector.nav = a.shape ∧ a.shape ≠ [1]) := by
      rintro ⟨h2, h3⟩; exact h3 (h2 ▸ h1)
    rw [if_neg hne]
    rcases hp with ⟨-, hp⟩ | ⟨h2, -⟩
    · simp [MarkerData.drawnAt, PatternSimulation.pcAverage, hd, hp]
    · exact absurd h1 h2
  · have h2 := hn.resolve_left h1
    rw [if_pos ⟨h2, h2 ▸ h1⟩]
    rcases hp with ⟨h3, -⟩ | ⟨-, hp⟩
    · exact absurd h3 h1
    unfold MarkerData.drawnAt
    simp only
    have hidx : [y, x] ∈ ndindex a.shape := by
      rw [hs, mem_ndindex]
      exact .cons hy (.cons hx .nil)
    rw [lookup_map_self _ _ [x, y] (by
      rw [mem_ndindex] at hidx ⊢
      simpa using List.rel_reverse hidx)]
    simp [hs, ravelIndex_two, hp]

/-! ### Labels -/

/-- Texts of single digits, with or without sign, are not the start of each other. -/
theorem digit_prefix (a b : ℤ) (ha : -9 ≤ a ∧ a ≤ 9) (hb : -9 ≤ b ∧ b ≤ 9) (s t : List Char)
    (h : (toString a).toList ++ s = (toString b).toList ++ t) : a = b ∧ s = t := by
  have key : ∀ a ∈ Finset.Icc (-9 : ℤ) 9, ∀ b ∈ Finset.Icc (-9 : ℤ) 9,
      (toString a).toList <+: (toString b).toList → a = b := by decide +kernel
  have hab : a = b := by
    rcases List.prefix_or_prefix_of_prefix (List.prefix_append (toString a).toList s)
      (h ▸ List.prefix_append (toString b).toList t) with hp | hp
    · exact key a (Finset.mem_Icc.2 ha) b (Finset.mem_Icc.2 hb) hp
    · exact (key b (Finset.mem_Icc.2 hb) a (Finset.mem_Icc.2 ha) hp).symm
  subst hab
  exact ⟨rfl, List.append_cancel_left h⟩

/-- C88 (partial): labels of zone axes with single digit indices tell them apart. -/
theorem C88_label_partial {v w : Miller}
    (hv : (-9 ≤ v.x ∧ v.x ≤ 9) ∧ (-9 ≤ v.y ∧ v.y ≤ 9) ∧ (-9 ≤ v.z ∧ v.z ≤ 9))
    (hw : (-9 ≤ w.x ∧ w.x ≤ 9) ∧ (-9 ≤ w.y ∧ w.y ≤ 9) ∧ (-9 ≤ w.z ∧ w.z ≤ 9))
    (h : zoneAxisLabel v = zoneAxisLabel w) : v = w := by
  unfold zoneAxisLabel at h
  rw [List.append_assoc, List.append_assoc] at h
  obtain ⟨h1, h⟩ := digit_prefix _ _ hv.1 hw.1 _ _ h
  obtain ⟨h2, h⟩ := digit_prefix _ _ hv.2.1 hw.2.1 _ _ h
  have h3 := digit_prefix _ _ hv.2.2 hw.2.2 [] [] (by simpa using h)
  ext
  · exact h1
  · exact h2
  · exact h3.1

example : zoneAxisLabel ⟨1, -1, 0⟩ = "1-10".toList := by decide +kernel

/-- C88 is false: different zone axes have the same label. -/
theorem C88_label_violated : zoneAxisLabel ⟨11, 1, 0⟩ = zoneAxisLabel ⟨1, 11, 0⟩ := by
  decide +kernel

/-! ### Plots -/

/-- C88 is false: plotting a pattern without zone axes is an error, for every simulation of a single
reflector. -/
theorem C88_plot_violated {a : SimulationArgs} {s : PatternSimulation} (h : onDetector a = .ok s)
    {v : Miller} (hv : a.reflectors = [v]) (i : ℕ) : s.plot i = .error .indexError := by
  obtain ⟨-, -, -, hpc, hr, hza, -, hzp⟩ := onDetector_ok h
  have h0 : a.visibleZoneAxes = [] := by
    unfold SimulationArgs.visibleZoneAxes SimulationArgs.allZoneAxes SimulationArgs.visibleReflectors
    rw [hv]
    have hc : v.cross v = ⟨0, 0, 0⟩ := by
      ext <;> simp only [V3.cross] <;> ring
    by_cases hvis : (a.orientations.any fun u => decide (0 < (a.normal v u).z)) = true
    · simp [List.filter_cons, hvis, hc]
    · simp [List.filter_cons, hvis]
  have hz : s.zonePixel.getD i [] = [] := by
    unfold PatternSimulation.zonePixel
    rw [hzp, h0, List.getD_eq_getElem?_getD, List.getElem?_zipWith, List.getElem?_map]
    cases a.orientations[i]? <;> cases s.pcs[i]? <;> simp
  unfold PatternSimulation.plot
  rw [List.getD_eq_getElem?_getD] at hz
  simp [hz]

/-- C88 (partial): with a single PC, a plot shows the PC, lines and zone axes of its pattern. -/
theorem C88_plot_partial {a : SimulationArgs} {s : PatternSimulation} (h : onDetector a = .ok s)
    {p : PC ℝ} (hp : a.detector.pc = [p]) (hr : a.detector.nrows ≠ 0) (hc : a.detector.ncols ≠ 0)
    (hz : p.z ≠ 0) (i : ℕ) {f : PatternSimulation.SimulationPlot} (hf : s.plot i = .ok f) :
    f.pc = simToPixel a.detector p (0, 0) ∧ f.lines = s.linesCoordinates i ∧
      f.zoneAxes = s.zoneAxesCoordinates i := by
  obtain ⟨-, hd, -⟩ := onDetector_ok h
  unfold PatternSimulation.plot at hf
  simp only at hf
  split_ifs at hf
  obtain rfl := Except.ok.inj hf
  refine ⟨?_, rfl, rfl⟩
  rw [← hd, ← pcPixel_eq s p (by rw [hd]; exact hr) (by rw [hd]; exact hc) hz]
  simp [PatternSimulation.pcAverage, hd, hp]

/-- C88 (partial): with several PCs, a plot shows their mean. -/
theorem C88_plot_mean_partial {a : SimulationArgs} {s : PatternSimulation} (h : onDetector a = .ok s)
    (hp : a.detector.pc ≠ []) (i : ℕ) {f : PatternSimulation.SimulationPlot} (hf : s.plot i = .ok f) :
    (a.detector.pc.length : ℝ) * f.pc.1 = (a.detector.pc.map fun p => (s.pcPixel p).1).sum ∧
      (a.detector.pc.length : ℝ) * f.pc.2 = (a.detector.pc.map fun p => (s.pcPixel p).2).sum := by
  obtain ⟨-, hd, -⟩ := onDetector_ok h
  unfold PatternSimulation.plot at hf
  simp only at hf
  split_ifs at hf
  obtain rfl := Except.ok.inj hf
  have hn : (a.detector.pc.length : ℝ) ≠ 0 := by
    simpa [List.length_eq_zero_iff] using hp
  have hm : ∀ (g : PC ℝ → ℝ) (k : ℝ) (l : List (PC ℝ)),
      (l.map fun p => g p * k).sum = (l.map g).sum * k := by
    intro g k l
    induction l with
    | nil => simp
    | cons p l ih => simp only [List.map_cons, List.sum_cons, ih]; ring
  constructor
  · simp only [PatternSimulation.pcPixel, PatternSimulation.pcAverage, hd, hm PC.x]
    field_simp
  · simp only [PatternSimulation.pcPixel, PatternSimulation.pcAverage, hd, hm PC.y]
    field_simp

/-! ### Examples -/

/-- The identity and a quarter turn about y. -/
def exampleTurns : List M3 :=
  [⟨⟨1, 0, 0⟩, ⟨0, 1, 0⟩, ⟨0, 0, 1⟩⟩, ⟨⟨0, 0, 1⟩, ⟨0, 1, 0⟩, ⟨-1, 0, 0⟩⟩]

/-- Two patterns of a cubic crystal. -/
def exampleSimulationArgs (nav : List ℕ) (pc : List (PC ℝ)) : SimulationArgs where
  detector := ⟨61, 61, 1, 1, 0, 0, 0, 70, nav, pc⟩
  base := ⟨⟨1, 0, 0⟩, ⟨0, 1, 0⟩, ⟨0, 0, 1⟩⟩
  recbase := ⟨⟨1, 0, 0⟩, ⟨0, 1, 0⟩, ⟨0, 0, 1⟩⟩
  reduce := id
  reflectors := [⟨-5, 1, 6⟩, ⟨-5, 0, 6⟩]
  shape := [2]
  orientations := exampleTurns

/-- The PC of the example. -/
def examplePc : PC ℝ := ⟨1 / 2, 1 / 2, 1 / 2⟩

example : (exampleSimulationArgs [1] [examplePc]).WF :=
  ⟨.inl ⟨2, rfl, rfl⟩, fun _ => rfl, fun h => absurd rfl h⟩

example : ∀ u ∈ exampleTurns, KeepsDot u := by
  intro u hu
  rcases (by simpa [exampleTurns] using hu : u = _ ∨ u = _) with rfl | rfl <;> intro a b <;>
    simp only [M3.vecMul, V3.dot] <;> ring

/-- C88 is false: gnomonic coordinates of zone axes outside the detector are given, and pixel
coordinates are not. -/
theorem C88_zone_axes_formats_violated : ∃ (a : SimulationArgs) (s : PatternSimulation) (p : PC ℝ),
    a.WF ∧ onDetector a = .ok s ∧ a.pcOf 0 p ∧ ∃ g ∈ s.zoneAxesGnomonic 0,
      simToPixel a.detector p g ∉ s.zoneAxesCoordinates 0 := by
  set a := exampleSimulationArgs [1] [examplePc] with ha
  have wf : a.WF := ⟨.inl ⟨2, rfl, rfl⟩, fun _ => rfl, fun h => absurd rfl h⟩
  obtain ⟨s, hs, -⟩ := (C88_shapes a).2 (.inl rfl)
  have hp0 : a.pcOf 0 examplePc := .inl ⟨rfl, rfl⟩
  have hp1 : a.pcOf 1 examplePc := .inl ⟨rfl, rfl⟩
  have hu0 : a.orientations[0]? = some ⟨⟨1, 0, 0⟩, ⟨0, 1, 0⟩, ⟨0, 0, 1⟩⟩ := rfl
  have hu1 : a.orientations[1]? = some ⟨⟨0, 0, 1⟩, ⟨0, 1, 0⟩, ⟨-1, 0, 0⟩⟩ := rfl
  have hxmin : a.detector.xMin examplePc = -1 := by
    simp [ha, exampleSimulationArgs, examplePc, Detector.xMin, Detector.aspect]
  have hxmax : a.detector.xMax examplePc = 1 := by
    simp [ha, exampleSimulationArgs, examplePc, Detector.xMax, Detector.aspect]; norm_num
  have hymin : a.detector.yMin examplePc = -1 := by
    simp [ha, exampleSimulationArgs, examplePc, Detector.yMin]; norm_num
  have hymax : a.detector.yMax examplePc = 1 := by
    simp [ha, exampleSimulationArgs, examplePc, Detector.yMax]
  have hxs : a.detector.xScale examplePc = 1 / 30 := by
    unfold Detector.xScale
    rw [hxmin, hxmax]
    simp [ha, exampleSimulationArgs]; norm_num
  have hys : a.detector.yScale examplePc = 1 / 30 := by
    unfold Detector.yScale
    rw [hymin, hymax]
    simp [ha, exampleSimulationArgs]; norm_num
  have hrm : a.detector.rMax examplePc = Real.sqrt 2 := by
    unfold Detector.rMax Detector.rMaxSq
    rw [hxmin, hxmax, hymin, hymax]
    norm_num
  have hv1 : (⟨-5, 1, 6⟩ : Miller) ∈ s.reflectors := by
    rw [C88_reflectors_kept hs]
    refine ⟨by simp [ha, exampleSimulationArgs], _, List.mem_of_getElem? hu0, ?_⟩
    simp [ha, exampleSimulationArgs, SimulationArgs.normal, M3.vecMul, M3.matMul, Miller.real]
  have hv2 : (⟨-5, 0, 6⟩ : Miller) ∈ s.reflectors := by
    rw [C88_reflectors_kept hs]
    refine ⟨by simp [ha, exampleSimulationArgs], _, List.mem_of_getElem? hu0, ?_⟩
    simp [ha, exampleSimulationArgs, SimulationArgs.normal, M3.vecMul, M3.matMul, Miller.real]
  have hcross : (⟨-5, 1, 6⟩ : Miller).cross ⟨-5, 0, 6⟩ = ⟨6, 0, 5⟩ := by decide
  have hred : a.reduce ⟨6, 0, 5⟩ = ⟨6, 0, 5⟩ := rfl
  have hd1 : (⟨-5, 0, 6⟩ : V3 ℝ) = a.direction ⟨6, 0, 5⟩
      ⟨⟨0, 0, 1⟩, ⟨0, 1, 0⟩, ⟨-1, 0, 0⟩⟩ := by
    ext <;> simp [ha, exampleSimulationArgs, SimulationArgs.direction, M3.vecMul, M3.matMul,
      Miller.real]
  have hd0 : a.direction ⟨6, 0, 5⟩ ⟨⟨1, 0, 0⟩, ⟨0, 1, 0⟩, ⟨0, 0, 1⟩⟩ = (⟨6, 0, 5⟩ : V3 ℝ) := by
    ext <;> simp [ha, exampleSimulationArgs, SimulationArgs.direction, M3.vecMul, M3.matMul,
      Miller.real]
  obtain ⟨k, l, hk, -, -⟩ := C88_zone_axes_shown_partial wf hs hv1 hv2 (by rw [hcross]; decide) hu1
    hp1 (t := ⟨-5, 0, 6⟩) (by rw [hcross, hred]; exact hd1) (by norm_num)
    (by
      unfold withinBounds
      rw [hxmin, hxmax, hymin, hymax, hxs, hys]
      norm_num)
    (by
      rw [hrm]
      apply Real.sqrt_lt_sqrt (by positivity)
      norm_num)
  rw [hcross, hred] at hk
  have hpt : zonePoint a.maxR (a.direction ⟨6, 0, 5⟩ ⟨⟨1, 0, 0⟩, ⟨0, 1, 0⟩, ⟨0, 0, 1⟩⟩) =
      some (6 / 5, 0) := by
    rw [zonePoint_eq_some, hd0]
    refine ⟨by norm_num, by norm_num, by norm_num, ?_⟩
    refine lt_of_lt_of_le ?_ (rMax_le_maxR a hp0)
    rw [hrm]
    apply Real.sqrt_lt_sqrt (by positivity)
    norm_num
  refine ⟨a, s, examplePc, wf, hs, hp0, (6 / 5, 0), ?_, ?_⟩
  · obtain ⟨-, -, -, -, -, hza, -, hzp⟩ := onDetector_ok hs
    unfold PatternSimulation.zoneAxesGnomonic
    rw [List.getD_eq_getElem?_getD, hzp, List.getElem?_map, hu0]
    simp only [Option.map_some, Option.getD_some, List.mem_filterMap, id, exists_eq_right]
    rw [hza] at hk
    exact List.mem_map.2 ⟨_, List.mem_of_getElem? hk, hpt⟩
  · rw [C88_pixel_partial wf hs hu0 hp0]
    rintro ⟨g, -, hb, hg⟩
    unfold withinBounds at hb
    rw [hxmin, hxmax, hymin, hymax, hxs, hys] at hb
    unfold simToPixel at hg
    rw [hxs, hys] at hg
    have := congrArg Prod.fst hg
    simp only at this
    have h2 := hb.2.1
    linarith

/-- C88 is false: the PC in a plot of a pattern is not that of the pattern if PCs vary. -/
theorem C88_plot_pc_violated : ∃ (a : SimulationArgs) (s : PatternSimulation) (p : PC ℝ),
    a.WF ∧ onDetector a = .ok s ∧ a.pcOf 0 p ∧
      s.pcPixel s.pcAverage ≠ simToPixel a.detector p (0, 0) := by
  set a := exampleSimulationArgs [2] [examplePc, ⟨1 / 4, 1 / 2, 1 / 2⟩] with ha
  have wf : a.WF := ⟨.inl ⟨2, rfl, rfl⟩, fun h => by simp [ha, exampleSimulationArgs] at h,
    fun _ _ => rfl⟩
  obtain ⟨s, hs, -⟩ := (C88_shapes a).2 (.inr rfl)
  obtain ⟨-, hd, -⟩ := onDetector_ok hs
  refine ⟨a, s, examplePc, wf, hs, .inr ⟨by simp [ha, exampleSimulationArgs], rfl⟩, ?_⟩
  rw [← hd, ← pcPixel_eq s examplePc (by rw [hd]; simp [ha, exampleSimulationArgs])
    (by rw [hd]; simp [ha, exampleSimulationArgs]) (by simp [examplePc])]
  intro h
  have := congrArg Prod.fst h
  simp only [PatternSimulation.pcPixel, PatternSimulation.pcAverage, hd, ha, exampleSimulationArgs,
    examplePc] at this
  norm_num at this

end
end Kp
