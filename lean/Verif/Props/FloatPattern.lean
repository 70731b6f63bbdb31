import Verif.Lemmas.FloatPattern
import Verif.Lemmas.FloatRescale
import Verif.Props.FloatRescale

/-!
# C160: in floating point arithmetic a whole simulated pattern is right, also when rescaled

The smallest and largest intensities of the computed pattern may be at other pixels than those of the
exact pattern.
-/

namespace Kp
open Spec

/-- The smallest and largest values of two lists with values near each other. -/
theorem range_near {a x : List ℝ} {lo hi E : ℝ} (h : List.Forall₂ (fun b y => |b - y| ≤ E) a x)
    (hr : IsRangeOf lo hi x) : |listMin a - lo| ≤ E ∧ |listMax a - hi| ≤ E := by
  obtain ⟨⟨l1, l2⟩, h1, h2⟩ := hr
  have ne : a ≠ [] := by
    rintro rfl
    cases h
    exact absurd l1 (by simp)
  have left : ∀ b ∈ a, ∃ y ∈ x, |b - y| ≤ E := by
    clear l1 l2 h1 h2 ne
    induction h with
    | nil => simp
    | cons hb _ ih =>
      intro b hm
      rcases List.mem_cons.mp hm with rfl | hm
      · exact ⟨_, List.mem_cons_self, hb⟩
      · obtain ⟨y, hy, e⟩ := ih b hm
        exact ⟨y, List.mem_cons_of_mem _ hy, e⟩
  have right : ∀ y ∈ x, ∃ b ∈ a, |b - y| ≤ E := by
    clear l1 l2 h1 h2 ne left
    induction h with
    | nil => simp
    | cons hb _ ih =>
      intro b hm
      rcases List.mem_cons.mp hm with rfl | hm
      · exact ⟨_, List.mem_cons_self, hb⟩
      · obtain ⟨y, hy, e⟩ := ih b hm
        exact ⟨y, List.mem_cons_of_mem _ hy, e⟩
  constructor
  · obtain ⟨y, hy, e⟩ := left _ (listMin_mem ne)
    obtain ⟨b, hb, e'⟩ := right lo l1
    have t1 : lo ≤ y := l2 hy
    have t2 := listMin_le b hb
    rw [abs_le] at e e' ⊢
    constructor <;> linarith
  · obtain ⟨y, hy, e⟩ := left _ (listMax_mem ne)
    obtain ⟨b, hb, e'⟩ := right hi h1
    have t1 : y ≤ hi := h2 hy
    have t2 := le_listMax b hb
    rw [abs_le] at e e' ⊢
    constructor <;> linarith

/-- A pattern with errors of at most `E`, which is at most an eighth of the range of the exact pattern,
is rescaled as the exact pattern up to `6 E` relative to this range, and rounding errors: whatever way
the compiler chooses to evaluate it. -/
theorem C160_rescaled {F : Formats ℝ} (hF : DoubleOperations F) (e : Evaluation) {a x : List ℝ}
    {lo hi omin omax E : ℝ} (h : List.Forall₂ (fun b y => |b - y| ≤ E) a x) (hr : IsRangeOf lo hi x)
    (hE : E ≤ (hi - lo) / 8) (hlow : 1 / 2 ^ 29 ≤ hi - lo) (hhigh : hi - lo ≤ 2 ^ 59)
    (hw : OrdinarySize (omax - omin)) :
    List.Forall₂ (fun b y => |b - rescaledTo lo hi omin omax y| ≤
        6 * E / (hi - lo) * (omax - omin) + 1 / 2 ^ 48 * ((omax - omin) + |omin|))
      (a.map (rescalePixelFl F e (listMin a) (listMax a) omin omax)) x := by
  obtain ⟨n1, n2⟩ := range_near h hr
  have n1' := abs_le.mp n1
  have n2' := abs_le.mp n2
  norm_num at hlow hhigh
  have hsz : OrdinarySize (listMax a - listMin a) := by
    unfold OrdinarySize
    norm_num
    constructor <;> linarith
  have w0 : omin ≤ omax := by
    have := hw.1
    norm_num at this
    linarith
  rw [List.forall₂_map_left_iff]
  have hmem : ∀ b ∈ a, listMin a ≤ b ∧ b ≤ listMax a := fun b hb => ⟨listMin_le b hb, le_listMax b hb⟩
  have hmem' : ∀ y ∈ x, lo ≤ y ∧ y ≤ hi := fun y hy => ⟨hr.1.2 hy, hr.2.2 hy⟩
  generalize listMin a = m at *
  generalize listMax a = M at *
  clear hr
  induction h with
  | nil => exact .nil
  | @cons b y _ _ hb _ ih =>
    refine .cons ?_ (ih (fun y hy => hmem' y (List.mem_cons_of_mem _ hy))
      fun b hb => hmem b (List.mem_cons_of_mem _ hb))
    obtain ⟨b0, b1⟩ := hmem b List.mem_cons_self
    obtain ⟨y0, y1⟩ := hmem' y List.mem_cons_self
    have t1 := rescalePixelFl_double hF e hsz hw b0 b1
    have t2 := rescaledTo_near (omin := omin) (omax := omax) n1 n2 hb hE (by linarith) y0 y1 w0
    rw [abs_le] at t1 t2 ⊢
    constructor <;> linarith

theorem truncate_within_one (x : ℝ) : |truncate x - x| ≤ 1 := by
  unfold truncate
  split_ifs
  · have h1 := Int.floor_le x
    have h2 := Int.lt_floor_add_one x
    rw [abs_le]
    constructor <;> linarith
  · have h1 := Int.le_ceil x
    have h2 := Int.ceil_lt_add_one x
    rw [abs_le]
    constructor <;> linarith

/-- All pixels of a simulated pattern before rescaling. -/
theorem pixels_near {o : PixelOrders} (ho : AddsEveryPixelOnce o.sum) {atan : ℝ → ℝ}
    (hatan : AccurateArctan atan) (fused recip : Bool) {q : Quat} {dcs us : List (V3 ℝ)} {η : ℝ}
    (hd : List.Forall₂ (fun dc u => u.x ^ 2 + u.y ^ 2 + u.z ^ 2 = 1 ∧ FloatDirection (rotateVectorFl q dc) ∧
      ComponentsWithin η (rotateVectorFl q dc) u) dcs us)
    (hη : η ≤ 1 / 2 ^ 21) {n : ℕ} (hn : 0 < n) (hn31 : n < 2 ^ 31) {M D : ℝ} (hM : 1 ≤ M) (hD : 0 ≤ D)
    {upper lower : Img ℝ} (hup : SmoothImage n M D upper) (hlo : SmoothImage n M D lower)
    (hb : BordersMeet n upper lower) :
    ∃ a, (dcs.mapM fun dc => projectPixelFl o atan fused recip q upper lower n n (((n : ℝ) - 1) / 2) dc) =
        some a ∧
      List.Forall₂ (fun b y => |b - y| ≤
        13 * D * (3 * n * Real.sqrt (η + 1 / 2 ^ 46) + 1 / 2 ^ 19) + M / 2 ^ 40) a
        (us.map (exactIntensity n upper lower)) := by
  induction hd with
  | nil => exact ⟨[], rfl, .nil⟩
  | @cons dc u _ _ hdc _ ih =>
    obtain ⟨h1, h2, h3⟩ := hdc
    obtain ⟨b, eb, hb'⟩ := C159_intensity ho hatan fused recip h1 h2 h3 hη hn hn31 hM hD hup hlo hb
    obtain ⟨a, ea, ha⟩ := ih
    refine ⟨b :: a, ?_, ?_⟩
    · rw [List.mapM_cons, eb, ea]
      rfl
    · exact .cons hb' ha

/-- Conversion to the data type of a pattern. -/
theorem castFl_near {F : Formats ℝ} (t : MetricType) (hout : ∀ x, F.out.fl x = t.fl x) (dtype : DType) (c : ℝ) :
    match dtype with
    | .float _ | .other => |castFl F dtype c - c| ≤ unitRoundoff t * |c| + 1 / 2 ^ 100
    | .uint _ | .int _ => (∃ k : ℤ, castFl F dtype c = k) ∧ |castFl F dtype c - c| ≤ 1 := by
  cases dtype with
  | float _ => simp only [castFl, hout]; exact metric_fl_error t c
  | other => simp only [castFl, hout]; exact metric_fl_error t c
  | uint _ =>
    refine ⟨?_, truncate_within_one c⟩
    simp only [castFl]
    unfold truncate
    split_ifs
    · exact ⟨_, rfl⟩
    · exact ⟨_, rfl⟩
  | int _ =>
    refine ⟨?_, truncate_within_one c⟩
    simp only [castFl]
    unfold truncate
    split_ifs
    · exact ⟨_, rfl⟩
    · exact ⟨_, rfl⟩

/-- A whole rescaled pattern: every pixel is that of the exact pattern (intensities of exact directions,
rescaled exactly), up to errors of intensities relative to the range of the pattern, and up to rounding
to the floating point type or one grey level of the integer type of the pattern. -/
theorem C160_pattern {F : Formats ℝ} (hF : DoubleOperations F) (t : MetricType) (hout : ∀ x, F.out.fl x = t.fl x)
    (e : Evaluation) {o : PixelOrders} (ho : AddsEveryPixelOnce o.sum) {atan : ℝ → ℝ}
    (hatan : AccurateArctan atan) (fused recip : Bool) {q : Quat} {dcs us : List (V3 ℝ)} {η : ℝ}
    (hd : List.Forall₂ (fun dc u => u.x ^ 2 + u.y ^ 2 + u.z ^ 2 = 1 ∧ FloatDirection (rotateVectorFl q dc) ∧
      ComponentsWithin η (rotateVectorFl q dc) u) dcs us)
    (hη : η ≤ 1 / 2 ^ 21) {n : ℕ} (hn : 0 < n) (hn31 : n < 2 ^ 31) {M D : ℝ} (hM : 1 ≤ M) (hD : 0 ≤ D)
    {upper lower : Img ℝ} (hup : SmoothImage n M D upper) (hlo : SmoothImage n M D lower)
    (hb : BordersMeet n upper lower) {lo hi omin omax E : ℝ}
    (hr : IsRangeOf lo hi (us.map (exactIntensity n upper lower)))
    (hEd : 13 * D * (3 * n * Real.sqrt (η + 1 / 2 ^ 46) + 1 / 2 ^ 19) + M / 2 ^ 40 ≤ E)
    (hE : E ≤ (hi - lo) / 8) (hlow : 1 / 2 ^ 29 ≤ hi - lo) (hhigh : hi - lo ≤ 2 ^ 59)
    (hw : OrdinarySize (omax - omin)) (dtype : DType) :
    ∃ out, projectPatternFl F e o atan fused recip q dcs upper lower n n (((n : ℝ) - 1) / 2) true omin omax
        dtype = some out ∧
      List.Forall₂ (fun b u =>
        ∃ c, |c - rescaledTo lo hi omin omax (exactIntensity n upper lower u)| ≤
            6 * E / (hi - lo) * (omax - omin) + 1 / 2 ^ 48 * ((omax - omin) + |omin|) ∧
          match dtype with
          | .float _ | .other => |b - c| ≤ unitRoundoff t * |c| + 1 / 2 ^ 100
          | .uint _ | .int _ => (∃ k : ℤ, b = k) ∧ |b - c| ≤ 1) out us := by
  obtain ⟨a, ea, ha⟩ := pixels_near ho hatan fused recip hd hη hn hn31 hM hD hup hlo hb
  replace ha := ha.imp fun _ _ h => h.trans hEd
  have h2 := C160_rescaled hF e ha hr hE hlow hhigh hw
  refine ⟨_, by unfold projectPatternFl; rw [ea]; rfl, ?_⟩
  simp only [if_true]
  rw [List.forall₂_map_left_iff]
  rw [List.forall₂_map_right_iff] at h2
  refine h2.imp fun c u hc => ⟨c, hc, ?_⟩
  have := castFl_near t hout dtype c
  cases dtype <;> exact this

/-- A whole pattern which is not rescaled: every pixel is the intensity of the exact direction up to the
error of C159, and up to rounding to the floating point type or one grey level of the integer type. -/
theorem C160_not_rescaled {F : Formats ℝ} (t : MetricType) (hout : ∀ x, F.out.fl x = t.fl x)
    (e : Evaluation) {o : PixelOrders} (ho : AddsEveryPixelOnce o.sum) {atan : ℝ → ℝ}
    (hatan : AccurateArctan atan) (fused recip : Bool) {q : Quat} {dcs us : List (V3 ℝ)} {η : ℝ}
    (hd : List.Forall₂ (fun dc u => u.x ^ 2 + u.y ^ 2 + u.z ^ 2 = 1 ∧ FloatDirection (rotateVectorFl q dc) ∧
      ComponentsWithin η (rotateVectorFl q dc) u) dcs us)
    (hη : η ≤ 1 / 2 ^ 21) {n : ℕ} (hn : 0 < n) (hn31 : n < 2 ^ 31) {M D : ℝ} (hM : 1 ≤ M) (hD : 0 ≤ D)
    {upper lower : Img ℝ} (hup : SmoothImage n M D upper) (hlo : SmoothImage n M D lower)
    (hb : BordersMeet n upper lower) (omin omax : ℝ) (dtype : DType) :
    ∃ out, projectPatternFl F e o atan fused recip q dcs upper lower n n (((n : ℝ) - 1) / 2) false omin omax
        dtype = some out ∧
      List.Forall₂ (fun b u =>
        ∃ c, |c - exactIntensity n upper lower u| ≤
            13 * D * (3 * n * Real.sqrt (η + 1 / 2 ^ 46) + 1 / 2 ^ 19) + M / 2 ^ 40 ∧
          match dtype with
          | .float _ | .other => |b - c| ≤ unitRoundoff t * |c| + 1 / 2 ^ 100
          | .uint _ | .int _ => (∃ k : ℤ, b = k) ∧ |b - c| ≤ 1) out us := by
  obtain ⟨a, ea, ha⟩ := pixels_near ho hatan fused recip hd hη hn hn31 hM hD hup hlo hb
  refine ⟨_, by unfold projectPatternFl; rw [ea]; rfl, ?_⟩
  simp only [Bool.false_eq_true, if_false]
  rw [List.forall₂_map_left_iff]
  rw [List.forall₂_map_right_iff] at ha
  refine ha.imp fun c u hc => ⟨c, hc, ?_⟩
  have := castFl_near t hout dtype c
  cases dtype <;> exact this

/-- Intensities before rescaling are 64-bit floating point numbers. -/
theorem projectPixelFl_float {o : PixelOrders} {atan : ℝ → ℝ} {fused recip : Bool} {q : Quat} {upper lower : Img ℝ}
    {npx npy : ℤ} {scale : ℝ} {dc : V3 ℝ} {x : ℝ}
    (h : projectPixelFl o atan fused recip q upper lower npx npy scale dc = some x) : fl64 x = x := by
  have key : ∀ (s : SumOrder (Fin 4)) (a b : Fin 4 → ℝ), fl64 (s.eval fl64 a b) = s.eval fl64 a b := by
    intro s a b
    cases s <;> exact fl64_idem _
  unfold projectPixelFl at h
  cases e : lambertInterpFl atan fused recip (rotateVectorFl q dc) npx npy scale with
  | none => simp [e] at h
  | some p =>
    simp only [e, Option.bind_eq_bind, Option.bind_some, Option.some.injEq] at h
    rw [← h]
    split_ifs <;> exact key _ _ _

theorem all_of_mapM {α β : Type} {f : α → Option β} {P : β → Prop} (hf : ∀ a b, f a = some b → P b) :
    ∀ {l : List α} {r : List β}, l.mapM f = some r → ∀ b ∈ r, P b := by
  intro l
  induction l with
  | nil =>
    intro r h b hb
    simp only [List.mapM_nil, Option.pure_def, Option.some.injEq] at h
    rw [← h] at hb
    exact absurd hb List.not_mem_nil
  | cons a l ih =>
    intro r h b hb
    rw [List.mapM_cons] at h
    cases ea : f a with
    | none => simp [ea] at h
    | some a' =>
      cases el : l.mapM f with
      | none => simp [ea, el] at h
      | some r' =>
        simp only [ea, el, Option.bind_eq_bind, Option.bind_some, Option.pure_def, Option.some.injEq] at h
        rw [← h] at hb
        rcases List.mem_cons.mp hb with rfl | hb
        · exact hf _ _ ea
        · exact ih el b hb

/-- A rescaled pattern is in the output range, reaches its lower limit, and has the order of intensities of
the pattern which is not rescaled, for all directions, orientations and master patterns; if the quotient
is computed by a division, it reaches the upper limit too and is nowhere above it. -/
theorem C160_range {F : Formats ℝ} (hF : DoubleOperations F) (e : Evaluation) {o : PixelOrders} {atan : ℝ → ℝ}
    {fused recip : Bool} {q : Quat} {dcs : List (V3 ℝ)} {upper lower : Img ℝ} {npx npy : ℤ} {scale : ℝ}
    {raw : List ℝ} (hraw : (dcs.mapM fun dc => projectPixelFl o atan fused recip q upper lower npx npy scale dc) = some raw)
    {x y : ℝ} (hx : x ∈ raw) (hy : y ∈ raw) (hxy : x ≠ y) {omin omax : ℝ} (ho : omin ≤ omax)
    (h1 : fl64 omin = omin) (h2 : fl64 omax = omax) (h3 : fl64 (omax - omin) = omax - omin) (dtype : DType)
    (h4 : castFl F dtype omin = omin) (h5 : castFl F dtype omax = omax) :
    ∃ out, projectPatternFl F e o atan fused recip q dcs upper lower npx npy scale true omin omax dtype = some out ∧
      omin ∈ out ∧ (∀ z ∈ out, omin ≤ z) ∧ OrderKept raw out ∧
      (e = .written ∨ e = .fused → FillsRange omin omax out) := by
  have hall : ∀ z ∈ raw, fl64 z = z := all_of_mapM (fun _ _ h => projectPixelFl_float h) hraw
  have hne : raw ≠ [] := List.ne_nil_of_mem hx
  have hL : LimitsInFormat F ((some dtype).getD dtype) (listMin raw) (listMax raw) omin omax :=
    ⟨by rw [hF.sub]; exact hall _ (listMin_mem hne), by rw [hF.sub]; exact hall _ (listMax_mem hne),
      by rw [hF.add, h1], by rw [hF.add, h2], by rw [hF.mul, h3], h4, h5⟩
  obtain ⟨out, e1, a1, a2, a3⟩ := C104_order F e raw dtype (some dtype) omin omax x y hx hy hxy ho hL
  have ho' : projectPatternFl F e o atan fused recip q dcs upper lower npx npy scale true omin omax dtype =
      some out := by
    unfold projectPatternFl
    rw [hraw]
    simp only [rescaleIntensityFl, Option.getD_some, Except.ok.injEq] at e1
    rw [← e1]
    rfl
  refine ⟨out, ho', a1, a2, a3, fun he => ?_⟩
  obtain ⟨out', e2, b1, -⟩ := C104_own_range_partial F e he raw dtype (some dtype) omin omax x y hx hy hxy ho hL
  rw [e1] at e2
  cases e2
  exact b1

variable {d : Detector ℝ} {p : PC ℝ}

/-- The directions of a list of pixels of a detector. -/
theorem directions_near (h : OrdinaryScreen d.nrows d.ncols p) {om R : Fin 3 → Fin 3 → ℝ}
    (hom : RoundedRotation om R) (o : DirectionOrders) (hdot : ∀ i, AddsEveryPixelOnce (o.dot i))
    (hnorm : AddsEveryPixelOnce o.norm) {q q0 : Quat}
    (hq0 : q0.a ^ 2 + q0.b ^ 2 + q0.c ^ 2 + q0.d ^ 2 = 1) (hq : QuatWithin (1 / 2 ^ 45) q q0)
    {px : List (ℕ × ℕ)} (hpx : ∀ rc ∈ px, rc.1 < d.nrows ∧ rc.2 < d.ncols) :
    ∃ ws, (px.mapM fun rc => d.pixelDirectionFl o p om rc.1 rc.2) = some ws ∧
      List.Forall₂ (fun dc u => u.x ^ 2 + u.y ^ 2 + u.z ^ 2 = 1 ∧ FloatDirection (rotateVectorFl q dc) ∧
        ComponentsWithin (1 / 2 ^ 37 * (1 + screenAngle d.nrows d.ncols p)) (rotateVectorFl q dc) u)
        (ws.map fun w => ⟨w 0, w 1, w 2⟩) (px.map fun rc => exactDirection d.nrows d.ncols p R q0 rc.1 rc.2) := by
  induction px with
  | nil => exact ⟨[], rfl, .nil⟩
  | cons rc px ih =>
    obtain ⟨ws, ew, hw⟩ := ih fun x hx => hpx x (List.mem_cons_of_mem _ hx)
    obtain ⟨r0, c0⟩ := hpx rc List.mem_cons_self
    obtain ⟨w, e, h1, h2, h3, -⟩ := simulated_direction h hom o hdot hnorm rc.1 rc.2 r0 c0 hq0 hq
    refine ⟨w :: ws, ?_, .cons ⟨h3, h1, h2⟩ hw⟩
    rw [List.mapM_cons, e, ew]
    rfl

/-- From a detector to a rescaled pattern: for every list of pixels of the screen (all of them, or those
of a mask) and every orientation, the error `E` of an intensity is that of C159. -/
theorem C160_detector (h : OrdinaryScreen d.nrows d.ncols p) {om R : Fin 3 → Fin 3 → ℝ}
    (hom : RoundedRotation om R) (o : DirectionOrders) (hdot : ∀ i, AddsEveryPixelOnce (o.dot i))
    (hnorm : AddsEveryPixelOnce o.norm) {q q0 : Quat}
    (hq0 : q0.a ^ 2 + q0.b ^ 2 + q0.c ^ 2 + q0.d ^ 2 = 1) (hq : QuatWithin (1 / 2 ^ 45) q q0)
    {px : List (ℕ × ℕ)} (hpx : ∀ rc ∈ px, rc.1 < d.nrows ∧ rc.2 < d.ncols)
    {F : Formats ℝ} (hF : DoubleOperations F) (t : MetricType) (hout : ∀ x, F.out.fl x = t.fl x)
    (e : Evaluation) {po : PixelOrders} (hpo : AddsEveryPixelOnce po.sum) {atan : ℝ → ℝ}
    (hatan : AccurateArctan atan) (fused recip : Bool) {n : ℕ} (hn : 0 < n) (hn31 : n < 2 ^ 31) {M D : ℝ}
    (hM : 1 ≤ M) (hD : 0 ≤ D) {upper lower : Img ℝ} (hup : SmoothImage n M D upper)
    (hlo : SmoothImage n M D lower) (hb : BordersMeet n upper lower) {lo hi omin omax E : ℝ}
    (hr : IsRangeOf lo hi (px.map fun rc =>
      exactIntensity n upper lower (exactDirection d.nrows d.ncols p R q0 rc.1 rc.2)))
    (hEd : E = 13 * D * (n / 2 ^ 16 * Real.sqrt (1 + screenAngle d.nrows d.ncols p) + 1 / 2 ^ 19) + M / 2 ^ 40)
    (hE : E ≤ (hi - lo) / 8) (hlow : 1 / 2 ^ 29 ≤ hi - lo) (hhigh : hi - lo ≤ 2 ^ 59)
    (hw : OrdinarySize (omax - omin)) (dtype : DType) :
    ∃ ws, (px.mapM fun rc => d.pixelDirectionFl o p om rc.1 rc.2) = some ws ∧
      ∃ out, projectPatternFl F e po atan fused recip q (ws.map fun w => ⟨w 0, w 1, w 2⟩) upper lower n n
          (((n : ℝ) - 1) / 2) true omin omax dtype = some out ∧
        List.Forall₂ (fun b rc =>
          ∃ c, |c - rescaledTo lo hi omin omax (exactIntensity n upper lower
              (exactDirection d.nrows d.ncols p R q0 rc.1 rc.2))| ≤
              6 * E / (hi - lo) * (omax - omin) + 1 / 2 ^ 48 * ((omax - omin) + |omin|) ∧
            match dtype with
            | .float _ | .other => |b - c| ≤ unitRoundoff t * |c| + 1 / 2 ^ 100
            | .uint _ | .int _ => (∃ k : ℤ, b = k) ∧ |b - c| ≤ 1) out px := by
  obtain ⟨ws, ew, hws⟩ := directions_near h hom o hdot hnorm hq0 hq hpx
  refine ⟨ws, ew, ?_⟩
  -- a pattern has at least one pixel
  obtain ⟨hA0, hA1⟩ : 0 ≤ screenAngle d.nrows d.ncols p ∧ screenAngle d.nrows d.ncols p ≤ 1024 := by
    cases px with
    | nil => exact absurd hr.1.1 (by simp)
    | cons rc px =>
      obtain ⟨r0, c0⟩ := hpx rc List.mem_cons_self
      obtain ⟨w, -, -, -, -, h4, h5⟩ := simulated_direction h hom o hdot hnorm rc.1 rc.2 r0 c0 hq0 hq
      exact ⟨h4, h5⟩
  have hle := mul_le_mul_of_nonneg_left (simulated_error hA0 n) (show 0 ≤ 13 * D by linarith)
  obtain ⟨out, e1, e2⟩ := C160_pattern hF t hout e hpo hatan fused recip hws (by norm_num; linarith) hn hn31 hM
    hD hup hlo hb (by rw [List.map_map]; exact hr) (by rw [hEd]; linarith) hE hlow hhigh hw dtype
  refine ⟨out, e1, ?_⟩
  rw [List.forall₂_map_right_iff] at e2
  refine e2.imp fun b rc hc => ?_
  obtain ⟨c, h1, h2⟩ := hc
  refine ⟨c, h1, ?_⟩
  cases dtype <;> exact h2

/-- Formats of 64-bit operations and 32-bit patterns. -/
noncomputable def double64 : Rounding ℝ := .binary 53 (-1074) (by norm_num) (by norm_num)
noncomputable def simulationFormats : Formats ℝ :=
  ⟨double64, double64, double64, double64, .binary 24 (-149) (by norm_num) (by norm_num)⟩

example : DoubleOperations simulationFormats ∧ ∀ x, simulationFormats.out.fl x = MetricType.float32.fl x :=
  ⟨⟨fun _ => rfl, fun _ => rfl, fun _ => rfl, fun _ => rfl⟩, fun _ => rfl⟩

/-- A pattern of three pixels with errors of at most a half, between 100 and 200, rescaled to the range
from 0 to 255: the middle pixel is near 127.5. -/
example : List.Forall₂ (fun b y => |b - rescaledTo 100 200 0 255 y| ≤
      6 * (1 / 2) / (200 - 100) * (255 - 0) + 1 / 2 ^ 48 * ((255 - 0) + |0|))
    ([100.5, 149.5, 200].map (rescalePixelFl simulationFormats .reciprocal (listMin [100.5, 149.5, 200])
      (listMax [100.5, 149.5, 200]) 0 255)) [100, 150, 200] ∧
    rescaledTo 100 200 0 255 150 = 127.5 := by
  constructor
  · refine C160_rescaled (E := 1 / 2) ⟨fun _ => rfl, fun _ => rfl, fun _ => rfl, fun _ => rfl⟩ .reciprocal ?_ ?_
      (by norm_num) (by norm_num) (by norm_num) (by norm_num [OrdinarySize])
    · refine .cons ?_ (.cons ?_ (.cons ?_ .nil)) <;> norm_num [abs_le]
    · unfold IsRangeOf IsLeast IsGreatest lowerBounds upperBounds
      norm_num
  · norm_num [rescaledTo]

/-- Columns of a master pattern counted as intensities: for the axes z and x, 500 and 1000. -/
theorem columns_exact : exactIntensity 1001 ⟨1001, 1001, fun _ c => c⟩ ⟨1001, 1001, fun _ c => c⟩ ⟨0, 0, 1⟩ = 500 ∧
    exactIntensity 1001 ⟨1001, 1001, fun _ c => c⟩ ⟨1001, 1001, fun _ c => c⟩ ⟨1, 0, 0⟩ = 1000 := by
  have r1 : masterRow 1001 ⟨0, 0, 1⟩ = 500 := by norm_num [masterRow, squareCoordinate]
  have c1 : masterColumn 1001 ⟨0, 0, 1⟩ = 500 := by norm_num [masterColumn, squareCoordinate]
  have r2 : masterRow 1001 ⟨1, 0, 0⟩ = 500 := by norm_num [masterRow, squareCoordinate]
  have c2 : masterColumn 1001 ⟨1, 0, 0⟩ = 1000 := by
    norm_num [masterColumn, squareCoordinate, Real.sign_of_pos]
  have row : ∀ f : ℕ → ℝ, interp1 1000 f 500 = f 500 := by
    intro f
    have := interp1_cell (m := 1000) (k := 500) f (t := 0) (by norm_num) le_rfl zero_le_one
    norm_num at this
    exact this
  have last : ∀ f : ℕ → ℝ, interp1 1000 f 1000 = f 1000 := fun f =>
    interp1_ge (m := 1000) f (by norm_num)
  unfold exactIntensity
  constructor
  · rw [if_pos (by norm_num), r1, c1, bilinearAt_interp2 (by norm_num) _ (by norm_num) (by norm_num)
      (by norm_num) (by norm_num)]
    unfold interp2
    rw [row, row]
    norm_num
  · rw [if_pos (by norm_num), r2, c2, bilinearAt_interp2 (by norm_num) _ (by norm_num) (by norm_num)
      (by norm_num) (by norm_num)]
    unfold interp2
    rw [row, last]
    norm_num

/-- Axes are rotated to rounded directions. -/
theorem axis_direction {v : V3 ℝ} (hv : v.IsUnit) :
    FloatDirection (rotateVectorFl ⟨1, 0, 0, 0⟩ v) ∧
      ComponentsWithin (1 / 2 ^ 40) (rotateVectorFl ⟨1, 0, 0, 0⟩ v) v := by
  have hl : NearUnit (v.x ^ 2 + v.y ^ 2 + v.z ^ 2) := by
    unfold NearUnit
    rw [show v.x ^ 2 + v.y ^ 2 + v.z ^ 2 = 1 from hv]
    norm_num
  have hv' : v.x ^ 2 + v.y ^ 2 + v.z ^ 2 = 1 := hv
  have sx := sq_nonneg v.x
  have sy := sq_nonneg v.y
  have sz := sq_nonneg v.z
  have one : ∀ s : ℝ, s ^ 2 ≤ 1 → |s| ≤ 5 / 4 := by
    intro s hs
    rw [abs_le]
    constructor <;> nlinarith
  obtain ⟨rx, ry, rz⟩ := C105_rotation_error (q := ⟨1, 0, 0, 0⟩) (v := v) (by norm_num [abs_le])
    (by norm_num) (by norm_num) (by norm_num) (one _ (by linarith)) (one _ (by linarith)) (one _ (by linarith))
  obtain ⟨fx, fy, fz⟩ := rotateVectorFl_float ⟨1, 0, 0, 0⟩ v
  refine ⟨C105_rotated_any (by unfold NearUnit; norm_num) hl fx fy fz rx ry rz, ?_⟩
  have e : rotateVector ⟨1, 0, 0, 0⟩ v = v := by
    unfold rotateVector
    simp
  rw [e] at rx ry rz
  exact ⟨rx, ry, rz⟩

/-- The hypotheses of `C160_not_rescaled` are met by a pattern of two pixels, the second one at the equator. -/
example : ∃ out, projectPatternFl simulationFormats .written .asWritten Real.arctan false false ⟨1, 0, 0, 0⟩
      [⟨0, 0, 1⟩, ⟨1, 0, 0⟩] ⟨1001, 1001, fun _ c => c⟩ ⟨1001, 1001, fun _ c => c⟩ (1001 : ℕ) (1001 : ℕ)
      (((1001 : ℕ) - 1) / 2) false 0 1 (.float 32) = some out ∧ out.length = 2 := by
  have ho : AddsEveryPixelOnce PixelOrders.asWritten.sum := by
    unfold AddsEveryPixelOnce
    rw [List.perm_ext_iff_of_nodup (by decide) (Finset.nodup_toList _)]
    intro i
    fin_cases i <;> simp [PixelOrders.asWritten, SumOrder.pixels]
  have ha : AccurateArctan Real.arctan := fun q _ => by rw [sub_self, abs_zero]; positivity
  have uz : V3.IsUnit (⟨0, 0, 1⟩ : V3 ℝ) := by norm_num [V3.IsUnit]
  have ux : V3.IsUnit (⟨1, 0, 0⟩ : V3 ℝ) := by norm_num [V3.IsUnit]
  have hs : SmoothImage 1001 1000 1 (⟨1001, 1001, fun _ c => c⟩ : Img ℝ) := by
    refine ⟨fun r c _ hc => ?_, fun r c _ _ => ?_, fun r c _ _ => ?_⟩
    · simp only
      rw [abs_of_nonneg (by positivity)]
      have : c ≤ 1000 := by omega
      exact_mod_cast this
    · simp
    · simp
  have hd : List.Forall₂ (fun dc u : V3 ℝ => u.x ^ 2 + u.y ^ 2 + u.z ^ 2 = 1 ∧
      FloatDirection (rotateVectorFl ⟨1, 0, 0, 0⟩ dc) ∧
      ComponentsWithin (1 / 2 ^ 40) (rotateVectorFl ⟨1, 0, 0, 0⟩ dc) u) [⟨0, 0, 1⟩, ⟨1, 0, 0⟩]
      [⟨0, 0, 1⟩, ⟨1, 0, 0⟩] :=
    .cons ⟨uz, axis_direction uz⟩ (.cons ⟨ux, axis_direction ux⟩ .nil)
  obtain ⟨out, h1, h2⟩ := C160_not_rescaled (F := simulationFormats) .float32 (fun _ => rfl) .written ho ha false
    false hd (by norm_num) (n := 1001) (by norm_num) (by norm_num) (M := 1000) (D := 1) (by norm_num)
    (by norm_num) hs hs (fun _ _ _ _ _ => rfl) 0 1 (.float 32)
  exact ⟨out, h1, h2.length_eq⟩

/-- The hypotheses of `C160_range` are met by the same pixels and 8-bit integers. -/
example : ∃ out, projectPatternFl simulationFormats .written .asWritten Real.arctan false false ⟨1, 0, 0, 0⟩
      [⟨0, 0, 1⟩, ⟨1, 0, 0⟩] ⟨1001, 1001, fun _ c => c⟩ ⟨1001, 1001, fun _ c => c⟩ (1001 : ℕ) (1001 : ℕ)
      (((1001 : ℕ) - 1) / 2) true 0 255 (.uint 8) = some out ∧ 0 ∈ out ∧ 255 ∈ out := by
  have ho : AddsEveryPixelOnce PixelOrders.asWritten.sum := by
    unfold AddsEveryPixelOnce
    rw [List.perm_ext_iff_of_nodup (by decide) (Finset.nodup_toList _)]
    intro i
    fin_cases i <;> simp [PixelOrders.asWritten, SumOrder.pixels]
  have ha : AccurateArctan Real.arctan := fun q _ => by rw [sub_self, abs_zero]; positivity
  have uz : V3.IsUnit (⟨0, 0, 1⟩ : V3 ℝ) := by norm_num [V3.IsUnit]
  have ux : V3.IsUnit (⟨1, 0, 0⟩ : V3 ℝ) := by norm_num [V3.IsUnit]
  have hs : SmoothImage 1001 1000 1 (⟨1001, 1001, fun _ c => c⟩ : Img ℝ) := by
    refine ⟨fun r c _ hc => ?_, fun r c _ _ => ?_, fun r c _ _ => ?_⟩
    · simp only
      rw [abs_of_nonneg (by positivity)]
      have : c ≤ 1000 := by omega
      exact_mod_cast this
    · simp
    · simp
  have hd : List.Forall₂ (fun dc u : V3 ℝ => u.x ^ 2 + u.y ^ 2 + u.z ^ 2 = 1 ∧
      FloatDirection (rotateVectorFl ⟨1, 0, 0, 0⟩ dc) ∧
      ComponentsWithin (1 / 2 ^ 40) (rotateVectorFl ⟨1, 0, 0, 0⟩ dc) u) [⟨0, 0, 1⟩, ⟨1, 0, 0⟩]
      [⟨0, 0, 1⟩, ⟨1, 0, 0⟩] :=
    .cons ⟨uz, axis_direction uz⟩ (.cons ⟨ux, axis_direction ux⟩ .nil)
  have hq : Real.sqrt (1 / 2 ^ 40 + 1 / 2 ^ 46) ≤ 1 / 2 ^ 19 := by
    rw [Real.sqrt_le_left (by norm_num)]
    norm_num
  obtain ⟨raw, h1, h2⟩ := pixels_near ho ha false false hd (by norm_num) (n := 1001) (by norm_num) (by norm_num)
    (M := 1000) (D := 1) (by norm_num) (by norm_num) hs hs (fun _ _ _ _ _ => rfl)
  simp only [List.map_cons, List.map_nil, columns_exact.1, columns_exact.2] at h2
  obtain ⟨x, l, hx, h3, rfl⟩ := List.forall₂_cons_right_iff.mp h2
  obtain ⟨y, l, hy, -, rfl⟩ := List.forall₂_cons_right_iff.mp h3
  have hxy : x ≠ y := by
    rintro rfl
    rw [abs_le] at hx hy
    norm_num at hx hy hq
    linarith
  have f0 := fl64_zero
  have f255 : fl64 255 = 255 := by
    have := fl64_int (m := 255) (by norm_num)
    exact_mod_cast this
  obtain ⟨out, e1, e2, -, -, e3⟩ := C160_range (F := simulationFormats)
    ⟨fun _ => rfl, fun _ => rfl, fun _ => rfl, fun _ => rfl⟩ .written h1 List.mem_cons_self
    (List.mem_cons_of_mem _ List.mem_cons_self) hxy (omin := 0) (omax := 255) (by norm_num) f0 f255
    (by rw [sub_zero, f255]) (.uint 8) (by norm_num [castFl, truncate]) (by norm_num [castFl, truncate])
  exact ⟨out, e1, e2, (e3 (.inl rfl)).2.1⟩

/-- The hypotheses of `C160_pattern` are met by a pattern of two pixels. -/
example : ∃ out, projectPatternFl simulationFormats .folded .asWritten Real.arctan true true ⟨1, 0, 0, 0⟩
      [⟨0, 0, 1⟩, ⟨1, 0, 0⟩] ⟨1001, 1001, fun _ c => c⟩ ⟨1001, 1001, fun _ c => c⟩ (1001 : ℕ) (1001 : ℕ)
      (((1001 : ℕ) - 1) / 2) true 0 255 (.uint 8) = some out ∧ out.length = 2 := by
  have ho : AddsEveryPixelOnce PixelOrders.asWritten.sum := by
    unfold AddsEveryPixelOnce
    rw [List.perm_ext_iff_of_nodup (by decide) (Finset.nodup_toList _)]
    intro i
    fin_cases i <;> simp [PixelOrders.asWritten, SumOrder.pixels]
  have ha : AccurateArctan Real.arctan := fun q _ => by rw [sub_self, abs_zero]; positivity
  have uz : V3.IsUnit (⟨0, 0, 1⟩ : V3 ℝ) := by norm_num [V3.IsUnit]
  have ux : V3.IsUnit (⟨1, 0, 0⟩ : V3 ℝ) := by norm_num [V3.IsUnit]
  have hs : SmoothImage 1001 1000 1 (⟨1001, 1001, fun _ c => c⟩ : Img ℝ) := by
    refine ⟨fun r c _ hc => ?_, fun r c _ _ => ?_, fun r c _ _ => ?_⟩
    · simp only
      rw [abs_of_nonneg (by positivity)]
      have : c ≤ 1000 := by omega
      exact_mod_cast this
    · simp
    · simp
  have hd : List.Forall₂ (fun dc u : V3 ℝ => u.x ^ 2 + u.y ^ 2 + u.z ^ 2 = 1 ∧
      FloatDirection (rotateVectorFl ⟨1, 0, 0, 0⟩ dc) ∧
      ComponentsWithin (1 / 2 ^ 40) (rotateVectorFl ⟨1, 0, 0, 0⟩ dc) u) [⟨0, 0, 1⟩, ⟨1, 0, 0⟩]
      [⟨0, 0, 1⟩, ⟨1, 0, 0⟩] :=
    .cons ⟨uz, axis_direction uz⟩ (.cons ⟨ux, axis_direction ux⟩ .nil)
  have hr : IsRangeOf 500 1000 ([(⟨0, 0, 1⟩ : V3 ℝ), ⟨1, 0, 0⟩].map
      (exactIntensity 1001 ⟨1001, 1001, fun _ c => c⟩ ⟨1001, 1001, fun _ c => c⟩)) := by
    simp only [List.map_cons, List.map_nil, columns_exact.1, columns_exact.2]
    unfold IsRangeOf IsLeast IsGreatest lowerBounds upperBounds
    norm_num
  have hq : Real.sqrt (1 / 2 ^ 40 + 1 / 2 ^ 46) ≤ 1 / 2 ^ 19 := by
    rw [Real.sqrt_le_left (by norm_num)]
    norm_num
  obtain ⟨out, h1, h2⟩ := C160_pattern (F := simulationFormats)
    ⟨fun _ => rfl, fun _ => rfl, fun _ => rfl, fun _ => rfl⟩ .float32 (fun _ => rfl) .folded ho ha true true hd
    (by norm_num) (n := 1001) (by norm_num) (by norm_num) (M := 1000) (D := 1) (by norm_num) (by norm_num) hs hs
    (fun _ _ _ _ _ => rfl) hr le_rfl (by norm_num at hq ⊢; linarith) (by norm_num) (by norm_num) (omin := 0)
    (omax := 255) (by norm_num [OrdinarySize]) (.uint 8)
  exact ⟨out, h1, h2.length_eq⟩

/-- The identity matrix. -/
noncomputable def sameAxes : Fin 3 → Fin 3 → ℝ := fun i j => if i = j then 1 else 0

theorem sameAxes_rotation : RoundedRotation sameAxes sameAxes := by
  refine ⟨fun j k => ?_, fun i j => ?_⟩
  · unfold sameAxes
    simp only [mul_ite, mul_one, mul_zero, Finset.sum_ite_eq', Finset.mem_univ, if_true]
    simp only [eq_comm]
  · rw [sub_self, abs_zero]
    positivity

/-- A screen of 2 × 16 pixels: the direction of the first pixel is that of the axis z. Seven pixels to
the right it is 7/25 to the right. -/
theorem screen_directions :
    exactDirection 2 16 ⟨1 / 32, 1 / 4, 12⟩ sameAxes ⟨1, 0, 0, 0⟩ 0 0 = ⟨0, 0, 1⟩ ∧
    exactDirection 2 16 ⟨1 / 32, 1 / 4, 12⟩ sameAxes ⟨1, 0, 0, 0⟩ 0 7 = ⟨7 / 25, 0, 24 / 25⟩ := by
  have same : ∀ v, transformed sameAxes v = v := by
    intro v
    funext i
    unfold transformed sameAxes
    rw [Fin.sum_univ_three]
    fin_cases i <;> simp
  have e : ∀ v : V3 ℝ, rotateVector ⟨1, 0, 0, 0⟩ v = v := by
    intro v
    unfold rotateVector
    simp
  have two : ∀ a b c : ℝ, ![a, b, c] 2 = c := fun _ _ _ => rfl
  have p1 : pixelCenter 2 16 ⟨1 / 32, 1 / 4, 12⟩ 0 0 = ![0, 0, 12] := by
    unfold pixelCenter
    norm_num
  have p2 : pixelCenter 2 16 ⟨1 / 32, 1 / 4, 12⟩ 0 7 = ![7 / 2, 0, 12] := by
    unfold pixelCenter
    norm_num
  have l1 : length3 ![0, 0, 12] = 12 := by
    unfold length3
    rw [Fin.sum_univ_three, show (![0, 0, 12] : Fin 3 → ℝ) 0 ^ 2 + (![0, 0, 12] : Fin 3 → ℝ) 1 ^ 2 +
      (![0, 0, 12] : Fin 3 → ℝ) 2 ^ 2 = 12 ^ 2 by rw [two]; norm_num, Real.sqrt_sq (by norm_num)]
  have l2 : length3 ![7 / 2, 0, 12] = 25 / 2 := by
    unfold length3
    rw [Fin.sum_univ_three, show (![7 / 2, 0, 12] : Fin 3 → ℝ) 0 ^ 2 + (![7 / 2, 0, 12] : Fin 3 → ℝ) 1 ^ 2 +
      (![7 / 2, 0, 12] : Fin 3 → ℝ) 2 ^ 2 = (25 / 2) ^ 2 by rw [two]; norm_num, Real.sqrt_sq (by norm_num)]
  unfold exactDirection
  simp only [same, e, p1, p2, l1, l2, two]
  constructor <;> norm_num

/-- A tenth of the master pattern to the right: column 600. -/
theorem column_right : exactIntensity 1001 ⟨1001, 1001, fun _ c => c⟩ ⟨1001, 1001, fun _ c => c⟩
    ⟨7 / 25, 0, 24 / 25⟩ = 600 := by
  have r : masterRow 1001 ⟨7 / 25, 0, 24 / 25⟩ = 500 := by norm_num [masterRow, squareCoordinate]
  have c : masterColumn 1001 ⟨7 / 25, 0, 24 / 25⟩ = 600 := by
    unfold masterColumn squareCoordinate
    simp only
    rw [if_pos (by norm_num), Real.sign_of_pos (by norm_num), abs_of_pos (show (0 : ℝ) < 24 / 25 by norm_num),
      show (1 : ℝ) - 24 / 25 = (1 / 5) ^ 2 by norm_num, Real.sqrt_sq (by norm_num)]
    norm_num
  have row : ∀ (f : ℕ → ℝ) (k : ℕ), k < 1000 → interp1 1000 f k = f k := by
    intro f k hk
    have := interp1_cell (m := 1000) (k := k) f (t := 0) hk le_rfl zero_le_one
    norm_num at this
    exact this
  unfold exactIntensity
  rw [if_pos (by norm_num), r, c, bilinearAt_interp2 (by norm_num) _ (by norm_num) (by norm_num)
    (by norm_num) (by norm_num)]
  unfold interp2
  rw [show (600 : ℝ) = (600 : ℕ) by norm_num, show (500 : ℝ) = (500 : ℕ) by norm_num, row _ _ (by norm_num),
    row _ _ (by norm_num)]

/-- The hypotheses of `C160_detector` are met by two pixels of a screen. -/
example (d : Detector ℝ) (h1 : d.nrows = 2) (h2 : d.ncols = 16) :
    ∃ o : DirectionOrders, ∃ ws, ([(0, 0), (0, 7)].mapM fun rc : ℕ × ℕ =>
        d.pixelDirectionFl o ⟨1 / 32, 1 / 4, 12⟩ sameAxes rc.1 rc.2) = some ws ∧
      ∃ out, projectPatternFl simulationFormats .folded .asWritten Real.arctan true true ⟨1, 0, 0, 0⟩
          (ws.map fun w => ⟨w 0, w 1, w 2⟩) ⟨1001, 1001, fun _ c => c⟩ ⟨1001, 1001, fun _ c => c⟩ (1001 : ℕ)
          (1001 : ℕ) (((1001 : ℕ) - 1) / 2) true 0 255 (.uint 8) = some out ∧ out.length = 2 := by
  have ho : AddsEveryPixelOnce PixelOrders.asWritten.sum := by
    unfold AddsEveryPixelOnce
    rw [List.perm_ext_iff_of_nodup (by decide) (Finset.nodup_toList _)]
    intro i
    fin_cases i <;> simp [PixelOrders.asWritten, SumOrder.pixels]
  have h3 : AddsEveryPixelOnce (.plus (.plus (.term 0) (.term 1)) (.term 2) : SumOrder (Fin 3)) := by
    have hu : (Finset.univ : Finset (Fin 3)).toList.Perm [0, 1, 2] := by
      rw [← Multiset.coe_eq_coe, Finset.coe_toList]
      rfl
    exact hu.symm
  have ha : AccurateArctan Real.arctan := fun q _ => by rw [sub_self, abs_zero]; positivity
  have hs : SmoothImage 1001 1000 1 (⟨1001, 1001, fun _ c => c⟩ : Img ℝ) := by
    refine ⟨fun r c _ hc => ?_, fun r c _ _ => ?_, fun r c _ _ => ?_⟩
    · simp only
      rw [abs_of_nonneg (by positivity)]
      have : c ≤ 1000 := by omega
      exact_mod_cast this
    · simp
    · simp
  have hsc : OrdinaryScreen d.nrows d.ncols ⟨1 / 32, 1 / 4, 12⟩ := by
    rw [h1, h2]
    refine ⟨⟨?_, ?_, ?_, ?_, ?_, ?_, ?_, ?_⟩, ?_⟩ <;> norm_num [abs_le, screenAngle]
  have hang : screenAngle d.nrows d.ncols ⟨1 / 32, 1 / 4, 12⟩ = 3 / 4 := by
    rw [h1, h2]
    norm_num [screenAngle]
  have hr : IsRangeOf 500 600 ([(0, 0), (0, 7)].map fun rc : ℕ × ℕ =>
      exactIntensity 1001 ⟨1001, 1001, fun _ c => c⟩ ⟨1001, 1001, fun _ c => c⟩
        (exactDirection d.nrows d.ncols ⟨1 / 32, 1 / 4, 12⟩ sameAxes ⟨1, 0, 0, 0⟩ rc.1 rc.2)) := by
    rw [h1, h2]
    simp only [List.map_cons, List.map_nil, screen_directions.1, screen_directions.2, columns_exact.1,
      column_right]
    unfold IsRangeOf IsLeast IsGreatest lowerBounds upperBounds
    norm_num
  have hq : Real.sqrt (1 + 3 / 4) ≤ 2 := by
    rw [Real.sqrt_le_left (by norm_num)]
    norm_num
  refine ⟨⟨true, true, fun _ => .plus (.plus (.term 0) (.term 1)) (.term 2),
    .plus (.plus (.term 0) (.term 1)) (.term 2)⟩, ?_⟩
  obtain ⟨ws, e1, out, e2, e3⟩ := C160_detector hsc sameAxes_rotation ⟨true, true,
    fun _ => .plus (.plus (.term 0) (.term 1)) (.term 2), .plus (.plus (.term 0) (.term 1)) (.term 2)⟩
    (fun _ => h3) h3 (q := ⟨1, 0, 0, 0⟩) (q0 := ⟨1, 0, 0, 0⟩) (by norm_num)
    (by unfold QuatWithin; norm_num) (px := [(0, 0), (0, 7)]) (by simp [h1, h2]) (F := simulationFormats)
    ⟨fun _ => rfl, fun _ => rfl, fun _ => rfl, fun _ => rfl⟩ .float32 (fun _ => rfl) .folded ho ha true true
    (n := 1001) (by norm_num) (by norm_num) (M := 1000) (D := 1) (by norm_num) (by norm_num) hs hs
    (fun _ _ _ _ _ => rfl) hr rfl (by rw [hang]; norm_num at hq ⊢; linarith) (by norm_num) (by norm_num)
    (omin := 0) (omax := 255) (by norm_num [OrdinarySize]) (.uint 8)
  exact ⟨ws, e1, out, e2, e3.length_eq⟩

end Kp
