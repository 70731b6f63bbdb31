import Verif.Spec.Refine
import Verif.Lemmas.Rescale
import Verif.Lemmas.RefinementMaps
import Verif.Lemmas.FitPc
import Verif.Props.DirectionCosines
import Verif.Props.GetPatterns
import Verif.Props.ExtractGrid
import Verif.Props.RefinementSetup
import Mathlib.Tactic.LinearCombination
import Mathlib.Tactic.FieldSimp
import Mathlib.Algebra.Order.BigOperators.Ring.Finset

/-! Lemmas for `Verif.Props.Refine`. -/

namespace Kp

/-! ### Correlation -/

/-- The centered list. -/
noncomputable def cen (l : List ℝ) : List ℝ := l.map fun x => x - listMean l

theorem zipWith_eq_map {A B C : Type} (f : A → B → C) (a : List A) (b : List B) :
    List.zipWith f a b = (a.zip b).map fun p => f p.1 p.2 := by
  rw [List.zip, List.map_zipWith]

theorem pearson_eq (a b : List ℝ) : Spec.pearson a b =
    (List.zipWith (· * ·) (cen a) (cen b)).sum /
      Real.sqrt (((cen a).map fun x => x ^ 2).sum * ((cen b).map fun x => x ^ 2).sum) := by
  unfold Spec.pearson cen
  rw [List.zipWith_map, zipWith_eq_map]
  simp only [List.map_map]
  rfl

theorem pearson_comm (a b : List ℝ) : Spec.pearson a b = Spec.pearson b a := by
  rw [pearson_eq, pearson_eq, List.zipWith_comm_of_comm (fun x y => mul_comm x y), mul_comm]

theorem cen_affine (c d : ℝ) (l : List ℝ) :
    cen (l.map fun x => c * x + d) = (cen l).map fun x => c * x := by
  rcases List.eq_nil_or_concat l with rfl | h
  · rfl
  have hne : l ≠ [] := by
    obtain ⟨_, _, rfl⟩ := h
    simp
  have e : (fun x : ℝ => c * x + d) = fun x => d + c * x := by
    funext x
    ring
  unfold cen
  rw [e, listMean_affine d c l hne, List.map_map, List.map_map]
  refine List.map_congr_left fun x _ => ?_
  simp only [Function.comp]
  ring

theorem zipWith_mul_map_right (c : ℝ) : ∀ a b : List ℝ,
    (List.zipWith (· * ·) a (b.map fun x => c * x)).sum = c * (List.zipWith (· * ·) a b).sum
  | [], b => by simp
  | _ :: _, [] => by simp
  | x :: a, y :: b => by
    simp only [List.map_cons, List.zipWith_cons_cons, List.sum_cons, zipWith_mul_map_right c a b]
    ring

theorem sum_sq_scale (c : ℝ) (l : List ℝ) :
    ((l.map fun x => c * x).map fun x => x ^ 2).sum = c ^ 2 * (l.map fun x => x ^ 2).sum := by
  induction l with
  | nil => simp
  | cons a l ih =>
    simp only [List.map_cons, List.sum_cons] at ih ⊢
    rw [ih]
    ring

theorem pearson_affine_right (a b : List ℝ) {c : ℝ} (hc : 0 < c) (d : ℝ) :
    Spec.pearson a (b.map fun x => c * x + d) = Spec.pearson a b := by
  rw [pearson_eq, pearson_eq, cen_affine, zipWith_mul_map_right, sum_sq_scale, mul_left_comm,
    Real.sqrt_mul (sq_nonneg c), Real.sqrt_sq hc.le, mul_div_mul_left _ _ hc.ne']

theorem pearson_affine_left (a b : List ℝ) {c : ℝ} (hc : 0 < c) (d : ℝ) :
    Spec.pearson (a.map fun x => c * x + d) b = Spec.pearson a b := by
  rw [pearson_comm, pearson_affine_right b a hc d, pearson_comm]

theorem cen_const {l : List ℝ} {v : ℝ} (h : ∀ x ∈ l, x = v) : ∀ x ∈ cen l, x = 0 := by
  intro x hx
  unfold cen at hx
  obtain ⟨y, hy, rfl⟩ := List.mem_map.1 hx
  have hl : l = List.replicate l.length v := List.eq_replicate_iff.2 ⟨rfl, h⟩
  have hlen : (l.length : ℝ) ≠ 0 := by
    have := List.length_pos_of_mem hy
    positivity
  have : listMean l = v := by
    unfold listMean
    rw [show l.sum = l.length * v by
      conv_lhs => rw [hl]
      simp]
    field_simp
  rw [this, h y hy, sub_self]

theorem pearson_const_right (a : List ℝ) {b : List ℝ} {v : ℝ} (h : ∀ x ∈ b, x = v) :
    Spec.pearson a b = 0 := by
  rw [pearson_eq]
  have : (List.zipWith (· * ·) (cen a) (cen b)).sum = 0 := by
    apply List.sum_eq_zero
    intro x hx
    rw [zipWith_eq_map] at hx
    obtain ⟨p, hp, rfl⟩ := List.mem_map.1 hx
    simp [cen_const h _ (List.of_mem_zip hp).2]
  rw [this, zero_div]

/-- Rescaling of intensities is a positive affine change. -/
theorem rescalePixel_affine (lo hi omin omax : ℝ) (x : ℝ) :
    rescalePixel lo hi omin omax x =
      (omax - omin) / (hi - lo) * x + (omin - lo * ((omax - omin) / (hi - lo))) := by
  unfold rescalePixel
  ring

theorem pearson_rescale_right (a b : List ℝ) {lo hi : ℝ} (h : lo < hi ∨ ∀ x ∈ b, x = lo) :
    Spec.pearson a (b.map (rescalePixel lo hi (-1) 1)) = Spec.pearson a b := by
  rcases h with h | h
  · have e : rescalePixel lo hi (-1) 1 =
        fun x => (2 / (hi - lo)) * x + (-1 - lo * (2 / (hi - lo))) := by
      funext x
      rw [rescalePixel_affine]
      norm_num
    rw [e]
    exact pearson_affine_right a b (div_pos two_pos (sub_pos.2 h)) _
  · rw [pearson_const_right a h]
    refine pearson_const_right (v := -1) a fun x hx => ?_
    obtain ⟨y, hy, rfl⟩ := List.mem_map.1 hx
    rw [h y hy]
    simp [rescalePixel]

theorem pearson_rescale_left (a b : List ℝ) {lo hi : ℝ} (h : lo < hi ∨ ∀ x ∈ a, x = lo) :
    Spec.pearson (a.map (rescalePixel lo hi (-1) 1)) b = Spec.pearson a b := by
  rw [pearson_comm, pearson_rescale_right b a h, pearson_comm]

/-- Either all values are the same or the smallest is less than the largest. -/
theorem listMin_lt_or_const (l : List ℝ) : listMin l < listMax l ∨ ∀ x ∈ l, x = listMin l := by
  by_cases h : ∃ x ∈ l, x ≠ listMin l
  · obtain ⟨x, hx, hne⟩ := h
    exact .inl (listMin_lt_listMax hx (listMin_mem (List.ne_nil_of_mem hx)) hne)
  · push Not at h
    exact .inr h

theorem nccExpCentered_eq (p sim : List ℝ) (rescale : Bool) :
    nccExpCentered (preparePattern p rescale).1 sim (preparePattern p rescale).2 =
      Spec.pearson p sim := by
  have key : ∀ q : List ℝ, nccExpCentered (q.map fun x => x - listMean q) sim
      (((q.map fun x => x - listMean q).map fun x => x ^ 2).sum) = Spec.pearson q sim := by
    intro q
    rw [pearson_eq]
    rfl
  cases rescale with
  | false => exact key p
  | true =>
    refine (key (rescaleWithMinMax p (listMin p) (listMax p) (-1) 1)).trans ?_
    exact pearson_rescale_left p sim (listMin_lt_or_const p)

theorem zipWith_sum_le (a b : List ℝ) :
    (List.zipWith (· * ·) a b).sum ^ 2 ≤
      (a.map fun x => x ^ 2).sum * (b.map fun x => x ^ 2).sum := by
  induction a generalizing b with
  | nil => simp
  | cons x a ih =>
    cases b with
    | nil => simp
    | cons y b =>
      have hA : 0 ≤ (a.map fun x => x ^ 2).sum := List.sum_nonneg (by
        intro z hz
        obtain ⟨w, -, rfl⟩ := List.mem_map.1 hz
        positivity)
      have hB : 0 ≤ (b.map fun x => x ^ 2).sum := List.sum_nonneg (by
        intro z hz
        obtain ⟨w, -, rfl⟩ := List.mem_map.1 hz
        positivity)
      have hi := ih b
      simp only [List.zipWith_cons_cons, List.sum_cons, List.map_cons]
      generalize (List.zipWith (· * ·) a b).sum = S at hi ⊢
      generalize (a.map fun x => x ^ 2).sum = A at hi hA ⊢
      generalize (b.map fun x => x ^ 2).sum = B at hi hB ⊢
      -- 2 x y S ≤ x² B + y² A
      have h1 : S ≤ Real.sqrt A * Real.sqrt B ∧ -(Real.sqrt A * Real.sqrt B) ≤ S := by
        rw [← Real.sqrt_mul hA]
        exact ⟨Real.le_sqrt_of_sq_le hi, neg_le_of_abs_le (Real.abs_le_sqrt hi)⟩
      have hsa := Real.sq_sqrt hA
      have hsb := Real.sq_sqrt hB
      generalize Real.sqrt A = sa at *
      generalize Real.sqrt B = sb at *
      subst hsa hsb
      rcases le_total 0 (x * y) with h | h
      · nlinarith [sq_nonneg (x * sb - y * sa), mul_le_mul_of_nonneg_left h1.1 h]
      · nlinarith [sq_nonneg (x * sb + y * sa), mul_le_mul_of_nonpos_left h1.2 h]

theorem pearson_bounds (a b : List ℝ) : -1 ≤ Spec.pearson a b ∧ Spec.pearson a b ≤ 1 := by
  rw [pearson_eq, ← abs_le, abs_div, abs_of_nonneg (Real.sqrt_nonneg _)]
  exact div_le_one_of_le₀ (Real.abs_le_sqrt (zipWith_sum_le _ _)) (Real.sqrt_nonneg _)

/-! ### Masks -/

theorem keep_eq (m : List Bool) (l : List ℝ) :
    Spec.keep (some m) l = selectMask (m.map fun b => !b) l := by
  unfold Spec.keep selectMask
  simp only
  rw [List.zip_map_right, List.filterMap_map]
  generalize l.zip m = z
  induction z with
  | nil => rfl
  | cons p z ih =>
    rcases p with ⟨x, b⟩
    cases b <;> simp_all

theorem keep_map (mask : Option (List Bool)) (f : ℝ → ℝ) (l : List ℝ) :
    Spec.keep mask (l.map f) = (Spec.keep mask l).map f := by
  cases mask with
  | none => rfl
  | some m => rw [keep_eq, keep_eq, selectMask_map]

theorem mem_of_mem_keep {mask : Option (List Bool)} {l : List ℝ} {x : ℝ}
    (h : x ∈ Spec.keep mask l) : x ∈ l := by
  cases mask with
  | none => exact h
  | some m =>
    unfold Spec.keep at h
    simp only [List.mem_map, List.mem_filter] at h
    obtain ⟨p, ⟨hp, -⟩, rfl⟩ := h
    exact (List.of_mem_zip hp).1

theorem maskedIndices_eq (mask : List Bool) :
    maskedIndices mask = selectMask mask (List.range mask.length) := by
  have key : ∀ (l : List ℕ) (m : List Bool) (g : ℕ → Bool), l.map g = m →
      l.filter g = selectMask m l := by
    intro l
    induction l with
    | nil => intro m g h; simp
    | cons a l ih =>
      intro m g h
      cases m with
      | nil => simp at h
      | cons b m =>
        simp only [List.map_cons, List.cons.injEq] at h
        rw [List.filter_cons, h.1, ih m g h.2]
        cases b <;> simp
  unfold maskedIndices
  apply key
  refine List.ext_getElem (by simp) fun i h1 h2 => ?_
  simp [h2]

theorem directionCosinesFixed_mask (b : ℝ × ℝ × ℝ × ℝ) (z : ℝ) (nrows ncols : ℕ) (om : M3)
    {mask : List Bool} (h : mask.length = nrows * ncols) :
    directionCosinesFixed b z nrows ncols om mask =
      selectMask mask
        (directionCosinesFixed b z nrows ncols om (List.replicate (nrows * ncols) true)) := by
  unfold directionCosinesFixed
  simp only
  rw [maskedIndices_eq mask, maskedIndices_eq (List.replicate _ true),
    selectMask_all (m := List.replicate (nrows * ncols) true) (by simp) (by simp), selectMask_map]
  simp only [h, List.length_replicate]

theorem getGnomonicBounds_eq (d : Detector ℝ) (p : PC ℝ) :
    getGnomonicBounds d.nrows d.ncols p.x p.y p.z = d.gnomonicBounds p := rfl

/-! ### Projection -/

theorem masterPixel_affine (img : Img ℝ) (c d : ℝ) (v : V3 ℝ) (npx npy : ℤ) (scale : ℝ) :
    masterPixel (img.mapVal fun x => c * x + d) (lambertInterp v npx npy scale) =
      c * masterPixel img (lambertInterp v npx npy scale) + d := by
  have h1 : (lambertInterp v npx npy scale).dim = 1 - (lambertInterp v npx npy scale).di := rfl
  have h2 : (lambertInterp v npx npy scale).djm = 1 - (lambertInterp v npx npy scale).dj := rfl
  generalize lambertInterp v npx npy scale = p at h1 h2 ⊢
  unfold masterPixel Img.mapVal
  simp only [h1, h2]
  ring

theorem projectPixel_affine (q : Quat) (u l : Img ℝ) (npx npy : ℤ) (scale : ℝ) (dc : V3 ℝ)
    (c d : ℝ) :
    projectPixel q (u.mapVal fun x => c * x + d) (l.mapVal fun x => c * x + d) npx npy scale dc =
      c * projectPixel q u l npx npy scale dc + d := by
  unfold projectPixel
  simp only [masterPixel_affine]
  split <;> rfl

theorem projectPattern_plain (q : Quat) (u l : Img ℝ) (npx npy : ℤ) (scale : ℝ)
    (dcs : List (V3 ℝ)) (o o' : ℝ) : projectPattern q u l npx npy scale dcs false o o' (.float 32) =
      dcs.map (projectPixel q u l npx npy scale) := by
  unfold projectPattern
  simp [castTo]

theorem projectPattern_rescale (q : Quat) (u l : Img ℝ) (npx npy : ℤ) (scale : ℝ)
    (dcs : List (V3 ℝ)) (o o' : ℝ) : projectPattern q u l npx npy scale dcs true o o' (.float 32) =
      (dcs.map (projectPixel q u l npx npy scale)).map
        (rescalePixel (listMin (dcs.map (projectPixel q u l npx npy scale)))
          (listMax (dcs.map (projectPixel q u l npx npy scale))) o o') := by
  unfold projectPattern rescaleWithMinMax
  simp [castTo]

/-- The pattern `get_patterns` simulates for one rotation and one projection center. -/
theorem getPatterns_single (a : RefineArgs) (hs : a.mp.checkSuitable = .ok ()) {u l : Img ℝ}
    (ha : a.mp.arraysFromEnergy a.energy = some (u, l)) (q : Quat) (p : PC ℝ) :
    a.mp.getPatterns [1] [q] { a.det with nav := [1], pc := [p] } a.m a.energy (.float 32) [1] =
      .ok ([1], [some (projectPattern q u l u.cols u.rows (((u.cols : ℝ) - 1) / 2)
        (pcDirections a.det a.m (List.replicate (a.det.nrows * a.det.ncols) true) p)
        (decide (DType.float 32 ≠ a.mp.dtype)) (-1) 1 (.float 32))]) := by
  have hr : ∃ lo hi : ℤ, (if DType.float 32 ≠ a.mp.dtype then dtypeRange (.float 32)
      else some (1, 2)) = some (lo, hi) ∧ (DType.float 32 ≠ a.mp.dtype → lo = -1 ∧ hi = 1) := by
    by_cases h : DType.float 32 ≠ a.mp.dtype
    · exact ⟨-1, 1, by rw [if_pos h]; rfl, fun _ => ⟨rfl, rfl⟩⟩
    · exact ⟨1, 2, by rw [if_neg h], fun h' => absurd h' h⟩
  obtain ⟨lo, hi, hrange, hlh⟩ := hr
  obtain ⟨out, h1, h2, h3⟩ := C63_own_rotation_and_pc_partial a.mp hs (rotShape := [1]) (rots := [q])
    (by simp) (by simp) (d := { a.det with nav := [1], pc := [p] }) (by simp) (.inr rfl) a.m ha hrange
    (chunks := [1]) (by simp)
  obtain ⟨pc, hpc, hout⟩ := h3 0 q rfl
  simp only [if_true, List.getElem?_cons_zero, Option.some.injEq] at hpc
  subst hpc
  obtain ⟨o, rfl⟩ := List.length_eq_one_iff.1 (show out.length = 1 by simpa using h2)
  simp only [List.getElem?_cons_zero, Option.some.injEq] at hout
  rw [h1, hout]
  by_cases h : DType.float 32 ≠ a.mp.dtype
  · obtain ⟨rfl, rfl⟩ := hlh h
    simp [pcDirections]
    rfl
  · simp only [h, decide_false, projectPattern_plain]
    rfl

/-- The hemispheres are used as they are, or rescaled with the same range. -/
def SameScale (mp : MasterPattern) (u l : Img ℝ) : Prop :=
  mp.dtype = .float 32 ∨ (listMin u.pixels = listMin l.pixels ∧ listMax u.pixels = listMax l.pixels ∧
    listMin u.pixels < listMax u.pixels)

theorem detectorData_directionCosines (a : RefineArgs)
    (hm : ∀ m, a.signalMask = some m → m.length = a.det.nrows * a.det.ncols) (p : PC ℝ)
    (f : V3 ℝ → ℝ) :
    (a.detectorData.directionCosines p.x p.y p.z).map f =
      Spec.keep a.signalMask
        ((pcDirections a.det a.m (List.replicate (a.det.nrows * a.det.ncols) true) p).map f) := by
  unfold RefineArgs.detectorData patternsForRefinement DetectorData.directionCosines
  cases h : a.signalMask with
  | none => rfl
  | some m =>
    simp only
    rw [keep_eq, selectMask_map]
    rw [directionCosinesFixed_mask _ _ _ _ _ (by rw [List.length_map, hm m h])]
    rfl

theorem isScore_of (a : RefineArgs) (hs : a.mp.checkSuitable = .ok ()) {u l : Img ℝ}
    (ha : a.mp.arraysFromEnergy a.energy = some (u, l)) (hmp : SameScale a.mp u l)
    (hm : ∀ m, a.signalMask = some m → m.length = a.det.nrows * a.det.ncols) {data : MasterData}
    (hd : a.mp.refinementData a.energy = some data) (pattern : List ℝ) (q : Quat) (p : PC ℝ) :
    Spec.IsScore a pattern q p (Spec.pearson (Spec.keep a.signalMask pattern)
      (projectPattern q data.upper data.lower data.npx data.npy data.scale
        (a.detectorData.directionCosines p.x p.y p.z) false 0 1 (.float 32))) := by
  refine ⟨_, getPatterns_single a hs ha q p, ?_⟩
  rw [projectPattern_plain, detectorData_directionCosines a hm]
  generalize hdc : pcDirections a.det a.m (List.replicate (a.det.nrows * a.det.ncols) true) p = dcs
  generalize Spec.keep a.signalMask pattern = P
  unfold MasterPattern.refinementData at hd
  rw [ha] at hd
  by_cases h : a.mp.dtype = .float 32
  · simp only [h, ne_eq, not_true_eq_false, if_false, Option.some.injEq] at hd
    subst hd
    simp only [h, ne_eq, not_true_eq_false, decide_false, projectPattern_plain]
  · obtain ⟨h1, h2, h3⟩ := hmp.resolve_left h
    have h' : DType.float 32 ≠ a.mp.dtype := fun e => h e.symm
    simp only [ne_eq, h, not_false_eq_true, if_true, Option.some.injEq] at hd
    subst hd
    have hf : rescalePixel (listMin u.pixels) (listMax u.pixels) (-1) 1 = fun x =>
        (2 / (listMax u.pixels - listMin u.pixels)) * x +
          (-1 - listMin u.pixels * (2 / (listMax u.pixels - listMin u.pixels))) := by
      funext x
      rw [rescalePixel_affine]
      norm_num
    have hc : 0 < 2 / (listMax u.pixels - listMin u.pixels) := div_pos two_pos (sub_pos.2 h3)
    simp only [h', ne_eq, not_false_eq_true, decide_true, projectPattern_rescale, Img.rescaleSigned]
    rw [← h1, ← h2, hf]
    generalize 2 / (listMax u.pixels - listMin u.pixels) = c at hc ⊢
    generalize -1 - listMin u.pixels * c = d
    have e : dcs.map (projectPixel q (u.mapVal fun x => c * x + d) (l.mapVal fun x => c * x + d)
        u.cols u.rows (((u.cols : ℝ) - 1) / 2)) =
        (dcs.map (projectPixel q u l u.cols u.rows (((u.cols : ℝ) - 1) / 2))).map
          fun x => c * x + d := by
      rw [List.map_map]
      refine List.map_congr_left fun v _ => ?_
      simp only [Function.comp, projectPixel_affine]
    rw [e]
    generalize dcs.map (projectPixel q u l u.cols u.rows (((u.cols : ℝ) - 1) / 2)) = full
    rw [keep_map, keep_map, pearson_affine_right _ _ hc, pearson_rescale_right]
    rcases listMin_lt_or_const full with h | h
    · exact .inl h
    · exact .inr fun x hx => h x (mem_of_mem_keep hx)

/-! ### Loops over chunks -/

theorem chunkLoop4_eq {A B C D R : Type} (f : A → B → C → D → Option R) {a : List A} {b : List B}
    {c : List C} {d : List D} (hb : b.length = a.length) (hc : c.length = a.length)
    (hd : d.length = a.length) :
    chunkLoop4 f a b c d = (a.zip (b.zip (c.zip d))).map fun p => f p.1 p.2.1 p.2.2.1 p.2.2.2 := by
  refine List.ext_getElem (by simp [chunkLoop4, hb, hc, hd]) fun i h1 h2 => ?_
  have hi : i < a.length := by simpa [chunkLoop4] using h1
  simp [chunkLoop4, hi, hb, hc, hd]

theorem chunkLoop5_eq {A B C D E R : Type} (f : A → B → C → D → E → Option R) {a : List A}
    {b : List B} {c : List C} {d : List D} {e : List E} (hb : b.length = a.length)
    (hc : c.length = a.length) (hd : d.length = a.length) (he : e.length = a.length) :
    chunkLoop5 f a b c d e = (a.zip (b.zip (c.zip (d.zip e)))).map
      fun p => f p.1 p.2.1 p.2.2.1 p.2.2.2.1 p.2.2.2.2 := by
  refine List.ext_getElem (by simp [chunkLoop5, hb, hc, hd, he]) fun i h1 h2 => ?_
  have hi : i < a.length := by simpa [chunkLoop5] using h1
  simp [chunkLoop5, hi, hb, hc, hd, he]

theorem mapBlocks4_cons {A B C D R : Type} (f : A → B → C → D → Option R) (n : ℕ) (ns : List ℕ)
    (a : List A) (b : List B) (c : List C) (d : List D) :
    mapBlocks4 f (n :: ns) a b c d =
      chunkLoop4 f (a.take n) (b.take n) (c.take n) (d.take n) ++
        mapBlocks4 f ns (a.drop n) (b.drop n) (c.drop n) (d.drop n) := by
  unfold mapBlocks4
  rw [List.length_cons, List.range_succ_eq_map, List.map_cons, List.flatten_cons, List.map_map]
  rfl

theorem mapBlocks5_cons {A B C D E R : Type} (f : A → B → C → D → E → Option R) (n : ℕ)
    (ns : List ℕ) (a : List A) (b : List B) (c : List C) (d : List D) (e : List E) :
    mapBlocks5 f (n :: ns) a b c d e =
      chunkLoop5 f (a.take n) (b.take n) (c.take n) (d.take n) (e.take n) ++
        mapBlocks5 f ns (a.drop n) (b.drop n) (c.drop n) (d.drop n) (e.drop n) := by
  unfold mapBlocks5
  rw [List.length_cons, List.range_succ_eq_map, List.map_cons, List.flatten_cons, List.map_map]
  rfl

theorem mapBlocks4_eq {A B C D R : Type} (f : A → B → C → D → Option R) (ns : List ℕ) {a : List A}
    {b : List B} {c : List C} {d : List D} (hs : ns.sum = a.length) (hb : b.length = a.length)
    (hc : c.length = a.length) (hd : d.length = a.length) :
    mapBlocks4 f ns a b c d = (a.zip (b.zip (c.zip d))).map fun p => f p.1 p.2.1 p.2.2.1 p.2.2.2 := by
  induction ns generalizing a b c d with
  | nil =>
    simp only [List.sum_nil] at hs
    rw [List.length_eq_zero_iff.1 hs.symm]
    rfl
  | cons n ns ih =>
    simp only [List.sum_cons] at hs
    rw [mapBlocks4_cons, chunkLoop4_eq f (by simp [hb]) (by simp [hc]) (by simp [hd]),
      ih (by simp; omega) (by simp [hb]) (by simp [hc]) (by simp [hd]), ← List.map_append,
      ← List.zip_append (by simp [hb, hc, hd]), ← List.zip_append (by simp [hb, hc, hd]),
      ← List.zip_append (by simp [hc, hd]), List.take_append_drop, List.take_append_drop,
      List.take_append_drop, List.take_append_drop]

theorem mapBlocks5_eq {A B C D E R : Type} (f : A → B → C → D → E → Option R) (ns : List ℕ)
    {a : List A} {b : List B} {c : List C} {d : List D} {e : List E} (hs : ns.sum = a.length)
    (hb : b.length = a.length) (hc : c.length = a.length) (hd : d.length = a.length)
    (he : e.length = a.length) :
    mapBlocks5 f ns a b c d e = (a.zip (b.zip (c.zip (d.zip e)))).map
      fun p => f p.1 p.2.1 p.2.2.1 p.2.2.2.1 p.2.2.2.2 := by
  induction ns generalizing a b c d e with
  | nil =>
    simp only [List.sum_nil] at hs
    rw [List.length_eq_zero_iff.1 hs.symm]
    rfl
  | cons n ns ih =>
    simp only [List.sum_cons] at hs
    rw [mapBlocks5_cons, chunkLoop5_eq f (by simp [hb]) (by simp [hc]) (by simp [hd]) (by simp [he]),
      ih (by simp; omega) (by simp [hb]) (by simp [hc]) (by simp [hd]) (by simp [he]),
      ← List.map_append, ← List.zip_append (by simp [hb, hc, hd, he]),
      ← List.zip_append (by simp [hb, hc, hd, he]), ← List.zip_append (by simp [hc, hd, he]),
      ← List.zip_append (by simp [hd, he]), List.take_append_drop, List.take_append_drop,
      List.take_append_drop, List.take_append_drop, List.take_append_drop]

/-! ### Solvers -/

/-- The optimizer reports the value of the objective function at the point it returns. -/
def FaithfulOptimizer (opt : Optimizer) : Prop :=
  ∀ f s b, (opt f s b).funVal = f (opt f s b).x

/-- From a starting point, the optimizer never returns a worse point. -/
def DescendingOptimizer (opt : Optimizer) : Prop :=
  ∀ f x0 b, (opt f (some x0) b).funVal ≤ f x0

theorem solveMany_spec (k : SolverKwargs) (hf : FaithfulOptimizer k.opt) (nPs : ℕ) (f : List ℝ → ℝ)
    {starts lower upper : List (List ℝ)} (h1 : starts.length = nPs + 1)
    (h2 : lower.length = nPs + 1) (h3 : upper.length = nPs + 1) :
    ∃ row, solveMany k nPs f starts lower upper = some row ∧ row.score = 1 - f row.x ∧
      ∃ (b : ℕ) (hb : b < nPs + 1),
        row.psIdx = (if nPs = 0 then none else some b) ∧
        row.x = (k.run f (starts[b]'(by omega)) (lower[b]'(by omega)) (upper[b]'(by omega))).x ∧
        row.nfev = (k.run f (starts[b]'(by omega)) (lower[b]'(by omega)) (upper[b]'(by omega))).nfev ∧
        ∀ i (hi : i < nPs + 1), 1 - (k.run f (starts[i]'(by omega)) (lower[i]'(by omega))
          (upper[i]'(by omega))).funVal ≤ row.score := by
  unfold solveMany
  by_cases h0 : nPs = 0
  · subst h0
    rw [if_pos rfl, List.getElem?_eq_getElem (by omega), List.getElem?_eq_getElem (by omega),
      List.getElem?_eq_getElem (by omega)]
    refine ⟨_, rfl, ?_, 0, by omega, rfl, rfl, rfl, fun i hi => ?_⟩
    · exact congrArg (1 - ·) (hf _ _ _)
    · obtain rfl : i = 0 := by omega
      exact le_rfl
  · rw [if_neg h0]
    have hrun : ∀ i (hi : i < nPs + 1), k.runAt f starts lower upper i =
        some (k.run f (starts[i]'(by omega)) (lower[i]'(by omega)) (upper[i]'(by omega))) := by
      intro i hi
      unfold SolverKwargs.runAt
      rw [List.getElem?_eq_getElem (by omega), List.getElem?_eq_getElem (by omega),
        List.getElem?_eq_getElem (by omega)]
    obtain ⟨res, hall, hres⟩ := allSome_of (l := (List.range (nPs + 1)).map
      (k.runAt f starts lower upper)) (by
        intro i hi
        have hi : i < nPs + 1 := by simpa using hi
        exact ⟨k.run f (starts[i]'(by omega)) (lower[i]'(by omega)) (upper[i]'(by omega)), by
          simp [hi, hrun i hi]⟩)
    have hget : ∀ i (hi : i < nPs + 1), res[i]? = some (k.run f (starts[i]'(by omega))
        (lower[i]'(by omega)) (upper[i]'(by omega))) := by
      intro i hi
      have := congrArg (fun l => l[i]?) hres
      simp only [List.getElem?_map, List.getElem?_range hi, Option.map_some, hrun i hi] at this
      rcases hr : res[i]? with _ | r
      · rw [hr] at this
        simp at this
      · rw [hr] at this
        simpa using this.symm
    have hlen : res.length = nPs + 1 := by
      have := congrArg List.length hres
      simpa using this.symm
    simp only [hall]
    have hne : res ≠ [] := by
      intro h
      rw [h] at hlen
      simp at hlen
    obtain ⟨b, r, hb, hsc, hnl, hbest, -⟩ := C36_best_solution hne
    have hbl : b < nPs + 1 := by
      rw [← hlen]
      exact (List.getElem?_eq_some_iff.1 hb).1
    have hr : r = k.run f (starts[b]'(by omega)) (lower[b]'(by omega)) (upper[b]'(by omega)) := by
      rw [hget b hbl] at hb
      exact (Option.some.inj hb).symm
    have e : (if k.method.isNlopt = true then bestNlopt res else bestScipy res) =
        some (1 - r.funVal, r.nfev, r.x, b) := by
      split
      · exact hnl
      · exact hsc
    rw [e]
    refine ⟨_, rfl, ?_, b, hbl, ?_, ?_, ?_, fun i hi => ?_⟩
    · simp only [hr]
      exact congrArg (1 - ·) (hf _ _ _)
    · simp [h0]
    · simp only [hr]
    · simp only [hr]
    · exact hbest _ (List.mem_of_getElem? (hget i hi))

/-! ### Rows of results -/

/-- Arguments accepted by refinement: a suitable master pattern with hemispheres `u` and `l` at the
energy, masks of the right shapes, a detector with one projection center or one per map point, chunks
covering the points to refine, and an optimizer reporting the value at the point it returns. -/
structure RefineArgs.Valid (a : RefineArgs) (u l : Img ℝ) : Prop where
  suitable : a.mp.checkSuitable = .ok ()
  arrays : a.mp.arraysFromEnergy a.energy = some (u, l)
  points : a.points.length = a.patterns.length
  mask : ∀ m, a.signalMask = some m → m.length = a.det.nrows * a.det.ncols
  pcs : a.det.pc.length = a.det.nav.prod
  nav : a.det.nav = [1] ∨ (1 < a.det.nav.prod ∧ a.det.nav.prod = a.points.length)
  chunks : a.chunks.sum = a.points.count true
  faithful : FaithfulOptimizer a.solver.opt

/-- The projection center of map point `j`. -/
def RefineArgs.pcAt (a : RefineArgs) (j : ℕ) : Option (PC ℝ) :=
  a.det.pc[if a.det.nav = [1] then 0 else j]?

/-- The place of map point `j` among the points to refine. -/
def RefineArgs.place (a : RefineArgs) (j : ℕ) : ℕ := (a.points.take j).count true

theorem prepared_eq {a : RefineArgs} {u l : Img ℝ} (hv : a.Valid u l) :
    a.prepared = (selectMask a.points a.patterns).map (Spec.keep a.signalMask) := by
  have h1 : (if a.points.all id then a.patterns else selectMask a.points a.patterns) =
      selectMask a.points a.patterns := by
    split
    · rename_i h
      rw [selectMask_all hv.points (by simpa using h)]
    · rfl
  unfold RefineArgs.prepared patternsForRefinement
  simp only [h1]
  cases a.signalMask with
  | none => exact (List.map_id _).symm
  | some m =>
    simp only
    refine List.map_congr_left fun x _ => (keep_eq m x).symm

theorem prepared_length {a : RefineArgs} {u l : Img ℝ} (hv : a.Valid u l) :
    a.prepared.length = a.points.count true := by
  rw [prepared_eq hv, List.length_map, selectMask_length hv.points]

theorem prepared_get {a : RefineArgs} {u l : Img ℝ} (hv : a.Valid u l) {j : ℕ} {pattern : List ℝ}
    (hj : a.points[j]? = some true) (hp : a.patterns[j]? = some pattern) :
    a.prepared[a.place j]? = some (Spec.keep a.signalMask pattern) := by
  rw [prepared_eq hv, List.getElem?_map]
  unfold RefineArgs.place
  rw [selectMask_getElem hv.points j hj, hp]
  rfl

theorem uniquePc_iff {a : RefineArgs} {u l : Img ℝ} (hv : a.Valid u l) :
    a.uniquePc = true ↔ a.det.nav ≠ [1] := by
  unfold RefineArgs.uniquePc
  rw [decide_eq_true_iff]
  rcases hv.nav with h | h
  · simp [h]
  · refine ⟨fun _ e => ?_, fun _ => h.1⟩
    have := h.1
    rw [e] at this
    simp at this

theorem pcs_length {a : RefineArgs} {u l : Img ℝ} (hv : a.Valid u l) :
    a.pcs.length = a.points.count true := by
  unfold RefineArgs.pcs
  split
  · rename_i h
    rw [uniquePc_iff hv] at h
    rw [selectMask_length (by rw [hv.pcs, (hv.nav.resolve_left h).2])]
  · simp

theorem place_lt {a : RefineArgs} {j : ℕ} (hj : a.points[j]? = some true) :
    a.place j < a.points.count true := by
  unfold RefineArgs.place
  obtain ⟨h1, h2⟩ := List.getElem?_eq_some_iff.1 hj
  conv_rhs => rw [← List.take_append_drop j a.points]
  rw [List.count_append, List.drop_eq_getElem_cons h1, h2]
  simp

theorem pcs_get {a : RefineArgs} {u l : Img ℝ} (hv : a.Valid u l) {j : ℕ} {pc : PC ℝ}
    (hj : a.points[j]? = some true) (hp : a.pcAt j = some pc) : a.pcs[a.place j]? = some pc := by
  unfold RefineArgs.pcAt at hp
  unfold RefineArgs.pcs
  split
  · rename_i h
    rw [uniquePc_iff hv] at h
    rw [if_neg h] at hp
    unfold RefineArgs.place
    rw [selectMask_getElem (by rw [hv.pcs, (hv.nav.resolve_left h).2]) j hj, hp]
  · rename_i h
    rw [uniquePc_iff hv, ne_eq, not_not] at h
    rw [if_pos h] at hp
    rw [List.getElem?_replicate, if_pos (place_lt hj), List.getD_eq_getElem?_getD, hp]
    rfl

theorem refinementData_some {a : RefineArgs} {u l : Img ℝ} (hv : a.Valid u l) :
    ∃ data, a.mp.refinementData a.energy = some data := by
  unfold MasterPattern.refinementData
  rw [hv.arrays]
  exact ⟨_, rfl⟩

/-- Each row of the results comes from the pattern, starting points, bounds and PC of its own
point. -/
theorem refineOrientation_rows {a : RefineArgs} {u l : Img ℝ} (hv : a.Valid u l)
    {starts lower upper : List (List (List ℝ))} (h1 : starts.length = a.points.count true)
    (h2 : lower.length = a.points.count true) (h3 : upper.length = a.points.count true) :
    ∃ data rows, a.mp.refinementData a.energy = some data ∧
      refineOrientation a starts lower upper = .ok rows ∧ rows.length = a.points.count true ∧
      ∀ j pattern pc s lo up, a.points[j]? = some true → a.patterns[j]? = some pattern →
        a.pcAt j = some pc → starts[a.place j]? = some s → lower[a.place j]? = some lo →
        upper[a.place j]? = some up →
        rows[a.place j]? = some (oriSolver a.solver a.nPs a.rescale data (.inr (a.detectorData, pc))
          (Spec.keep a.signalMask pattern) s lo up) := by
  obtain ⟨data, hd⟩ := refinementData_some hv
  have hl := prepared_length hv
  unfold refineOrientation
  simp only [hd]
  by_cases hu : a.uniquePc = true
  · rw [if_pos hu, mapBlocks5_eq _ _ (by rw [hl, hv.chunks]) (by rw [hl, h1]) (by rw [hl, h2])
      (by rw [hl, h3]) (by rw [hl, pcs_length hv])]
    refine ⟨data, _, rfl, rfl, by simp [hl, h1, h2, h3, pcs_length hv], ?_⟩
    intro j pattern pc s lo up hj hp hpc hs hlo hup
    have hz : (a.prepared.zip (starts.zip (lower.zip (upper.zip a.pcs))))[a.place j]? =
        some (Spec.keep a.signalMask pattern, s, lo, up, pc) := by
      simp only [List.getElem?_zip_eq_some]
      exact ⟨prepared_get hv hj hp, hs, hlo, hup, pcs_get hv hj hpc⟩
    rw [List.getElem?_map, hz]
    rfl
  · rw [if_neg hu, mapBlocks4_eq _ _ (by rw [hl, hv.chunks]) (by rw [hl, h1]) (by rw [hl, h2])
      (by rw [hl, h3])]
    refine ⟨data, _, rfl, rfl, by simp [hl, h1, h2, h3], ?_⟩
    intro j pattern pc s lo up hj hp hpc hs hlo hup
    have hz : (a.prepared.zip (starts.zip (lower.zip upper)))[a.place j]? =
        some (Spec.keep a.signalMask pattern, s, lo, up) := by
      simp only [List.getElem?_zip_eq_some]
      exact ⟨prepared_get hv hj hp, hs, hlo, hup⟩
    rw [uniquePc_iff hv, ne_eq, not_not] at hu
    have hpc' : a.det.pc = [pc] := by
      unfold RefineArgs.pcAt at hpc
      rw [if_pos hu] at hpc
      have := hv.pcs
      rw [hu] at this
      obtain ⟨p, hp⟩ := List.length_eq_one_iff.1 (by simpa using this)
      rw [hp] at hpc ⊢
      simpa using hpc
    rw [List.getElem?_map, hz]
    simp only [Option.map_some, oriSolver]
    rw [C30_each_pc hv.pcs, hpc']
    rfl

theorem refinePc_rows {a : RefineArgs} {u l : Img ℝ} (hv : a.Valid u l) {rots : List Quat}
    {lower upper : List (List ℝ)} (h1 : rots.length = a.points.count true)
    (h2 : lower.length = a.points.count true) (h3 : upper.length = a.points.count true) :
    ∃ data rows, a.mp.refinementData a.energy = some data ∧
      refinePc a rots lower upper = .ok rows ∧ rows.length = a.points.count true ∧
      ∀ j pattern (pc : PC ℝ) q lo up, a.points[j]? = some true → a.patterns[j]? = some pattern →
        a.pcAt j = some pc → rots[a.place j]? = some q → lower[a.place j]? = some lo →
        upper[a.place j]? = some up →
        rows[a.place j]? = some (some (pcSolver a.solver a.rescale data a.detectorData
          (Spec.keep a.signalMask pattern) q [pc.x, pc.y, pc.z] lo up)) := by
  obtain ⟨data, hd⟩ := refinementData_some hv
  have hl := prepared_length hv
  unfold refinePc
  simp only [hd]
  rw [mapBlocks5_eq _ _ (by rw [hl, hv.chunks]) (by rw [hl, h1]) (by rw [hl, pcs_length hv])
    (by rw [hl, h2]) (by rw [hl, h3])]
  refine ⟨data, _, rfl, rfl, by simp [hl, h1, h2, h3, pcs_length hv], ?_⟩
  intro j pattern pc q lo up hj hp hpc hs hlo hup
  have hz : (a.prepared.zip (rots.zip (a.pcs.zip (lower.zip upper))))[a.place j]? =
      some (Spec.keep a.signalMask pattern, q, pc, lo, up) := by
    simp only [List.getElem?_zip_eq_some]
    exact ⟨prepared_get hv hj hp, hs, pcs_get hv hj hpc, hlo, hup⟩
  rw [List.getElem?_map, hz]
  rfl

theorem refineOrientationPc_rows {a : RefineArgs} {u l : Img ℝ} (hv : a.Valid u l)
    {starts lower upper : List (List (List ℝ))} (h1 : starts.length = a.points.count true)
    (h2 : lower.length = a.points.count true) (h3 : upper.length = a.points.count true) :
    ∃ data rows, a.mp.refinementData a.energy = some data ∧
      refineOrientationPc a starts lower upper = .ok rows ∧ rows.length = a.points.count true ∧
      ∀ j pattern (pc : PC ℝ) s lo up, a.points[j]? = some true → a.patterns[j]? = some pattern →
        a.pcAt j = some pc → starts[a.place j]? = some s → lower[a.place j]? = some lo →
        upper[a.place j]? = some up →
        rows[a.place j]? = some (oriPcSolver a.solver a.nPs a.rescale data a.detectorData
          (Spec.keep a.signalMask pattern) (s.map (· ++ [pc.x, pc.y, pc.z])) lo up) := by
  obtain ⟨data, hd⟩ := refinementData_some hv
  have hl := prepared_length hv
  unfold refineOrientationPc
  simp only [hd]
  rw [mapBlocks4_eq _ _ (by rw [hl, hv.chunks]) (by simp [hl, h1, pcs_length hv]) (by rw [hl, h2])
    (by rw [hl, h3])]
  refine ⟨data, _, rfl, rfl, by simp [hl, h1, h2, h3, pcs_length hv], ?_⟩
  intro j pattern pc s lo up hj hp hpc hs hlo hup
  have hz : (a.prepared.zip ((List.zipWith (fun (s : List (List ℝ)) (p : PC ℝ) =>
      s.map (· ++ [p.x, p.y, p.z])) starts a.pcs).zip (lower.zip upper)))[a.place j]? =
      some (Spec.keep a.signalMask pattern, s.map (· ++ [pc.x, pc.y, pc.z]), lo, up) := by
    simp only [List.getElem?_zip_eq_some]
    refine ⟨prepared_get hv hj hp, ?_, hlo, hup⟩
    rw [List.getElem?_zipWith, hs, pcs_get hv hj hpc]
  rw [List.getElem?_map, hz]
  rfl

end Kp
