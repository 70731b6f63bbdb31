import Verif.Spec.MirroredGeometry
import Verif.Props.MasterSymmetry
import Verif.Props.FlippedPatterns

/-
C148: the mirror image of an experiment has the mirror images of its patterns.
-/

namespace Kp
open Spec
noncomputable section

/-! ### Pixels in the mirror -/

theorem mirrorPixel_lt (k : MirrorPlane) {r c i : ℕ} (hi : i < r * c) : k.pixel r c i < r * c := by
  have hc : 0 < c := Nat.pos_of_ne_zero fun h => by simp [h] at hi
  have h1 : i / c < r := Nat.div_lt_of_lt_mul (by rwa [Nat.mul_comm] at hi)
  have h0 : 0 ≤ i / c := Nat.zero_le _
  have h2 := Nat.mod_lt i hc
  unfold MirrorPlane.pixel
  cases k
  · calc i / c * c + (c - 1 - i % c) < i / c * c + c := by omega
      _ = (i / c + 1) * c := by ring
      _ ≤ r * c := Nat.mul_le_mul_right _ h1
  · calc (r - 1 - i / c) * c + i % c < (r - 1 - i / c) * c + c := by omega
      _ = (r - 1 - i / c + 1) * c := by ring
      _ ≤ r * c := Nat.mul_le_mul_right _ (by omega)

theorem pixel_div_mod (k : MirrorPlane) {r c i : ℕ} (hi : i < r * c) :
    k.pixel r c i / c = (match k with | .leftAndRight => i / c | .upAndDown => r - 1 - i / c) ∧
      k.pixel r c i % c = (match k with | .leftAndRight => c - 1 - i % c | .upAndDown => i % c) := by
  have hc : 0 < c := Nat.pos_of_ne_zero fun h => by simp [h] at hi
  have h2 := Nat.mod_lt i hc
  have key : ∀ a b, b < c → (a * c + b) / c = a ∧ (a * c + b) % c = b := by
    intro a b hb
    rw [Nat.mul_comm, Nat.mul_add_div hc, Nat.div_eq_of_lt hb, Nat.mul_add_mod, Nat.mod_eq_of_lt hb]
    exact ⟨rfl, rfl⟩
  unfold MirrorPlane.pixel
  cases k
  · exact key _ _ (by omega)
  · exact key _ _ h2

theorem pixel_pixel (k : MirrorPlane) {r c i : ℕ} (hi : i < r * c) : k.pixel r c (k.pixel r c i) = i := by
  have hc : 0 < c := Nat.pos_of_ne_zero fun h => by simp [h] at hi
  have h1 : i / c < r := Nat.div_lt_of_lt_mul (by rwa [Nat.mul_comm] at hi)
  have h0 : 0 ≤ i / c := Nat.zero_le _
  have h2 := Nat.mod_lt i hc
  obtain ⟨e1, e2⟩ := pixel_div_mod k hi
  have e3 := Nat.div_add_mod i c
  rw [Nat.mul_comm] at e3
  conv_lhs => rw [MirrorPlane.pixel.eq_def]
  cases k
  · simp only at e1 e2 ⊢
    rw [e1, e2, show c - 1 - (c - 1 - i % c) = i % c by omega, e3]
  · simp only at e1 e2 ⊢
    rw [e1, e2, show r - 1 - (r - 1 - i / c) = i / c by omega, e3]

theorem pixel_perm (k : MirrorPlane) (r c : ℕ) :
    ((List.range (r * c)).map (k.pixel r c)).Perm (List.range (r * c)) := by
  refine (List.perm_ext_iff_of_nodup ?_ List.nodup_range).2 fun i => ?_
  · refine List.Nodup.map_on (fun x hx y hy h => ?_) List.nodup_range
    rw [List.mem_range] at hx hy
    rw [← pixel_pixel k hx, h, pixel_pixel k hy]
  · rw [List.mem_map, List.mem_range]
    constructor
    · rintro ⟨j, hj, rfl⟩
      exact mirrorPixel_lt k (List.mem_range.1 hj)
    · intro hi
      exact ⟨k.pixel r c i, List.mem_range.2 (mirrorPixel_lt k hi), pixel_pixel k hi⟩

theorem pattern_of_range {α : Type} (k : MirrorPlane) (r c : ℕ) (f : ℕ → α) :
    k.pattern r c ((List.range (r * c)).map f) = (List.range (r * c)).map fun i => f (k.pixel r c i) := by
  unfold MirrorPlane.pattern
  rw [List.filterMap_eq_map_iff_forall_eq_some.2]
  intro i hi
  simp [mirrorPixel_lt k (List.mem_range.1 hi)]

theorem as_range {α : Type} (x : α) {n : ℕ} {p : List α} (h : p.length = n) :
    p = (List.range n).map fun i => p.getD i x := by
  subst h
  apply List.ext_getElem
  · simp
  · intro i h1 h2
    simp [h1]

/-- C148: mirroring twice changes nothing. -/
theorem C148_twice {α : Type} (k : MirrorPlane) {r c : ℕ} {p : List α} (h : p.length = r * c) :
    k.pattern r c (k.pattern r c p) = p := by
  rcases p with _ | ⟨x, p⟩
  · simp [MirrorPlane.pattern]
  · rw [as_range x h, pattern_of_range, pattern_of_range]
    refine List.map_congr_left fun i hi => ?_
    rw [pixel_pixel k (List.mem_range.1 hi)]

/-! ### Directions in the mirror -/

/-- The mirror image of a vector in the frame of the screen. -/
def MirrorPlane.screen : MirrorPlane → V3 ℝ → V3 ℝ
  | .leftAndRight, v => ⟨-v.x, v.y, v.z⟩
  | .upAndDown, v => ⟨v.x, -v.y, v.z⟩

theorem screen_mirrored (k : MirrorPlane) (d : Detector ℝ) (v : V3 ℝ) :
    (k.detector d).sampleToDetector.apply (k.sample v) = MirrorPlane.screen k (d.sampleToDetector.apply v) := by
  rw [C08_detector_in_degrees, C08_detector_in_degrees]
  have n : ∀ t : ℝ, -t * Real.pi / 180 = -(t * Real.pi / 180) := fun t => by ring
  have n2 : ∀ s t : ℝ, (-s - -t) * Real.pi / 180 = -((s - t) * Real.pi / 180) := fun s t => by ring
  cases k
  · simp only [MirrorPlane.detector, MirrorPlane.sample, MirrorPlane.screen, n, Real.cos_neg, Real.sin_neg]
    ext <;> simp only <;> ring
  · simp only [MirrorPlane.detector, MirrorPlane.sample, MirrorPlane.screen, n, n2, Real.cos_neg, Real.sin_neg]
    ext <;> simp only <;> ring

theorem transpose_mirrored (k : MirrorPlane) (d : Detector ℝ) (w : V3 ℝ) :
    (k.detector d).sampleToDetector.transpose.apply (MirrorPlane.screen k w) =
      k.sample (d.sampleToDetector.transpose.apply w) := by
  have hp : ∀ d : Detector ℝ, ProperRotation d.sampleToDetector := fun d =>
    C08_sample_to_detector_is_proper_rotation _ _ _ _
  have e : (k.detector d).sampleToDetector.apply
      ((k.detector d).sampleToDetector.transpose.apply (MirrorPlane.screen k w)) =
      (k.detector d).sampleToDetector.apply (k.sample (d.sampleToDetector.transpose.apply w)) := by
    rw [(hp _).apply_transpose, screen_mirrored, (hp _).apply_transpose]
  rw [← screenQuat_rotates, ← screenQuat_rotates] at e
  have := congrArg (rotateVector (screenQuat (k.detector d)).conj) e
  rwa [conj_rotate (screenQuat_unit _), conj_rotate (screenQuat_unit _)] at this

theorem normalize_mirrored (k : MirrorPlane) (v : V3 ℝ) :
    normalizeV (k.sample v) = k.sample (normalizeV v) := by
  cases k <;> simp [normalizeV, MirrorPlane.sample, neg_div]

/-- The direction of one pixel. -/
def pixelDirection (d : Detector ℝ) (p : PC ℝ) (i : ℕ) : V3 ℝ :=
  normalizeV (d.sampleToDetector.transpose.apply
    ⟨(d.xMin p + ((i % d.ncols : ℕ) + 1 / 2) * ((d.xMax p - d.xMin p) / d.ncols)) * p.z,
     (d.yMax p - ((i / d.ncols : ℕ) + 1 / 2) * ((d.yMax p - d.yMin p) / d.nrows)) * p.z, p.z⟩)

theorem maskedIndices_full (n : ℕ) : maskedIndices (List.replicate n true) = List.range n := by
  unfold maskedIndices
  rw [List.length_replicate, List.filter_eq_self.2]
  intro i hi
  simp [List.mem_range.1 hi]

theorem pcDirections_full (d : Detector ℝ) {p : PC ℝ} (hz : 0 < p.z) :
    pcDirections d d.sampleToDetector (List.replicate (d.nrows * d.ncols) true) p =
      (List.range (d.nrows * d.ncols)).map (pixelDirection d p) := by
  unfold pcDirections directionCosinesFixed
  rw [maskedIndices_full]
  refine List.map_congr_left fun i hi => ?_
  have hi := List.mem_range.1 hi
  have hc : 0 < d.ncols := Nat.pos_of_ne_zero fun h => by simp [h] at hi
  have h1 : i / d.ncols < d.nrows := Nat.div_lt_of_lt_mul (by rwa [Nat.mul_comm] at hi)
  have h0 : 0 ≤ i / d.ncols := Nat.zero_le _
  have h2 := Nat.mod_lt i hc
  have hnr : (d.nrows : ℝ) ≠ 0 := by
    have : d.nrows ≠ 0 := by omega
    exact_mod_cast this
  have hnc : (d.ncols : ℝ) ≠ 0 := by exact_mod_cast hc.ne'
  have hdx : d.xMax p - d.xMin p = d.aspect / p.z := by
    unfold Detector.xMax Detector.xMin; field_simp; ring
  have hdy : d.yMax p - d.yMin p = 1 / p.z := by
    unfold Detector.yMax Detector.yMin; field_simp; ring
  have hasp : d.aspect ≠ 0 := div_ne_zero hnc hnr
  have hxne : d.xMin p ≠ d.xMax p := by
    intro h
    rw [h, sub_self] at hdx
    exact div_ne_zero hasp hz.ne' hdx.symm
  have hyne : d.yMax p ≠ d.yMin p := by
    intro h
    rw [h, sub_self] at hdy
    exact div_ne_zero one_ne_zero hz.ne' hdy.symm
  unfold Detector.gnomonicBounds pixelDirection
  simp only
  rw [arange_getD hxne h2, show -((d.yMax p - d.yMin p) / (d.nrows : ℝ)) =
    (d.yMin p - d.yMax p) / d.nrows by ring, arange_getD hyne h1]
  congr 3 <;> ring

theorem pixelDirection_mirrored (k : MirrorPlane) (d : Detector ℝ) {p : PC ℝ} (hz : 0 < p.z) {i : ℕ}
    (hi : i < d.nrows * d.ncols) :
    pixelDirection (k.detector d) (k.center p) i = k.sample (pixelDirection d p (k.pixel d.nrows d.ncols i)) := by
  have hc : 0 < d.ncols := Nat.pos_of_ne_zero fun h => by simp [h] at hi
  have h1 : i / d.ncols < d.nrows := Nat.div_lt_of_lt_mul (by rwa [Nat.mul_comm] at hi)
  have h0 : 0 ≤ i / d.ncols := Nat.zero_le _
  have h2 := Nat.mod_lt i hc
  have hnr : (d.nrows : ℝ) ≠ 0 := by
    have : d.nrows ≠ 0 := by omega
    exact_mod_cast this
  have hnc : (d.ncols : ℝ) ≠ 0 := by exact_mod_cast hc.ne'
  obtain ⟨e1, e2⟩ := pixel_div_mod k hi
  unfold pixelDirection
  rw [e1, e2, ← normalize_mirrored, ← transpose_mirrored]
  congr 2
  cases k
  · simp only [MirrorPlane.detector, MirrorPlane.center, MirrorPlane.screen, Detector.xMin, Detector.xMax,
      Detector.yMin, Detector.yMax, Detector.aspect]
    rw [Nat.cast_sub (show i % d.ncols ≤ d.ncols - 1 by omega), Nat.cast_sub (show 1 ≤ d.ncols by omega)]
    ext <;> simp only
    field_simp
    push_cast
    ring
  · simp only [MirrorPlane.detector, MirrorPlane.center, MirrorPlane.screen, Detector.xMin, Detector.xMax,
      Detector.yMin, Detector.yMax, Detector.aspect]
    rw [Nat.cast_sub (show i / d.ncols ≤ d.nrows - 1 by omega), Nat.cast_sub (show 1 ≤ d.nrows by omega)]
    ext <;> simp only
    field_simp
    push_cast
    ring

theorem pixelDirection_ne_zero (d : Detector ℝ) {p : PC ℝ} (hz : 0 < p.z) {i : ℕ}
    (hi : i < d.nrows * d.ncols) : pixelDirection d p i ≠ ⟨0, 0, 0⟩ := by
  have hp : ProperRotation d.sampleToDetector := C08_sample_to_detector_is_proper_rotation _ _ _ _
  refine pcDirections_ne_zero d hp hz (List.replicate (d.nrows * d.ncols) true) _ ?_
  rw [pcDirections_full d hz]
  exact List.mem_map.2 ⟨i, List.mem_range.2 hi, rfl⟩

/-! ### Patterns in the mirror -/

theorem projectPattern_mirrored (k : MirrorPlane) {g : GridOp} {u l u' l' : Img ℝ}
    (h : TurnedHemispheres g u l u' l') {q q' : Quat} (hq : Spec.lenSq q = 1) (hc : k.Crystal g q q')
    {r c : ℕ} {f f' : ℕ → V3 ℝ} (hf : ∀ i < r * c, f' i = k.sample (f (k.pixel r c i)))
    (hne : ∀ i < r * c, f i ≠ ⟨0, 0, 0⟩) (rescale : Bool) (omin omax : ℝ) (dt : DType) :
    projectPattern q' u' l' u'.cols u'.rows (((u'.cols : ℝ) - 1) / 2) ((List.range (r * c)).map f')
        rescale omin omax dt =
      k.pattern r c (projectPattern q u l u.cols u.rows (((u.cols : ℝ) - 1) / 2)
        ((List.range (r * c)).map f) rescale omin omax dt) := by
  unfold projectPattern
  simp only [List.map_map]
  have e : (List.range (r * c)).map (projectPixel q' u' l' u'.cols u'.rows (((u'.cols : ℝ) - 1) / 2) ∘ f') =
      (List.range (r * c)).map fun i =>
        (projectPixel q u l u.cols u.rows (((u.cols : ℝ) - 1) / 2) ∘ f) (k.pixel r c i) := by
    refine List.map_congr_left fun i hi => ?_
    have hi := List.mem_range.1 hi
    simp only [Function.comp]
    rw [projectPixel_intensity, projectPixel_intensity, hf i hi, hc]
    exact C137_intensity h fun _ => rotate_ne_zero hq (hne _ (mirrorPixel_lt k hi))
  rw [e]
  generalize projectPixel q u l u.cols u.rows (((u.cols : ℝ) - 1) / 2) ∘ f = P
  have hs : ∀ x, x ∈ (List.range (r * c)).map (fun i => P (k.pixel r c i)) ↔ x ∈ (List.range (r * c)).map P := by
    intro x
    have := ((pixel_perm k r c).map P).mem_iff (a := x)
    rwa [List.map_map] at this
  cases rescale
  · simp only [Bool.false_eq_true, if_false, List.map_map]
    rw [pattern_of_range]
    rfl
  · simp only [if_true, rescaleWithMinMax, listMin_same_set hs, listMax_same_set hs, List.map_map]
    rw [pattern_of_range]
    rfl

theorem getPatternsCore_image {R D P P' : Type*} (proj : R → D → P) (f : P → P') (shape nav chunks : List ℕ)
    (rots : List R) (dcs : List D) :
    getPatternsCore (fun r x => f (proj r x)) shape rots nav dcs chunks =
      (getPatternsCore proj shape rots nav dcs chunks).map fun o => (o.1, o.2.map (Option.map f)) := by
  have hfix : ∀ (dc : D) (rs : List R), projectFixed (fun r x => f (proj r x)) dc rs =
      (projectFixed proj dc rs).map (Option.map f) := by
    intro dc rs
    simp [projectFixed]
  have hvar : ∀ (rs : List R) (ds : List D), projectVarying (fun r x => f (proj r x)) rs ds =
      (projectVarying proj rs ds).map (Option.map f) := by
    intro rs ds
    unfold projectVarying
    rw [List.map_map]
    refine List.map_congr_left fun i _ => ?_
    simp only [Function.comp]
    cases rs[i]? <;> cases ds[i]? <;> rfl
  unfold getPatternsCore
  split
  · rfl
  · split
    · rfl
    · split
      · cases dcs with
        | nil => rfl
        | cons dc _ =>
          simp only [Except.map, List.map_flatten, List.map_map]
          congr 4
          funext rs
          exact hfix dc rs
      · simp only [Except.map, List.map_flatten, List.map_zipWith]
        congr 4
        funext rs ds
        exact hvar rs ds

/-- C148: the mirror image of an experiment has the mirror images of its patterns. With the mirrored master
pattern, mirrored orientations and mirrored detector, all simulated patterns are the mirror images of the
simulated patterns: for every detector with PCs in front of it, all angles, energy, data type, shape and
chunks, also in that the same errors are raised. -/
theorem C148_patterns (k : MirrorPlane) {g : GridOp} {mp mp' : MasterPattern} (h : TurnedMaster g mp mp')
    {rots rots' : List Quat} (hr : List.Forall₂ (k.Crystal g) rots rots') (hq : ∀ q ∈ rots, Spec.lenSq q = 1)
    {d : Detector ℝ} (hlen : d.pc.length = d.nav.prod) (hz : ∀ p ∈ d.pc, 0 < p.z) (rotShape : List ℕ)
    (energy : Option ℝ) (dtypeOut : DType) (chunks : List ℕ) :
    mp'.simulate rotShape rots' (k.detector d) energy dtypeOut chunks =
      (mp.simulate rotShape rots d energy dtypeOut chunks).map
        fun o => (o.1, o.2.map (Option.map (k.pattern d.nrows d.ncols))) := by
  have hsuit : mp'.checkSuitable = mp.checkSuitable := by
    obtain ⟨h1, h2, h3, _⟩ := h
    unfold MasterPattern.checkSuitable
    rw [h1, h2, h3]
  have hdt : mp'.dtype = mp.dtype := h.2.2.2.1
  have hnav : (k.detector d).nav = d.nav := by cases k <;> rfl
  have hrows : (k.detector d).nrows = d.nrows := by cases k <;> rfl
  have hcols : (k.detector d).ncols = d.ncols := by cases k <;> rfl
  have hpc : (k.detector d).pc = d.pc.map k.center := by cases k <;> rfl
  have hcz : ∀ p, (k.center p).z = p.z := by intro p; cases k <;> rfl
  unfold MasterPattern.simulate MasterPattern.getPatterns
  rw [hsuit, hdt, hnav]
  simp only
  cases mp.checkSuitable with
  | error e => rfl
  | ok _ =>
    simp only
    split
    · rfl
    · split
      · rfl
      · rcases arraysFromEnergy_turned h energy with ⟨e, e'⟩ | ⟨a, a', e, e', ht⟩
        · rw [e, e']
          cases (if decide (dtypeOut ≠ mp.dtype) then dtypeRange dtypeOut else some (1, 2)) <;> rfl
        · rw [e, e']
          generalize (if decide (dtypeOut ≠ mp.dtype) then dtypeRange dtypeOut else some (1, 2)) = s
          cases s with
          | none => rfl
          | some s =>
            simp only
            rw [← getPatternsCore_image]
            refine (getPatternsCore_congr (A := fun q q' => Spec.lenSq q = 1 ∧ k.Crystal g q q')
              (B := fun x x' => ∃ f f', x = (List.range (d.nrows * d.ncols)).map f ∧
                x' = (List.range (d.nrows * d.ncols)).map f' ∧
                (∀ i < d.nrows * d.ncols, f' i = k.sample (f (k.pixel d.nrows d.ncols i))) ∧
                ∀ i < d.nrows * d.ncols, f i ≠ ⟨0, 0, 0⟩) ?_ ?_ ?_ _ _ _).symm
            · rintro q q' x x' ⟨hq, hc⟩ ⟨f, f', rfl, rfl, hf, hne⟩
              exact (projectPattern_mirrored k ht hq hc hf hne _ _ _ _).symm
            · clear h hsuit hdt
              induction hr with
              | nil => exact .nil
              | cons hc _ ih =>
                exact .cons ⟨hq _ (by simp), hc⟩ (ih fun q hm => hq q (by simp [hm]))
            · rw [C30_each_pc hlen, C30_each_pc (by rw [hnav, hpc, List.length_map, hlen]), hpc,
                List.map_map, List.forall₂_map_left_iff, List.forall₂_map_right_iff, List.forall₂_same]
              intro p hp
              have hz := hz p hp
              refine ⟨_, _, pcDirections_full d hz, ?_, fun i hi => pixelDirection_mirrored k d hz hi,
                fun i hi => pixelDirection_ne_zero d hz hi⟩
              have := pcDirections_full (k.detector d) (p := k.center p) (by rwa [hcz])
              rw [hrows, hcols] at this
              simpa [hrows, hcols] using this

/-- C148: in the mirror image of a pattern, columns come from right to left, or rows from bottom to top. -/
theorem C148_pixels {α : Type} {r c : ℕ} {p : List α} (h : p.length = r * c) {i j : ℕ} (hi : i < r) (hj : j < c) :
    (MirrorPlane.leftAndRight.pattern r c p)[i * c + j]? = p[i * c + (c - 1 - j)]? ∧
      (MirrorPlane.upAndDown.pattern r c p)[i * c + j]? = p[(r - 1 - i) * c + j]? := by
  have hij : i * c + j < r * c := calc
    i * c + j < i * c + c := by omega
    _ = (i + 1) * c := by ring
    _ ≤ r * c := Nat.mul_le_mul_right _ hi
  rcases p with _ | ⟨x, p⟩
  · simp at h
    rcases h with rfl | rfl <;> omega
  · have hdiv : (i * c + j) / c = i := by
      rw [Nat.mul_comm, Nat.mul_add_div (by omega), Nat.div_eq_of_lt hj, Nat.add_zero]
    have hmod : (i * c + j) % c = j := by
      rw [Nat.mul_comm, Nat.mul_add_mod, Nat.mod_eq_of_lt hj]
    have key : ∀ k : MirrorPlane, (k.pattern r c (x :: p))[i * c + j]? =
        (x :: p)[k.pixel r c (i * c + j)]? := by
      intro k
      have hl := mirrorPixel_lt k hij
      conv_lhs => rw [as_range x h, pattern_of_range]
      rw [List.getElem?_map, List.getElem?_range hij, Option.map_some, List.getElem?_eq_getElem (by rwa [h])]
      simp [h, hl]
    rw [key, key]
    unfold MirrorPlane.pixel
    simp only [hdiv, hmod, and_self]

/-! ### Mirrored orientations -/

theorem crystal_flipY (q : Quat) :
    MirrorPlane.leftAndRight.Crystal ⟨false, false, true, false⟩ q ⟨q.a, -q.b, q.c, -q.d⟩ := by
  intro v
  simp only [MirrorPlane.sample, rotateVector, GridOp.act]
  ext <;> simp <;> ring

theorem crystal_flipZ (q : Quat) :
    MirrorPlane.upAndDown.Crystal ⟨false, false, false, true⟩ q ⟨q.a, -q.b, -q.c, q.d⟩ := by
  intro v
  simp only [MirrorPlane.sample, rotateVector, GridOp.act]
  ext <;> simp <;> ring

/-- C148: every orientation has a mirror image, for both mirrors and every operation which mirrors the
crystal. -/
theorem C148_orientations (k : MirrorPlane) {g : GridOp} (hg : ¬ g.IsRotation) {q : Quat}
    (hq : Spec.lenSq q = 1) : ∃ q', Spec.lenSq q' = 1 ∧ k.Crystal g q q' := by
  have hg' : (g.swap ^^ g.flipX ^^ g.flipY ^^ g.flipZ) = true := by
    unfold GridOp.IsRotation at hg
    simpa using hg
  have len : ∀ s t : Quat, Spec.lenSq s = 1 → Spec.lenSq t = 1 → Spec.lenSq (s.mul t) = 1 := by
    intro s t hs ht
    have : Spec.lenSq (s.mul t) = Spec.lenSq s * Spec.lenSq t := by
      simp only [Spec.lenSq, Quat.mul]
      ring
    rw [this, hs, ht, one_mul]
  obtain ⟨s, hs, ha⟩ := C137_rotations (g := ⟨g.swap, !g.flipX, !g.flipY, !g.flipZ⟩) (by
    unfold GridOp.IsRotation
    revert hg'
    cases g.swap <;> cases g.flipX <;> cases g.flipY <;> cases g.flipZ <;> simp)
  have hneg : ∀ w, g.act w = rotateVector s ⟨-w.x, -w.y, -w.z⟩ := by
    intro w
    rw [ha]
    unfold GridOp.act
    cases g.swap <;> cases g.flipX <;> cases g.flipY <;> cases g.flipZ <;> simp
  have hq' : ∀ w, rotateVector q ⟨-w.x, -w.y, -w.z⟩ =
      ⟨-(rotateVector q w).x, -(rotateVector q w).y, -(rotateVector q w).z⟩ := by
    intro w
    simp only [rotateVector]
    ext <;> simp only <;> ring
  cases k with
  | leftAndRight =>
    refine ⟨s.mul (q.mul ⟨0, 0, 1, 0⟩), len _ _ hs (len _ _ hq (by simp [Spec.lenSq])), fun v => ?_⟩
    rw [rotateVector_mul, rotateVector_mul, hneg, ← hq']
    congr 2
    simp [rotateVector, MirrorPlane.sample]
  | upAndDown =>
    refine ⟨s.mul (q.mul ⟨0, 0, 0, 1⟩), len _ _ hs (len _ _ hq (by simp [Spec.lenSq])), fun v => ?_⟩
    rw [rotateVector_mul, rotateVector_mul, hneg, ← hq']
    congr 2
    simp [rotateVector, MirrorPlane.sample]

/-- C148: only with operations which mirror: the mirror image of an orientation of a crystal is no
orientation of the crystal itself. -/
theorem C148_only_mirrors (k : MirrorPlane) {g : GridOp} {q q' : Quat} (hq : Spec.lenSq q = 1)
    (h : k.Crystal g q q') : ¬ g.IsRotation := by
  intro hg
  obtain ⟨s, hs, ha⟩ := C137_rotations hg
  -- the mirror in the sample would be a rotation
  have hunit : s.a ^ 2 + s.b ^ 2 + s.c ^ 2 + s.d ^ 2 = 1 := hs
  have hunit' : q.a ^ 2 + q.b ^ 2 + q.c ^ 2 + q.d ^ 2 = 1 := hq
  have key : ∀ v, rotateVector ((s.mul q).conj.mul q') (k.sample v) = v := by
    intro v
    have hl : (s.mul q).a ^ 2 + (s.mul q).b ^ 2 + (s.mul q).c ^ 2 + (s.mul q).d ^ 2 = 1 := by
      have : (s.mul q).a ^ 2 + (s.mul q).b ^ 2 + (s.mul q).c ^ 2 + (s.mul q).d ^ 2 =
          (s.a ^ 2 + s.b ^ 2 + s.c ^ 2 + s.d ^ 2) * (q.a ^ 2 + q.b ^ 2 + q.c ^ 2 + q.d ^ 2) := by
        simp only [Quat.mul]
        ring
      rw [this, hunit, hunit', one_mul]
    rw [rotateVector_mul, h v, ← ha, ← rotateVector_mul s q, conj_rotate hl]
  generalize (s.mul q).conj.mul q' = t at key
  cases k with
  | leftAndRight =>
    have : ActsAs t ⟨false, false, true, false⟩ := by
      intro v
      have e := key ⟨v.x, -v.y, v.z⟩
      simp only [MirrorPlane.sample, neg_neg] at e
      rw [e]
      simp [GridOp.act]
    simpa [GridOp.IsRotation] using C137_only_rotations this
  | upAndDown =>
    have : ActsAs t ⟨false, false, false, true⟩ := by
      intro v
      have e := key ⟨v.x, v.y, -v.z⟩
      simp only [MirrorPlane.sample, neg_neg] at e
      rw [e]
      simp [GridOp.act]
    simpa [GridOp.IsRotation] using C137_only_rotations this

theorem crystal_positive {k : MirrorPlane} {g : GridOp} {q q' : Quat} (h : k.Crystal g q q') :
    k.Crystal g (positiveScalar q) (positiveScalar q') := by
  have e : ∀ (q : Quat) (v : V3 ℝ), rotateVector (positiveScalar q) v = rotateVector q v := by
    intro q v
    unfold positiveScalar
    split
    · simp only [rotateVector, neg_sq, neg_mul_neg]
    · rfl
  intro v
  rw [e, e, h v]

/-- C148: with Euler angles, all three change sign when left and right are exchanged, and the crystal is
mirrored in the plane with `y = 0`; the second one changes sign when up and down are exchanged, and the
crystal is mirrored in the plane with `z = 0`. -/
theorem C148_euler (alpha beta gamma : ℝ) :
    MirrorPlane.leftAndRight.Crystal ⟨false, false, true, false⟩ (rotationFromEuler alpha beta gamma)
        (rotationFromEuler (-alpha) (-beta) (-gamma)) ∧
      MirrorPlane.upAndDown.Crystal ⟨false, false, false, true⟩ (rotationFromEuler alpha beta gamma)
        (rotationFromEuler alpha (-beta) gamma) := by
  unfold rotationFromEuler
  refine ⟨crystal_positive ?_, crystal_positive ?_⟩
  · convert crystal_flipY _ using 1
    have h1 : (-alpha + -gamma) / 2 = -((alpha + gamma) / 2) := by ring
    have h2 : (-alpha - -gamma) / 2 = -((alpha - gamma) / 2) := by ring
    simp only [h1, h2, neg_div, Real.cos_neg, Real.sin_neg, Quat.mk.injEq]
    refine ⟨trivial, ?_, ?_, ?_⟩ <;> ring
  · convert crystal_flipZ _ using 1
    simp only [neg_div, Real.cos_neg, Real.sin_neg, Quat.mk.injEq]
    refine ⟨trivial, ?_, ?_, trivial⟩ <;> ring

/-- C148: for crystals with a center of symmetry no mirrored crystal is needed: half a turn of the crystal
about the normal of the mirror gives the mirrored patterns, with the same master pattern. -/
theorem C148_centre {mp : MasterPattern} (h : TurnedMaster ⟨false, true, true, true⟩ mp mp)
    {rots : List Quat} (hq : ∀ q ∈ rots, Spec.lenSq q = 1)
    {d : Detector ℝ} (hlen : d.pc.length = d.nav.prod) (hz : ∀ p ∈ d.pc, 0 < p.z) (rotShape : List ℕ)
    (energy : Option ℝ) (dtypeOut : DType) (chunks : List ℕ) :
    mp.simulate rotShape (rots.map (Quat.mul · ⟨0, 0, 1, 0⟩)) (MirrorPlane.leftAndRight.detector d) energy
        dtypeOut chunks =
      (mp.simulate rotShape rots d energy dtypeOut chunks).map
        (fun o => (o.1, o.2.map (Option.map (MirrorPlane.leftAndRight.pattern d.nrows d.ncols)))) ∧
    mp.simulate rotShape (rots.map (Quat.mul · ⟨0, 0, 0, 1⟩)) (MirrorPlane.upAndDown.detector d) energy
        dtypeOut chunks =
      (mp.simulate rotShape rots d energy dtypeOut chunks).map
        (fun o => (o.1, o.2.map (Option.map (MirrorPlane.upAndDown.pattern d.nrows d.ncols)))) := by
  constructor <;> refine C148_patterns _ h ?_ hq hlen hz _ _ _ _
  all_goals
    rw [List.forall₂_map_right_iff, List.forall₂_same]
    intro q _ v
    rw [rotateVector_mul]
    simp only [rotateVector, MirrorPlane.sample, GridOp.act]
    ext <;> simp <;> ring

/-! ### Scores -/

theorem pearson_perm {I I' : List ℕ} (h : I'.Perm I) (a b : ℕ → ℝ) :
    Spec.pearson (I'.map a) (I'.map b) = Spec.pearson (I.map a) (I.map b) := by
  have avg : ∀ a : ℕ → ℝ, Spec.avg (I'.map a) = Spec.avg (I.map a) := by
    intro a
    unfold Spec.avg
    rw [(h.map a).sum_eq, List.length_map, List.length_map, h.length_eq]
  have z : ∀ I : List ℕ, (I.map a).zip (I.map b) = I.map fun i => (a i, b i) := by
    intro I
    rw [List.zip_map', ]
  unfold Spec.pearson
  rw [avg, avg, z, z]
  simp only [List.map_map]
  rw [(h.map _).sum_eq, (h.map _).sum_eq, (h.map ((fun x => (x - Spec.avg (I.map b)) ^ 2) ∘ b)).sum_eq]

theorem keep_range (m : ℕ → Bool) (a : ℕ → ℝ) (n : ℕ) :
    Spec.keep (some ((List.range n).map m)) ((List.range n).map a) =
      ((List.range n).filter fun i => !m i).map a := by
  unfold Spec.keep
  simp only
  rw [List.zip_map', List.filter_map, List.map_map]
  rfl

theorem score_mirrored (k : MirrorPlane) {r c : ℕ} {a b : List ℝ} (ha : a.length = r * c) (hb : b.length = r * c)
    (mask : Option (List Bool)) (hm : ∀ m, mask = some m → m.length = r * c) :
    Spec.pearson (Spec.keep (mask.map (k.pattern r c)) (k.pattern r c a))
        (Spec.keep (mask.map (k.pattern r c)) (k.pattern r c b)) =
      Spec.pearson (Spec.keep mask a) (Spec.keep mask b) := by
  rw [as_range 0 ha, as_range 0 hb, pattern_of_range, pattern_of_range]
  cases mask with
  | none =>
    simp only [Option.map_none, Spec.keep]
    have := pearson_perm (pixel_perm k r c) (fun i => a.getD i 0) (fun i => b.getD i 0)
    rwa [List.map_map, List.map_map] at this
  | some m =>
    rw [Option.map_some, as_range false (hm m rfl), pattern_of_range, keep_range, keep_range, keep_range,
      keep_range]
    have hp := (pixel_perm k r c).filter fun i => !m.getD i false
    have := pearson_perm hp (fun i => a.getD i 0) (fun i => b.getD i 0)
    rw [List.filter_map, List.map_map, List.map_map] at this
    exact this

theorem simulated_size {a : RefineArgs} {q : Quat} {p : PC ℝ} {sim : List ℝ} (h : IsSimulated a q p sim) :
    sim.length = a.det.nrows * a.det.ncols := by
  have hs : a.mp.checkSuitable = .ok () := by
    unfold IsSimulated MasterPattern.getPatterns at h
    cases hs : a.mp.checkSuitable with
    | error e => rw [hs] at h; cases h
    | ok _ => rfl
  have ha : ∃ u l, a.mp.arraysFromEnergy a.energy = some (u, l) := by
    unfold IsSimulated MasterPattern.getPatterns at h
    rw [hs] at h
    cases ha : a.mp.arraysFromEnergy a.energy with
    | some x => exact ⟨x.1, x.2, rfl⟩
    | none =>
      rw [ha] at h
      simp only at h
      split at h
      · cases h
      · split at h
        · cases h
        · cases hr : (if decide (DType.float 32 ≠ a.mp.dtype) then dtypeRange (.float 32) else some (1, 2)) with
          | none => rw [hr] at h; cases h
          | some r => rw [hr] at h; cases h
  obtain ⟨u, l, ha⟩ := ha
  unfold IsSimulated at h
  rw [getPatterns_single a hs ha q p] at h
  simp only [Except.ok.injEq, Prod.mk.injEq, List.cons.injEq, Option.some.injEq, and_true, true_and] at h
  rw [← h]
  have hd : (pcDirections a.det a.m (List.replicate (a.det.nrows * a.det.ncols) true) p).length =
      a.det.nrows * a.det.ncols := by
    unfold pcDirections directionCosinesFixed
    simp only [List.length_map, maskedIndices_length, List.count_replicate_self]
  unfold projectPattern
  simp only [List.length_map]
  split
  · rw [rescaleWithMinMax, List.length_map, List.length_map, hd]
  · rw [List.length_map, hd]

/-- C148: refinement cannot tell an experiment from its mirror image: the simulated patterns are the mirror
images, and the mirror images of patterns have the same scores, with the mirror image of the signal mask. -/
theorem C148_scores (k : MirrorPlane) {g : GridOp} {a : RefineArgs} (hm : a.m = a.det.sampleToDetector)
    {mp' : MasterPattern} (h : TurnedMaster g a.mp mp') {q q' : Quat} (hq : Spec.lenSq q = 1)
    (hc : k.Crystal g q q') {p : PC ℝ} (hz : 0 < p.z)
    (hmask : ∀ m, a.signalMask = some m → m.length = a.det.nrows * a.det.ncols) :
    (∀ sim, IsSimulated a q p sim →
      IsSimulated (k.refinement a mp') q' (k.center p) (k.pattern a.det.nrows a.det.ncols sim)) ∧
    ∀ pattern s, pattern.length = a.det.nrows * a.det.ncols →
      (IsScore (k.refinement a mp') (k.pattern a.det.nrows a.det.ncols pattern) q' (k.center p) s ↔
        IsScore a pattern q p s) := by
  have key := C148_patterns k h (rots := [q]) (rots' := [q']) (.cons hc .nil) (by simpa using hq)
    (d := { a.det with nav := [1], pc := [p] }) rfl (by simpa using hz) [1] a.energy (.float 32) [1]
  have hdet : { (k.refinement a mp').det with nav := [1], pc := [k.center p] } =
      k.detector { a.det with nav := [1], pc := [p] } := by
    cases k <;> rfl
  have hs2d : (k.refinement a mp').m = (k.detector { a.det with nav := [1], pc := [p] }).sampleToDetector := by
    cases k <;> rfl
  have hsim : ∀ sim, IsSimulated a q p sim →
      IsSimulated (k.refinement a mp') q' (k.center p) (k.pattern a.det.nrows a.det.ncols sim) := by
    intro sim hsim
    unfold IsSimulated at hsim ⊢
    rw [hdet, hs2d]
    unfold MasterPattern.simulate at key
    rw [hm] at hsim
    refine key.trans ?_
    change Except.map _ (a.mp.getPatterns _ _ _ a.det.sampleToDetector _ _ _) = _
    rw [hsim]
    rfl
  have hlen : ∀ sim, IsSimulated a q p sim → sim.length = a.det.nrows * a.det.ncols :=
    fun sim => simulated_size
  refine ⟨hsim, fun pattern s hl => ⟨?_, ?_⟩⟩
  · rintro ⟨sim', h1, h2⟩
    rw [hdet, hs2d] at h1
    have e := key.symm.trans h1
    change Except.map _ (a.mp.getPatterns [1] [q] _ a.det.sampleToDetector a.energy (.float 32) [1]) = _ at e
    cases hg : a.mp.getPatterns [1] [q] { a.det with nav := [1], pc := [p] } a.det.sampleToDetector a.energy
        (.float 32) [1] with
    | error err =>
      rw [hg] at e
      cases e
    | ok o =>
      rw [hg] at e
      obtain ⟨shape, pats⟩ := o
      simp only [Except.map, Except.ok.injEq, Prod.mk.injEq] at e
      obtain ⟨rfl, e⟩ := e
      obtain ⟨x, hx, rfl⟩ : ∃ x, x.map (k.pattern a.det.nrows a.det.ncols) = some sim' ∧ pats = [x] := by
        rcases pats with _ | ⟨x, _ | ⟨y, ys⟩⟩
        · cases e
        · simp only [List.map_cons, List.map_nil, List.cons.injEq, and_true] at e
          exact ⟨x, e, rfl⟩
        · simp at e
      obtain ⟨sim, rfl, rfl⟩ := Option.map_eq_some_iff.1 hx
      have h3 : IsSimulated a q p sim := by
        unfold IsSimulated
        rw [hm]
        exact hg
      refine ⟨sim, h3, ?_⟩
      rw [h2]
      exact score_mirrored k hl (hlen sim h3) a.signalMask hmask
  · rintro ⟨sim, h1, h2⟩
    refine ⟨_, hsim sim h1, ?_⟩
    rw [h2]
    exact (score_mirrored k hl (hlen sim h1) a.signalMask hmask).symm

/-! ### Dictionary indexing -/

/-- The pixel seen in the mirror, as a one-to-one correspondence. -/
def mirrorEquiv (k : MirrorPlane) (r c : ℕ) : Fin (r * c) ≃ Fin (r * c) where
  toFun i := ⟨k.pixel r c i, mirrorPixel_lt k i.2⟩
  invFun i := ⟨k.pixel r c i, mirrorPixel_lt k i.2⟩
  left_inv i := Fin.ext (pixel_pixel k i.2)
  right_inv i := Fin.ext (pixel_pixel k i.2)

theorem onPixels_mirrored {α : Type} (k : MirrorPlane) {r c : ℕ} {p : List α} (h : p.length = r * c) (x : α) :
    (fun i : Fin (r * c) => (k.pattern r c p).getD i x) = (fun i : Fin (r * c) => p.getD i x) ∘ mirrorEquiv k r c := by
  funext i
  conv_lhs => rw [as_range x h, pattern_of_range]
  simp [mirrorEquiv]

/-- C148: dictionary indexing cannot tell an experiment from its mirror image. A dictionary simulated with
the mirrored master pattern, orientations and detector gives the mirror images of the experimental patterns
the same scores and the same indices of simulations, with both metrics, with the mirrored signal mask, and
whatever the navigation mask, the number of matches, the chunks and the sorting. -/
theorem C148_indexing (k : MirrorPlane) {g : GridOp} {mp mp' : MasterPattern} (h : TurnedMaster g mp mp')
    {rots rots' : List Quat} (hr : List.Forall₂ (k.Crystal g) rots rots') (hq : ∀ q ∈ rots, Spec.lenSq q = 1)
    {d : Detector ℝ} (hlen : d.pc.length = d.nav.prod) (hz : ∀ p ∈ d.pc, 0 < p.z) {rotShape shape : List ℕ}
    {energy : Option ℝ} {dtypeOut : DType} {chunks : List ℕ} {sims : List (List ℝ)}
    (hsim : mp.simulate rotShape rots d energy dtypeOut chunks = .ok (shape, sims.map some))
    (hl : ∀ s ∈ sims, s.length = d.nrows * d.ncols) {patterns : List (List ℝ)}
    (hp : ∀ p ∈ patterns, p.length = d.nrows * d.ncols) {mask : List Bool}
    (hm : mask.length = d.nrows * d.ncols) (argtopk argsort : List ℝ → List ℕ) (sign : ℤ) (keepN nPer : ℕ)
    (junk : List (List (Cand ℝ))) (navMask : Option (List Bool)) :
    ∃ sims' : List (List ℝ), mp'.simulate rotShape rots' (k.detector d) energy dtypeOut chunks = .ok (shape, sims'.map some) ∧
      let on := fun (p : List ℝ) (i : Fin (d.nrows * d.ncols)) => p.getD i 0
      let used := fun (m : List Bool) (i : Fin (d.nrows * d.ncols)) => m.getD i false
      let mirrored := k.pattern d.nrows d.ncols
      ∀ metric ∈ [ncc, ndp],
        indexMap (fun p => dictionaryIndexing argtopk argsort sign keepN nPer
            ((sims'.map on).map (metric (used (k.pattern d.nrows d.ncols mask)) p))) junk navMask
            ((patterns.map mirrored).map on) =
          indexMap (fun p => dictionaryIndexing argtopk argsort sign keepN nPer
            ((sims.map on).map (metric (used mask) p))) junk navMask (patterns.map on) := by
  refine ⟨sims.map (k.pattern d.nrows d.ncols), ?_, ?_⟩
  · rw [C148_patterns k h hr hq hlen hz, hsim]
    simp [Except.map, Function.comp_def]
  · intro on used mirrored metric hmetric
    have e1 : (sims.map mirrored).map on = (sims.map on).map (· ∘ mirrorEquiv k d.nrows d.ncols) := by
      rw [List.map_map, List.map_map]
      exact List.map_congr_left fun s hs => onPixels_mirrored k (hl s hs) 0
    have e2 : (patterns.map mirrored).map on = (patterns.map on).map (· ∘ mirrorEquiv k d.nrows d.ncols) := by
      rw [List.map_map, List.map_map]
      exact List.map_congr_left fun s hs => onPixels_mirrored k (hp s hs) 0
    have e3 : used (k.pattern d.nrows d.ncols mask) = used mask ∘ mirrorEquiv k d.nrows d.ncols :=
      onPixels_mirrored k hm false
    obtain ⟨h1, h2⟩ := C146_indexing (mirrorEquiv k d.nrows d.ncols) (used mask) (sims.map on) (patterns.map on)
      argtopk argsort sign keepN nPer junk navMask
    have hk : (sims.map (k.pattern d.nrows d.ncols)).map on = (sims.map mirrored).map on := rfl
    simp only [List.mem_cons, List.not_mem_nil, or_false] at hmetric
    rw [hk, e1, e2, e3]
    rcases hmetric with rfl | rfl
    · exact h1
    · exact h2

/-! ### Examples -/

/-- In the mirror, the first pixel of a pattern of 2 x 3 pixels is the last one of its row, or of its
column. -/
example : MirrorPlane.leftAndRight.pattern 2 3 [1, 2, 3, 4, 5, 6] = [3, 2, 1, 6, 5, 4] ∧
    MirrorPlane.upAndDown.pattern 2 3 [1, 2, 3, 4, 5, 6] = [4, 5, 6, 1, 2, 3] := by
  decide +kernel

/-- A master pattern of 3 x 3 pixels which differs from its mirror image, a detector with all angles and two
PCs, and two orientations with their mirror images: all hypotheses of `C148_patterns` are met. -/
example : ∃ (mp mp' : MasterPattern) (rots rots' : List Quat) (d : Detector ℝ),
    TurnedMaster ⟨false, false, true, false⟩ mp mp' ∧ mp' ≠ mp ∧
      List.Forall₂ (MirrorPlane.leftAndRight.Crystal ⟨false, false, true, false⟩) rots rots' ∧
      (∀ q ∈ rots, Spec.lenSq q = 1) ∧ rots.length = 2 ∧ rots ≠ rots' ∧ d.pc.length = d.nav.prod ∧
      (∀ p ∈ d.pc, 0 < p.z) ∧ d.azimuthal ≠ 0 ∧ d.twist ≠ 0 ∧
      MirrorPlane.leftAndRight.detector d ≠ d ∧ mp.checkSuitable = .ok () ∧
      (mp.arraysFromEnergy none).isSome := by
  let u : Img ℝ := ⟨3, 3, fun r c => r + c⟩
  let u' : Img ℝ := ⟨3, 3, fun r c => 2 - (r : ℝ) + c⟩
  let d : Detector ℝ := {
    nrows := 2, ncols := 3, pxSize := 1, binning := 1, nav := [2], pc := [⟨2 / 5, 1 / 5, 1 / 2⟩, ⟨1 / 2, 1 / 4, 3 / 5⟩], azimuthal := 3,
    twist := 1, tilt := 5, sampleTilt := 70 }
  refine ⟨⟨true, some true, false, [(20, u, u)], .float 32⟩, ⟨true, some true, false, [(20, u', u')], .float 32⟩,
    [⟨3 / 5, 4 / 5, 0, 0⟩, ⟨1, 0, 0, 0⟩], [⟨3 / 5, -(4 / 5), 0, -0⟩, ⟨1, -0, 0, -0⟩], d,
    ⟨rfl, rfl, rfl, rfl, ?_⟩, ?_, ?_, ?_, rfl, ?_, rfl, ?_, ?_, ?_, ?_, ?_, ?_⟩
  · refine .cons ⟨rfl, ⟨by norm_num [hemispheresAt, u], rfl, rfl, rfl, ?_, ?_, fun h => by cases h⟩⟩ .nil
    all_goals
      intro r c hr hc
      simp only [hemispheresAt, u, u'] at hr hc ⊢
      interval_cases r <;> interval_cases c <;> norm_num [GridOp.pixel]
  · intro e
    simp only [MasterPattern.mk.injEq, List.cons.injEq, Prod.mk.injEq, u, u', Img.mk.injEq] at e
    have := congrFun (congrFun e.2.2.2.1.1.2.1.2.2 0) 0
    norm_num at this
  · exact .cons (crystal_flipY ⟨3 / 5, 4 / 5, 0, 0⟩) (.cons (crystal_flipY ⟨1, 0, 0, 0⟩) .nil)
  · intro q hq
    simp only [List.mem_cons, List.not_mem_nil, or_false] at hq
    rcases hq with rfl | rfl <;> norm_num [Spec.lenSq]
  · intro e
    simp only [List.cons.injEq, Quat.mk.injEq] at e
    norm_num at e
  · intro p hp
    simp only [d, List.mem_cons, List.not_mem_nil, or_false] at hp
    rcases hp with rfl | rfl <;> norm_num
  · norm_num [d]
  · norm_num [d]
  · intro e
    have := congrArg Detector.twist e
    norm_num [MirrorPlane.detector, d] at this
  · rfl
  · rfl

/-- A master pattern with a center of symmetry, for `C148_centre`, with different hemispheres. -/
example : ∃ mp : MasterPattern, TurnedMaster ⟨false, true, true, true⟩ mp mp ∧ mp.both = true ∧
    ∀ a ∈ mp.arrays, a.2.1.val 1 1 ≠ a.2.2.val 1 1 := by
  let u : Img ℝ := ⟨5, 5, fun r c => if r = 1 ∧ c = 1 then 7 else 0⟩
  let l : Img ℝ := ⟨5, 5, fun r c => if r = 3 ∧ c = 3 then 7 else 0⟩
  refine ⟨⟨true, some true, true, [(20, u, l)], .float 32⟩, ⟨rfl, rfl, rfl, rfl, ?_⟩, rfl, by simp [u, l]⟩
  refine .cons ⟨rfl, ⟨by norm_num [hemispheresAt, u], rfl, rfl, rfl, ?_, ?_, ?_⟩⟩ .nil
  · intro r c hr hc
    simp only [hemispheresAt, u, l] at hr hc ⊢
    interval_cases r <;> interval_cases c <;> simp [GridOp.pixel]
  · intro r c hr hc
    simp only [hemispheresAt, u, l] at hr hc ⊢
    interval_cases r <;> interval_cases c <;> simp [GridOp.pixel]
  · intro _ r c hr hc hb
    simp only [hemispheresAt, u, l, if_true] at hr hc hb ⊢
    rw [if_neg (by omega), if_neg (by omega)]

/-- Inversion, and the mirrors, are operations which mirror. -/
example : ¬ (⟨false, true, true, true⟩ : GridOp).IsRotation ∧ ¬ (⟨false, false, true, false⟩ : GridOp).IsRotation ∧
    ¬ (⟨true, false, false, false⟩ : GridOp).IsRotation := by
  simp [GridOp.IsRotation]

end
end Kp
