import Verif.Spec.TiltFrames
import Verif.Props.PseudoSymmetry
import Verif.Props.CropSimulation
import Verif.Props.GainOffset
import Verif.Props.CropIndexing
import Verif.Model.PatternOverlay

/-
C135: only the rotation between crystal and screen matters.
-/

namespace Kp
open Spec
noncomputable section

/-! ### The rotation of a detector as a quaternion -/

/-- The inverse of a unit quaternion. -/
def Quat.conj (q : Quat) : Quat := ⟨q.a, -q.b, -q.c, -q.d⟩

theorem conj_rotate {q : Quat} (h : q.a ^ 2 + q.b ^ 2 + q.c ^ 2 + q.d ^ 2 = 1) (v : V3 ℝ) :
    rotateVector q.conj (rotateVector q v) = v := by
  simp only [rotateVector, Quat.conj]
  ext
  · linear_combination v.x * (q.a ^ 2 + q.b ^ 2 + q.c ^ 2 + q.d ^ 2 + 1) * h
  · linear_combination v.y * (q.a ^ 2 + q.b ^ 2 + q.c ^ 2 + q.d ^ 2 + 1) * h
  · linear_combination v.z * (q.a ^ 2 + q.b ^ 2 + q.c ^ 2 + q.d ^ 2 + 1) * h

theorem unit_conj {q : Quat} (h : IsUnitQuat q) : IsUnitQuat q.conj := by
  unfold IsUnitQuat Quat.conj at *
  simpa using h

theorem half_angle (t : ℝ) : Real.cos t = Real.cos (t / 2) ^ 2 - Real.sin (t / 2) ^ 2 ∧
    Real.sin t = 2 * Real.sin (t / 2) * Real.cos (t / 2) ∧
    Real.cos (t / 2) ^ 2 + Real.sin (t / 2) ^ 2 = 1 := by
  have h1 := Real.cos_sq_add_sin_sq (t / 2)
  refine ⟨?_, ?_, h1⟩
  · conv_lhs => rw [show t = 2 * (t / 2) by ring, Real.cos_two_mul]
    linarith
  · conv_lhs => rw [show t = 2 * (t / 2) by ring, Real.sin_two_mul]

/-- The quaternion of the sample-to-detector rotation. -/
def screenQuat (d : Detector ℝ) : Quat :=
  let δ := (d.tilt - d.sampleTilt) * Real.pi / 180
  let ω := d.azimuthal * Real.pi / 180
  let γ := d.twist * Real.pi / 180
  Quat.mul ⟨Real.cos (γ / 2), 0, 0, Real.sin (γ / 2)⟩
    (Quat.mul ⟨Real.cos (ω / 2), 0, Real.sin (ω / 2), 0⟩
      (Quat.mul ⟨Real.cos (δ / 2), -Real.sin (δ / 2), 0, 0⟩ ⟨1 / 2, -1 / 2, -1 / 2, -1 / 2⟩))

theorem screenQuat_unit (d : Detector ℝ) : IsUnitQuat (screenQuat d) := by
  refine unit_mul ?_ (unit_mul ?_ (unit_mul ?_ ?_))
  · unfold IsUnitQuat
    linarith [Real.cos_sq_add_sin_sq (d.twist * Real.pi / 180 / 2)]
  · unfold IsUnitQuat
    linarith [Real.cos_sq_add_sin_sq (d.azimuthal * Real.pi / 180 / 2)]
  · unfold IsUnitQuat
    linarith [Real.cos_sq_add_sin_sq ((d.tilt - d.sampleTilt) * Real.pi / 180 / 2)]
  · unfold IsUnitQuat
    norm_num

theorem screenQuat_rotates (d : Detector ℝ) (v : V3 ℝ) :
    rotateVector (screenQuat d) v = d.sampleToDetector.apply v := by
  rw [C08_detector_in_degrees]
  simp only [screenQuat, rotateVector_mul]
  obtain ⟨c1, s1, o1⟩ := half_angle ((d.tilt - d.sampleTilt) * Real.pi / 180)
  obtain ⟨c2, s2, o2⟩ := half_angle (d.azimuthal * Real.pi / 180)
  obtain ⟨c3, s3, o3⟩ := half_angle (d.twist * Real.pi / 180)
  have e0 : rotateVector ⟨1 / 2, -1 / 2, -1 / 2, -1 / 2⟩ v = ⟨v.y, v.z, v.x⟩ := by
    simp only [rotateVector, V3.mk.injEq]
    refine ⟨?_, ?_, ?_⟩ <;> ring
  have ex : ∀ (t : ℝ) (w : V3 ℝ), rotateVector ⟨Real.cos (t / 2), -Real.sin (t / 2), 0, 0⟩ w =
      ⟨w.x, w.y * Real.cos t + w.z * Real.sin t, w.z * Real.cos t - w.y * Real.sin t⟩ := by
    intro t w
    obtain ⟨c, s, o⟩ := half_angle t
    rw [c, s]
    simp only [rotateVector, V3.mk.injEq]
    refine ⟨by linear_combination w.x * o, by ring, by ring⟩
  have ey : ∀ (t : ℝ) (w : V3 ℝ), rotateVector ⟨Real.cos (t / 2), 0, Real.sin (t / 2), 0⟩ w =
      ⟨w.x * Real.cos t + w.z * Real.sin t, w.y, w.z * Real.cos t - w.x * Real.sin t⟩ := by
    intro t w
    obtain ⟨c, s, o⟩ := half_angle t
    rw [c, s]
    simp only [rotateVector, V3.mk.injEq]
    refine ⟨by ring, by linear_combination w.y * o, by ring⟩
  have ez : ∀ (t : ℝ) (w : V3 ℝ), rotateVector ⟨Real.cos (t / 2), 0, 0, Real.sin (t / 2)⟩ w =
      ⟨w.x * Real.cos t - w.y * Real.sin t, w.x * Real.sin t + w.y * Real.cos t, w.z⟩ := by
    intro t w
    obtain ⟨c, s, o⟩ := half_angle t
    rw [c, s]
    simp only [rotateVector, V3.mk.injEq]
    refine ⟨by ring, by ring, by linear_combination w.z * o⟩
  rw [e0, ex, ey, ez]

/-- C135: for any two detectors there is one rotation, whatever the orientation of the crystal, which makes
up for their different angles. -/
theorem C135_rotation_exists (d d' : Detector ℝ) :
    ∃ Q, IsUnitQuat Q ∧ ∀ q, SameAttitude d q d' (q.mul Q) := by
  refine ⟨(screenQuat d).conj.mul (screenQuat d'),
    unit_mul (unit_conj (screenQuat_unit d)) (screenQuat_unit d'), fun q v v' h => ?_⟩
  rw [rotateVector_mul, rotateVector_mul, screenQuat_rotates, ← h, ← screenQuat_rotates,
    conj_rotate (screenQuat_unit d)]

/-- C135: no rotation is needed if the angle between detector and sample is the same, so that sample and
detector may be tilted together. -/
theorem C135_tilted_together {d d' : Detector ℝ}
    (h : d.tilt - d.sampleTilt = d'.tilt - d'.sampleTilt) (ha : d.azimuthal = d'.azimuthal)
    (ht : d.twist = d'.twist) (q : Quat) : SameAttitude d q d' q := by
  intro v v' hv
  have e : screenQuat d = screenQuat d' := by
    unfold screenQuat
    rw [h, ha, ht]
  rw [← screenQuat_rotates, ← screenQuat_rotates, e] at hv
  have := congrArg (rotateVector (screenQuat d').conj) hv
  rw [conj_rotate (screenQuat_unit d'), conj_rotate (screenQuat_unit d')] at this
  rw [this]

/-! ### Simulated patterns -/

theorem direction_attitude {d d' : Detector ℝ} {q q' : Quat} (h : SameAttitude d q d' q') (w : V3 ℝ) :
    rotateVector q (normalizeV (d.sampleToDetector.transpose.apply w)) =
      rotateVector q' (normalizeV (d'.sampleToDetector.transpose.apply w)) := by
  have hp : ∀ d : Detector ℝ, ProperRotation d.sampleToDetector := fun d =>
    C08_sample_to_detector_is_proper_rotation _ _ _ _
  refine h _ _ ?_
  rw [normalizeV_eq_smul, normalizeV_eq_smul, (hp d).transpose_dot, (hp d').transpose_dot, M3.apply_smul,
    M3.apply_smul, (hp d).apply_transpose, (hp d').apply_transpose]

/-- The directions of the pixels in the frame of the crystal are the same. -/
def SameDirections (d d' : Detector ℝ) (dcs dcs' : List (V3 ℝ)) : Prop :=
  ∀ q q', SameAttitude d q d' q' → dcs.map (rotateVector q) = dcs'.map (rotateVector q')

theorem fixed_directions (d d' : Detector ℝ) (bounds : ℝ × ℝ × ℝ × ℝ) (pcz : ℝ) (nrows ncols : ℕ)
    (mask : List Bool) :
    SameDirections d d'
      (directionCosinesFixed bounds pcz nrows ncols d.sampleToDetector.transpose mask)
      (directionCosinesFixed bounds pcz nrows ncols d'.sampleToDetector.transpose mask) := by
  intro q q' h
  simp only [directionCosinesFixed, List.map_map]
  refine List.map_congr_left fun i _ => ?_
  exact direction_attitude h _

theorem varying_directions (d d' : Detector ℝ) (bounds : List (ℝ × ℝ × ℝ × ℝ)) (pcz : List ℝ)
    (nrows ncols : ℕ) (mask : List Bool) :
    List.Forall₂ (SameDirections d d')
      (directionCosinesVarying bounds pcz nrows ncols d.sampleToDetector.transpose mask)
      (directionCosinesVarying bounds pcz nrows ncols d'.sampleToDetector.transpose mask) := by
  simp only [directionCosinesVarying, List.map_map]
  rw [List.forall₂_map_left_iff, List.forall₂_map_right_iff, List.forall₂_same]
  intro i _ q q' h
  simp only [Function.comp_apply, List.map_map]
  refine List.map_congr_left fun i _ => ?_
  exact direction_attitude h _

theorem projectPattern_directions (u l : Img ℝ) (npx npy : ℤ) (scale : ℝ) (rescale : Bool)
    (omin omax : ℝ) (dt : DType) {q q' : Quat} {dcs dcs' : List (V3 ℝ)}
    (h : dcs.map (rotateVector q) = dcs'.map (rotateVector q')) :
    projectPattern q u l npx npy scale dcs rescale omin omax dt =
      projectPattern q' u l npx npy scale dcs' rescale omin omax dt := by
  have e : ∀ (q : Quat) (dcs : List (V3 ℝ)), dcs.map (projectPixel q u l npx npy scale) =
      (dcs.map (rotateVector q)).map fun v =>
        if 0 ≤ v.z then masterPixel u (lambertInterp v npx npy scale)
        else masterPixel l (lambertInterp v npx npy scale) := by
    intro q dcs
    rw [List.map_map]
    rfl
  unfold projectPattern
  rw [e, e, h]

theorem splitChunks_forall₂ {α β : Type*} {P : α → β → Prop} (chunks : List ℕ) {xs : List α} {ys : List β}
    (h : List.Forall₂ P xs ys) :
    List.Forall₂ (List.Forall₂ P) (splitChunks chunks xs) (splitChunks chunks ys) := by
  induction chunks generalizing xs ys with
  | nil => exact .nil
  | cons c cs ih => exact .cons (List.forall₂_take c h) (ih (List.forall₂_drop c h))

theorem projectVarying_congr {R D P : Type*} {proj proj' : R → D → P}
    {A : R → R → Prop} {B : D → D → Prop}
    (hp : ∀ r r' x x', A r r' → B x x' → proj r x = proj' r' x') {rots rots' : List R} {dcs dcs' : List D}
    (hr : List.Forall₂ A rots rots') (hd : List.Forall₂ B dcs dcs') :
    projectVarying proj rots dcs = projectVarying proj' rots' dcs' := by
  unfold projectVarying
  rw [← hr.length_eq]
  refine List.map_congr_left fun i hi => ?_
  have h1 : i < rots.length := List.mem_range.1 hi
  have h1' : i < rots'.length := hr.length_eq ▸ h1
  rw [List.getElem?_eq_getElem h1, List.getElem?_eq_getElem h1']
  have ha := List.forall₂_iff_get.1 hr |>.2 i h1 h1'
  by_cases h2 : i < dcs.length
  · have h2' : i < dcs'.length := hd.length_eq ▸ h2
    rw [List.getElem?_eq_getElem h2, List.getElem?_eq_getElem h2']
    have hb := List.forall₂_iff_get.1 hd |>.2 i h2 h2'
    simp only [List.get_eq_getElem] at ha hb
    simp only [hp _ _ _ _ ha hb]
  · have h2' : ¬ i < dcs'.length := hd.length_eq ▸ h2
    rw [List.getElem?_eq_none (by omega), List.getElem?_eq_none (by omega)]

theorem getPatternsCore_congr {R D P : Type*} {proj proj' : R → D → P}
    {A : R → R → Prop} {B : D → D → Prop}
    (hp : ∀ r r' x x', A r r' → B x x' → proj r x = proj' r' x') {rots rots' : List R} {dcs dcs' : List D}
    (hr : List.Forall₂ A rots rots') (hd : List.Forall₂ B dcs dcs') (shape nav chunks : List ℕ) :
    getPatternsCore proj shape rots nav dcs chunks = getPatternsCore proj' shape rots' nav dcs' chunks := by
  unfold getPatternsCore
  have hs := splitChunks_forall₂ chunks hr
  split
  · rfl
  · split
    · rfl
    · split
      · cases hd with
        | nil => rfl
        | cons hx _ =>
          simp only [Except.ok.injEq, Prod.mk.injEq, true_and]
          congr 1
          have : List.Forall₂ (fun c c' => projectFixed proj _ c = projectFixed proj' _ c') _ _ :=
            hs.imp fun c c' h => by
              unfold projectFixed
              exact List.forall₂_eq_eq_eq ▸ (List.forall₂_map_left_iff.2 (List.forall₂_map_right_iff.2
                (h.imp fun r r' h => congrArg some (hp r r' _ _ h hx))))
          exact List.forall₂_eq_eq_eq ▸ (List.forall₂_map_left_iff.2 (List.forall₂_map_right_iff.2 this))
      · simp only [Except.ok.injEq, Prod.mk.injEq, true_and]
        congr 1
        have hs' := splitChunks_forall₂ chunks hd
        generalize splitChunks chunks rots = x at *
        generalize splitChunks chunks rots' = x' at *
        generalize splitChunks chunks dcs = y at *
        generalize splitChunks chunks dcs' = y' at *
        induction hs generalizing y y' with
        | nil => rfl
        | cons h _ ih =>
          cases hs' with
          | nil => rfl
          | cons h' t' =>
            simp only [List.zipWith_cons_cons]
            rw [projectVarying_congr hp h h', ih _ _ t']

/-- C135: patterns of crystals in the same positions relative to the screen are the same, whatever the
angles of the detectors, the shapes, data type and chunks, also in that the same errors are raised. -/
theorem C135_same_patterns (mp : MasterPattern) (d : Detector ℝ) (sampleTilt tilt azimuthal twist : ℝ)
    {rots rots' : List Quat}
    (h : List.Forall₂ (fun q q' => SameAttitude d q (withAngles d sampleTilt tilt azimuthal twist) q')
      rots rots') (rotShape : List ℕ) (energy : Option ℝ) (dtypeOut : DType) (chunks : List ℕ) :
    mp.simulate rotShape rots' (withAngles d sampleTilt tilt azimuthal twist) energy dtypeOut chunks =
      mp.simulate rotShape rots d energy dtypeOut chunks := by
  generalize hd' : withAngles d sampleTilt tilt azimuthal twist = d' at *
  have hdirs : List.Forall₂ (SameDirections d d') (directionCosines d d.sampleToDetector none)
      (directionCosines d' d'.sampleToDetector none) := by
    have e : directionCosines d' d'.sampleToDetector none =
        directionCosines d d'.sampleToDetector none := by
      rw [← hd']
      rfl
    rw [e]
    unfold directionCosines
    split
    · exact .cons (fixed_directions d d' _ _ _ _ _) .nil
    · exact varying_directions d d' _ _ _ _ _
  have hnav : d'.nav = d.nav := by rw [← hd']; rfl
  unfold MasterPattern.simulate MasterPattern.getPatterns
  rw [hnav]
  simp only
  cases mp.checkSuitable with
  | error e => rfl
  | ok u =>
    simp only
    split
    · rfl
    · split
      · rfl
      · split
        · rfl
        · rfl
        · refine (getPatternsCore_congr (fun r r' x x' hr hx => ?_) h hdirs _ _ _).symm
          exact projectPattern_directions _ _ _ _ _ _ _ _ _ (hx r r' hr)

/-- C135: in refinement, such crystals have the same simulated patterns and the same scores, and explain
the same patterns. -/
theorem C135_same_scores {a : RefineArgs} (hm : a.m = a.det.sampleToDetector)
    (sampleTilt tilt azimuthal twist : ℝ) {q q' : Quat}
    (h : SameAttitude a.det q (withAngles a.det sampleTilt tilt azimuthal twist) q') (p : PC ℝ) :
    let a' := refinedWithAngles a (withAngles a.det sampleTilt tilt azimuthal twist)
    (∀ sim, IsSimulated a q p sim ↔ IsSimulated a' q' p sim) ∧
      (∀ pattern s, IsScore a pattern q p s ↔ IsScore a' pattern q' p s) ∧
      ∀ pattern, Explains a q p pattern ↔ Explains a' q' p pattern := by
  intro a'
  have key : ∀ sim, IsSimulated a q p sim ↔ IsSimulated a' q' p sim := by
    intro sim
    have := C135_same_patterns a.mp { a.det with nav := [1], pc := [p] } sampleTilt tilt azimuthal twist
      (rots := [q]) (rots' := [q']) (.cons h .nil) [1] a.energy (.float 32) [1]
    unfold IsSimulated
    rw [hm]
    exact Eq.congr_left this.symm
  refine ⟨key, fun pattern s => ?_, fun pattern => ?_⟩
  · exact ⟨fun ⟨sim, h1, h2⟩ => ⟨sim, (key sim).1 h1, h2⟩, fun ⟨sim, h1, h2⟩ => ⟨sim, (key sim).2 h1, h2⟩⟩
  · exact ⟨fun ⟨sim, h1, h2⟩ => ⟨sim, (key sim).1 h1, h2⟩, fun ⟨sim, h1, h2⟩ => ⟨sim, (key sim).2 h1, h2⟩⟩

/-- C135: so whether a pattern is explained by some orientation does not depend on the angles of the
detector: errors in them cannot be seen in the score of a pattern. -/
theorem C135_angles_not_seen {a : RefineArgs} (hm : a.m = a.det.sampleToDetector)
    (sampleTilt tilt azimuthal twist : ℝ) (p : PC ℝ) (pattern : List ℝ) :
    (∃ q, IsUnitQuat q ∧ Explains a q p pattern) ↔ ∃ q, IsUnitQuat q ∧
      Explains (refinedWithAngles a (withAngles a.det sampleTilt tilt azimuthal twist)) q p pattern := by
  constructor
  · rintro ⟨q, hq, he⟩
    obtain ⟨Q, hQ, h⟩ := C135_rotation_exists a.det (withAngles a.det sampleTilt tilt azimuthal twist)
    exact ⟨_, unit_mul hq hQ,
      ((C135_same_scores hm sampleTilt tilt azimuthal twist (h q) p).2.2 pattern).1 he⟩
  · rintro ⟨q, hq, he⟩
    obtain ⟨Q, hQ, h⟩ := C135_rotation_exists (withAngles a.det sampleTilt tilt azimuthal twist) a.det
    refine ⟨_, unit_mul hq hQ, ((C135_same_scores hm sampleTilt tilt azimuthal twist (q := q.mul Q) ?_ p).2.2
      pattern).2 he⟩
    intro v v' hv
    exact (h q v' v hv.symm).symm

/-! ### Dictionary indexing -/

theorem indexMap_used {α β : Type} (index : α → β) (junk : List β) (mask : Option BoolArray)
    (patterns : List α) (hm : ∀ m, mask = some m → m.data.length = patterns.length)
    (hj : junk.length = patterns.length) {i : ℕ} {p : α} (hp : patterns[i]? = some p)
    (hu : Used mask i) :
    (indexMap index junk (mask.map BoolArray.data) patterns)[i]? = some (true, index p) := by
  cases mask with
  | none => exact indexMap_none_get index junk patterns i p hp
  | some m =>
    exact (C23_results_at_own_points index junk m.data patterns (hm m rfl).symm
      (hj.trans (hm m rfl).symm)).2.2 i p (hu m rfl) hp

/-- A point of the result of a call, with the rotations of the dictionary. -/
theorem call_used {R : Type} (argtopk argsort : List ℝ → List ℕ) (sign : ℤ) (allowed : List MatchType)
    (sim : List ℝ → List ℝ → ℝ) (r0 : R) (junk : ℕ → List ℝ × List ℕ) (c : IndexingCall ℝ R)
    (w : WellFormedCall c) (v : ValidArguments allowed c) {rs : List R} {s : List ℕ}
    (hd : c.dictMap = some (s, rs)) :
    ∃ r, (dictionaryIndexingCall argtopk argsort sign allowed sim r0 junk {} c).2 = .ok r ∧
      ∀ (i : ℕ) (p : List ℝ), c.patterns[i]? = some p → Used c.navMask i →
        let best := dictionaryIndexing argtopk argsort sign c.keepN (perIteration c)
          ((c.dictionary.map (unmaskedPixels c.sigMask)).map (sim (unmaskedPixels c.sigMask p)))
        r[i]? = some ⟨true, best.map Prod.fst, best.map Prod.snd, best.map fun b => rs.getD b.2 r0⟩ := by
  obtain ⟨m1, m2⟩ := setMetric_new_masks c
  have hn : ∀ x, (setMetric {} c).navMask = some x → x.data.length = c.patterns.length := by
    intro x hx
    rw [m1] at hx
    rw [w.navMask x hx, (v.navMask x hx).1, w.patterns]
  have hs : ∀ x, (setMetric {} c).sigMask = some x → x.data.length = c.sigShape.prod := by
    intro x hx
    rw [m2] at hx
    exact v.sigMask x hx
  rw [call_valid sign allowed sim r0 junk c w v,
    indexWithMetric_eq sign sim r0 junk c w _ hn hs v.signalShapes rs s hd, m1, m2]
  refine ⟨_, rfl, fun i p hp hu => ?_⟩
  simp only
  rw [List.getElem?_map, indexMap_used _ _ c.navMask _ (fun m hm => ?_) (by simp)
    (p := unmaskedPixels c.sigMask p) (by rw [List.getElem?_map, hp]; rfl) hu]
  · rfl
  · rw [List.length_map]
    exact hn m (m1.trans hm)

/-- C135: indexing with a dictionary simulated on a detector with other angles. For any two sets of
angles there is one rotation `Q` such that the same dictionary, simulated for the rotations multiplied with
`Q`, gives the same scores and indices in every point, and the rotations found are those found with the first
multiplied with `Q`, for every metric, mask, number of matches and of patterns per iteration. -/
theorem C135_same_indexing (mp : MasterPattern) (d : Detector ℝ) (sampleTilt tilt azimuthal twist : ℝ)
    (argtopk argsort : List ℝ → List ℕ) (sign : ℤ) (allowed : List MatchType)
    (sim : List ℝ → List ℝ → ℝ) (r0 : Quat) (junk : ℕ → List ℝ × List ℕ) {rots : List Quat}
    (energy : Option ℝ) (dtypeOut : DType) (chunks : List ℕ) :
    ∃ Q, IsUnitQuat Q ∧ ∀ (c : IndexingCall ℝ Quat), WellFormedCall c → ValidArguments allowed c →
      c.dictMap = some ([rots.length], rots) →
      mp.simulate [rots.length] rots d energy dtypeOut chunks = .ok ([rots.length], c.dictionary.map some) →
      mp.simulate [rots.length] (rots.map (·.mul Q)) (withAngles d sampleTilt tilt azimuthal twist)
        energy dtypeOut chunks = .ok ([rots.length], c.dictionary.map some) ∧
      ∃ r r', (dictionaryIndexingCall argtopk argsort sign allowed sim r0 junk {} c).2 = .ok r ∧
        (dictionaryIndexingCall argtopk argsort sign allowed sim r0 junk {}
          { c with dictMap := some ([rots.length], rots.map (·.mul Q)) }).2 = .ok r' ∧
        ∀ (i : ℕ) (p : List ℝ), c.patterns[i]? = some p → Used c.navMask i →
          ∃ x x', r[i]? = some x ∧ r'[i]? = some x' ∧ x.inData = true ∧ x'.inData = true ∧
            x'.scores = x.scores ∧ x'.indices = x.indices ∧
            ∀ (j k : ℕ), x.indices[j]? = some k → k < rots.length →
              ∃ q, rots[k]? = some q ∧ x.rotations[j]? = some q ∧ x'.rotations[j]? = some (q.mul Q) := by
  obtain ⟨Q, hQ, hatt⟩ := C135_rotation_exists d (withAngles d sampleTilt tilt azimuthal twist)
  refine ⟨Q, hQ, fun c w v hmap hsim => ⟨?_, ?_⟩⟩
  · rw [C135_same_patterns mp d sampleTilt tilt azimuthal twist (rots := rots) ?_, hsim]
    rw [List.forall₂_map_right_iff, List.forall₂_same]
    exact fun q _ => hatt q
  · have w' : WellFormedCall { c with dictMap := some ([rots.length], rots.map (·.mul Q)) } :=
      ⟨w.patterns, w.pixels, w.dictPixels, fun s rs h => by
        simp only [Option.some.injEq, Prod.mk.injEq] at h
        rw [← h.1, ← h.2]
        simp, w.navMask, w.sigMask, w.nonempty, w.perIteration⟩
    have hlen : [rots.length] = [c.dictionary.length] := by
      obtain ⟨rs, hrs⟩ := v.dictMap
      rw [hmap] at hrs
      exact congrArg Prod.fst (Option.some.inj hrs)
    have v' : ValidArguments allowed { c with dictMap := some ([rots.length], rots.map (·.mul Q)) } :=
      ⟨v.navMask, v.sigMask, v.signalShapes, ⟨rots.map (·.mul Q), by simp only; rw [hlen]⟩, v.metric, v.dtype⟩
    obtain ⟨r, hr, hall⟩ := call_used argtopk argsort sign allowed sim r0 junk c w v hmap
    obtain ⟨r', hr', hall'⟩ := call_used argtopk argsort sign allowed sim r0 junk _ w' v' rfl
    refine ⟨r, r', hr, hr', fun i p hp hu => ⟨_, _, hall i p hp hu, hall' i p hp hu, rfl, rfl, rfl, rfl, ?_⟩⟩
    intro j k hj hk
    refine ⟨rots[k], List.getElem?_eq_getElem hk, ?_, ?_⟩
    · simp only [List.getElem?_map, Option.map_eq_some_iff] at hj ⊢
      obtain ⟨b, hb, rfl⟩ := hj
      exact ⟨b, hb, by rw [List.getD_eq_getElem?_getD, List.getElem?_eq_getElem hk]; rfl⟩
    · simp only [List.getElem?_map, Option.map_eq_some_iff] at hj ⊢
      obtain ⟨b, hb, rfl⟩ := hj
      exact ⟨b, hb, by
        rw [List.getD_eq_getElem?_getD, List.getElem?_map, List.getElem?_eq_getElem hk]; rfl⟩

/-! ### Geometrical simulations -/

theorem m3_ext {m n : M3} (h : ∀ v, m.apply v = n.apply v) : m = n := by
  have h1 := h ⟨1, 0, 0⟩
  have h2 := h ⟨0, 1, 0⟩
  have h3 := h ⟨0, 0, 1⟩
  simp only [M3.apply, V3.dot, V3.mk.injEq, mul_one, mul_zero, add_zero, zero_add] at h1 h2 h3
  ext
  · exact h1.1
  · exact h2.1
  · exact h3.1
  · exact h1.2.1
  · exact h2.2.1
  · exact h3.2.1
  · exact h1.2.2
  · exact h2.2.2
  · exact h3.2.2

theorem orientation_apply (q : Quat) (m : M3) (w : V3 ℝ) :
    (M3.matMul q.toMatrix m.transpose).apply w = rotateVector q (m.transpose.apply w) := by
  simp only [M3.matMul, M3.vecMul, Quat.toMatrix, M3.transpose, M3.apply, V3.dot, rotateVector,
    V3.mk.injEq]
  refine ⟨?_, ?_, ?_⟩ <;> ring

/-- C135: geometrical simulations of such crystals have the same lines and zone axes. -/
theorem C135_same_lines (d : Detector ℝ) (sampleTilt tilt azimuthal twist : ℝ) {rots rots' : List Quat}
    (h : List.Forall₂ (fun q q' => SameAttitude d q (withAngles d sampleTilt tilt azimuthal twist) q')
      rots rots') (base recbase : M3) (reduce : Miller → Miller) (reflectors : List Miller)
    (shape : List ℕ) :
    let d' := withAngles d sampleTilt tilt azimuthal twist
    onDetector (simulationFor d' d'.sampleToDetector base recbase reduce reflectors shape rots') =
      (onDetector (simulationFor d d.sampleToDetector base recbase reduce reflectors shape rots)).map
        fun s => { s with detector := d' } := by
  intro d'
  have hp : ∀ d : Detector ℝ, ProperRotation d.sampleToDetector := fun d =>
    C08_sample_to_detector_is_proper_rotation _ _ _ _
  have e : orientationMatrices rots' d'.sampleToDetector = orientationMatrices rots d.sampleToDetector := by
    unfold orientationMatrices
    have : List.Forall₂ (fun x y => x = y)
        (rots.map fun q => M3.matMul q.toMatrix d.sampleToDetector.transpose)
        (rots'.map fun q => M3.matMul q.toMatrix d'.sampleToDetector.transpose) := by
      rw [List.forall₂_map_left_iff, List.forall₂_map_right_iff]
      refine h.imp fun q q' hq => m3_ext fun w => ?_
      rw [orientation_apply, orientation_apply]
      exact hq _ _ (by rw [(hp d).apply_transpose, (hp d').apply_transpose])
    exact (List.forall₂_eq_eq_eq ▸ this).symm
  unfold simulationFor
  rw [e]
  unfold onDetector
  by_cases h1 : d.nav ≠ [1] ∧ d.nav ≠ shape
  · have h2 : d'.nav ≠ [1] ∧ d'.nav ≠ shape := h1
    simp only [if_pos h1, if_pos h2, Except.map]
  · have h2 : ¬(d'.nav ≠ [1] ∧ d'.nav ≠ shape) := h1
    simp only [if_neg h1, if_neg h2, Except.map]
    rfl

/-! ### The hypotheses are met -/

/-- On the detector turned by half a turn about its normal, the crystal has to be turned by half a turn about
the same axis, the x axis of the sample: unturned it is not in the same position. -/
theorem halves_turned :
    SameAttitude halvesDetector ⟨1, 0, 0, 0⟩ (withAngles halvesDetector 0 0 0 180) ⟨0, 1, 0, 0⟩ ∧
      ¬ SameAttitude halvesDetector ⟨1, 0, 0, 0⟩ (withAngles halvesDetector 0 0 0 180) ⟨1, 0, 0, 0⟩ := by
  have h1 : ∀ v, halvesDetector.sampleToDetector.apply v = ⟨v.y, v.z, v.x⟩ := by
    intro v
    rw [C08_detector_in_degrees]
    simp [halvesDetector]
  have h2 : ∀ v, (withAngles halvesDetector 0 0 0 180).sampleToDetector.apply v = ⟨-v.y, -v.z, v.x⟩ := by
    intro v
    rw [C08_detector_in_degrees]
    have : (180 : ℝ) * Real.pi / 180 = Real.pi := by ring
    simp [withAngles, this]
  constructor
  · intro v v' h
    rw [h1, h2] at h
    simp only [V3.mk.injEq] at h
    obtain ⟨a, b, c⟩ := h
    simp only [rotateVector, V3.mk.injEq]
    refine ⟨by linarith, by linarith, by linarith⟩
  · intro h
    have := h ⟨0, 1, 0⟩ ⟨0, -1, 0⟩ (by rw [h1, h2]; simp)
    simp only [rotateVector, V3.mk.injEq] at this
    norm_num at this

/-- Tilting sample and detector together, with the detector still turned about two of its axes. -/
example (q : Quat) : SameAttitude ⟨2, 2, 1, 1, 5, 3, 7, 70, [1], [⟨1 / 2, 1 / 2, 1⟩]⟩ q
    (withAngles ⟨2, 2, 1, 1, 5, 3, 7, 70, [1], [⟨1 / 2, 1 / 2, 1⟩]⟩ 65 0 3 7) q := by
  apply C135_tilted_together <;> norm_num [withAngles]

/-- The pattern of the unturned crystal is the one of the turned crystal on the turned detector. -/
example : hemisphereMaster.simulate [1] [⟨0, 1, 0, 0⟩] (withAngles halvesDetector 0 0 0 180) none
    hemisphereMaster.dtype [1] =
      .ok ([1], [some (finished hemisphereMaster hemisphereMaster.dtype 1 2 [1, 1, 2, 2])]) := by
  rw [C135_same_patterns hemisphereMaster halvesDetector 0 0 0 180 (.cons halves_turned.1 .nil)]
  exact halves_simulated (by simp)

/-- The hypothesis of `C135_same_scores` and `C135_angles_not_seen`. -/
example : ∃ (a : RefineArgs) (pattern : List ℝ), a.m = a.det.sampleToDetector ∧
    Explains a ⟨1, 0, 0, 0⟩ ⟨1 / 2, 1 / 2, 1⟩ pattern ∧ pattern = [2, 2, 4, 4] ∧
    SameAttitude a.det ⟨1, 0, 0, 0⟩ (withAngles a.det 0 0 0 180) ⟨0, 1, 0, 0⟩ := by
  let a := { floatArgs with mp := hemisphereMaster, energy := none }
  refine ⟨refinedWithAngles a halvesDetector, [2, 2, 4, 4], rfl, ⟨[-1, -1, 1, 1], ?_, 1, 3, one_pos, ?_⟩,
    rfl, halves_turned.1⟩
  · have := halves_simulated (dtypeOut := .float 32) (lo := -1) (hi := 1)
      (by simp [hemisphereMaster, dtypeRange])
    refine this.trans ?_
    norm_num [finished, hemisphereMaster, castTo, rescaleWithMinMax, rescalePixel, listMin, listMax]
  · intro k x y _ hx hy
    match k with
    | 0 | 1 | 2 | 3 =>
      simp at hx hy
      rw [← hx, ← hy]
      norm_num
    | k + 4 => simp at hx

/-- A call with the pattern simulated on the detector and its rotation. -/
def turnedCall : IndexingCall ℝ Quat :=
  ⟨[1], [2, 2], [[0, 5, 1, 9]], [2, 2], [[1, 1, 2, 2]], some ([1], [⟨1, 0, 0, 0⟩]), none, .named, 1, none,
    none, none, none⟩

/-- The hypotheses of `C135_same_indexing`. -/
example : WellFormedCall turnedCall ∧ ValidArguments [] turnedCall ∧
    turnedCall.dictMap = some ([1], [⟨1, 0, 0, 0⟩]) ∧
    hemisphereMaster.simulate [1] [⟨1, 0, 0, 0⟩] halvesDetector none hemisphereMaster.dtype [1] =
      .ok ([1], turnedCall.dictionary.map some) := by
  refine ⟨⟨rfl, by simp [turnedCall], by simp [turnedCall], ?_, by simp [turnedCall], by simp [turnedCall],
    by simp [turnedCall], by simp [turnedCall, perIteration]⟩,
    ⟨by simp [turnedCall], by simp [turnedCall], rfl, ⟨_, rfl⟩, by simp [turnedCall], .inl rfl⟩, rfl, ?_⟩
  · rintro s rs h
    cases h
    rfl
  · rw [halves_simulated (dtypeOut := hemisphereMaster.dtype) (lo := 1) (hi := 2) (by simp)]
    simp [finished, hemisphereMaster, castTo, turnedCall]

end
end Kp
