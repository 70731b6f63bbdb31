/-
C52: a signal returned by an out-of-place operation has attributes which can be modified
without affecting the original.  True of `deepcopy`, `rebin`, `inav`, `isig` and
`extract_grid`; false of the intensity methods, `as_lazy` and `downsample`, which share the
detector, the crystal map and (but for the last two) the static background.
-/
import Verif.Lemmas.Aliasing
import Mathlib.Tactic.FinCases

namespace Kp

variable {D B X : Type}

/-- The operations which copy the attributes. -/
def OutOfPlace.Copies : OutOfPlace D B X → Prop
  | .deepcopy => True
  | .derive _ _ _ => True
  | _ => False

/-- C52 for `deepcopy`, `rebin`, `inav`, `isig` and `extract_grid`: the call leaves the
original as it was, and afterwards the two signals are independent: after every history of
modifications of both, each sees exactly the modifications made through it. -/
theorem C52_copying_operations_isolated (h : AttrHeap D B X) (a : AttrRefs) (ha : a.Valid h)
    (op : OutOfPlace D B X) (hop : op.Copies) :
    readAttrs (runOut h a op).1 a = readAttrs h a ∧
    Independent (runOut h a op).1 a (runOut h a op).2 := by
  have hd : h.dets[a.det]? = some (h.dets[a.det]'ha.1) := List.getElem?_eq_getElem ha.1
  cases op with
  | plain => exact hop.elim
  | asLazy _ => exact hop.elim
  | downsample _ _ => exact hop.elim
  | deepcopy =>
    simp only [runOut, hd]
    have := newAttrs_spec h a ha (h.dets[a.det]'ha.1) (a.bg.bind fun i => h.bgs[i]?)
      (a.xmap.bind fun i => h.maps[i]?)
    exact ⟨this.1, independent_of_sep _ _ _ this.2.2.1 this.2.2.2.1 this.2.2.2.2⟩
  | derive fD fB fX =>
    simp only [runOut, hd]
    have := newAttrs_spec h a ha (fD (h.dets[a.det]'ha.1))
      ((a.bg.bind fun i => h.bgs[i]?).bind fB) ((a.xmap.bind fun i => h.maps[i]?).bind fX)
    exact ⟨this.1, independent_of_sep _ _ _ this.2.2.1 this.2.2.2.1 this.2.2.2.2⟩

/-- A heap with two detectors, one background and one crystal map, and a signal. -/
def demoHeap : AttrHeap ℕ ℕ ℕ := ⟨[60, 70], [5], [9]⟩
def demoRefs : AttrRefs := ⟨1, some 0, some 0⟩

example : demoRefs.Valid demoHeap := by
  refine ⟨by decide, ?_, ?_⟩ <;> intro r h <;> simp [demoRefs] at h <;> simp [demoHeap, ← h]

/-- `deepcopy` gives equal attributes. -/
theorem C52_deepcopy_equal (h : AttrHeap D B X) (a : AttrRefs) (ha : a.Valid h) :
    readAttrs (runOut h a .deepcopy).1 (runOut h a .deepcopy).2 = readAttrs h a := by
  have hd : h.dets[a.det]? = some (h.dets[a.det]'ha.1) := List.getElem?_eq_getElem ha.1
  simp only [runOut, hd]
  rw [(newAttrs_spec h a ha _ _ _).2.1]
  simp [readAttrs, hd]

/-- The signal returned shows the attributes of the original with the changes which the operation
makes, and no others. -/
theorem C52_returned_attributes (h : AttrHeap D B X) (a : AttrRefs) (ha : a.Valid h)
    (op : OutOfPlace D B X) :
    readAttrs (runOut h a op).1 (runOut h a op).2 = returnedView (readAttrs h a) op := by
  have hd : h.dets[a.det]? = some (h.dets[a.det]'ha.1) := List.getElem?_eq_getElem ha.1
  have hnew : ∀ o : Option B, (newBg h o).1.dets = h.dets ∧ (newBg h o).1.maps = h.maps ∧
      ((newBg h o).2.bind fun r => (newBg h o).1.bgs[r]?) = o := by
    intro o
    cases o <;> simp [newBg]
  cases op with
  | plain => rfl
  | asLazy f =>
    obtain ⟨h1, h2, h3⟩ := hnew ((a.bg.bind fun i => h.bgs[i]?).map f)
    simp only [runOut, readAttrs, returnedView, h1, h2, h3]
  | downsample g f =>
    obtain ⟨h1, h2, h3⟩ := hnew ((a.bg.bind fun i => h.bgs[i]?).map f)
    simp only [runOut, readAttrs, returnedView, h1, h2, h3, getElem?_modify_self]
  | deepcopy => exact C52_deepcopy_equal h a ha
  | derive fD fB fX =>
    simp only [runOut, hd]
    rw [(newAttrs_spec h a ha _ _ _).2.1]
    simp [readAttrs, returnedView, hd]

/-- The background of the signal returned by `as_lazy` and `downsample` is its own: changing it does
not change the background of the original. -/
theorem C52_own_background (h : AttrHeap D B X) (a : AttrRefs) (ha : a.Valid h)
    (op : OutOfPlace D B X) (hop : op ≠ .plain) (f : B → B) :
    (readAttrs (attrStep (runOut h a op).1 (runOut h a op).2 (.mutBg f)).1 a).bg =
      (readAttrs h a).bg := by
  have hnew : ∀ (o : Option B) (dets : List D), (readAttrs (attrStep { (newBg h o).1 with dets := dets }
      { a with bg := (newBg h o).2 } (.mutBg f)).1 a).bg = (readAttrs h a).bg := by
    intro o dets
    cases hb : a.bg with
    | none => cases o <;> simp [newBg, attrStep, readAttrs, hb]
    | some r =>
      have hr := ha.2.1 r hb
      cases o with
      | none => simp [newBg, attrStep, readAttrs, hb]
      | some b =>
        simp only [newBg, attrStep, readAttrs, hb, Option.bind_some]
        rw [getElem?_modify_ne _ _ _ _ (by omega), List.getElem?_append_left hr]
  cases op with
  | plain => exact absurd rfl hop
  | asLazy g => exact hnew _ _
  | downsample s g => exact hnew _ _
  | deepcopy =>
    obtain ⟨h1, h2⟩ := C52_copying_operations_isolated h a ha .deepcopy trivial
    have := (h2 [(true, .mutBg f)]).1
    rw [← h1]
    exact congrArg AttrView.bg this
  | derive fD fB fX =>
    obtain ⟨h1, h2⟩ := C52_copying_operations_isolated h a ha (.derive fD fB fX) trivial
    have := (h2 [(true, .mutBg f)]).1
    rw [← h1]
    exact congrArg AttrView.bg this

/-- C52 is false of `rescale_intensity(inplace=False)` and the other plain operations, of
`as_lazy` and of `downsample(inplace=False)`: changing the detector of the returned signal
changes the detector of the original in the same way, for every signal and every change. -/
theorem C52_shared_detector (h : AttrHeap D B X) (a : AttrRefs) (op : OutOfPlace D B X)
    (hop : ¬ op.Copies) (f : D → D) :
    (readAttrs (attrStep (runOut h a op).1 (runOut h a op).2 (.mutDet f)).1 a).det =
      (readAttrs (runOut h a op).1 a).det.map f := by
  cases op with
  | deepcopy => exact absurd trivial hop
  | derive _ _ _ => exact absurd trivial hop
  | plain => simp [runOut, attrStep, readAttrs]
  | asLazy _ => simp [runOut, attrStep, readAttrs]
  | downsample _ _ => simp [runOut, attrStep, readAttrs]

/-- The same for the crystal map. -/
theorem C52_shared_crystal_map (h : AttrHeap D B X) (a : AttrRefs) (op : OutOfPlace D B X)
    (hop : ¬ op.Copies) (f : X → X) :
    (readAttrs (attrStep (runOut h a op).1 (runOut h a op).2 (.mutMap f)).1 a).xmap =
      (readAttrs (runOut h a op).1 a).xmap.map f := by
  cases hx : a.xmap with
  | none =>
    cases op with
    | deepcopy => exact absurd trivial hop
    | derive _ _ _ => exact absurd trivial hop
    | plain => simp [runOut, attrStep, readAttrs, hx]
    | asLazy _ => simp [runOut, attrStep, readAttrs, hx]
    | downsample _ _ => simp [runOut, attrStep, readAttrs, hx]
  | some r =>
    cases op with
    | deepcopy => exact absurd trivial hop
    | derive _ _ _ => exact absurd trivial hop
    | plain => simp [runOut, attrStep, readAttrs, hx]
    | asLazy _ => simp [runOut, attrStep, readAttrs, hx]
    | downsample _ _ => simp [runOut, attrStep, readAttrs, hx]

/-- ... and, for the plain operations, for the static background. -/
theorem C52_shared_background (h : AttrHeap D B X) (a : AttrRefs) (f : B → B) :
    (readAttrs (attrStep (runOut h a .plain).1 (runOut h a .plain).2 (.mutBg f)).1 a).bg =
      (readAttrs h a).bg.map f := by
  cases hb : a.bg <;> simp [runOut, attrStep, readAttrs, hb]

/-- Hence none of these operations returns an independent signal, for any signal whose
detector can be changed at all. -/
theorem C52_sharing_operations_violated (h : AttrHeap D B X) (a : AttrRefs) (ha : a.Valid h)
    (op : OutOfPlace D B X) (hop : ¬ op.Copies) (f : D → D) (hf : ∀ d, f d ≠ d) :
    ¬ Independent (runOut h a op).1 a (runOut h a op).2 := by
  intro hi
  have h1 := (hi [(true, .mutDet f)]).1
  simp only [attrRun, ownSteps] at h1
  have h2 := C52_shared_detector h a op hop f
  rw [h1] at h2
  have hv : ∃ d, (readAttrs (runOut h a op).1 a).det = some d := by
    have hd : h.dets[a.det]? = some (h.dets[a.det]'ha.1) := List.getElem?_eq_getElem ha.1
    cases op with
    | deepcopy => exact absurd trivial hop
    | derive _ _ _ => exact absurd trivial hop
    | plain => exact ⟨_, hd⟩
    | asLazy g => cases hb : a.bg.bind fun i => h.bgs[i]? <;>
        simp [runOut, newBg, readAttrs, hb, ha.1]
    | downsample g g' => cases hb : a.bg.bind fun i => h.bgs[i]? <;>
        simp [runOut, newBg, readAttrs, hb, ha.1]
  obtain ⟨d, hd⟩ := hv
  simp [hd] at h2
  exact hf d h2.symm

example : ¬ (OutOfPlace.plain : OutOfPlace ℕ ℕ ℕ).Copies ∧ ∀ d : ℕ, d + 1 ≠ d :=
  ⟨id, fun d => by omega⟩

/-- `downsample(inplace=False)` changes the original without any later modification: the
detector of the signal which keeps its full patterns gets the new shape and binning. -/
theorem C52_downsample_changes_original (h : AttrHeap D B X) (a : AttrRefs)
    (shrink : D → D) (bin : B → B) :
    (readAttrs (runOut h a (.downsample shrink bin)).1 a).det =
      (readAttrs h a).det.map shrink := by
  cases hb : a.bg.bind fun i => h.bgs[i]? <;> simp [runOut, newBg, readAttrs, hb]

/-- Concrete case: detector contents (rows, columns, binning); a 60 x 60 signal downsampled
by 2 out of place is left with a 30 x 30 detector of binning 2, and so is the returned
signal; doing so twice leaves the original with binning 4. -/
example :
    let h : AttrHeap (ℕ × ℕ × ℕ) ℕ ℕ := ⟨[(60, 60, 1)], [], []⟩
    let a : AttrRefs := ⟨0, none, none⟩
    let half : ℕ × ℕ × ℕ → ℕ × ℕ × ℕ := fun d => (30, 30, d.2.2 * 2)
    let r := runOut h a (.downsample half id)
    let q := runOut r.1 a (.downsample half id)
    (readAttrs r.1 a).det = some (30, 30, 2) ∧ (readAttrs q.1 a).det = some (30, 30, 4) ∧
      (readAttrs q.1 r.2).det = some (30, 30, 4) := by
  decide +kernel

/-- The other operations leave the original as it was until something is modified. -/
theorem C52_call_leaves_original (h : AttrHeap D B X) (a : AttrRefs) (ha : a.Valid h)
    (op : OutOfPlace D B X) (hop : ∀ g g', op ≠ .downsample g g') :
    readAttrs (runOut h a op).1 a = readAttrs h a := by
  cases op with
  | deepcopy => exact (C52_copying_operations_isolated h a ha .deepcopy trivial).1
  | derive fD fB fX => exact (C52_copying_operations_isolated h a ha (.derive fD fB fX) trivial).1
  | plain => rfl
  | downsample g g' => exact absurd rfl (hop g g')
  | asLazy g =>
    cases hb : a.bg with
    | none => simp [runOut, newBg, readAttrs, hb]
    | some r =>
      have hr := ha.2.1 r hb
      simp [runOut, newBg, readAttrs, hb, hr, List.getElem?_append_left]

/-- A modification which assigns a new object rather than changing one. -/
def AttrStep.Assigns : AttrStep D B X → Prop
  | .setDet _ => True
  | .setBg _ => True
  | .setMap _ => True
  | _ => False

/-- The part of C52 which holds for every operation: after every history of assignments
(`s2.detector = ...`) to the returned signal, the original sees what it saw right after the
call.  Missing: changes of the shared objects. -/
theorem C52_assignments_isolated_partial (h : AttrHeap D B X) (a b : AttrRefs)
    (ha : a.Valid h) (ss : List (AttrStep D B X)) (hs : ∀ s ∈ ss, s.Assigns) :
    let r := attrRun h a b (ss.map fun s => (true, s))
    r.2.1 = a ∧ readAttrs r.1 a = readAttrs h a := by
  induction ss generalizing h b with
  | nil => exact ⟨rfl, rfl⟩
  | cons s ss ih =>
    have hstep : readAttrs (attrStep h b s).1 a = readAttrs h a := by
      have h1 := hs s (List.mem_cons_self ..)
      obtain ⟨v1, v2, v3⟩ := ha
      cases s with
      | setDet d => simp [attrStep, readAttrs, List.getElem?_append_left v1]
      | mutDet f => exact h1.elim
      | setBg c =>
        cases hb : a.bg with
        | none => simp [attrStep, readAttrs, hb]
        | some r => simp [attrStep, readAttrs, hb, List.getElem?_append_left (v2 r hb)]
      | mutBg f => exact h1.elim
      | setMap c =>
        cases hb : a.xmap with
        | none => simp [attrStep, readAttrs, hb]
        | some r => simp [attrStep, readAttrs, hb, List.getElem?_append_left (v3 r hb)]
      | mutMap f => exact h1.elim
    have := ih (attrStep h b s).1 (attrStep h b s).2 (ha.mono (attrStep_heap_le h b s))
      fun t ht => hs t (List.mem_cons_of_mem _ ht)
    exact ⟨this.1, this.2.trans hstep⟩

example : ∀ s ∈ [(.setDet 3 : AttrStep ℕ ℕ ℕ), .setBg 4], s.Assigns := by
  intro s h
  fin_cases h <;> trivial

end Kp
