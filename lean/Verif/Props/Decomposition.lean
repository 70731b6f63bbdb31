/-
C74: decomposition models use the selected components and leave the learning results alone.
-/
import Verif.Model.Decomposition
import Verif.Lemmas.Chunking
import Mathlib.Algebra.Order.Ring.Rat
import Mathlib.Data.Rat.Cast.Defs

namespace Kp

/-- Specification of the selected components: all of them, the first `n`, or the listed ones. -/
def Selected (nComp : ℕ) : Components → List ℕ → Prop
  | .all, l => l = List.range nComp
  | .first n, l => 0 ≤ n → l = (List.range nComp).take n.toNat
  | .only idx, l => (∀ i ∈ idx, 0 ≤ i) → l.map (fun k : ℕ => (k : ℤ)) = idx

theorem pyIndex_ok {size : ℕ} {i : ℤ} {k : ℕ} (h : pyIndex size i = .ok k) :
    k < size ∧ ((k : ℤ) = i ∨ (k : ℤ) = i + size) := by
  unfold pyIndex at h
  split at h
  · cases h; omega
  · split at h
    · cases h; omega
    · cases h

theorem keptComponents_selected {nComp : ℕ} {comp : Components} {l : List ℕ}
    (h : keptComponents nComp comp = .ok l) :
    Selected nComp comp l ∧ ∀ c ∈ l, c < nComp := by
  cases comp with
  | all => cases h; exact ⟨rfl, fun c hc => List.mem_range.1 hc⟩
  | first n =>
    cases h
    refine ⟨?_, ?_⟩
    · intro hn
      unfold pyStop
      rw [if_neg (by omega), List.take_range]
    · intro c hc
      have := List.mem_range.1 hc
      unfold pyStop at this
      split at this <;> omega
  | only idx =>
    obtain ⟨hlen, hget⟩ := mapM_ok_get (show idx.mapM (pyIndex nComp) = .ok l from h)
    refine ⟨?_, ?_⟩
    · intro hpos
      apply List.ext_getElem? 
      intro k
      rw [List.getElem?_map]
      rcases hk : idx[k]? with _ | i
      · have : l[k]? = none := by
          rw [List.getElem?_eq_none_iff] at hk ⊢
          omega
        rw [this]; rfl
      · obtain ⟨b, hb, hbi⟩ := hget k i hk
        have hi := hpos i (List.mem_of_getElem? hk)
        have := pyIndex_ok hbi
        rw [hb]
        simp only [Option.map_some, Option.some.injEq]
        omega
    · intro c hc
      obtain ⟨k, hk⟩ := List.getElem?_of_mem hc
      have hkl : k < idx.length := by
        have := (List.getElem?_eq_some_iff.1 hk).1
        omega
      obtain ⟨b, hb, hbi⟩ := hget k idx[k] (List.getElem?_eq_getElem hkl)
      rw [hk] at hb
      cases hb
      exact (pyIndex_ok hbi).1

/-- C74 (the model): for every signal with learning results of its size, every selection of
components and every cast, whenever a model is returned it is, at every map position and pixel,
the sum over exactly the selected components of component pattern times loading, and the
learning results of the signal are unchanged. -/
theorem C74_model_values {K : Type} [Semiring K] (cast : K → K)
    (rechunk : Learning K → Except Err Unit) (lr : Learning K) (comp : Components)
    (size : ℕ) (m : ℕ → K) (lr' : Learning K)
    (h : getDecompositionModel cast rechunk size lr comp = (.ok m, lr')) :
    lr' = lr ∧ lr.nNav * lr.nPix = size ∧ ∃ sel : List ℕ, Selected lr.nComp comp sel ∧
      (∀ c ∈ sel, c < lr.nComp) ∧
      ∀ i j, i < lr.nNav → j < lr.nPix →
        m (i * lr.nPix + j) =
          (sel.map fun c => cast (lr.factors j c) * cast (lr.loadings i c)).sum := by
  unfold getDecompositionModel updateLearning at h
  rcases hk : keptComponents lr.nComp comp with e | idx
  · rw [hk] at h; simp at h
  · rw [hk] at h
    simp only at h
    split at h
    · simp at h
    · rename_i new hnew
      split at hnew
      · cases hnew
      · cases hnew
        unfold hyperspyModel at h
        split at h
        · simp at h
        · rename_i m' hm'
          split at hm'
          · rename_i hsize
            cases hm'
            simp only [Prod.mk.injEq, Except.ok.injEq] at h
            obtain ⟨rfl, rfl⟩ := h
            refine ⟨rfl, hsize, idx, (keptComponents_selected hk).1,
              (keptComponents_selected hk).2, ?_⟩
            intro i j hi hj
            unfold recMatrix
            have e1 : (i * lr.nPix + j) % lr.nPix = j := by
              rw [Nat.mul_comm, Nat.mul_add_mod, Nat.mod_eq_of_lt hj]
            have e2 : (i * lr.nPix + j) / lr.nPix = i := by
              rw [Nat.mul_comm, Nat.mul_add_div (by omega), Nat.div_eq_of_lt hj, Nat.add_zero]
            simp only [e1, e2]
            congr 1
            apply List.ext_getElem (by simp)
            intro k h1 h2
            simp at h1 h2
            simp [h1]
          · cases hm'

/-- C74: the model of two navigation and two signal axes, in terms of map row, map column,
pattern row and pattern column. -/
theorem C74_model_values_2d {K : Type} [Semiring K] (cast : K → K)
    (rechunk : Learning K → Except Err Unit) (lr : Learning K) (comp : Components)
    (R C H W : ℕ) (hN : lr.nNav = R * C) (hP : lr.nPix = H * W) (m : ℕ → K) (lr' : Learning K)
    (h : getDecompositionModel cast rechunk (R * C * (H * W)) lr comp = (.ok m, lr')) :
    ∃ sel : List ℕ, Selected lr.nComp comp sel ∧
      ∀ r c y x, r < R → c < C → y < H → x < W →
        m (((r * C + c) * H + y) * W + x) =
          (sel.map fun k => cast (lr.factors (y * W + x) k) *
            cast (lr.loadings (r * C + c) k)).sum := by
  obtain ⟨-, -, sel, hsel, -, hv⟩ := C74_model_values cast rechunk lr comp _ m lr' h
  refine ⟨sel, hsel, ?_⟩
  intro r c y x hr hc hy hx
  have h1 : r * C + c < R * C := by
    have : (r + 1) * C ≤ R * C := Nat.mul_le_mul_right C hr
    rw [Nat.add_mul] at this
    omega
  have h2 : y * W + x < H * W := by
    have : (y + 1) * W ≤ H * W := Nat.mul_le_mul_right W hy
    rw [Nat.add_mul] at this
    omega
  rw [← hv (r * C + c) (y * W + x) (by omega) (by omega), hP]
  congr 1
  rw [Nat.add_mul, Nat.mul_assoc, Nat.add_assoc]

/-- C74: a model is returned for every selection of existing components if the learning results
are of the size of the signal and (for lazy results) rechunking works. -/
theorem C74_model_returned {K : Type} [Semiring K] (cast : K → K)
    (rechunk : Learning K → Except Err Unit) (hre : ∀ l, rechunk l = .ok ()) (lr : Learning K)
    (comp : Components)
    (hc : ∀ l, comp = .only l → ∀ i ∈ l, -(lr.nComp : ℤ) ≤ i ∧ i < lr.nComp) :
    ∃ m, getDecompositionModel cast rechunk (lr.nNav * lr.nPix) lr comp = (.ok m, lr) := by
  have hk : ∃ idx, keptComponents lr.nComp comp = .ok idx := by
    cases comp with
    | all => exact ⟨_, rfl⟩
    | first n => exact ⟨_, rfl⟩
    | only l =>
      refine mapM_exists_ok fun i hi => ?_
      have := hc l rfl i hi
      unfold pyIndex
      by_cases h1 : 0 ≤ i ∧ i < lr.nComp
      · exact ⟨_, if_pos h1⟩
      · rw [if_neg h1, if_pos (by omega)]; exact ⟨_, rfl⟩
  obtain ⟨idx, hidx⟩ := hk
  unfold getDecompositionModel updateLearning
  rw [hidx]
  simp only [hre, hyperspyModel, if_true]
  exact ⟨_, rfl⟩

theorem mapM_pyIndex_error {size : ℕ} : ∀ {l : List ℤ},
    (∃ i ∈ l, i < -(size : ℤ) ∨ (size : ℤ) ≤ i) → l.mapM (pyIndex size) = .error .indexError
  | [], h => by simp at h
  | a :: l, h => by
    rw [List.mapM_cons]
    rcases ha : pyIndex size a with e | k
    · have : e = .indexError := by
        unfold pyIndex at ha
        split at ha
        · cases ha
        · split at ha
          · cases ha
          · cases ha; rfl
      rw [this]; rfl
    · have hl : ∃ i ∈ l, i < -(size : ℤ) ∨ (size : ℤ) ≤ i := by
        obtain ⟨i, hi, hb⟩ := h
        rcases List.mem_cons.1 hi with rfl | hi
        · have := pyIndex_ok ha
          unfold pyIndex at ha
          rw [if_neg (by omega), if_neg (by omega)] at ha
          cases ha
        · exact ⟨i, hi, hb⟩
      rw [mapM_pyIndex_error hl]; rfl

/-- C74: a listed component out of range is rejected with IndexError before anything is
changed. -/
theorem C74_bad_component {K : Type} [Semiring K] (cast : K → K)
    (rechunk : Learning K → Except Err Unit) (size : ℕ) (lr : Learning K) (l : List ℤ)
    (h : ∃ i ∈ l, i < -(lr.nComp : ℤ) ∨ (lr.nComp : ℤ) ≤ i) :
    getDecompositionModel cast rechunk size lr (.only l) = (.error .indexError, lr) := by
  have : keptComponents lr.nComp (.only l) = .error .indexError := mapM_pyIndex_error h
  unfold getDecompositionModel updateLearning
  rw [this]

/-- Learning results of three components for 2 map positions and 2 pixels. -/
def exLearning : Learning ℚ where
  nPix := 2
  nNav := 2
  nComp := 3
  factors := fun j c => (10 * j + c : ℕ)
  loadings := fun i c => (i + c + 1 : ℕ)

/-- Non-vacuity: the first two components, a list of components, and their values at map
position 1 and pixel 1: 10 * 2 + 11 * 3 and 12 * 4 + 10 * 2. -/
example : (∃ m, getDecompositionModel id (fun _ => .ok ()) 4 exLearning (.first 2) =
      (.ok m, exLearning) ∧ m 3 = 53) ∧
    (∃ m, getDecompositionModel id (fun _ => .ok ()) 4 exLearning (.only [2, 0]) =
      (.ok m, exLearning) ∧ m 3 = 68) :=
  ⟨⟨_, rfl, by decide +kernel⟩, ⟨_, rfl, by decide +kernel⟩⟩

/-- C74 is false if HyperSpy's function fails, e.g. after the signal has been cropped (`size`
differs from the size of the learning results): the signal keeps the truncated learning
results, for every selection which leaves components out. -/
theorem C74_failure_truncates {K : Type} [Semiring K] (cast : K → K) (size : ℕ)
    (lr : Learning K) (n : ℕ) (hn : n < lr.nComp) (hsize : lr.nNav * lr.nPix ≠ size) :
    ∃ lr', getDecompositionModel cast (fun _ => .ok ()) size lr (.first n) =
      (.error .valueError, lr') ∧ lr'.nComp = n := by
  unfold getDecompositionModel updateLearning keptComponents
  simp only
  unfold hyperspyModel
  rw [if_neg (by simpa using hsize)]
  refine ⟨_, rfl, ?_⟩
  simp only [List.length_range, pyStop]
  rw [if_neg (by omega)]
  omega

/-- A concrete case: three components become one. -/
theorem C74_unchanged_on_error_violated :
    (getDecompositionModel id (fun _ => .ok ()) 2 exLearning (.first 1)).2.nComp = 1 ∧
      exLearning.nComp = 3 := by decide +kernel

/-- C74 (partial): the learning results are unchanged unless HyperSpy's function fails.
Missing: that failure (false, see above). -/
theorem C74_learning_unchanged_partial {K : Type} [Semiring K] (cast : K → K)
    (rechunk : Learning K → Except Err Unit) (lr : Learning K) (comp : Components) :
    (getDecompositionModel cast rechunk (lr.nNav * lr.nPix) lr comp).2 = lr := by
  unfold getDecompositionModel
  rcases hu : updateLearning cast rechunk lr comp with e | new
  · rfl
  · have : new.nNav * new.nPix = lr.nNav * lr.nPix := by
      unfold updateLearning at hu
      split at hu
      · cases hu
      · simp only at hu
        split at hu
        · cases hu
        · cases hu; rfl
    simp only [hyperspyModel, this, if_true]

/-! ### Writing the model to file -/

theorem runSteps_ok {fail : WriteStep → Option Err} : ∀ {l : List WriteStep},
    runSteps fail l = .ok () ↔ ∀ s ∈ l, fail s = none
  | [] => by simp [runSteps]
  | s :: l => by
    unfold runSteps
    rcases h : fail s with _ | e
    · simp [runSteps_ok (l := l), h]
    · simp [h]

/-- C74 (partial): when `get_decomposition_model_write` succeeds, the model has been written and
the temporary file is gone; when it fails before the temporary file is written, there is none.
Missing: failures afterwards (false, see below). -/
theorem C74_no_temporary_file_partial {K : Type} (cast : K → K)
    (rechunk : Learning K → Except Err Unit) (lr : Learning K) (comp : Components)
    (dirOut metaDir : Bool) (fail : WriteStep → Option Err) :
    ((modelWrite cast rechunk lr comp dirOut metaDir fail).1 = .ok () →
      (modelWrite cast rechunk lr comp dirOut metaDir fail).2 = ⟨false, true⟩) ∧
    ((∀ s, fail s = none) → (modelWrite cast rechunk lr comp dirOut metaDir fail).2.learn = false) ∧
    (dirOut = false → metaDir = false →
      (modelWrite cast rechunk lr comp dirOut metaDir fail).2 = ⟨false, false⟩) := by
  unfold modelWrite
  rcases updateLearning cast rechunk lr comp with e | new
  · simp
  · simp only
    split
    · simp
    · rename_i hd
      rcases hr : runSteps fail writeSteps with e | u
      · simp only [Bool.and_eq_true, Bool.not_eq_true'] at hd
        refine ⟨by simp, fun h => ?_, fun h1 h2 => absurd ⟨h1, h2⟩ hd⟩
        rw [runSteps_ok.2 fun s _ => h s] at hr
        cases hr
      · simp only [Bool.and_eq_true, Bool.not_eq_true'] at hd
        exact ⟨fun _ => rfl, fun _ => rfl, fun h1 h2 => absurd ⟨h1, h2⟩ hd⟩

/-- Non-vacuity. -/
example : modelWrite id (fun _ => .ok ()) exLearning (.first 2) true false
    (shapeFailures 4 4 exLearning) = (.ok (), ⟨false, true⟩) := by decide +kernel

/-- C74 is false for writing: with any number of data axes but four, e.g. a signal with one
navigation axis, writing always fails with ValueError and leaves the temporary file. -/
theorem C74_write_needs_map {K : Type} (cast : K → K) (lr : Learning K) (n : ℤ) (metaDir : Bool)
    (ndim : ℕ) (hnd : ndim ≠ 4) :
    modelWrite cast (fun _ => .ok ()) lr (.first n) true metaDir
      (shapeFailures ndim (lr.nNav * lr.nPix) lr) = (.error .valueError, ⟨true, false⟩) := by
  simp [modelWrite, updateLearning, keptComponents, runSteps, writeSteps, shapeFailures, hnd]

theorem C74_temporary_file_left_violated :
    modelWrite id (fun _ => .ok ()) exLearning .all true false (shapeFailures 3 4 exLearning) =
      (.error .valueError, ⟨true, false⟩) := by decide +kernel

end Kp
