import Verif.Model.NordifSave
import Verif.Props.Nordif

/-!
C107: what a NORDIF file has when saving is interrupted, and what saving does to lazy signals.
-/

namespace Kp

/-! ### Lemmas -/

theorem FileSystem.set_self (fs : FileSystem) (i : ℕ) (c : List Byte) :
    (fs.set i c).content i = some c := by simp [FileSystem.set]

theorem FileSystem.set_other (fs : FileSystem) {i j : ℕ} (c : List Byte) (h : j ≠ i) :
    (fs.set i c).content j = fs.content j := by simp [FileSystem.set, h]

theorem FileSystem.append_set (fs : FileSystem) (i : ℕ) (c d : List Byte) :
    (fs.set i c).append i d = fs.set i (c ++ d) := by
  unfold FileSystem.append
  rw [FileSystem.set_self]
  unfold FileSystem.set
  congr 1
  funext j
  by_cases h : j = i <;> simp [h]

/-- The loop for patterns which can be had, whatever is written to the file. -/
theorem writePatterns_eq (src : PatternSource) (i : ℕ) (fs : FileSystem) (p : ℕ → List Byte) :
    ∀ (ks : List ℕ) (_ : ∀ k ∈ ks, ∀ c, src.get (fs.set i c) k = .ok (p k)) (budget : ℕ)
      (done : List Byte),
      writePatterns src i ks budget (fs.set i done) =
        (if (ks.flatMap p).length ≤ budget then .completed else .interrupted,
          fs.set i (done ++ (ks.flatMap p).take budget))
  | [], _, budget, done => by simp [writePatterns]
  | k :: ks, h, budget, done => by
    rw [writePatterns, h k List.mem_cons_self]
    simp only
    have hk := h k List.mem_cons_self
    by_cases hb : (p k).length ≤ budget
    · rw [if_pos hb, FileSystem.append_set,
        writePatterns_eq src i fs p ks (fun k hk => h k (List.mem_cons_of_mem _ hk))]
      have e1 : (List.flatMap p (k :: ks)).take budget =
          p k ++ (ks.flatMap p).take (budget - (p k).length) := by
        rw [List.flatMap_cons, List.take_append, List.take_of_length_le hb]
      have e2 : ((List.flatMap p (k :: ks)).length ≤ budget) ↔
          ((ks.flatMap p).length ≤ budget - (p k).length) := by
        rw [List.flatMap_cons, List.length_append]
        omega
      rw [e1, List.append_assoc]
      by_cases hc : (ks.flatMap p).length ≤ budget - (p k).length
      · rw [if_pos hc, if_pos (e2.mpr hc)]
      · rw [if_neg hc, if_neg (fun h => hc (e2.mp h))]
    · have e1 : (List.flatMap p (k :: ks)).take budget = (p k).take budget := by
        rw [List.flatMap_cons, List.take_append_of_le_length (by omega)]
      have e2 : ¬ (List.flatMap p (k :: ks)).length ≤ budget := by
        rw [List.flatMap_cons, List.length_append]
        omega
      rw [if_neg hb, if_neg e2, FileSystem.append_set, e1]

theorem flatMap_range_getD (l : List (List Byte)) :
    (List.range l.length).flatMap (fun k => l.getD k []) = l.flatten := by
  rw [List.flatMap_def]
  congr 1
  apply List.ext_getElem?
  intro k
  rw [List.getElem?_map]
  by_cases hk : k < l.length
  · rw [List.getElem?_range hk, List.getElem?_eq_getElem hk]
    simp [hk]
  · rw [List.getElem?_eq_none (by simpa using hk), List.getElem?_eq_none (by omega)]
    rfl

/-! ### Signals in memory -/

/-- C107. Saving a signal in memory: the file has the patterns one after the other, cut off where saving was
interrupted; no other file is changed. Saving is complete if there is no interrupt before the last
byte. -/
theorem C107_prefix (patterns : List (List Byte)) (name : String) (budget : ℕ) (fs : FileSystem) :
    let r := saveNordif (.inMemory patterns) name budget fs
    r.2.content (fs.names name) = some (patterns.flatten.take budget) ∧
      (∀ j, j ≠ fs.names name → r.2.content j = fs.content j) ∧
      (r.1 = .completed ↔ patterns.flatten.length ≤ budget) ∧ ∀ e, r.1 ≠ .failed e := by
  intro r
  have h : r = _ := writePatterns_eq (.inMemory patterns) (fs.names name) fs
    (fun k => patterns.getD k []) (List.range patterns.length) (fun _ _ _ => rfl) budget []
  rw [flatMap_range_getD, List.nil_append] at h
  rw [h]
  refine ⟨FileSystem.set_self _ _ _, fun j hj => FileSystem.set_other _ _ hj, ?_, ?_⟩
  · dsimp only
    split_ifs with hc
    · exact ⟨fun _ => hc, fun _ => rfl⟩
    · exact ⟨fun h => h.elim, fun h => absurd h hc⟩
  · intro e
    dsimp only
    split_ifs <;> simp

/-- C107. Loading (not lazily) what is there after an interrupt: each pixel written is the one saved, and all
others are zero. -/
theorem C107_loads {K : Type} [Field K] (patterns : List (List Byte)) (name : String) (budget : ℕ)
    (fs : FileSystem) {ny nx sy sx : ℕ} (step : Option K)
    (hn : patterns.flatten.length = ny * nx * sy * sx) (hb : budget < ny * nx * sy * sx) :
    ∃ file a axes, (saveNordif (.inMemory patterns) name budget fs).2.content (fs.names name) = some file ∧
      nordifRead false file (.pair nx ny) sx sy step = .ok (a, axes) ∧ a.shape = [ny, nx, sy, sx] ∧
      ∀ i j p q, i < ny → j < nx → p < sy → q < sx →
        a.data[Spec.pixelIndex nx sy sx i j p q]? =
          if Spec.pixelIndex nx sy sx i j p q < budget then
            patterns.flatten[Spec.pixelIndex nx sy sx i j p q]?
          else some 0 := by
  obtain ⟨h1, -, -, -⟩ := C107_prefix patterns name budget fs
  obtain ⟨a, axes, hr, hs, -, hv⟩ := C42_truncated_file (file := patterns.flatten.take budget)
    (ny := ny) (nx := nx) (sy := sy) (sx := sx) step (by rw [List.length_take]; omega)
  refine ⟨_, a, axes, h1, hr, hs, fun i j p q hi hj hp hq => ?_⟩
  rw [hv i j p q hi hj hp hq]
  have hlt := Spec.pixelIndex_lt hi hj hp hq
  generalize Spec.pixelIndex nx sy sx i j p q = k at hlt ⊢
  by_cases hk : k < budget
  · rw [if_pos hk, List.getElem?_take_of_lt hk, List.getElem?_eq_getElem (by omega)]
    rfl
  · rw [if_neg hk, List.getElem?_eq_none (by rw [List.length_take]; omega)]
    rfl

/-- C107. Loading lazily what is there after an interrupt is an error. -/
theorem C107_lazy_detects {K : Type} [Field K] (patterns : List (List Byte)) (name : String)
    (budget : ℕ) (fs : FileSystem) {ny nx sy sx : ℕ} (step : Option K)
    (hb : budget < ny * nx * sy * sx) :
    ∃ file, (saveNordif (.inMemory patterns) name budget fs).2.content (fs.names name) = some file ∧
      nordifRead true file (.pair nx ny) sx sy step = .error .valueError := by
  obtain ⟨h1, -, -, -⟩ := C107_prefix patterns name budget fs
  exact ⟨_, h1, (C42_not_lazy_truncated step (by rw [List.length_take]; omega)).1⟩

/-! ### Lazy signals -/

/-- C107. Saving a lazy signal to another file gives, for every point of interrupt, the same as saving the
computed signal. -/
theorem C107_lazy_other_file_partial (source target : String) (n size : ℕ)
    (process : List Byte → List Byte) (budget : ℕ) (fs : FileSystem) {bytes : List Byte}
    (hfile : fs.content (fs.names source) = some bytes) (hlen : n * size ≤ bytes.length)
    (hother : fs.names source ≠ fs.names target) :
    saveNordif (.lazyFile source n size process) target budget fs =
      saveNordif (.inMemory ((List.range n).map fun k => process (patternAt size bytes k))) target
        budget fs := by
  unfold saveNordif
  rw [writePatterns_eq (.lazyFile source n size process) (fs.names target) fs
      (fun k => process (patternAt size bytes k)) _ (fun k _ c => by
        have : (fs.set (fs.names target) c).content ((fs.set (fs.names target) c).names source) =
            some bytes := by
          rw [← hfile]
          exact FileSystem.set_other _ _ hother
        simp only [PatternSource.lazyFile, this, if_pos hlen]),
    writePatterns_eq (.inMemory ((List.range n).map fun k => process (patternAt size bytes k)))
      (fs.names target) fs _ _ (fun _ _ _ => rfl)]
  have e : ∀ l : List (List Byte), (List.range (PatternSource.inMemory l).count).flatMap
      (fun k => l.getD k []) = l.flatten := fun l => flatMap_range_getD l
  rw [e, List.flatMap_def]
  rfl

/-- C107, not true. Saving a lazy signal to the file it was loaded from, under whatever name, fails when the
first pattern is asked for, and leaves an empty file: all patterns are lost. -/
theorem C107_own_file_violated (source target : String) (n size : ℕ)
    (process : List Byte → List Byte) (budget : ℕ) (fs : FileSystem)
    (hn : 0 < n) (hs : 0 < size) (hsame : fs.names source = fs.names target) :
    let r := saveNordif (.lazyFile source n size process) target budget fs
    r.1 = .failed .valueError ∧ r.2.content (fs.names source) = some [] := by
  intro r
  have hcount : (PatternSource.lazyFile source n size process).count = n := rfl
  obtain ⟨m, rfl⟩ : ∃ m, n = m + 1 := ⟨n - 1, by omega⟩
  have hget : (PatternSource.lazyFile source (m + 1) size process).get (fs.set (fs.names target) []) 0 =
      .error .valueError := by
    have : (fs.set (fs.names target) []).content ((fs.set (fs.names target) []).names source) =
        some [] := by
      change (fs.set (fs.names target) []).content (fs.names source) = _
      rw [hsame]
      exact FileSystem.set_self _ _ _
    simp only [PatternSource.lazyFile, this]
    rw [if_neg]
    have : 0 < (m + 1) * size := Nat.mul_pos hn hs
    simp
    omega
  have hr : r = (.failed .valueError, fs.set (fs.names target) []) := by
    change writePatterns _ _ (List.range _) _ _ = _
    rw [hcount, List.range_succ_eq_map, writePatterns, hget]
  rw [hr]
  refine ⟨rfl, ?_⟩
  rw [hsame]
  exact FileSystem.set_self _ _ _

/-- C107, not true. An interrupted save to an existing file has lost what was in it, at whatever byte it
stops: the file is the same whatever was in it before. Stopped before the first byte, it is
empty. -/
theorem C107_old_patterns_violated (patterns : List (List Byte)) (name : String) (budget : ℕ)
    (fs : FileSystem) :
    (∀ old, (saveNordif (.inMemory patterns) name budget
        (fs.set (fs.names name) old)).2.content (fs.names name) =
      (saveNordif (.inMemory patterns) name budget fs).2.content (fs.names name)) ∧
    (saveNordif (.inMemory patterns) name 0 fs).2.content (fs.names name) = some [] := by
  constructor
  · intro old
    rw [(C107_prefix patterns name budget fs).1]
    exact (C107_prefix patterns name budget (fs.set (fs.names name) old)).1
  · rw [(C107_prefix patterns name 0 fs).1, List.take_zero]

/-! ### Examples -/

/-- A file system with two patterns of two pixels in one file, with two names. -/
def twoPatternFiles : FileSystem where
  names := fun s => if s = "Pattern.dat" ∨ s = "./Pattern.dat" then 0 else 1
  content := fun i => if i = 0 then some [1, 2, 3, 4] else none

example : twoPatternFiles.names "Pattern.dat" = twoPatternFiles.names "./Pattern.dat" := by decide

example : twoPatternFiles.content (twoPatternFiles.names "Pattern.dat") = some [1, 2, 3, 4] ∧
    2 * 2 ≤ ([1, 2, 3, 4] : List Byte).length ∧
    twoPatternFiles.names "Pattern.dat" ≠ twoPatternFiles.names "new.dat" := by decide

/-- Interrupted after three bytes of four. -/
example : ((saveNordif (.inMemory [[5, 6], [7, 8]]) "Pattern.dat" 3 twoPatternFiles).2.content 0 =
      some [5, 6, 7]) ∧
    ([[5, 6], [7, 8]] : List (List Byte)).flatten.length = 1 * 2 * 1 * 2 ∧ 3 < 1 * 2 * 1 * 2 := by decide

example : (saveNordif (.lazyFile "Pattern.dat" 2 2 id) "new.dat" 10 twoPatternFiles).2.content 1 =
    some [1, 2, 3, 4] := by decide

end Kp
