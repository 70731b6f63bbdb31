import Verif.Model.Nordif
import Verif.Props.H5Ebsd
import Mathlib.Algebra.Order.Ring.Rat
import Mathlib.Tactic.Ring

/-
C42: NORDIF binary files round-trip patterns.
C66: NORDIF signals have named axes with the right scales.

The signal returned is described by the map position: the value of pattern pixel (p, q) of the
pattern in row i and column j is found at flat index `((i * nx + j) * sy + p) * sx + q`.
-/

namespace Kp

/-- Flat index of pixel (p, q) of the pattern in map row i and column j. -/
def Spec.pixelIndex (nx sy sx i j p q : ℕ) : ℕ := ((i * nx + j) * sy + p) * sx + q

theorem Spec.pixelIndex_lt {ny nx sy sx i j p q : ℕ} (hi : i < ny) (hj : j < nx) (hp : p < sy)
    (hq : q < sx) : Spec.pixelIndex nx sy sx i j p q < ny * nx * sy * sx := by
  unfold Spec.pixelIndex
  have h1 : i * nx + j + 1 ≤ ny * nx := by
    calc i * nx + j + 1 ≤ i * nx + nx := by omega
      _ = (i + 1) * nx := by ring
      _ ≤ ny * nx := Nat.mul_le_mul_right _ hi
  have h2 : (i * nx + j) * sy + p + 1 ≤ ny * nx * sy := by
    calc (i * nx + j) * sy + p + 1 ≤ (i * nx + j) * sy + sy := by omega
      _ = (i * nx + j + 1) * sy := by ring
      _ ≤ ny * nx * sy := Nat.mul_le_mul_right _ h1
  calc ((i * nx + j) * sy + p) * sx + q < ((i * nx + j) * sy + p) * sx + sx := by omega
      _ = ((i * nx + j) * sy + p + 1) * sx := by ring
      _ ≤ ny * nx * sy * sx := Nat.mul_le_mul_right _ h2

theorem flatMap_patternAt {V : Type} (size : ℕ) :
    ∀ (n : ℕ) (data : List V),
      (List.range n).flatMap (fun k => patternAt size data k) = data.take (n * size)
  | 0, data => by simp
  | n + 1, data => by
    rw [List.range_succ, List.flatMap_append, flatMap_patternAt size n data]
    simp only [List.flatMap_cons, List.flatMap_nil, List.append_nil, patternAt]
    rw [Nat.succ_mul, List.take_add]

/-- The file has the patterns one after the other. -/
theorem nordifWrite_eq (n size : ℕ) (data : List Byte) :
    nordifWrite (fun v => [v]) n size data = data.take (n * size) := by
  unfold nordifWrite
  simp only [List.flatMap_singleton']
  exact flatMap_patternAt size n data

theorem shapeSize_four (ny nx sy sx : ℕ) : shapeSize [ny, nx, sy, sx] = ny * nx * sy * sx := by
  simp only [shapeSize]; ring

/-- What is read in memory: a full file gives the first values, with unit axes removed, ... -/
theorem nordifData_full {file : List Byte} {scan : ScanSize} {ny nx sx sy : ℕ}
    (hs : scan.rowsCols = (ny, nx)) (h : ny * nx * sy * sx ≤ file.length) :
    nordifData false file scan sx sy
      = .ok ⟨[ny, nx, sy, sx].filter (· ≠ 1), file.take (ny * nx * sy * sx)⟩ := by
  unfold nordifData
  simp only [hs, Bool.false_eq_true, if_false]
  rw [reshape_ok (shape := [ny, nx, sy, sx])
    (by rw [shapeSize_four, List.length_take]; omega)]
  rfl

/-- ... and a shorter one the values present followed by zeros. -/
theorem nordifData_short {file : List Byte} {scan : ScanSize} {ny nx sx sy : ℕ}
    (hs : scan.rowsCols = (ny, nx)) (h : file.length < ny * nx * sy * sx) :
    nordifData false file scan sx sy = .ok ⟨[ny, nx, sy, sx],
      file ++ List.replicate (ny * nx * sy * sx - file.length) 0⟩ := by
  unfold nordifData
  simp only [hs, Bool.false_eq_true, if_false]
  have ht : file.take (ny * nx * sy * sx) = file := List.take_of_length_le (by omega)
  rw [ht]
  have hne : FlatArr.reshape (⟨[file.length], file⟩ : FlatArr Byte) [ny, nx, sy, sx]
      = .error .valueError := by
    unfold FlatArr.reshape
    rw [if_neg (by rw [shapeSize_four]; simp only; omega)]
  rw [hne]
  simp only
  rw [reshape_ok]
  · rfl
  · rw [shapeSize_four]; simp only [FlatArr.padTo, List.length_append, List.length_replicate]
    omega

variable {K : Type} [Field K]

/-- C42 (partial): writing 8-bit patterns of any map and reading the file with the same sizes
gives the same values at the same positions, and the shape of the map and patterns with axes of
length one removed.  Missing: the lazily read signal is the same (see the theorems below). -/
theorem C42_round_trip_partial {data : List Byte} {ny nx sy sx : ℕ} (step : Option K)
    (h : data.length = ny * nx * sy * sx) :
    ∃ a axes, nordifRead false (nordifWrite (fun v => [v]) (ny * nx) (sy * sx) data)
        (.pair nx ny) sx sy step = .ok (a, axes)
      ∧ a.shape = [ny, nx, sy, sx].filter (· ≠ 1)
      ∧ a.data = data
      ∧ ∀ i j p q, i < ny → j < nx → p < sy → q < sx →
          a.data[Spec.pixelIndex nx sy sx i j p q]? = data[Spec.pixelIndex nx sy sx i j p q]?
          ∧ (a.data[Spec.pixelIndex nx sy sx i j p q]?).isSome := by
  have hw : nordifWrite (fun v => [v]) (ny * nx) (sy * sx) data = data := by
    rw [nordifWrite_eq, List.take_of_length_le]
    rw [h]; exact le_of_eq (by ring)
  refine ⟨⟨[ny, nx, sy, sx].filter (· ≠ 1), data.take (ny * nx * sy * sx)⟩,
    nordifAxes step ([ny, nx, sy, sx].filter (· ≠ 1)), ?_, ?_⟩
  · unfold nordifRead
    rw [hw, nordifData_full (ny := ny) (nx := nx) rfl (by omega)]
  · refine ⟨rfl, by simp only [← h, List.take_length], ?_⟩
    intro i j p q hi hj hp hq
    have := Spec.pixelIndex_lt hi hj hp hq
    simp only [← h, List.take_length] at this ⊢
    exact ⟨trivial, by simpa using this⟩

/-- C42 (partial): when the file is too short, the values present are read and the rest are
zero.  Here the array always has four dimensions. -/
theorem C42_truncated_file {file : List Byte} {ny nx sy sx : ℕ} (step : Option K)
    (h : file.length < ny * nx * sy * sx) :
    ∃ a axes, nordifRead false file (.pair nx ny) sx sy step = .ok (a, axes)
      ∧ a.shape = [ny, nx, sy, sx]
      ∧ a.data.length = ny * nx * sy * sx
      ∧ ∀ i j p q, i < ny → j < nx → p < sy → q < sx →
          a.data[Spec.pixelIndex nx sy sx i j p q]?
            = some ((file[Spec.pixelIndex nx sy sx i j p q]?).getD 0) := by
  refine ⟨⟨[ny, nx, sy, sx], file ++ List.replicate (ny * nx * sy * sx - file.length) 0⟩,
    nordifAxes step [ny, nx, sy, sx], ?_, rfl, ?_, ?_⟩
  · unfold nordifRead
    rw [nordifData_short (ny := ny) (nx := nx) rfl h]
  · simp only [List.length_append, List.length_replicate]; omega
  · intro i j p q hi hj hp hq
    have hlt := Spec.pixelIndex_lt hi hj hp hq
    generalize Spec.pixelIndex nx sy sx i j p q = k at hlt ⊢
    by_cases hk : k < file.length
    · rw [List.getElem?_append_left hk, List.getElem?_eq_getElem hk]; rfl
    · rw [List.getElem?_append_right (by omega), List.getElem?_replicate, if_pos (by omega),
        List.getElem?_eq_none (by omega)]; rfl

/-- C42 (partial): the lazily read signal is the same if the file is long enough and neither the
map nor the pattern has an axis of length one. -/
theorem C42_lazy_partial {file : List Byte} {ny nx sy sx : ℕ} (step : Option K)
    (hl : ny * nx * sy * sx ≤ file.length) (hny : ny ≠ 1) (hnx : nx ≠ 1) (hsy : sy ≠ 1)
    (hsx : sx ≠ 1) :
    nordifRead true file (.pair nx ny) sx sy step
      = nordifRead false file (.pair nx ny) sx sy step := by
  unfold nordifRead
  rw [nordifData_full (ny := ny) (nx := nx) rfl hl]
  have : ([ny, nx, sy, sx].filter (· ≠ 1)) = [ny, nx, sy, sx] := by
    simp [List.filter, hny, hnx, hsy, hsx]
  rw [this]
  unfold nordifData
  simp only [ScanSize.rowsCols, if_true, hl]

/-- The code does not satisfy C42: the lazily read signal of a single row has one more dimension
than the signal read into memory, ... -/
theorem C42_not_lazy_single_row {file : List Byte} {nx sy sx : ℕ}
    (hl : 1 * nx * sy * sx ≤ file.length) {a b : FlatArr Byte}
    (ha : nordifData true file (.pair nx 1) sx sy = .ok a)
    (hb : nordifData false file (.pair nx 1) sx sy = .ok b) : b.shape.length < a.shape.length := by
  rw [nordifData_full (ny := 1) (nx := nx) rfl hl] at hb
  unfold nordifData at ha
  simp only [ScanSize.rowsCols, if_true, hl] at ha
  injection ha with ha
  injection hb with hb
  subst ha; subst hb
  have := List.length_filter_le (fun n => decide (n ≠ 1)) [nx, sy, sx]
  simp only [List.length_cons, List.length_nil] at this
  simp only [List.filter_cons (x := 1), List.length_cons, List.length_nil]
  simpa using Nat.lt_succ_of_le this

/-- ... and a file that is too short is an error. -/
theorem C42_not_lazy_truncated {file : List Byte} {ny nx sy sx : ℕ} (step : Option K)
    (h : file.length < ny * nx * sy * sx) :
    nordifRead true file (.pair nx ny) sx sy step = .error .valueError
      ∧ ∃ s, nordifRead false file (.pair nx ny) sx sy step = .ok s := by
  constructor
  · have : ¬ ny * nx * sy * sx ≤ file.length := by omega
    simp [nordifRead, nordifData, ScanSize.rowsCols, this]
  · obtain ⟨a, axes, hr, _⟩ := C42_truncated_file step h
    exact ⟨_, hr⟩

/-- Bytes of a 16-bit value, low byte first. -/
def Spec.littleEndian (n : ℕ) : List Byte :=
  [⟨n % 256, Nat.mod_lt _ (by decide)⟩, ⟨n / 256 % 256, Nat.mod_lt _ (by decide)⟩]

/-- Beyond C42: signals of wider data types are written without an error but the values read are
the bytes; of a map of 16-bit patterns only the first half is read back. -/
theorem C42_not_wider_types : ∃ (data : List ℕ) (a : FlatArr Byte), (∀ n ∈ data, n < 65536)
    ∧ data.length = 2 * 2 * 2 * 2
    ∧ nordifData false (nordifWrite Spec.littleEndian 4 4 data) (.pair 2 2) 2 2 = .ok a
    ∧ a.data.map (fun b => b.val) ≠ data := by
  refine ⟨List.range 16, _, by decide, by decide, rfl, by decide⟩

/-- The axes a signal of a map with `ny` rows and `nx` columns should have: detector axes at the
end with unit scale, navigation axes in front with the step size. -/
def Spec.nordifAxes (step : K) (ny nx sy sx : ℕ) : List (SignalAxis K) :=
  (if ny ≠ 1 then [⟨"y", ny, step⟩] else []) ++ (if nx ≠ 1 then [⟨"x", nx, step⟩] else [])
    ++ [⟨"dy", sy, 1⟩, ⟨"dx", sx, 1⟩]

/-- C66 (partial): a signal from a map with several rows and columns has navigation axes "y" and
"x" with the step size and detector axes "dy" and "dx" with unit scale.  Missing: maps with one
row or column, for which the property fails (below). -/
theorem C66_axes_partial {file : List Byte} {ny nx sy sx : ℕ} (step : Option K)
    (hl : ny * nx * sy * sx ≤ file.length) (hny : ny ≠ 1) (hnx : nx ≠ 1) (hsy : sy ≠ 1)
    (hsx : sx ≠ 1) (lazy : Bool) :
    ∃ a, nordifRead lazy file (.pair nx ny) sx sy step
      = .ok (a, Spec.nordifAxes (step.getD 1) ny nx sy sx) := by
  have hf : ([ny, nx, sy, sx].filter (· ≠ 1)) = [ny, nx, sy, sx] := by
    simp [List.filter, hny, hnx, hsy, hsx]
  have key : nordifRead false file (.pair nx ny) sx sy step
      = .ok (⟨[ny, nx, sy, sx], file.take (ny * nx * sy * sx)⟩,
          Spec.nordifAxes (step.getD 1) ny nx sy sx) := by
    unfold nordifRead
    rw [nordifData_full (ny := ny) (nx := nx) rfl hl, hf]
    simp [nordifAxes, Spec.nordifAxes, hny, hnx, List.range_succ]
  cases lazy
  · exact ⟨_, key⟩
  · rw [C42_lazy_partial step hl hny hnx hsy hsx]
    exact ⟨_, key⟩

/-- The code does not satisfy C66: the signal of a single row has axes "y", "x" and "dy" for the
column, the detector row and the detector column, and the detector rows have the step size. -/
theorem C66_not_single_row {file : List Byte} {nx sy sx : ℕ} {s : K}
    (hl : 1 * nx * sy * sx ≤ file.length) (hnx : nx ≠ 1) (hsy : sy ≠ 1) (hsx : sx ≠ 1) :
    ∃ a, nordifRead false file (.pair nx 1) sx sy (some s)
      = .ok (a, [⟨"y", nx, s⟩, ⟨"x", sy, s⟩, ⟨"dy", sx, 1⟩]) := by
  refine ⟨⟨[nx, sy, sx], file.take (1 * nx * sy * sx)⟩, ?_⟩
  unfold nordifRead
  rw [nordifData_full (ny := 1) (nx := nx) rfl hl]
  simp [nordifAxes, hnx, hsy, hsx, List.filter, List.range_succ]

/-- The same for a scan size given as an integer. -/
theorem C66_not_integer_scan_size {file : List Byte} {nx sy sx : ℕ} {s : K}
    (hl : 1 * nx * sy * sx ≤ file.length) (hnx : nx ≠ 1) (hsy : sy ≠ 1) (hsx : sx ≠ 1) :
    ∃ a, nordifRead false file (.int nx) sx sy (some s)
      = .ok (a, [⟨"y", nx, s⟩, ⟨"x", sy, s⟩, ⟨"dy", sx, 1⟩]) := by
  refine ⟨⟨[nx, sy, sx], file.take (1 * nx * sy * sx)⟩, ?_⟩
  unfold nordifRead
  rw [nordifData_full (ny := 1) (nx := nx) rfl hl]
  simp [nordifAxes, hnx, hsy, hsx, List.filter, List.range_succ]

/-- The hypotheses are met: a map with two rows and three columns of patterns with two rows and
two columns, with a file of 24 bytes. -/
example : (List.replicate 24 (7 : Byte)).length = 2 * 3 * 2 * 2 := by decide

example : nordifRead false [1, 2, 3, 4, 5, 6, 7, 8, 9] (.pair 2 2) 2 2 (some (1 / 2 : ℚ))
    = .ok (⟨[2, 2, 2, 2], [1, 2, 3, 4, 5, 6, 7, 8, 9, 0, 0, 0, 0, 0, 0, 0]⟩,
        [⟨"y", 2, 1 / 2⟩, ⟨"x", 2, 1 / 2⟩, ⟨"dy", 2, 1⟩, ⟨"dx", 2, 1⟩]) := by
  decide +kernel

example : nordifData true [1, 2, 3, 4, 5, 6, 7, 8] (.pair 2 1) 2 2
    = .ok ⟨[1, 2, 2, 2], [1, 2, 3, 4, 5, 6, 7, 8]⟩ := by decide

end Kp
