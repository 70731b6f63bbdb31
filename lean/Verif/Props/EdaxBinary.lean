import Verif.Model.EdaxBinary
import Verif.Lemmas.Bytes
import Mathlib.Algebra.Order.Ring.Rat

/-
C45: EDAX binary readers label axes correctly.
C67: EDAX binary readers return every pattern at its own map position.

The specification is the layout of a file, `Spec.edaxFile`.
-/

namespace Kp

variable {K : Type} [Field K]

/-- What is in a file of version 3 or later, or of version 1. -/
structure Spec.EdaxContent (K : Type) where
  version : ℕ
  sx : ℕ
  sy : ℕ
  nx : ℕ
  ny : ℕ
  hex : Bool
  dx : K
  dy : K
  /-- Bytes between the header and the patterns. -/
  gap : List Byte
  /-- All pixels, pattern after pattern. -/
  pixels : List ℕ

/-- Bytes of a file: version, pattern width and height, offset of the patterns; from version 3 an
unknown byte, map width and height, grid type and step sizes; patterns. -/
def Spec.edaxFile (enc : K → List Byte) (width : ℕ) (c : Spec.EdaxContent K) : List Byte :=
  let map := if c.version = 1 then [] else
    [0] ++ Spec.leBytes 4 c.nx ++ Spec.leBytes 4 c.ny ++ [if c.hex then 1 else 0]
      ++ enc c.dx ++ enc c.dy
  Spec.leBytes 4 c.version ++ Spec.leBytes 4 c.sx ++ Spec.leBytes 4 c.sy
    ++ Spec.leBytes 4 (16 + map.length + c.gap.length) ++ map ++ c.gap
    ++ c.pixels.flatMap (Spec.leBytes width)

/-- The content fits the fields of the file, and the number of pixels is that of `n` patterns. -/
structure Spec.EdaxValid (enc : K → List Byte) (dec : List Byte → K) (width : ℕ)
    (c : Spec.EdaxContent K) (n : ℕ) : Prop where
  version : c.version < 256 ^ 4
  version2 : c.version ≠ 2
  sx : c.sx < 256 ^ 4
  sy : c.sy < 256 ^ 4
  nx : c.nx < 256 ^ 4
  ny : c.ny < 256 ^ 4
  gap : c.gap.length < 2 ^ 31
  pixel : ∀ p ∈ c.pixels, p < 256 ^ width
  count : c.pixels.length = n * (c.sy * c.sx)
  enc_dx : (enc c.dx).length = 8
  enc_dy : (enc c.dy).length = 8
  dec_dx : dec (enc c.dx) = c.dx
  dec_dy : dec (enc c.dy) = c.dy

theorem flatMap_leBytes_length (w : ℕ) : ∀ l : List ℕ,
    (l.flatMap (Spec.leBytes w)).length = l.length * w
  | [] => by simp
  | n :: l => by
    rw [List.flatMap_cons, List.length_append, flatMap_leBytes_length w l, Spec.leBytes_length,
      List.length_cons]
    ring

/-- The header of a file of version 3 or later on a square grid. -/
theorem edaxHeader_grid {enc : K → List Byte} {dec : List Byte → K} {width n : ℕ}
    {c : Spec.EdaxContent K} (b : Bool) (h : Spec.EdaxValid enc dec width c n) (hv : c.version ≠ 1)
    (hh : c.hex = false) :
    edaxHeader b dec width (Spec.edaxFile enc width c)
      = .ok ⟨c.sx, c.sy, 42 + c.gap.length, c.nx, c.ny, c.nx * c.ny, c.dx, c.dy, false⟩ := by
  obtain ⟨px, hpx⟩ : ∃ l, l = c.pixels.flatMap (Spec.leBytes width) := ⟨_, rfl⟩
  have hml : 16 + ([0] ++ (Spec.leBytes 4 c.nx ++ (Spec.leBytes 4 c.ny ++ ([(0 : Byte)]
      ++ (enc c.dx ++ enc c.dy))))).length + c.gap.length = 42 + c.gap.length := by
    simp only [List.length_append, List.length_singleton, Spec.leBytes_length, h.enc_dx, h.enc_dy]
  have hfile : Spec.edaxFile enc width c = Spec.leBytes 4 c.version ++ (Spec.leBytes 4 c.sx
      ++ (Spec.leBytes 4 c.sy ++ (Spec.leBytes 4 (42 + c.gap.length) ++ ([0] ++ (Spec.leBytes 4 c.nx
      ++ (Spec.leBytes 4 c.ny ++ ([0] ++ (enc c.dx ++ (enc c.dy ++ (c.gap ++ px)))))))))) := by
    simp only [Spec.edaxFile, hv, if_false, hh, Bool.false_eq_true, ← hpx, List.append_assoc]
    rw [hml]
  have hg := h.gap
  rw [hfile]
  set A := Spec.leBytes 4 c.version with hA
  set B := Spec.leBytes 4 c.sx with hB
  set C := Spec.leBytes 4 c.sy with hC
  set D := Spec.leBytes 4 (42 + c.gap.length) with hD
  set E := Spec.leBytes 4 c.nx with hE
  set F := Spec.leBytes 4 c.ny with hF
  have lA : A.length = 4 := Spec.leBytes_length _ _
  have lB : B.length = 4 := Spec.leBytes_length _ _
  have lC : C.length = 4 := Spec.leBytes_length _ _
  have lD : D.length = 4 := Spec.leBytes_length _ _
  have lE : E.length = 4 := Spec.leBytes_length _ _
  have lF : F.length = 4 := Spec.leBytes_length _ _
  have lx := h.enc_dx
  have ly := h.enc_dy
  obtain ⟨file, hf⟩ : ∃ l, l = A ++ (B ++ (C ++ (D ++ ([0] ++ (E
      ++ (F ++ ([0] ++ (enc c.dx ++ (enc c.dy ++ (c.gap ++ px)))))))))) := ⟨_, rfl⟩
  rw [← hf]
  have u0 : uintAt file 0 4 = some c.version :=
    uintAt_of (a := []) (by rw [hf]; rfl) rfl h.version
  have u4 : uintAt file 4 4 = some c.sx :=
    uintAt_of (a := A) (by rw [hf]) lA h.sx
  have u8 : uintAt file 8 4 = some c.sy :=
    uintAt_of (a := A ++ B) (by rw [hf]; simp only [List.append_assoc]; rfl)
      (by simp only [List.length_append]; omega) h.sy
  have u12 : uintAt file 12 4 = some (42 + c.gap.length) :=
    uintAt_of (a := A ++ (B ++ C)) (by rw [hf]; simp only [List.append_assoc]; rfl)
      (by simp only [List.length_append]; omega) (by omega)
  have u17 : uintAt file 17 4 = some c.nx :=
    uintAt_of (a := A ++ (B ++ (C ++ (D ++ [0])))) (by rw [hf]; simp only [List.append_assoc]; rfl)
      (by simp only [List.length_append, List.length_singleton]; omega) h.nx
  have u21 : uintAt file 21 4 = some c.ny :=
    uintAt_of (a := A ++ (B ++ (C ++ (D ++ ([0] ++ E)))))
      (by rw [hf]; simp only [List.append_assoc]; rfl)
      (by simp only [List.length_append, List.length_singleton]; omega) h.ny
  have u25 : uintAt file 25 1 = some 0 :=
    uintAt_of (a := A ++ (B ++ (C ++ (D ++ ([0] ++ (E ++ F))))))
      (by rw [hf]; simp only [List.append_assoc]; rfl)
      (by simp only [List.length_append, List.length_singleton]; omega) (by decide)
  have b26 : bytesAt file 26 8 = enc c.dx :=
    bytesAt_of (a := A ++ (B ++ (C ++ (D ++ ([0] ++ (E ++ (F ++ [0])))))))
      (by rw [hf]; simp only [List.append_assoc]; rfl)
      (by simp only [List.length_append, List.length_singleton]; omega) lx
  have b34 : bytesAt file 34 8 = enc c.dy :=
    bytesAt_of (a := A ++ (B ++ (C ++ (D ++ ([0] ++ (E ++ (F ++ ([0] ++ enc c.dx))))))))
      (by rw [hf]; simp only [List.append_assoc]; rfl)
      (by simp only [List.length_append, List.length_singleton]; omega) ly
  have b16 : bytesAt file 26 16 = enc c.dx ++ enc c.dy :=
    bytesAt_of (a := A ++ (B ++ (C ++ (D ++ ([0] ++ (E ++ (F ++ [0])))))))
      (by rw [hf]; simp only [List.append_assoc]; rfl)
      (by simp only [List.length_append, List.length_singleton]; omega)
      (by simp only [List.length_append]; omega)
  unfold edaxHeader
  simp only [u0, u4, u8, u12, u17, u21, u25, b26, b34, b16, List.length_append, lx, ly, h.dec_dx, h.dec_dy,
    h.version2, hv, if_false]
  simp

/-- Bytes at the offset of the patterns. -/
theorem edaxPixels {enc : K → List Byte} {dec : List Byte → K} {width n : ℕ}
    {c : Spec.EdaxContent K} (h : Spec.EdaxValid enc dec width c n) {m : ℕ}
    (hm : m = c.pixels.length) :
    bytesAt (Spec.edaxFile enc width c) ((if c.version = 1 then 16 else 42) + c.gap.length)
      (m * width) = c.pixels.flatMap (Spec.leBytes width) := by
  subst hm
  obtain ⟨px, hpx⟩ : ∃ l, l = c.pixels.flatMap (Spec.leBytes width) := ⟨_, rfl⟩
  have hl := flatMap_leBytes_length width c.pixels
  rw [← hpx] at hl ⊢
  refine bytesAt_of (c := []) (by simp only [Spec.edaxFile, ← hpx, List.append_nil]; rfl) ?_ hl
  by_cases hv : c.version = 1
  · simp [hv]; omega
  · simp [hv, h.enc_dx, h.enc_dy]; omega

/-- The header of a file of version 1. -/
theorem edaxHeader_one {enc : K → List Byte} {dec : List Byte → K} {width n : ℕ}
    {c : Spec.EdaxContent K} {b : Bool} (h : Spec.EdaxValid enc dec width c n) (hv : c.version = 1)
    (hb : b = false ∨ (Spec.edaxFile enc width c).length < 2 ^ 32) (hw : width ≠ 0)
    (hs : c.sy * c.sx ≠ 0) :
    edaxHeader b dec width (Spec.edaxFile enc width c)
      = .ok ⟨c.sx, c.sy, 16 + c.gap.length, n, 1, n, 1, 1, false⟩ := by
  obtain ⟨px, hpx⟩ : ∃ l, l = c.pixels.flatMap (Spec.leBytes width) := ⟨_, rfl⟩
  have hl := flatMap_leBytes_length width c.pixels
  have hg := h.gap
  rw [← hpx] at hl
  have hfile : Spec.edaxFile enc width c = Spec.leBytes 4 c.version ++ (Spec.leBytes 4 c.sx
      ++ (Spec.leBytes 4 c.sy ++ (Spec.leBytes 4 (16 + c.gap.length) ++ (c.gap ++ px)))) := by
    simp only [Spec.edaxFile, hv, if_true, ← hpx, List.append_assoc, List.length_nil, Nat.add_zero,
      List.nil_append]
  rw [hfile] at hb ⊢
  set A := Spec.leBytes 4 c.version with hA
  set B := Spec.leBytes 4 c.sx with hB
  set C := Spec.leBytes 4 c.sy with hC
  set D := Spec.leBytes 4 (16 + c.gap.length) with hD
  have lA : A.length = 4 := Spec.leBytes_length _ _
  have lB : B.length = 4 := Spec.leBytes_length _ _
  have lC : C.length = 4 := Spec.leBytes_length _ _
  have lD : D.length = 4 := Spec.leBytes_length _ _
  obtain ⟨file, hf⟩ : ∃ l, l = A ++ (B ++ (C ++ (D ++ (c.gap ++ px)))) := ⟨_, rfl⟩
  rw [← hf] at hb ⊢
  have hlen : file.length = 16 + c.gap.length + n * (c.sx * c.sy * width) := by
    rw [hf]; simp only [List.length_append, lA, lB, lC, lD, hl, h.count]; ring
  have u0 : uintAt file 0 4 = some 1 := by
    rw [← hv]; exact uintAt_of (a := []) (by rw [hf]; rfl) rfl h.version
  have u4 : uintAt file 4 4 = some c.sx :=
    uintAt_of (a := A) (by rw [hf]) lA h.sx
  have u8 : uintAt file 8 4 = some c.sy :=
    uintAt_of (a := A ++ B) (by rw [hf]; simp only [List.append_assoc]; rfl)
      (by simp only [List.length_append]; omega) h.sy
  have u12 : uintAt file 12 4 = some (16 + c.gap.length) :=
    uintAt_of (a := A ++ (B ++ C)) (by rw [hf]; simp only [List.append_assoc]; rfl)
      (by simp only [List.length_append]; omega) (by omega)
  have hpos : c.sx * c.sy * width ≠ 0 := by
    rw [Nat.mul_comm c.sx]; exact Nat.mul_ne_zero hs hw
  have hcount : edaxCount b file.length (16 + c.gap.length) (c.sx * c.sy * width) = .ok n := by
    unfold edaxCount
    rw [if_neg, if_neg, hlen]
    · rw [Nat.add_sub_cancel_left, Nat.mul_div_cancel _ (Nat.pos_of_ne_zero hpos)]
    · rintro (h1 | h1)
      · exact hpos h1
      · omega
    · rintro ⟨h1, h2⟩
      rcases hb with hb | hb
      · rw [hb] at h1; cases h1
      · omega
  unfold edaxHeader
  simp only [u0, u4, u8, u12, hcount]
  simp

/-- The axes a signal should have. -/
def Spec.edaxAxes (dy dx : K) (ny nx sy sx : ℕ) : List (SignalAxis K) :=
  (if ny ≠ 1 then [⟨"y", ny, dy⟩] else []) ++ [⟨"x", nx, dx⟩, ⟨"dy", sy, 1⟩, ⟨"dx", sx, 1⟩]

theorem edaxAxes_two (dy dx : K) (ny nx sy sx : ℕ) (h : ny ≠ 1) :
    edaxAxes dy dx [ny, nx, sy, sx] = Spec.edaxAxes dy dx ny nx sy sx := by
  simp [edaxAxes, Spec.edaxAxes, h, List.range_succ]

theorem edaxAxes_one (dy dx : K) (nx sy sx : ℕ) :
    edaxAxes dy dx [nx, sy, sx] = [⟨"x", nx, dy⟩, ⟨"dy", sy, dx⟩, ⟨"dx", sx, 1⟩] := by
  simp [edaxAxes, List.range_succ]

/-- Reading a valid file on a square grid. -/
theorem edaxRead_grid {enc : K → List Byte} {dec : List Byte → K} {width ny nx : ℕ}
    {c : Spec.EdaxContent K} (b : Bool) (h : Spec.EdaxValid enc dec width c (ny * nx))
    (hv : c.version ≠ 1) (hh : c.hex = false) {nav : Option (ℕ × ℕ)}
    (hnav : (nav = none ∧ ny = c.ny ∧ nx = c.nx) ∨ (nav = some (ny, nx) ∧ ny * nx = c.nx * c.ny)) :
    edaxRead b dec width (Spec.edaxFile enc width c) nav
      = .ok (⟨if ny = 1 then [nx, c.sy, c.sx] else [ny, nx, c.sy, c.sx], c.pixels⟩,
          edaxAxes c.dy c.dx (if ny = 1 then [nx, c.sy, c.sx] else [ny, nx, c.sy, c.sx])) := by
  have hshape : shapeSize (if ny = 1 then [nx, c.sy, c.sx] else [ny, nx, c.sy, c.sx])
      = c.pixels.length := by
    rw [h.count]
    split
    · rename_i h1; subst h1; simp only [shapeSize]; ring
    · simp only [shapeSize]; ring
  have hb := edaxPixels h (m := c.pixels.length) rfl
  rw [if_neg hv] at hb
  have hl := flatMap_leBytes_length width c.pixels
  have hdec := leNats_flatMap width c.pixels [] h.pixel
  rw [List.append_nil] at hdec
  unfold edaxRead
  rw [edaxHeader_grid b h hv hh]
  rcases hnav with ⟨rfl, rfl, rfl⟩ | ⟨rfl, hp⟩
  · simp only [hshape, hb, hl, hdec, if_true]
  · simp only [Bool.false_eq_true, if_false, hp, ne_eq, not_true_eq_false, hshape, hb, hl, hdec,
      if_true]

/-- C45 (partial): signals with several map rows have the vertical and horizontal step sizes of the
file on the "y" and "x" axes and unit scale on the detector axes.  Missing: signals with a single
map row, for which the property fails (below). -/
theorem C45_axes_partial {enc : K → List Byte} {dec : List Byte → K} {width ny nx : ℕ}
    {c : Spec.EdaxContent K} (b : Bool) (h : Spec.EdaxValid enc dec width c (ny * nx))
    (hv : c.version ≠ 1) (hh : c.hex = false) {nav : Option (ℕ × ℕ)}
    (hnav : (nav = none ∧ ny = c.ny ∧ nx = c.nx) ∨ (nav = some (ny, nx) ∧ ny * nx = c.nx * c.ny))
    (hny : ny ≠ 1) :
    ∃ a, edaxRead b dec width (Spec.edaxFile enc width c) nav
      = .ok (a, Spec.edaxAxes c.dy c.dx ny nx c.sy c.sx) := by
  refine ⟨⟨[ny, nx, c.sy, c.sx], c.pixels⟩, ?_⟩
  rw [edaxRead_grid b h hv hh hnav, if_neg hny, edaxAxes_two _ _ _ _ _ _ hny]

/-- C45: files of version 1 have no step sizes, and all axes get unit scale. -/
theorem C45_axes_version_one {enc : K → List Byte} {dec : List Byte → K} {width n : ℕ}
    {c : Spec.EdaxContent K} {b : Bool} (h : Spec.EdaxValid enc dec width c n) (hv : c.version = 1)
    (hb : b = false ∨ (Spec.edaxFile enc width c).length < 2 ^ 32) (hw : width ≠ 0)
    (hs : c.sy * c.sx ≠ 0) :
    edaxRead b dec width (Spec.edaxFile enc width c) none
      = .ok (⟨[n, c.sy, c.sx], c.pixels⟩, Spec.edaxAxes 1 1 1 n c.sy c.sx) := by
  have hshape : shapeSize [n, c.sy, c.sx] = c.pixels.length := by
    rw [h.count]; simp only [shapeSize]; ring
  have hp := edaxPixels h (m := c.pixels.length) rfl
  rw [if_pos hv] at hp
  have hl := flatMap_leBytes_length width c.pixels
  have hdec := leNats_flatMap width c.pixels [] h.pixel
  rw [List.append_nil] at hdec
  unfold edaxRead
  rw [edaxHeader_one h hv hb hw hs]
  simp only [if_true, hshape, hp, hl, hdec, edaxAxes_one]
  simp [Spec.edaxAxes]

/-- The code does not satisfy C45: in a signal with a single map row the "x" axis has the vertical
step size of the file and the detector rows have the horizontal step size. -/
theorem C45_not_single_row {enc : K → List Byte} {dec : List Byte → K} {width nx : ℕ}
    {c : Spec.EdaxContent K} (b : Bool) (h : Spec.EdaxValid enc dec width c (1 * nx))
    (hv : c.version ≠ 1) (hh : c.hex = false) {nav : Option (ℕ × ℕ)}
    (hnav : (nav = none ∧ 1 = c.ny ∧ nx = c.nx) ∨ (nav = some (1, nx) ∧ 1 * nx = c.nx * c.ny)) :
    ∃ a, edaxRead b dec width (Spec.edaxFile enc width c) nav
      = .ok (a, [⟨"x", nx, c.dy⟩, ⟨"dy", c.sy, c.dx⟩, ⟨"dx", c.sx, 1⟩]) := by
  refine ⟨⟨[nx, c.sy, c.sx], c.pixels⟩, ?_⟩
  rw [edaxRead_grid b h hv hh hnav, if_pos rfl, edaxAxes_one]

/-- C67: patterns of a file with a square grid are returned with their values at their map
positions: pixel (p, q) of the pattern in row i and column j is number
`((i * nx + j) * sy + p) * sx + q` of the pixels in the file. -/
theorem C67_positions_grid {enc : K → List Byte} {dec : List Byte → K} {width ny nx : ℕ}
    {c : Spec.EdaxContent K} (b : Bool) (h : Spec.EdaxValid enc dec width c (ny * nx))
    (hv : c.version ≠ 1) (hh : c.hex = false) {nav : Option (ℕ × ℕ)}
    (hnav : (nav = none ∧ ny = c.ny ∧ nx = c.nx) ∨ (nav = some (ny, nx) ∧ ny * nx = c.nx * c.ny)) :
    ∃ a axes, edaxRead b dec width (Spec.edaxFile enc width c) nav = .ok (a, axes)
      ∧ a.shape = (if ny = 1 then [] else [ny]) ++ [nx, c.sy, c.sx] ∧ a.data = c.pixels := by
  refine ⟨_, _, edaxRead_grid b h hv hh hnav, ?_, rfl⟩
  show (if ny = 1 then [nx, c.sy, c.sx] else [ny, nx, c.sy, c.sx]) = _
  split <;> rfl

/-- C67: a navigation shape that does not have as many positions as the file has patterns is an
error. -/
theorem C67_wrong_shape {enc : K → List Byte} {dec : List Byte → K} {width n ny nx : ℕ}
    {c : Spec.EdaxContent K} (b : Bool) (h : Spec.EdaxValid enc dec width c n)
    (hv : c.version ≠ 1) (hh : c.hex = false) (hne : ny * nx ≠ c.nx * c.ny) :
    edaxRead b dec width (Spec.edaxFile enc width c) (some (ny, nx)) = .error .valueError := by
  unfold edaxRead
  rw [edaxHeader_grid b h hv hh]
  simp [hne]

/-- The code does not satisfy C67: files of version 1 of 4 GiB and more cannot be read with
NumPy 2. -/
theorem C67_not_large {dec : List Byte → K} {width : ℕ} {file : List Byte}
    (hl : 2 ^ 32 ≤ file.length) (hv : uintAt file 0 4 = some 1) (nav : Option (ℕ × ℕ)) :
    edaxRead true dec width file nav = .error .valueError := by
  have hu : ∀ pos, pos + 4 ≤ 2 ^ 32 → ∃ v, uintAt file pos 4 = some v := by
    intro pos hp
    unfold uintAt bytesAt
    rw [if_pos (by simp only [List.length_take, List.length_drop]; omega)]
    exact ⟨_, rfl⟩
  obtain ⟨sx, h4⟩ := hu 4 (by decide)
  obtain ⟨sy, h8⟩ := hu 8 (by decide)
  obtain ⟨off, h12⟩ := hu 12 (by decide)
  unfold edaxRead edaxHeader
  have hc : edaxCount true file.length off (sx * sy * width) = .error .valueError := by
    unfold edaxCount
    rw [if_pos ⟨rfl, hl⟩]
  simp only [hv, h4, h8, h12, hc]
  simp

/-- Toy floating point format for the example: the numerator in eight bytes. -/
def exampleEnc (x : ℚ) : List Byte := Spec.leBytes 8 x.num.toNat

/-- A file with two rows and three columns of patterns with 2 x 2 pixels of 16 bits. -/
def exampleEdax : Spec.EdaxContent ℚ :=
  ⟨3, 2, 2, 3, 2, false, 5, 7, [1, 2, 3], List.range 24⟩

example : (edaxRead true (fun b => (leNat b : ℚ)) 2 (Spec.edaxFile exampleEnc 2 exampleEdax) none)
    = .ok (⟨[2, 3, 2, 2], List.range 24⟩,
        [⟨"y", 2, 7⟩, ⟨"x", 3, 5⟩, ⟨"dy", 2, 1⟩, ⟨"dx", 2, 1⟩]) := by decide +kernel

example : (edaxRead true (fun b => (leNat b : ℚ)) 2 (Spec.edaxFile exampleEnc 2 exampleEdax)
    (some (1, 6)))
    = .ok (⟨[6, 2, 2], List.range 24⟩, [⟨"x", 6, 7⟩, ⟨"dy", 2, 5⟩, ⟨"dx", 2, 1⟩]) := by
  decide +kernel

/-- The hypotheses are met. -/
example : Spec.EdaxValid exampleEnc (fun b => (leNat b : ℚ)) 2 exampleEdax (2 * 3) := by
  refine ⟨by decide, by decide, by decide, by decide, by decide, by decide, by decide, by decide,
    by decide, by decide, by decide, by decide +kernel, by decide +kernel⟩

end Kp
