/-
C53: the tiles of the detector grid of `VirtualBSEImager` partition the detector, and their
images sum to the image from the whole detector.  True for axes with offset zero when no grid
edge is half-way between pixels (in particular for grids with odd numbers of tiles, and for
grids dividing the detector); false for other grids and for calibrated axes.
-/
import Verif.Lemmas.VirtualBse
import Mathlib.Data.Rat.Floor
import Mathlib.Tactic.NormNum.OfScientific
import Mathlib.Data.Nat.Notation

set_option linter.unusedSectionVars false

namespace Kp

variable {K : Type} [Field K] [LinearOrder K] [IsStrictOrderedRing K] [FloorRing K]

/-- Pixel `(r, c)` is summed over in the image of the grid tile `(row, col)`. -/
def InTile (ay ax : SigAxis K) (gy gx row col r c : ℕ) : Prop :=
  ∃ roi px, roiFromGrid ay ax gy gx [(row, col)] = .ok roi ∧ roiPixels ay ax roi = .ok px ∧
    px.1.1 ≤ r ∧ r < px.1.2 ∧ px.2.1 ≤ c ∧ c < px.2.2

/-- The pixels of one tile, when no edge is half-way between pixels. -/
theorem tile_pixels {sy sx gy gx : ℕ} {δy δx : K} (hδy : 0 < δy) (hδx : 0 < δx)
    (hgy : 0 < gy) (hgx : 0 < gx) (hsy : gy ≤ sy) (hsx : gx ≤ sx)
    (hy : NoHalfEdge sy gy) (hx : NoHalfEdge sx gx) {row col : ℕ} (hr : row < gy)
    (hc : col < gx) :
    ∃ roi, roiFromGrid (⟨sy, δy, 0⟩ : SigAxis K) ⟨sx, δx, 0⟩ gy gx [(row, col)] = .ok roi ∧
      roiPixels (⟨sy, δy, 0⟩ : SigAxis K) ⟨sx, δx, 0⟩ roi =
        .ok ((pixelEdge K sy gy row, pixelEdge K sy gy (row + 1)),
          (pixelEdge K sx gx col, pixelEdge K sx gx (col + 1))) := by
  refine ⟨(((row : K) * sy / gy * δy, (((row + 1 : ℕ) : K) * sy / gy) * δy),
    ((col : K) * sx / gx * δx, (((col + 1 : ℕ) : K) * sx / gx) * δx)), ?_, ?_⟩
  · unfold roiFromGrid
    simp only [List.map_cons, List.map_nil, minMax, List.foldl_nil]
    rw [roiSide_tile hgx hc.le hc.le, roiSide_tile hgy hr.le hr.le]
    rfl
  · unfold roiPixels
    rw [roiSlice_tiles hδx hgx hsx le_rfl hc hx, roiSlice_tiles hδy hgy hsy le_rfl hr hy]
    rfl

/-- C53: every detector pixel is in exactly one tile, for every detector shape, axis scales
and grid shape for which no grid edge is half-way between pixels, with axis offsets zero. -/
theorem C53_tiles_partition_partial {sy sx gy gx : ℕ} {δy δx : K} (hδy : 0 < δy)
    (hδx : 0 < δx) (hgy : 0 < gy) (hgx : 0 < gx) (hsy : gy ≤ sy) (hsx : gx ≤ sx)
    (hy : NoHalfEdge sy gy) (hx : NoHalfEdge sx gx) (r c : ℕ) (hr : r < sy) (hc : c < sx) :
    ∃! t : ℕ × ℕ, t.1 < gy ∧ t.2 < gx ∧
      InTile (⟨sy, δy, 0⟩ : SigAxis K) ⟨sx, δx, 0⟩ gy gx t.1 t.2 r c := by
  have key : ∀ row col, row < gy → col < gx →
      (InTile (⟨sy, δy, 0⟩ : SigAxis K) ⟨sx, δx, 0⟩ gy gx row col r c ↔
        (pixelEdge K sy gy row ≤ r ∧ r < pixelEdge K sy gy (row + 1)) ∧
        (pixelEdge K sx gx col ≤ c ∧ c < pixelEdge K sx gx (col + 1))) := by
    intro row col h1 h2
    obtain ⟨roi, e1, e2⟩ := tile_pixels hδy hδx hgy hgx hsy hsx hy hx h1 h2
    constructor
    · rintro ⟨roi', px, f1, f2, g⟩
      rw [e1] at f1
      cases f1
      rw [e2] at f2
      cases f2
      exact ⟨⟨g.1, g.2.1⟩, g.2.2⟩
    · rintro ⟨g1, g2⟩
      exact ⟨roi, _, e1, e2, g1.1, g1.2, g2⟩
  obtain ⟨i, ⟨i1, i2⟩, i3⟩ := exists_unique_tile (pixelEdge K sy gy)
    (fun _ _ => pixelEdge_mono) gy r (pixelEdge_zero sy gy) (by rw [pixelEdge_last hgy]; exact hr)
  obtain ⟨j, ⟨j1, j2⟩, j3⟩ := exists_unique_tile (pixelEdge K sx gx)
    (fun _ _ => pixelEdge_mono) gx c (pixelEdge_zero sx gx) (by rw [pixelEdge_last hgx]; exact hc)
  refine ⟨(i, j), ⟨i1, j1, (key i j i1 j1).2 ⟨i2, j2⟩⟩, ?_⟩
  rintro ⟨i', j'⟩ ⟨h1, h2, h3⟩
  have := (key i' j' h1 h2).1 h3
  rw [i3 i' ⟨h1, this.1⟩, j3 j' ⟨h2, this.2⟩]

/-- Grids with an odd number of tiles, such as the default 5, have no edge half-way. -/
theorem C53_odd_grid (s g : ℕ) (h : g % 2 = 1) : NoHalfEdge s g := by
  intro k m _ e
  have h1 : (2 * k * s) % 2 = 0 := by rw [mul_assoc]; exact Nat.mul_mod_right 2 _
  have h2 : (g * (2 * m + 1)) % 2 = 1 := by
    rw [Nat.mul_mod, h]
    omega
  omega

/-- Grids dividing the detector have no edge half-way. -/
theorem C53_dividing_grid (s g : ℕ) (hg : 0 < g) (h : g ∣ s) : NoHalfEdge s g := by
  obtain ⟨q, rfl⟩ := h
  intro k m _ e
  have : 2 * k * q = 2 * m + 1 := by
    apply Nat.eq_of_mul_eq_mul_left hg
    rw [← e]
    ring
  have h2 : (2 * k * q) % 2 = 0 := by rw [mul_assoc]; exact Nat.mul_mod_right 2 _
  omega

/-- Non-vacuity: a 60 x 61 detector with the default grid, and with a 4 x 3 grid. -/
example : NoHalfEdge 60 4 ∧ NoHalfEdge 61 3 ∧ NoHalfEdge 60 5 ∧ NoHalfEdge 61 5 :=
  ⟨C53_dividing_grid _ _ (by omega) (by decide), C53_odd_grid _ _ (by decide),
    C53_odd_grid _ _ (by decide), C53_odd_grid _ _ (by decide)⟩

/-- The tiles of a grid dividing the detector are all of the same size. -/
theorem C53_dividing_tile_pixels {gy gx qy qx : ℕ} {δy δx : K} (hδy : 0 < δy) (hδx : 0 < δx)
    (hgy : 0 < gy) (hgx : 0 < gx) (hqy : 0 < qy) (hqx : 0 < qx) {row col r c : ℕ}
    (hr : row < gy) (hc : col < gx) :
    InTile (⟨gy * qy, δy, 0⟩ : SigAxis K) ⟨gx * qx, δx, 0⟩ gy gx row col r c ↔
      r / qy = row ∧ c / qx = col := by
  have hyd := C53_dividing_grid (gy * qy) gy hgy ⟨qy, rfl⟩
  have hxd := C53_dividing_grid (gx * qx) gx hgx ⟨qx, rfl⟩
  have edge : ∀ g q k : ℕ, 0 < g → pixelEdge K (g * q) g k = k * q := by
    intro g q k hg
    have hg' : (g : K) ≠ 0 := by exact_mod_cast hg.ne'
    unfold pixelEdge
    have : (k : K) * ((g * q : ℕ) : K) / g = (((k * q : ℕ) : ℤ) : K) := by
      push_cast
      field_simp
    rw [this, npRound_int]
    exact Int.toNat_natCast _
  obtain ⟨roi, e1, e2⟩ := tile_pixels hδy hδx hgy hgx (Nat.le_mul_of_pos_right gy hqy)
    (Nat.le_mul_of_pos_right gx hqx) hyd hxd hr hc
  simp only [edge _ _ _ hgy, edge _ _ _ hgx] at e2
  have d : ∀ a q k : ℕ, 0 < q → (k * q ≤ a ∧ a < (k + 1) * q ↔ a / q = k) := by
    intro a q k hq
    rw [Nat.div_eq_iff hq]
    constructor
    · rintro ⟨h1, h2⟩
      rw [add_mul, one_mul] at h2
      omega
    · rintro ⟨h1, h2⟩
      rw [add_mul, one_mul]
      omega
  rw [← d r qy row hqy, ← d c qx col hqx]
  constructor
  · rintro ⟨roi', px, f1, f2, g⟩
    rw [e1] at f1
    cases f1
    rw [e2] at f2
    cases f2
    exact ⟨⟨g.1, g.2.1⟩, g.2.2⟩
  · rintro ⟨g1, g2⟩
    exact ⟨roi, _, e1, e2, g1.1, g1.2, g2⟩

/-- C53: the intensities of all tiles sum to the intensity of the whole detector, for every
pattern, under the same conditions. -/
theorem C53_sum_of_tiles_partial {A : Type} [AddCommMonoid A] {sy sx gy gx : ℕ} {δy δx : K}
    (hδy : 0 < δy) (hδx : 0 < δx) (hgy : 0 < gy) (hgx : 0 < gx) (hsy : gy ≤ sy) (hsx : gx ≤ sx)
    (hy : NoHalfEdge sy gy) (hx : NoHalfEdge sx gx) (p : ℕ → ℕ → A) :
    ∃ imgs, gridImages (⟨sy, δy, 0⟩ : SigAxis K) ⟨sx, δx, 0⟩ gy gx p = .ok imgs ∧
      imgs.length = gy ∧ (∀ row ∈ imgs, row.length = gx) ∧
      (imgs.map List.sum).sum = ∑ r ∈ Finset.range sy, ∑ c ∈ Finset.range sx, p r c := by
  refine ⟨(List.range gy).map fun row => (List.range gx).map fun col =>
    ∑ r ∈ Finset.Ico (pixelEdge K sy gy row) (pixelEdge K sy gy (row + 1)),
      ∑ c ∈ Finset.Ico (pixelEdge K sx gx col) (pixelEdge K sx gx (col + 1)), p r c,
    ?_, by simp, by simp, ?_⟩
  · apply mapM_ok
    intro row hrow
    apply mapM_ok
    intro col hcol
    obtain ⟨roi, e1, e2⟩ := tile_pixels hδy hδx hgy hgx hsy hsx hy hx
      (List.mem_range.1 hrow) (List.mem_range.1 hcol)
    unfold tileIntensity
    rw [e1]
    change vbseIntensity _ _ roi p = _
    unfold vbseIntensity
    rw [e2]
    rfl
  · rw [List.map_map]
    have inner : ∀ row, (((List.range gx).map fun col =>
        ∑ r ∈ Finset.Ico (pixelEdge K sy gy row) (pixelEdge K sy gy (row + 1)),
          ∑ c ∈ Finset.Ico (pixelEdge K sx gx col) (pixelEdge K sx gx (col + 1)), p r c).sum) =
        ∑ r ∈ Finset.Ico (pixelEdge K sy gy row) (pixelEdge K sy gy (row + 1)),
          ∑ c ∈ Finset.range sx, p r c := by
      intro row
      have h1 : ∀ col, (∑ r ∈ Finset.Ico (pixelEdge K sy gy row) (pixelEdge K sy gy (row + 1)),
          ∑ c ∈ Finset.Ico (pixelEdge K sx gx col) (pixelEdge K sx gx (col + 1)), p r c) =
          ∑ c ∈ Finset.Ico (pixelEdge K sx gx col) (pixelEdge K sx gx (col + 1)),
            ∑ r ∈ Finset.Ico (pixelEdge K sy gy row) (pixelEdge K sy gy (row + 1)), p r c :=
        fun col => Finset.sum_comm
      simp only [h1]
      rw [sum_tiles (pixelEdge K sx gx) (fun _ _ => pixelEdge_mono), pixelEdge_zero,
        pixelEdge_last hgx, Finset.sum_comm, ← Finset.range_eq_Ico]
    have : (List.sum ∘ fun row => (List.range gx).map fun col =>
        ∑ r ∈ Finset.Ico (pixelEdge K sy gy row) (pixelEdge K sy gy (row + 1)),
          ∑ c ∈ Finset.Ico (pixelEdge K sx gx col) (pixelEdge K sx gx (col + 1)), p r c) =
        fun row => ∑ r ∈ Finset.Ico (pixelEdge K sy gy row) (pixelEdge K sy gy (row + 1)),
          ∑ c ∈ Finset.range sx, p r c := funext inner
    rw [this, sum_tiles (pixelEdge K sy gy) (fun _ _ => pixelEdge_mono), pixelEdge_zero,
      pixelEdge_last hgy, ← Finset.range_eq_Ico]

/-- C53 is false for other grids: with 5 rows in 2 tiles the grid edge is at 2.5, and row 2 is
in both tiles (the lower limit is rounded to 2, the upper one to 3). -/
theorem C53_row_counted_twice :
    InTile (⟨5, 1, 0⟩ : SigAxis ℚ) ⟨1, 1, 0⟩ 2 1 0 0 2 0 ∧
    InTile (⟨5, 1, 0⟩ : SigAxis ℚ) ⟨1, 1, 0⟩ 2 1 1 0 2 0 := by
  refine ⟨⟨((0, 5 / 2), (0, 1)), ((0, 3), (0, 1)), ?_, ?_, ?_⟩,
    ⟨((5 / 2, 5), (0, 1)), ((2, 5), (0, 1)), ?_, ?_, ?_⟩⟩ <;> decide +kernel

/-- ... and with 7 rows in 2 tiles the edge is at 3.5, and row 3 is in no tile. -/
theorem C53_row_lost : ∀ row < 2,
    ¬ InTile (⟨7, 1, 0⟩ : SigAxis ℚ) ⟨1, 1, 0⟩ 2 1 row 0 3 0 := by
  intro row hrow
  have h0 : roiFromGrid (⟨7, 1, 0⟩ : SigAxis ℚ) ⟨1, 1, 0⟩ 2 1 [(0, 0)] =
      .ok ((0, 7 / 2), (0, 1)) := by decide +kernel
  have h1 : roiFromGrid (⟨7, 1, 0⟩ : SigAxis ℚ) ⟨1, 1, 0⟩ 2 1 [(1, 0)] =
      .ok ((7 / 2, 7), (0, 1)) := by decide +kernel
  have p0 : roiPixels (⟨7, 1, 0⟩ : SigAxis ℚ) ⟨1, 1, 0⟩ ((0, 7 / 2), (0, 1)) =
      .ok ((0, 3), (0, 1)) := by decide +kernel
  have p1 : roiPixels (⟨7, 1, 0⟩ : SigAxis ℚ) ⟨1, 1, 0⟩ ((7 / 2, 7), (0, 1)) =
      .ok ((4, 7), (0, 1)) := by decide +kernel
  rintro ⟨roi, px, e1, e2, g1, g2, -⟩
  have : row = 0 ∨ row = 1 := by omega
  rcases this with rfl | rfl
  · rw [h0] at e1; cases e1
    rw [p0] at e2; cases e2
    simp at g1 g2
  · rw [h1] at e1; cases e1
    rw [p1] at e2; cases e2
    simp at g1 g2

/-- Hence the tile images of a 5 x 1 pattern of ones sum to 6, and those of a 7 x 1 pattern
to 6 too. -/
theorem C53_sum_violated :
    gridImages (⟨5, 1, 0⟩ : SigAxis ℚ) ⟨1, 1, 0⟩ 2 1 (fun _ _ => (1 : ℕ)) = .ok [[3], [3]] ∧
    gridImages (⟨7, 1, 0⟩ : SigAxis ℚ) ⟨1, 1, 0⟩ 2 1 (fun _ _ => (1 : ℕ)) = .ok [[3], [3]] := by
  decide +kernel

/-- C53 is false of calibrated axes: after `set_detector_calibration(delta)` with any positive
pixel size, on any detector, the images from a grid of two or more rows cannot be had: a tile
in the second half starts after the end of the axis, whose zero is the detector centre, and
an error is raised. -/
theorem C53_calibrated_raises {A : Type} [AddCommMonoid A] {sy gy gx : ℕ} {δ : K}
    (ax : SigAxis K) (hδ : 0 < δ) (hgy : 2 ≤ gy) (hgx : 0 < gx) (hsy : 0 < sy)
    (p : ℕ → ℕ → A) (a : SigAxis K) (ha : a.size = sy) :
    ∃ e, gridImages (calibrateAxis δ a) ax gy gx p = .error e := by
  have herr : ∀ col, ∃ e, tileIntensity (calibrateAxis δ a) ax gy gx p (gy - 1) col =
      .error e := by
    intro col
    have hg' : (0 : K) < gy := by exact_mod_cast (by omega : 0 < gy)
    have hs' : (0 : K) < sy := by exact_mod_cast hsy
    have hlow : roiLow (calibrateAxis δ a) (((gy - 1 : ℕ) : K) * sy / gy * δ) =
        .error .valueError := by
      have hx : (((gy - 1 : ℕ) : K) * sy / gy * δ - (calibrateAxis δ a).offset) /
          (calibrateAxis δ a).scale = ((gy - 1 : ℕ) : K) * sy / gy + sy / 2 := by
        simp only [calibrateAxis, ha]
        field_simp
        ring
      have hge : (sy : K) ≤ ((gy - 1 : ℕ) : K) * sy / gy + sy / 2 := by
        have h2 : (2 : K) ≤ gy := by exact_mod_cast hgy
        rw [Nat.cast_sub (by omega)]
        have : (1 : K) / gy ≤ 1 / 2 := by
          apply one_div_le_one_div_of_le <;> linarith
        have e : ((gy : K) - (1 : ℕ)) * sy / gy = sy - sy * (1 / gy) := by
          push_cast
          field_simp
        rw [e]
        nlinarith
      have hr := npRound_mono hge
      have hi := npRound_int (K := K) (sy : ℤ)
      rw [Int.cast_natCast] at hi
      rw [hi] at hr
      unfold roiLow
      simp only [hx]
      rw [if_neg (by simp only [calibrateAxis, ha]; omega), if_neg]
      simp only [calibrateAxis, ha, not_lt]
      have h3 : 0 ≤ ((gy - 1 : ℕ) : K) * sy / gy * δ := by positivity
      have h4 : 0 ≤ δ * sy / 2 := by positivity
      linarith
    unfold tileIntensity roiFromGrid
    simp only [List.map_cons, List.map_nil, minMax, List.foldl_nil]
    cases hc : roiSide (gridEdges ax.size gx) ax.scale col col with
    | error e => exact ⟨e, rfl⟩
    | ok cols =>
      have hsz : (calibrateAxis δ a).size = sy := ha
      have hscale : (calibrateAxis δ a).scale = δ := rfl
      rw [hsz, hscale, roiSide_tile (by omega) (by omega) (by omega)]
      change ∃ e, vbseIntensity _ _ (_, cols) p = .error e
      unfold vbseIntensity roiPixels
      cases roiSlice ax cols with
      | error e => exact ⟨e, rfl⟩
      | ok c =>
        simp only [roiSlice, hlow]
        exact ⟨_, rfl⟩
  have hrow : ∃ e, ((List.range gx).mapM fun col =>
      tileIntensity (calibrateAxis δ a) ax gy gx p (gy - 1) col) = .error e := by
    obtain ⟨n, rfl⟩ : ∃ n, gx = n + 1 := ⟨gx - 1, by omega⟩
    obtain ⟨e, he⟩ := herr 0
    rw [List.range_succ_eq_map, List.mapM_cons, he]
    exact ⟨e, rfl⟩
  have gen : ∀ (f : ℕ → Except Err (List A)) (l : List ℕ) (x : ℕ), x ∈ l →
      (∃ e, f x = .error e) → ∃ e, l.mapM f = .error e := by
    intro f l x
    induction l with
    | nil => intro h; simp at h
    | cons y l ih =>
      intro h he
      rw [List.mapM_cons]
      cases hy : f y with
      | error e => exact ⟨e, rfl⟩
      | ok v =>
        rcases List.mem_cons.1 h with rfl | h
        · obtain ⟨e, he⟩ := he
          rw [hy] at he
          cases he
        · obtain ⟨e, he'⟩ := ih h he
          rw [he']
          exact ⟨e, rfl⟩
  exact gen _ _ (gy - 1) (List.mem_range.2 (by omega)) hrow

example : (0 : ℚ) < 70 ∧ 2 ≤ 5 ∧ (⟨60, 1, 0⟩ : SigAxis ℚ).size = 60 := by decide +kernel

/-- A region of several tiles covers exactly the rows and columns from the first to the last
of them (the smallest rectangle containing them). -/
theorem C53_region_of_tiles {sy sx gy gx : ℕ} {δy δx : K} (hδy : 0 < δy) (hδx : 0 < δx)
    (hgy : 0 < gy) (hgx : 0 < gx) (hsy : gy ≤ sy) (hsx : gx ≤ sx)
    (hy : NoHalfEdge sy gy) (hx : NoHalfEdge sx gx) (t : ℕ × ℕ) (ts : List (ℕ × ℕ))
    (ht : ∀ u ∈ t :: ts, u.1 < gy ∧ u.2 < gx) :
    ∃ roi r0 r1 c0 c1,
      roiFromGrid (⟨sy, δy, 0⟩ : SigAxis K) ⟨sx, δx, 0⟩ gy gx (t :: ts) = .ok roi ∧
      roiPixels (⟨sy, δy, 0⟩ : SigAxis K) ⟨sx, δx, 0⟩ roi =
        .ok ((pixelEdge K sy gy r0, pixelEdge K sy gy (r1 + 1)),
          (pixelEdge K sx gx c0, pixelEdge K sx gx (c1 + 1))) ∧
      (∀ u ∈ t :: ts, r0 ≤ u.1 ∧ u.1 ≤ r1 ∧ c0 ≤ u.2 ∧ u.2 ≤ c1) ∧
      (∃ u ∈ t :: ts, u.1 = r0) ∧ (∃ u ∈ t :: ts, u.1 = r1) ∧
      (∃ u ∈ t :: ts, u.2 = c0) ∧ (∃ u ∈ t :: ts, u.2 = c1) := by
  have fmin : ∀ (l : List ℕ) (a : ℕ), (∀ x ∈ a :: l, l.foldl min a ≤ x) ∧
      l.foldl min a ∈ a :: l := by
    intro l
    induction l with
    | nil => intro a; simp
    | cons b l ih =>
      intro a
      obtain ⟨h1, h2⟩ := ih (min a b)
      simp only [List.foldl_cons]
      constructor
      · intro x hx
        rcases List.mem_cons.1 hx with rfl | hx
        · exact (h1 _ (List.mem_cons_self ..)).trans (min_le_left _ _)
        · rcases List.mem_cons.1 hx with rfl | hx
          · exact (h1 _ (List.mem_cons_self ..)).trans (min_le_right _ _)
          · exact h1 x (List.mem_cons_of_mem _ hx)
      · rcases List.mem_cons.1 h2 with h | h
        · rw [h]
          rcases min_choice a b with e | e <;> rw [e] <;> simp
        · exact List.mem_cons_of_mem _ (List.mem_cons_of_mem _ h)
  have fmax : ∀ (l : List ℕ) (a : ℕ), (∀ x ∈ a :: l, x ≤ l.foldl max a) ∧
      l.foldl max a ∈ a :: l := by
    intro l
    induction l with
    | nil => intro a; simp
    | cons b l ih =>
      intro a
      obtain ⟨h1, h2⟩ := ih (max a b)
      simp only [List.foldl_cons]
      constructor
      · intro x hx
        rcases List.mem_cons.1 hx with rfl | hx
        · exact (le_max_left _ _).trans (h1 _ (List.mem_cons_self ..))
        · rcases List.mem_cons.1 hx with rfl | hx
          · exact (le_max_right _ _).trans (h1 _ (List.mem_cons_self ..))
          · exact h1 x (List.mem_cons_of_mem _ hx)
      · rcases List.mem_cons.1 h2 with h | h
        · rw [h]
          rcases max_choice a b with e | e <;> rw [e] <;> simp
        · exact List.mem_cons_of_mem _ (List.mem_cons_of_mem _ h)
  set rl := ts.map Prod.fst with hrl
  set cl := ts.map Prod.snd with hcl
  have hr0 := fmin rl t.1
  have hr1 := fmax rl t.1
  have hc0 := fmin cl t.2
  have hc1 := fmax cl t.2
  have memr : ∀ x, x ∈ t.1 :: rl ↔ ∃ u ∈ t :: ts, u.1 = x := by
    intro x; rw [hrl, ← List.map_cons, List.mem_map]
  have memc : ∀ x, x ∈ t.2 :: cl ↔ ∃ u ∈ t :: ts, u.2 = x := by
    intro x; rw [hcl, ← List.map_cons, List.mem_map]
  obtain ⟨u0, hu0, e0⟩ := (memr _).1 hr0.2
  obtain ⟨u1, hu1, e1⟩ := (memr _).1 hr1.2
  obtain ⟨v0, hv0, f0⟩ := (memc _).1 hc0.2
  obtain ⟨v1, hv1, f1⟩ := (memc _).1 hc1.2
  have br0 : rl.foldl min t.1 < gy := e0 ▸ (ht u0 hu0).1
  have br1 : rl.foldl max t.1 < gy := e1 ▸ (ht u1 hu1).1
  have bc0 : cl.foldl min t.2 < gx := f0 ▸ (ht v0 hv0).2
  have bc1 : cl.foldl max t.2 < gx := f1 ▸ (ht v1 hv1).2
  have hle : rl.foldl min t.1 ≤ rl.foldl max t.1 := hr0.1 _ hr1.2
  have hle' : cl.foldl min t.2 ≤ cl.foldl max t.2 := hc0.1 _ hc1.2
  refine ⟨((((rl.foldl min t.1 : ℕ) : K) * sy / gy * δy,
      (((rl.foldl max t.1 + 1 : ℕ) : K) * sy / gy) * δy),
    (((cl.foldl min t.2 : ℕ) : K) * sx / gx * δx,
      (((cl.foldl max t.2 + 1 : ℕ) : K) * sx / gx) * δx)),
    rl.foldl min t.1, rl.foldl max t.1, cl.foldl min t.2, cl.foldl max t.2, ?_, ?_, ?_,
    ⟨u0, hu0, e0⟩, ⟨u1, hu1, e1⟩, ⟨v0, hv0, f0⟩, ⟨v1, hv1, f1⟩⟩
  · unfold roiFromGrid
    simp only [List.map_cons, minMax]
    rw [← hrl, ← hcl, roiSide_tile hgx bc0.le bc1.le, roiSide_tile hgy br0.le br1.le]
    rfl
  · unfold roiPixels
    rw [roiSlice_tiles hδx hgx hsx hle' bc1 hx, roiSlice_tiles hδy hgy hsy hle br1 hy]
    rfl
  · intro u hu
    have m1 : u.1 ∈ t.1 :: rl := (memr _).2 ⟨u, hu, rfl⟩
    have m2 : u.2 ∈ t.2 :: cl := (memc _).2 ⟨u, hu, rfl⟩
    exact ⟨hr0.1 _ m1, hr1.1 _ m1, hc0.1 _ m2, hc1.1 _ m2⟩

/-- Non-vacuity: two tiles of a 5 x 5 grid. -/
example : ∀ u ∈ [((0 : ℕ), (4 : ℕ)), (3, 1)], u.1 < 5 ∧ u.2 < 5 := by decide

/-- The default grid of an imager is accepted by the setter and has no edge half-way for
detectors of at least 5 x 5 pixels, so the tiles partition the detector. -/
theorem C53_default_grid (sy sx : ℕ) (hy : 5 ≤ sy) (hx : 5 ≤ sx) :
    setGridShape sy sx [(defaultGridShape sy sx).1, (defaultGridShape sy sx).2] =
      .ok (defaultGridShape sy sx) ∧
    NoHalfEdge sy (defaultGridShape sy sx).1 ∧ NoHalfEdge sx (defaultGridShape sy sx).2 := by
  have h1 : min 5 sy = 5 := min_eq_left hy
  have h2 : min 5 sx = 5 := min_eq_left hx
  simp only [defaultGridShape, h1, h2, setGridShape]
  refine ⟨if_neg (by omega), C53_odd_grid _ _ (by decide), C53_odd_grid _ _ (by decide)⟩

/-- C53: a grid shape is accepted exactly if it has two numbers, no more rows than the detector has
and no more columns than the detector has, and it is then used as it is. -/
theorem C53_grid_shape_accepted (sy sx : ℕ) (shape : List ℕ) (g : ℕ × ℕ) :
    setGridShape sy sx shape = .ok g ↔ shape = [g.1, g.2] ∧ g.1 ≤ sy ∧ g.2 ≤ sx := by
  unfold setGridShape
  split
  · rename_i gy gx
    split_ifs with h
    · constructor
      · intro h'; cases h'
      · rintro ⟨h1, h2, h3⟩
        simp only [List.cons.injEq, and_true] at h1
        omega
    · push Not at h
      constructor
      · intro h'
        obtain rfl := Except.ok.inj h'
        exact ⟨rfl, h.1, h.2⟩
      · rintro ⟨h1, -, -⟩
        simp only [List.cons.injEq, and_true] at h1
        rw [h1.1, h1.2]
  · rename_i hne
    constructor
    · intro h'; cases h'
    · rintro ⟨h1, -, -⟩
      exact absurd h1 (hne _ _)

example : setGridShape 60 80 [10, 70] = .ok (10, 70) :=
  (C53_grid_shape_accepted _ _ _ _).2 ⟨rfl, by decide, by decide⟩

end Kp
