import Verif.Model.PositionFigures
import Verif.Props.ExtractGrid
import Mathlib.Algebra.Order.Field.Basic
import Mathlib.Tactic.Linarith
import Mathlib.Tactic.FieldSimp
import Mathlib.Tactic.Ring
import Mathlib.Tactic.Positivity

/-
**C98**: figures of pattern positions and projection centers.
-/

set_option linter.unusedSectionVars false

namespace Kp

variable {K : Type} [Field K] [LinearOrder K] [IsStrictOrderedRing K]

/-! ### Positions in a map -/

theorem plotPositions_ok {P : Type} {a : PositionArgs K P} {fig : PositionFigure K P}
    (h : plotPositions a = .ok fig) :
    ∃ rc origin, a.used = .ok (rc, origin) ∧
      fig.markers = rc.mapIdx (fun i p => ((p.2, p.1), i)) ∧
      (a.existing = true → fig.roi = none ∧ fig.roiImage = none ∧ fig.areaImage = none) ∧
      (a.existing = false →
        fig.roi = a.areaShape.map (fun _ => (origin.2, origin.1, a.roiShape.2, a.roiShape.1)) ∧
        fig.roiImage = a.roiImage.map (fun im =>
            { rows := im.1, cols := im.2.1, val := im.2.2
              left := origin.2, right := origin.2 + a.roiShape.2
              bottom := origin.1 + a.roiShape.1, top := origin.1 }) ∧
        fig.areaImage = a.placedArea ∧
        fig.xlim = some (0, (a.areaShape.getD a.roiShape).2) ∧
        fig.ylim = some (0, (a.areaShape.getD a.roiShape).1)) := by
  unfold plotPositions at h
  cases hu : a.used with
  | error e => rw [hu] at h; simp at h
  | ok p =>
    obtain ⟨rc, origin⟩ := p
    rw [hu] at h
    simp only at h
    refine ⟨rc, origin, rfl, ?_⟩
    cases he : a.existing
    · rw [he] at h
      simp only [Bool.false_eq_true, if_false, Except.ok.injEq] at h
      subst h
      simp
    · rw [he] at h
      simp only [if_true, Except.ok.injEq] at h
      subst h
      simp

theorem used_ok {P : Type} {a : PositionArgs K P} {rc : List (K × K)} {o : K × K}
    (h : a.used = .ok (rc, o)) :
    rc = a.rc.map (fun p => (p.1 - a.roiOrigin.1 + o.1, p.2 - a.roiOrigin.2 + o.2)) ∧
      ((a.existing = false ∧ a.areaShape.isSome) → o = a.roiOrigin) ∧
      (¬ (a.existing = false ∧ a.areaShape.isSome) → o = (0, 0)) := by
  unfold PositionArgs.used at h
  split at h
  · next hc =>
    simp only [Except.ok.injEq, Prod.mk.injEq] at h
    obtain ⟨rfl, rfl⟩ := h
    simp [hc]
  · next hc =>
    split at h
    · simp at h
    · split at h
      · next ho =>
        simp only [Except.ok.injEq, Prod.mk.injEq] at h
        obtain ⟨rfl, rfl⟩ := h
        rw [ho]
        simp [hc]
      · split at h
        · simp at h
        · simp only [Except.ok.injEq, Prod.mk.injEq] at h
          obtain ⟨rfl, rfl⟩ := h
          simp [hc]

/-- There is one marker for each position, with its number. Relative to where the region of interest
is drawn (`o`: at its place in the area in a new figure of an area, otherwise in the corner), the
marker is where the position is relative to the origin of the region. -/
theorem C98_markers {P : Type} (a : PositionArgs K P) (fig : PositionFigure K P)
    (h : plotPositions a = .ok fig) :
    fig.markers.length = a.rc.length ∧ ∃ oy ox : K,
      (∀ (i : ℕ) (r c : K), a.rc[i]? = some (r, c) →
        fig.markers[i]? = some ((ox + (c - a.roiOrigin.2), oy + (r - a.roiOrigin.1)), i)) ∧
      (∀ rect, fig.roi = some rect → rect = (ox, oy, a.roiShape.2, a.roiShape.1)) ∧
      (∀ im, fig.roiImage = some im → ∀ r c : ℕ, im.center r c =
        (ox + a.roiShape.2 * ((c : K) + 1 / 2) / im.cols,
          oy + a.roiShape.1 * ((r : K) + 1 / 2) / im.rows)) ∧
      (a.existing = false → a.areaShape.isSome → (oy, ox) = a.roiOrigin) ∧
      (a.areaShape = none → (oy, ox) = (0, 0)) := by
  obtain ⟨rc, o, hu, hm, hex, hnew⟩ := plotPositions_ok h
  obtain ⟨hrc, h1, h2⟩ := used_ok hu
  refine ⟨by rw [hm, hrc]; simp, o.1, o.2, ?_, ?_, ?_, ?_, ?_⟩
  · intro i r c hi
    rw [hm, hrc, List.getElem?_mapIdx, List.getElem?_map, hi]
    simp only [Option.map_some, Option.some.injEq, Prod.mk.injEq, and_true]
    constructor <;> ring
  · intro rect hr
    cases he : a.existing
    · rw [(hnew he).1] at hr
      cases ha : a.areaShape with
      | none => rw [ha] at hr; simp at hr
      | some s => rw [ha] at hr; simpa using hr.symm
    · rw [(hex he).1] at hr
      simp at hr
  · intro im hi r c
    cases he : a.existing
    · rw [(hnew he).2.1] at hi
      cases ha : a.roiImage with
      | none => rw [ha] at hi; simp at hi
      | some s =>
        rw [ha] at hi
        simp only [Option.map_some, Option.some.injEq] at hi
        subst hi
        simp [PlacedImage.center]
    · rw [(hex he).2.1] at hi
      simp at hi
  · intro he ha
    rw [← h1 ⟨he, ha⟩]
  · intro ha
    have := h2 (by simp [ha])
    rw [this]

/-- The image of the area is not upside down: each pixel is drawn in its row and column. -/
theorem C98_area_image {P : Type} (a : PositionArgs K P) (fig : PositionFigure K P)
    (h : plotPositions a = .ok fig) (im : PlacedImage K P) (hi : fig.areaImage = some im)
    (height width : K) (hs : a.areaShape = some (height, width)) (rows cols : ℕ)
    (val : ℕ → ℕ → P) (hv : a.areaImage = some (rows, cols, val)) (r c : ℕ) (hr : r < rows) :
    ∃ r', r' < rows ∧ im.val r' c = val r c ∧
      im.center r' c = (width * ((c : K) + 1 / 2) / cols, height * ((r : K) + 1 / 2) / rows) := by
  obtain ⟨rc, o, hu, hm, hex, hnew⟩ := plotPositions_ok h
  cases he : a.existing
  · rw [(hnew he).2.2.1, PositionArgs.placedArea, hs, hv] at hi
    simp only [Option.some.injEq] at hi
    subst hi
    refine ⟨rows - 1 - r, by omega, ?_, ?_⟩
    · simp only
      congr 1
      omega
    · have hc : ((rows - 1 - r : ℕ) : K) = (rows : K) - 1 - r := by
        rw [Nat.cast_sub (by omega), Nat.cast_sub (by omega)]
        simp
      have h0 : (rows : K) ≠ 0 := by
        have : (0 : K) < rows := by exact_mod_cast (by omega : 0 < rows)
        exact this.ne'
      simp only [PlacedImage.center, Prod.mk.injEq]
      rw [hc]
      constructor
      · simp
      · field_simp
        ring
  · rw [(hex he).2.2] at hi
    simp at hi

/-- Markers of positions in the region are within the limits of the axes, if the region is in the
area. -/
theorem C98_inside {P : Type} (a : PositionArgs K P) (fig : PositionFigure K P)
    (h : plotPositions a = .ok fig) (hnew : a.existing = false)
    (hroi : ∀ s, a.areaShape = some s → 0 ≤ a.roiOrigin.1 ∧ 0 ≤ a.roiOrigin.2 ∧
      a.roiOrigin.1 + a.roiShape.1 ≤ s.1 ∧ a.roiOrigin.2 + a.roiShape.2 ≤ s.2)
    (i : ℕ) (r c : K) (hi : a.rc[i]? = some (r, c))
    (hr : a.roiOrigin.1 ≤ r ∧ r < a.roiOrigin.1 + a.roiShape.1)
    (hc : a.roiOrigin.2 ≤ c ∧ c < a.roiOrigin.2 + a.roiShape.2) :
    ∃ x y xmax ymax, fig.markers[i]? = some ((x, y), i) ∧ fig.xlim = some (0, xmax) ∧
      fig.ylim = some (0, ymax) ∧ 0 ≤ x ∧ x < xmax ∧ 0 ≤ y ∧ y < ymax := by
  obtain ⟨-, oy, ox, hm, -, -, h1, h2⟩ := C98_markers a fig h
  obtain ⟨_, _, _, _, _, hn⟩ := plotPositions_ok h
  obtain ⟨-, -, -, hx, hy⟩ := hn hnew
  refine ⟨_, _, _, _, hm i r c hi, hx, hy, ?_⟩
  cases hs : a.areaShape with
  | none =>
    have h2' := h2 hs
    simp only [Prod.mk.injEq] at h2'
    obtain ⟨rfl, rfl⟩ := h2'
    simp only [Option.getD_none]
    refine ⟨?_, ?_, ?_, ?_⟩ <;> linarith [hr.1, hr.2, hc.1, hc.2]
  | some s =>
    have h1' := h1 hnew (by simp [hs])
    obtain ⟨b1, b2, b3, b4⟩ := hroi s hs
    rw [← h1'] at b1 b2 b3 b4 hr hc ⊢
    simp only [Option.getD_some] at b1 b2 b3 b4 hr hc ⊢
    refine ⟨?_, ?_, ?_, ?_⟩ <;> linarith [hr.1, hr.2, hc.1, hc.2]

/-- The marker of the pattern in row `r` and column `c` is not in the center of that pixel of an
image of the region, but in its corner towards the previous row and column. -/
theorem C98_pixel_violated {P : Type} (a : PositionArgs K P) (fig : PositionFigure K P)
    (h : plotPositions a = .ok fig) (im : PlacedImage K P) (him : fig.roiImage = some im)
    (hrows : a.roiShape.1 = im.rows) (hcols : a.roiShape.2 = im.cols)
    (i r c : ℕ) (hr : r < im.rows) (hc : c < im.cols)
    (hi : a.rc[i]? = some (a.roiOrigin.1 + (r : K), a.roiOrigin.2 + (c : K))) :
    fig.markers[i]? = some (((im.center r c).1 - 1 / 2, (im.center r c).2 - 1 / 2), i) := by
  obtain ⟨-, oy, ox, hm, -, hcenter, -, -⟩ := C98_markers a fig h
  rw [hm i _ _ hi, hcenter im him r c, hrows, hcols]
  have h1 : (im.rows : K) ≠ 0 := by
    have : (0 : K) < im.rows := by exact_mod_cast (by omega : 0 < im.rows)
    exact this.ne'
  have h2 : (im.cols : K) ≠ 0 := by
    have : (0 : K) < im.cols := by exact_mod_cast (by omega : 0 < im.cols)
    exact this.ne'
  simp only [Option.some.injEq, Prod.mk.injEq, and_true]
  constructor
  · field_simp
    ring
  · field_simp
    ring

/-- The documentation says that the origin is subtracted from the coordinates if an area is given. It
is not: they are subtracted if there is no area. -/
theorem C98_origin_violated {P : Type} (a : PositionArgs K P) (ha : a.originArray = false)
    (hi : a.rcInt = a.originInt) (hn : a.existing = false) :
    ∃ fig, plotPositions a = .ok fig ∧ ∀ (i : ℕ) (r c : K), a.rc[i]? = some (r, c) →
      fig.markers[i]? = some (if a.areaShape.isSome then (c, r)
        else (c - a.roiOrigin.2, r - a.roiOrigin.1), i) := by
  have hu : ∃ p, a.used = .ok p := by
    unfold PositionArgs.used
    split
    · exact ⟨_, rfl⟩
    · rw [if_neg (by simp [ha])]
      split
      · exact ⟨_, rfl⟩
      · rw [if_neg (by simp [hi])]
        exact ⟨_, rfl⟩
  have hok : ∃ fig, plotPositions a = .ok fig := by
    obtain ⟨⟨rc, o⟩, hu⟩ := hu
    unfold plotPositions
    rw [hu]
    simp only
    rw [if_neg (by simp [hn])]
    exact ⟨_, rfl⟩
  obtain ⟨fig, hf⟩ := hok
  refine ⟨fig, hf, ?_⟩
  intro i r c hrc
  obtain ⟨-, oy, ox, hm, -, -, h1, h2⟩ := C98_markers a fig hf
  rw [hm i r c hrc]
  cases hs : a.areaShape with
  | none =>
    have h2' := h2 hs
    simp only [Prod.mk.injEq] at h2'
    obtain ⟨rfl, rfl⟩ := h2'
    simp
  | some s =>
    have h1' := h1 hn (by simp [hs])
    rw [← h1']
    simp

/-- Markers added to an existing axis are where a new figure has them if there is no area. -/
theorem C98_existing_axis_partial {P : Type} (a : PositionArgs K P) (hs : a.areaShape = none)
    (fig : PositionFigure K P) (h : plotPositions { a with existing := false } = .ok fig) :
    ∃ fig', plotPositions { a with existing := true } = .ok fig' ∧ fig'.markers = fig.markers := by
  unfold plotPositions at h ⊢
  have hu : ({ a with existing := true } : PositionArgs K P).used =
      ({ a with existing := false } : PositionArgs K P).used := by
    unfold PositionArgs.used
    simp [hs]
  rw [hu]
  cases hu' : ({ a with existing := false } : PositionArgs K P).used with
  | error e => rw [hu'] at h; simp at h
  | ok p =>
    obtain ⟨rc, o⟩ := p
    rw [hu'] at h
    simp only [Bool.false_eq_true, if_false, if_true, Except.ok.injEq] at h ⊢
    exact ⟨_, rfl, by rw [← h]⟩

/-- Added to the figure of an area, made with the same arguments, all markers are in another place
than in the figure, unless the region of interest starts in the corner. -/
theorem C98_existing_axis_violated {P : Type} (a : PositionArgs K P) (hs : a.areaShape.isSome)
    (ha : a.originArray = false) (hi : a.rcInt = a.originInt) (ho : a.roiOrigin ≠ (0, 0)) :
    ∃ fig fig', plotPositions { a with existing := false } = .ok fig ∧
      plotPositions { a with existing := true } = .ok fig' ∧
      ∀ i, i < a.rc.length → fig.markers[i]? ≠ fig'.markers[i]? := by
  have hu : ({ a with existing := true } : PositionArgs K P).used =
      .ok (a.rc.map fun p => (p.1 - a.roiOrigin.1, p.2 - a.roiOrigin.2), (0, 0)) := by
    unfold PositionArgs.used
    rw [if_neg (by simp), if_neg (by simp [ha]), if_neg ho, if_neg (by simp [hi])]
  obtain ⟨fig, hf, hm⟩ := C98_origin_violated { a with existing := false } ha hi rfl
  refine ⟨fig, ⟨(a.rc.map fun p => (p.1 - a.roiOrigin.1, p.2 - a.roiOrigin.2)).mapIdx
    fun i p => ((p.2, p.1), i), none, none, none, none, none, true⟩, hf, ?_, ?_⟩
  · unfold plotPositions
    rw [hu]
    rfl
  · intro i hi'
    have hrc : a.rc[i]? = some (a.rc[i].1, a.rc[i].2) := List.getElem?_eq_getElem hi'
    rw [hm i _ _ hrc, if_pos hs, List.getElem?_mapIdx, List.getElem?_map, hrc]
    simp only [Option.map_some, ne_eq, Option.some.injEq, Prod.mk.injEq, and_true]
    rintro ⟨e1, e2⟩
    apply ho
    ext
    · simp only
      linarith
    · simp only
      linarith

/-- Without an area, an origin of floats cannot be used with coordinates which are integers, and an
origin which is an array is an error, even one of zeros. -/
theorem C98_origin_type_violated {P : Type} (a : PositionArgs K P)
    (hs : a.areaShape = none) :
    (a.originArray = true → plotPositions a = .error .valueError) ∧
    (a.originArray = false → a.rcInt = true → a.originInt = false → a.roiOrigin ≠ (0, 0) →
      plotPositions a = .error .typeError) := by
  constructor
  · intro h
    have : a.used = .error .valueError := by
      unfold PositionArgs.used
      rw [if_neg (by simp [hs]), if_pos h]
    unfold plotPositions
    rw [this]
  · intro h h1 h2 h3
    have : a.used = .error .typeError := by
      unfold PositionArgs.used
      rw [if_neg (by simp [hs]), if_neg (by simp [h]), if_neg h3, if_pos ⟨h1, h2⟩]
    unfold plotPositions
    rw [this]

/-- Positions of a grid of patterns from `extract_grid()`: marker number `i` is in the row and the
column of the map where pattern number `i` of the extracted signal is from. -/
theorem C98_grid {Q P X : Type} {s : GridSignal K P X} (hs : Spec.GridValid s) {gx gy : ℕ}
    (hgx : gx ≤ s.shape.2) (hgy : gy ≤ s.shape.1)
    (hy : 0 < Spec.gridCount gy s.shape.1) (hx : 0 < Spec.gridCount gx s.shape.2) :
    ∃ r idx fig, extractGrid s (gx, gy) = .ok (r, idx) ∧
      plotPositions (P := Q) ⟨idx.flatten.map fun p => ((p.1 : K), (p.2 : K)), true,
        ((s.shape.1 : K), (s.shape.2 : K)), (0, 0), true, false, none, none, none, false⟩ =
          .ok fig ∧
      fig.markers.length = r.patterns.length ∧
      ∀ i, i < r.patterns.length → ∃ row column : ℕ,
        fig.markers[i]? = some (((column : K), (row : K)), i) ∧
        r.patterns[i]? = s.patterns[row * s.shape.2 + column]? := by
  obtain ⟨r, idx, hr, hidx, -, -, hp, -⟩ := C51_consistent_partial hs hgx hgy hy hx
  set a : PositionArgs K Q := ⟨idx.flatten.map fun p => ((p.1 : K), (p.2 : K)), true,
        ((s.shape.1 : K), (s.shape.2 : K)), (0, 0), true, false, none, none, none, false⟩ with ha
  obtain ⟨fig, hf, hm⟩ := C98_origin_violated a rfl rfl rfl
  set pts := (Spec.gridPoints gy gx s.shape.1 s.shape.2).flatten with hpts
  have hflat : idx.flatten = pts.map fun p => ((p.1 : ℤ), (p.2 : ℤ)) := by
    rw [hidx, hpts, List.map_flatten]
  have hlen : r.patterns.length = pts.length := by
    have := congrArg List.length hp
    simpa using this
  refine ⟨r, idx, fig, hr, hf, ?_, ?_⟩
  · rw [(C98_markers a fig hf).1, ha]
    simp only [List.length_map]
    rw [hflat, hlen, List.length_map]
  · intro i hi
    have hi' : i < pts.length := by omega
    refine ⟨pts[i].1, pts[i].2, ?_, ?_⟩
    · have hrc : a.rc[i]? = some ((pts[i].1 : K), (pts[i].2 : K)) := by
        change (idx.flatten.map fun p => ((p.1 : K), (p.2 : K)))[i]? = _
        rw [hflat, List.map_map, List.getElem?_map, List.getElem?_eq_getElem hi']
        simp
      have := hm i _ _ hrc
      rw [this]
      change some ((((pts[i].2 : K) - 0, (pts[i].1 : K) - 0)), i) = _
      simp
    · have h2 := congrArg (fun l => l[i]?) hp
      simp only [List.getElem?_map] at h2
      rw [List.getElem?_eq_getElem hi, List.getElem?_eq_getElem hi'] at h2
      simp only [Option.map_some, Option.some.injEq] at h2
      rw [List.getElem?_eq_getElem hi, h2]

/-- A region of interest of 3 rows and 4 columns in an area of 10 rows and 20 columns. -/
example :
    ∃ fig, plotPositions (K := ℚ) (P := ℕ) ⟨[(5, 6), (6, 8)], true, (3, 4), (5, 6), true, false,
      some (10, 20), none, none, false⟩ = .ok fig ∧
      fig.markers = [((6, 5), 0), ((8, 6), 1)] ∧ fig.roi = some (6, 5, 4, 3) := by
  refine ⟨_, rfl, ?_, ?_⟩ <;> rfl

/-! ### Projection centers -/

/-- The value of a projection center with a name. -/
def Spec.pcNamed (p : PC K) (name : String) : Option K :=
  if name = "PCx" then some p.x else if name = "PCy" then some p.y
  else if name = "PCz" then some p.z else none

theorem pcNamed_label (p : PC K) (i : ℕ) (hi : i < 3) :
    Spec.pcNamed p (pcLabel i) = some (p.component i) := by
  have : i = 0 ∨ i = 1 ∨ i = 2 := by omega
  rcases this with rfl | rfl | rfl <;> simp [Spec.pcNamed, pcLabel, PC.component]

/-- A figure can be made exactly if there are more centers than one, of a map if it is to be a map,
in one of the three ways. -/
theorem C98_plot_pc (k : K) (nav : List ℕ) (pcs : List (PC K)) (mode orientation : String)
    (annotate : Bool) (kw : Option (FigureKwargs K)) :
    (∃ out, plotPc k nav pcs mode orientation annotate kw = .ok out) ↔
      nav.prod ≠ 1 ∧ (mode = "map" ∧ nav.length = 2 ∨ mode = "scatter" ∨ mode = "3d") := by
  unfold plotPc
  by_cases h1 : nav.prod = 1
  · rw [if_pos h1]
    simp [h1]
  rw [if_neg h1]
  by_cases h2 : mode = "map" ∧ nav.length ≠ 2
  · rw [if_pos h2]
    obtain ⟨rfl, h2⟩ := h2
    simp [h2]
  rw [if_neg h2]
  by_cases h3 : mode ∉ ["map", "scatter", "3d"]
  · rw [if_pos h3]
    simp only [List.mem_cons, List.not_mem_nil, or_false, not_or] at h3
    simp [h3]
  rw [if_neg h3]
  simp only [List.mem_cons, List.not_mem_nil, or_false, not_not] at h3
  refine ⟨fun _ => ⟨h1, ?_⟩, fun _ => ⟨_, rfl⟩⟩
  rcases h3 with rfl | rfl | rfl
  · left
    refine ⟨rfl, ?_⟩
    by_contra h
    exact h2 ⟨rfl, h⟩
  · simp
  · simp

/-- A map shows, with its name, one value of the projection center of each pattern in its row and
column, and there is one for each value. -/
theorem C98_pc_maps (k : K) (ny nx : ℕ) (pcs : List (PC K)) (orientation : String)
    (annotate : Bool) (kw : Option (FigureKwargs K)) (hn : ny * nx ≠ 1) :
    ∃ maps grid kw' caller, plotPc k [ny, nx] pcs "map" orientation annotate kw =
        .ok ((.maps maps, grid, kw'), caller) ∧
      maps.map Prod.fst = ["PCx", "PCy", "PCz"] ∧
      ∀ m ∈ maps, ∀ (r c : ℕ) (p : PC K), pcs[r * nx + c]? = some p →
        Spec.pcNamed p m.1 = some (m.2 r c) := by
  have hp : plotPc k [ny, nx] pcs "map" orientation annotate kw =
      .ok (plotAllPcs k [ny, nx] pcs "map" orientation annotate (kw.getD ⟨none, none⟩),
        kw.map fun _ => (plotAllPcs k [ny, nx] pcs "map" orientation annotate
          (kw.getD ⟨none, none⟩)).2.2) := by
    unfold plotPc
    rw [if_neg (by simpa using hn), if_neg (by simp), if_neg (by simp)]
  rw [hp]
  unfold plotAllPcs
  simp only [if_true]
  refine ⟨_, _, _, _, rfl, rfl, ?_⟩
  intro m hm r c p hpc
  rw [List.mem_map] at hm
  obtain ⟨i, hi, rfl⟩ := hm
  rw [pcNamed_label p i (List.mem_range.1 hi)]
  simp [hpc]

theorem pcPanel_named (pcs : List (PC K)) (annotate : Bool) (is : List ℕ) (his : ∀ i ∈ is, i < 3)
    (n : ℕ) (p : PC K) (hp : pcs[n]? = some p) :
    (∃ pt, (pcPanel pcs annotate is).points[n]? = some pt ∧
      pt.map some = (pcPanel pcs annotate is).labels.map (Spec.pcNamed p)) ∧
    (annotate = true → ∃ pt, (pcPanel pcs annotate is).texts[n]? = some (pt, n) ∧
      (pcPanel pcs annotate is).points[n]? = some pt) := by
  have hl : (is.map p.component).map some = (is.map pcLabel).map (Spec.pcNamed p) := by
    rw [List.map_map, List.map_map]
    apply List.map_congr_left
    intro i hi
    simp only [Function.comp]
    rw [pcNamed_label p i (his i hi)]
  constructor
  · refine ⟨is.map p.component, ?_, hl⟩
    simp [pcPanel, hp]
  · rintro rfl
    refine ⟨is.map p.component, ?_, ?_⟩
    · simp [pcPanel, hp]
    · simp [pcPanel, hp]

/-- The panels of a scatter plot show each pair of values once: each point has, in the order of the
names of the axes, the values of its projection center, and the text at it is its number. -/
theorem C98_pc_scatter (k : K) (nav : List ℕ) (pcs : List (PC K)) (orientation : String)
    (annotate : Bool) (kw : Option (FigureKwargs K)) (hn : nav.prod ≠ 1) :
    ∃ panels grid kw' caller, plotPc k nav pcs "scatter" orientation annotate kw =
        .ok ((.scatter panels, grid, kw'), caller) ∧
      panels.map PointPanel.labels = [["PCx", "PCy"], ["PCx", "PCz"], ["PCz", "PCy"]] ∧
      ∀ panel ∈ panels, ∀ (n : ℕ) (p : PC K), pcs[n]? = some p →
        (∃ pt, panel.points[n]? = some pt ∧ pt.map some = panel.labels.map (Spec.pcNamed p)) ∧
        (annotate = true → ∃ pt, panel.texts[n]? = some (pt, n) ∧ panel.points[n]? = some pt) := by
  have hp : plotPc k nav pcs "scatter" orientation annotate kw =
      .ok (plotAllPcs k nav pcs "scatter" orientation annotate (kw.getD ⟨none, none⟩),
        kw.map fun _ => (plotAllPcs k nav pcs "scatter" orientation annotate
          (kw.getD ⟨none, none⟩)).2.2) := by
    unfold plotPc
    rw [if_neg hn, if_neg (by simp), if_neg (by simp)]
  rw [hp]
  unfold plotAllPcs
  simp only [show ("scatter" = "map") = False by simp, if_true, if_false]
  refine ⟨_, _, _, _, rfl, rfl, ?_⟩
  intro panel hm n p hpc
  rw [List.mem_map] at hm
  obtain ⟨is, hi, rfl⟩ := hm
  apply pcPanel_named _ _ _ _ _ _ hpc
  simp only [List.mem_cons, List.not_mem_nil, or_false] at hi
  rcases hi with rfl | rfl | rfl <;> decide

theorem pcs_foldl_min_le (f : PC K → K) (l : List (PC K)) (a : K) :
    l.foldl (fun a q => min a (f q)) a ≤ a ∧
      (∀ q ∈ l, l.foldl (fun a q => min a (f q)) a ≤ f q) ∧
      (l.foldl (fun a q => min a (f q)) a = a ∨ ∃ q ∈ l, l.foldl (fun a q => min a (f q)) a = f q)
      := by
  induction l generalizing a with
  | nil => simp
  | cons p l ih =>
    obtain ⟨h1, h2, h3⟩ := ih (min a (f p))
    simp only [List.foldl_cons]
    refine ⟨h1.trans (min_le_left _ _), ?_, ?_⟩
    · intro q hq
      rcases List.mem_cons.1 hq with rfl | hq
      · exact h1.trans (min_le_right _ _)
      · exact h2 q hq
    · rcases h3 with h3 | ⟨q, hq, h3⟩
      · rcases min_choice a (f p) with h | h
        · left; rw [h3, h]
        · right; exact ⟨p, by simp, by rw [h3, h]⟩
      · right; exact ⟨q, by simp [hq], h3⟩

theorem pcs_le_foldl_max (f : PC K → K) (l : List (PC K)) (a : K) :
    a ≤ l.foldl (fun a q => max a (f q)) a ∧
      (∀ q ∈ l, f q ≤ l.foldl (fun a q => max a (f q)) a) ∧
      (l.foldl (fun a q => max a (f q)) a = a ∨ ∃ q ∈ l, l.foldl (fun a q => max a (f q)) a = f q)
      := by
  induction l generalizing a with
  | nil => simp
  | cons p l ih =>
    obtain ⟨h1, h2, h3⟩ := ih (max a (f p))
    simp only [List.foldl_cons]
    refine ⟨(le_max_left _ _).trans h1, ?_, ?_⟩
    · intro q hq
      rcases List.mem_cons.1 hq with rfl | hq
      · exact (le_max_right _ _).trans h1
      · exact h2 q hq
    · rcases h3 with h3 | ⟨q, hq, h3⟩
      · rcases max_choice a (f p) with h | h
        · left; rw [h3, h]
        · right; exact ⟨p, by simp, by rw [h3, h]⟩
      · right; exact ⟨q, by simp [hq], h3⟩

/-- The figure in three dimensions shows the projection centers along the named axes, with limits
that are the lowest and highest value along each. -/
theorem C98_pc_3d (k : K) (nav : List ℕ) (pcs : List (PC K)) (orientation : String)
    (annotate : Bool) (kw : Option (FigureKwargs K)) (hn : nav.prod ≠ 1) :
    ∃ panel limits grid kw' caller, plotPc k nav pcs "3d" orientation annotate kw =
        .ok ((.threeD panel limits, grid, kw'), caller) ∧
      panel.labels = ["PCx", "PCz", "PCy"] ∧
      (∀ (n : ℕ) (p : PC K), pcs[n]? = some p →
        (∃ pt, panel.points[n]? = some pt ∧ pt.map some = panel.labels.map (Spec.pcNamed p)) ∧
        (annotate = true → ∃ pt, panel.texts[n]? = some (pt, n) ∧ panel.points[n]? = some pt)) ∧
      ∀ (j : ℕ) (name : String) (lo hi : K), panel.labels[j]? = some name →
        limits[j]? = some (lo, hi) →
        (∀ p ∈ pcs, ∀ v, Spec.pcNamed p name = some v → lo ≤ v ∧ v ≤ hi) ∧
        (pcs ≠ [] → (∃ p ∈ pcs, Spec.pcNamed p name = some lo) ∧
          ∃ p ∈ pcs, Spec.pcNamed p name = some hi) := by
  have hp : plotPc k nav pcs "3d" orientation annotate kw =
      .ok (plotAllPcs k nav pcs "3d" orientation annotate (kw.getD ⟨none, none⟩),
        kw.map fun _ => (plotAllPcs k nav pcs "3d" orientation annotate
          (kw.getD ⟨none, none⟩)).2.2) := by
    unfold plotPc
    rw [if_neg hn, if_neg (by simp), if_neg (by simp)]
  rw [hp]
  unfold plotAllPcs
  simp only [show ("3d" = "map") = False by simp, show ("3d" = "scatter") = False by simp, if_true,
    if_false]
  refine ⟨_, _, _, _, _, rfl, rfl, ?_, ?_⟩
  · intro n p hpc
    exact pcPanel_named _ _ _ (by decide) _ _ hpc
  · intro j name lo hi hj hl
    have key : ∀ i, i < 3 → name = pcLabel i → (lo, hi) = pcExtent pcs i →
        (∀ p ∈ pcs, ∀ v, Spec.pcNamed p name = some v → lo ≤ v ∧ v ≤ hi) ∧
        (pcs ≠ [] → (∃ p ∈ pcs, Spec.pcNamed p name = some lo) ∧
          ∃ p ∈ pcs, Spec.pcNamed p name = some hi) := by
      rintro i hi3 rfl hext
      cases pcs with
      | nil => simp
      | cons q l =>
        simp only [pcExtent, Prod.mk.injEq] at hext
        obtain ⟨rfl, rfl⟩ := hext
        obtain ⟨a1, a2, a3⟩ := pcs_foldl_min_le (fun p : PC K => p.component i) l (q.component i)
        obtain ⟨b1, b2, b3⟩ := pcs_le_foldl_max (fun p : PC K => p.component i) l (q.component i)
        refine ⟨?_, fun _ => ⟨?_, ?_⟩⟩
        · intro p hpm v hv
          rw [pcNamed_label p i hi3] at hv
          obtain rfl := Option.some.inj hv
          rcases List.mem_cons.1 hpm with rfl | hpm
          · exact ⟨a1, b1⟩
          · exact ⟨a2 p hpm, b2 p hpm⟩
        · rcases a3 with h | ⟨p, hpm, h⟩
          · exact ⟨q, by simp, by rw [pcNamed_label q i hi3, h]⟩
          · exact ⟨p, by simp [hpm], by rw [pcNamed_label p i hi3, h]⟩
        · rcases b3 with h | ⟨p, hpm, h⟩
          · exact ⟨q, by simp, by rw [pcNamed_label q i hi3, h]⟩
          · exact ⟨p, by simp [hpm], by rw [pcNamed_label p i hi3, h]⟩
    have hj3 : j < 3 := (List.getElem?_eq_some_iff.1 hj).1
    have : j = 0 ∨ j = 1 ∨ j = 2 := by omega
    rcases this with rfl | rfl | rfl
    · exact key 0 (by omega) (Option.some.inj hj).symm (Option.some.inj hl).symm
    · exact key 2 (by omega) (Option.some.inj hj).symm (Option.some.inj hl).symm
    · exact key 1 (by omega) (Option.some.inj hj).symm (Option.some.inj hl).symm

/-- Without a dictionary for the figure, its panels are side by side in a figure three times as wide
as high, or above each other in a figure three times as high as wide. -/
theorem C98_orientation_partial (k : K) (nav : List ℕ) (pcs : List (PC K)) (mode : String)
    (hm : mode = "map" ∨ mode = "scatter") (orientation : String) (annotate : Bool)
    (fig : PcFigure K) (grid : ℕ × ℕ) (kw : FigureKwargs K) (caller : Option (FigureKwargs K))
    (h : plotPc k nav pcs mode orientation annotate none = .ok ((fig, grid, kw), caller)) :
    ∃ w hgt, kw.figsize = some (w, hgt) ∧ w * (grid.2 : K) = hgt * (grid.1 : K) ∧
      grid = if orientation = "horizontal" then (3, 1) else (1, 3) := by
  unfold plotPc at h
  by_cases h1 : nav.prod = 1
  · rw [if_pos h1] at h; simp at h
  rw [if_neg h1] at h
  by_cases h2 : mode = "map" ∧ nav.length ≠ 2
  · rw [if_pos h2] at h; simp at h
  rw [if_neg h2, if_neg (by rcases hm with rfl | rfl <;> simp)] at h
  simp only [Except.ok.injEq, Prod.mk.injEq] at h
  obtain ⟨h, -⟩ := h
  have h3 : mode ≠ "3d" := by rcases hm with rfl | rfl <;> simp
  have hg : grid = if orientation = "horizontal" then (3, 1) else (1, 3) := by
    have := congrArg (fun x => x.2.1) h
    simp only [plotAllPcs] at this
    rw [← this]
    rcases hm with rfl | rfl <;> simp
  have hk : kw.figsize = some (if orientation = "horizontal" then (6 * k, 2 * k)
      else (2 * k, 6 * k)) := by
    have := congrArg (fun x => x.2.2.figsize) h
    simp only [plotAllPcs] at this
    rw [← this]
    rcases hm with rfl | rfl <;> simp
  by_cases ho : orientation = "horizontal"
  · refine ⟨6 * k, 2 * k, by rw [hk, if_pos ho], ?_, hg⟩
    rw [hg, if_pos ho]
    push_cast
    ring
  · refine ⟨2 * k, 6 * k, by rw [hk, if_neg ho], ?_, hg⟩
    rw [hg, if_neg ho]
    push_cast
    ring

/-- A dictionary given for the figure is changed: used for two figures, the second, with its panels
above each other, gets the size of the first, three times as wide as high. -/
theorem C98_orientation_violated (k : K) (nav : List ℕ) (pcs : List (PC K)) (annotate : Bool)
    (hn : nav.prod ≠ 1) :
    ∃ fig kw', plotPc k nav pcs "scatter" "horizontal" annotate (some ⟨none, none⟩) =
        .ok (fig, some kw') ∧ kw' ≠ ⟨none, none⟩ ∧
      ∃ fig' grid' kw'', plotPc k nav pcs "scatter" "vertical" annotate (some kw') =
        .ok ((fig', grid', kw''), some kw'') ∧ grid' = (1, 3) ∧
        kw''.figsize = some (6 * k, 2 * k) := by
  have hp : ∀ (o : String) (kw : FigureKwargs K),
      plotPc k nav pcs "scatter" o annotate (some kw) =
        .ok (plotAllPcs k nav pcs "scatter" o annotate kw,
          some (plotAllPcs k nav pcs "scatter" o annotate kw).2.2) := by
    intro o kw
    unfold plotPc
    rw [if_neg hn, if_neg (by simp), if_neg (by simp)]
    rfl
  have h1 : (plotAllPcs k nav pcs "scatter" "horizontal" annotate ⟨none, none⟩).2.2 =
      ⟨some (6 * k, 2 * k), some "tight"⟩ := by
    simp [plotAllPcs]
  refine ⟨_, _, hp _ _, by rw [h1]; simp, _, _, _, hp _ _, ?_, ?_⟩
  · simp
  · rw [h1]
    simp

/-- Settings of the figure which the caller gives are used; those not given have a default. -/
theorem C98_figure_settings (k : K) (nav : List ℕ) (pcs : List (PC K)) (mode orientation : String)
    (annotate : Bool) (kw : FigureKwargs K) (fig : PcFigure K) (grid : ℕ × ℕ) (used : FigureKwargs K)
    (caller : Option (FigureKwargs K))
    (h : plotPc k nav pcs mode orientation annotate (some kw) = .ok ((fig, grid, used), caller)) :
    (∀ l, kw.layout = some l → used.layout = some l) ∧
    (kw.layout = none → used.layout = some "tight") ∧
    (∀ s, kw.figsize = some s → used.figsize = some s) ∧
    (mode = "3d" → used.figsize = kw.figsize) := by
  unfold plotPc at h
  split_ifs at h with h1 h2 h3
  have h' := (Prod.mk.inj (Except.ok.inj h)).1
  have hu : used = (plotAllPcs k nav pcs mode orientation annotate kw).2.2 := by
    have := congrArg (fun x => x.2.2) h'
    exact this.symm
  have hs : used = if mode = "3d" then { kw with layout := some (kw.layout.getD "tight") }
      else ⟨some (kw.figsize.getD (if orientation = "horizontal" then (6 * k, 2 * k) else (2 * k, 6 * k))),
        some (kw.layout.getD "tight")⟩ := by
    rw [hu]
    unfold plotAllPcs
    simp only
    split_ifs <;> rfl
  rw [hs]
  refine ⟨?_, ?_, ?_, ?_⟩
  · intro l hl
    split_ifs <;> simp [hl]
  · intro hl
    split_ifs <;> simp [hl]
  · intro s hs
    split_ifs <;> simp [hs]
  · intro hm
    rw [if_pos hm]

example : ∃ fig grid used caller, plotPc (K := ℚ) 2 [1, 2] [⟨1 / 2, 1 / 4, 1 / 2⟩, ⟨1 / 2, 1 / 3, 1 / 2⟩]
    "map" "horizontal" false (some ⟨none, some "constrained"⟩) = .ok ((fig, grid, used), caller) ∧
    used.layout = some "constrained" := by
  obtain ⟨⟨⟨fig, grid, used⟩, caller⟩, h⟩ := (C98_plot_pc (K := ℚ) 2 [1, 2]
    [⟨1 / 2, 1 / 4, 1 / 2⟩, ⟨1 / 2, 1 / 3, 1 / 2⟩] "map" "horizontal" false
    (some ⟨none, some "constrained"⟩)).2 ⟨by decide, Or.inl ⟨rfl, rfl⟩⟩
  exact ⟨fig, grid, used, caller, h, (C98_figure_settings _ _ _ _ _ _ _ _ _ _ _ h).1 _ rfl⟩

/-- A map of two projection centers. -/
example : ∃ out, plotPc (K := ℚ) 2 [1, 2] [⟨1 / 2, 1 / 4, 1 / 2⟩, ⟨1 / 2, 1 / 3, 1 / 2⟩] "map"
    "horizontal" false none = .ok out :=
  (C98_plot_pc _ _ _ _ _ _ _).2 ⟨by decide, Or.inl ⟨rfl, rfl⟩⟩

end Kp
