import Verif.Spec.H5Whole
import Verif.Props.H5Ebsd
import Verif.Lemmas.Neighbours

/-
C129: what a loaded signal has of the saved one, and saving it again.
-/

set_option linter.unusedSectionVars false

namespace Kp

open Spec

variable {K X : Type} [Field K] [LinearOrder K]

/-! ### Projection centers -/

theorem dstack_stored {shape : List ℕ} (hs : (∃ n, shape = [n]) ∨ ∃ m n, shape = [m, n])
    {d : List K} (hd : d.length = shape.prod) (h0 : d ≠ []) :
    dstackPart (stored (.arr shape d)) = some ([(rowsCols shape).1, (rowsCols shape).2], d) := by
  have hpos : 0 < d.length := List.length_pos_iff.2 h0
  rcases hs with ⟨n, rfl⟩ | ⟨m, n, rfl⟩
  · by_cases hn : n = 1
    · subst hn
      obtain ⟨v, rfl⟩ := List.length_eq_one_iff.1 (by simpa using hd)
      rw [stored_one]
      rfl
    · rw [stored_arr (by simp) (by simpa using hn)]
      rfl
  · by_cases hm : m = 1
    · subst hm
      obtain ⟨v, d, rfl⟩ := List.exists_cons_of_ne_nil h0
      simp [stored, writeVal, readVal, dstackPart, rowsCols]
    · rw [stored_arr (by simp) (by simpa using hm)]
      rfl

theorem padPcs_get {n m ny nx : ℕ} {l : List (PC K)} {r c : ℕ} (hr : r < ny) (hc : c < nx) :
    (padPcs n m ny nx l)[r * nx + c]? =
      some (if r < m ∧ c < n then l.getD (r * n + c) pcHalf else pcHalf) := by
  have e : padPcs n m ny nx l = (flatPositions ny nx).map fun p =>
      if p.1 < m ∧ p.2 < n then l.getD (p.1 * n + p.2) pcHalf else pcHalf := by
    unfold padPcs flatPositions
    rw [List.map_flatMap]
    simp only [List.map_map]
    rfl
  have hlt : r * nx + c < ny * nx := by
    calc r * nx + c < r * nx + nx := by omega
      _ = (r + 1) * nx := by ring
      _ ≤ _ := Nat.mul_le_mul_right _ (by omega)
  have hpos : 0 < nx := by omega
  rw [e, flatPositions_eq _ _ hpos, List.getElem?_map, List.getElem?_map, List.getElem?_range hlt]
  have h1 : (r * nx + c) / nx = r := by
    rw [Nat.add_comm, Nat.add_mul_div_right _ _ hpos, Nat.div_eq_of_lt hc, Nat.zero_add]
  have h2 : (r * nx + c) % nx = c := by
    rw [Nat.add_comm, Nat.add_mul_mod_self_right, Nat.mod_eq_of_lt hc]
  simp only [Option.map_some, h1, h2]

/-- Shape and projection centers which are read. -/
def loadedPcs (ny nx : ℕ) (shape : List ℕ) (pc : List (PC K)) : List ℕ × List (PC K) :=
  if 1 < pc.length then
    if pc.length = ny * nx then ([ny, nx].filter (· ≠ 1), pc)
    else if (rowsCols shape).1 ≤ ny ∧ (rowsCols shape).2 ≤ nx then
      ([ny, nx].filter (· ≠ 1), padPcs (rowsCols shape).2 (rowsCols shape).1 ny nx pc)
    else ([], [pcHalf])
  else ([], pc)

theorem readPcsAll_stored {shape : List ℕ} (hs : (∃ n, shape = [n]) ∨ ∃ m n, shape = [m, n])
    {pc : List (PC K)} (hd : pc.length = shape.prod) (h0 : pc ≠ []) (ny nx : ℕ) :
    readPcsAll ny nx (stored (.arr shape (pc.map PC.x))) (stored (.arr shape (pc.map PC.y)))
      (stored (.arr shape (pc.map PC.z))) = .ok (loadedPcs ny nx shape pc) := by
  unfold readPcsAll
  rw [dstack_stored hs (by simpa using hd) (by simpa using h0),
    dstack_stored hs (by simpa using hd) (by simpa using h0),
    dstack_stored hs (by simpa using hd) (by simpa using h0)]
  simp only [and_self, if_true, zip_pcs, loadedPcs, List.getD_cons_zero, List.getD_cons_succ]
  by_cases h1 : 1 < pc.length
  · rw [if_pos (by omega), if_pos h1]
    split_ifs <;> rfl
  · rw [if_neg (by omega), if_neg h1]
    have hpos : 0 < pc.length := List.length_pos_iff.2 h0
    have hp : shape.prod = 1 := by omega
    rcases hs with ⟨n, rfl⟩ | ⟨m, n, rfl⟩
    · have : n = 1 := by simpa using hp
      subst this
      rfl
    · have : m * n = 1 := by simpa using hp
      obtain rfl := Nat.eq_one_of_mul_eq_one_right this
      obtain rfl : n = 1 := by simpa using this
      rfl

/-! ### Writing and reading -/

theorem write_read_all {s : EbsdSignal K} {ny nx : ℕ} {dy dx : K} {ay ax : SignalAxis K}
    (hm : mapShapeScale s.navAxes = ((ny, nx), (dy, dx))) (hs : s.sigAxes = [ay, ax])
    (hsize : s.data.data.length = ny * nx * ay.size * ax.size) {sh : List ℕ} {pcs : List (PC K)}
    (hpc : readPcsAll ny nx (stored (.arr s.pcShape (s.pc.map PC.x)))
      (stored (.arr s.pcShape (s.pc.map PC.y))) (stored (.arr s.pcShape (s.pc.map PC.z))) =
        .ok (sh, pcs)) :
    ∃ g, writeScan s = .ok g ∧ readScanAll g = .ok {
      data := ⟨[ny, nx, ay.size, ax.size].filter (· ≠ 1), s.data.data⟩
      navAxes := (axesList ny nx ay.size ax.size dy dx s.pxSize).take
        ((axesList ny nx ay.size ax.size dy dx s.pxSize).length - 2)
      sigAxes := (axesList ny nx ay.size ax.size dy dx s.pxSize).drop
        ((axesList ny nx ay.size ax.size dy dx s.pxSize).length - 2)
      pxSize := s.pxSize
      pcShape := if sh = [] then [1] else sh
      pc := pcs
      staticBackground := stored (match s.staticBackground with
          | .noneVal => .scalar (-1)
          | v => v) } := by
  unfold writeScan
  rw [hs]
  simp only [hm]
  rw [reshape_ok (by rw [hsize]; simp [shapeSize, mul_assoc])]
  simp only
  refine ⟨_, rfl, ?_⟩
  unfold readScanAll getData
  simp only
  rw [reshape_ok (by simp only; rw [hsize]; simp [shapeSize, mul_assoc])]
  simp only [hpc]
  rfl

theorem readScanAll_of_readScan {g : ScanGroup K} {s : EbsdSignal K} (h : readScan g = .ok s) :
    readScanAll g = .ok s := by
  unfold readScan at h
  unfold readScanAll
  cases hd : getData g.patterns g.nRows g.nColumns g.patternHeight g.patternWidth with
  | error e => rw [hd] at h; cases h
  | ok data =>
    rw [hd] at h
    simp only at h ⊢
    have hp : ∀ r, readPcs g.nRows g.nColumns g.pcx g.pcy g.pcz = some r →
        readPcsAll g.nRows g.nColumns g.pcx g.pcy g.pcz = .ok r := by
      intro r hr
      unfold readPcs at hr
      unfold readPcsAll
      revert hr
      cases dstackPart g.pcx with
      | none => intro hr; cases hr
      | some a => cases dstackPart g.pcy with
        | none => intro hr; cases hr
        | some b => cases dstackPart g.pcz with
          | none => intro hr; cases hr
          | some c =>
            simp only
            intro hr
            split_ifs at hr ⊢ <;> simp_all
    cases hr : readPcs g.nRows g.nColumns g.pcx g.pcy g.pcz with
    | none => rw [hr] at h; cases h
    | some r =>
      rw [hr] at h
      rw [hp r hr]
      exact h

/-- What is stored as background. -/
def backgroundValue : PyVal K → PyVal K
  | .noneVal => .scalar (-1)
  | v => v

theorem writeScan_background (s : EbsdSignal K) (b : PyVal K) :
    writeScan { s with staticBackground := b } = (writeScan s).map fun g =>
      { g with staticBackground := stored (backgroundValue b) } := by
  unfold writeScan
  simp only
  split
  · split
    · rfl
    · cases b <;> rfl
  · rfl

theorem readScanAll_background (g : ScanGroup K) (b : PyVal K) :
    readScanAll { g with staticBackground := b } =
      (readScanAll g).map fun s => { s with staticBackground := b } := by
  unfold readScanAll
  simp only
  split
  · rfl
  · split <;> rfl

/-- Size and steps of the map. -/
theorem mapShapeScale_size {l : List (SignalAxis K)} (hl : l.length ≤ 2) (hp : ∀ a ∈ l, 1 ≤ a.size) :
    1 ≤ (mapShapeScale l).1.1 ∧ 1 ≤ (mapShapeScale l).1.2 ∧
    (mapShapeScale l).1.1 * (mapShapeScale l).1.2 = (l.map SignalAxis.size).prod ∧
    [(mapShapeScale l).1.1, (mapShapeScale l).1.2].filter (· ≠ 1) = longAxes l := by
  match l with
  | [] => simp [mapShapeScale, longAxes]
  | [a] =>
    have := hp a (by simp)
    unfold mapShapeScale longAxes
    simp only
    split_ifs
    · refine ⟨this, by simp, by simp, ?_⟩
      simp [List.filter_cons]
    · refine ⟨by simp, this, by simp, ?_⟩
      simp [List.filter_cons]
  | [a, b] =>
    have h1 := hp a (by simp)
    have h2 := hp b (by simp)
    refine ⟨h1, h2, by simp [mapShapeScale], rfl⟩
  | _ :: _ :: _ :: _ => simp at hl

/-- Steps of the loaded map. -/
theorem axesList_steps {l : List (SignalAxis K)} (hl : l.length ≤ 2) (hp : ∀ a ∈ l, 1 ≤ a.size)
    (sy sx : ℕ) (px : K) :
    let axes := axesList (mapShapeScale l).1.1 (mapShapeScale l).1.2 sy sx (mapShapeScale l).2.1
      (mapShapeScale l).2.2 px
    (axes.take (axes.length - 2)).map (fun a => (a.size, a.scale)) =
      (l.filter (fun a => a.size ≠ 1)).map fun a => (a.size, a.scale) := by
  match l with
  | [] => simp [mapShapeScale, axesList]
  | [a] =>
    have h1 := hp a (by simp)
    by_cases h : a.size = 1
    · unfold mapShapeScale
      simp only
      split_ifs <;> simp [axesList, h]
    · unfold mapShapeScale
      simp only
      have h2 : 1 < a.size := by omega
      have h3 : a.size ≠ 0 := by omega
      split_ifs <;> simp [axesList, h, h2, h3]
  | [a, b] =>
    have h1 := hp a (by simp)
    have h2 := hp b (by simp)
    by_cases ha : a.size = 1 <;> by_cases hb : b.size = 1
    · simp [mapShapeScale, axesList, ha, hb]
    · have h3 : ¬ b.size < 1 := by omega
      have h4 : b.size ≠ 0 := by omega
      simp [mapShapeScale, axesList, ha, hb, h4]
    · have h3 : 1 < a.size := by omega
      simp [mapShapeScale, axesList, ha, hb, h3]
    · simp [mapShapeScale, axesList, ha, hb]
  | _ :: _ :: _ :: _ => simp at hl

/-- The loaded signal. -/
theorem loaded_base {s : EbsdSignal K} (h : Ordinary s) :
    ∃ g t, writeScan s = .ok g ∧ readScanAll g = .ok t ∧
      t.navAxes.map (fun a => (a.size, a.scale)) =
        (s.navAxes.filter fun a => a.size ≠ 1).map (fun a => (a.size, a.scale)) ∧
      t.data.data = s.data.data ∧ t.pxSize = s.pxSize ∧
      t.navAxes.map SignalAxis.size = longAxes s.navAxes ∧
      t.pc = (loadedPcs (mapShapeScale s.navAxes).1.1 (mapShapeScale s.navAxes).1.2 s.pcShape
        s.pc).2 ∧
      (s.staticBackground = .noneVal → t.staticBackground = .scalar (-1)) ∧
      (s.staticBackground ≠ .noneVal → t.staticBackground = s.staticBackground) ∧
      t.sigAxes.map SignalAxis.size = s.sigAxes.map SignalAxis.size ∧
      Regular { t with
        staticBackground := .arr (t.sigAxes.map SignalAxis.size) [] } := by
  obtain ⟨ay, ax, hsig, hay, hax⟩ := h.sig
  obtain ⟨hny, hnx, hprod, hlong⟩ := mapShapeScale_size h.nav h.points
  obtain ⟨g, hg, ht⟩ := write_read_all (s := s) (ny := (mapShapeScale s.navAxes).1.1)
    (nx := (mapShapeScale s.navAxes).1.2) (dy := (mapShapeScale s.navAxes).2.1)
    (dx := (mapShapeScale s.navAxes).2.2)
    (sh := (loadedPcs (mapShapeScale s.navAxes).1.1 (mapShapeScale s.navAxes).1.2 s.pcShape s.pc).1)
    (pcs := (loadedPcs (mapShapeScale s.navAxes).1.1 (mapShapeScale s.navAxes).1.2 s.pcShape
      s.pc).2) rfl hsig
    (by
      rw [h.size, List.map_append, List.prod_append, ← hprod, hsig]
      simp [mul_assoc]) (readPcsAll_stored h.pcShape h.pcSize h.pcSome _ _)
  refine ⟨g, _, hg, ht, axesList_steps h.nav h.points _ _ _, rfl, rfl, ?_⟩
  generalize (mapShapeScale s.navAxes).2.1 = dy at *
  generalize (mapShapeScale s.navAxes).2.2 = dx at *
  generalize hnye : (mapShapeScale s.navAxes).1.1 = ny at *
  generalize hnxe : (mapShapeScale s.navAxes).1.2 = nx at *
  have hcases : (ny = 1 ∧ nx = 1) ∨ (ny = 1 ∧ 2 ≤ nx) ∨ (2 ≤ ny ∧ nx = 1) ∨ (2 ≤ ny ∧ 2 ≤ nx) := by
    omega
  have hbg : ∀ b : PyVal K, (b = .noneVal ∨ ∃ d, b = .arr (s.sigAxes.map SignalAxis.size) d) →
      (b = .noneVal → stored (backgroundValue b) = .scalar (-1)) ∧
      (b ≠ .noneVal → stored (backgroundValue b) = b) := by
    rintro b (rfl | ⟨d, rfl⟩)
    · exact ⟨fun _ => rfl, fun h => absurd rfl h⟩
    · rw [hsig]
      refine ⟨fun h => by simp at h, fun _ => ?_⟩
      exact stored_arr (by simp) (by simp; omega) d
  have hbgs : ∀ b : PyVal K, stored (match b with | .noneVal => .scalar (-1) | v => v) =
      stored (backgroundValue b) := by intro b; cases b <;> rfl
  have hpcs : ∃ sh pcs, loadedPcs ny nx s.pcShape s.pc = (sh, pcs) ∧
      ((sh = [] ∧ pcs.length = 1) ∨
        (sh = [ny, nx].filter (· ≠ 1) ∧ pcs.length = ny * nx ∧ 1 < ny * nx)) := by
    have hpos : 0 < s.pc.length := List.length_pos_iff.2 h.pcSome
    unfold loadedPcs
    split_ifs with h1 h2 h3
    · exact ⟨_, _, rfl, Or.inr ⟨rfl, h2, h2 ▸ h1⟩⟩
    · refine ⟨_, _, rfl, Or.inr ⟨rfl, ?_, ?_⟩⟩
      · simp [padPcs, List.length_flatMap, List.map_const']
      · have hp : s.pc.length = (rowsCols s.pcShape).1 * (rowsCols s.pcShape).2 := by
          rw [h.pcSize]
          rcases h.pcShape with ⟨n, e⟩ | ⟨m, n, e⟩ <;> simp [e, rowsCols]
        have := Nat.mul_le_mul h3.1 h3.2
        omega
    · exact ⟨_, _, rfl, Or.inl ⟨rfl, rfl⟩⟩
    · exact ⟨_, _, rfl, Or.inl ⟨rfl, by omega⟩⟩
  obtain ⟨sh, pcs, hle, hpc⟩ := hpcs
  rw [hle]
  simp only
  rw [hbgs]
  have hsy1 : ay.size ≠ 1 := by omega
  have hsx1 : ax.size ≠ 1 := by omega
  have hdl : s.data.data.length = ny * nx * (ay.size * ax.size) := by
    rw [h.size, List.map_append, List.prod_append, ← hprod, hsig]
    simp
  rw [← hlong]
  refine ⟨?_, trivial, (hbg _ h.background).1, (hbg _ h.background).2, ?_, ?_⟩
  · rcases hcases with ⟨rfl, rfl⟩ | ⟨rfl, h2⟩ | ⟨h1, rfl⟩ | ⟨h1, h2⟩
    · simp [axesList]
    · have : nx ≠ 1 := by omega
      have h' : ¬ nx < 1 := by omega
      simp [axesList, this, h']
    · have : ny ≠ 1 := by omega
      have h' : 1 < ny := by omega
      simp [axesList, this, h']
    · have : ny ≠ 1 := by omega
      have h' : nx ≠ 1 := by omega
      simp [axesList, this, h']
  · rw [hsig]
    rcases hcases with ⟨rfl, rfl⟩ | ⟨rfl, h2⟩ | ⟨h1, rfl⟩ | ⟨h1, h2⟩
    · simp [axesList]
    · have : nx ≠ 1 := by omega
      have h' : ¬ nx < 1 := by omega
      simp [axesList, this, h']
    · have : ny ≠ 1 := by omega
      have h' : 1 < ny := by omega
      simp [axesList, this, h']
    · have : ny ≠ 1 := by omega
      have h' : nx ≠ 1 := by omega
      simp [axesList, this, h']
  · rcases hcases with ⟨rfl, rfl⟩ | ⟨rfl, h2⟩ | ⟨h1, rfl⟩ | ⟨h1, h2⟩
    · refine ⟨Or.inl (by simp [axesList]), ⟨ay.size, ax.size, hay, hax, by simp [axesList]⟩,
        by simp [axesList, hsy1, hsx1], by simp [hsy1, hsx1, shapeSize, hdl], ?_, ⟨[], rfl⟩⟩
      rcases hpc with ⟨rfl, hp⟩ | ⟨_, _, hp⟩
      · exact Or.inl ⟨rfl, hp⟩
      · omega
    · have hx1 : nx ≠ 1 := by omega
      have hx0 : nx ≠ 0 := by omega
      have h' : ¬ nx < 1 := by omega
      refine ⟨Or.inr (Or.inl ⟨nx, dx, h2, by simp [axesList, hx1, hx0]⟩),
        ⟨ay.size, ax.size, hay, hax, by simp [axesList, hx1, hx0]⟩,
        by simp [axesList, hsy1, hsx1, hx1, hx0], by simp [hsy1, hsx1, hx1, shapeSize, hdl], ?_,
        ⟨[], rfl⟩⟩
      rcases hpc with ⟨rfl, hp⟩ | ⟨rfl, hp, _⟩
      · exact Or.inl ⟨rfl, hp⟩
      · refine Or.inr ⟨by simp [axesList, hx1, hx0], by simp [axesList, hx1, hx0], ?_⟩
        simp [hx1, hp, shapeSize]
    · have hy1 : ny ≠ 1 := by omega
      have h' : 1 < ny := by omega
      refine ⟨Or.inr (Or.inr (Or.inl ⟨ny, dy, h1, by simp [axesList, hy1, h']⟩)),
        ⟨ay.size, ax.size, hay, hax, by simp [axesList, hy1, h']⟩,
        by simp [axesList, hsy1, hsx1, hy1, h'], by simp [hsy1, hsx1, hy1, shapeSize, hdl], ?_,
        ⟨[], rfl⟩⟩
      rcases hpc with ⟨rfl, hp⟩ | ⟨rfl, hp, _⟩
      · exact Or.inl ⟨rfl, hp⟩
      · refine Or.inr ⟨by simp [axesList, hy1, h'], by simp [axesList, hy1, h'], ?_⟩
        simp [hy1, hp, shapeSize]
    · have hy1 : ny ≠ 1 := by omega
      have hx1 : nx ≠ 1 := by omega
      refine ⟨Or.inr (Or.inr (Or.inr ⟨ny, nx, dy, dx, h1, h2, by simp [axesList, hy1, hx1]⟩)),
        ⟨ay.size, ax.size, hay, hax, by simp [axesList, hy1, hx1]⟩,
        by simp [axesList, hsy1, hsx1, hy1, hx1],
        by simp [hsy1, hsx1, hy1, hx1, shapeSize, hdl, mul_assoc], ?_, ⟨[], rfl⟩⟩
      rcases hpc with ⟨rfl, hp⟩ | ⟨rfl, hp, _⟩
      · exact Or.inl ⟨rfl, hp⟩
      · refine Or.inr ⟨by simp [axesList, hy1, hx1], by simp [axesList, hy1, hx1], ?_⟩
        simp [hy1, hx1, hp, shapeSize]

/-- The loaded signal is saved and loaded as it is. -/
theorem loaded_again {t : EbsdSignal K}
    (h : Regular { t with staticBackground := .arr (t.sigAxes.map SignalAxis.size) [] })
    (hb : stored (backgroundValue t.staticBackground) = t.staticBackground) :
    ∃ g, writeScan t = .ok g ∧ readScanAll g = .ok t := by
  obtain ⟨g, hw, hr⟩ := C40_round_trip_partial h
  have hr' := readScanAll_of_readScan hr
  refine ⟨{ g with staticBackground := stored (backgroundValue t.staticBackground) }, ?_, ?_⟩
  · have := writeScan_background
      { t with staticBackground := .arr (t.sigAxes.map SignalAxis.size) [] } t.staticBackground
    rw [hw] at this
    exact this
  · rw [readScanAll_background, hr', hb]
    rfl

/-! ### The microscope -/

theorem stored_plain {v : PyVal K} (hv : Plain v) :
    ∃ o, writeVal v = .ok (some o) ∧ readVal o = v ∧
      ∀ c rest, c.isWhitespace = false → o.key (c :: rest) = c :: rest := by
  cases v with
  | scalar v => exact ⟨_, rfl, rfl, fun c rest h => by simp [H5Obj.key, h]⟩
  | str t =>
    refine ⟨_, rfl, ?_, fun c rest h => by simp [H5Obj.key, h]⟩
    simp [readVal, utf8_ascii hv.1, List.take_of_length_le, stripZeros_eq hv.2]
  | dict d => exact absurd hv id
  | arr s d => exact absurd hv id
  | noneVal => exact absurd hv id
  | pyList => exact absurd hv id

theorem sem_round_trip {v₁ v₂ v₃ v₄ : PyVal K} (h₁ : Plain v₁) (h₂ : Plain v₂) (h₃ : Plain v₃)
    (h₄ : Plain v₄) :
    ∃ g, writeDict (.cons "beam_energy".toList v₁ (.cons "magnification".toList v₂
        (.cons "microscope".toList v₃ (.cons "working_distance".toList v₄ .nil)))) .nil = .ok g ∧
      readGroup g .nil = .cons "beam_energy".toList v₁ (.cons "magnification".toList v₂
        (.cons "microscope".toList v₃ (.cons "working_distance".toList v₄ .nil))) := by
  obtain ⟨o₁, w₁, r₁, k₁⟩ := stored_plain h₁
  obtain ⟨o₂, w₂, r₂, k₂⟩ := stored_plain h₂
  obtain ⟨o₃, w₃, r₃, k₃⟩ := stored_plain h₃
  obtain ⟨o₄, w₄, r₄, k₄⟩ := stored_plain h₄
  refine ⟨.cons "beam_energy".toList o₁ (.cons "magnification".toList o₂
        (.cons "microscope".toList o₃ (.cons "working_distance".toList o₄ .nil))), ?_, ?_⟩
  · have l₁ : ¬ "magnification".toList < "beam_energy".toList := by decide
    have l₂ : ¬ "microscope".toList < "beam_energy".toList := by decide
    have l₃ : ¬ "microscope".toList < "magnification".toList := by decide
    have l₄ : ¬ "working_distance".toList < "beam_energy".toList := by decide
    have l₅ : ¬ "working_distance".toList < "magnification".toList := by decide
    have l₆ : ¬ "working_distance".toList < "microscope".toList := by decide
    simp only [writeDict, w₁, w₂, w₃, w₄, H5Grp.has, H5Grp.insert, if_neg l₁, if_neg l₂, if_neg l₃,
      if_neg l₄, if_neg l₅, if_neg l₆]
    simp
  · have e₁ : o₁.key "beam_energy".toList = "beam_energy".toList := k₁ 'b' _ (by decide)
    have e₂ : o₂.key "magnification".toList = "magnification".toList := k₂ 'm' _ (by decide)
    have e₃ : o₃.key "microscope".toList = "microscope".toList := k₃ 'm' _ (by decide)
    have e₄ : o₄.key "working_distance".toList = "working_distance".toList := k₄ 'w' _ (by decide)
    simp only [readGroup, e₁, e₂, e₃, e₄, r₁, r₂, r₃, r₄, PyDict.set]
    simp [PyDict.set]

/-- What a loaded signal has as microscope. -/
theorem sem_loaded {sem : PyDict K}
    (h : ∀ e ∈ (semKeys : List (String × PyVal K)), Plain (sem.find e.1.toList e.2)) :
    ∃ g, writeDict (semDict sem) .nil = .ok g ∧ readGroup g .nil = semDict sem :=
  sem_round_trip (h ("beam_energy", .scalar 0) (by simp [semKeys]))
    (h ("magnification", .scalar 0) (by simp [semKeys]))
    (h ("microscope", .str []) (by simp [semKeys]))
    (h ("working_distance", .scalar 0) (by simp [semKeys]))

theorem semDict_find (sem : PyDict K) :
    ∀ e ∈ (semKeys : List (String × PyVal K)), ∀ v,
      (semDict sem).find e.1.toList v = sem.find e.1.toList e.2 := by
  intro e he v
  simp only [semKeys, List.mem_cons, List.not_mem_nil, or_false] at he
  rcases he with rfl | rfl | rfl | rfl <;> simp [semDict, PyDict.find]

theorem semDict_semDict (sem : PyDict K) : semDict (semDict sem) = semDict sem := by
  simp [semDict, PyDict.find]

/-! ### The whole signal -/

/-- C129.  Every ordinary signal can be saved and loaded.  The loaded signal has its patterns, pixel
size, detector angles and binning, the axes of the map with more than one point, its background
pattern (-1 if there was none), its crystal map if this has the shape of the map (and an empty one
with the shape and steps of the map if not), and what is stored about its microscope; and saving and
loading it again gives the same signal. -/
theorem C129_save_load (o : OrixMaps K X) (s : WholeSignal K X) (h : Ordinary s.base)
    (hsem : ∀ e ∈ (semKeys : List (String × PyVal K)), Plain (s.sem.find e.1.toList e.2)) :
    ∃ t, saveLoad o s = .ok t ∧
      t.base.data.data = s.base.data.data ∧
      t.base.data.shape = longAxes s.base.navAxes ++ s.base.sigAxes.map SignalAxis.size ∧
      t.base.navAxes.map (fun a => (a.size, a.scale)) =
        (s.base.navAxes.filter fun a => a.size ≠ 1).map (fun a => (a.size, a.scale)) ∧
      t.base.sigAxes.map SignalAxis.size = s.base.sigAxes.map SignalAxis.size ∧
      t.base.pxSize = s.base.pxSize ∧
      t.angles = s.angles ∧
      (s.base.staticBackground ≠ .noneVal → t.base.staticBackground = s.base.staticBackground) ∧
      (s.base.staticBackground = .noneVal → t.base.staticBackground = .scalar (-1)) ∧
      (∀ x, s.xmap = some x → o.shape x = s.base.navAxes.map SignalAxis.size →
        t.xmap = some (o.reload x)) ∧
      ((∀ x, s.xmap = some x → o.shape x ≠ s.base.navAxes.map SignalAxis.size) →
        t.xmap = some (o.reload (o.empty (mapShapeScale s.base.navAxes).1
          (mapShapeScale s.base.navAxes).2))) ∧
      (∀ e ∈ (semKeys : List (String × PyVal K)), ∀ v,
        t.sem.find e.1.toList v = s.sem.find e.1.toList e.2) := by
  obtain ⟨g, t, hw, hr, hsteps, hdata, hpx, hnav, hpc, hb0, hb1, hsig, hreg⟩ := loaded_base h
  obtain ⟨gs, hgs, hrs⟩ := sem_loaded hsem
  refine ⟨{ base := t, angles := s.angles, sem := semDict s.sem,
            xmap := some (o.reload (writtenMap o s)) }, ?_, hdata, ?_, hsteps, hsig, hpx, rfl, hb1, hb0,
            ?_, ?_, semDict_find s.sem⟩
  · simp only [saveLoad, writeWhole, hw, hgs, readWhole, hr, hrs, stored, writeVal, readVal,
      headerNumber, bind, Except.bind, pure, Except.pure]
  · rw [← hnav, ← hsig, ← List.map_append]
    exact hreg.shape
  · intro x hx he
    simp only [writtenMap, hx, if_pos he]
  · intro hx
    cases hxe : s.xmap with
    | none => simp only [writtenMap, hxe]
    | some x => simp only [writtenMap, hxe, if_neg (hx x hxe)]

/-- C129.  What was loaded is saved and loaded as it is, if orix stores crystal maps exactly, an empty
map has the shape it is made with, and shapes of crystal maps do not have axes with one point. -/
theorem C129_again (o : OrixMaps K X) (s t : WholeSignal K X) (h : Ordinary s.base)
    (hsem : ∀ e ∈ (semKeys : List (String × PyVal K)), Plain (s.sem.find e.1.toList e.2))
    (hreload : ∀ x, o.reload x = x)
    (hempty : ∀ n d, o.shape (o.empty n d) = [n.1, n.2].filter (· ≠ 1))
    (hone : ∀ x, 1 ∉ o.shape x) (ht : saveLoad o s = .ok t) :
    saveLoad o t = .ok t := by
  obtain ⟨g, b, hw, hr, hsteps, hdata, hpx, hnav, hpc, hb0, hb1, hsig, hreg⟩ := loaded_base h
  obtain ⟨gs, hgs, hrs⟩ := sem_loaded hsem
  have e : t = { base := b, angles := s.angles, sem := semDict s.sem,
                 xmap := some (writtenMap o s) } := by
    simp only [saveLoad, writeWhole, hw, hgs, readWhole, hr, hrs, stored, writeVal, readVal,
      headerNumber, bind, Except.bind, pure, Except.pure, Except.ok.injEq, hreload] at ht
    exact ht.symm
  have hb : stored (backgroundValue b.staticBackground) = b.staticBackground := by
    rcases h.background with hbg | ⟨d, hbg⟩
    · rw [hb0 hbg]; rfl
    · rw [hb1 (by rw [hbg]; simp), hbg]
      obtain ⟨ay, ax, hs, hay, _⟩ := h.sig
      rw [hs]
      exact stored_arr (by simp) (by simp; omega) d
  obtain ⟨g', hw', hr'⟩ := loaded_again hreg hb
  have hx : writtenMap o t = writtenMap o s := by
    have hsh : o.shape (writtenMap o s) = b.navAxes.map SignalAxis.size := by
      rw [hnav]
      obtain ⟨_, _, _, hl⟩ := mapShapeScale_size h.nav h.points
      cases hxe : s.xmap with
      | none =>
        simp only [writtenMap, hxe]
        rw [hempty, hl]
      | some x =>
        simp only [writtenMap, hxe]
        split_ifs with hs
        · rw [hs, longAxes, List.filter_eq_self.2]
          intro a ha
          have := hone x
          rw [hs] at this
          simp only [ne_eq, decide_eq_true_eq]
          rintro rfl
          exact this ha
        · rw [hempty, hl]
    rw [e]
    generalize writtenMap o s = y at hsh ⊢
    simp only [writtenMap]
    rw [if_pos hsh]
  obtain ⟨gs', hgs', hrs'⟩ := sem_loaded (sem := semDict s.sem) (by
    intro x hxm
    rw [semDict_find _ x hxm]
    exact hsem x hxm)
  have ex : t.xmap = some (writtenMap o s) := by rw [e]
  have e1 : t.base = b := by rw [e]
  have e2 : t.sem = semDict s.sem := by rw [e]
  simp only [saveLoad, writeWhole, e1, hw', e2, hgs', readWhole, hr', hrs', stored, writeVal, readVal,
    headerNumber, bind, Except.bind, pure, Except.pure, hreload, hx]
  rw [semDict_semDict, ← ex, ← e1, ← e2]

/-- C129.  The projection centers of the loaded signal: as many PCs as map points are kept, as is a
single one; for other numbers, the PC of a map point within the PC array is the one there, and the
default one is used for other map points, or for all if the array has more rows or columns than the
map. -/
theorem C129_projection_centers (o : OrixMaps K X) (s t : WholeSignal K X) (h : Ordinary s.base)
    (ht : saveLoad o s = .ok t) :
    let n := (mapShapeScale s.base.navAxes).1
    let p := rowsCols s.base.pcShape
    (s.base.pc.length = 1 ∨ s.base.pc.length = n.1 * n.2 → t.base.pc = s.base.pc) ∧
    (1 < s.base.pc.length → s.base.pc.length ≠ n.1 * n.2 → p.1 ≤ n.1 → p.2 ≤ n.2 →
      t.base.pc.length = n.1 * n.2 ∧
      ∀ r c, r < n.1 → c < n.2 → t.base.pc[r * n.2 + c]? =
        if r < p.1 ∧ c < p.2 then s.base.pc[r * p.2 + c]? else some ⟨1 / 2, 1 / 2, 1 / 2⟩) ∧
    (1 < s.base.pc.length → s.base.pc.length ≠ n.1 * n.2 → ¬ (p.1 ≤ n.1 ∧ p.2 ≤ n.2) →
      t.base.pc = [⟨1 / 2, 1 / 2, 1 / 2⟩]) := by
  obtain ⟨g, b, hw, hr, hsteps, hdata, hpx, hnav, hpc, hb0, hb1, hsig, hreg⟩ := loaded_base h
  have e1 : t.base = b := by
    simp only [saveLoad, writeWhole, hw, bind, Except.bind, pure, Except.pure] at ht
    cases hg : writeDict (semDict s.sem) .nil with
    | error e => rw [hg] at ht; cases ht
    | ok gs =>
      rw [hg] at ht
      simp only [readWhole, hr, stored, writeVal, readVal, headerNumber, bind, Except.bind, pure,
        Except.pure, Except.ok.injEq] at ht
      rw [← ht]
  rw [e1, hpc]
  intro n p
  have hp : s.base.pc.length = p.1 * p.2 := by
    rw [h.pcSize]
    simp only [p]
    rcases h.pcShape with ⟨n, e⟩ | ⟨m, n, e⟩ <;> simp [e, rowsCols]
  refine ⟨?_, ?_, ?_⟩
  · intro hor
    unfold loadedPcs
    split_ifs with h1 h2 h3
    · rfl
    · rcases hor with hor | hor
      · omega
      · exact absurd hor h2
    · rcases hor with hor | hor
      · omega
      · exact absurd hor h2
    · rfl
  · intro h1 h2 h3 h4
    have hl : (loadedPcs n.1 n.2 s.base.pcShape s.base.pc).2 = padPcs p.2 p.1 n.1 n.2 s.base.pc := by
      unfold loadedPcs
      rw [if_pos h1, if_neg h2, if_pos ⟨h3, h4⟩]
    rw [hl]
    refine ⟨by simp [padPcs, List.length_flatMap, List.map_const'], ?_⟩
    intro r c hr hc
    rw [padPcs_get hr hc]
    split_ifs with hin
    · have hlt : r * p.2 + c < s.base.pc.length := by
        rw [hp]
        calc r * p.2 + c < r * p.2 + p.2 := by omega
          _ = (r + 1) * p.2 := by ring
          _ ≤ _ := Nat.mul_le_mul_right _ (by omega)
      rw [List.getElem?_eq_getElem hlt, List.getD_eq_getElem?_getD, List.getElem?_eq_getElem hlt, Option.getD_some]
    · rfl
  · intro h1 h2 h3
    unfold loadedPcs
    rw [if_pos h1, if_neg h2, if_neg h3]
    rfl

/-- False in general: a crystal map is kept when a signal is saved and loaded, and again.  For a map
with one row, whatever shape orix gives to its crystal map, this is replaced by an empty one, the
first time or the second. -/
theorem C129_single_row_violated (o : OrixMaps K X) (s t u : WholeSignal K X) (h : Ordinary s.base)
    {n : ℕ} {d e : K} (hn : s.base.navAxes = [⟨"y", 1, d⟩, ⟨"x", n, e⟩])
    (hshape : ∀ x, o.shape (o.reload x) = o.shape x) (ht : saveLoad o s = .ok t)
    (hu : saveLoad o t = .ok u) :
    t.xmap = some (o.reload (o.empty (1, n) (d, e))) ∨
    ∃ m f, u.xmap = some (o.reload (o.empty m f)) := by
  have hmap : ∀ {a b : WholeSignal K X}, saveLoad o a = .ok b →
      b.xmap = some (o.reload (writtenMap o a)) := by
    intro a b hab
    simp only [saveLoad, writeWhole, bind, Except.bind, pure, Except.pure] at hab
    cases h1 : writeScan a.base with
    | error e => rw [h1] at hab; cases hab
    | ok g =>
      rw [h1] at hab
      simp only at hab
      cases h2 : writeDict (semDict a.sem) .nil with
      | error e => rw [h2] at hab; cases hab
      | ok gs =>
        rw [h2] at hab
        simp only [readWhole, bind, Except.bind] at hab
        cases h3 : readScanAll g with
        | error e => rw [h3] at hab; cases hab
        | ok b' =>
          rw [h3] at hab
          simp only [stored, writeVal, readVal, headerNumber, pure, Except.pure,
            Except.ok.injEq] at hab
          rw [← hab]
  have hbase : t.base.navAxes.map SignalAxis.size = longAxes s.base.navAxes := by
    obtain ⟨g, b, hw, hr, _, _, _, hnav, _⟩ := loaded_base h
    simp only [saveLoad, writeWhole, hw, bind, Except.bind, pure, Except.pure] at ht
    cases hg : writeDict (semDict s.sem) .nil with
    | error e => rw [hg] at ht; cases ht
    | ok gs =>
      rw [hg] at ht
      simp only [readWhole, hr, stored, writeVal, readVal, headerNumber, bind, Except.bind, pure,
        Except.pure, Except.ok.injEq] at ht
      rw [← ht]
      exact hnav
  rw [hn] at hbase
  have hlen : (t.base.navAxes.map SignalAxis.size).length ≤ 1 := by
    rw [hbase]
    simp only [longAxes, List.map_cons, List.map_nil, List.filter_cons, ne_eq, not_true_eq_false,
      decide_false, Bool.false_eq_true, if_false, List.filter_nil]
    split_ifs <;> simp
  have ht' := hmap ht
  have hu' := hmap hu
  cases hx : s.xmap with
  | none =>
    left
    rw [ht']
    simp only [writtenMap, hx, hn, mapShapeScale]
  | some x =>
    by_cases hs : o.shape x = s.base.navAxes.map SignalAxis.size
    · right
      have htx : t.xmap = some (o.reload x) := by
        rw [ht']
        simp only [writtenMap, hx, if_pos hs]
      refine ⟨(mapShapeScale t.base.navAxes).1, (mapShapeScale t.base.navAxes).2, ?_⟩
      rw [hu']
      simp only [writtenMap, htx]
      rw [if_neg]
      rw [hshape, hs, hn]
      intro e'
      rw [← e'] at hlen
      simp at hlen
    · left
      rw [ht']
      simp only [writtenMap, hx, if_neg hs]
      rw [hn]
      rfl

theorem find_cons_ne {k k' : List Char} (h : k' ≠ k) (v w : PyVal K) (rest : PyDict K) :
    (PyDict.cons k' v rest).find k w = rest.find k w := by
  rw [PyDict.find, if_neg h]

/-- False in general: what is known about the microscope is kept.  Only four values are: all others
are lost. -/
theorem C129_other_keys_violated (o : OrixMaps K X) (s t : WholeSignal K X)
    (hsem : ∀ e ∈ (semKeys : List (String × PyVal K)), Plain (s.sem.find e.1.toList e.2))
    (ht : saveLoad o s = .ok t) (k : List Char)
    (hk : k ∉ (semKeys : List (String × PyVal K)).map fun e => e.1.toList) (v : PyVal K) :
    t.sem.find k v = v := by
  obtain ⟨gs, hgs, hrs⟩ := sem_loaded hsem
  have e : t.sem = semDict s.sem := by
    simp only [saveLoad, writeWhole, bind, Except.bind, pure, Except.pure] at ht
    cases h1 : writeScan s.base with
    | error e => rw [h1] at ht; cases ht
    | ok g =>
      rw [h1] at ht
      simp only [hgs, readWhole, bind, Except.bind] at ht
      cases h3 : readScanAll g with
      | error e => rw [h3] at ht; cases ht
      | ok b' =>
        rw [h3] at ht
        simp only [stored, writeVal, readVal, headerNumber, pure, Except.pure,
          Except.ok.injEq] at ht
        rw [← ht]
        exact hrs
  rw [e]
  have h1 : "beam_energy".toList ≠ k := fun h => hk (List.mem_map.2 ⟨("beam_energy", .scalar 0),
    List.mem_cons_self, h⟩)
  have h2 : "magnification".toList ≠ k := fun h => hk (List.mem_map.2 ⟨("magnification", .scalar 0),
    by simp [semKeys], h⟩)
  have h3 : "microscope".toList ≠ k := fun h => hk (List.mem_map.2 ⟨("microscope", .str []),
    by simp [semKeys], h⟩)
  have h4 : "working_distance".toList ≠ k := fun h => hk (List.mem_map.2
    ⟨("working_distance", .scalar 0), by simp [semKeys], h⟩)
  unfold semDict
  rw [find_cons_ne h1, find_cons_ne h2, find_cons_ne h3, find_cons_ne h4]
  rfl

/-- False in general: the microscope's name is kept whatever else is known.  If the magnification is
`None`, the name is not written, nor is the working distance. -/
theorem C129_none_violated (v : K) (name : List ℕ) (w : K) :
    let sem : PyDict K := .cons "beam_energy".toList (.scalar v)
      (.cons "magnification".toList .noneVal (.cons "microscope".toList (.str name)
        (.cons "working_distance".toList (.scalar w) .nil)))
    ∃ g, writeDict (semDict sem) .nil = .ok g ∧
      readGroup g .nil = .cons "beam_energy".toList (.scalar v) .nil := by
  intro sem
  refine ⟨.cons "beam_energy".toList (.arr [1] [v]) .nil, ?_, ?_⟩
  · simp [sem, semDict, PyDict.find, writeDict, writeVal, H5Grp.has, H5Grp.insert]
  · simp [readGroup, readVal, H5Obj.key, PyDict.set]

/-- Three columns and two rows of patterns, projection centers of the first row only, no background
and no crystal map. -/
def wholeExample : WholeSignal ℚ (List ℕ) where
  base :=
    { data := ⟨[2, 3, 2, 2], (List.range 24).map fun k : ℕ => (k : ℚ)⟩
      navAxes := [⟨"y", 2, 3 / 2⟩, ⟨"x", 3, 1⟩]
      sigAxes := [⟨"dy", 2, 1⟩, ⟨"dx", 2, 1⟩]
      pxSize := 70
      pcShape := [3]
      pc := [⟨1, 2, 3⟩, ⟨1, 2, 4⟩, ⟨1, 2, 5⟩]
      staticBackground := .noneVal }
  angles := { azimuthal := 1, twist := 2, binning := 8, tilt := 5, sampleTilt := 70 }
  sem := .cons "microscope".toList (.str [83, 69, 77]) (.cons "spot".toList (.scalar 3) .nil)
  xmap := none

/-- Crystal maps given by their shape. -/
def shapeMaps : OrixMaps ℚ (List ℕ) where
  shape := fun l => l.filter (· ≠ 1)
  reload := id
  empty := fun n _ => [n.1, n.2]

example : Ordinary wholeExample.base where
  nav := by simp [wholeExample]
  points := by simp [wholeExample]
  sig := ⟨_, _, rfl, by simp, by simp⟩
  size := by simp [wholeExample]
  pcShape := Or.inl ⟨3, rfl⟩
  pcSize := by simp [wholeExample]
  pcSome := by simp [wholeExample]
  background := Or.inl rfl

example : (∀ e ∈ (semKeys : List (String × PyVal ℚ)),
    Plain (wholeExample.sem.find e.1.toList e.2)) ∧
    (∀ x, shapeMaps.reload x = x) ∧
    (∀ n d, shapeMaps.shape (shapeMaps.empty n d) = [n.1, n.2].filter (· ≠ 1)) ∧
    ∀ x, 1 ∉ shapeMaps.shape x := by
  refine ⟨?_, fun _ => rfl, fun _ _ => rfl, by simp [shapeMaps]⟩
  intro e he
  simp only [semKeys, List.mem_cons, List.not_mem_nil, or_false] at he
  rcases he with rfl | rfl | rfl | rfl <;> simp [wholeExample, PyDict.find, Plain]

example : ((saveLoad shapeMaps wholeExample).toOption.map fun t => (t.base.pc.map PC.z, t.xmap)) =
    some ([3, 4, 5, 1 / 2, 1 / 2, 1 / 2], some [2, 3]) := by
  decide +kernel

end Kp
