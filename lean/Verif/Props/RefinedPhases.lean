import Verif.Spec.RefinedPhases
import Verif.Lemmas.RefinementMaps
import Verif.Props.PhaseMaps
import Verif.Props.SelfRefinement

/-
C133: refining with one master pattern per phase, then merging.
-/

set_option linter.unusedSectionVars false

namespace Kp
open Spec
noncomputable section

variable {D : Type}

theorem countP_mask (l : List Bool) (m : ℕ) :
    (List.range m).countP (fun i => l[i]? == some true) = (l.take m).count true := by
  induction m with
  | zero => simp
  | succ n ih =>
    rw [List.range_succ, List.countP_append, ih, List.take_add_one, List.count_append]
    cases h : l[n]? with
    | none => simp [h]
    | some b => cases b <;> simp [h]

theorem rank_mask (l : List Bool) : rank (fun i => l[i]? == some true) l.length = l.count true := by
  rw [rank, ← List.countP_eq_length_filter, countP_mask, List.take_length]

theorem all_true_take (l : List Bool) (m n : ℕ) (h : ∀ i < n, l[i]? = some true) (hm : m ≤ n) :
    (l.take m).count true = m := by
  rw [← countP_mask, List.countP_eq_length_filter, List.filter_eq_self.2, List.length_range]
  intro i hi
  rw [h i (by have := List.mem_range.1 hi; omega)]
  rfl

/-- The rows of a refined map. -/
theorem data_rows {phases : List (PhaseRefinement D)} {masks : Option (List (Option NavMask))}
    (hmasks : MasksOfData phases masks) {k : ℕ} {ph : PhaseRefinement D}
    (hph : phases[k]? = some ph) {all : List RefinedPoint}
    (ha : ph.inData.length = all.length) {m : ℕ} (hm : m < ph.nav.prod) :
    (∀ row, rowOf masks k m = some row →
      ph.inData[m]? = some true ∧ (selectMask ph.inData all)[row]? = all[m]?) ∧
    (ph.inData[m]? = some true → ∃ row, rowOf masks k m = some row) := by
  have hall : (∀ i < ph.nav.prod, ph.inData[i]? = some true) →
      ph.inData[m]? = some true ∧ (selectMask ph.inData all)[m]? = all[m]? := by
    intro h
    refine ⟨h m hm, ?_⟩
    have := selectMask_getElem ha m (h m hm)
    rwa [all_true_take ph.inData m _ h hm.le] at this
  rcases hmasks with ⟨rfl, h⟩ | ⟨ms, rfl, hlen, h⟩
  · refine ⟨fun row hrow => ?_, fun _ => ⟨m, rfl⟩⟩
    simp only [rowOf, Option.some.injEq] at hrow
    subst hrow
    exact hall (h ph (List.mem_of_getElem? hph))
  · have hk : k < ms.length := by rw [hlen]; exact (List.getElem?_eq_some_iff.1 hph).1
    have hget := List.getElem?_eq_getElem hk
    have e : ms.getD k none = ms[k] := by rw [List.getD_eq_getElem?_getD, hget]; rfl
    unfold rowOf
    simp only [e]
    rcases h k ph _ hph hget with h | ⟨h, h'⟩
    · rw [h]
      refine ⟨fun row hrow => ?_, fun hd => ?_⟩
      · simp only [inDataMask] at hrow
        by_cases hd : ph.inData[m]? = some true
        · simp only [hd, beq_self_eq_true, if_true, Option.some.injEq, countP_mask] at hrow
          subst hrow
          exact ⟨hd, selectMask_getElem ha m hd⟩
        · simp [hd] at hrow
      · simp [inDataMask, hd]
    · rw [h]
      refine ⟨fun row hrow => ?_, fun _ => ⟨m, rfl⟩⟩
      simp only [Option.some.injEq] at hrow
      subst hrow
      exact hall h'

theorem pcAt_exists {a : RefineArgs} {u l : Img ℝ} (hv : a.Valid u l) {i : ℕ}
    (hi : i < a.points.length) : ∃ pc, a.pcAt i = some pc := by
  unfold RefineArgs.pcAt
  have : (if a.det.nav = [1] then 0 else i) < a.det.pc.length := by
    rw [hv.pcs]
    rcases hv.nav with h | h
    · simp [h]
    · split
      · omega
      · omega
  exact ⟨_, List.getElem?_eq_getElem this⟩

/-- Refinement of one phase. -/
theorem refine_one {ph : PhaseRefinement D} (g : GoodRefinement ph) :
    ∃ rows : List RefineRow, refineOrientation ph.args ph.starts ph.lower ph.upper =
        .ok (rows.map some) ∧ rows.length = ph.args.points.count true ∧
      ∀ (i : ℕ) (p : List ℝ) (pc : PC ℝ), ph.args.points[i]? = some true →
        ph.args.patterns[i]? = some p → ph.args.pcAt i = some pc →
        ∃ row, rows[ph.args.place i]? = some row ∧ row.score ≤ 1 ∧
          IsScore ph.args p (refinedPoint ph.id row).rot pc row.score ∧
          ∀ q, StartsWith ph i q → ∃ t, IsScore ph.args p q pc t ∧ t ≤ row.score := by
  obtain ⟨u, l, hv, hmp⟩ := g.valid
  obtain ⟨rows, hr, hlen, hrows⟩ := C77_orientation_partial hv hmp g.starts g.lower g.upper
    g.operators
  -- every row is there
  have hsome : ∀ r ∈ rows, ∃ row, r = some row := by
    intro r hmem
    obtain ⟨n, hn⟩ := List.mem_iff_getElem?.1 hmem
    have hnl : n < ph.args.points.count true := by
      rw [← hlen]; exact (List.getElem?_eq_some_iff.1 hn).1
    -- point number n
    obtain ⟨i, hi, hpl⟩ : ∃ i : ℕ, ph.args.points[i]? = some true ∧ ph.args.place i = n := by
      unfold RefineArgs.place
      clear * - hnl
      generalize ph.args.points = l at hnl ⊢
      induction l generalizing n with
      | nil => simp at hnl
      | cons b l ih =>
        cases b with
        | false =>
          obtain ⟨i, h1, h2⟩ := ih n (by simpa using hnl)
          exact ⟨i + 1, by simpa using h1, by simpa using h2⟩
        | true =>
          cases n with
          | zero => exact ⟨0, by simp, by simp⟩
          | succ n =>
            obtain ⟨i, h1, h2⟩ := ih n (by simpa using hnl)
            exact ⟨i + 1, by simpa using h1, by simpa using h2⟩
    have hil : i < ph.args.points.length := (List.getElem?_eq_some_iff.1 hi).1
    obtain ⟨pc, hpc⟩ := pcAt_exists hv hil
    have hp := List.getElem?_eq_getElem (l := ph.args.patterns) (i := i) (by rw [← hv.points]; exact hil)
    obtain ⟨row, hrow, -⟩ := hrows i _ pc hi hp hpc
    rw [hpl, hn, Option.some.injEq] at hrow
    exact ⟨row, hrow⟩
  have hmap : rows = (rows.filterMap (fun r => r)).map some := by
    clear * - hsome
    induction rows with
    | nil => rfl
    | cons r l ih =>
      obtain ⟨row, rfl⟩ := hsome r (by simp)
      have e : (some row :: l).filterMap (fun r => r) = row :: l.filterMap (fun r => r) := rfl
      rw [e, List.map_cons, ← ih fun x hx => hsome x (by simp [hx])]
  refine ⟨rows.filterMap (fun r => r), by rw [← hmap]; exact hr, ?_, ?_⟩
  · rw [← hlen]
    conv_rhs => rw [hmap, List.length_map]
  · intro i p pc hi hp hpc
    obtain ⟨row, hrow, -, hle, hscore⟩ := hrows i p pc hi hp hpc
    refine ⟨row, ?_, hle, hscore, ?_⟩
    · rw [hmap, List.getElem?_map] at hrow
      cases h : (rows.filterMap (fun r => r))[ph.args.place i]? with
      | none => rw [h] at hrow; cases hrow
      | some r =>
        rw [h, Option.map_some, Option.some.injEq, Option.some.injEq] at hrow
        rw [hrow]
    · rintro q ⟨-, s, hs, rfl⟩
      exact C77_orientation_not_worse_partial hv hmp g.descends g.method g.starts g.lower g.upper
        g.operators hr hi hp hpc hrow s hs

theorem refinePhases_ok (phases : List (PhaseRefinement D))
    (h : ∀ ph ∈ phases, ∃ rows : List RefineRow,
      refineOrientation ph.args ph.starts ph.lower ph.upper = .ok (rows.map some)) :
    ∃ xmaps, refinePhases phases = .ok xmaps ∧ xmaps.length = phases.length ∧
      ∀ (k : ℕ) (ph : PhaseRefinement D), phases[k]? = some ph → ∀ rows : List RefineRow,
        refineOrientation ph.args ph.starts ph.lower ph.upper = .ok (rows.map some) →
        xmaps[k]? = some (refinedMapOf ph rows) := by
  induction phases with
  | nil => exact ⟨[], rfl, rfl, by simp⟩
  | cons ph l ih =>
    obtain ⟨xs, h1, h2, h3⟩ := ih fun x hx => h x (List.mem_cons_of_mem _ hx)
    obtain ⟨rows, hr⟩ := h ph (by simp)
    have hf : (rows.map some).filterMap (fun r => r) = rows := by
      rw [List.filterMap_map]
      exact List.filterMap_some
    have hn : (rows.map some).any Option.isNone = false := by simp
    refine ⟨refinedMapOf ph rows :: xs, ?_, by simp [h2], ?_⟩
    · rw [refinePhases, hr]
      simp only [hn, h1, hf, Bool.false_eq_true, if_false]
    · rintro (_ | k) ph' hph rows' hr'
      · simp only [List.getElem?_cons_zero, Option.some.injEq] at hph ⊢
        subst hph
        rw [hr, Except.ok.injEq] at hr'
        have := (List.map_injective_iff.2 (Option.some_injective RefineRow)) hr'
        rw [this]
      · exact h3 k ph' (by simpa using hph) rows' hr'

theorem scatterMask_place {α : Type*} (old : List α) (mask : List Bool) (vals : List α)
    (h : old.length = mask.length) (hl : vals.length = mask.count true) (i : ℕ)
    (hm : mask[i]? = some true) :
    (scatterMask old mask vals)[i]? = vals[(mask.take i).count true]? := by
  induction mask generalizing old vals i with
  | nil => simp at hm
  | cons m ms ih =>
    cases old with
    | nil => simp at h
    | cons o os =>
      simp only [List.length_cons, Nat.add_right_cancel_iff] at h
      cases i with
      | zero =>
        simp only [List.getElem?_cons_zero, Option.some.injEq] at hm
        subst hm
        cases vals with
        | nil => simp at hl
        | cons v vs => simp [scatterMask]
      | succ i =>
        have hm' : ms[i]? = some true := by simpa using hm
        cases m with
        | false =>
          simp only [List.count_cons, Bool.false_beq, Bool.not_true, Bool.false_eq_true, if_false,
            Nat.add_zero] at hl
          simp [scatterMask, ih os vals h (by simpa using hl) i hm']
        | true =>
          cases vals with
          | nil => simp at hl
          | cons v vs => simp [scatterMask, ih os vs h (by simpa using hl) i hm']

/-- All maps can be merged, and what they hold. -/
theorem refined_setup [DecidableEq D] {phases : List (PhaseRefinement D)} {nav : List ℕ}
    {patterns : List (List ℝ)} (hsame : SameRefined phases nav patterns)
    (g : ∀ ph ∈ phases, GoodRefinement ph) {masks : Option (List (Option NavMask))}
    (hmasks : MasksOfData phases masks)
    (hcov : ∀ i < nav.prod, ∃ ph ∈ phases, ph.inData[i]? = some true) :
    ∃ xmaps out, refinePhases phases = .ok xmaps ∧ mergeCrystalMaps xmaps 1 none masks = .ok out ∧
      mergeSize xmaps masks = nav.prod ∧ patterns.length = nav.prod ∧
      xmaps.length = phases.length ∧
      ∀ (k : ℕ) (ph : PhaseRefinement D), phases[k]? = some ph →
        ∃ x, xmaps[k]? = some x ∧ x.nRot = 1 ∧ x.name = ph.name ∧ x.phase = ph.phase ∧
          ∀ (i : ℕ) (p : List ℝ), patterns[i]? = some p →
            (ph.inData[i]? = some true → ∃ row, rowOf masks k i = some row) ∧
            ∀ row, rowOf masks k i = some row → ph.inData[i]? = some true ∧
              (masks = none → row = i) ∧
              ∃ pt, x.rots row = [pt.rot] ∧ x.scores row 0 = pt.score ∧
                meanScore x row 1 = pt.score ∧ x.phaseId row = pt.phaseId ∧
                (ph.args.points[i]? = some false → pt = notRefined) ∧
                (ph.args.points[i]? = some true → pt.phaseId = ph.id ∧ ∃ pc, ph.args.pcAt i = some pc ∧
                  pt.score ≤ 1 ∧ IsScore ph.args p pt.rot pc pt.score ∧
                  ∀ q, StartsWith ph i q → ∃ t, IsScore ph.args p q pc t ∧ t ≤ pt.score) := by
  obtain ⟨xmaps, hx, hxl, hxk⟩ := refinePhases_ok phases fun ph hph => by
    obtain ⟨rows, h, -⟩ := refine_one (g ph hph)
    exact ⟨rows, h⟩
  have hplen : patterns.length = nav.prod := by
    obtain ⟨ph, hph⟩ := List.exists_mem_of_ne_nil _ hsame.some_phase
    obtain ⟨u, l, hv, -⟩ := (g ph hph).valid
    have := hv.points
    rw [(g ph hph).size, hsame.nav ph hph, hsame.patterns ph hph] at this
    exact this.symm
  have hback : ∀ (k : ℕ) (x : XMap ℝ Quat D), xmaps[k]? = some x → ∃ ph, phases[k]? = some ph := by
    intro k x hk
    have := (List.getElem?_eq_some_iff.1 hk).1
    exact ⟨_, List.getElem?_eq_getElem (by rw [← hxl]; exact this)⟩
  have hsel : ∀ (ph : PhaseRefinement D) (rows : List RefineRow), ph ∈ phases →
      (refinedMapOf ph rows).size = ph.inData.count true := by
    intro ph rows hph
    have gg := g ph hph
    simp only [refinedMapOf, refinedPoints]
    rw [selectMask_length]
    rw [scatterMask_length _ _ _ (by simp), gg.inData]
  have hmapk : ∀ (k : ℕ) (x : XMap ℝ Quat D), xmaps[k]? = some x → ∃ ph rows,
      phases[k]? = some ph ∧ x = refinedMapOf ph rows := by
    intro k x hk
    obtain ⟨ph, hph⟩ := hback k x hk
    obtain ⟨rows, h, -⟩ := refine_one (g ph (List.mem_of_getElem? hph))
    refine ⟨ph, rows, hph, ?_⟩
    have := hxk k ph hph rows h
    rw [hk] at this
    exact Option.some.inj this
  have hne : xmaps ≠ [] := by
    intro e
    rw [e] at hxl
    exact hsame.some_phase (List.length_eq_zero_iff.1 hxl.symm)
  have hlen : ∀ ms, masks = some ms → ms.length = xmaps.length := by
    intro ms hms
    rcases hmasks with ⟨h, -⟩ | ⟨ms', h, hl, -⟩
    · rw [h] at hms; cases hms
    · rw [h] at hms
      cases hms
      rw [hl, hxl]
  have hcount : ∀ ph ∈ phases, (∀ i < ph.nav.prod, ph.inData[i]? = some true) →
      ph.inData.count true = rank (fun _ => true) nav.prod := by
    intro ph hph h
    have gg := g ph hph
    have e : ph.inData.length = ph.nav.prod := by rw [gg.inData, gg.size]
    have := all_true_take ph.inData _ _ h le_rfl
    rw [← e, List.take_length] at this
    rw [this, e, hsame.nav ph hph, rank, List.filter_eq_self.2 (by simp), List.length_range]
  have hshape : ∀ s ∈ mapShapes xmaps masks, s = nav := by
    intro s hs
    unfold mapShapes at hs
    rcases hmasks with ⟨rfl, -⟩ | ⟨ms, rfl, hl, h⟩
    · obtain ⟨x, hxm, rfl⟩ := List.mem_map.1 hs
      obtain ⟨k, hk⟩ := List.mem_iff_getElem?.1 hxm
      obtain ⟨ph, rows, hph, rfl⟩ := hmapk k x hk
      exact hsame.nav ph (List.mem_of_getElem? hph)
    · obtain ⟨⟨x, mk⟩, hz, rfl⟩ := List.mem_map.1 hs
      obtain ⟨k, hk⟩ := List.mem_iff_getElem?.1 hz
      rw [List.getElem?_zip_eq_some] at hk
      obtain ⟨ph, rows, hph, rfl⟩ := hmapk k x hk.1
      rcases h k ph mk hph hk.2 with h | ⟨h, -⟩
      · rw [h]; exact hsame.nav ph (List.mem_of_getElem? hph)
      · rw [h]; exact hsame.nav ph (List.mem_of_getElem? hph)
  have hsize : ∀ p ∈ masks1d xmaps masks,
      p.1.size = rank (p.2.getD (fun _ => true)) nav.prod := by
    intro p hp
    unfold masks1d at hp
    rcases hmasks with ⟨rfl, h⟩ | ⟨ms, rfl, hl, h⟩
    · obtain ⟨x, hxm, rfl⟩ := List.mem_map.1 hp
      obtain ⟨k, hk⟩ := List.mem_iff_getElem?.1 hxm
      obtain ⟨ph, rows, hph, rfl⟩ := hmapk k x hk
      have hmem := List.mem_of_getElem? hph
      exact (hsel ph rows hmem).trans (hcount ph hmem (h ph hmem))
    · obtain ⟨⟨x, mk⟩, hz, rfl⟩ := List.mem_map.1 hp
      obtain ⟨k, hk⟩ := List.mem_iff_getElem?.1 hz
      rw [List.getElem?_zip_eq_some] at hk
      obtain ⟨ph, rows, hph, rfl⟩ := hmapk k x hk.1
      have hmem := List.mem_of_getElem? hph
      have gg := g ph hmem
      refine (hsel ph rows hmem).trans ?_
      rcases h k ph mk hph hk.2 with h | ⟨h, h'⟩
      · rw [h]
        simp only [Option.getD_some, inDataMask]
        rw [← rank_mask, gg.inData, gg.size, hsame.nav ph hmem]
      · rw [h]
        exact hcount ph hmem h'
  have hrot : ∀ x ∈ xmaps, x.nRot = 1 := by
    intro x hxm
    obtain ⟨k, hk⟩ := List.mem_iff_getElem?.1 hxm
    obtain ⟨ph, rows, -, rfl⟩ := hmapk k x hk
    rfl
  have hrows : ∀ (k : ℕ) (ph : PhaseRefinement D) (rows : List RefineRow), phases[k]? = some ph →
      ∀ m < nav.prod, (∀ row, rowOf masks k m = some row → ph.inData[m]? = some true ∧
        (refinedPoints ph rows)[row]? = (scatterMask (List.replicate ph.args.points.length notRefined)
          ph.args.points (rows.map (refinedPoint ph.id)))[m]?) ∧
      (ph.inData[m]? = some true → ∃ row, rowOf masks k m = some row) := by
    intro k ph rows hph m hm
    have hmem := List.mem_of_getElem? hph
    have gg := g ph hmem
    exact data_rows hmasks hph
      (by rw [scatterMask_length _ _ _ (by simp), gg.inData])
      (by rw [hsame.nav ph hmem]; exact hm)
  obtain ⟨hms, out, hout⟩ := merge_succeeds (mnb := 1) (gib := none) hlen hne hshape hsize hrot
    (by omega) (by rw [mergeOne 1 Nat.one_pos]; exact Nat.one_pos) (fun m hm => by
      obtain ⟨ph, hph, hu⟩ := hcov m hm
      obtain ⟨k, hk⟩ := List.mem_iff_getElem?.1 hph
      exact ⟨k, by rw [hxl]; exact (List.getElem?_eq_some_iff.1 hk).1, (hrows k ph [] hk m hm).2 hu⟩)
  refine ⟨xmaps, out, hx, hout, hms, hplen, hxl, fun k ph hph => ?_⟩
  have hmem := List.mem_of_getElem? hph
  have gg := g ph hmem
  obtain ⟨u, l, hv, -⟩ := gg.valid
  obtain ⟨rows, h1, h2, h3⟩ := refine_one gg
  refine ⟨_, hxk k ph hph rows h1, rfl, rfl, rfl, fun i p hp => ?_⟩
  have hi : i < nav.prod := by rw [← hplen]; exact (List.getElem?_eq_some_iff.1 hp).1
  obtain ⟨r1, r2⟩ := hrows k ph rows hph i hi
  refine ⟨r2, fun row hrow => ?_⟩
  obtain ⟨hd, hpt⟩ := r1 row hrow
  have hil : i < ph.args.points.length := by rw [gg.size, hsame.nav ph hmem]; exact hi
  refine ⟨hd, fun e => ?_, ?_⟩
  · rw [e] at hrow
    simpa [rowOf, eq_comm] using hrow
  have key : ∀ pt, (refinedPoints ph rows)[row]? = some pt →
      (refinedMapOf ph rows).rots row = [pt.rot] ∧ (refinedMapOf ph rows).scores row 0 = pt.score ∧
      meanScore (refinedMapOf ph rows) row 1 = pt.score ∧
      (refinedMapOf ph rows).phaseId row = pt.phaseId := by
    intro pt h
    refine ⟨?_, ?_, ?_, ?_⟩
    · simp [refinedMapOf, h]
    · simp [refinedMapOf, h]
    · simp [meanScore, refinedMapOf, h]
    · simp [refinedMapOf, h]
  cases hb : ph.args.points[i]? with
  | none => exact absurd (List.getElem?_eq_none_iff.1 hb) (by omega)
  | some b =>
    cases b with
    | false =>
      rw [scatterMask_of_false _ _ _ (by simp) i hb, List.getElem?_replicate, if_pos hil] at hpt
      obtain ⟨k1, k2, k3, k4⟩ := key _ hpt
      exact ⟨_, k1, k2, k3, k4, fun _ => rfl, fun h => (by cases h)⟩
    | true =>
      obtain ⟨pc, hpc⟩ := pcAt_exists hv hil
      obtain ⟨r, hr, hle, hs, hst⟩ := h3 i p pc hb (by rw [hsame.patterns ph hmem]; exact hp) hpc
      have hval : (scatterMask (List.replicate ph.args.points.length notRefined)
          ph.args.points (rows.map (refinedPoint ph.id)))[i]? = some (refinedPoint ph.id r) := by
        rw [scatterMask_place _ _ _ (by simp) (by rw [List.length_map, h2]) i hb, List.getElem?_map]
        unfold RefineArgs.place at hr
        rw [hr]
        rfl
      rw [hval] at hpt
      obtain ⟨k1, k2, k3, k4⟩ := key _ hpt
      exact ⟨_, k1, k2, k3, k4, fun h => (by cases h), fun _ => ⟨rfl, pc, hpc, hle, hs, hst⟩⟩

theorem isScore_lt_one {a : RefineArgs} {u l : Img ℝ} (hv : a.Valid u l) {p : List ℝ}
    (hl : p.length = a.det.nrows * a.det.ncols) (hc : ShowsContrast (maskOf a) p) {q : Quat}
    {pc : PC ℝ} {s : ℝ} (h : IsScore a p q pc s) (hs : s ≤ 1) (hno : ¬ Explains a q pc p) : s < 1 :=
  lt_of_le_of_ne hs fun e => hno ((score_one_iff hv hl hc h).1 e)

/-- C133 (partial): the same patterns are refined with one master pattern per phase, and the refined
crystal maps are merged by their scores. This succeeds if every point is in the data of some map. In
every point, the merged score is at least the correlation of the pattern with the patterns simulated for
all orientations refinement of it started with, of all phases, and it is the correlation with the pattern
simulated with one of the phases for the rotation in the merged map, or it is the score 0 of a map where
the point is not indexed. -/
theorem C133_not_worse_partial [DecidableEq D] {phases : List (PhaseRefinement D)} {nav : List ℕ}
    {patterns : List (List ℝ)} (hsame : SameRefined phases nav patterns)
    (g : ∀ ph ∈ phases, GoodRefinement ph) {masks : Option (List (Option NavMask))}
    (hmasks : MasksOfData phases masks)
    (hcov : ∀ i < nav.prod, ∃ ph ∈ phases, ph.inData[i]? = some true) :
    ∃ xmaps out, refinePhases phases = .ok xmaps ∧ mergeCrystalMaps xmaps 1 none masks = .ok out ∧
      ∀ (i : ℕ) (p : List ℝ), patterns[i]? = some p →
        (∃ ph ∈ phases, ph.args.points[i]? = some true) →
        ∃ (q : Quat) (s : ℝ), out.rots i = [q] ∧ out.scores i = [s] ∧ s ≤ 1 ∧
          ((∃ ph ∈ phases, ph.args.points[i]? = some true ∧ ∃ pc, ph.args.pcAt i = some pc ∧
              IsScore ph.args p q pc s) ∨
            (∃ ph ∈ phases, ph.inData[i]? = some true ∧ ph.args.points[i]? = some false) ∧ s = 0) ∧
          ∀ ph ∈ phases, ∀ q' pc, StartsWith ph i q' → ph.args.pcAt i = some pc →
            ∃ t, IsScore ph.args p q' pc t ∧ t ≤ s := by
  obtain ⟨xmaps, out, hx, hout, hms, hpl, hxl, hph⟩ := refined_setup hsame g hmasks hcov
  refine ⟨xmaps, out, hx, hout, fun i p hp hex => ?_⟩
  have hi : i < mergeSize xmaps masks := by
    rw [hms, ← hpl]; exact (List.getElem?_eq_some_iff.1 hp).1
  obtain ⟨N, hN, -, k0, row, x, hx0, hrow, hbest, hdata⟩ := C25_best_map_partial hout hi
  have hk0 : k0 < phases.length := by rw [← hxl]; exact (List.getElem?_eq_some_iff.1 hx0).1
  have hph0 := List.getElem?_eq_getElem hk0
  obtain ⟨x1, hx1, hr1, -, -, hf⟩ := hph k0 _ hph0
  rw [hx0] at hx1
  cases hx1
  obtain rfl : N = 1 := (hN x (List.mem_of_getElem? hx0)).symm.trans hr1
  rw [mergeOne _ Nat.one_pos] at hbest
  obtain ⟨hd, hri, pt, e1, e2, e3, e4, hnot, hyes⟩ := (hf i p hp).2 row hrow
  have hmem0 := List.mem_of_getElem? hph0
  -- some map is indexed there
  rcases hdata with ⟨⟨hmn, hall⟩, -⟩ | ⟨-, hr, hs, -⟩
  · exfalso
    obtain ⟨ph, hphm, hpt⟩ := hex
    obtain ⟨k, hk⟩ := List.mem_iff_getElem?.1 hphm
    obtain ⟨x2, hx2, -, -, -, hf2⟩ := hph k ph hk
    obtain ⟨row2, hrow2⟩ := (hf2 i p hp).1 ((g ph hphm).refined i hpt)
    obtain ⟨-, hri2, pt2, -, -, -, e42, -, hyes2⟩ := (hf2 i p hp).2 row2 hrow2
    have h1 := hall x2 (List.mem_of_getElem? hx2)
    rw [← hri2 hmn, e42, (hyes2 hpt).1] at h1
    have := (g ph hphm).indexed
    omega
  · have hsc : out.scores i = [pt.score] := by rw [hs]; simp [e2]
    have hcase : (phases[k0].args.points[i]? = some true ∨ phases[k0].args.points[i]? = some false) := by
      have gg := g _ hmem0
      have hil : i < phases[k0].args.points.length := by
        rw [gg.size, hsame.nav _ hmem0, ← hpl]; exact (List.getElem?_eq_some_iff.1 hp).1
      rw [List.getElem?_eq_getElem hil]
      cases phases[k0].args.points[i] <;> simp
    refine ⟨pt.rot, pt.score, by rw [hr, e1], hsc, ?_, ?_, ?_⟩
    · rcases hcase with h | h
      · obtain ⟨-, pc, -, h1, -⟩ := hyes h
        exact h1
      · rw [hnot h]
        exact zero_le_one
    · rcases hcase with h | h
      · obtain ⟨-, pc, hpc, -, h1, -⟩ := hyes h
        exact .inl ⟨_, hmem0, h, pc, hpc, h1⟩
      · exact .inr ⟨⟨_, hmem0, hd, h⟩, by rw [hnot h]; rfl⟩
    · intro ph hphm q' pc hst hpc
      obtain ⟨k, hk⟩ := List.mem_iff_getElem?.1 hphm
      obtain ⟨x2, hx2, -, -, -, hf2⟩ := hph k ph hk
      obtain ⟨row2, hrow2⟩ := (hf2 i p hp).1 ((g ph hphm).refined i hst.1)
      obtain ⟨-, -, pt2, -, -, e32, -, -, hyes2⟩ := (hf2 i p hp).2 row2 hrow2
      obtain ⟨-, pc2, hpc2, -, -, hst2⟩ := hyes2 hst.1
      rw [hpc] at hpc2
      cases hpc2
      obtain ⟨t, ht, hle⟩ := hst2 q' hst
      have hb := (hbest k row2 x2 hx2 hrow2).1
      simp only [AsGood, Option.getD_none, zero_le_one, decide_true, if_true] at hb
      rw [e3, e32] at hb
      exact ⟨t, ht, hle.trans hb⟩

/-- The only phase which explains a pattern has the strictly best score. -/
theorem refined_strict [DecidableEq D] {phases : List (PhaseRefinement D)} {nav : List ℕ}
    {patterns : List (List ℝ)} (hsame : SameRefined phases nav patterns)
    (g : ∀ ph ∈ phases, GoodRefinement ph) {masks : Option (List (Option NavMask))}
    {xmaps : List (XMap ℝ Quat D)} (hxl : xmaps.length = phases.length)
    (hpl : patterns.length = nav.prod)
    (hph : ∀ (k : ℕ) (ph : PhaseRefinement D), phases[k]? = some ph →
        ∃ x, xmaps[k]? = some x ∧ x.nRot = 1 ∧ x.name = ph.name ∧ x.phase = ph.phase ∧
          ∀ (i : ℕ) (p : List ℝ), patterns[i]? = some p →
            (ph.inData[i]? = some true → ∃ row, rowOf masks k i = some row) ∧
            ∀ row, rowOf masks k i = some row → ph.inData[i]? = some true ∧
              (masks = none → row = i) ∧
              ∃ pt, x.rots row = [pt.rot] ∧ x.scores row 0 = pt.score ∧
                meanScore x row 1 = pt.score ∧ x.phaseId row = pt.phaseId ∧
                (ph.args.points[i]? = some false → pt = notRefined) ∧
                (ph.args.points[i]? = some true → pt.phaseId = ph.id ∧ ∃ pc, ph.args.pcAt i = some pc ∧
                  pt.score ≤ 1 ∧ IsScore ph.args p pt.rot pc pt.score ∧
                  ∀ q, StartsWith ph i q → ∃ t, IsScore ph.args p q pc t ∧ t ≤ pt.score))
    {i k : ℕ} {p : List ℝ} (hp : patterns[i]? = some p) (hon : ExplainedOnlyBy phases i k p)
    (hlc : ∀ ph ∈ phases, p.length = ph.args.det.nrows * ph.args.det.ncols ∧
      ShowsContrast (maskOf ph.args) p) :
    ∃ ph x row q pc, phases[k]? = some ph ∧ xmaps[k]? = some x ∧ rowOf masks k i = some row ∧
      ph.args.pcAt i = some pc ∧ Explains ph.args q pc p ∧ x.rots row = [q] ∧ x.scores row 0 = 1 ∧
      meanScore x row 1 = 1 ∧ x.phaseId row = ph.id ∧ (masks = none → row = i) ∧
      ∀ k' x' row', k' ≠ k → xmaps[k']? = some x' → rowOf masks k' i = some row' →
        meanScore x' row' 1 < 1 := by
  obtain ⟨⟨ph, q0, pc, hk, hst, hpc, hexp⟩, hothers⟩ := hon
  have hmem := List.mem_of_getElem? hk
  obtain ⟨u, l, hv, -⟩ := (g ph hmem).valid
  obtain ⟨x, hx, -, -, -, hf⟩ := hph k ph hk
  obtain ⟨row, hrow⟩ := (hf i p hp).1 ((g ph hmem).refined i hst.1)
  obtain ⟨hd, hri, pt, e1, e2, e3, e4, -, hyes⟩ := (hf i p hp).2 row hrow
  obtain ⟨hid, pc', hpc', hle, hsc, hsts⟩ := hyes hst.1
  rw [hpc] at hpc'
  cases hpc'
  obtain ⟨t, ht, htle⟩ := hsts q0 hst
  rw [(score_one_iff hv (hlc ph hmem).1 (hlc ph hmem).2 ht).2 hexp] at htle
  have hone : pt.score = 1 := le_antisymm hle htle
  refine ⟨ph, x, row, pt.rot, pc, hk, hx, hrow, hpc,
    (score_one_iff hv (hlc ph hmem).1 (hlc ph hmem).2 hsc).1 hone, e1, by rw [e2, hone],
    by rw [e3, hone], by rw [e4, hid], hri, fun k' x' row' hne hx' hrow' => ?_⟩
  have hk' : k' < phases.length := by rw [← hxl]; exact (List.getElem?_eq_some_iff.1 hx').1
  have hph' := List.getElem?_eq_getElem hk'
  have hmem' := List.mem_of_getElem? hph'
  obtain ⟨u', l', hv', -⟩ := (g _ hmem').valid
  obtain ⟨x2, hx2, -, -, -, hf2⟩ := hph k' _ hph'
  rw [hx'] at hx2
  cases hx2
  obtain ⟨-, -, pt2, -, -, e32, -, hnot2, hyes2⟩ := (hf2 i p hp).2 row' hrow'
  rw [e32]
  have hil : i < phases[k'].args.points.length := by
    rw [(g _ hmem').size, hsame.nav _ hmem', ← hpl]; exact (List.getElem?_eq_some_iff.1 hp).1
  cases hb : phases[k'].args.points[i] with
  | false =>
    rw [hnot2 (by rw [List.getElem?_eq_getElem hil, hb])]
    exact zero_lt_one
  | true =>
    have hb : phases[k'].args.points[i]? = some true := by rw [List.getElem?_eq_getElem hil, hb]
    obtain ⟨-, pc2, hpc2, hle2, hsc2, -⟩ := hyes2 hb
    exact isScore_lt_one hv' (hlc _ hmem').1 (hlc _ hmem').2 hsc2 hle2
      (hothers k' _ pc2 _ hne hph' hb hpc2)

/-- C133 (partial): in every point where one of the orientations refinement started with explains the
pattern for exactly one phase, and no orientation of the other phases does, the merged map has score 1
and a rotation which, with that phase, explains the pattern, whatever the order of the phases, the
division into chunks, and also if some maps are not indexed or have no data in the point. -/
theorem C133_match_partial [DecidableEq D] {phases : List (PhaseRefinement D)} {nav : List ℕ}
    {patterns : List (List ℝ)} (hsame : SameRefined phases nav patterns)
    (g : ∀ ph ∈ phases, GoodRefinement ph) {masks : Option (List (Option NavMask))}
    (hmasks : MasksOfData phases masks)
    (hcov : ∀ i < nav.prod, ∃ ph ∈ phases, ph.inData[i]? = some true) :
    ∃ xmaps out, refinePhases phases = .ok xmaps ∧ mergeCrystalMaps xmaps 1 none masks = .ok out ∧
      ∀ (i k : ℕ) (p : List ℝ), patterns[i]? = some p → ExplainedOnlyBy phases i k p →
        (∀ ph ∈ phases, p.length = ph.args.det.nrows * ph.args.det.ncols ∧
          ShowsContrast (maskOf ph.args) p) →
        ∃ ph q pc, phases[k]? = some ph ∧ ph.args.pcAt i = some pc ∧ Explains ph.args q pc p ∧
          out.rots i = [q] ∧ out.scores i = [1] := by
  obtain ⟨xmaps, out, hx, hout, hms, hpl, hxl, hph⟩ := refined_setup hsame g hmasks hcov
  refine ⟨xmaps, out, hx, hout, fun i k p hp hon hlc => ?_⟩
  obtain ⟨ph, x, row, q, pc, hk, hxk, hrow, hpc, hexp, hrot, hsc, hmean, hid, hri, hst⟩ :=
    refined_strict hsame g hxl hpl hph hp hon hlc
  have hi : i < mergeSize xmaps masks := by
    rw [hms, ← hpl]; exact (List.getElem?_eq_some_iff.1 hp).1
  obtain ⟨N, hN, -, k0, row0, x0, hx0, hrow0, hbest, hdata⟩ := C25_best_map_partial hout hi
  obtain ⟨x1, hx1, hr1, -⟩ := hph k ph hk
  obtain rfl : N = 1 := (hN x1 (List.mem_of_getElem? hx1)).symm.trans hr1
  rw [mergeOne _ Nat.one_pos] at hbest
  have hk0 : k0 = k := by
    by_contra hne
    have h1 := hst k0 x0 row0 hne hx0 hrow0
    have hb := (hbest k row x hxk hrow).1
    simp only [AsGood, Option.getD_none, zero_le_one, decide_true, if_true] at hb
    linarith
  subst hk0
  rw [hx0] at hxk
  cases hxk
  rw [hrow0] at hrow
  cases hrow
  rcases hdata with ⟨⟨hmn, hall⟩, -⟩ | ⟨-, hr, hs, -⟩
  · have h1 := hall x (List.mem_of_getElem? hx0)
    rw [← hri hmn, hid] at h1
    have := (g ph (List.mem_of_getElem? hk)).indexed
    omega
  · exact ⟨ph, q, pc, hk, hpc, hexp, by rw [hr, hrot], by rw [hs]; simp [hsc]⟩

/-- C133 (partial), the phase: if no two master patterns are of the same phase, and each of them is the
only one to explain some pattern, then in every point where exactly one phase explains the pattern the
merged map has this phase. Missing (and false, see `C25_identical_phases`): phases which are nowhere
best. -/
theorem C133_phase_partial [DecidableEq D] {phases : List (PhaseRefinement D)} {nav : List ℕ}
    {patterns : List (List ℝ)} (hsame : SameRefined phases nav patterns)
    (g : ∀ ph ∈ phases, GoodRefinement ph) {masks : Option (List (Option NavMask))}
    (hmasks : MasksOfData phases masks)
    (hcov : ∀ i < nav.prod, ∃ ph ∈ phases, ph.inData[i]? = some true)
    (hdiff : ∀ (i j : ℕ) (a b : PhaseRefinement D), i < j → phases[i]? = some a →
      phases[j]? = some b → a.phase = b.phase → b.name ≠ a.name ∧ b.name ≠ a.name ++ toString i)
    (hlc : ∀ p ∈ patterns, ∀ ph ∈ phases, p.length = ph.args.det.nrows * ph.args.det.ncols ∧
      ShowsContrast (maskOf ph.args) p)
    (hfound : ∀ k < phases.length, ∃ (i : ℕ) (p : List ℝ), patterns[i]? = some p ∧
      ExplainedOnlyBy phases i k p) :
    ∃ xmaps out, refinePhases phases = .ok xmaps ∧ mergeCrystalMaps xmaps 1 none masks = .ok out ∧
      (out.phases.map (·.1)).Nodup ∧
      ∀ (i k : ℕ) (p : List ℝ) (ph : PhaseRefinement D), patterns[i]? = some p →
        phases[k]? = some ph → ExplainedOnlyBy phases i k p →
        out.phaseId i = k ∧ (((k : ℤ), ph.name, some ph.phase) ∈ out.phases ∨
          ((k : ℤ), ph.name ++ toString k, some ph.phase) ∈ out.phases) := by
  obtain ⟨xmaps, out, hx, hout, hms, hpl, hxl, hph⟩ := refined_setup hsame g hmasks hcov
  have hback : ∀ (k : ℕ) (x : XMap ℝ Quat D), xmaps[k]? = some x → ∃ ph, phases[k]? = some ph := by
    intro k x hk
    have := (List.getElem?_eq_some_iff.1 hk).1
    exact ⟨_, List.getElem?_eq_getElem (by rw [← hxl]; exact this)⟩
  have hnot : ∀ (i k : ℕ) (p : List ℝ), patterns[i]? = some p → ExplainedOnlyBy phases i k p →
      ¬ (masks = none ∧ ∀ x' ∈ xmaps, x'.phaseId i = -1) := by
    rintro i k p hp hon ⟨hmn, hall⟩
    obtain ⟨ph, x, row, q, pc, hk, hxk, -, -, -, -, -, -, hid, hri, -⟩ :=
      refined_strict hsame g hxl hpl hph hp hon (hlc p (List.mem_of_getElem? hp))
    have h1 := hall x (List.mem_of_getElem? hxk)
    rw [← hri hmn, hid] at h1
    have := (g ph (List.mem_of_getElem? hk)).indexed
    omega
  obtain ⟨hnd, hpts⟩ := C25_phases_partial hout
    (fun i j xi xj hij hi hj he => by
      obtain ⟨a, ha⟩ := hback i xi hi
      obtain ⟨b, hb⟩ := hback j xj hj
      obtain ⟨x1, hx1, -, hn1, hp1, -⟩ := hph i a ha
      obtain ⟨x2, hx2, -, hn2, hp2, -⟩ := hph j b hb
      rw [hi] at hx1
      rw [hj] at hx2
      cases hx1
      cases hx2
      rw [hn1, hn2]
      exact hdiff i j a b hij ha hb (by rw [← hp1, ← hp2]; exact he))
    (fun k x hxk => by
      have hk : k < phases.length := by
        rw [← hxl]; exact (List.getElem?_eq_some_iff.1 hxk).1
      obtain ⟨i, p, hp, hon⟩ := hfound k hk
      obtain ⟨ph, x1, row, q, pc, hk1, hx1, hrow, -, -, -, -, hmean, -, -, hst⟩ :=
        refined_strict hsame g hxl hpl hph hp hon (hlc p (List.mem_of_getElem? hp))
      rw [hxk] at hx1
      cases hx1
      obtain ⟨x2, hx2, hr1, -⟩ := hph k ph hk1
      rw [hxk] at hx2
      cases hx2
      refine ⟨i, row, by rw [hms, ← hpl]; exact (List.getElem?_eq_some_iff.1 hp).1, hrow,
        hnot i k p hp hon, fun k' x' row' hne hxk' hrow' => ?_⟩
      rw [hr1, mergeOne _ Nat.one_pos]
      have := hst k' x' row' hne hxk' hrow'
      simp only [AsGood, Option.getD_none, zero_le_one, decide_true, if_true, not_le]
      rw [hmean]
      exact this)
  refine ⟨xmaps, out, hx, hout, hnd, fun i k p ph hp hk hon => ?_⟩
  rcases hpts i (by rw [hms, ← hpl]; exact (List.getElem?_eq_some_iff.1 hp).1) with
    ⟨h, -⟩ | ⟨N', hN', k0, row0, x0, hx0, hrow0, hid, hmem, hbest⟩
  · exact absurd h (hnot i k p hp hon)
  · obtain ⟨ph1, x, row, q, pc, hk1, hxk, hrow, -, -, -, -, hmean, -, -, hst⟩ :=
      refined_strict hsame g hxl hpl hph hp hon (hlc p (List.mem_of_getElem? hp))
    obtain ⟨x1, hx1, hr1, hn1, hp1, -⟩ := hph k ph hk
    obtain rfl : N' = 1 := (hN' x1 (List.mem_of_getElem? hx1)).symm.trans hr1
    rw [hxk] at hx1
    cases hx1
    have hk0 : k0 = k := by
      by_contra hne
      have h1 := hst k0 x0 row0 hne hx0 hrow0
      have h2 := hbest k row x hxk hrow
      rw [mergeOne _ Nat.one_pos, hmean] at h2
      simp only [AsGood, Option.getD_none, zero_le_one, decide_true, if_true] at h2
      linarith
    subst hk0
    rw [hx0] at hxk
    cases hxk
    rw [← hn1, ← hp1]
    exact ⟨hid, hmem⟩

/-! Examples: three patterns of two pixels, the second one inverted. -/

/-- Refinement of some of the three patterns. -/
def trioArgs (points : List Bool) : RefineArgs :=
  { floatArgs with patterns := [[0, 1], [1, 0], [0, 1]], points := points
                   chunks := [points.count true] }

/-- The starting orientations are all the identity. -/
def trioPhase (a : RefineArgs) (name : String) (phase : ℕ) : PhaseRefinement ℕ where
  args := a
  starts := List.replicate (a.points.count true) [[0, 0, 0]]
  lower := List.replicate (a.points.count true) [[0, 0, 0]]
  upper := List.replicate (a.points.count true) [[0, 0, 0]]
  nav := [3]
  inData := [true, true, true]
  id := 0
  name := name
  phase := phase

theorem trio_good (b : RefineArgs) (name : String) (phase : ℕ) {u l : Img ℝ} (hv : b.Valid u l)
    (hs : SameScale b.mp u l) (hl : b.points.length = 3) (hn : b.nPs = 0)
    (hd : DescendingOptimizer b.solver.opt) (hm : b.solver.method = floatArgs.solver.method) :
    GoodRefinement (trioPhase b name phase) where
  valid := ⟨u, l, hv, hs⟩
  starts := by simp [trioPhase]
  lower := by simp [trioPhase]
  upper := by simp [trioPhase]
  operators := by
    intro x h
    simp only [trioPhase, List.mem_replicate, or_self] at h
    simp [h.2, trioPhase, hn]
  descends := hd
  method := by
    intro x0
    show startGiven b.solver.method x0 = _
    rw [hm]
    rfl
  size := by simp [trioPhase, hl]
  inData := by simp [trioPhase, hl]
  refined := by
    intro i hi
    have := (List.getElem?_eq_some_iff.1 hi).1
    simp only [trioPhase] at this ⊢
    rw [hl] at this
    match i with
    | 0 | 1 | 2 => rfl
    | i + 3 => omega
  indexed := le_rfl

theorem trioArgs_valid {points : List Bool} (h : points.length = 3) : (trioArgs points).Valid
    ⟨3, 3, fun r c => if r = 1 ∧ c = 1 then 0 else 10⟩
    ⟨3, 3, fun r c => if r = 1 ∧ c = 1 then 0 else 20⟩ := by
  refine ⟨rfl, rfl, by simpa [trioArgs] using h, ?_, rfl, .inl rfl, by simp [trioArgs], fun f s b => rfl⟩
  intro m h
  simp [trioArgs, floatArgs, brightLowerArgs] at h

theorem trioPhase_good {points : List Bool} (h : points.length = 3) (name : String) (phase : ℕ) :
    GoodRefinement (trioPhase (trioArgs points) name phase) :=
  trio_good _ _ _ (trioArgs_valid h) (.inl rfl) h rfl (fun _ _ _ => le_rfl) rfl

/-- What is simulated with the identity. -/
theorem trio_simulated (points : List Bool) (h : points.length = 3) : ∃ x y : ℝ, x < y ∧
    IsSimulated (trioArgs points) (rotationFromEuler 0 0 0) ⟨1 / 4, 1 / 2, 4 / 3⟩ [x, y] := by
  have hv := trioArgs_valid h
  have hs := sqrt_two_fifths
  refine ⟨10, 20 * Real.sqrt (2 / 5), by linarith [hs.1], ?_⟩
  unfold IsSimulated
  rw [getPatterns_single (trioArgs points) hv.suitable hv.arrays]
  have hd : (trioArgs points).det.nrows * (trioArgs points).det.ncols = 2 := rfl
  have hdt : decide (DType.float 32 ≠ (trioArgs points).mp.dtype) = false := rfl
  have hdet : (trioArgs points).det = brightLowerArgs.det := rfl
  have hm : (trioArgs points).m = brightLowerArgs.m := rfl
  rw [hd, hdt, hdet, hm, brightLower_dcs, projectPattern_plain]
  have := project_example 10 20 id id
  have e : (((3 : ℕ) : ℝ) - 1) / 2 = 1 := by norm_num
  simp only [id, zero_mul, zero_add] at this
  simp only [e]
  have c3 : (((3 : ℕ) : ℤ)) = 3 := rfl
  rw [c3, this]

theorem trio_explains (points : List Bool) (h : points.length = 3) :
    Explains (trioArgs points) (rotationFromEuler 0 0 0) ⟨1 / 4, 1 / 2, 4 / 3⟩ [0, 1] := by
  obtain ⟨x, y, hxy, hsim⟩ := trio_simulated points h
  have : 0 < y - x := by linarith
  refine ⟨_, hsim, 1 / (y - x), -x / (y - x), by positivity, fun k a b _ ha hb => ?_⟩
  match k with
  | 0 =>
    simp at ha hb
    subst ha hb
    field_simp
    ring
  | 1 =>
    simp at ha hb
    subst ha hb
    field_simp
    ring
  | k + 2 => simp at ha

/-- A master pattern without any contrast. -/
def flatArgs : RefineArgs :=
  { trioArgs [true, true, true] with
    mp := { brightLower with dtype := .float 32
                             arrays := [(20, ⟨3, 3, fun _ _ => 5⟩, ⟨3, 3, fun _ _ => 5⟩)] } }

theorem flat_valid : flatArgs.Valid ⟨3, 3, fun _ _ => 5⟩ ⟨3, 3, fun _ _ => 5⟩ := by
  refine ⟨rfl, rfl, rfl, ?_, rfl, .inl rfl, rfl, fun f s b => rfl⟩
  intro m h
  simp [flatArgs, trioArgs, floatArgs, brightLowerArgs] at h

theorem flat_explains (q : Quat) (pc : PC ℝ) : ¬ Explains flatArgs q pc [0, 1] := by
  rintro ⟨sim, hsim, gain, offset, hg, h⟩
  unfold IsSimulated at hsim
  rw [getPatterns_single flatArgs flat_valid.suitable flat_valid.arrays] at hsim
  have hdt : decide (DType.float 32 ≠ flatArgs.mp.dtype) = false := rfl
  have hd : flatArgs.det.nrows * flatArgs.det.ncols = 2 := rfl
  rw [hdt, hd, projectPattern_plain] at hsim
  have hpix : ∀ dc, projectPixel q ⟨3, 3, fun _ _ => 5⟩ ⟨3, 3, fun _ _ => 5⟩ 3 3 1 dc = 5 := by
    intro dc
    unfold projectPixel
    simp only [masterPixel, lambertInterp, interpAt]
    split <;> ring
  have e : (((3 : ℕ) : ℝ) - 1) / 2 = 1 := by norm_num
  have c3 : (((3 : ℕ) : ℤ)) = 3 := rfl
  simp only [e, c3, Except.ok.injEq, Prod.mk.injEq, true_and, List.cons.injEq, Option.some.injEq,
    and_true] at hsim
  have hlen : sim.length = 2 := by
    obtain ⟨s, hs, hl⟩ := simulated_exists flat_valid q pc
    have := IsSimulated.unique hs (show IsSimulated flatArgs q pc sim from ?_)
    · rw [← this]; exact hl
    · unfold IsSimulated
      rw [getPatterns_single flatArgs flat_valid.suitable flat_valid.arrays, hdt, hd,
        projectPattern_plain]
      simp only [e, c3, hsim]
  have hall : ∀ x ∈ sim, x = 5 := by
    intro x hx
    rw [← hsim] at hx
    obtain ⟨dc, -, rfl⟩ := List.mem_map.1 hx
    exact hpix dc
  have e0 := List.getElem?_eq_getElem (l := sim) (i := 0) (by omega)
  have e1 := List.getElem?_eq_getElem (l := sim) (i := 1) (by omega)
  have u : ∀ k, Used (maskOf flatArgs) k := fun k m hm => by
    simp [maskOf, flatArgs, trioArgs, floatArgs, brightLowerArgs] at hm
  have h0 := h 0 _ _ (u 0) e0 rfl
  have h1 := h 1 _ _ (u 1) e1 rfl
  rw [hall _ (List.getElem_mem _)] at h0 h1
  linarith

/-- Two phases, all patterns refined with both. -/
def flatAndBright : List (PhaseRefinement ℕ) :=
  [trioPhase flatArgs "flat" 0, trioPhase (trioArgs [true, true, true]) "bright" 1]

/-- A case of `C133_match_partial` and `C133_not_worse_partial`: the first pattern is explained by the
second phase only. -/
example : SameRefined flatAndBright [3] [[0, 1], [1, 0], [0, 1]] ∧
    (∀ ph ∈ flatAndBright, GoodRefinement ph) ∧ MasksOfData flatAndBright none ∧
    (∀ i < [3].prod, ∃ ph ∈ flatAndBright, ph.inData[i]? = some true) ∧
    ExplainedOnlyBy flatAndBright 0 1 [0, 1] ∧
    ∀ ph ∈ flatAndBright, ([0, 1] : List ℝ).length = ph.args.det.nrows * ph.args.det.ncols ∧
      ShowsContrast (maskOf ph.args) [0, 1] := by
  have hin : ∀ ph ∈ flatAndBright, ∀ i < [3].prod, ph.inData[i]? = some true := by
    intro ph hph i hi
    simp only [flatAndBright, List.mem_cons, List.not_mem_nil, or_false] at hph
    rcases hph with rfl | rfl <;>
    · simp only [List.prod_cons, List.prod_nil, mul_one] at hi
      match i with
      | 0 | 1 | 2 => rfl
      | i + 3 => omega
  refine ⟨⟨by simp [flatAndBright], ?_, ?_⟩, ?_, .inl ⟨rfl, ?_⟩, fun i hi =>
    ⟨flatAndBright[0], List.getElem_mem _, hin _ (List.getElem_mem _) i hi⟩,
    ⟨⟨_, rotationFromEuler 0 0 0, ⟨1 / 4, 1 / 2, 4 / 3⟩, rfl, ⟨rfl, [0, 0, 0], by
      simp [trioPhase, trioArgs, RefineArgs.place], by simp⟩, rfl,
      trio_explains _ rfl⟩, ?_⟩, ?_⟩
  · intro ph hph
    simp only [flatAndBright, List.mem_cons, List.not_mem_nil, or_false] at hph
    rcases hph with rfl | rfl <;> rfl
  · intro ph hph
    simp only [flatAndBright, List.mem_cons, List.not_mem_nil, or_false] at hph
    rcases hph with rfl | rfl <;> rfl
  · intro ph hph
    simp only [flatAndBright, List.mem_cons, List.not_mem_nil, or_false] at hph
    rcases hph with rfl | rfl
    · exact trio_good _ _ _ flat_valid (.inl rfl) rfl rfl (fun _ _ _ => le_rfl) rfl
    · exact trioPhase_good rfl _ _
  · intro ph hph i hi
    refine hin ph hph i ?_
    simp only [flatAndBright, List.mem_cons, List.not_mem_nil, or_false] at hph
    rcases hph with rfl | rfl <;> exact hi
  · rintro (_ | _ | k') ph' pc q hne hk' - -
    · simp only [flatAndBright, List.getElem?_cons_zero, Option.some.injEq] at hk'
      subst hk'
      exact flat_explains q pc
    · exact absurd rfl hne
    · simp [flatAndBright] at hk'
  · intro ph hph
    simp only [flatAndBright, List.mem_cons, List.not_mem_nil, or_false] at hph
    rcases hph with rfl | rfl <;> exact ⟨rfl, twoPixels_contrast⟩

/-- Two phases, each indexed in other points. -/
def indexedApart : List (PhaseRefinement ℕ) :=
  [trioPhase (trioArgs [true, false, false]) "a" 0, trioPhase (trioArgs [false, true, true]) "b" 1]

theorem apart_same : SameRefined indexedApart [3] [[0, 1], [1, 0], [0, 1]] ∧
    (∀ ph ∈ indexedApart, GoodRefinement ph) ∧ MasksOfData indexedApart none ∧
    (∀ i < [3].prod, ∃ ph ∈ indexedApart, ph.inData[i]? = some true) := by
  have hin : ∀ ph ∈ indexedApart, ∀ i < [3].prod, ph.inData[i]? = some true := by
    intro ph hph i hi
    simp only [indexedApart, List.mem_cons, List.not_mem_nil, or_false] at hph
    rcases hph with rfl | rfl <;>
    · simp only [List.prod_cons, List.prod_nil, mul_one] at hi
      match i with
      | 0 | 1 | 2 => rfl
      | i + 3 => omega
  refine ⟨⟨by simp [indexedApart], ?_, ?_⟩, ?_, .inl ⟨rfl, ?_⟩, fun i hi =>
    ⟨indexedApart[0], List.getElem_mem _, hin _ (List.getElem_mem _) i hi⟩⟩
  · intro ph hph
    simp only [indexedApart, List.mem_cons, List.not_mem_nil, or_false] at hph
    rcases hph with rfl | rfl <;> rfl
  · intro ph hph
    simp only [indexedApart, List.mem_cons, List.not_mem_nil, or_false] at hph
    rcases hph with rfl | rfl <;> rfl
  · intro ph hph
    simp only [indexedApart, List.mem_cons, List.not_mem_nil, or_false] at hph
    rcases hph with rfl | rfl
    · exact trioPhase_good rfl _ _
    · exact trioPhase_good rfl _ _
  · intro ph hph i hi
    refine hin ph hph i ?_
    simp only [indexedApart, List.mem_cons, List.not_mem_nil, or_false] at hph
    rcases hph with rfl | rfl <;> exact hi

theorem apart_only : ExplainedOnlyBy indexedApart 0 0 [0, 1] ∧ ExplainedOnlyBy indexedApart 2 1 [0, 1] := by
  refine ⟨⟨⟨_, rotationFromEuler 0 0 0, ⟨1 / 4, 1 / 2, 4 / 3⟩, rfl, ⟨rfl, [0, 0, 0], by
      simp [trioPhase, trioArgs, RefineArgs.place], by simp⟩, rfl,
      trio_explains _ rfl⟩, ?_⟩, ⟨⟨_, rotationFromEuler 0 0 0, ⟨1 / 4, 1 / 2, 4 / 3⟩, rfl,
      ⟨rfl, [0, 0, 0], by simp [trioPhase, trioArgs, RefineArgs.place], by simp⟩, rfl,
      trio_explains _ rfl⟩, ?_⟩⟩
  · rintro (_ | _ | k') ph' pc q hne hk' hp -
    · exact absurd rfl hne
    · simp only [indexedApart, List.getElem?_cons_succ, List.getElem?_cons_zero,
        Option.some.injEq] at hk'
      subst hk'
      simp [trioPhase, trioArgs] at hp
    · simp [indexedApart] at hk'
  · rintro (_ | _ | k') ph' pc q hne hk' hp -
    · simp only [indexedApart, List.getElem?_cons_zero, Option.some.injEq] at hk'
      subst hk'
      simp [trioPhase, trioArgs] at hp
    · exact absurd rfl hne
    · simp [indexedApart] at hk'

/-- A case of `C133_phase_partial`. -/
example : (∀ (i j : ℕ) (a b : PhaseRefinement ℕ), i < j → indexedApart[i]? = some a →
      indexedApart[j]? = some b → a.phase = b.phase → b.name ≠ a.name ∧ b.name ≠ a.name ++ toString i) ∧
    (∀ p ∈ [[0, 1], [1, 0], [0, 1]], ∀ ph ∈ indexedApart,
      p.length = ph.args.det.nrows * ph.args.det.ncols ∧ ShowsContrast (maskOf ph.args) p) ∧
    ∀ k < indexedApart.length, ∃ (i : ℕ) (p : List ℝ), [[0, 1], [1, 0], [0, 1]][i]? = some p ∧
      ExplainedOnlyBy indexedApart i k p := by
  refine ⟨?_, ?_, ?_⟩
  · rintro (_ | _ | i) (_ | _ | j) a b hij ha hb he
    any_goals omega
    · simp [indexedApart] at ha hb
      subst ha hb
      simp [trioPhase] at he
    · simp [indexedApart] at hb
    · simp [indexedApart] at hb
    · simp [indexedApart] at hb
  · intro p hp ph hph
    have hc : ∀ x y : ℝ, x ≠ y → ShowsContrast none [x, y] := fun x y h =>
      ⟨0, 1, x, y, by simp [Used], by simp [Used], rfl, rfl, h⟩
    simp only [indexedApart, List.mem_cons, List.not_mem_nil, or_false] at hph hp
    rcases hph with rfl | rfl <;> rcases hp with rfl | rfl | rfl <;>
      exact ⟨rfl, hc _ _ (by norm_num)⟩
  · rintro (_ | _ | k) hk
    · exact ⟨0, _, rfl, apart_only.1⟩
    · exact ⟨2, _, rfl, apart_only.2⟩
    · simp [indexedApart] at hk

/-- The optimizer stays where it is, so the score of the second pattern is -1. -/
theorem apart_rows : ∃ row : RefineRow, ∃ rows : List RefineRow,
    refineOrientation (trioArgs [false, true, true]) (List.replicate 2 [[0, 0, 0]])
      (List.replicate 2 [[0, 0, 0]]) (List.replicate 2 [[0, 0, 0]]) = .ok ((row :: rows).map some) ∧
      row.x = [0, 0, 0] := by
  have hv := trioArgs_valid (points := [false, true, true]) rfl
  obtain ⟨data, rows, h1, h2, h3, h4⟩ := refineOrientation_rows hv
    (starts := List.replicate 2 [[0, 0, 0]]) (lower := List.replicate 2 [[0, 0, 0]])
    (upper := List.replicate 2 [[0, 0, 0]]) rfl rfl rfl
  obtain ⟨rows', hr', -⟩ := refine_one (trioPhase_good (points := [false, true, true]) rfl "b" 1)
  have e : rows = rows'.map some := by
    have : refineOrientation (trioArgs [false, true, true]) (List.replicate 2 [[0, 0, 0]])
      (List.replicate 2 [[0, 0, 0]]) (List.replicate 2 [[0, 0, 0]]) = .ok (rows'.map some) := hr'
    rw [h2, Except.ok.injEq] at this
    exact this
  have h5 := h4 1 [1, 0] ⟨1 / 4, 1 / 2, 4 / 3⟩ [[0, 0, 0]] [[0, 0, 0]] [[0, 0, 0]] rfl rfl rfl rfl rfl
    rfl
  have hpl : (trioArgs [false, true, true]).place 1 = 0 := rfl
  rw [hpl, e] at h5
  cases rows' with
  | nil => cases h5
  | cons row rest =>
    refine ⟨row, rest, by rw [h2, e], ?_⟩
    rw [List.map_cons, List.getElem?_cons_zero, Option.some.injEq] at h5
    have h7 : oriSolver (trioArgs [false, true, true]).solver (trioArgs [false, true, true]).nPs
        (trioArgs [false, true, true]).rescale data
        (.inr ((trioArgs [false, true, true]).detectorData, ⟨1 / 4, 1 / 2, 4 / 3⟩))
        (Spec.keep (trioArgs [false, true, true]).signalMask [1, 0]) [[0, 0, 0]] [[0, 0, 0]]
          [[0, 0, 0]] =
        some ⟨1 - objectiveOri (preparePattern [1, 0] false)
          ((trioArgs [false, true, true]).detectorData.directionCosines (1 / 4) (1 / 2) (4 / 3)) data
            [0, 0, 0], 1, [0, 0, 0], none⟩ := rfl
    rw [h7, Option.some.injEq] at h5
    rw [h5]

/-- C133 is false for patterns with a negative score: the score of points which are not indexed is 0
after refinement. Here the second pattern is refined with the second phase only, since it is not indexed
with the first, but the merged map has the first phase there, with the identity as rotation. -/
theorem C133_not_indexed_violated : ∃ xmaps out,
    refinePhases indexedApart = .ok xmaps ∧ mergeCrystalMaps xmaps 1 none none = .ok out ∧
    (∀ ph, indexedApart[0]? = some ph → ph.args.points[1]? = some false) ∧
    (∀ ph, indexedApart[1]? = some ph → ph.args.points[1]? = some true) ∧
    out.phaseId 1 = 0 ∧ ((0, "a", some 0) ∈ out.phases ∨ (0, "a0", some 0) ∈ out.phases) ∧
    out.scores 1 = [0] ∧ out.rots 1 = [⟨1, 0, 0, 0⟩] := by
  obtain ⟨hsame, g, hmasks, hcov⟩ := apart_same
  obtain ⟨xmaps, out, hx, hout, hms, hpl, hxl, hph⟩ := refined_setup hsame g hmasks hcov
  have hlc : ∀ ph ∈ indexedApart, ([0, 1] : List ℝ).length = ph.args.det.nrows * ph.args.det.ncols ∧
      ShowsContrast (maskOf ph.args) [0, 1] := by
    intro ph hph
    simp only [indexedApart, List.mem_cons, List.not_mem_nil, or_false] at hph
    rcases hph with rfl | rfl <;> exact ⟨rfl, twoPixels_contrast⟩
  have hA : indexedApart[0]? = some (trioPhase (trioArgs [true, false, false]) "a" 0) := rfl
  have hB : indexedApart[1]? = some (trioPhase (trioArgs [false, true, true]) "b" 1) := rfl
  obtain ⟨xA, hxA, hrA, hnA, hpA, hfA⟩ := hph 0 _ hA
  obtain ⟨xB, hxB, hrB, hnB, hpB, hfB⟩ := hph 1 _ hB
  obtain ⟨-, -, ptA, a1, a2, a3, a4, a5, -⟩ := (hfA 1 [1, 0] rfl).2 1 rfl
  obtain ⟨-, -, ptB, b1, b2, b3, b4, -, b5⟩ := (hfB 1 [1, 0] rfl).2 1 rfl
  obtain ⟨hidB, pc, hpc, -, hscB, -⟩ := b5 rfl
  have ptA_eq := a5 rfl
  subst ptA_eq
  -- the score of the second pattern is -1
  have hscore : ptB.score = -1 := by
    obtain ⟨row, rows, hr, hrx⟩ := apart_rows
    obtain ⟨xs, h1, -, h2⟩ := refinePhases_ok indexedApart fun ph hph => by
      obtain ⟨rows, h, -⟩ := refine_one (g ph hph)
      exact ⟨rows, h⟩
    rw [hx, Except.ok.injEq] at h1
    subst h1
    have := h2 1 _ hB (row :: rows) hr
    rw [hxB, Option.some.injEq] at this
    subst this
    have hrot : ptB.rot = rotationFromEuler 0 0 0 := by
      have : [ptB.rot] = [(refinedPoint 0 row).rot] := b1.symm.trans rfl
      rw [List.cons.injEq] at this
      rw [this.1, refinedPoint, hrx]
      rfl
    obtain ⟨x, y, hxy, hsim⟩ := trio_simulated [false, true, true] rfl
    have hpc' : (⟨1 / 4, 1 / 2, 4 / 3⟩ : PC ℝ) = pc := Option.some.inj hpc
    rw [hrot, ← hpc'] at hscB
    refine IsScore.unique hscB ⟨_, hsim, ?_⟩
    have h := pearson_two_gt hxy (zero_lt_one (α := ℝ))
    rw [pearson_comm] at h
    exact h.symm
  obtain ⟨-, hpts⟩ := C25_phases_partial hout
    (fun i j xi xj hij hi hj he => by
      have hjl : j < 2 := by
        have := (List.getElem?_eq_some_iff.1 hj).1
        rwa [hxl] at this
      obtain rfl : i = 0 := by omega
      obtain rfl : j = 1 := by omega
      rw [hxA] at hi
      rw [hxB] at hj
      cases hi
      cases hj
      rw [hpA, hpB] at he
      simp [trioPhase] at he)
    (fun k x hxk => by
      have hkl : k < 2 := by
        have := (List.getElem?_eq_some_iff.1 hxk).1
        rwa [hxl] at this
      have h2 : k = 0 ∨ k = 1 := by omega
      obtain ⟨i, hp, hi3, hon⟩ : ∃ i, ([[0, 1], [1, 0], [0, 1]] : List (List ℝ))[i]? = some [0, 1] ∧
          i < 3 ∧ ExplainedOnlyBy indexedApart i k [0, 1] := by
        rcases h2 with rfl | rfl
        · exact ⟨0, rfl, by omega, apart_only.1⟩
        · exact ⟨2, rfl, by omega, apart_only.2⟩
      obtain ⟨ph, x1, row, q, pc, hk1, hx1, hrow, -, -, -, -, hmean, hid, hri, hst⟩ :=
        refined_strict hsame g hxl hpl hph hp hon hlc
      rw [hxk] at hx1
      cases hx1
      have hr1 : x.nRot = 1 := by
        rcases h2 with rfl | rfl
        · rw [hxA] at hxk; cases hxk; exact hrA
        · rw [hxB] at hxk; cases hxk; exact hrB
      refine ⟨i, row, by rw [hms]; exact hi3, hrow, ?_, fun k' x' row' hne hxk' hrow' => ?_⟩
      · rintro ⟨-, hall⟩
        have h1 := hall x (List.mem_of_getElem? hxk)
        rw [← hri rfl, hid] at h1
        have := (g ph (List.mem_of_getElem? hk1)).indexed
        omega
      · rw [hr1, mergeOne _ Nat.one_pos]
        have := hst k' x' row' hne hxk' hrow'
        simp only [AsGood, Option.getD_none, zero_le_one, decide_true, if_true, not_le]
        rw [hmean]
        exact this)
  have hi : 1 < mergeSize xmaps none := by rw [hms]; exact Nat.lt_of_sub_pos (by decide)
  have hnall : ¬ ∀ x' ∈ xmaps, x'.phaseId 1 = -1 := by
    intro hall
    have h1 := hall xB (List.mem_of_getElem? hxB)
    rw [b4, hidB] at h1
    cases h1
  -- the first map is best
  have hfirst : ∀ (k row : ℕ) (x : XMap ℝ Quat ℕ), xmaps[k]? = some x → rowOf none k 1 = some row →
      (∀ (k' row' : ℕ) (x' : XMap ℝ Quat ℕ), xmaps[k']? = some x' → rowOf none k' 1 = some row' →
        AsGood ((none : Option Bool).getD (decide ((0 : ℤ) ≤ 1))) (meanScore x row 1)
          (meanScore x' row' 1)) → k = 0 := by
    intro k row x hk hrow hbest
    have hkl : k < 2 := by
      have := (List.getElem?_eq_some_iff.1 hk).1
      rwa [hxl] at this
    have h2 : k = 0 ∨ k = 1 := by omega
    rcases h2 with rfl | rfl
    · rfl
    · exfalso
      rw [hxB] at hk
      cases hk
      have hb := hbest 0 1 xA hxA rfl
      simp only [rowOf, Option.some.injEq] at hrow
      subst hrow
      simp only [AsGood, Option.getD_none, zero_le_one, decide_true, if_true] at hb
      rw [a3, b3, hscore] at hb
      have : notRefined.score = 0 := rfl
      linarith
  refine ⟨xmaps, out, hx, hout, ?_, ?_, ?_⟩
  · intro ph h
    rw [hA] at h
    cases h
    rfl
  · intro ph h
    rw [hB] at h
    cases h
    rfl
  have hphase : out.phaseId 1 = 0 ∧ ((0, "a", some 0) ∈ out.phases ∨ (0, "a0", some 0) ∈ out.phases) := by
    rcases hpts 1 hi with ⟨h, -⟩ | ⟨N', hN', k0, row0, x0, hx0, hrow0, hid, hmem, hbest⟩
    · exact absurd h.2 hnall
    · obtain rfl : N' = 1 := (hN' xA (List.mem_of_getElem? hxA)).symm.trans hrA
      rw [mergeOne _ Nat.one_pos] at hbest
      obtain rfl := hfirst k0 row0 x0 hx0 hrow0 hbest
      rw [hxA] at hx0
      cases hx0
      rw [hnA, hpA] at hmem
      exact ⟨hid, hmem⟩
  obtain ⟨N, hN, -, k0, row0, x0, hx0, hrow0, hbest, hdata⟩ := C25_best_map_partial hout hi
  obtain rfl : N = 1 := (hN xA (List.mem_of_getElem? hxA)).symm.trans hrA
  rw [mergeOne _ Nat.one_pos] at hbest
  obtain rfl := hfirst k0 row0 x0 hx0 hrow0 fun k' row' x' h1 h2 => (hbest k' row' x' h1 h2).1
  rw [hxA] at hx0
  cases hx0
  simp only [rowOf, Option.some.injEq] at hrow0
  subst hrow0
  rcases hdata with ⟨⟨-, hall⟩, -⟩ | ⟨-, hr, hs, -⟩
  · exact absurd hall hnall
  · refine ⟨hphase.1, hphase.2, ?_, by rw [hr, a1]; rfl⟩
    rw [hs]
    simp [a2, notRefined]

end

end Kp
