import Verif.Lemmas.FloatPc
import Verif.Props.PcConventions

/-
C115: conversions of projection centers between conventions in 64-bit floating point numbers.
-/

namespace Kp
open Spec

/-- Two small movements. -/
theorem MovedAtMost.trans {ε₁ ε₂ : ℝ} (h₂ : 0 ≤ ε₂) {nr nc : ℕ} {P Q R : ℝ × ℝ × ℝ}
    (a : MovedAtMost ε₁ nr nc P Q) (b : MovedAtMost ε₂ nr nc Q R) :
    MovedAtMost ((1 + ε₁) * (1 + ε₂) - 1) nr nc P R := by
  have key : ∀ {n p q r : ℝ}, 0 ≤ n → |q - p| ≤ ε₁ * (n + |p|) → |r - q| ≤ ε₂ * (n + |q|) →
      |r - p| ≤ ((1 + ε₁) * (1 + ε₂) - 1) * (n + |p|) := by
    intro n p q r hn hq hr
    have hp := abs_nonneg p
    have h3 : |q| ≤ |p| + |q - p| := by
      have := abs_add_le p (q - p)
      rwa [add_sub_cancel] at this
    have h4 : ε₂ * (n + |q|) ≤ ε₂ * (n + (|p| + ε₁ * (n + |p|))) := by
      gcongr
      linarith
    calc |r - p| ≤ |r - q| + |q - p| := abs_sub_le _ _ _
      _ ≤ ε₂ * (n + (|p| + ε₁ * (n + |p|))) + ε₁ * (n + |p|) := by linarith
      _ = _ := by ring
  exact ⟨key (by positivity) a.1 b.1, key (by positivity) a.2.1 b.2.1,
    key (by positivity) a.2.2 b.2.2⟩

theorem MovedAtMost.refl {ε : ℝ} (h : 0 ≤ ε) (nr nc : ℕ) (P : ℝ × ℝ × ℝ) :
    MovedAtMost ε nr nc P P := by
  unfold MovedAtMost
  simp only [sub_self, abs_zero]
  refine ⟨by positivity, by positivity, by positivity⟩

theorem MovedAtMost.mono {ε ε' : ℝ} (h : ε ≤ ε') {nr nc : ℕ} {P Q : ℝ × ℝ × ℝ}
    (a : MovedAtMost ε nr nc P Q) : MovedAtMost ε' nr nc P Q := by
  refine ⟨a.1.trans ?_, a.2.1.trans ?_, a.2.2.trans ?_⟩ <;> gcongr

/-- C115, import: when a detector is made with projection centers in any documented convention, the
stored projection centers denote the given physical points up to a fraction 2^-49 of the detector size
and distance from the corner. -/
theorem C115_import (raw : Detector ℝ) (convention : String) (v : Vendor)
    (hv : Denotes convention v) (hd : UsualDetector raw) :
    ∃ d, raw.initFl convention = .ok d ∧
      List.Forall₂ (fun p q => MovedAtMost (1 / 2 ^ 49) raw.nrows raw.ncols
        (physical v raw.nrows raw.ncols raw.binning raw.pxSize p)
        (physical .bruker d.nrows d.ncols d.binning d.pxSize q)) raw.pc d.pc ∧
      { d with pc := raw.pc } = raw := by
  have hb0 : 0 < raw.binning := lt_of_lt_of_le (by positivity) hd.binning.1
  have hr1 := UsualDetector.rows_real hd
  have hr2 := UsualDetector.rows_real_le hd
  have hc1 := UsualDetector.columns_real hd
  have hm1 := UsualDetector.min_real hd
  have hna := UsualDetector.near_aspect hd
  have hnm := UsualDetector.near_min hd
  have h4 := (emsoftVersion_of_denotes (s := convention)).1
  have h5 := (emsoftVersion_of_denotes (s := convention)).2
  unfold Detector.initFl Detector.getPcInBrukerFl
  rw [getConv_of_denotes hv]
  cases v <;> refine ⟨_, rfl, ?_, rfl⟩
  · exact List.forall₂_same.mpr fun p _ => MovedAtMost.refl (by positivity) _ _ _
  all_goals
    refine List.forall₂_map_right_iff.mpr (List.forall₂_same.mpr fun p _ => ?_)
    simp only [MovedAtMost, physical]
  · exact ⟨moved_refl (by positivity), (flip_error hr1).moved,
      (ratio_import_error hm1 hr1 hr2 hnm).moved⟩
  · exact ⟨moved_refl (by positivity), (oxford_import_error hc1 hr1 hna).moved,
      (ratio_import_error hc1 hr1 hr2 hna).moved⟩
  · rw [h4 hv]
    refine ⟨?_, (emsoft_import_error hr1 hb0 (UsualDetector.prod_ge hd hr1)).moved,
      (emsoft_import_z_error hr1 hr2 hd.binning.1 hd.pxSize.1).moved⟩
    have := (emsoft_import_error (x := -p.x) hc1 hb0 (UsualDetector.prod_ge hd hc1)).moved
    rw [neg_div raw.binning p.x, sub_neg_eq_add] at this
    exact this
  · rw [h5 hv]
    exact ⟨(emsoft_import_error hc1 hb0 (UsualDetector.prod_ge hd hc1)).moved,
      (emsoft_import_error hr1 hb0 (UsualDetector.prod_ge hd hr1)).moved,
      (emsoft_import_z_error hr1 hr2 hd.binning.1 hd.pxSize.1).moved⟩

/-- C115, export: projection centers returned in any documented convention denote the stored physical
points up to a fraction 2^-49 of the detector size and distance from the corner. -/
theorem C115_export (d : Detector ℝ) (convention : String) (v : Vendor)
    (hv : Denotes convention v) (hd : UsualDetector d) :
    ∃ pcs, d.getPcInConventionFl convention = .ok pcs ∧
      List.Forall₂ (fun q p => MovedAtMost (1 / 2 ^ 49) d.nrows d.ncols
        (physical .bruker d.nrows d.ncols d.binning d.pxSize q)
        (physical v d.nrows d.ncols d.binning d.pxSize p)) d.pc pcs := by
  have hb0 : 0 < d.binning := lt_of_lt_of_le (by positivity) hd.binning.1
  have hr1 := UsualDetector.rows_real hd
  have hr2 := UsualDetector.rows_real_le hd
  have hc1 := UsualDetector.columns_real hd
  have hc2 := UsualDetector.columns_real_le hd
  have hm1 := UsualDetector.min_real hd
  have hm2 : ((min d.nrows d.ncols : ℕ) : ℝ) ≤ 2 ^ 50 := by
    have : min d.nrows d.ncols ≤ 2 ^ 50 := (min_le_left _ _).trans hd.rows_le
    exact_mod_cast this
  have hna := UsualDetector.near_aspect hd
  have hnm := UsualDetector.near_min hd
  have h4 := (emsoftVersion_of_denotes (s := convention)).1
  have h5 := (emsoftVersion_of_denotes (s := convention)).2
  unfold Detector.getPcInConventionFl
  rw [getConv_of_denotes hv]
  cases v <;> refine ⟨_, rfl, ?_⟩
  · exact List.forall₂_same.mpr fun p _ => MovedAtMost.refl (by positivity) _ _ _
  all_goals
    refine List.forall₂_map_right_iff.mpr (List.forall₂_same.mpr fun p _ => ?_)
    simp only [MovedAtMost, physical]
  · exact ⟨moved_refl (by positivity), (flip_back_error hr1).moved,
      (ratio_export_error hm1 hm2 hr1 hnm).moved⟩
  · exact ⟨moved_refl (by positivity), (oxford_export_error hc1 hc2 hr1 hna).moved,
      (ratio_export_error hc1 hc2 hr1 hna).moved⟩
  · rw [h4 hv]
    refine ⟨?_, (emsoft_export_error hr1 hd.binning.1).moved,
      (emsoft_export_z_error hr1 hd.binning.1 hd.pxSize.1).moved⟩
    have := (emsoft_export_error (x := p.x) hc1 hd.binning.1).moved
    rw [sub_eq_add_neg (_ / 2), ← neg_div] at this
    exact this
  · rw [h5 hv]
    exact ⟨(emsoft_export_error hc1 hd.binning.1).moved,
      (emsoft_export_error hr1 hd.binning.1).moved,
      (emsoft_export_z_error hr1 hd.binning.1 hd.pxSize.1).moved⟩

theorem forall₂_trans {α β γ : Type*} {R : α → β → Prop} {S : β → γ → Prop} {T : α → γ → Prop}
    (h : ∀ a b c, R a b → S b c → T a c) :
    ∀ {l₁ : List α} {l₂ : List β} {l₃ : List γ}, List.Forall₂ R l₁ l₂ → List.Forall₂ S l₂ l₃ →
      List.Forall₂ T l₁ l₃
  | _, _, _, .nil, .nil => .nil
  | _, _, _, .cons a as, .cons b bs => .cons (h _ _ _ a b) (forall₂_trans h as bs)

/-- C115: projection centers given in a convention and asked for in the same convention are the given
ones, up to a fraction 2^-47 of the detector size and distance. -/
theorem C115_given_pc_is_returned (raw : Detector ℝ) (convention : String) (v : Vendor)
    (hv : Denotes convention v) (hd : UsualDetector raw) :
    ∃ d pcs, raw.initFl convention = .ok d ∧ d.getPcInConventionFl convention = .ok pcs ∧
      List.Forall₂ (fun p p' => MovedAtMost (1 / 2 ^ 47) raw.nrows raw.ncols
        (physical v raw.nrows raw.ncols raw.binning raw.pxSize p)
        (physical v raw.nrows raw.ncols raw.binning raw.pxSize p')) raw.pc pcs := by
  obtain ⟨d, h1, h2, h3⟩ := C115_import raw convention v hv hd
  have e : d = { raw with pc := d.pc } := by
    rw [← h3]
  have hd' : UsualDetector d := by
    rw [e]
    exact ⟨hd.1, hd.2, hd.3, hd.4, hd.5, hd.6⟩
  obtain ⟨pcs, h4, h5⟩ := C115_export d convention v hv hd'
  refine ⟨d, pcs, h1, h4, forall₂_trans ?_ h2 h5⟩
  intro p q p' a b
  have en : d.nrows = raw.nrows := by rw [e]
  have ec : d.ncols = raw.ncols := by rw [e]
  have eb : d.binning = raw.binning := by rw [e]
  have ep : d.pxSize = raw.pxSize := by rw [e]
  rw [en, ec, eb, ep] at a b
  exact MovedAtMost.mono (by norm_num) (MovedAtMost.trans (by positivity) a b)

/-- C115: however often projection centers are passed on from detector to detector, in whichever
documented conventions, the physical points move by a fraction (1 + 2^-49)^(2 n) - 1 at most in `n`
times. -/
theorem C115_passed_on (d : Detector ℝ) (conventions : List String)
    (hc : ∀ c ∈ conventions, ∃ v, Denotes c v) (hd : UsualDetector d) :
    ∃ d', d.passOnFl conventions = .ok d' ∧ { d' with pc := d.pc } = d ∧
      List.Forall₂ (fun p q =>
        MovedAtMost ((1 + 1 / 2 ^ 49) ^ (2 * conventions.length) - 1) d.nrows d.ncols
        (physical .bruker d.nrows d.ncols d.binning d.pxSize p)
        (physical .bruker d.nrows d.ncols d.binning d.pxSize q)) d.pc d'.pc := by
  induction conventions generalizing d with
  | nil =>
    refine ⟨d, rfl, rfl, List.forall₂_same.mpr fun p _ => MovedAtMost.refl ?_ _ _ _⟩
    simp
  | cons c cs ih =>
    obtain ⟨v, hv⟩ := hc c (by simp)
    obtain ⟨pcs, h1, h2⟩ := C115_export d c v hv hd
    obtain ⟨d₁, h3, h4, h5⟩ := C115_import { d with pc := pcs } c v hv
      ⟨hd.1, hd.2, hd.3, hd.4, hd.5, hd.6⟩
    have e : d₁ = { d with pc := d₁.pc } := by
      have : ({ d₁ with pc := pcs } : Detector ℝ) = { d with pc := pcs } := h5
      rw [Detector.ext_iff] at this ⊢
      exact ⟨this.1, this.2.1, this.2.2.1, this.2.2.2.1, this.2.2.2.2.1, this.2.2.2.2.2.1,
        this.2.2.2.2.2.2.1, this.2.2.2.2.2.2.2.1, this.2.2.2.2.2.2.2.2.1, rfl⟩
    have hd₁ : UsualDetector d₁ := by
      rw [e]
      exact ⟨hd.1, hd.2, hd.3, hd.4, hd.5, hd.6⟩
    obtain ⟨d', g1, g2, g3⟩ := ih d₁ (fun x hx => hc x (by simp [hx])) hd₁
    have en : d₁.nrows = d.nrows := by rw [e]
    have ec : d₁.ncols = d.ncols := by rw [e]
    have eb : d₁.binning = d.binning := by rw [e]
    have ep : d₁.pxSize = d.pxSize := by rw [e]
    rw [en, ec, eb, ep] at h4 g3
    refine ⟨d', ?_, ?_, ?_⟩
    · rw [Detector.passOnFl, h1]
      simp only
      rw [h3]
      exact g1
    · rw [Detector.ext_iff] at g2 ⊢
      rw [e] at g2
      exact ⟨g2.1, g2.2.1, g2.2.2.1, g2.2.2.2.1, g2.2.2.2.2.1, g2.2.2.2.2.2.1,
        g2.2.2.2.2.2.2.1, g2.2.2.2.2.2.2.2.1, g2.2.2.2.2.2.2.2.2.1, rfl⟩
    · have h6 : List.Forall₂ (fun p q =>
          MovedAtMost ((1 + 1 / 2 ^ 49) * (1 + 1 / 2 ^ 49) - 1) d.nrows d.ncols
            (physical .bruker d.nrows d.ncols d.binning d.pxSize p)
            (physical .bruker d.nrows d.ncols d.binning d.pxSize q)) d.pc d₁.pc :=
        forall₂_trans (fun p q r a b => by
          exact MovedAtMost.trans (show (0 : ℝ) ≤ 1 / 2 ^ 49 by positivity) a b) h2 h4
      have hk : (0 : ℝ) ≤ (1 + 1 / 2 ^ 49) ^ (2 * cs.length) - 1 := by
        have : (1 : ℝ) ≤ (1 + 1 / 2 ^ 49) ^ (2 * cs.length) := one_le_pow₀ (by norm_num)
        linarith
      refine forall₂_trans (fun p q r a b => ?_) h6 g3
      refine MovedAtMost.mono (le_of_eq ?_) (MovedAtMost.trans hk a b)
      rw [List.length_cons, show 2 * (cs.length + 1) = 2 + 2 * cs.length by ring, pow_add]
      ring

/-- C115: no sudden drift. In `n` times, and up to 2^40 times, the points move by a fraction `n` 2^-47
at most. -/
theorem C115_no_drift (d : Detector ℝ) (conventions : List String)
    (hc : ∀ c ∈ conventions, ∃ v, Denotes c v) (hd : UsualDetector d)
    (hn : conventions.length ≤ 2 ^ 40) :
    ∃ d', d.passOnFl conventions = .ok d' ∧
      List.Forall₂ (fun p q =>
        MovedAtMost (conventions.length / 2 ^ 47) d.nrows d.ncols
        (physical .bruker d.nrows d.ncols d.binning d.pxSize p)
        (physical .bruker d.nrows d.ncols d.binning d.pxSize q)) d.pc d'.pc := by
  obtain ⟨d', h1, -, h2⟩ := C115_passed_on d conventions hc hd
  refine ⟨d', h1, h2.imp fun p q h => MovedAtMost.mono ?_ h⟩
  have hn' : (conventions.length : ℝ) ≤ 2 ^ 40 := by exact_mod_cast hn
  have := one_add_pow_le (u := 1 / 2 ^ 49) (by positivity) (k := 2 * conventions.length) (by
    push_cast
    calc 2 * (conventions.length : ℝ) * (1 / 2 ^ 49) ≤ 2 * 2 ^ 40 * (1 / 2 ^ 49) := by gcongr
      _ ≤ _ := by norm_num)
  push_cast at this
  have h0 : (0 : ℝ) ≤ conventions.length := by positivity
  linarith

/-- C115: in Bruker's convention, projection centers are returned exactly. -/
theorem C115_bruker_exact (raw : Detector ℝ) (convention : String)
    (hv : Denotes convention .bruker) :
    ∃ d, raw.initFl convention = .ok d ∧ d.getPcInConventionFl convention = .ok raw.pc := by
  unfold Detector.initFl Detector.getPcInBrukerFl Detector.getPcInConventionFl
  rw [getConv_of_denotes hv]
  exact ⟨_, rfl, rfl⟩

/-- C115: in EDAX TSL's convention, on detectors with no more rows than columns, projection centers
which are floating point numbers and in the upper half of the detector are returned exactly. -/
theorem C115_tsl_exact (raw : Detector ℝ) (convention : String)
    (hv : Denotes convention .tsl) (hr : 0 < raw.nrows) (hs : raw.nrows ≤ raw.ncols)
    (hf : ∀ p ∈ raw.pc, fl64 p.y = p.y ∧ fl64 p.z = p.z ∧ 1 / 2 ≤ p.y ∧ p.y ≤ 2) :
    ∃ d, raw.initFl convention = .ok d ∧ d.getPcInConventionFl convention = .ok raw.pc := by
  unfold Detector.initFl Detector.getPcInBrukerFl Detector.getPcInConventionFl
  rw [getConv_of_denotes hv]
  refine ⟨_, rfl, ?_⟩
  have e1 : ∀ pcs, Detector.minOverRowsFl { raw with pc := pcs } = 1 := by
    intro pcs
    unfold Detector.minOverRowsFl
    simp only
    rw [min_eq_left hs, div_self (by exact_mod_cast hr.ne'), fl64_one]
  show Except.ok (List.map _ (List.map _ _)) = _
  rw [List.map_map, Except.ok.injEq]
  conv_rhs => rw [← List.map_id raw.pc]
  refine List.map_congr_left fun p hp => ?_
  obtain ⟨a, b, c, c'⟩ := hf p hp
  simp only [Function.comp, Detector.tsl2brukerFl, Detector.bruker2tslFl, id, e1]
  rw [one_sub_exact a c c', sub_sub_cancel, a, mul_one, b, div_one, b]

/-- C115, not exact in general: a projection center just above the lower edge of the detector is
returned at the lower edge. -/
theorem C115_exact_violated (raw : Detector ℝ) (hpc : raw.pc = [⟨0, 1 / 2 ^ 60, 1⟩]) :
    ∃ d pcs, raw.initFl "tsl" = .ok d ∧ d.getPcInConventionFl "tsl" = .ok pcs ∧
      pcs.map PC.y = [0] := by
  have hv : Denotes "tsl" .tsl := ⟨"tsl", by simp [names], List.forall₂_same.mpr fun c _ => .inl rfl⟩
  unfold Detector.initFl Detector.getPcInBrukerFl Detector.getPcInConventionFl
  rw [getConv_of_denotes hv]
  refine ⟨_, _, rfl, rfl, ?_⟩
  have h : fl64 (1 - 1 / 2 ^ 60) = 1 := by
    apply le_antisymm
    · have := fl64_mono (show (1 : ℝ) - 1 / 2 ^ 60 ≤ 1 by norm_num)
      rwa [fl64_one] at this
    · have := binaryRound_eq (K := ℝ) (p := 53) (emin := -1074) (e := -1) (x := 1 - 1 / 2 ^ 60)
        (2 ^ 53) (by norm_num) (by norm_num) (by norm_num) (by norm_num [abs_lt])
      unfold fl64
      rw [this]
      norm_num
  simp only [hpc, List.map_cons, List.map_nil, Detector.tsl2brukerFl, Detector.bruker2tslFl]
  rw [h, sub_self, fl64_zero]

/-- The detector of a concrete case. -/
noncomputable def exDetReal : Detector ℝ where
  nrows := 60
  ncols := 80
  pxSize := 70
  binning := 8
  tilt := 0
  azimuthal := 0
  twist := 3
  sampleTilt := 70
  nav := [2]
  pc := [⟨1 / 4, 5 / 8, 1 / 2⟩, ⟨1 / 2, 3 / 4, 3 / 4⟩]

/-- The hypotheses are met. -/
example : UsualDetector exDetReal := by
  refine ⟨?_, ?_, ?_, ?_, ⟨?_, ?_⟩, ⟨?_, ?_⟩⟩ <;> norm_num [exDetReal]

example : ∀ p ∈ exDetReal.pc, fl64 p.y = p.y ∧ fl64 p.z = p.z ∧ 1 / 2 ≤ p.y ∧ p.y ≤ 2 := by
  have h : ∀ m : ℤ, |(m : ℝ)| ≤ 8 → fl64 (m / 8) = m / 8 := by
    intro m hm
    have := fl64_format (m := m) (j := -3) (by norm_num) (by
      rw [abs_mul]
      norm_num
      linarith)
    rw [show (m : ℝ) / 8 = m * 2 ^ (-3 : ℤ) by norm_num; ring]
    exact this
  have a := h 5 (by norm_num)
  have b := h 4 (by norm_num)
  have c := h 6 (by norm_num)
  intro p hp
  simp only [exDetReal, List.mem_cons, List.not_mem_nil, or_false] at hp
  rcases hp with rfl | rfl
  · refine ⟨?_, ?_, ?_, ?_⟩ <;> norm_num at a b ⊢ <;> assumption
  · refine ⟨?_, ?_, ?_, ?_⟩ <;> norm_num at c ⊢ <;> assumption

end Kp
