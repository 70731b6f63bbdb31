import Verif.Lemmas.PcConventions
import Mathlib.Tactic.FieldSimp
import Mathlib.Tactic.Ring
import Mathlib.Tactic.NormNum
import Mathlib.Algebra.Order.Ring.Rat
import Mathlib.Data.Rat.Cast.Order

/-
C01-C03: projection center conventions of `EBSDDetector`.
-/

namespace Kp
open Spec

variable {K : Type*} [Field K] [LinearOrder K] [IsStrictOrderedRing K]

/-- A detector for which all conversions are defined: at least one pixel in both
directions, non-zero binning and pixel size. -/
def Detector.NonDegenerate (d : Detector K) : Prop :=
  d.nrows ≠ 0 ∧ d.ncols ≠ 0 ∧ d.binning ≠ 0 ∧ d.pxSize ≠ 0

/-- C01: constructing a detector with a PC array in some convention and asking for the PC
array in the same convention returns the given array. -/
theorem C01_given_pc_is_returned (raw d : Detector K) (convention : String)
    (hd : raw.NonDegenerate) (h : raw.init convention = .ok d) :
    d.getPcInConvention convention = .ok raw.pc := by
  obtain ⟨hr, hc, hb, hp⟩ := hd
  have hr' : (raw.nrows : K) ≠ 0 := by exact_mod_cast hr
  have hc' : (raw.ncols : K) ≠ 0 := by exact_mod_cast hc
  have hm' : ((min raw.nrows raw.ncols : ℕ) : K) ≠ 0 := by
    have : min raw.nrows raw.ncols ≠ 0 := by omega
    exact_mod_cast this
  unfold Detector.init Detector.getPcInBruker at h
  unfold Detector.getPcInConvention
  cases hcv : getPcConventionOrRaise convention with
  | error e => rw [hcv] at h; cases h
  | ok c =>
    rw [hcv] at h
    cases c
    all_goals
      simp only [Except.ok.injEq] at h
      subst h
      simp only [List.map_map, Except.ok.injEq]
    all_goals
      refine List.map_id'' (fun p => ?_) raw.pc
      simp only [Function.comp]
      ext
    all_goals
      simp only [Detector.tsl2bruker, Detector.bruker2tsl, Detector.oxford2bruker,
        Detector.bruker2oxford, Detector.emsoft2bruker, Detector.bruker2emsoft,
        Detector.aspect]
      try split
    all_goals
      field_simp
    all_goals try ring

/-- A concrete non-square detector used to show that hypotheses can be met. -/
def exDet : Detector ℚ where
  nrows := 60
  ncols := 80
  pxSize := 70
  binning := 8
  tilt := 0
  azimuthal := 0
  twist := 3
  sampleTilt := 70
  nav := [2]
  pc := [⟨1/3, 2/3, 1/2⟩, ⟨1/2, 1/5, 3/4⟩]

theorem exDet_nonDegenerate : exDet.NonDegenerate := by
  simp [Detector.NonDegenerate, exDet]

example : exDet.NonDegenerate ∧ (exDet.init "EDAX").isOk :=
  ⟨exDet_nonDegenerate, by decide +kernel⟩

/-- C01, converse: a (Bruker) PC array exported in any convention and given to the
constructor with that convention gives the original detector. -/
theorem C01_exported_pc_is_reimported (d : Detector K) (convention : String)
    (hd : d.NonDegenerate) (pcs : List (PC K))
    (h : d.getPcInConvention convention = .ok pcs) :
    ({ d with pc := pcs } : Detector K).init convention = .ok d := by
  obtain ⟨hr, hc, hb, hp⟩ := hd
  have hr' : (d.nrows : K) ≠ 0 := by exact_mod_cast hr
  have hc' : (d.ncols : K) ≠ 0 := by exact_mod_cast hc
  have hm' : ((min d.nrows d.ncols : ℕ) : K) ≠ 0 := by
    have : min d.nrows d.ncols ≠ 0 := by omega
    exact_mod_cast this
  unfold Detector.getPcInConvention at h
  unfold Detector.init Detector.getPcInBruker
  cases hcv : getPcConventionOrRaise convention with
  | error e => rw [hcv] at h; cases h
  | ok c =>
    rw [hcv] at h
    have key : ∀ f g : PC K → PC K, (∀ p, g (f p) = p) →
        (d.pc.map f).map g = d.pc := by
      intro f g hfg
      rw [List.map_map]
      exact List.map_id'' (fun p => hfg p) d.pc
    cases c
    case bruker =>
      simp only [Except.ok.injEq] at h
      subst h
      rfl
    all_goals
      simp only [Except.ok.injEq] at h
      subst h
      simp only [Except.ok.injEq]
    all_goals
      refine Detector.ext rfl rfl rfl rfl rfl rfl rfl rfl rfl ?_
      refine key _ _ (fun p => ?_)
      ext
    all_goals
      simp only [Detector.tsl2bruker, Detector.bruker2tsl, Detector.oxford2bruker,
        Detector.bruker2oxford, Detector.emsoft2bruker, Detector.bruker2emsoft,
        Detector.aspect]
      try split
    all_goals
      field_simp
    all_goals try ring

example : exDet.NonDegenerate ∧
    exDet.getPcInConvention "EMsoft4" = .ok [⟨-(320/3), -80, 16800⟩, ⟨0, 144, 25200⟩] :=
  ⟨exDet_nonDegenerate, by decide +kernel⟩

/-- C02: the constructor accepts every documented convention name, and the stored Bruker
PC denotes the same physical point as the given PC does in its own convention; nothing
else of the detector depends on the convention. -/
theorem C02_conversion_keeps_physical_point (raw : Detector K) (convention : String)
    (v : Vendor) (hv : Denotes convention v) (hd : raw.NonDegenerate) :
    ∃ d, raw.init convention = .ok d ∧
      d.pc.map (physical .bruker d.nrows d.ncols d.binning d.pxSize) =
        raw.pc.map (physical v raw.nrows raw.ncols raw.binning raw.pxSize) ∧
      { d with pc := raw.pc } = raw := by
  obtain ⟨hr, hc, hb, hp⟩ := hd
  have hr' : (raw.nrows : K) ≠ 0 := by exact_mod_cast hr
  have hc' : (raw.ncols : K) ≠ 0 := by exact_mod_cast hc
  unfold Detector.init Detector.getPcInBruker
  rw [getConv_of_denotes hv]
  have h4 := (emsoftVersion_of_denotes (s := convention)).1
  have h5 := (emsoftVersion_of_denotes (s := convention)).2
  cases v
  all_goals
    simp only [kind]
    refine ⟨_, rfl, ?_, rfl⟩
  case bruker => rfl
  case emsoft4 =>
    simp only [List.map_map, List.map_inj_left, Function.comp]
    intro p _
    simp only [physical, Detector.emsoft2bruker, h4 hv]
    refine Prod.ext ?_ (Prod.ext ?_ ?_) <;> simp <;> field_simp <;> ring
  case emsoft5 =>
    simp only [List.map_map, List.map_inj_left, Function.comp]
    intro p _
    simp only [physical, Detector.emsoft2bruker, h5 hv]
    refine Prod.ext ?_ (Prod.ext ?_ ?_) <;> simp <;> field_simp
  case tsl =>
    simp only [List.map_map, List.map_inj_left, Function.comp]
    intro p _
    simp only [physical, Detector.tsl2bruker]
    refine Prod.ext ?_ (Prod.ext ?_ ?_) <;> simp <;> field_simp
  case oxford =>
    simp only [List.map_map, List.map_inj_left, Function.comp]
    intro p _
    simp only [physical, Detector.oxford2bruker, Detector.aspect]
    refine Prod.ext ?_ (Prod.ext ?_ ?_) <;> simp <;> field_simp

example : Denotes "AzTec" .oxford := by
  refine ⟨"aztec", by decide, ?_⟩
  unfold Spells
  rw [show "AzTec".toList = ['A', 'z', 'T', 'e', 'c'] by decide,
    show "aztec".toList = ['a', 'z', 't', 'e', 'c'] by decide]
  simp [SameLetter]

/-- C02: exporting in a convention also keeps the physical point. -/
theorem C02_export_keeps_physical_point (d : Detector K) (convention : String)
    (v : Vendor) (hv : Denotes convention v) (hd : d.NonDegenerate) :
    ∃ pcs, d.getPcInConvention convention = .ok pcs ∧
      pcs.map (physical v d.nrows d.ncols d.binning d.pxSize) =
        d.pc.map (physical .bruker d.nrows d.ncols d.binning d.pxSize) := by
  have hex : ∃ pcs, d.getPcInConvention convention = .ok pcs := by
    unfold Detector.getPcInConvention
    rw [getConv_of_denotes hv]
    cases v <;> exact ⟨_, rfl⟩
  obtain ⟨pcs, hpcs⟩ := hex
  refine ⟨pcs, hpcs, ?_⟩
  have h1 := C01_exported_pc_is_reimported d convention hd pcs hpcs
  obtain ⟨d', h2, h3, -⟩ := C02_conversion_keeps_physical_point
    ({ d with pc := pcs } : Detector K) convention v hv hd
  rw [h1] at h2
  simp only [Except.ok.injEq] at h2
  subst h2
  exact h3.symm

omit [LinearOrder K] [IsStrictOrderedRing K] in
/-- C03: the constructor succeeds exactly for the documented names in any letter case, and
raises `ValueError` for every other string. -/
theorem C03_convention_accepted_iff_documented (raw : Detector K) (convention : String) :
    ((∃ v, Denotes convention v) → ∃ d, raw.init convention = .ok d) ∧
    ((¬ ∃ v, Denotes convention v) → raw.init convention = .error .valueError) := by
  constructor
  · rintro ⟨v, hv⟩
    unfold Detector.init Detector.getPcInBruker
    rw [getConv_of_denotes hv]
    cases v <;> exact ⟨_, rfl⟩
  · intro h
    unfold Detector.init Detector.getPcInBruker
    cases hc : getPcConventionOrRaise convention with
    | ok c => exact absurd (denotes_of_getConv hc) h
    | error e =>
      have : e = .valueError := by
        unfold getPcConventionOrRaise at hc
        simp only at hc
        split at hc <;> simp at hc
        exact hc.symm
      rw [this]

/-- C03: no string denotes two conventions. -/
theorem C03_convention_unambiguous (s : String) (v w : Vendor) (hv : Denotes s v)
    (hw : Denotes s w) : v = w := by
  obtain ⟨t, ht, hs⟩ := hv
  obtain ⟨t', ht', hs'⟩ := hw
  have := spells_inj (names_sub v t ht) (names_sub w t' ht') hs hs'
  subst this
  cases v <;> cases w <;> first | rfl | (exfalso; revert ht ht'; simp only [names]; clear hs hs'; intro ht ht'; simp at ht ht'; grind)

example : ¬ ∃ v, Denotes "hikari" v := by
  intro ⟨v, hv⟩
  have := getConv_of_denotes hv
  have h2 : getPcConventionOrRaise "hikari" = .error .valueError := by decide +kernel
  rw [h2] at this
  cases this

end Kp
