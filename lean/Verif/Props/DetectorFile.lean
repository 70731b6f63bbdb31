/-
C58: detector text files round-trip.
-/
import Verif.Lemmas.DetectorFile
import Verif.Props.PcConventions
import Mathlib.Data.Rat.Floor
import Mathlib.Data.Rat.Denumerable

namespace Kp

set_option linter.unusedSectionVars false

variable {K : Type} [Field K] [LinearOrder K] [IsStrictOrderedRing K] [FloorRing K]

/-- Two PCs agree within `eps` in all three coordinates. -/
def PcClose (eps : K) (p q : PC K) : Prop :=
  |p.x - q.x| ≤ eps ∧ |p.y - q.y| ≤ eps ∧ |p.z - q.z| ≤ eps

theorem foldl_mul_eq_prod (l : List ℕ) : ∀ a : ℕ, l.foldl (· * ·) a = a * l.prod := by
  induction l with
  | nil => simp
  | cons b l ih => intro a; rw [List.foldl_cons, ih, List.prod_cons, mul_assoc]

/-- The navigation shape read from the header, or given by the number of rows. -/
theorem readNav_written {nav : List ℕ} {n : ℕ} (hnav : nav ≠ []) (hp : nav.prod = n)
    (hn : n ≠ 0) : readNav n (parseTuple (tupleText nav)) = .ok nav := by
  match nav, hnav, hp with
  | [a], _, hp =>
    rw [parseTuple_single]
    simp only [List.prod_cons, List.prod_nil, mul_one] at hp
    simp [readNav, hn, hp]
  | a :: b :: l, _, hp =>
    rw [parseTuple_many]
    have : (a :: b :: l).foldl (· * ·) 1 = n := by rw [foldl_mul_eq_prod, one_mul, hp]
    simp only [readNav, if_pos this]

/-- The round trip, with the rounded PCs. -/
theorem round_trip_rows (ft : FloatText K) (d : Detector K) (hd : d.NonDegenerate)
    (hnav : d.nav ≠ []) (hlen : d.nav.prod = d.pc.length) (hpc : d.pc ≠ [])
    (convention : String) (pcs : List (PC K))
    (hconv : d.getPcInConvention convention = .ok pcs) (dec : ℕ) (version time : List Char) :
    ∃ f d', writeDetector ft d convention dec version time = .ok f ∧
      loadDetector ft f = .ok d' ∧ { d' with pc := d.pc } = d ∧
      d'.getPcInConvention convention = .ok (pcs.map (fixedRow dec)) := by
  obtain ⟨h1, h2, h3, h4, h5, h6, h7, h8, h9⟩ := headerValue_written ft d convention version time
  have hl : pcs.length = d.pc.length := by
    unfold Detector.getPcInConvention at hconv
    split at hconv <;> cases hconv <;> simp
  set raw : Detector K := { d with pc := pcs.map (fixedRow dec) } with hraw
  have hrd : raw.NonDegenerate := hd
  have hinit : ∃ d', raw.init convention = .ok d' := by
    unfold Detector.init Detector.getPcInBruker
    unfold Detector.getPcInConvention at hconv
    cases hcv : getPcConventionOrRaise convention with
    | error e => rw [hcv] at hconv; cases hconv
    | ok c => cases c <;> exact ⟨_, rfl⟩
  obtain ⟨d', hd'⟩ := hinit
  refine ⟨⟨detHeader ft d convention version time, pcs.map (fixedRow dec)⟩, d', ?_, ?_, ?_, ?_⟩
  · unfold writeDetector; rw [hconv]
  · have hn0 : d.pc.length ≠ 0 := by simpa using hpc
    have p := fun x => parse_rstrip ft x
    unfold loadDetector headerShape headerFloat
    simp only [h1, h2, h3, h4, h5, h6, h7, h8, h9, (p _).1, (p _).2, List.length_map, hl]
    have e1 := readNav_written hnav hlen hn0
    have e2 := parseTuple_many d.nrows d.ncols []
    simp only [bind, Except.bind, e1, e2, String.ofList_toList]
    exact hd'
  · unfold Detector.init at hd'
    split at hd'
    · cases hd'
    · cases hd'; rfl
  · exact C01_given_pc_is_returned raw d' convention hrd hd'

/-- C58: every detector (with non-zero shape, binning and pixel size, and at least one PC) can be
saved in every valid convention and with any number of decimals, and the loaded detector has the
same shape, navigation shape, pixel size, binning and angles; its PCs are, in the convention of
the file, those of the saved detector within half a unit of the last decimal. -/
theorem C58_round_trip (ft : FloatText K) (d : Detector K) (hd : d.NonDegenerate)
    (hnav : d.nav ≠ []) (hlen : d.nav.prod = d.pc.length) (hpc : d.pc ≠ [])
    (convention : String) (pcs : List (PC K))
    (hconv : d.getPcInConvention convention = .ok pcs) (dec : ℕ) (version time : List Char) :
    ∃ f d', writeDetector ft d convention dec version time = .ok f ∧
      loadDetector ft f = .ok d' ∧ { d' with pc := d.pc } = d ∧
      ∃ pcs', d'.getPcInConvention convention = .ok pcs' ∧
        List.Forall₂ (PcClose (1 / (2 * (10 : K) ^ dec))) pcs' pcs := by
  obtain ⟨f, d', h1, h2, h3, h4⟩ := round_trip_rows ft d hd hnav hlen hpc convention pcs hconv dec version time
  refine ⟨f, d', h1, h2, h3, _, h4, ?_⟩
  simp only [List.forall₂_map_left_iff]
  rw [List.forall₂_same]
  intro p _
  exact ⟨fixedPoint_close dec p.x, fixedPoint_close dec p.y, fixedPoint_close dec p.z⟩

/-- C58, default: saved in Bruker's convention with seven decimals, all loaded PC coordinates are
within 5e-8 of the saved ones. -/
theorem C58_bruker_pc (ft : FloatText K) (d : Detector K) (hd : d.NonDegenerate)
    (hnav : d.nav ≠ []) (hlen : d.nav.prod = d.pc.length) (hpc : d.pc ≠ [])
    (version time : List Char) :
    ∃ f d', writeDetector ft d "bruker" 7 version time = .ok f ∧ loadDetector ft f = .ok d' ∧
      List.Forall₂ (PcClose (1 / 20000000)) d'.pc d.pc := by
  have hb : getPcConventionOrRaise "bruker" = .ok .bruker := by decide +kernel
  have hc : d.getPcInConvention "bruker" = .ok d.pc := by
    unfold Detector.getPcInConvention; rw [hb]
  obtain ⟨f, d', h1, h2, -, pcs', h3, h4⟩ :=
    C58_round_trip ft d hd hnav hlen hpc "bruker" d.pc hc 7 version time
  have h5 : d'.getPcInConvention "bruker" = .ok d'.pc := by
    unfold Detector.getPcInConvention; rw [hb]
  rw [h5] at h3
  cases h3
  refine ⟨f, d', h1, h2, ?_⟩
  have : (1 : K) / (2 * 10 ^ 7) = 1 / 20000000 := by norm_num
  rw [← this]
  exact h4

/-- C58: numbers with no more than the written decimals are loaded exactly. -/
theorem C58_saved_twice (dec : ℕ) (x : K) :
    fixedPoint dec (fixedPoint dec x) = fixedPoint dec x := by
  have hp : ((10 : K) ^ dec) ≠ 0 := pow_ne_zero _ (by norm_num)
  have e : fixedPoint dec x * (10 : K) ^ dec = (npRound (x * (10 : K) ^ dec) : K) := by
    unfold fixedPoint
    rw [div_mul_cancel₀ _ hp]
  change (npRound (fixedPoint dec x * (10 : K) ^ dec) : K) / (10 : K) ^ dec = _
  rw [e, npRound_int]
  rfl

/-- C58: saving a loaded detector again in the same convention and with as many decimals gives the same
file, so nothing more is lost however often a detector is saved and loaded. -/
theorem C58_saved_again (ft : FloatText K) (d : Detector K) (hd : d.NonDegenerate)
    (hnav : d.nav ≠ []) (hlen : d.nav.prod = d.pc.length) (hpc : d.pc ≠ [])
    (convention : String) (dec : ℕ) (version time : List Char) (f : DetFile K)
    (hf : writeDetector ft d convention dec version time = .ok f) :
    ∃ d', loadDetector ft f = .ok d' ∧ writeDetector ft d' convention dec version time = .ok f := by
  cases hconv : d.getPcInConvention convention with
  | error e => unfold writeDetector at hf; rw [hconv] at hf; cases hf
  | ok pcs =>
    obtain ⟨f', d', h1, h2, h3, h4⟩ := round_trip_rows ft d hd hnav hlen hpc convention pcs hconv dec version time
    rw [hf] at h1
    cases h1
    refine ⟨d', h2, ?_⟩
    unfold writeDetector at hf ⊢
    rw [hconv] at hf
    rw [h4]
    cases hf
    have hh : detHeader ft d' convention version time = detHeader ft d convention version time := by
      rw [← h3]
      rfl
    simp only [hh, List.map_map]
    congr 2
    refine List.map_congr_left fun p _ => ?_
    simp only [Function.comp, fixedRow, C58_saved_twice]

/-- An invalid convention is rejected and nothing is written. -/
theorem C58_invalid_convention (ft : FloatText K) (d : Detector K) (convention : String) (e : Err)
    (h : getPcConventionOrRaise convention = .error e) (dec : ℕ) (version time : List Char) :
    writeDetector ft d convention dec version time = .error e := by
  unfold writeDetector Detector.getPcInConvention
  rw [h]

/-- A text of rational numbers, with the properties of a `FloatText`. -/
def exText : FloatText ℚ where
  repr x := List.replicate (Encodable.encode x) '1' ++ ['0']
  parse l := Encodable.decode (l.length - 1)
  parse_repr x := by simp
  repr_last x := ⟨_, '0', rfl, by decide⟩

/-- Non-vacuity: a detector of 60 x 80 pixels with a map of 1 x 2 PCs, and one with a 1D map. -/
def exFileDet (nav : List ℕ) : Detector ℚ :=
  ⟨60, 80, 70, 8, 5, 0, 0, 70, nav, [⟨1 / 3, 2 / 3, 1 / 2⟩, ⟨1 / 2, 1 / 4, 5 / 8⟩]⟩

example (nav : List ℕ) (h : nav = [1, 2] ∨ nav = [2]) :
    ∃ f d', writeDetector exText (exFileDet nav) "bruker" 7 [] [] = .ok f ∧
      loadDetector exText f = .ok d' ∧
      List.Forall₂ (PcClose (1 / 20000000)) d'.pc (exFileDet nav).pc :=
  C58_bruker_pc exText (exFileDet nav) (by simp [Detector.NonDegenerate, exFileDet])
    (by rcases h with rfl | rfl <;> simp [exFileDet])
    (by rcases h with rfl | rfl <;> simp [exFileDet]) (by simp [exFileDet]) [] []

/-- The rounding is real: a third is not kept. -/
example : fixedPoint 7 (1 / 3 : ℚ) = 3333333 / 10000000 := by decide +kernel

end Kp
