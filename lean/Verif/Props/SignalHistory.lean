import Verif.Spec.SignalHistory
import Verif.Props.SliceSignal
import Verif.Props.ExtractGrid
import Mathlib.Data.Rat.Floor

/-
C132: Detector, background and crystal map fit the patterns after every history of operations.
-/

namespace Kp

set_option linter.unusedSectionVars false

variable {K X : Type} [Field K] [LinearOrder K] [IsStrictOrderedRing K] [FloorRing K]

/-- Operations after which the attributes fit, for a signal with attributes that fit: a background of
the right shape, slices and cropping without steps which select something (of patterns: not
open-ended from the middle or negative), and grids of signals without a crystal map.  Any detector
and crystal map can be given, any factor for downsampling, any scales for rebinning. -/
def Spec.RegularOp (s : LiveSignal K X) : SignalOp K X → Prop
  | .setDetector d => Spec.WellFormed d
  | .setXmap _ => True
  | .setBackground b => ∀ l, b = some l → l.length = s.sig.1 ∧ ∀ r ∈ l, r.length = s.sig.2
  | .inav sy sx => (sy.step = none ∨ sy.step = some 1) ∧ (sx.step = none ∨ sx.step = some 1)
      ∧ sy.positions s.nav.1 ≠ [] ∧ sx.positions s.nav.2 ≠ []
  | .isig sy sx => Spec.PlainSlice sy s.sig.1 ∧ Spec.PlainSlice sx s.sig.2
  | .cropNav start stop => start.isIndex ∧ stop.isIndex
      ∧ (PySlice.mk start.toIndex stop.toIndex none).positions s.nav.1 ≠ []
  | .cropSig start stop => start.isIndex ∧ stop.isIndex
      ∧ Spec.PlainSlice ⟨start.toIndex, stop.toIndex, none⟩ s.sig.1
  | .downsample _ _ => True
  | .rebin _ _ _ _ => True
  | .extractGrid _ _ => s.attrs.xmap = none

/-- Histories of such operations. -/
def Spec.RegularHistory (s : LiveSignal K X) : List (SignalOp K X) → Prop
  | [] => True
  | op :: l => Spec.RegularOp s op ∧ Spec.RegularHistory (signalStep s op).1 l

theorem PySlice.hi_le' (s : PySlice) (n : ℕ) : s.hi n ≤ n := by
  unfold PySlice.hi
  split
  · exact le_refl _
  · split <;> omega

theorem whole_positions (n : ℕ) : (PySlice.mk none none none).positions n = List.range n := by
  rw [PySlice.positions_eq (Or.inl rfl) (PySlice.hi_le' _ _)]
  simp [PySlice.hi, PySlice.lo]

theorem takeRows_shape {V : Type*} {a : List (List V)} {ny nx : ℕ} (hny : a.length = ny)
    (hnx : ∀ r ∈ a, r.length = nx) : ∀ {ys xs : List ℕ}, (∀ y ∈ ys, y < ny) → (∀ x ∈ xs, x < nx) →
    (takeRows a ys xs).length = ys.length ∧ ∀ r ∈ takeRows a ys xs, r.length = xs.length := by
  intro ys xs hy hx
  have hrow : ∀ r ∈ a, (xs.filterMap fun x => r[x]?).length = xs.length := by
    intro r hr
    have hl := hnx r hr
    clear hy
    induction xs with
    | nil => rfl
    | cons x xs ih =>
      have hx0 : x < r.length := by rw [hl]; exact hx x (by simp)
      rw [List.filterMap_cons, List.getElem?_eq_getElem hx0]
      simp only [List.length_cons]
      rw [ih (fun z hz => hx z (by simp [hz]))]
  constructor
  · induction ys with
    | nil => rfl
    | cons y ys ih =>
      have hy0 : y < a.length := by rw [hny]; exact hy y (by simp)
      unfold takeRows at ih ⊢
      rw [List.filterMap_cons, List.getElem?_eq_getElem hy0]
      simp only [Option.map_some, List.length_cons]
      rw [ih (fun z hz => hy z (by simp [hz]))]
  · intro r hr
    unfold takeRows at hr
    rw [List.mem_filterMap] at hr
    obtain ⟨y, _, hy2⟩ := hr
    rw [Option.map_eq_some_iff] at hy2
    obtain ⟨row, hrow1, rfl⟩ := hy2
    exact hrow row (List.mem_of_getElem? hrow1)

theorem toRows_shape (p : Img K) : p.toRows.length = p.rows ∧ ∀ r ∈ p.toRows, r.length = p.cols := by
  unfold Img.toRows
  refine ⟨by simp, ?_⟩
  intro r hr
  rw [List.mem_map] at hr
  obtain ⟨_, _, rfl⟩ := hr
  simp

theorem imgOfRows_shape {l : List (List K)} {ny nx : ℕ} (hpos : 0 < ny) (h : l.length = ny)
    (h2 : ∀ r ∈ l, r.length = nx) : (imgOfRows l).rows = ny ∧ (imgOfRows l).cols = nx := by
  refine ⟨h, ?_⟩
  cases l with
  | nil => simp at h; omega
  | cons a l => exact h2 a (by simp)

theorem dstackNav_prod (l : List ℕ) : (dstackNav l).prod = l.prod := by
  unfold dstackNav
  split <;> simp

theorem sliceSig_wellFormed {d : Detector K} (hd : Spec.WellFormed d) (sy sx : PySlice) (new : ℕ × ℕ) :
    Spec.WellFormed (sliceSigDetector d sy sx new)
    ∧ ((sliceSigDetector d sy sx new).pc.length = 1
      ∨ ((sliceSigDetector d sy sx new).pc.length = d.pc.length
        ∧ (sliceSigDetector d sy sx new).nav = dstackNav d.nav)) := by
  unfold sliceSigDetector
  cases h : d.crop (sliceExtent sy sx new) with
  | error e => exact ⟨by simp [Spec.WellFormed], Or.inl (by simp)⟩
  | ok d' =>
    unfold Detector.crop at h
    dsimp only at h
    split at h
    · cases h
    · injection h with h
      subst h
      refine ⟨?_, Or.inr ⟨by simp, rfl⟩⟩
      unfold Spec.WellFormed at hd ⊢
      simp only [List.length_map, dstackNav_prod]
      exact hd

theorem isig_fits {s : LiveSignal K X} (hs : Spec.AttributesFit s) {sy sx : PySlice}
    (hy : Spec.PlainSlice sy s.sig.1) (hx : Spec.PlainSlice sx s.sig.2) :
    Spec.AttributesFit { s with
      sig := ((sy.positions s.sig.1).length, (sx.positions s.sig.2).length)
      attrs := isigAttrs s.attrs s.sig sy sx } := by
  have h50 := C50_isig_partial (a := s.attrs) hs.detector_shape hy hx
  have hw := sliceSig_wellFormed hs.well_formed sy sx
    ((sy.positions s.sig.1).length, (sx.positions s.sig.2).length)
  have py := plain_positions hy
  have px := plain_positions hx
  refine ⟨hs.nav_pos, ⟨by simp only; omega, by simp only; omega⟩, ⟨h50.1, h50.2.1⟩, hw.1, ?_, ?_, ?_⟩
  · rcases hw.2 with h | ⟨h, hn⟩
    · exact Or.inl h
    · rcases hs.one_or_all with h1 | ⟨h1, h2⟩
      · exact Or.inl (h.trans h1)
      · refine Or.inr ⟨?_, h.trans h2⟩
        refine hn.trans ?_
        rw [h1]; rfl
  · intro b hb
    simp only [isigAttrs, Option.map_eq_some_iff] at hb
    obtain ⟨bg, hbg, rfl⟩ := hb
    obtain ⟨b1, b2⟩ := hs.background bg hbg
    exact takeRows_shape b1 b2 positions_lt positions_lt
  · intro m hm
    exact hs.xmap m hm

theorem inav_fits {s : LiveSignal K X} (hs : Spec.AttributesFit s) {sy sx : PySlice}
    (hy : sy.step = none ∨ sy.step = some 1) (hx : sx.step = none ∨ sx.step = some 1)
    (hyne : sy.positions s.nav.1 ≠ []) (hxne : sx.positions s.nav.2 ≠ []) :
    Spec.AttributesFit { s with
      nav := ((sy.positions s.nav.1).length, (sx.positions s.nav.2).length)
      attrs := inavAttrs s.attrs s.nav sy sx } := by
  have lpos : ∀ {l : List ℕ}, l ≠ [] → 0 < l.length := List.length_pos_iff.2
  have hshape : (sliceNavDetector s.attrs.detector sy sx).nrows = s.attrs.detector.nrows
      ∧ (sliceNavDetector s.attrs.detector sy sx).ncols = s.attrs.detector.ncols := by
    unfold sliceNavDetector
    split
    · dsimp only
      split <;> exact ⟨rfl, rfl⟩
    · exact ⟨rfl, rfl⟩
  have hpc : Spec.WellFormed (sliceNavDetector s.attrs.detector sy sx) ∧
      ((sliceNavDetector s.attrs.detector sy sx).pc.length = 1
      ∨ ((sliceNavDetector s.attrs.detector sy sx).nav
          = [(sy.positions s.nav.1).length, (sx.positions s.nav.2).length]
        ∧ (sliceNavDetector s.attrs.detector sy sx).pc.length
          = (sy.positions s.nav.1).length * (sx.positions s.nav.2).length)) := by
    have hwf := hs.well_formed
    unfold Spec.WellFormed at hwf ⊢
    unfold sliceNavDetector
    split
    · rename_i a b hab
      dsimp only
      have hl : s.attrs.detector.pc.length = a * b := by rw [hwf, hab]; simp
      have hlen := takeMap_length (l := s.attrs.detector.pc) hl (ys := sy.positions a)
        (xs := sx.positions b) positions_lt positions_lt
      split
      · exact ⟨by simp, Or.inl (by simp)⟩
      · rename_i hne
        simp only [hlen]
        refine ⟨by simp, ?_⟩
        rcases hs.one_or_all with h1 | ⟨h1, h2⟩
        · left
          have hab1 : a * b = 1 := by omega
          have ha : a = 1 := Nat.eq_one_of_mul_eq_one_right hab1
          have hb : b = 1 := Nat.eq_one_of_mul_eq_one_left hab1
          subst ha; subst hb
          have hle : ∀ t : PySlice, (t.positions 1).length ≤ 1 := by
            intro t
            have := List.length_filter_le (fun i => decide (t.lo 1 ≤ i ∧ i < t.hi 1
              ∧ (i - t.lo 1) % (t.step.getD 1) = 0)) (List.range 1)
            simpa [PySlice.positions] using this
          have h0 : 0 < (sy.positions 1).length * (sx.positions 1).length := by
            rw [← hlen]; exact List.length_pos_iff.2 hne
          have := hle sy
          have := hle sx
          have e1 : (sy.positions 1).length = 1 := by
            have := Nat.pos_of_mul_pos_right h0
            omega
          have e2 : (sx.positions 1).length = 1 := by
            have := Nat.pos_of_mul_pos_left h0
            omega
          rw [e1, e2]
        · rw [hab] at h1
          simp only [List.cons.injEq, and_true] at h1
          obtain ⟨rfl, rfl⟩ := h1
          exact Or.inr ⟨rfl, rfl⟩
    · rename_i hno
      refine ⟨hwf, ?_⟩
      rcases hs.one_or_all with h1 | ⟨h1, h2⟩
      · exact Or.inl h1
      · exact absurd h1 (hno _ _)
  refine ⟨⟨lpos hyne, lpos hxne⟩, hs.sig_pos,
    ⟨hshape.1.trans hs.detector_shape.1, hshape.2.trans hs.detector_shape.2⟩, hpc.1, hpc.2, ?_, ?_⟩
  · intro b hb
    exact hs.background b hb
  · intro m hm
    simp only [inavAttrs, Option.map_eq_some_iff] at hm
    obtain ⟨m0, hm0, rfl⟩ := hm
    unfold sliceXmap
    rw [if_pos ⟨hs.xmap m0 hm0, hyne, hxne⟩]
    simp only
    rw [spanOf_positions hy (PySlice.hi_le' _ _) hyne, spanOf_positions hx (PySlice.hi_le' _ _) hxne]

theorem crop_whole_slice (sig : ℕ) (h : 0 < sig) : Spec.PlainSlice ⟨none, none, none⟩ sig :=
  ⟨Or.inl rfl, ⟨le_refl _, by simpa using h⟩, by simp, fun _ => rfl⟩

theorem cropSig_fits {s : LiveSignal K X} (hs : Spec.AttributesFit s) {start stop : CropArg}
    (h1 : start.isIndex) (h2 : stop.isIndex)
    (hp : Spec.PlainSlice ⟨start.toIndex, stop.toIndex, none⟩ s.sig.1) :
    Spec.AttributesFit (signalStep s (.cropSig start stop)).1 := by
  simp only [signalStep, cropSigRows]
  by_cases hfull : ((PySlice.mk start.toIndex stop.toIndex none).positions s.sig.1).length = s.sig.1
  · rw [if_pos hfull, hfull]
    exact hs
  · rw [if_neg hfull, if_pos ⟨h1, h2⟩]
    have := isig_fits hs hp (crop_whole_slice s.sig.2 hs.sig_pos.2)
    simpa only [isigAttrs, whole_positions, List.length_range] using this

theorem cropNav_fits {s : LiveSignal K X} (hs : Spec.AttributesFit s) {start stop : CropArg}
    (h1 : start.isIndex) (h2 : stop.isIndex)
    (hp : (PySlice.mk start.toIndex stop.toIndex none).positions s.nav.1 ≠ []) :
    Spec.AttributesFit (signalStep s (.cropNav start stop)).1 := by
  simp only [signalStep, cropNav, cropNavRows]
  by_cases hfull : ((PySlice.mk start.toIndex stop.toIndex none).positions s.nav.1).length = s.nav.1
  · rw [if_pos hfull, hfull]
    exact hs
  · rw [if_neg hfull, if_pos ⟨h1, h2⟩]
    have hne : (PySlice.mk none none none).positions s.nav.2 ≠ [] := by
      rw [whole_positions]
      intro h
      have := congrArg List.length h
      have := hs.nav_pos.2
      simp at *
      omega
    have := inav_fits hs (sx := ⟨none, none, none⟩) (Or.inl rfl) (Or.inl rfl) hp hne
    simpa only [whole_positions, List.length_range] using this

theorem downsample_fits {s : LiveSignal K X} (hs : Spec.AttributesFit s) (factor : ℤ)
    (dtypeOut : Option DType) : Spec.AttributesFit (downsampleLive s factor dtypeOut).1 := by
  unfold downsampleLive
  cases h : downsample ⟨s.dtype, s.sig.1, s.sig.2, [], s.attrs.background.map imgOfRows,
      s.attrs.detector⟩ factor dtypeOut with
  | error e => exact hs
  | ok r =>
    unfold downsample at h
    dsimp only at h
    split at h
    · cases h
    · rename_i hf
      split at h
      · cases h
      · rename_i hdiv
        push Not at hdiv
        split at h
        · cases h
        · rename_i omin omax _
          injection h with h
          subst h
          have hf0 : 0 < factor.toNat := by omega
          have h1 : 0 < s.sig.1 / factor.toNat :=
            Nat.div_pos (Nat.le_of_dvd hs.sig_pos.1 (Nat.dvd_of_mod_eq_zero hdiv.2)) hf0
          have h2 : 0 < s.sig.2 / factor.toNat :=
            Nat.div_pos (Nat.le_of_dvd hs.sig_pos.2 (Nat.dvd_of_mod_eq_zero hdiv.1)) hf0
          refine ⟨hs.nav_pos, ⟨h1, h2⟩, ⟨rfl, rfl⟩, hs.well_formed, hs.one_or_all, ?_, hs.xmap⟩
          intro b hb
          simp only [Option.map_map, Option.map_eq_some_iff] at hb
          obtain ⟨bg, hbg, rfl⟩ := hb
          obtain ⟨b1, b2⟩ := hs.background bg hbg
          have hi := imgOfRows_shape hs.sig_pos.1 b1 b2
          have ht := toRows_shape (downsample2d (imgOfRows bg) factor.toNat (omin : K) (omax : K)
            (dtypeOut.getD s.dtype))
          have e1 : (downsample2d (imgOfRows bg) factor.toNat (omin : K) (omax : K)
              (dtypeOut.getD s.dtype)).rows = (imgOfRows bg).rows / factor.toNat := rfl
          have e2 : (downsample2d (imgOfRows bg) factor.toNat (omin : K) (omax : K)
              (dtypeOut.getD s.dtype)).cols = (imgOfRows bg).cols / factor.toNat := rfl
          rw [e1, e2, hi.1, hi.2] at ht
          exact ht

theorem rebin_fits {s : LiveSignal K X} (hs : Spec.AttributesFit s) (ny nx sy sx : ℕ) :
    Spec.AttributesFit (rebinLive s ny nx sy sx).1 := by
  unfold rebinLive
  dsimp only
  split
  · exact hs
  · rename_i hpos
    push Not at hpos
    split
    · exact hs
    · rename_i hch
      have hch' : ¬(List.zipWith (· / ·) [s.nav.1, s.nav.2] [ny, nx] = [s.nav.1, s.nav.2]
          ∧ s.sig.1 / sy = s.sig.1 ∧ s.sig.2 / sx = s.sig.2) := by
        intro h
        apply hch
        simp only [List.zipWith_cons_cons, List.zipWith_nil_left, List.cons.injEq, and_true] at h
        exact ⟨Prod.ext h.1.1 h.1.2, Prod.ext h.2.1 h.2.2⟩
      unfold rebinAttrs
      dsimp only
      rw [if_neg hch']
      by_cases hnav : List.zipWith (· / ·) [s.nav.1, s.nav.2] [ny, nx] ≠ [s.nav.1, s.nav.2]
      · rw [if_pos hnav]
        refine ⟨⟨Nat.pos_of_ne_zero hpos.1, Nat.pos_of_ne_zero hpos.2.1⟩,
          ⟨Nat.pos_of_ne_zero hpos.2.2.1, Nat.pos_of_ne_zero hpos.2.2.2⟩,
          ⟨rfl, rfl⟩, ?_, ?_, ?_, ?_⟩
        · simp [Spec.WellFormed]
        · right; simp
        · intro b hb; simp at hb
        · intro m hm; simp at hm
      · rw [if_neg hnav]
        push Not at hnav
        simp only [List.zipWith_cons_cons, List.zipWith_nil_left, List.cons.injEq, and_true] at hnav
        refine ⟨⟨Nat.pos_of_ne_zero hpos.1, Nat.pos_of_ne_zero hpos.2.1⟩,
          ⟨Nat.pos_of_ne_zero hpos.2.2.1, Nat.pos_of_ne_zero hpos.2.2.2⟩,
          ⟨rfl, rfl⟩, hs.well_formed, ?_, ?_, ?_⟩
        · simp only [hnav.1, hnav.2]
          exact hs.one_or_all
        · intro b hb
          simp only [Option.map_eq_some_iff] at hb
          obtain ⟨p, hp, rfl⟩ := hb
          have ht := toRows_shape p
          split at hp
          · simp only [Option.map_map, Option.map_eq_some_iff] at hp
            obtain ⟨bg, hbg, rfl⟩ := hp
            obtain ⟨b1, b2⟩ := hs.background bg hbg
            have hi := imgOfRows_shape hs.sig_pos.1 b1 b2
            simp only [Function.comp, rebinImg, hi.1, hi.2] at ht ⊢
            exact ht
          · rename_i hsame
            simp only [Option.map_eq_some_iff] at hp
            obtain ⟨bg, hbg, rfl⟩ := hp
            obtain ⟨b1, b2⟩ := hs.background bg hbg
            have hi := imgOfRows_shape hs.sig_pos.1 b1 b2
            simp only [ne_eq, Prod.mk.injEq, not_not] at hsame
            simp only [hsame.1, hsame.2]
            rw [hi.1, hi.2] at ht
            exact ht
        · intro m hm
          simp only [hnav.1, hnav.2]
          exact hs.xmap m hm

/-- The rows of a grid are of one length, and there is at least one point. -/
theorem gridIndices_rectangle {gy gx ny nx : ℕ} {idx : List (List (ℤ × ℤ))} {sy sx : ℕ}
    (h : gridIndices gy gx ny nx = .ok (idx, sy, sx)) :
    0 < idx.length ∧ 0 < (idx.headD []).length
    ∧ idx.flatten.length = idx.length * (idx.headD []).length := by
  unfold gridIndices at h
  dsimp only at h
  split at h
  · cases h
  · split at h
    · rename_i first last hf hl
      injection h with h
      simp only [Prod.mk.injEq] at h
      obtain ⟨h, -, -⟩ := h
      subst h
      cases hy : stridedTail ny (gridSpacing gy ny) with
      | nil => rw [hy] at hf; simp at hf
      | cons y ys =>
        cases hx : stridedTail nx (gridSpacing gx nx) with
        | nil => rw [hy, hx] at hf; simp at hf
        | cons x xs =>
          refine ⟨by simp, by simp, ?_⟩
          rw [List.length_flatten]
          simp only [List.map_map, Function.comp_def, List.length_map, List.map_const']
          simp
    · cases h

theorem extract_fits {s : LiveSignal K X} (hs : Spec.AttributesFit s) (gx gy : ℕ)
    (hx : s.attrs.xmap = none) : Spec.AttributesFit (extractLive s gx gy).1 := by
  unfold extractLive
  split
  · rename_i r idx h
    unfold extractGrid at h
    dsimp only at h
    split at h
    · cases h
    · split at h
      · cases h
      · rename_i idx' sy sx hidx
        have hrect := gridIndices_rectangle hidx
        split at h
        · cases h
        · rename_i flat hflat
          have hfl := allSome_length hflat
          split at h
          · cases h
          · split at h
            · cases h
            · rename_i nav pc hpc
              injection h with h
              simp only [Prod.mk.injEq] at h
              obtain ⟨h, rfl⟩ := h
              subst h
              have hpcs : pc.length = nav.prod ∧ (pc.length = 1
                  ∨ (nav = [idx'.length, (idx'.headD []).length]
                    ∧ pc.length = idx'.length * (idx'.headD []).length)) := by
                split at hpc
                · simp only [Option.map_eq_some_iff, Prod.mk.injEq] at hpc
                  obtain ⟨l, hl, rfl, rfl⟩ := hpc
                  have hll := allSome_length hl
                  have e : l.length = idx'.length * (idx'.headD []).length := by
                    have e1 := congrArg List.length hll
                    have e2 := congrArg List.length hfl
                    rw [List.length_map, List.length_map] at e1 e2
                    rw [← e1, ← e2]
                    exact hrect.2.2
                  exact ⟨by simp [e], Or.inr ⟨rfl, e⟩⟩
                · rename_i hne
                  split at hpc
                  · injection hpc with hpc
                    simp only [Prod.mk.injEq] at hpc
                    obtain ⟨rfl, rfl⟩ := hpc
                    exact ⟨by simp, Or.inl (by simp)⟩
                  · rename_i h1
                    injection hpc with hpc
                    simp only [Prod.mk.injEq] at hpc
                    obtain ⟨rfl, rfl⟩ := hpc
                    push Not at h1
                    refine ⟨hs.well_formed, Or.inl ?_⟩
                    have := hs.well_formed
                    unfold Spec.WellFormed at this
                    rw [this, h1]; rfl
              refine ⟨⟨hrect.1, hrect.2.1⟩, hs.sig_pos, hs.detector_shape, hpcs.1, hpcs.2,
                hs.background, ?_⟩
              intro m hm
              rw [hx] at hm
              simp at hm
  · exact hs

/-- The setters (C132): a detector is accepted exactly if it has the shape of the patterns and one
projection center or an array of them of the shape of the map; a crystal map exactly if it has the
shape of the map.  What is refused raises an error and leaves the signal as it was; what is accepted
is the new attribute, and nothing else changes. -/
theorem C132_assign (s : LiveSignal K X) (d : Detector K) (m : SlicedMap X) :
    (d.nrows = s.sig.1 ∧ d.ncols = s.sig.2 ∧ (d.nav = [1] ∨ d.nav = [s.nav.1, s.nav.2]) →
      signalStep s (.setDetector d) = ({ s with attrs := { s.attrs with detector := d } }, none))
    ∧ (¬ (d.nrows = s.sig.1 ∧ d.ncols = s.sig.2 ∧ (d.nav = [1] ∨ d.nav = [s.nav.1, s.nav.2])) →
      signalStep s (.setDetector d) = (s, some .valueError))
    ∧ (m.shape = [s.nav.1, s.nav.2] →
      signalStep s (.setXmap (some m)) = ({ s with attrs := { s.attrs with xmap := some m } }, none))
    ∧ (m.shape ≠ [s.nav.1, s.nav.2] → signalStep s (.setXmap (some m)) = (s, some .valueError)) := by
  refine ⟨?_, ?_, ?_, ?_⟩
  · rintro ⟨h1, h2, h3⟩
    simp only [signalStep, setDetector, checkDetector]
    rw [if_neg (by tauto), if_neg (by simp [h1, h2])]
  · intro h
    simp only [signalStep, setDetector, checkDetector]
    by_cases h3 : d.nav ≠ [1] ∧ d.nav ≠ [s.nav.1, s.nav.2]
    · rw [if_pos h3]
    · rw [if_neg h3, if_pos]
      intro he
      simp only [List.cons.injEq, and_true] at he
      exact h ⟨he.1.symm, he.2.symm, by tauto⟩
  · intro h
    simp only [signalStep, setXmap]
    rw [if_pos h]
  · intro h
    simp only [signalStep, setXmap]
    rw [if_neg h]

/-- One operation keeps the attributes fitting. -/
theorem step_fits {s : LiveSignal K X} (hs : Spec.AttributesFit s) (op : SignalOp K X)
    (hop : Spec.RegularOp s op) : Spec.AttributesFit (signalStep s op).1 := by
  cases op with
  | setDetector d =>
    have h := C132_assign s d ⟨[], []⟩
    by_cases hd : d.nrows = s.sig.1 ∧ d.ncols = s.sig.2 ∧ (d.nav = [1] ∨ d.nav = [s.nav.1, s.nav.2])
    · rw [h.1 hd]
      have hw : d.pc.length = d.nav.prod := hop
      refine ⟨hs.nav_pos, hs.sig_pos, ⟨hd.1, hd.2.1⟩, hop, ?_, hs.background, hs.xmap⟩
      rcases hd.2.2 with h1 | h1
      · left; simp only; rw [hw, h1]; rfl
      · right; refine ⟨h1, ?_⟩; simp only; rw [hw, h1]; simp
    · rw [h.2.1 hd]; exact hs
  | setXmap m =>
    cases m with
    | none => exact hs
    | some m =>
      have h := C132_assign s s.attrs.detector m
      by_cases hm : m.shape = [s.nav.1, s.nav.2]
      · rw [h.2.2.1 hm]
        refine ⟨hs.nav_pos, hs.sig_pos, hs.detector_shape, hs.well_formed, hs.one_or_all,
          hs.background, ?_⟩
        intro m' hm'
        injection hm' with hm'
        subst hm'
        exact hm
      · rw [h.2.2.2 hm]; exact hs
  | setBackground b =>
    cases b with
    | none => exact hs
    | some b =>
      refine ⟨hs.nav_pos, hs.sig_pos, hs.detector_shape, hs.well_formed, hs.one_or_all, ?_, hs.xmap⟩
      intro b' hb'
      exact hop b' hb'
  | inav sy sx => exact inav_fits hs hop.1 hop.2.1 hop.2.2.1 hop.2.2.2
  | isig sy sx => exact isig_fits hs hop.1 hop.2
  | cropNav start stop => exact cropNav_fits hs hop.1 hop.2.1 hop.2.2
  | cropSig start stop => exact cropSig_fits hs hop.1 hop.2.1 hop.2.2
  | downsample factor dtypeOut => exact downsample_fits hs factor dtypeOut
  | rebin ny nx sy sx => exact rebin_fits hs ny nx sy sx
  | extractGrid gx gy => exact extract_fits hs gx gy hop

/-- C132 (partial): after every history of regular operations, of any length and in any order, with
any of them failing, the attributes fit the data.  Missing: the operations which are not regular,
see below and `C50_not_open_end`, `C50_not_step`, `C50_not_crop_units`. -/
theorem C132_history_partial {s : LiveSignal K X} (hs : Spec.AttributesFit s)
    {ops : List (SignalOp K X)} (hops : Spec.RegularHistory s ops) :
    Spec.AttributesFit (signalRun s ops) := by
  induction ops generalizing s with
  | nil => exact hs
  | cons op l ih => exact ih (step_fits hs op hops.1) hops.2

/-- C132: the assigned detector and crystal map can be given to refinement: the same checks are made
there. -/
theorem C132_checked (s : LiveSignal K X) (d : Detector K) :
    (signalStep s (.setDetector d)).2 = none ↔
      (checkDetector [s.nav.1, s.nav.2] [s.sig.1, s.sig.2] ⟨[d.nrows, d.ncols], d.nav⟩).toOption
        = some () := by
  simp only [signalStep, setDetector]
  cases checkDetector [s.nav.1, s.nav.2] [s.sig.1, s.sig.2] ⟨[d.nrows, d.ncols], d.nav⟩ <;>
    simp [Except.toOption]

/-- The code does not satisfy C132: any background is accepted, of whatever shape. -/
theorem C132_background_violated (s : LiveSignal K X) (b : List (List K)) :
    (signalStep s (.setBackground (some b))).2 = none
    ∧ (signalStep s (.setBackground (some b))).1.attrs.background = some b := ⟨rfl, rfl⟩

/-- The code does not satisfy C132: a crystal map or background cannot be removed. -/
theorem C132_remove_violated (s : LiveSignal K X) :
    signalStep s (.setXmap none) = (s, some .attributeError)
    ∧ signalStep s (.setBackground none) = (s, some .attributeError) := ⟨rfl, rfl⟩

theorem plain_extent {s : PySlice} {n : ℕ} (h : Spec.PlainSlice s n) :
    0 < min (s.stop.getD ((s.positions n).length : ℤ)) (n : ℤ) - max (s.start.getD 0) 0 := by
  have p := plain_positions h
  have h0 := h.start
  rcases ho : s.stop with _ | b
  · have h1 := h.open_end ho
    rw [ho] at p
    simp only [Option.getD_none] at p ⊢
    have p1 := p.2.1
    rw [p1, h1]
    omega
  · rw [ho] at p
    have p2 := p.2.2
    simp only [Option.getD_some] at p2 ⊢
    omega

/-- The code does not satisfy C132: with one projection center, after *every* slice of the patterns
that keeps the detector, in a map of more than one point, the detector of the signal is one the
signal refuses: it has navigation shape (1, 1). Refinement refuses it too, by `C132_checked`. -/
theorem C132_one_pc_violated {s : LiveSignal K X} (hs : Spec.AttributesFit s)
    (h1 : s.attrs.detector.nav = [1]) (hmap : s.nav ≠ (1, 1)) {sy sx : PySlice}
    (hy : Spec.PlainSlice sy s.sig.1) (hx : Spec.PlainSlice sx s.sig.2) :
    (signalStep s (.isig sy sx)).2 = none
    ∧ (signalStep s (.isig sy sx)).1.attrs.detector.nav = [1, 1]
    ∧ signalStep (signalStep s (.isig sy sx)).1
        (.setDetector (signalStep s (.isig sy sx)).1.attrs.detector)
      = ((signalStep s (.isig sy sx)).1, some .valueError) := by
  have hnav : (signalStep s (.isig sy sx)).1.attrs.detector.nav = [1, 1] := by
    have hd := hs.detector_shape
    simp only [signalStep, isigAttrs, sliceSigDetector]
    have hok : s.attrs.detector.crop (sliceExtent sy sx
        ((sy.positions s.sig.1).length, (sx.positions s.sig.2).length)) ≠ .error .valueError := by
      intro hbad
      unfold Detector.crop at hbad
      dsimp only [sliceExtent, cropExtent] at hbad
      split at hbad
      swap
      · cases hbad
      rename_i hcond
      rw [hd.1, hd.2] at hcond
      have ly := plain_extent hy
      have lx := plain_extent hx
      omega
    unfold Detector.crop at hok ⊢
    dsimp only at hok ⊢
    split at hok
    · exact absurd rfl hok
    · rename_i hc
      rw [if_neg hc]
      simp only [h1, dstackNav]
  refine ⟨rfl, hnav, ?_⟩
  apply (C132_assign _ _ ⟨[], []⟩).2.1
  rintro ⟨-, -, h | h⟩
  · rw [hnav] at h; simp at h
  · rw [hnav] at h
    simp only [List.cons.injEq, and_true] at h
    exact hmap (Prod.ext h.1.symm h.2.symm)

/-- Operations which are regular and do not slice patterns of a signal with one projection center. -/
def Spec.KeepsCenters (s : LiveSignal K X) : SignalOp K X → Prop
  | .isig _ _ => s.attrs.detector.nav = [s.nav.1, s.nav.2]
  | .cropSig _ _ => s.attrs.detector.nav = [s.nav.1, s.nav.2]
  | _ => True

/-- Histories of operations which are regular and keep projection centers. -/
def Spec.AcceptedHistory (s : LiveSignal K X) : List (SignalOp K X) → Prop
  | [] => True
  | op :: l => Spec.RegularOp s op ∧ Spec.KeepsCenters s op
      ∧ Spec.AcceptedHistory (signalStep s op).1 l

/-- The detector of the signal is one it accepts. -/
def AcceptsOwn (s : LiveSignal K X) : Prop :=
  s.attrs.detector.nav = [1] ∨ s.attrs.detector.nav = [s.nav.1, s.nav.2]

theorem dstackNav_two (a b : ℕ) : dstackNav [a, b] = [a, b] := rfl

theorem sliceSig_nav {d : Detector K} {a b : ℕ} (h : d.nav = [a, b]) (sy sx : PySlice) (new : ℕ × ℕ) :
    (sliceSigDetector d sy sx new).nav = [1] ∨ (sliceSigDetector d sy sx new).nav = [a, b] := by
  unfold sliceSigDetector
  cases hc : d.crop (sliceExtent sy sx new) with
  | error e => exact Or.inl rfl
  | ok d' =>
    unfold Detector.crop at hc
    dsimp only at hc
    split at hc
    · cases hc
    · injection hc with hc
      subst hc
      right
      simp only [h, dstackNav]

theorem sliceNav_nav {d : Detector K} {ny nx : ℕ} (h : d.nav = [1] ∨ d.nav = [ny, nx])
    (sy sx : PySlice) : (sliceNavDetector d sy sx).nav = [1]
      ∨ (sliceNavDetector d sy sx).nav = [(sy.positions ny).length, (sx.positions nx).length] := by
  rcases h with h | h
  · left
    unfold sliceNavDetector
    rw [h]
    exact h
  · unfold sliceNavDetector
    rw [h]
    dsimp only
    split
    · exact Or.inl rfl
    · exact Or.inr rfl

theorem step_acceptsOwn {s : LiveSignal K X} (h : AcceptsOwn s) (op : SignalOp K X)
    (hop : Spec.RegularOp s op) (hk : Spec.KeepsCenters s op) : AcceptsOwn (signalStep s op).1 := by
  cases op with
  | setDetector d =>
    have ha := C132_assign s d ⟨[], []⟩
    by_cases hd : d.nrows = s.sig.1 ∧ d.ncols = s.sig.2 ∧ (d.nav = [1] ∨ d.nav = [s.nav.1, s.nav.2])
    · rw [ha.1 hd]; exact hd.2.2
    · rw [ha.2.1 hd]; exact h
  | setXmap m =>
    cases m with
    | none => exact h
    | some m =>
      simp only [signalStep, setXmap]
      split <;> exact h
  | setBackground b => cases b <;> exact h
  | inav sy sx => exact sliceNav_nav h sy sx
  | isig sy sx => exact sliceSig_nav hk sy sx _
  | cropNav start stop =>
    simp only [signalStep, cropNav, cropNavRows]
    by_cases hfull : ((PySlice.mk start.toIndex stop.toIndex none).positions s.nav.1).length = s.nav.1
    · rw [if_pos hfull, hfull]; exact h
    · rw [if_neg hfull, if_pos ⟨hop.1, hop.2.1⟩]
      have := sliceNav_nav h ⟨start.toIndex, stop.toIndex, none⟩ ⟨none, none, none⟩
      simp only [whole_positions, List.length_range] at this
      exact this
  | cropSig start stop =>
    simp only [signalStep, cropSigRows]
    by_cases hfull : ((PySlice.mk start.toIndex stop.toIndex none).positions s.sig.1).length = s.sig.1
    · rw [if_pos hfull]; exact h
    · rw [if_neg hfull, if_pos ⟨hop.1, hop.2.1⟩]
      exact sliceSig_nav hk _ _ _
  | downsample factor dtypeOut =>
    simp only [signalStep, downsampleLive]
    cases hd : downsample ⟨s.dtype, s.sig.1, s.sig.2, [], s.attrs.background.map imgOfRows,
      s.attrs.detector⟩ factor dtypeOut with
    | error e => exact h
    | ok r =>
      unfold downsample at hd
      dsimp only at hd
      split at hd
      · cases hd
      · split at hd
        · cases hd
        · split at hd
          · cases hd
          · injection hd with hd
            subst hd
            exact h
  | rebin ny nx sy sx =>
    simp only [signalStep, rebinLive]
    split
    · exact h
    · split
      · exact h
      · unfold rebinAttrs
        dsimp only
        split
        · rename_i hn
          simp only [List.zipWith_cons_cons, List.zipWith_nil_left, List.cons.injEq, and_true] at hn
          simp only [AcceptsOwn, hn.1.1, hn.1.2]
          exact h
        · split
          · right; simp
          · rename_i hn
            push Not at hn
            simp only [List.zipWith_cons_cons, List.zipWith_nil_left, List.cons.injEq, and_true] at hn
            simp only [AcceptsOwn, hn.1, hn.2]
            exact h
  | extractGrid gx gy =>
    simp only [signalStep, extractLive]
    split
    · rename_i r idx he
      unfold extractGrid at he
      dsimp only at he
      split at he
      · cases he
      · split at he
        · cases he
        · split at he
          · cases he
          · split at he
            · cases he
            · split at he
              · cases he
              · rename_i nav pc hpc
                injection he with he
                simp only [Prod.mk.injEq] at he
                obtain ⟨he, rfl⟩ := he
                subst he
                split at hpc
                · simp only [Option.map_eq_some_iff, Prod.mk.injEq] at hpc
                  obtain ⟨l, hl, rfl, rfl⟩ := hpc
                  exact Or.inr rfl
                · split at hpc
                  · injection hpc with hpc
                    simp only [Prod.mk.injEq] at hpc
                    obtain ⟨rfl, rfl⟩ := hpc
                    exact Or.inl rfl
                  · rename_i h1
                    injection hpc with hpc
                    simp only [Prod.mk.injEq] at hpc
                    obtain ⟨rfl, rfl⟩ := hpc
                    push Not at h1
                    exact Or.inl h1
    · exact h

/-- C132 (partial), use of the signal: after every history of regular operations without slicing
patterns of a signal with one projection center, detector and crystal map of the signal are ones it
accepts, so they can be used in refinement. -/
theorem C132_accepted_partial {s : LiveSignal K X} (hs : Spec.AttributesFit s)
    (hnav : s.attrs.detector.nav = [1] ∨ s.attrs.detector.nav = [s.nav.1, s.nav.2])
    {ops : List (SignalOp K X)} (hops : Spec.AcceptedHistory s ops) :
    signalStep (signalRun s ops) (.setDetector (signalRun s ops).attrs.detector)
      = (signalRun s ops, none)
    ∧ ∀ m, (signalRun s ops).attrs.xmap = some m →
        signalStep (signalRun s ops) (.setXmap (some m)) = (signalRun s ops, none) := by
  have key : ∀ {ops : List (SignalOp K X)} {s : LiveSignal K X}, Spec.AttributesFit s → AcceptsOwn s →
      Spec.AcceptedHistory s ops → Spec.AttributesFit (signalRun s ops) ∧ AcceptsOwn (signalRun s ops) := by
    intro ops
    induction ops with
    | nil => exact fun h1 h2 _ => ⟨h1, h2⟩
    | cons op l ih =>
      intro s h1 h2 h3
      exact ih (step_fits h1 op h3.1) (step_acceptsOwn h2 op h3.1 h3.2.1) h3.2.2
  obtain ⟨hf, ha⟩ := key hs hnav hops
  refine ⟨?_, ?_⟩
  · rw [(C132_assign _ _ ⟨[], []⟩).1 ⟨hf.detector_shape.1, hf.detector_shape.2, ha⟩]
  · intro m hm
    rw [(C132_assign _ (signalRun s ops).attrs.detector m).2.2.1 (hf.xmap m hm)]
    have e : ({ (signalRun s ops).attrs with xmap := some m } : SignalAttrs K K X)
        = (signalRun s ops).attrs := by
      rw [← hm]
    rw [e]

/-- A signal with a map of 3 × 5 points and patterns of 4 × 4 pixels, with a projection center per
point, background and crystal map. -/
def liveExample : LiveSignal ℚ ℕ :=
  { nav := (3, 5)
    sig := (4, 4)
    dtype := .uint 8
    attrs := ⟨⟨4, 4, 1, 1, 0, 0, 0, 70, [3, 5], List.replicate 15 ⟨1 / 3, 1 / 4, 1⟩⟩,
      some (List.replicate 4 [1, 2, 3, 4]), some ⟨[3, 5], List.range 15⟩⟩ }

/-- The hypotheses are met. -/
example : Spec.AttributesFit liveExample := by
  refine ⟨by decide, by decide, ⟨rfl, rfl⟩, by unfold Spec.WellFormed; decide +kernel, Or.inr ⟨rfl, by decide +kernel⟩, ?_, ?_⟩
  · intro b hb
    injection hb with hb
    subst hb
    exact ⟨by decide, by decide +kernel⟩
  · intro m hm
    injection hm with hm
    subst hm
    rfl

/-- A history of regular operations: a slice of the map from its end, cropping of patterns, a detector
which does not fit (refused), rebinning of patterns, and a grid which does not exist (refused). -/
def liveHistory : List (SignalOp ℚ ℕ) :=
  [.inav ⟨some (-2), none, none⟩ ⟨some 1, some 4, none⟩, .cropSig (.index 1) (.index 3),
    .setDetector ⟨4, 4, 1, 1, 0, 0, 0, 70, [1], [⟨0, 0, 1⟩]⟩, .setXmap none, .rebin 1 1 2 2,
    .downsample 3 none, .setXmap (some ⟨[2, 3], [0, 1, 2, 3, 4, 5]⟩)]

example : Spec.AcceptedHistory liveExample liveHistory := by
  refine ⟨⟨Or.inl rfl, Or.inl rfl, by decide +kernel, by decide +kernel⟩, trivial,
    ⟨rfl, rfl, ⟨Or.inl rfl, by decide +kernel, ?_, ?_⟩⟩,
    (by simp only [Spec.KeepsCenters]; decide +kernel),
    (by simp only [Spec.RegularOp, Spec.WellFormed]; decide +kernel), trivial,
    trivial, trivial, trivial, trivial, trivial, trivial, trivial, trivial, trivial⟩
  · intro b hb
    injection hb with hb
    subst hb
    decide
  · intro h
    cases h

example : (signalRun liveExample liveHistory).nav = (2, 3)
    ∧ (signalRun liveExample liveHistory).sig = (1, 2)
    ∧ (signalRun liveExample liveHistory).attrs.background = some [[6, 14]]
    ∧ (signalRun liveExample liveHistory).attrs.detector.nav = [2, 3]
    ∧ (signalRun liveExample liveHistory).attrs.xmap = some ⟨[2, 3], [0, 1, 2, 3, 4, 5]⟩ := by
  decide +kernel

/-- The code does not satisfy C132: after extracting a grid of one row with two points from the map, the
crystal map is wider than the map, and the signal refuses it. -/
theorem C132_grid_violated :
    (signalStep liveExample (.extractGrid 2 1)).2 = none
    ∧ (signalStep liveExample (.extractGrid 2 1)).1.nav = (1, 2)
    ∧ ((signalStep liveExample (.extractGrid 2 1)).1.attrs.xmap.map SlicedMap.shape) = some [1, 3]
    ∧ (signalStep (signalStep liveExample (.extractGrid 2 1)).1
        (.setXmap (signalStep liveExample (.extractGrid 2 1)).1.attrs.xmap)).2 = some .valueError := by
  decide +kernel

end Kp
