import Verif.Lemmas.RgbImage
import Verif.Props.Rescale
import Verif.Props.VirtualBse

/-!
C79: RGB virtual backscatter electron images.

* `C79_channel`: a channel is, in every map point, the sum of the intensities in its tiles.
* `C79_image`, `C79_image_percentiles`: every value of the image is an integer within the range of
  the data type, and one non-decreasing function maps the channels (normalized, multiplied by alpha)
  to the image.
* `C79_gain`: with normalization, gain and offset of a channel do not matter.
* `C79_brightness_violated`: brightness and contrast have no effect unless intensities are clipped.
* `C79_markers_violated`, `C79_markers_partial`: coloured tile edges.
* `C79_axes_partial`, `C79_offset_violated`: axes of the image.
-/

set_option linter.unusedSectionVars false

namespace Kp

section
variable {K : Type} [Field K] [LinearOrder K] [IsStrictOrderedRing K] [FloorRing K]

/-- **C79**: for a grid of tiles of `qy` times `qx` pixels, the channel of a list of tiles is the sum
of the intensities of all pixels of each tile. -/
theorem C79_channel {A : Type} [AddCommMonoid A] {gy gx qy qx : ℕ} {δy δx : K}
    (hδy : 0 < δy) (hδx : 0 < δx) (hgy : 0 < gy) (hgx : 0 < gx) (hqy : 0 < qy) (hqx : 0 < qx)
    (p : ℕ → ℕ → A) (tiles : List (ℕ × ℕ)) (ht : ∀ t ∈ tiles, t.1 < gy ∧ t.2 < gx) :
    channelValue (⟨gy * qy, δy, 0⟩ : SigAxis K) ⟨gx * qx, δx, 0⟩ gy gx p
        (tiles.map fun t => .tile t.1 t.2) =
      .ok ((tiles.map fun t => ∑ r ∈ Finset.Ico (t.1 * qy) ((t.1 + 1) * qy),
        ∑ c ∈ Finset.Ico (t.2 * qx) ((t.2 + 1) * qx), p r c).sum) := by
  have hyd := C53_dividing_grid (gy * qy) gy hgy ⟨qy, rfl⟩
  have hxd := C53_dividing_grid (gx * qx) gx hgx ⟨qx, rfl⟩
  have edge : ∀ g q k : ℕ, 0 < g → pixelEdge K (g * q) g k = k * q := by
    intro g q k hg
    have hg' : (g : K) ≠ 0 := by exact_mod_cast hg.ne'
    unfold pixelEdge
    have : (k : K) * ((g * q : ℕ) : K) / g = (((k * q : ℕ) : ℤ) : K) := by
      push_cast
      field_simp
    rw [this, npRound_int]
    exact Int.toNat_natCast _
  induction tiles with
  | nil => rfl
  | cons t l ih =>
    obtain ⟨hr, hc⟩ := ht t List.mem_cons_self
    have hrec := ih fun s hs => ht s (List.mem_cons_of_mem _ hs)
    obtain ⟨roi, e1, e2⟩ := tile_pixels hδy hδx hgy hgx (Nat.le_mul_of_pos_right gy hqy)
      (Nat.le_mul_of_pos_right gx hqx) hyd hxd hr hc
    have e3 : vbseIntensity (⟨gy * qy, δy, 0⟩ : SigAxis K) ⟨gx * qx, δx, 0⟩ roi p =
        .ok (∑ r ∈ Finset.Ico (t.1 * qy) ((t.1 + 1) * qy),
          ∑ c ∈ Finset.Ico (t.2 * qx) ((t.2 + 1) * qx), p r c) := by
      unfold vbseIntensity
      rw [e2]
      simp only [edge _ _ _ hgy, edge _ _ _ hgx]
      rfl
    simp only [List.map_cons, channelValue, RoiArg.toRoi, e1, e3, hrec, List.sum_cons]

example : (0 : ℚ) < 1 ∧ ∀ t ∈ [(0, 1), (2, 3)], t.1 < 5 ∧ t.2 < 5 := by
  refine ⟨by norm_num, by decide⟩

/-- **C79** (part): for a grid of square tiles, the edges coloured by `plot_grid()` are centered on
the tiles. Missing: other tiles (`C79_markers_violated`). -/
theorem C79_markers_partial {gy gx q : ℕ} (hgy : 0 < gy) (hgx : 0 < gx) (tiles : List (ℕ × ℕ))
    (ht : ∀ t ∈ tiles, t.1 < gy ∧ t.2 < gx) :
    rgbTileCoordinates (K := K) (gy * q) (gx * q) gy gx tiles =
      .ok (tiles.map fun t => ((t.2 : K) * q + (q - 1) / 2, (t.1 : K) * q + (q - 1) / 2)) := by
  have hgy' : (gy : K) ≠ 0 := by exact_mod_cast hgy.ne'
  have hgx' : (gx : K) ≠ 0 := by exact_mod_cast hgx.ne'
  unfold rgbTileCoordinates
  rw [if_pos (by simpa using ht), Nat.mul_div_cancel_left _ hgy, Nat.mul_div_cancel_left _ hgx]
  congr 1
  apply List.map_congr_left
  intro t _
  push_cast
  ext
  · field_simp; ring
  · field_simp; ring

/-- **C79 violated**: for tiles of `qy` times `qx` pixels the coloured edges are centered on the
tiles if and only if the tiles are square: half the height is added to x, half the width to y. -/
theorem C79_markers_violated {gy gx qy qx : ℕ} (hgy : 0 < gy) (hgx : 0 < gx) (t : ℕ × ℕ)
    (ht : t.1 < gy ∧ t.2 < gx) :
    rgbTileCoordinates (K := K) (gy * qy) (gx * qx) gy gx [t] =
      .ok [((t.2 : K) * qx + (qx - 1) / 2, (t.1 : K) * qy + (qy - 1) / 2)] ↔ qy = qx := by
  have hgy' : (gy : K) ≠ 0 := by exact_mod_cast hgy.ne'
  have hgx' : (gx : K) ≠ 0 := by exact_mod_cast hgx.ne'
  unfold rgbTileCoordinates
  rw [if_pos (by simpa using ht), Nat.mul_div_cancel_left _ hgy, Nat.mul_div_cancel_left _ hgx]
  simp only [List.map_cons, List.map_nil, Except.ok.injEq, List.cons.injEq, Prod.mk.injEq, and_true]
  have hx : ((gx * qx : ℕ) : K) / gx = qx := by push_cast; field_simp
  have hy : ((gy * qy : ℕ) : K) / gy = qy := by push_cast; field_simp
  rw [mul_div_assoc, mul_div_assoc, hx, hy]
  constructor
  · rintro ⟨h1, -⟩
    have : (qy : K) = qx := by linarith
    exact_mod_cast this
  · rintro rfl
    constructor <;> ring

end

section
variable {K : Type}

/-- **C79** (part): name, scale and unit of the map axes are those of the image axes. Missing: the
offset (`C79_offset_violated`). -/
theorem C79_axes_partial (new old : List (NamedAxis K)) (i : ℕ) (a b : NamedAxis K)
    (ha : new[i]? = some a) (hb : old[i]? = some b) :
    ∃ c, (transferAxes new old)[i]? = some c ∧ c.name = b.name ∧ c.scale = b.scale ∧
      c.units = b.units ∧ c.offset = a.offset := by
  induction new generalizing old i with
  | nil => simp at ha
  | cons n ns ih =>
    rcases old with _ | ⟨o, os⟩
    · simp at hb
    · rcases i with _ | i
      · simp only [List.getElem?_cons_zero, Option.some.injEq] at ha hb
        subst ha hb
        exact ⟨_, rfl, rfl, rfl, rfl, rfl⟩
      · simp only [List.getElem?_cons_succ] at ha hb
        simp only [transferAxes, List.getElem?_cons_succ]
        exact ih os i ha hb

end

/-- **C79 violated**: the offset of map axes is lost. -/
theorem C79_offset_violated :
    transferAxes [⟨"", 1, "", 0⟩] [(⟨"x", 2, "um", 10⟩ : NamedAxis ℚ)] = [⟨"x", 2, "um", 0⟩] := by
  decide +kernel

/-! ### The image -/

section

/-- Value of a channel in map point `k` before the final rescaling. -/
theorem rgbFlat_channel {n : ℕ} {channels : List (List ℝ)} (h3 : channels.length = 3)
    (hn : ∀ c ∈ channels, c.length = n) (bits : ℕ) (normalize : Bool) (alpha : Option (List ℝ))
    (ha : ∀ a ∈ alpha, a.length = n) (bright : ℤ) (contrast : ℝ) (k c : ℕ) (hk : k < n)
    (hc : c < 3) :
    ∃ img v, channels[c]? = some img ∧
      (rgbChannel bits normalize bright contrast alpha img)[k]? = some v ∧
      (rgbFlat n (channels.map (rgbChannel bits normalize bright contrast alpha)))[3 * k + c]? =
        some v := by
  have hcl : c < channels.length := by omega
  have hlen : (channels[c]).length = n := hn _ (List.getElem_mem hcl)
  have hl : (rgbChannel bits normalize bright contrast alpha channels[c]).length = n := by
    have h1 : (if normalize then normalizeImage bits bright contrast channels[c]
        else channels[c]).length = n := by
      split_ifs
      · unfold normalizeImage
        rw [List.length_map, hlen]
      · exact hlen
    unfold rgbChannel
    rcases alpha with _ | a
    · exact h1
    · have := ha a rfl
      simp only [List.length_zipWith, h1]
      unfold rescaledAlpha
      rw [List.length_map, this, Nat.min_self]
  refine ⟨channels[c], (rgbChannel bits normalize bright contrast alpha channels[c])[k],
    List.getElem?_eq_getElem hcl, List.getElem?_eq_getElem (by rw [hl]; exact hk), ?_⟩
  have hg : (channels.map (rgbChannel bits normalize bright contrast alpha)).getD c [] =
      rgbChannel bits normalize bright contrast alpha channels[c] := by
    rw [List.getD_eq_getElem?_getD, List.getElem?_map, List.getElem?_eq_getElem hcl]
    rfl
  rw [rgbFlat_get n k c hk hc, hg, List.getD_eq_getElem?_getD,
    List.getElem?_eq_getElem (by rw [hl]; exact hk)]
  rfl

/-- `f` makes integers of `bits` bits. -/
def ToUint (bits : ℕ) (f : ℝ → ℝ) : Prop := ∀ x, ∃ z : ℕ, f x = z ∧ z ≤ 2 ^ bits - 1

theorem toUint_of {bits : ℕ} {f : ℝ → ℝ} (h1 : ∀ x, ∃ z : ℤ, f x = z)
    (h2 : ∀ x, 0 ≤ f x ∧ f x ≤ ((2 ^ bits - 1 : ℤ) : ℝ)) : ToUint bits f := by
  intro x
  obtain ⟨z, hz⟩ := h1 x
  obtain ⟨h3, h4⟩ := h2 x
  rw [hz] at h3 h4
  have h5 : 0 ≤ z := by exact_mod_cast h3
  have h6 : z ≤ 2 ^ bits - 1 := by exact_mod_cast h4
  refine ⟨z.toNat, ?_, ?_⟩
  · rw [hz]
    have : ((z.toNat : ℤ) : ℝ) = (z : ℝ) := by rw [Int.toNat_of_nonneg h5]
    exact_mod_cast this.symm
  · have h7 : (1 : ℤ) ≤ 2 ^ bits := by exact_mod_cast Nat.one_le_two_pow
    have h8 : ((2 ^ bits - 1 : ℕ) : ℤ) = 2 ^ bits - 1 := by
      rw [Nat.cast_sub Nat.one_le_two_pow]
      norm_num
    omega

theorem castTo_uint_int (bits : ℕ) (x : ℝ) : ∃ z : ℤ, castTo (.uint bits) x = z := by
  simp only [castTo, truncate]
  split_ifs
  · exact ⟨_, rfl⟩
  · exact ⟨_, rfl⟩

/-- **C79**: one non-decreasing function to the integers of the data type maps the value of every
channel in every map point to the value of the image in that point and colour, and the image takes
the smallest and the largest value of the data type, unless all channels are one constant. -/
theorem C79_image {n : ℕ} {channels : List (List ℝ)} (h3 : channels.length = 3)
    (hn : ∀ c ∈ channels, c.length = n) (bits : ℕ) (normalize : Bool) (alpha : Option (List ℝ))
    (ha : ∀ a ∈ alpha, a.length = n) (bright : ℤ) (contrast : ℝ) (x y : ℝ)
    (hx : x ∈ rgbFlat n (channels.map (rgbChannel bits normalize bright contrast alpha)))
    (hy : y ∈ rgbFlat n (channels.map (rgbChannel bits normalize bright contrast alpha)))
    (hxy : x ≠ y) :
    ∃ out f, rgbImage n bits channels none normalize alpha bright contrast = .ok out ∧
      out.length = 3 * n ∧ Monotone f ∧ (∀ v ∈ out, ∃ z : ℕ, v = z ∧ z ≤ 2 ^ bits - 1) ∧
      FillsRange 0 ((2 ^ bits - 1 : ℤ) : ℝ) out ∧
      ∀ k c : ℕ, k < n → c < 3 → ∃ img v, channels[c]? = some img ∧
        (rgbChannel bits normalize bright contrast alpha img)[k]? = some v ∧
        out[3 * k + c]? = some (f v) := by
  generalize himg : rgbFlat n (channels.map (rgbChannel bits normalize bright contrast alpha)) =
    image at hx hy
  have hpow : (0 : ℤ) ≤ 2 ^ bits - 1 := by
    have : (1 : ℤ) ≤ 2 ^ bits := by exact_mod_cast Nat.one_le_two_pow
    omega
  have key := C11_rescale_dtype_range image (.float 32) (some (.uint bits)) x y hx hy hxy
  simp only [Option.getD_some, dtypeRange] at key
  obtain ⟨out, hout, hfill, -⟩ := key hpow
  have hout' : out = image.map fun v => castTo (.uint bits)
      (rescalePixel (listMin image) (listMax image) ((0 : ℤ) : ℝ) ((2 ^ bits - 1 : ℤ) : ℝ) v) := by
    simp only [rescaleIntensity, Option.getD_some, dtypeRange, Except.ok.injEq] at hout
    rw [← hout]
    unfold rescaleWithMinMax
    rw [List.map_map]
    rfl
  refine ⟨out, fun v => castTo (.uint bits)
      (rescalePixel (listMin image) (listMax image) ((0 : ℤ) : ℝ) ((2 ^ bits - 1 : ℤ) : ℝ) v),
    ?_, ?_, ?_, ?_, ?_, ?_⟩
  · unfold rgbImage
    simp only [himg, Option.map_none]
    exact hout
  · rw [hout', List.length_map, ← himg, rgbFlat_length]
  · exact (castTo_mono _).comp (rescalePixel_mono (listMin_lt_listMax hx hy hxy)
      (by exact_mod_cast hpow))
  · intro v hv
    have hb := hfill.2.2 v hv
    rw [hout'] at hv
    obtain ⟨u, -, hu⟩ := List.mem_map.1 hv
    obtain ⟨z, hz⟩ := castTo_uint_int bits
      (rescalePixel (listMin image) (listMax image) ((0 : ℤ) : ℝ) ((2 ^ bits - 1 : ℤ) : ℝ) u)
    have := toUint_of (bits := bits) (f := fun _ => v) (fun _ => ⟨z, by rw [← hu]; exact hz⟩)
      (fun _ => ⟨by simpa using hb.1, hb.2⟩) 0
    exact this
  · simpa using hfill
  · intro k c hk hc
    obtain ⟨img, v, h1, h2, h4⟩ := rgbFlat_channel h3 hn bits normalize alpha ha bright contrast k c
      hk hc
    refine ⟨img, v, h1, h2, ?_⟩
    rw [hout', List.getElem?_map, ← himg, h4]
    rfl

/-- **C79**: with percentiles, values outside the percentiles of the whole image get the smallest
and largest value of the data type. -/
theorem C79_image_percentiles {n : ℕ} {channels : List (List ℝ)} (h3 : channels.length = 3)
    (hn : ∀ c ∈ channels, c.length = n) (bits : ℕ) (normalize : Bool) (alpha : Option (List ℝ))
    (ha : ∀ a ∈ alpha, a.length = n) (bright : ℤ) (contrast : ℝ) (q r : ℝ)
    (hlt : percentile (rgbFlat n (channels.map (rgbChannel bits normalize bright contrast alpha))) q
      < percentile (rgbFlat n (channels.map (rgbChannel bits normalize bright contrast alpha))) r) :
    ∃ out f, rgbImage n bits channels (some (q, r)) normalize alpha bright contrast = .ok out ∧
      out.length = 3 * n ∧ ToUint bits f ∧
      RangeMap
        (percentile (rgbFlat n (channels.map (rgbChannel bits normalize bright contrast alpha))) q)
        (percentile (rgbFlat n (channels.map (rgbChannel bits normalize bright contrast alpha))) r)
        0 ((2 ^ bits - 1 : ℤ) : ℝ) f ∧
      ∀ k c : ℕ, k < n → c < 3 → ∃ img v, channels[c]? = some img ∧
        (rgbChannel bits normalize bright contrast alpha img)[k]? = some v ∧
        out[3 * k + c]? = some (f v) := by
  generalize himg : rgbFlat n (channels.map (rgbChannel bits normalize bright contrast alpha)) =
    image at hlt
  have hpow : (0 : ℤ) ≤ 2 ^ bits - 1 := by
    have : (1 : ℤ) ≤ 2 ^ bits := by exact_mod_cast Nat.one_le_two_pow
    omega
  have hpow' : (0 : ℝ) ≤ ((2 ^ bits - 1 : ℤ) : ℝ) := by exact_mod_cast hpow
  obtain ⟨hr1, hr2⟩ := representable_range (K := ℝ) (d := .uint bits) (lo := 0) (hi := 2 ^ bits - 1)
    rfl
  have hr1' : Representable ((some (DType.uint bits)).getD (.float 32)) (0 : ℝ) := by simpa using hr1
  let f : ℝ → ℝ := fun x => castTo (.uint bits)
    (rescalePixel (percentile image q) (percentile image r) 0 ((2 ^ bits - 1 : ℤ) : ℝ)
      (clip (percentile image q) (percentile image r) x))
  have hrm : RangeMap (percentile image q) (percentile image r) 0 ((2 ^ bits - 1 : ℤ) : ℝ) f := by
    refine ⟨?_, ?_, ?_, ?_⟩
    · intro x hx
      have : clip (percentile image q) (percentile image r) x = percentile image q := by
        unfold clip; rw [max_eq_right hx, min_eq_left hlt.le]
      simp only [f, this, rescalePixel_min]
      exact castTo_repr hr1'
    · intro x hx
      have : clip (percentile image q) (percentile image r) x = percentile image r := by
        unfold clip; rw [max_eq_left (hlt.le.trans hx), min_eq_right hx]
      simp only [f, this, rescalePixel_max hlt]
      exact castTo_repr hr2
    · intro x
      have hc := clip_within hlt.le x
      have hm := (castTo_mono (.uint bits)).comp (rescalePixel_mono hlt hpow')
      have l1 := hm hc.1
      have l2 := hm hc.2
      simp only [Function.comp, rescalePixel_min, rescalePixel_max hlt] at l1 l2
      rw [castTo_repr hr2] at l2
      have l0 : castTo (.uint bits) (0 : ℝ) = 0 := castTo_repr hr1'
      rw [l0] at l1
      exact ⟨l1, l2⟩
    · exact (castTo_mono _).comp ((rescalePixel_mono hlt hpow').comp clip_mono)
  have hres : rgbImage n bits channels (some (q, r)) normalize alpha bright contrast =
      .ok (image.map f) := by
    unfold rgbImage
    simp only [himg, Option.map_some, rescaleIntensity, Option.getD_some, dtypeRange]
    congr 1
    unfold rescaleWithMinMax
    rw [List.map_map, List.map_map]
    apply List.map_congr_left
    intro x _
    simp only [Function.comp, f, Int.cast_zero]
  refine ⟨image.map f, f, hres, ?_, ?_, hrm, ?_⟩
  · rw [List.length_map, ← himg, rgbFlat_length]
  · exact toUint_of (fun x => castTo_uint_int bits _) hrm.within
  · intro k c hk hc
    obtain ⟨img, v, h1, h2, h4⟩ := rgbFlat_channel h3 hn bits normalize alpha ha bright contrast k c
      hk hc
    refine ⟨img, v, h1, h2, ?_⟩
    rw [List.getElem?_map, ← himg, h4]
    rfl

/-- **C79**: with normalization, multiplying a channel by a positive factor and adding a constant
does not change the image. -/
theorem C79_gain (n bits : ℕ) (r g b : List ℝ) (percentiles : Option (ℝ × ℝ))
    (alpha : Option (List ℝ)) (bright : ℤ) (contrast a₁ a₂ a₃ b₁ b₂ b₃ : ℝ)
    (h₁ : 0 < a₁) (h₂ : 0 < a₂) (h₃ : 0 < a₃) :
    rgbImage n bits [r.map fun x => a₁ * x + b₁, g.map fun x => a₂ * x + b₂,
        b.map fun x => a₃ * x + b₃] percentiles true alpha bright contrast =
      rgbImage n bits [r, g, b] percentiles true alpha bright contrast := by
  have key : ∀ (l : List ℝ) (a c : ℝ), 0 < a →
      rgbChannel bits true bright contrast alpha (l.map fun x => a * x + c) =
        rgbChannel bits true bright contrast alpha l := by
    intro l a c ha
    unfold rgbChannel
    simp only [if_true]
    rw [normalizeImage_affine bits bright contrast a c ha]
  unfold rgbImage
  simp only [List.map_cons, List.map_nil, key _ _ _ h₁, key _ _ _ h₂, key _ _ _ h₃]

/-- No intensity of a channel is clipped. -/
def NotClipped (bits : ℕ) (bright : ℤ) (contrast : ℝ) (img : List ℝ) : Prop :=
  ∀ x ∈ img, 0 ≤ normalizedPixel bits bright contrast img x ∧
    normalizedPixel bits bright contrast img x ≤ 2 ^ bits - 1

theorem normalizeImage_notClipped {bits : ℕ} {b₁ b₂ : ℤ} {c₁ c₂ : ℝ} (h₁ : 0 < c₁)
    {img : List ℝ} (n₁ : NotClipped bits b₁ c₁ img) (n₂ : NotClipped bits b₂ c₂ img) :
    normalizeImage bits b₂ c₂ img = (normalizeImage bits b₁ c₁ img).map fun x => c₂ / c₁ * x +
      ((((2 ^ bits - 1) / 2 + b₂ : ℤ) : ℝ) - c₂ / c₁ * (((2 ^ bits - 1) / 2 + b₁ : ℤ) : ℝ)) := by
  unfold normalizeImage
  rw [List.map_map]
  apply List.map_congr_left
  intro x hx
  simp only [Function.comp]
  rw [clip_of_within (n₁ x hx).1 (n₁ x hx).2, clip_of_within (n₂ x hx).1 (n₂ x hx).2]
  unfold normalizedPixel
  have : c₂ / c₁ * (c₁ * ((2 ^ bits - 1) * (3125 / 10000)) * (x - imageMedian img) / imageStd img) =
      c₂ * ((2 ^ bits - 1) * (3125 / 10000)) * (x - imageMedian img) / imageStd img := by
    field_simp
  rw [mul_add, this]
  ring

/-- The alpha channel makes pixels darker: those with its highest value keep their intensity, and
those with its lowest value are zero. -/
theorem C79_alpha (bits : ℕ) (normalize : Bool) (bright : ℤ) (contrast : ℝ) (alpha img : List ℝ)
    (k : ℕ) (a v : ℝ) (hk : alpha[k]? = some a)
    (hv : (rgbChannel bits normalize bright contrast none img)[k]? = some v)
    (x y : ℝ) (hx : x ∈ alpha) (hy : y ∈ alpha) (hxy : x ≠ y) :
    ∃ f u, 0 ≤ f ∧ f ≤ 1 ∧ u = f * v ∧
      (rgbChannel bits normalize bright contrast (some alpha) img)[k]? = some u ∧
      ((∀ b ∈ alpha, a ≤ b) → f = 0) ∧ ((∀ b ∈ alpha, b ≤ a) → f = 1) := by
  have hlt : listMin alpha < listMax alpha := listMin_lt_listMax hx hy hxy
  have hne : alpha ≠ [] := List.ne_nil_of_mem hx
  have ham : a ∈ alpha := List.mem_of_getElem? hk
  have hd : 0 < listMax alpha - listMin alpha := sub_pos.2 hlt
  have h1 := listMin_le a ham
  have h2 := le_listMax a ham
  refine ⟨(a - listMin alpha) / (listMax alpha - listMin alpha), _,
    div_nonneg (by linarith) hd.le, (div_le_one hd).2 (by linarith), rfl, ?_, ?_, ?_⟩
  · simp only [rgbChannel] at hv ⊢
    rw [List.getElem?_zipWith, hv]
    simp only [rescaledAlpha, List.getElem?_map, hk, Option.map_some]
    rw [mul_comm]
  · intro h
    have : a = listMin alpha := le_antisymm (h _ (listMin_mem hne)) h1
    rw [← this, sub_self, zero_div]
  · intro h
    have : a = listMax alpha := le_antisymm h2 (h _ (listMax_mem hne))
    rw [this, div_self hd.ne']

/-- Not normalized, the second pixel of `[5, 7]` with alpha `[0, 2]` keeps its intensity. -/
example : ([0, 2] : List ℝ)[1]? = some 2 ∧
    (rgbChannel 8 false 0 1 none [5, 7])[1]? = some 7 ∧ (0 : ℝ) ≠ 2 := by
  refine ⟨rfl, rfl, by norm_num⟩

/-- **C79 violated**: unless intensities are clipped, brightness offset and contrast factor have no
effect: the image is the same for any two pairs of them. -/
theorem C79_brightness_violated {n bits : ℕ} (h0 : 0 < n) {channels : List (List ℝ)}
    (h3 : channels.length = 3) (hn : ∀ c ∈ channels, c.length = n)
    (percentiles : Option (ℝ × ℝ))
    (hq : ∀ q ∈ percentiles, 0 ≤ q.1 ∧ q.1 ≤ 100 ∧ 0 ≤ q.2 ∧ q.2 ≤ 100)
    {b₁ b₂ : ℤ} {c₁ c₂ : ℝ} (h₁ : 0 < c₁) (h₂ : 0 < c₂)
    (n₁ : ∀ c ∈ channels, NotClipped bits b₁ c₁ c) (n₂ : ∀ c ∈ channels, NotClipped bits b₂ c₂ c) :
    rgbImage n bits channels percentiles true none b₁ c₁ =
      rgbImage n bits channels percentiles true none b₂ c₂ := by
  set s := c₂ / c₁ with hs
  set t := (((2 ^ bits - 1) / 2 + b₂ : ℤ) : ℝ) - c₂ / c₁ * (((2 ^ bits - 1) / 2 + b₁ : ℤ) : ℝ) with ht
  have hs0 : 0 < s := div_pos h₂ h₁
  have hflat : rgbFlat n (channels.map (rgbChannel bits true b₂ c₂ none)) =
      (rgbFlat n (channels.map (rgbChannel bits true b₁ c₁ none))).map fun x => s * x + t := by
    unfold rgbFlat
    rw [List.map_map]
    apply List.map_congr_left
    intro i hi
    have hi' : i < 3 * n := List.mem_range.1 hi
    have hc : i % 3 < channels.length := by omega
    have hk : i / 3 < n := by omega
    have hmem := List.getElem_mem hc
    simp only [Function.comp]
    have hg : ∀ f : List ℝ → List ℝ, (channels.map f).getD (i % 3) [] = f channels[i % 3] := by
      intro f
      rw [List.getD_eq_getElem?_getD, List.getElem?_map, List.getElem?_eq_getElem hc]
      rfl
    rw [hg, hg]
    unfold rgbChannel
    simp only [if_true]
    have hl : (normalizeImage bits b₁ c₁ channels[i % 3]).length = n := by
      unfold normalizeImage
      rw [List.length_map, hn _ hmem]
    rw [normalizeImage_notClipped h₁ (n₁ _ hmem) (n₂ _ hmem), List.getD_eq_getElem?_getD,
      List.getElem?_map, List.getD_eq_getElem?_getD,
      List.getElem?_eq_getElem (by rw [hl]; exact hk)]
    rfl
  unfold rgbImage
  simp only
  rw [hflat]
  refine (rescaleIntensity_affine s t hs0 _ ?_ _ _ percentiles hq).symm
  intro h
  have := rgbFlat_length n (channels.map (rgbChannel bits true b₁ c₁ none))
  rw [h] at this
  simp at this
  omega

theorem median_two : imageMedian [0, 2] = 1 := by
  unfold imageMedian percentile
  have h : ([0, 2] : List ℝ).insertionSort (· ≤ ·) = [0, 2] := by
    simp [List.insertionSort]
  simp only [h, List.length_cons, List.length_nil]
  norm_num

theorem std_two : imageStd [0, 2] = 1 := by
  have h : listMean [0, (2 : ℝ)] = 1 := by unfold listMean; norm_num
  unfold imageStd
  rw [h]
  have : listMean ([0, 2].map fun x : ℝ => (x - 1) ^ 2) = 1 := by unfold listMean; norm_num
  rw [this, Real.sqrt_one]

theorem two_notClipped (b : ℤ) (c : ℝ) (hb : b = 0 ∨ b = 20) (hc : c = 1 ∨ c = 1 / 2) :
    NotClipped 8 b c [0, 2] := by
  intro x hx
  unfold normalizedPixel
  rw [median_two, std_two]
  simp only [List.mem_cons, List.not_mem_nil, or_false] at hx
  rcases hx with rfl | rfl <;> rcases hb with rfl | rfl <;> rcases hc with rfl | rfl <;> norm_num

/-- Witness for `C79_image`, `C79_gain` and `C79_brightness_violated`: an image of two points, with
brightness 0 and 20. -/
example : (∀ c ∈ [[0, 2], [0, 2], [0, (2 : ℝ)]], NotClipped 8 0 1 c) ∧
    (∀ c ∈ [[0, 2], [0, 2], [0, (2 : ℝ)]], NotClipped 8 20 (1 / 2) c) ∧
    (∀ c ∈ [[0, 2], [0, 2], [0, (2 : ℝ)]], c.length = 2) := by
  refine ⟨?_, ?_, ?_⟩ <;> intro c hc <;> simp only [List.mem_cons, List.not_mem_nil, or_false,
    or_self] at hc <;> subst hc
  · exact two_notClipped 0 1 (Or.inl rfl) (Or.inl rfl)
  · exact two_notClipped 20 (1 / 2) (Or.inr rfl) (Or.inr rfl)
  · rfl

example : (0 : ℝ) ∈ rgbFlat 2 ([[0, 2], [0, 2], [0, 2]].map (rgbChannel 8 false 0 1 none)) ∧
    (2 : ℝ) ∈ rgbFlat 2 ([[0, 2], [0, 2], [0, 2]].map (rgbChannel 8 false 0 1 none)) := by
  unfold rgbFlat rgbChannel
  constructor
  · exact List.mem_map.2 ⟨0, by decide, by simp⟩
  · exact List.mem_map.2 ⟨3, by decide, by simp⟩

end

end Kp
