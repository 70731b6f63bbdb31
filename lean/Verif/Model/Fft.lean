import Verif.Model.FftFilter
import Verif.Model.Normalize

/-
Model of the Fourier transform wrappers in `pattern/_pattern.py`: `fft`, `ifft`,
`fft_filter`, `fft_spectrum`, `fft_frequency_vectors`, `get_image_quality`.

Simplifications: exact real and complex numbers. `scipy.fft.fft2`/`ifft2` are Mathlib's
discrete Fourier transform axis by axis; `rfft2`/`irfft2` as in `Model/FftFilter.lean`.
`fftshift`/`ifftshift` roll both axes by half the size, as documented by NumPy.
-/

namespace Kp

open ZMod

/-- A complex 2D array. -/
structure CImg where
  rows : ℕ
  cols : ℕ
  val : ℕ → ℕ → ℂ

/-- `scipy.fft.fft2` on an array of shape `(ny, nx)`. -/
noncomputable def fft2 (ny nx : ℕ) [NeZero ny] [NeZero nx] (a : ZMod ny → ZMod nx → ℂ) :
    ZMod ny → ZMod nx → ℂ :=
  dft (fun y => dft (a y))

/-- `scipy.fft.ifft2` on an array of shape `(ny, nx)`. -/
noncomputable def ifft2 (ny nx : ℕ) [NeZero ny] [NeZero nx] (a : ZMod ny → ZMod nx → ℂ) :
    ZMod ny → ZMod nx → ℂ :=
  let b := dft.symm a
  fun y => dft.symm (b y)

/-- `np.fft.fftshift`: element `i` moves to `i + n // 2`, in both axes. -/
def fftshift (a : CImg) : CImg :=
  { rows := a.rows
    cols := a.cols
    val := fun r c => a.val ((r + (a.rows - a.rows / 2)) % a.rows)
      ((c + (a.cols - a.cols / 2)) % a.cols) }

/-- `np.fft.ifftshift`: element `i` moves to `i - n // 2`, in both axes. -/
def ifftshift (a : CImg) : CImg :=
  { rows := a.rows
    cols := a.cols
    val := fun r c => a.val ((r + a.rows / 2) % a.rows) ((c + a.cols / 2) % a.cols) }

/-- `fft` (`pattern/_pattern.py` L213-263). `apodization` is the optional window multiplied
with the pattern. -/
noncomputable def patternFft (p : Img ℝ) (apodization : Option (ℕ → ℕ → ℝ))
    (shift realOnly : Bool) : Except Err CImg :=
  let v := match apodization with
    | none => p.val
    | some w => fun r c => p.val r c * w r c
  if h : p.rows ≠ 0 ∧ p.cols ≠ 0 then
    haveI : NeZero p.rows := ⟨h.1⟩
    haveI : NeZero p.cols := ⟨h.2⟩
    let out : CImg :=
      { rows := p.rows
        cols := if realOnly then p.cols / 2 + 1 else p.cols
        val := fun r c => if realOnly then rfft2 p.rows p.cols v r c
          else fft2 p.rows p.cols (fun y x => (v y.val x.val : ℂ)) r c }
    .ok (if shift then fftshift out else out)
  else .error .valueError

/-- `ifft` (`pattern/_pattern.py` L266-309); `irfft2` without a shape returns
`2 * (cols - 1)` columns. -/
noncomputable def patternIfft (a : CImg) (shift realOnly : Bool) : Except Err (Img ℝ) :=
  let b := if shift then ifftshift a else a
  if realOnly then
    if h : a.rows ≠ 0 ∧ 2 * (a.cols - 1) ≠ 0 then
      haveI : NeZero a.rows := ⟨h.1⟩
      haveI : NeZero (2 * (a.cols - 1)) := ⟨h.2⟩
      .ok { rows := a.rows
            cols := 2 * (a.cols - 1)
            val := irfft2 a.rows (2 * (a.cols - 1)) (fun y x => b.val y.val x.val) }
    else .error .valueError
  else
    if h : a.rows ≠ 0 ∧ a.cols ≠ 0 then
      haveI : NeZero a.rows := ⟨h.1⟩
      haveI : NeZero a.cols := ⟨h.2⟩
      .ok { rows := a.rows
            cols := a.cols
            val := fun r c => (ifft2 a.rows a.cols (fun y x => b.val y.val x.val) r c).re }
    else .error .valueError

/-- `fft_filter` (`pattern/_pattern.py` L312-345) for a transfer function of pattern shape. -/
noncomputable def patternFftFilter (p : Img ℝ) (transfer : ℕ → ℕ → ℂ)
    (apodization : Option (ℕ → ℕ → ℝ)) (shift : Bool) : Except Err (Img ℝ) :=
  match patternFft p apodization shift false with
  | .error e => .error e
  | .ok f => patternIfft { f with val := fun r c => f.val r c * transfer r c } shift false

/-- `linex` (and `liney`) in `fft_frequency_vectors` (`pattern/_pattern.py` L381-384). -/
def freqLine (n i : ℕ) : ℤ := if n / 2 ≤ i then (i : ℤ) + 1 - (n + 1) else i + 1

/-- `fft_frequency_vectors` (`pattern/_pattern.py` L365-390). -/
def freqVectors (sy sx : ℕ) (r c : ℕ) : ℝ :=
  ((freqLine sy r ^ 2 + freqLine sx c ^ 2 - 1 : ℤ) : ℝ)

/-- `fft_spectrum` (`pattern/_pattern.py` L348-362) for one component. -/
noncomputable def fftSpectrum (z : ℂ) : ℝ := Real.sqrt (z.re ^ 2 + z.im ^ 2)

/-- `inertia_max` (`pattern/_pattern.py` L739, `signals/ebsd.py` L1360). -/
noncomputable def inertiaMax (sy sx : ℕ) : ℝ :=
  (∑ r ∈ Finset.range sy, ∑ c ∈ Finset.range sx, freqVectors sy sx r c) / (sy * sx)

/-- `get_image_quality`, `_get_image_quality` and `_get_image_quality_numba`
(`pattern/_pattern.py` L698-773) with default frequency vectors, also what
`EBSD.get_image_quality` (`signals/ebsd.py` L1356-1372) computes for each pattern. The
pattern is indexed by `ZMod` only to have a finite index type; `normalize` is
`normalize_intensity` with default arguments. -/
noncomputable def imageQuality (sy sx : ℕ) [NeZero sy] [NeZero sx] (normalize : Bool)
    (p : ZMod sy × ZMod sx → ℝ) : ℝ :=
  let q := if normalize then normalizeIntensity 1 false p else p
  let f := fft2 sy sx (fun y x => (q (y, x) : ℂ))
  let spectrum := fun y x => fftSpectrum (f y x)
  let inertia := (∑ y, ∑ x, spectrum y x * freqVectors sy sx y.val x.val) / ∑ y, ∑ x, spectrum y x
  1 - inertia / inertiaMax sy sx

end Kp
