import Mathlib.Analysis.Fourier.ZMod
import Verif.Model.Base
import Verif.Model.Downsample

/-
Model of `filters/fft_barnes.py`: filtering of an image with a window in the frequency
domain.

Simplifications: exact real and complex numbers instead of float32/complex64.
`scipy.fft.next_fast_len` is a parameter. `rfft2` and `irfft2` are modelled from their
documentation (axis by axis discrete Fourier transforms, half spectrum kept in the last
axis), on top of Mathlib's discrete Fourier transform `ZMod.dft`.
-/

namespace Kp

open ZMod

/-- `a[r0:r1, c0:c1] = f` where `f r c` is the value broadcast to position `(r, c)`. -/
def setBlock (a : ℕ → ℕ → ℝ) (r0 r1 c0 c1 : ℕ) (f : ℕ → ℕ → ℝ) : ℕ → ℕ → ℝ :=
  fun r c => if (r0 ≤ r ∧ r < r1) ∧ (c0 ≤ c ∧ c < c1) then f r c else a r c

/-- `_pad_window` (`filters/fft_barnes.py` L97-104): the window flipped in both directions
in the top left corner of an array of zeros. -/
def padWindow (w : Img ℝ) : ℕ → ℕ → ℝ :=
  setBlock (fun _ _ => 0) 0 w.rows 0 w.cols
    (fun r c => w.val (w.rows - 1 - r) (w.cols - 1 - c))

/-- `_offset_before_fft` (`filters/fft_barnes.py` L107-110), in one direction. -/
def offsetBeforeFft (w : ℕ) : ℕ := w - ((w - 1) / 2) - 1

/-- `_offset_after_ifft` (`filters/fft_barnes.py` L113-116), in one direction. -/
def offsetAfterIfft (w : ℕ) : ℕ := (w - 1) / 2

/-- `_pad_image` (`filters/fft_barnes.py` L119-152): the nine slice assignments in order. -/
def padImage (p : Img ℝ) (fy fx wy wx oy ox : ℕ) : ℕ → ℕ → ℝ :=
  let iy := p.rows
  let ix := p.cols
  let a := setBlock (fun _ _ => 0) 0 iy 0 ix p.val
  -- Extend bottom row below
  let a := setBlock a iy (iy + (wy - 1) / 2) 0 ix (fun _ c => p.val (iy - 1) c)
  -- Extend right most column to the right
  let a := setBlock a 0 iy ix (ix + (wx - 1) / 2) (fun r _ => p.val r (ix - 1))
  -- Pad top row below
  let a := setBlock a (fy - oy) fy 0 ix (fun _ c => p.val 0 c)
  -- Pad left most column to the right
  let a := setBlock a 0 iy (fx - ox) fx (fun r _ => p.val r 0)
  -- Extend bottom right corner
  let a := setBlock a iy (iy + (wy - 1) / 2) ix (ix + (wx - 1) / 2)
    (fun _ _ => p.val (iy - 1) (ix - 1))
  -- Extend upper right corner
  let a := setBlock a (fy - oy) fy ix (ix + (wx - 1) / 2) (fun _ _ => p.val 0 (ix - 1))
  -- Extend bottom left corner
  let a := setBlock a iy (iy + (wy - 1) / 2) (fx - ox) fx (fun _ _ => p.val (iy - 1) 0)
  -- Extend upper left corner
  setBlock a (fy - oy) fy (fx - ox) fx (fun _ _ => p.val 0 0)

/-- `scipy.fft.rfft2` of a real array of shape `(fy, fx)`: Fourier transform over the last
axis, of which only the frequencies `0, ..., fx // 2` are kept, then over the first. -/
noncomputable def rfft2 (fy fx : ℕ) [NeZero fy] [NeZero fx] (a : ℕ → ℕ → ℝ) :
    ZMod fy → ZMod fx → ℂ :=
  dft (fun y : ZMod fy => fun k : ZMod fx =>
    if k.val ≤ fx / 2 then dft (fun x : ZMod fx => (a y.val x.val : ℂ)) k else 0)

/-- `scipy.fft.irfft2(X, (fy, fx))`: inverse Fourier transform over the first axis, then in
each row the real inverse transform of the half spectrum, in which the missing frequencies
are the complex conjugates of the stored ones. -/
noncomputable def irfft2 (fy fx : ℕ) [NeZero fy] [NeZero fx] (X : ZMod fy → ZMod fx → ℂ) :
    ℕ → ℕ → ℝ :=
  let Y := dft.symm X
  fun y x => (dft.symm (fun k : ZMod fx =>
    if k.val ≤ fx / 2 then Y y k else (starRingEnd ℂ) (Y y (-k))) (x : ZMod fx)).re

/-- `fft_filter` with `_fft_filter_setup` and `_fft_filter` (`filters/fft_barnes.py`
L29-51, L54-94, L155-177). `nfl` is `next_fast_len`. An empty FFT shape makes `rfft2` raise
`ValueError`. -/
noncomputable def fftFilter (nfl : ℕ → ℕ) (p w : Img ℝ) : Except Err (Img ℝ) :=
  let fy := nfl (p.rows + w.rows - 1)
  let fx := nfl (p.cols + w.cols - 1)
  if h : fy ≠ 0 ∧ fx ≠ 0 then
    haveI : NeZero fy := ⟨h.1⟩
    haveI : NeZero fx := ⟨h.2⟩
    let transfer := rfft2 fy fx (padWindow w)
    let imagePad := padImage p fy fx w.rows w.cols
      (offsetBeforeFft w.rows) (offsetBeforeFft w.cols)
    let imageFft := rfft2 fy fx imagePad
    let result := irfft2 fy fx (fun ky kx => imageFft ky kx * transfer ky kx)
    .ok { rows := p.rows
          cols := p.cols
          val := fun y x => result (offsetAfterIfft w.rows + y) (offsetAfterIfft w.cols + x) }
  else .error .valueError

end Kp
