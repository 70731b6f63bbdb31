import Verif.Model.FloatSimilarity
import Verif.Model.Neighbours
import Mathlib.Data.Fintype.Prod

/-
Model of downsampling and of averaging of neighbours in floating point arithmetic:
`_bin2d` and `_downsample2d` (`src/kikuchipy/pattern/_pattern.py` L776-807), and
`_average_neighbour_patterns` and `_rescale_neighbour_averaged_patterns`
(`src/kikuchipy/pattern/chunk.py` L129-164).

The functions are compiled with `fastmath=True`, which allows to add pixels of a row of a block in
another order than written, in parts and with fused operations; here sums are in any order
(`SumOrder`). SciPy's `correlate` adds in float64 and returns the data type of its input. Overflow is
not modelled. How the map is split into chunks is left out (see `Neighbours.lean`): the sums are of
the same numbers in every chunk.
-/

namespace Kp
noncomputable section

/-- Pixels of a block, or positions in a window. -/
abbrev BlockIndex (r c : ℕ) := Fin r × Fin c

/-- `_bin2d` (`pattern/_pattern.py` L775-791) of `pattern.astype(np.float32)` (L802): every pixel is the
sum of a block, in an order of its own. -/
def binFl (f : ℕ) (order : ℕ → ℕ → SumOrder (BlockIndex f f)) (p : Img ℝ) : Img ℝ :=
  { rows := p.rows / f
    cols := p.cols / f
    val := fun r c => (order r c).eval MetricType.float32.fl
      (fun i => MetricType.float32.fl (p.val (r * f + i.1) (c * f + i.2))) (fun _ => 1) }

/-- `_downsample2d` (`pattern/_pattern.py` L794-807). -/
def downsample2dFl (F : Formats ℝ) (e : Evaluation) (f : ℕ)
    (order : ℕ → ℕ → SumOrder (BlockIndex f f)) (p : Img ℝ) (omin omax : ℝ) (dtypeOut : DType) :
    Img ℝ :=
  let b := binFl f order p
  b.mapVal fun x => castFl F dtypeOut
    (rescalePixelFl F e (listMin b.pixels) (listMax b.pixels) omin omax x)

/-- The pixel `px` of the pattern under a position of the window centered on `(r, c)`, zero outside the
map (`mode="constant"`), of `patterns.astype("float32")` (`pattern/chunk.py` L139). -/
def underWindow (map : Img (ℕ → ℝ)) (px : ℕ) (wr wc r c : ℕ) (i : BlockIndex wr wc) : ℝ :=
  ((atZ map ((r : ℤ) + i.1 - (wr / 2 : ℕ)) ((c : ℤ) + i.2 - (wc / 2 : ℕ))).map
    fun p => MetricType.float32.fl (p px)).getD 0

/-- One pixel of an averaged pattern before its intensities are rescaled (`pattern/chunk.py` L139-158):
the sum is in float64 and stored as float32, and divided by an integer in float64, or multiplied
with the reciprocal of it. -/
def averageFl (reciprocal : Bool) (w : Img ℝ) (order : SumOrder (BlockIndex w.rows w.cols))
    (map : Img (ℕ → ℝ)) (px r c : ℕ) : ℝ :=
  let s := MetricType.float32.fl (order.eval MetricType.float64.fl (fun i => w.val i.1 i.2)
    (underWindow map px w.rows w.cols r c))
  let n : ℝ := (windowSums map.rows map.cols w r c : ℝ)
  if reciprocal then MetricType.float64.fl (s * MetricType.float64.fl (1 / n))
  else MetricType.float64.fl (s / n)

/-- An averaged pattern of `m` pixels (`pattern/chunk.py` L147-164), with orders of summation for each
pixel. -/
def averagePatternFl (F : Formats ℝ) (e : Evaluation) (reciprocal : Bool) (w : Img ℝ)
    (order : ℕ → SumOrder (BlockIndex w.rows w.cols)) (map : Img (ℕ → ℝ)) (m r c : ℕ) (d : DType)
    (omin omax : ℝ) : List ℝ :=
  let p := (List.range m).map fun px => averageFl reciprocal w (order px) map px r c
  p.map fun x => castFl F d (rescalePixelFl F e (listMin p) (listMax p) omin omax x)

end
end Kp
