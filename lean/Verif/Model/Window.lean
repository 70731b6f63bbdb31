import Mathlib.Analysis.SpecialFunctions.Trigonometric.Basic
import Mathlib.Analysis.Real.Sqrt
import Verif.Model.Base

/-
Model of `filters/window.py`: circular windows, distances to the origin, transfer functions
of low- and high-pass filters, and the modified Hann window.

Simplifications: exact real arithmetic. Windows from `scipy.signal.get_window` other than
the rectangular one, and plotting, are not modelled.
-/

namespace Kp

/-- Index into an array from an index into the squeezed array: axes of length 1 have
index 0. -/
def unsqueezeIdx : List ℕ → List ℕ → List ℕ
  | [], _ => []
  | 1 :: shape, idx => 0 :: unsqueezeIdx shape idx
  | _ :: shape, i :: idx => i :: unsqueezeIdx shape idx
  | _ :: shape, [] => 0 :: unsqueezeIdx shape []

/-- `ndarray.squeeze()`: axes of length 1 are removed. -/
def squeeze {K : Type*} (a : NDArr K) : NDArr K :=
  { shape := a.shape.filter (· ≠ 1)
    val := fun idx => a.val (unsqueezeIdx a.shape idx) }

/-- `Window.origin` (`filters/window.py` L245-247). -/
def windowOrigin (shape : List ℕ) : List ℕ := shape.map (· / 2)

/-- `Window.n_neighbours` (`filters/window.py` L233-238); integers. -/
def nNeighbours (shape : List ℕ) : List ℤ :=
  List.zipWith (fun (s o : ℕ) => (s : ℤ) - o - 1) shape (windowOrigin shape)

/-- `distance_to_origin` (`filters/window.py` L388-415) with the default origin. With two
axes, `np.add.outer` of the open grids of shapes `(n0, 1)` and `(1, n1)` has shape
`(n0, 1, 1, n1)` and is squeezed. -/
noncomputable def distanceToOrigin (shape : List ℕ) : NDArr ℝ :=
  match shape with
  | [n0, n1] => squeeze
      { shape := [n0, 1, 1, n1]
        val := fun idx => Real.sqrt
          (((idx.getD 0 0 : ℕ) - (n0 / 2 : ℕ) : ℝ) ^ 2 + ((idx.getD 3 0 : ℕ) - (n1 / 2 : ℕ) : ℝ) ^ 2) }
  | n0 :: rest =>
      { shape := n0 :: rest.map (fun _ => 1)
        val := fun idx => |((idx.getD 0 0 : ℕ) - (n0 / 2 : ℕ) : ℝ)| }
  | [] => { shape := [], val := fun _ => 0 }

/-- `a[mask] = v` for a boolean mask: the mask's shape must agree with the first axes of
the array, otherwise NumPy raises `IndexError`. -/
noncomputable def maskAssign (a : NDArr ℝ) (mask : NDArr Prop) (v : ℝ) : Except Err (NDArr ℝ) :=
  open Classical in
  if mask.shape <+: a.shape then
    .ok { shape := a.shape
          val := fun idx => if mask.val (idx.take mask.shape.length) then v else a.val idx }
  else .error .indexError

/-- `max(self.origin)`. -/
def maxOrigin (shape : List ℕ) : ℕ := (windowOrigin shape).foldl max 0

/-- `Window.make_circular` (`filters/window.py` L249-269), data only. -/
noncomputable def makeCircular (a : NDArr ℝ) : Except Err (NDArr ℝ) :=
  if a.shape.length = 1 then .ok a
  else
    let d := distanceToOrigin a.shape
    maskAssign a { shape := d.shape, val := fun idx => d.val idx > maxOrigin a.shape } 0

/-- `Window(window="circular", shape=shape)` (`filters/window.py` L117-187) for an integer
shape with one or two axes: the rectangular window made circular. -/
noncomputable def circularWindow (shape : List ℤ) : Except Err (NDArr ℝ) :=
  if shape.any (· < 1) then .error .valueError
  else makeCircular { shape := shape.map Int.toNat, val := fun _ => 1 }

/-- `lowpass_fft_filter` (`filters/window.py` L455-519). If the distances are a NumPy scalar
(shape `(1, 1)` squeezed), item assignment raises `TypeError`. -/
noncomputable def lowpass (shape : List ℕ) (cutoff : ℝ) (cutoffWidth : Option ℝ) :
    Except Err (NDArr ℝ) :=
  let r := distanceToOrigin shape
  let cw := cutoffWidth.getD (cutoff / 2)
  if r.shape = [] then .error .typeError
  else .ok
  { shape := r.shape
    val := fun idx =>
      let x := r.val idx
      let w := Real.exp (-(((x - cutoff) / (Real.sqrt 2 * cw / 2)) ^ 2))
      let w := if x > cutoff + 2 * cw then 0 else w
      if x < cutoff then 1 else w }

/-- `highpass_fft_filter` (`filters/window.py` L522-583); scalars as in `lowpass`. -/
noncomputable def highpass (shape : List ℕ) (cutoff : ℝ) (cutoffWidth : Option ℝ) :
    Except Err (NDArr ℝ) :=
  let r := distanceToOrigin shape
  let cw := cutoffWidth.getD (cutoff / 2)
  if r.shape = [] then .error .typeError
  else .ok
  { shape := r.shape
    val := fun idx =>
      let x := r.val idx
      let w := Real.exp (-(((cutoff - x) / (Real.sqrt 2 * cw / 2)) ^ 2))
      let w := if x < cutoff - 2 * cw then 0 else w
      if x > cutoff then 1 else w }

/-- Which transfer function. -/
inductive FreqFilter where
  | lowpass
  | highpass

/-- `Window("lowpass" | "highpass", shape=shape, cutoff=..., cutoff_width=...)`
(`filters/window.py` L117-187): if the function returned one axis for a shape with two, it
is called again with the argument `Nx`, which it does not have (`TypeError`). -/
noncomputable def freqWindow (f : FreqFilter) (shape : List ℤ) (cutoff : ℝ)
    (cutoffWidth : Option ℝ) : Except Err (NDArr ℝ) :=
  if shape.any (· < 1) then .error .valueError
  else
    let s := shape.map Int.toNat
    let data := match f with
      | .lowpass => lowpass s cutoff cutoffWidth
      | .highpass => highpass s cutoff cutoffWidth
    match data with
    | .error e => .error e
    | .ok data =>
      if s.length = 2 ∧ data.shape.length = 1 then .error .typeError
      else .ok data

/-- `modified_hann` (`filters/window.py` L419-452). -/
noncomputable def modifiedHann (n : ℕ) (x : ℕ) : ℝ :=
  Real.cos (Real.pi * ((x : ℝ) - (n : ℝ) / 2 + 1 / 2) / n)

end Kp
