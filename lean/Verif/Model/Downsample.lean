import Verif.Model.Rescale
import Verif.Model.Detector

/-
Model of downsampling: `pattern/_pattern.py` `_bin2d`, `_downsample2d` and
`signals/ebsd.py` `EBSD.downsample`.
-/

namespace Kp

/-- A 2D array: shape and value at (row, column). -/
structure Img (K : Type*) where
  rows : ℕ
  cols : ℕ
  val : ℕ → ℕ → K

section
variable {K : Type*} [Field K] [LinearOrder K]

/-- Pixels in row-major order (`ravel`). -/
def Img.pixels (p : Img K) : List K :=
  (List.range p.rows).flatMap (fun r => (List.range p.cols).map (fun c => p.val r c))

/-- Apply a function to all pixels. -/
def Img.mapVal (f : K → K) (p : Img K) : Img K := { p with val := fun r c => f (p.val r c) }

/-- `a[r, c] = v`. -/
def setAt (a : ℕ → ℕ → K) (r c : ℕ) (v : K) : ℕ → ℕ → K :=
  fun i j => if i = r ∧ j = c then v else a i j

/-- `range(start, stop)`. -/
def pyRange (start stop : ℕ) : List ℕ := (List.range (stop - start)).map (· + start)

/-- `_bin2d` (`pattern/_pattern.py` L776-791): the four nested loops, with the running
value written back to the new pattern. -/
def bin2d (p : Img K) (factor : ℕ) : Img K :=
  let nr := p.rows / factor
  let nc := p.cols / factor
  { rows := nr
    cols := nc
    val :=
      (List.range nr).foldl (fun a r =>
        (pyRange (r * factor) ((r + 1) * factor)).foldl (fun a rr =>
          (List.range nc).foldl (fun a c =>
            setAt a r c ((pyRange (c * factor) ((c + 1) * factor)).foldl
              (fun v cc => v + p.val rr cc) (a r c))) a) a) (fun _ _ => 0) }

variable [FloorRing K]

/-- `_downsample2d` (`pattern/_pattern.py` L794-807). -/
def downsample2d (p : Img K) (factor : ℕ) (omin omax : K) (dtypeOut : DType) : Img K :=
  let b := bin2d p factor
  b.mapVal (fun x => castTo dtypeOut
    (rescalePixel (listMin b.pixels) (listMax b.pixels) omin omax x))

/-- The attributes of an EBSD signal used in downsampling. -/
structure DsSignal (K : Type*) where
  dtype : DType
  rows : ℕ
  cols : ℕ
  patterns : List (Img K)
  staticBg : Option (Img K)
  detector : Detector K

/-- `EBSD.downsample` (`signals/ebsd.py` L1164-1219); the returned (or changed) signal.
`factor` is the Python `int`; `isinstance(factor, int)` holds. -/
def downsample (s : DsSignal K) (factor : ℤ) (dtypeOut : Option DType) :
    Except Err (DsSignal K) :=
  if factor ≤ 1 then .error .valueError
  else
    let f := factor.toNat
    if ¬ (s.cols % f = 0 ∧ s.rows % f = 0) then .error .valueError
    else
      let d := dtypeOut.getD s.dtype
      match dtypeRange d with
      | none => .error .keyError
      | some (omin, omax) =>
        .ok { dtype := d
              rows := s.rows / f
              cols := s.cols / f
              patterns := s.patterns.map (fun p => downsample2d p f omin omax d)
              staticBg := s.staticBg.map (fun p => downsample2d p f omin omax d)
              detector := { s.detector with
                nrows := s.rows / f, ncols := s.cols / f,
                binning := s.detector.binning * (f : K) } }

end

end Kp
