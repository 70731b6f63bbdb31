import Verif.Model.Detector
import Verif.Model.FloatLambert

/-
Model of the conversions of projection centers between conventions
(`src/kikuchipy/detectors/_ebsd_detector.py` L2220-2341) in 64-bit floating point numbers: the result
of every operation is rounded to nearest, ties to even.

Numbers of rows and columns are integers below 2^53, which NumPy and Python convert to floating point
numbers without rounding. The quotient of two integers in Python is the rounded exact quotient.
Overflow is not modelled.
-/

namespace Kp
noncomputable section

/-- `aspect_ratio` (`_ebsd_detector.py` L650-654). -/
def Detector.aspectFl (d : Detector ℝ) : ℝ := fl64 ((d.ncols : ℝ) / (d.nrows : ℝ))

/-- `min([self.nrows, self.ncols]) / self.nrows` (`_ebsd_detector.py` L2308, L2329). -/
def Detector.minOverRowsFl (d : Detector ℝ) : ℝ :=
  fl64 (((min d.nrows d.ncols : ℕ) : ℝ) / (d.nrows : ℝ))

/-- `_pc_emsoft2bruker` (`_ebsd_detector.py` L2295-2303). -/
def Detector.emsoft2brukerFl (d : Detector ℝ) (version : ℕ) (p : PC ℝ) : PC ℝ :=
  let pcx := if version < 5 then -p.x else p.x
  { x := fl64 (1 / 2 - fl64 (pcx / fl64 ((d.ncols : ℝ) * d.binning)))
    y := fl64 (1 / 2 - fl64 (p.y / fl64 ((d.nrows : ℝ) * d.binning)))
    z := fl64 (p.z / fl64 (fl64 ((d.nrows : ℝ) * d.binning) * d.pxSize)) }

/-- `_pc_tsl2bruker` (`_ebsd_detector.py` L2305-2309). -/
def Detector.tsl2brukerFl (d : Detector ℝ) (p : PC ℝ) : PC ℝ :=
  { x := p.x
    y := fl64 (1 - p.y)
    z := fl64 (p.z * d.minOverRowsFl) }

/-- `_pc_oxford2bruker` (`_ebsd_detector.py` L2311-2315). -/
def Detector.oxford2brukerFl (d : Detector ℝ) (p : PC ℝ) : PC ℝ :=
  { x := p.x
    y := fl64 (1 - fl64 (p.y * d.aspectFl))
    z := fl64 (p.z * d.aspectFl) }

/-- `_pc_bruker2emsoft` (`_ebsd_detector.py` L2317-2324). -/
def Detector.bruker2emsoftFl (d : Detector ℝ) (version : ℕ) (p : PC ℝ) : PC ℝ :=
  let x0 := fl64 (fl64 (fl64 (1 / 2 - p.x) * (d.ncols : ℝ)) * d.binning)
  { x := if version < 5 then -x0 else x0
    y := fl64 (fl64 (fl64 (1 / 2 - p.y) * (d.nrows : ℝ)) * d.binning)
    z := fl64 (fl64 (fl64 (p.z * (d.nrows : ℝ)) * d.binning) * d.pxSize) }

/-- `_pc_bruker2tsl` (`_ebsd_detector.py` L2326-2330). -/
def Detector.bruker2tslFl (d : Detector ℝ) (p : PC ℝ) : PC ℝ :=
  { x := p.x
    y := fl64 (1 - p.y)
    z := fl64 (p.z / d.minOverRowsFl) }

/-- `_pc_bruker2oxford` (`_ebsd_detector.py` L2332-2336). -/
def Detector.bruker2oxfordFl (d : Detector ℝ) (p : PC ℝ) : PC ℝ :=
  { x := p.x
    y := fl64 (fl64 (1 - p.y) / d.aspectFl)
    z := fl64 (p.z / d.aspectFl) }

/-- `_get_pc_in_bruker_convention` (`_ebsd_detector.py` L2220-2247). -/
def Detector.getPcInBrukerFl (d : Detector ℝ) (convention : String) : Except Err (List (PC ℝ)) :=
  match getPcConventionOrRaise convention with
  | .error e => .error e
  | .ok .tsl => .ok (d.pc.map d.tsl2brukerFl)
  | .ok .oxford => .ok (d.pc.map d.oxford2brukerFl)
  | .ok .emsoft => .ok (d.pc.map (d.emsoft2brukerFl (emsoftVersion convention)))
  | .ok .bruker => .ok d.pc

/-- `_get_pc_in_convention` (`_ebsd_detector.py` L2249-2277). -/
def Detector.getPcInConventionFl (d : Detector ℝ) (convention : String) :
    Except Err (List (PC ℝ)) :=
  match getPcConventionOrRaise convention with
  | .error e => .error e
  | .ok .tsl => .ok (d.pc.map d.bruker2tslFl)
  | .ok .oxford => .ok (d.pc.map d.bruker2oxfordFl)
  | .ok .emsoft => .ok (d.pc.map (d.bruker2emsoftFl (emsoftVersion convention)))
  | .ok .bruker => .ok d.pc

/-- The constructor with a convention (`_ebsd_detector.py` L306, L318, L2338-2341): the given
projection centers are stored in Bruker's convention. -/
def Detector.initFl (raw : Detector ℝ) (convention : String) : Except Err (Detector ℝ) :=
  match raw.getPcInBrukerFl convention with
  | .error e => .error e
  | .ok pcs => .ok { raw with pc := pcs }

/-- Projection centers are taken from a detector in one convention and given to a new detector of the
same kind, once per convention in a list. -/
def Detector.passOnFl (d : Detector ℝ) : List String → Except Err (Detector ℝ)
  | [] => .ok d
  | c :: cs =>
    match d.getPcInConventionFl c with
    | .error e => .error e
    | .ok pcs =>
      match ({ d with pc := pcs } : Detector ℝ).initFl c with
      | .error e => .error e
      | .ok d' => d'.passOnFl cs

end
end Kp
