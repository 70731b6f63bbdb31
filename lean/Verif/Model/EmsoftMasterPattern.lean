import Verif.Model.Base
import Mathlib.Algebra.Order.Field.Basic
import Mathlib.Algebra.BigOperators.Group.List.Basic
import Mathlib.Algebra.Order.Group.Unbundled.Abs
import Mathlib.Tactic.TypeStar

/-
Model of reading master patterns from EMsoft files:
`src/kikuchipy/io/plugins/_emsoft_master_pattern.py`.

Images are values of an additive type `I` (pixel-wise addition) with a `flip` (up-down).  Rounding
and overflow in the sum over asymmetric positions (`.astype(data.dtype)`, L174) are not modelled.
-/

namespace Kp

variable {K I : Type*}

/-- Which energies to read: all, a range or one. -/
inductive EnergySelection (K : Type*)
  | all
  | range (e0 e1 : K)
  | one (e : K)

/-- `np.argwhere(mask)[0][0]`: first true entry (`IndexError` if there is none). -/
def firstTrue : List Bool → Option ℕ
  | [] => none
  | true :: _ => some 0
  | false :: l => (firstTrue l).map (· + 1)

/-- `np.argwhere(mask)[-1][0]`: last true entry (`IndexError` if there is none). -/
def lastTrue : List Bool → Option ℕ
  | [] => none
  | b :: l =>
    match lastTrue l with
    | some k => some (k + 1)
    | none => if b then some 0 else none

/-- `argmin`: first position of the smallest value. -/
def firstArgmin [LinearOrder K] : List K → ℕ
  | [] => 0
  | [_] => 0
  | a :: b :: l =>
    let k := firstArgmin (b :: l)
    match (b :: l)[k]? with
    | some m => if a ≤ m then 0 else k + 1
    | none => 0

/-- `get_data_shape_slices` (L263-305): start and stop of the slice along the energy axis.  `argmin`
of an empty array raises `ValueError`. -/
def energySlice [Field K] [LinearOrder K] (energies : List K) :
    EnergySelection K → Except Err (ℕ × ℕ)
  | .all => .ok (0, energies.length)
  | .range e0 e1 =>
    match firstTrue (energies.map fun e => decide (e0 ≤ e)),
      lastTrue (energies.map fun e => decide (e ≤ e1)) with
    | some a, some b => .ok (a, b + 1)
    | _, _ => .error .indexError
  | .one e =>
    if energies = [] then .error .valueError
    else let k := firstArgmin (energies.map fun f => |f - e|)
      .ok (k, k + 1)

/-- Slicing of an axis with non-negative start and stop. -/
def sliceList {α : Type*} (l : List α) (a b : ℕ) : List α := (l.take b).drop a

/-- Projections of master patterns. -/
inductive MpProjection
  | stereographic
  | lambert
  deriving DecidableEq

/-- Hemispheres to read. -/
inductive MpHemisphere
  | upper
  | lower
  | both
  deriving DecidableEq

/-- The relevant content of an EMsoft master pattern file: energies, energy bin size, half the side
length, and stereographic and Lambert images of the northern and southern hemisphere.  Stereographic
images are indexed by energy and Lambert images by asymmetric position and energy. -/
structure EmFile (K I : Type*) where
  energies : List K
  binSize : K
  npx : ℕ
  spNorth : List I
  spSouth : List I
  lpNorth : List (List I)
  lpSouth : List (List I)

/-- An axis dictionary (L200-210). -/
structure EmAxis (K : Type*) where
  size : ℕ
  name : String
  scale : K
  offset : K
  deriving DecidableEq

/-- What is returned: images by hemisphere and energy, and axes. -/
structure EmMasterPattern (K I : Type*) where
  images : List (List I)
  axes : List (EmAxis K)
  deriving DecidableEq

/-- Sum over asymmetric positions of the images for each energy (L167-174). -/
def sumPositions [AddMonoid I] (n : ℕ) (l : List (List I)) : List I :=
  l.foldr (fun a b => List.zipWith (· + ·) a b) (List.replicate n 0)

/-- Images of one hemisphere (L137, L160-181, `get_datasets` L308-324). -/
def hemisphereImages [AddMonoid I] (flip : I → I) (f : EmFile K I) (proj : MpProjection)
    (south : Bool) (a b : ℕ) : List I :=
  match proj with
  | .stereographic => (sliceList (if south then f.spSouth else f.spNorth) a b).map flip
  | .lambert =>
    sumPositions (b - a) ((if south then f.lpSouth else f.lpNorth).map fun l => sliceList l a b)

/-- The four numbers unpacked from `data_shape` (L140-145, L167-173, L188): for the Lambert
projection and one hemisphere, the first is the number of asymmetric positions. `i_max - i_min` is an
integer, only compared to 1. -/
def emDataShape (f : EmFile K I) (proj : MpProjection) (hemi : MpHemisphere) (a b : ℕ) :
    ℕ × ℤ × ℕ × ℕ :=
  let s := 2 * f.npx + 1
  let nE : ℤ := (b : ℤ) - a
  match proj, hemi with
  | .lambert, .both => (2, nE, s, s)
  | .lambert, _ => (f.lpNorth.length, nE, s, s)
  | .stereographic, .both => (2, nE, s, s)
  | .stereographic, _ => (1, nE, s, s)

/-- Read a master pattern of EBSD or TKD type (`read`, L72-225), not lazily.  `numset` is the number of
asymmetric positions in the file.  Axes are zipped with the dimensions left after `squeeze`. -/
def emRead [Field K] [LinearOrder K] [AddMonoid I] (flip : I → I) (f : EmFile K I)
    (sel : EnergySelection K) (proj : MpProjection) (hemi : MpHemisphere) :
    Except Err (EmMasterPattern K I) :=
  match energySlice f.energies sel with
  | .error e => .error e
  | .ok (a, b) =>
    match f.energies[a]? with
    | none => .error .indexError
    | some minEnergy =>
      let images : List (List I) := match hemi with
        | .upper => [hemisphereImages flip f proj false a b]
        | .lower => [hemisphereImages flip f proj true a b]
        | .both => [hemisphereImages flip f proj false a b, hemisphereImages flip f proj true a b]
      let s := 2 * f.npx + 1
      let nE := (images.headD []).length
      let shape := ([images.length, nE, s, s]).filter (· ≠ 1)
      let ds := emDataShape f proj hemi a b
      let h : ℤ := ((s : ℤ) * -1) / 2
      let ax : List (String × K × K) := [("hemisphere", 1, 0), ("energy", f.binSize, minEnergy),
        ("height", 1, (h : K)), ("width", 1, (h : K))]
      let dimIdx := (if ds.1 ≠ 1 then [0] else []) ++ (if ds.2.1 ≠ 1 then [1] else []) ++ [2, 3]
      let axes := List.zipWith (fun n j =>
        match ax[j]? with
        | some (name, scale, offset) => (⟨n, name, scale, offset⟩ : EmAxis K)
        | none => ⟨n, "", 0, 0⟩) shape dimIdx
      .ok ⟨images, axes⟩

end Kp
