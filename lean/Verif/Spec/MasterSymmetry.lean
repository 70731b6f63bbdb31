import Verif.Model.PseudoSymmetry
import Verif.Model.CropSimulation
import Verif.Spec.SelfRefinement

/-
Specification for `Verif.Props.MasterSymmetry` (C137).
-/

namespace Kp.Spec
noncomputable section

/-- One of the sixteen operations which keep the axis of a master pattern and its square grid: exchange
`x` and `y` first or not, then change the signs of coordinates or not. -/
structure GridOp where
  swap : Bool
  flipX : Bool
  flipY : Bool
  flipZ : Bool

/-- What the operation does to a direction. -/
def GridOp.act (g : GridOp) (v : V3 ℝ) : V3 ℝ :=
  let w : V3 ℝ := if g.swap then ⟨v.y, v.x, v.z⟩ else v
  ⟨if g.flipX then -w.x else w.x, if g.flipY then -w.y else w.y, if g.flipZ then -w.z else w.z⟩

/-- Where the operation takes pixel `(r, c)` of a grid of `n x n` pixels: columns are along `x`, rows along
`y`. -/
def GridOp.pixel (g : GridOp) (n r c : ℕ) : ℕ × ℕ :=
  let p := if g.swap then (c, r) else (r, c)
  (if g.flipY then n - 1 - p.1 else p.1, if g.flipX then n - 1 - p.2 else p.2)

/-- The operation is a rotation (it does not mirror): an even number of changes. -/
def GridOp.IsRotation (g : GridOp) : Prop :=
  (g.swap ^^ g.flipX ^^ g.flipY ^^ g.flipZ) = false

/-- The two hemispheres `u'`, `l'` are the hemispheres `u`, `l` after the operation, all with
`n x n` pixels. -/
structure TurnedHemispheres (g : GridOp) (u l u' l' : Img ℝ) : Prop where
  pos : 0 < u.cols
  square : u.rows = u.cols
  cols : u'.cols = u.cols
  rows : u'.rows = u.cols
  upper : ∀ r c, r < u.cols → c < u.cols →
    u'.val (g.pixel u.cols r c).1 (g.pixel u.cols r c).2 = if g.flipZ then l.val r c else u.val r c
  lower : ∀ r c, r < u.cols → c < u.cols →
    l'.val (g.pixel u.cols r c).1 (g.pixel u.cols r c).2 = if g.flipZ then u.val r c else l.val r c
  /-- When hemispheres are exchanged, their common border must be the same in both. -/
  equator : g.flipZ = true → ∀ r c, r < u.cols → c < u.cols →
    (r = 0 ∨ r = u.cols - 1 ∨ c = 0 ∨ c = u.cols - 1) → u.val r c = l.val r c

/-- The hemispheres of a master pattern for one energy: a single hemisphere is used as both. -/
def hemispheresAt (mp : MasterPattern) (a : ℝ × Img ℝ × Img ℝ) : Img ℝ × Img ℝ :=
  (a.2.1, if mp.both then a.2.2 else a.2.1)

/-- Master pattern `mp'` is `mp` after the operation, for every energy. -/
def TurnedMaster (g : GridOp) (mp mp' : MasterPattern) : Prop :=
  mp'.lambert = mp.lambert ∧ mp'.inversion = mp.inversion ∧ mp'.both = mp.both ∧ mp'.dtype = mp.dtype ∧
    List.Forall₂ (fun a a' => a'.1 = a.1 ∧
      TurnedHemispheres g (hemispheresAt mp a).1 (hemispheresAt mp a).2 (hemispheresAt mp' a').1
        (hemispheresAt mp' a').2) mp.arrays mp'.arrays

/-- The quaternion `s` rotates directions as the operation does. -/
def ActsAs (s : Quat) (g : GridOp) : Prop := ∀ v, rotateVector s v = g.act v

/-- The weight of a pixel at a distance `t` (in pixels) along one axis. -/
def hat (t : ℝ) : ℝ := max 0 (1 - |t|)

/-- The intensity of an image of `n x n` pixels at row position `y` and column position `x`: the mean of
its pixels, each weighted by its distance along both axes. -/
def bilinearAt (n : ℕ) (img : ℕ → ℕ → ℝ) (y x : ℝ) : ℝ :=
  ∑ r ∈ Finset.range n, ∑ c ∈ Finset.range n, img r c * (hat (y - r) * hat (x - c))

/-- A function of directions with the symmetry of a cube: neither the order of coordinates nor their signs
matter. -/
def IsCubic (f : V3 ℝ → ℝ) : Prop :=
  (∀ x y z, f ⟨y, z, x⟩ = f ⟨x, y, z⟩) ∧ (∀ x y z, f ⟨y, x, z⟩ = f ⟨x, y, z⟩) ∧
    ∀ x y z, f ⟨-x, y, z⟩ = f ⟨x, y, z⟩

end
end Kp.Spec
