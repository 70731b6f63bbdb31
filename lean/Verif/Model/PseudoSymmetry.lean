import Verif.Model.Refine

/-!
Starting points of refinement with pseudo-symmetry operators
(`indexing/_refinement/_refinement.py` L964-1008, `_RefinementSetup.__init__`).

orix is not part of the repository: `Rotation.outer` is taken to be the quaternion product of every
pair, and `Rotation.to_euler` is a parameter. `np.stack`-like operations on arrays are operations on
lists of rows. The point groups and improper operators orix knows are not modelled.
-/

namespace Kp
noncomputable section

/-- The product of two quaternions (orix `Quaternion.outer` of two single quaternions). -/
def Quat.mul (p q : Quat) : Quat :=
  ⟨p.a * q.a - p.b * q.b - p.c * q.c - p.d * q.d,
   p.b * q.a + p.a * q.b - p.d * q.c + p.c * q.d,
   p.c * q.a + p.d * q.b + p.a * q.c - p.b * q.d,
   p.d * q.a - p.c * q.b + p.b * q.c + p.a * q.d⟩

/-- `pseudo_symmetry_ops.flatten().outer(rot).data` (`_refinement.py` L974): operators on the first
axis, points on the second. -/
def opsOuter (ops rots : List Quat) : List (List Quat) := ops.map fun o => rots.map o.mul

/-- `rot_ps_data.transpose((1, 0, 2))` (`_refinement.py` L975) of an array with `n` values on the
second axis. -/
def swapAxes {α : Type} (n : ℕ) (rows : List (List α)) : List (List α) :=
  (List.range n).map fun i => rows.filterMap (·[i]?)

/-- The (best) rotation of every point to refine (`_refinement.py` L967-971): rotations are stored
for the points in the data of the map only. -/
def rotationsToRefine (points inData : List Bool) (rots : List (List Quat)) : List Quat :=
  (selectMask (selectMask inData points) rots).map fun r => r.getD 0 ⟨1, 0, 0, 0⟩

/-- The starting rotations of every point (`_refinement.py` L972-976, L996-997): with operators, the
rotation in the map comes first (`np.hstack`). -/
def startingRotations (ops : Option (List Quat)) (rots : List Quat) : List (List Quat) :=
  match ops with
  | none => rots.map fun r => [r]
  | some ops =>
    List.zipWith (fun r ps => r :: ps) rots (swapAxes rots.length (opsOuter ops rots))

/-- `get_bound_constraints` (`_refinement.py` L1178-1239) of all starting points. -/
def startingBounds (t : Option TrustRegion) (starts : List (List (List ℝ))) :
    Except Err (List (List (List ℝ)) × List (List (List ℝ))) :=
  match starts.mapM (fun xs => xs.mapM fun x => boundConstraints .ori x t) with
  | .error e => .error e
  | .ok b => .ok (b.map (·.map (·.1.1)), b.map (·.map (·.1.2)))

/-- What `_RefinementSetup` keeps of operators and trust region: `n_pseudo_symmetry_ops` (L949, L973)
and `trust_region_passed` (L376-378). -/
def RefineArgs.withOps (a : RefineArgs) (ops : Option (List Quat)) (t : Option TrustRegion) :
    RefineArgs :=
  { a with nPs := (ops.getD []).length, solver := { a.solver with trust := t.isSome } }

/-- `refine_orientation` (`_refinement.py` L340-425, L921-1035) from the crystal map to the rows of
results: `inData` is `xmap.is_in_data`, `rots` is `xmap.rotations`. -/
def refineWithOps (toEuler : Quat → List ℝ) (a : RefineArgs) (ops : Option (List Quat))
    (t : Option TrustRegion) (inData : List Bool) (rots : List (List Quat)) :
    Except Err (List (Option RefineRow)) :=
  let starts := (startingRotations ops (rotationsToRefine a.points inData rots)).map (·.map toEuler)
  match startingBounds t starts with
  | .error e => .error e
  | .ok (lower, upper) => refineOrientation (a.withOps ops t) starts lower upper

end
end Kp
