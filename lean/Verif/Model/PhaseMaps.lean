import Verif.Model.IndexingCalls
import Verif.Model.MergeMaps

/-
Model of indexing a map of patterns with one dictionary per phase: the crystal map returned by
`dictionary_indexing` (`indexing/_dictionary_indexing.py`, `signals/ebsd.py`) as it is passed to
`merge_crystal_maps` (`indexing/_merge_crystal_maps.py`).

Simplifications: the dictionary's crystal map has one phase.
-/

namespace Kp

/-- Dictionary indexing with the dictionary of one phase: the call, and the phase in the dictionary's
crystal map (its name, and all else in it). -/
structure PhaseCall (K R D : Type) where
  call : IndexingCall K R
  name : String
  phase : D

section
variable {K R D : Type} [Field K] [LinearOrder K]

/-- The crystal map from `dictionary_indexing` (`_dictionary_indexing.py` L141-169) with the points
`r` of the map: `CrystalMap.scores` etc. give the rows of the points in the data only. The navigation
shape is the one of the patterns (orix leaves out axes of length 1 at the end or start, which is the
same for all maps of the same patterns). There are `keep_n` matches (L67), and the phase IDs are 0. -/
def crystalMapOf (ph : PhaseCall K R D) (r : List (IndexedPoint K R)) : XMap K R D :=
  let rows := r.filter (·.inData)
  { shape := ph.call.navShape
    size := rows.length
    nRot := min ph.call.keepN ph.call.dictionary.length
    rots := fun j => (rows[j]?.map (·.rotations)).getD []
    scores := fun j n => (rows[j]?.bind (·.scores[n]?)).getD 0
    sims := fun j n => ((rows[j]?.bind (·.indices[n]?)).getD 0 : ℕ)
    phaseId := fun _ => 0
    name := ph.name
    phase := ph.phase }

/-- The navigation mask of a call, as it is passed on to `merge_crystal_maps`
(`_merge_crystal_maps.py` L144-153): there is data where the mask is `False`. -/
def navMaskOf (c : IndexingCall K R) : Option NavMask :=
  c.navMask.map (fun m => ⟨m.shape, fun i => m.data[i]? == some false⟩)

/-- The crystal maps from indexing with the dictionaries of all phases, one after the other
(`EBSD.dictionary_indexing`, `ebsd.py` L1901-1984). -/
def indexPhases (argtopk argsort : List K → List ℕ) (allowed : List MatchType)
    (sim : List K → List K → K) (r0 : R) (junk : ℕ → List K × List ℕ) :
    List (PhaseCall K R D) → Except IndexingError (List (XMap K R D))
  | [] => .ok []
  | ph :: l =>
    match (dictionaryIndexingCall argtopk argsort 1 allowed sim r0 junk {} ph.call).2 with
    | .error e => .error e
    | .ok r =>
      match indexPhases argtopk argsort allowed sim r0 junk l with
      | .error e => .error e
      | .ok xs => .ok (crystalMapOf ph r :: xs)

end

end Kp
