import Verif.Lemmas.HoughIndexing
import Mathlib.Algebra.Order.Ring.Rat
import Mathlib.Tactic.NormNum

/-!
C78: Hough indexing.

* `C78_map`: the crystal map made from PyEBSDIndex' results has in every map point the solution of
  the chosen row for that point, at the position of the point, and the identity rotation where the
  pattern was not indexed.
* `C78_pairing`: `hough_indexing()` with the indexer of a detector gives in every map point the
  best solution for the pattern of that point with the PC of that point.
* `C78_accepted`: which detectors' indexers are accepted; map shapes are not compared
  (`C78_map_shape_violated`).
* `C78_data_violated`, `C78_data_kept_partial`: the results are changed by making a map.
* `C78_data_index_violated`, `C78_data_index_partial`: `data_index` is checked as a phase ID, but
  used as a row.
* `C78_lattice_violated`, `C78_phases_partial`: lattice parameters are compared less strictly than
  documented.
* `C78_reflectors`, `C78_reflectors_violated`: reflectors of each phase.
* `C78_optimize_pc`: the detector returned by `hough_indexing_optimize_pc()`.
-/

set_option linter.unusedSectionVars false

namespace Kp

variable {K P : Type}

/-- Map point `k` of `m` shows solution `e`. -/
structure HoughMap.Shows [Zero K] [One K] (m : HoughMap K) (k : ℕ) (e : HoughEntry K) : Prop where
  rotation : m.rotations[k]? = some (if e.phase = -1 then (1, 0, 0, 0) else e.quat)
  phase : m.phaseId[k]? = some e.phase
  fit : m.fit[k]? = some e.fit
  cm : m.cm[k]? = some e.cm
  pq : m.pq[k]? = some e.pq
  nmatch : m.nmatch[k]? = some e.nmatch

theorem houghMapOf_shows [Zero K] [One K] (row : List (HoughEntry K))
    (coords : List K × Option (List K)) (ids : List ℤ) (unit : String) (k : ℕ) (e : HoughEntry K)
    (h : row[k]? = some e) : (houghMapOf (clearNotIndexed row) coords ids unit).Shows k e := by
  have hc : (clearNotIndexed row)[k]? =
      some (if e.phase = -1 then { e with quat := (1, 0, 0, 0) } else e) := by
    unfold clearNotIndexed
    rw [List.getElem?_map, h]
    rfl
  unfold houghMapOf
  constructor <;> simp only [List.getElem?_map, hc, Option.map_some, Option.some.injEq] <;>
    split_ifs <;> rfl

section
variable [Semiring K]

/-- **C78**: a crystal map of two dimensions made from results `data` has one point for each
result, and the point in row `r` and column `c` shows the solution for that point in the row of
`data` asked for (the last for `data_index=-1`), at position `(r * dy, c * dx)`. -/
theorem C78_map (data data' : List (List (HoughEntry K))) (n ny nx : ℕ) (ids : List ℤ) (i : ℤ)
    (dy dx : K) (unit : String) (m : HoughMap K) (hn : n = ny * nx)
    (hrows : ∀ row ∈ data, row.length = n)
    (h : xmapFromHough data n ids i (some [ny, nx]) (some [dy, dx]) unit = .ok (m, data')) :
    ∃ row ∈ data, (i = -1 → data.getLast? = some row) ∧ (0 ≤ i → data[i.toNat]? = some row) ∧
      m.rotations.length = ny * nx ∧ m.x.length = ny * nx ∧ m.phaseListIds = ids ∧
      m.scanUnit = unit ∧
      ∀ r c : ℕ, r < ny → c < nx → ∃ e, row[r * nx + c]? = some e ∧
        m.Shows (r * nx + c) e ∧ m.x[r * nx + c]? = some ((c : K) * dx) ∧
        (m.y.bind fun y => y[r * nx + c]?) = some ((r : K) * dy) := by
  obtain ⟨coords, j, hc, hi, hj, hout⟩ := xmapFromHough_ok h
  have hjl := npRow_lt hj
  have hget := getD_of_lt hjl []
  have hmem : data.getD j [] ∈ data := List.mem_of_getElem? hget
  have hlen : (data.getD j []).length = ny * nx := by rw [hrows _ hmem, hn]
  simp only [Option.getD_some, coordinateArrays_two, Except.ok.injEq] at hc
  simp only [Prod.mk.injEq] at hout
  obtain ⟨hm, -⟩ := hout
  subst hc
  refine ⟨data.getD j [], hmem, ?_, ?_, ?_, ?_, ?_, ?_, ?_⟩
  · intro h1
    rw [h1, npRow_neg_one] at hj
    split_ifs at hj with hd
    rw [List.getLast?_eq_getElem?]
    simp only [Option.some.injEq] at hj
    rw [hj, hget]
  · intro h0
    have : i = (i.toNat : ℤ) := by omega
    rw [this, npRow_nat] at hj
    split_ifs at hj
    simp only [Option.some.injEq] at hj
    rw [hj, hget]
  · rw [hm]
    simp only [houghMapOf, clearNotIndexed, List.length_map]
    exact hlen
  · rw [hm]
    simp [houghMapOf]
  · rw [hm]; rfl
  · rw [hm]; rfl
  · intro r c hr hcx
    have hk := flat_lt hr hcx
    have hk' : r * nx + c < (data.getD j []).length := by rw [hlen]; exact hk
    refine ⟨(data.getD j [])[r * nx + c], List.getElem?_eq_getElem hk', ?_, ?_, ?_⟩
    · rw [hm]
      exact houghMapOf_shows _ _ _ _ _ _ (List.getElem?_eq_getElem hk')
    · rw [hm]
      simp only [houghMapOf, List.getElem?_map, List.getElem?_range hk, Option.map_some,
        flat_mod hcx]
    · rw [hm]
      simp only [houghMapOf, Option.bind_some, List.getElem?_map, List.getElem?_range hk,
        Option.map_some, flat_div hcx]

/-- **C78**, maps of one dimension (also if no navigation shape is given). -/
theorem C78_map_line (data data' : List (List (HoughEntry K))) (n : ℕ) (ids : List ℤ) (i : ℤ)
    (nav : Option (List ℕ)) (hnav : nav = none ∨ nav = some [n])
    (dx : K) (unit : String) (m : HoughMap K)
    (hrows : ∀ row ∈ data, row.length = n)
    (h : xmapFromHough data n ids i nav (some [dx]) unit = .ok (m, data')) :
    ∃ row ∈ data, (i = -1 → data.getLast? = some row) ∧ (0 ≤ i → data[i.toNat]? = some row) ∧
      m.rotations.length = n ∧ m.x.length = n ∧ m.y = none ∧
      ∀ k : ℕ, k < n → ∃ e, row[k]? = some e ∧
        m.Shows k e ∧ m.x[k]? = some ((k : K) * dx) := by
  obtain ⟨coords, j, hc, hi, hj, hout⟩ := xmapFromHough_ok h
  have hjl := npRow_lt hj
  have hget := getD_of_lt hjl []
  have hmem : data.getD j [] ∈ data := List.mem_of_getElem? hget
  have hlen : (data.getD j []).length = n := hrows _ hmem
  have hn : nav.getD [n] = [n] := by rcases hnav with rfl | rfl <;> rfl
  rw [hn] at hc
  simp only [coordinateArrays, Option.getD_some, Except.ok.injEq] at hc
  simp only [Prod.mk.injEq] at hout
  obtain ⟨hm, -⟩ := hout
  subst hc
  refine ⟨data.getD j [], hmem, ?_, ?_, ?_, ?_, ?_, ?_⟩
  · intro h1
    rw [h1, npRow_neg_one] at hj
    split_ifs at hj with hd
    rw [List.getLast?_eq_getElem?]
    simp only [Option.some.injEq] at hj
    rw [hj, hget]
  · intro h0
    have : i = (i.toNat : ℤ) := by omega
    rw [this, npRow_nat] at hj
    split_ifs at hj
    simp only [Option.some.injEq] at hj
    rw [hj, hget]
  · rw [hm]
    simp only [houghMapOf, clearNotIndexed, List.length_map]
    exact hlen
  · rw [hm]
    simp [houghMapOf]
  · rw [hm]; rfl
  · intro k hk
    have hk' : k < (data.getD j []).length := by rw [hlen]; exact hk
    refine ⟨(data.getD j [])[k], List.getElem?_eq_getElem hk', ?_, ?_⟩
    · rw [hm]
      exact houghMapOf_shows _ _ _ _ _ _ (List.getElem?_eq_getElem hk')
    · rw [hm]
      simp only [houghMapOf, List.getElem?_map, List.getElem?_range hk, Option.map_some]

/-- When a map of two dimensions is made: from the best solutions if there are results, otherwise
from a row whose number is the ID of one of the phases. -/
theorem C78_map_made (data : List (List (HoughEntry K))) (n ny nx : ℕ) (ids : List ℤ) (i : ℤ)
    (hi : -1 ≤ i) (dy dx : K) (unit : String) :
    (∃ out, xmapFromHough data n ids i (some [ny, nx]) (some [dy, dx]) unit = .ok out) ↔
      data ≠ [] ∧ (i = -1 ∨ (i ∈ ids ∧ i < data.length)) := by
  constructor
  · rintro ⟨out, h⟩
    obtain ⟨coords, j, hc, hid, hj, -⟩ := xmapFromHough_ok h
    have hjl := npRow_lt hj
    refine ⟨by rintro rfl; simp at hjl, ?_⟩
    by_cases h1 : i = -1
    · exact Or.inl h1
    · right
      refine ⟨hid.resolve_left h1, ?_⟩
      have : i = (i.toNat : ℤ) := by omega
      rw [this, npRow_nat] at hj
      split_ifs at hj with h2
      omega
  · rintro ⟨hd, h⟩
    have hrow : ∃ j, npRow data i = some j := by
      rcases h with rfl | ⟨-, h⟩
      · exact ⟨data.length - 1, by rw [npRow_neg_one, if_neg hd]⟩
      · by_cases h1 : i = -1
        · exact ⟨data.length - 1, by rw [h1, npRow_neg_one, if_neg hd]⟩
        · refine ⟨i.toNat, ?_⟩
          have : i = (i.toNat : ℤ) := by omega
          conv_lhs => rw [this]
          rw [npRow_nat, if_pos (by omega)]
    obtain ⟨j, hj⟩ := hrow
    have hid : ¬ (i ≠ -1 ∧ i ∉ ids) := by
      rintro ⟨h1, h2⟩
      rcases h with h | h
      · exact h1 h
      · exact h2 h.1
    unfold xmapFromHough
    rw [if_neg (by simp)]
    simp only [Option.getD_some, coordinateArrays_two]
    rw [if_neg hid, hj]
    exact ⟨_, rfl⟩

/-- Maps have one or two dimensions. -/
theorem C78_map_dimensions (data : List (List (HoughEntry K))) (n : ℕ) (ids : List ℤ) (i : ℤ)
    (nav : List ℕ) (h : 2 < nav.length) (steps : Option (List K)) (unit : String) :
    xmapFromHough data n ids i (some nav) steps unit =
      .error "ValueError: `nav_shape` cannot be a tuple of more than two integers" := by
  unfold xmapFromHough
  rw [if_pos (by simpa using h)]

/-- **C78** (part): making a map changes no result but the rotations of patterns not indexed, in
the row the map is made of. Missing: these are changed too (`C78_data_violated`). -/
theorem C78_data_kept_partial (data data' : List (List (HoughEntry K))) (n : ℕ) (ids : List ℤ)
    (i : ℤ) (nav : Option (List ℕ)) (steps : Option (List K)) (unit : String) (m : HoughMap K)
    (h : xmapFromHough data n ids i nav steps unit = .ok (m, data')) :
    data'.length = data.length ∧
    ∀ (j : ℕ) (row : List (HoughEntry K)), data[j]? = some row →
      ∃ row', data'[j]? = some row' ∧ row'.length = row.length ∧
        (npRow data i ≠ some j → row' = row) ∧
        ∀ (k : ℕ) (e : HoughEntry K), row[k]? = some e →
          ∃ q, row'[k]? = some { e with quat := q } ∧ (e.phase ≠ -1 → q = e.quat) := by
  obtain ⟨coords, j, hc, hid, hj, hout⟩ := xmapFromHough_ok h
  simp only [Prod.mk.injEq] at hout
  obtain ⟨-, hd⟩ := hout
  subst hd
  refine ⟨by simp, ?_⟩
  intro j' row hrow
  by_cases hjj : j' = j
  · subst hjj
    have hlt := npRow_lt hj
    have hg := getD_of_lt hlt []
    rw [hrow, Option.some.injEq] at hg
    rw [← hg]
    refine ⟨clearNotIndexed row, by rw [List.getElem?_set_self hlt], by simp [clearNotIndexed],
      fun hne => absurd hj hne, ?_⟩
    intro k e he
    unfold clearNotIndexed
    rw [List.getElem?_map, he, Option.map_some]
    by_cases hp : e.phase = -1
    · exact ⟨(1, 0, 0, 0), by rw [if_pos hp], fun h => absurd hp h⟩
    · exact ⟨e.quat, by rw [if_neg hp], fun _ => rfl⟩
  · refine ⟨row, by rw [List.getElem?_set_ne (Ne.symm hjj), hrow], rfl, fun _ => rfl, ?_⟩
    intro k e he
    exact ⟨e.quat, he, fun _ => rfl⟩

/-- Making the same map again gives the same map, and leaves the results as they are. -/
theorem C78_again (data data' : List (List (HoughEntry K))) (n : ℕ) (ids : List ℤ)
    (i : ℤ) (nav : Option (List ℕ)) (steps : Option (List K)) (unit : String) (m : HoughMap K)
    (h : xmapFromHough data n ids i nav steps unit = .ok (m, data')) :
    xmapFromHough data' n ids i nav steps unit = .ok (m, data') := by
  obtain ⟨coords, j, hc, hid, hj, hout⟩ := xmapFromHough_ok h
  simp only [Prod.mk.injEq] at hout
  obtain ⟨hm, hd⟩ := hout
  have hlt := npRow_lt hj
  have hlen : data'.length = data.length := by rw [hd]; simp
  have hrow : npRow data' i = some j := by
    unfold npRow at hj ⊢
    rw [hlen]
    exact hj
  have hget : data'.getD j [] = clearNotIndexed (data.getD j []) := by
    rw [hd, List.getD_eq_getElem?_getD, List.getElem?_set_self hlt]
    rfl
  unfold xmapFromHough at h ⊢
  split at h
  · simp at h
  · rename_i h1
    rw [if_neg h1, hc]
    split at h
    · simp at h
    · split at h
      · simp at h
      · rename_i h2
        rw [if_neg h2, hrow]
        simp only
        rw [hget, clearNotIndexed_idem, ← hm]
        congr 2
        rw [hd, List.set_set]

end

/-- Results for two patterns, the second not indexed, of one phase. -/
def exHough : List (List (HoughEntry ℚ)) :=
  [[⟨(0, 1, 0, 0), 0, 1, 1, 1, 5⟩, ⟨(0, 0, 1, 0), -1, 2, 0, 1, 0⟩],
   [⟨(0, 1, 0, 0), 0, 1, 1, 1, 5⟩, ⟨(0, 0, 1, 0), -1, 2, 0, 1, 0⟩]]

/-- Witness for the theorems above. -/
example : ∃ out, xmapFromHough exHough 2 [0] (-1) (some [1, 2]) (some [3, 4]) "um" = .ok out ∧
    (∀ row ∈ exHough, row.length = 2) ∧
    out.1.x = [0, 4] ∧ out.1.y = some [0, 0] ∧
    out.1.rotations = [(0, 1, 0, 0), (1, 0, 0, 0)] := by
  refine ⟨(houghMapOf (clearNotIndexed (exHough.getD 1 [])) ([0, 4], some [0, 0]) [0] "um",
    exHough.set 1 (clearNotIndexed (exHough.getD 1 []))), ?_, ?_, ?_⟩ <;> decide +kernel

/-- **C78 violated**: making a crystal map changes the array of results it is given: the solution
for a pattern not indexed is overwritten. -/
theorem C78_data_violated :
    ¬ ∀ (data data' : List (List (HoughEntry ℚ))) (n : ℕ) (ids : List ℤ) (i : ℤ)
      (nav : Option (List ℕ)) (steps : Option (List ℚ)) (unit : String) (m : HoughMap ℚ),
      xmapFromHough data n ids i nav steps unit = .ok (m, data') → data' = data := by
  intro h
  have := h exHough (exHough.set 1 (clearNotIndexed (exHough.getD 1 []))) 2 [0] (-1) none none "px"
    (houghMapOf (clearNotIndexed (exHough.getD 1 [])) ([0, 1], none) [0] "px") (by decide +kernel)
  revert this
  decide +kernel

/-! ### `data_index` -/

/-- **C78** (part): for phases with IDs `0, ..., n - 1` and results with one row for each phase and
a last row with the best solutions, the ID of a phase as `data_index` gives that phase's row.
Missing: other IDs (`C78_data_index_violated`). -/
theorem C78_data_index_partial (data : List (List (HoughEntry K))) (nPhases p : ℕ)
    (hd : data.length = nPhases + 1) (hp : p < nPhases) :
    npRow data (p : ℤ) = some p ∧ p ≠ nPhases := by
  refine ⟨?_, by omega⟩
  rw [npRow_nat, if_pos (by omega)]

example : exHough.length = 1 + 1 ∧ 0 < 1 := by decide

/-- Results of indexing one pattern with two phases: of the first phase, of the second phase, and
the best of them, which is that of the first phase. -/
def exHoughTwo : List (List (HoughEntry ℚ)) :=
  [[⟨(1, 0, 0, 0), 0, 1, 1, 1, 5⟩], [⟨(0, 1, 0, 0), 1, 3, 1, 1, 4⟩], [⟨(1, 0, 0, 0), 0, 1, 1, 1, 5⟩]]

/-- **C78 violated**: with phases of IDs 1 and 2, `data_index=2` is accepted, since there is a phase
with this ID, but gives the best solutions, not those of the phase; and `data_index=0`, a row of
the results, is refused. -/
theorem C78_data_index_violated :
    (∃ out, xmapFromHough exHoughTwo 1 [1, 2] 2 none none "px" = .ok out ∧
      out.1.rotations = [(1, 0, 0, 0)] ∧ out.1.fit = [1] ∧
      exHoughTwo[1]?.map (List.map HoughEntry.fit) = some [3]) ∧
    (∃ e, xmapFromHough exHoughTwo 1 [1, 2] 0 none none "px" = .error e) := by
  refine ⟨⟨(houghMapOf (clearNotIndexed (exHoughTwo.getD 2 [])) ([0], none) [1, 2] "px",
    exHoughTwo.set 2 (clearNotIndexed (exHoughTwo.getD 2 []))), ?_, ?_, ?_, ?_⟩,
    "ValueError: `phase_list` IDs must contain data_index", ?_⟩ <;> decide +kernel

/-! ### Phases and reflectors -/

/-- **C78**: with one set of reflectors for each phase, every phase of the indexer has name, space
group and lattice parameters of its phase in the phase list, and the symmetrically unique ones of
its reflectors (the default ones if `None`). -/
theorem C78_reflectors (uniq : OrixPhase K → List Hkl → List Hkl) (phases : List (OrixPhase K))
    (items : List RefItem) (hlen : items.length = phases.length) (ps : List (PeiPhase K))
    (h : peiPhaseList uniq phases (.list items) = .ok ps) :
    ps.length = phases.length ∧
    ∀ (k : ℕ) (p : OrixPhase K) (r : RefItem), phases[k]? = some p → items[k]? = some r →
      ∃ q, ps[k]? = some q ∧ q.name = p.name ∧ p.spaceGroup = some q.spaceGroup ∧
        q.lattice = p.lattice ∧ (r = .none → q.poleFamilies = none) ∧
        (∀ l, r = .vectors l → q.poleFamilies = some (uniq p l)) ∧
        (∀ v, r = .vector v → q.poleFamilies = some (uniq p [v])) := by
  unfold peiPhaseList reflectorItems at h
  simp only [if_pos hlen] at h
  obtain ⟨hl, hg⟩ := peiPhases_get uniq _ ps h
  refine ⟨by rw [hl, List.length_zip, hlen, Nat.min_self], ?_⟩
  intro k p r hp hr
  have hz : (phases.zip items)[k]? = some (p, r) := by
    rw [List.getElem?_zip_eq_some]
    exact ⟨hp, hr⟩
  obtain ⟨sg, hsg, hk⟩ := hg k p r hz
  refine ⟨_, hk, rfl, hsg, rfl, ?_, ?_, ?_⟩
  · rintro rfl; rfl
  · rintro l rfl; rfl
  · rintro v rfl; rfl

/-- A phase list of any length can be used without reflectors if all space groups are set. -/
theorem C78_no_reflectors (uniq : OrixPhase K → List Hkl → List Hkl) (phases : List (OrixPhase K)) :
    (∃ ps, peiPhaseList uniq phases .none = .ok ps) ↔ ∀ p ∈ phases, p.spaceGroup ≠ none := by
  have hz : ∀ p ∈ phases, (p, RefItem.none) ∈ phases.zip (List.replicate phases.length .none) := by
    intro p hp
    obtain ⟨k, hk⟩ := List.getElem?_of_mem hp
    apply List.mem_of_getElem? (i := k)
    rw [List.getElem?_zip_eq_some]
    refine ⟨hk, ?_⟩
    have : k < phases.length := by
      by_contra hk'
      rw [List.getElem?_eq_none (by omega)] at hk
      simp at hk
    rw [List.getElem?_replicate, if_pos this]
  unfold peiPhaseList reflectorItems
  simp only
  constructor
  · rintro ⟨ps, h⟩ p hp
    obtain ⟨-, hg⟩ := peiPhases_get uniq _ ps h
    obtain ⟨k, hk⟩ := List.getElem?_of_mem (hz p hp)
    obtain ⟨sg, hsg, -⟩ := hg k p _ hk
    rw [hsg]
    simp
  · intro h
    apply peiPhases_ok
    rintro ⟨p, r⟩ ha
    exact h p (List.of_mem_zip ha).1

/-- **C78**: for a single phase, a list of several vectors, an array of vectors, and a list with one
list of vectors give the same indexer phases. -/
theorem C78_reflectors_single (uniq : OrixPhase K → List Hkl → List Hkl) (p : OrixPhase K)
    (l : List Hkl) (hl : l ≠ []) :
    peiPhaseList uniq [p] (.list (l.map .vector)) = peiPhaseList uniq [p] (.list [.vectors l]) ∧
    peiPhaseList uniq [p] (.array l) = peiPhaseList uniq [p] (.list [.vectors l]) := by
  refine ⟨?_, rfl⟩
  rcases l with _ | ⟨v, l⟩
  · exact absurd rfl hl
  · rcases l with _ | ⟨w, l⟩
    · unfold peiPhaseList
      simp only [reflectorItems, List.map_cons, List.map_nil, List.length_cons, List.length_nil,
        Nat.zero_add, if_true]
      rfl
    · have hone : oneSet (RefItem.vector v :: RefItem.vector w :: l.map .vector) =
          .ok (.vectors (v :: w :: l)) := by
        have h1 : ∀ l : List Hkl, (l.map RefItem.vector).filterMap RefItem.toVector = l := by
          intro l
          induction l with
          | nil => rfl
          | cons a l ih => simp only [List.map_cons, List.filterMap_cons, ih, RefItem.toVector]
        have h2 : ∀ l : List Hkl, (l.map RefItem.vector).all RefItem.isVector = true := by
          intro l
          simp [RefItem.isVector]
        unfold oneSet
        split
        · rename_i heq
          simp at heq
        · have := h1 (v :: w :: l)
          have h3 := h2 (v :: w :: l)
          simp only [List.map_cons] at this h3
          rw [if_pos ⟨by simp, h3⟩, this]
      unfold peiPhaseList
      simp only [reflectorItems, List.map_cons, List.length_cons, List.length_nil, Nat.zero_add,
        List.length_map]
      rw [if_neg (by omega), hone]
      rfl

/-- Nickel. -/
def nickel : OrixPhase ℚ := ⟨"ni", some 225, [352 / 100, 352 / 100, 352 / 100, 90, 90, 90]⟩

example : ∃ ps, peiPhaseList (fun _ l => l) [nickel, nickel] (.list [.vectors [(1, 1, 1)], .none]) =
    .ok ps ∧ ps.map PeiPhase.poleFamilies = [some [(1, 1, 1)], none] :=
  ⟨[⟨"ni", 225, nickel.lattice, some [(1, 1, 1)]⟩, ⟨"ni", 225, nickel.lattice, none⟩],
    by decide +kernel, by decide +kernel⟩

/-- **C78 violated**: one vector `[1, 1, 1]` for three phases is not one set of reflectors per
phase, but is accepted, and all phases use the default reflectors. -/
theorem C78_reflectors_violated :
    ∃ ps, peiPhaseList (fun _ l => l) [nickel, nickel, nickel]
      (.list [.number 1, .number 1, .number 1]) = .ok ps ∧
      ps.map PeiPhase.poleFamilies = [none, none, none] :=
  ⟨[⟨"ni", 225, nickel.lattice, none⟩, ⟨"ni", 225, nickel.lattice, none⟩,
    ⟨"ni", 225, nickel.lattice, none⟩], by decide +kernel, by decide +kernel⟩

section
variable [Field K] [LinearOrder K] [IsStrictOrderedRing K]

/-- **C78** (part): phase lists are found compatible if and only if they have the same number of
phases and corresponding phases have the same space group number and lattice parameters that
differ by at most `1e-12 + 1e-5 * |b|`. Missing: the documentation says "equal to the 12th
decimal" (`C78_lattice_violated`). -/
theorem C78_phases_partial (phases : List (OrixPhase K)) (pei : List (PeiPhase K)) :
    phaseListsError phases pei = none ↔ phases.length = pei.length ∧
      ∀ (k : ℕ) (p : OrixPhase K) (q : PeiPhase K), phases[k]? = some p → pei[k]? = some q →
        p.spaceGroup = some q.spaceGroup ∧
          ∀ ab ∈ p.lattice.zip q.lattice, |ab.1 - ab.2| ≤ 1 / 10 ^ 12 + 1 / 10 ^ 5 * |ab.2| :=
  phaseListsError_none phases pei

/-- **C78**: the phase list an indexer was made with is compatible with the indexer, whatever the
reflectors. -/
theorem C78_own_phases (uniq : OrixPhase K → List Hkl → List Hkl)
    (solve : P → PC K → ℕ → HoughEntry K) (det : Detector K) (phases : List (OrixPhase K))
    (r : RefArg) (ix : HoughIndexer K P) (h : getIndexer uniq solve det phases r = .ok ix) :
    phaseListsError phases ix.phases = none := by
  unfold getIndexer at h
  split at h
  · simp at h
  · rename_i ps hps
    simp only [Except.ok.injEq] at h
    subst h
    unfold peiPhaseList at hps
    split at hps
    · simp at hps
    · rename_i items hit
      have hil : items.length = phases.length := by
        unfold reflectorItems at hit
        split at hit
        · simp only [Except.ok.injEq] at hit
          rw [← hit, List.length_replicate]
        · split_ifs at hit with h1
          simp only [Except.ok.injEq] at hit
          rw [← hit, h1]
          rfl
        · split_ifs at hit with h1 h2
          · simp only [Except.ok.injEq] at hit
            rw [← hit, h1]
          · split at hit
            · simp at hit
            · simp only [Except.ok.injEq] at hit
              rw [← hit, h2]
              rfl
      obtain ⟨hl, hg⟩ := peiPhases_get uniq _ ps hps
      rw [phaseListsError_none]
      refine ⟨by rw [hl, List.length_zip, hil, Nat.min_self], ?_⟩
      intro k p q hp hq
      have hk : k < items.length := by
        rw [hil]
        by_contra hk'
        rw [List.getElem?_eq_none (by omega)] at hp
        simp at hp
      obtain ⟨sg, hsg, hk'⟩ := hg k p items[k] (by
        rw [List.getElem?_zip_eq_some]
        exact ⟨hp, List.getElem?_eq_getElem hk⟩)
      rw [hq, Option.some.injEq] at hk'
      subst hk'
      refine ⟨hsg, ?_⟩
      intro ab hab
      have := zip_self_mem p.lattice ab hab
      rw [this]
      exact closeLattice_refl ab.2

end

/-- **C78 violated**: lattice parameters that differ in the 5th decimal are found equal. -/
theorem C78_lattice_violated :
    ¬ ∀ (phases : List (OrixPhase ℚ)) (pei : List (PeiPhase ℚ)), phaseListsError phases pei = none →
      ∀ (k : ℕ) (p : OrixPhase ℚ) (q : PeiPhase ℚ), phases[k]? = some p → pei[k]? = some q →
        ∀ ab ∈ p.lattice.zip q.lattice, |ab.1 - ab.2| ≤ 1 / 10 ^ 12 := by
  intro h
  have h1 := h [nickel] [⟨"ni", 225, [352003 / 100000, 352 / 100, 352 / 100, 90, 90, 90], none⟩]
    (by decide +kernel) 0 nickel
    ⟨"ni", 225, [352003 / 100000, 352 / 100, 352 / 100, 90, 90, 90], none⟩ rfl rfl
    (352 / 100, 352003 / 100000) (by decide +kernel)
  revert h1
  decide +kernel

/-! ### Indexing a signal -/

section
variable [Field K] [LinearOrder K] [IsStrictOrderedRing K]

theorem kikuchipy_lower : "KIKUCHIPY".toLower = "kikuchipy" := by decide +kernel

/-- **C78**: `hough_indexing()` of a map of two dimensions with the indexer of a detector (and the
same phase list) runs if and only if the detector has the shape of the patterns and one PC or as
many PCs as there are patterns. -/
theorem C78_accepted (uniq : OrixPhase K → List Hkl → List Hkl)
    (solve : P → PC K → ℕ → HoughEntry K) (det : Detector K) (ids : List ℤ)
    (phases : List (OrixPhase K)) (r : RefArg) (ix : HoughIndexer K P)
    (h : getIndexer uniq solve det phases r = .ok ix) (s : HoughSignal K P) (ny nx : ℕ) (dy dx : K)
    (hnav : s.nav = [ny, nx]) (hst : s.steps = [dy, dx]) :
    (∃ out, houghIndexing s ids phases ix = .ok out) ↔
      s.sig = (det.nrows, det.ncols) ∧ (det.pc.length = 1 ∨ det.pc.length = ny * nx) := by
  have hph := C78_own_phases uniq solve det phases r ix h
  have hix : ix.vendor = "KIKUCHIPY" ∧ ix.patDim = (det.nrows, det.ncols) ∧
      ix.pcShape = squeezedPcShape det.pc.length := by
    unfold getIndexer at h
    split at h
    · simp at h
    · simp only [Except.ok.injEq] at h
      subst h
      exact ⟨rfl, rfl, rfl⟩
  obtain ⟨hv, hp, hs⟩ := hix
  have hprod : s.nav.prod = ny * nx := by rw [hnav]; simp
  have hmap : ∃ out, xmapFromHough (indexPats ix s.patterns) s.patterns.length ids (-1)
      (some s.nav) (some s.steps) "px" = .ok out := by
    rw [hnav, hst, C78_map_made _ _ _ _ _ _ (by omega)]
    refine ⟨?_, Or.inl rfl⟩
    unfold indexPats
    simp
  have herr : indexerError ix s.sig (some s.nav.prod) true = none ↔
      s.sig = (det.nrows, det.ncols) ∧ (det.pc.length = 1 ∨ det.pc.length = ny * nx) := by
    unfold indexerError
    rw [hv, kikuchipy_lower, hp, hs, hprod, if_neg (by simp)]
    have hsq : (squeezedPcShape det.pc.length = [3] ∨
        ∃ n ∈ some (ny * nx), squeezedPcShape det.pc.length = [n, 3]) ↔
        (det.pc.length = 1 ∨ det.pc.length = ny * nx) := by
      unfold squeezedPcShape
      by_cases h1 : det.pc.length = 1
      · rw [if_pos h1]
        simp [h1]
      · rw [if_neg h1]
        simp [h1]
    by_cases h1 : s.sig = (det.nrows, det.ncols)
    · rw [if_neg (not_not.mpr h1)]
      by_cases h2 : det.pc.length = 1 ∨ det.pc.length = ny * nx
      · rw [if_neg (fun hh => hh.2 (hsq.mpr h2))]
        exact ⟨fun _ => ⟨h1, h2⟩, fun _ => rfl⟩
      · rw [if_pos ⟨rfl, fun hh => h2 (hsq.mp hh)⟩]
        exact ⟨fun hh => (by simp at hh), fun hh => absurd hh.2 h2⟩
    · rw [if_pos h1]
      simp [h1]
  rw [← herr]
  unfold houghIndexing
  rcases he : indexerError ix s.sig (some s.nav.prod) true with _ | e
  · rw [hph]
    obtain ⟨⟨m, d⟩, hm⟩ := hmap
    simp only [hm, iff_true]
    exact ⟨_, rfl⟩
  · simp

/-- **C78**: in the map returned by `hough_indexing()` with the indexer of a detector with one PC
for each pattern, the point in row `r` and column `c` shows the best solution PyEBSDIndex finds for
the pattern there with the PC there, at its position in the map. -/
theorem C78_pairing (uniq : OrixPhase K → List Hkl → List Hkl)
    (solve : P → PC K → ℕ → HoughEntry K) (det : Detector K) (ids : List ℤ)
    (phases : List (OrixPhase K)) (a : RefArg) (ix : HoughIndexer K P)
    (h : getIndexer uniq solve det phases a = .ok ix) (s : HoughSignal K P) (ny nx : ℕ) (dy dx : K)
    (hnav : s.nav = [ny, nx]) (hst : s.steps = [dy, dx]) (hpat : s.patterns.length = ny * nx)
    (m : HoughMap K) (data : List (List (HoughEntry K)))
    (hm : houghIndexing s ids phases ix = .ok (m, data)) :
    m.rotations.length = ny * nx ∧ m.phaseListIds = ids ∧ m.scanUnit = s.unit ∧
    ∀ r c : ℕ, r < ny → c < nx → ∃ (p : P) (pc : PC K), s.patterns[r * nx + c]? = some p ∧
      (if det.pc.length = 1 then det.pc.head? else det.pc[r * nx + c]?) = some pc ∧
      m.Shows (r * nx + c) (solve p pc phases.length) ∧
      m.x[r * nx + c]? = some ((c : K) * dx) ∧
      (m.y.bind fun y => y[r * nx + c]?) = some ((r : K) * dy) := by
  have hacc := (C78_accepted uniq solve det ids phases a ix h s ny nx dy dx hnav hst).mp ⟨_, hm⟩
  have hph := C78_own_phases uniq solve det phases a ix h
  have hpl : phases.length = ix.phases.length := ((phaseListsError_none _ _).mp hph).1
  have hix : ix.pcShape = squeezedPcShape det.pc.length ∧ ix.pcs = det.pc ∧ ix.solve = solve := by
    unfold getIndexer at h
    split at h
    · simp at h
    · simp only [Except.ok.injEq] at h
      subst h
      exact ⟨rfl, rfl, rfl⟩
  obtain ⟨hs, hpcs, hsolve⟩ := hix
  -- the PCs used
  have hused : ∃ pcs : List (PC K), pcs.length = ny * nx ∧
      indexPats ix s.patterns = ((List.range (ix.phases.length + 1)).map fun j =>
        (s.patterns.zip pcs).map fun p => ix.solve p.1 p.2 j) ∧
      ∀ k : ℕ, k < ny * nx →
        (if det.pc.length = 1 then det.pc.head? else det.pc[k]?) = pcs[k]? := by
    by_cases h1 : det.pc.length = 1
    · refine ⟨List.replicate (ny * nx) (det.pc.headD ⟨0, 0, 0⟩), by simp, ?_, ?_⟩
      · unfold indexPats
        rw [hs, squeezedPcShape, if_pos h1, if_pos rfl, hpat, hpcs]
      · intro k hk
        rw [if_pos h1, List.getElem?_replicate, if_pos hk]
        rcases hd : det.pc with _ | ⟨q, l⟩
        · rw [hd] at h1; simp at h1
        · rfl
    · refine ⟨det.pc, hacc.2.resolve_left h1, ?_, ?_⟩
      · unfold indexPats
        rw [hs, squeezedPcShape, if_neg h1, if_neg (by simp), hpcs]
      · intro k _
        rw [if_neg h1]
  obtain ⟨pcs, hpl', hdata, hpck⟩ := hused
  unfold houghIndexing at hm
  split at hm
  · simp at hm
  · split at hm
    · simp at hm
    · split at hm
      · simp at hm
      · rename_i m' data' hx
        simp only [Except.ok.injEq, Prod.mk.injEq] at hm
        obtain ⟨hm', hd'⟩ := hm
        have hrows : ∀ row ∈ indexPats ix s.patterns, row.length = s.patterns.length := by
          rw [hdata]
          intro row hrow
          simp only [List.mem_map] at hrow
          obtain ⟨j, -, rfl⟩ := hrow
          rw [List.length_map, List.length_zip, hpl', hpat, Nat.min_self]
        rw [hnav, hst] at hx
        obtain ⟨row, hrow, hlast, -, hlen, -, hids, -, hpts⟩ := C78_map _ _ _ ny nx ids (-1) dy dx
          "px" m' hpat hrows hx
        have hrow' : row = (s.patterns.zip pcs).map fun p => ix.solve p.1 p.2 phases.length := by
          have := hlast rfl
          rw [hdata, List.getLast?_eq_getElem?, List.length_map, List.length_range,
            List.getElem?_map, List.getElem?_range (by omega), Option.map_some,
            Option.some.injEq] at this
          rw [← this, hpl]
          rfl
        refine ⟨by rw [← hm']; exact hlen, by rw [← hm']; exact hids, by rw [← hm'], ?_⟩
        intro r c hr hc
        have hk := flat_lt hr hc
        obtain ⟨e, he, hsh, hxx, hyy⟩ := hpts r c hr hc
        have hkp : r * nx + c < s.patterns.length := by rw [hpat]; exact hk
        have hkc : r * nx + c < pcs.length := by rw [hpl']; exact hk
        refine ⟨s.patterns[r * nx + c], pcs[r * nx + c], List.getElem?_eq_getElem hkp, ?_, ?_, ?_,
          ?_⟩
        · rw [hpck _ hk, List.getElem?_eq_getElem hkc]
        · have hz : (s.patterns.zip pcs)[r * nx + c]? =
              some (s.patterns[r * nx + c], pcs[r * nx + c]) := by
            rw [List.getElem?_zip_eq_some]
            exact ⟨List.getElem?_eq_getElem hkp, List.getElem?_eq_getElem hkc⟩
          rw [hrow', List.getElem?_map, hz, Option.map_some, Option.some.injEq, hsolve] at he
          rw [he, ← hm']
          exact ⟨hsh.rotation, hsh.phase, hsh.fit, hsh.cm, hsh.pq, hsh.nmatch⟩
        · rw [← hm']; exact hxx
        · rw [← hm']; exact hyy

end

/-- A detector with PCs for a map of 2 rows and 3 columns. -/
def exHoughDet : Detector ℚ :=
  { nrows := 4, ncols := 5, pxSize := 1, binning := 1, tilt := 0, azimuthal := 0, twist := 0
    sampleTilt := 70, nav := [2, 3], pc := (List.range 6).map fun (i : ℕ) => ⟨(i : ℚ), 0, 1⟩ }

/-- A map of patterns (numbers stand for the patterns) with `ny` rows and `nx` columns. -/
def exHoughSig (ny nx : ℕ) : HoughSignal ℚ ℕ :=
  { nav := [ny, nx], steps := [2, 3], sig := (4, 5), patterns := List.range (ny * nx), unit := "um" }

/-- An indexing routine that reports the pattern and the PC. -/
def exSolve (p : ℕ) (pc : PC ℚ) (j : ℕ) : HoughEntry ℚ := ⟨(0, 1, 0, 0), 0, pc.x, (p : ℚ), (j : ℚ), 3⟩

/-- The indexer of `exHoughDet`. -/
def exHoughIx : HoughIndexer ℚ ℕ :=
  { vendor := "KIKUCHIPY", patDim := (4, 5), pcShape := [6, 3], pcs := exHoughDet.pc
    sampleTilt := 70, camElev := 0, phases := [⟨"ni", 225, nickel.lattice, none⟩]
    solve := exSolve }

theorem exHoughIx_eq :
    getIndexer (fun _ l => l) exSolve exHoughDet [nickel] .none = .ok exHoughIx := by
  rfl

/-- Witness for `C78_accepted` and `C78_pairing`. -/
example : ∃ m data, houghIndexing (exHoughSig 2 3) [0] [nickel] exHoughIx = .ok (m, data) ∧
    (exHoughSig 2 3).patterns.length = 2 * 3 := by
  obtain ⟨⟨m, d⟩, h⟩ := (C78_accepted (fun _ l => l) exSolve exHoughDet [0] [nickel] .none
    exHoughIx exHoughIx_eq (exHoughSig 2 3) 2 3 2 3 rfl rfl).mpr (by decide +kernel)
  exact ⟨m, d, h, by decide⟩

/-- **C78 violated**: the shapes of the detector's map of PCs and of the signal's map are not
compared. PCs of a map of 2 rows and 3 columns are used for a map of 3 rows and 2 columns: the
pattern in row 1, column 0 gets the PC of row 0, column 2. -/
theorem C78_map_shape_violated :
    exHoughDet.nav = [2, 3] ∧ (exHoughSig 3 2).nav = [3, 2] ∧
    ∃ m data, houghIndexing (exHoughSig 3 2) [0] [nickel] exHoughIx = .ok (m, data) ∧
      ∃ e : HoughEntry ℚ, m.Shows (1 * 2 + 0) e ∧ some e.fit = (exHoughDet.pc[0 * 3 + 2]?).map PC.x := by
  refine ⟨rfl, rfl, ?_⟩
  obtain ⟨⟨m, d⟩, h⟩ := (C78_accepted (fun _ l => l) exSolve exHoughDet [0] [nickel] .none
    exHoughIx exHoughIx_eq (exHoughSig 3 2) 3 2 2 3 rfl rfl).mpr (by decide +kernel)
  obtain ⟨-, -, -, hp⟩ := C78_pairing (fun _ l => l) exSolve exHoughDet [0] [nickel] .none
    exHoughIx exHoughIx_eq (exHoughSig 3 2) 3 2 2 3 rfl rfl (by decide) m d h
  obtain ⟨p, pc, -, hpc, hs, -⟩ := hp 1 0 (by omega) (by omega)
  refine ⟨m, d, h, _, hs, ?_⟩
  have : some (exSolve p pc [nickel].length).fit = (some pc).map PC.x := rfl
  rw [this, ← hpc]
  decide +kernel

/-! ### Chunks and optimized PCs -/

/-- **C78**: the number of chunks announced is the number of chunks of at most the given size needed
for all patterns. -/
theorem C78_chunks (n size : ℕ) (hs : 0 < size) (hn : 0 < n) :
    n ≤ houghChunks n size * size ∧ (houghChunks n size - 1) * size < n := by
  unfold houghChunks
  simp only
  rw [Nat.max_eq_left (by omega)]
  rcases Nat.le_total size n with h | h
  · rw [Nat.min_eq_left h]
    have h1 := Nat.div_add_mod (n + size - 1) size
    have h2 := Nat.mod_lt (n + size - 1) hs
    have h3 : 1 ≤ (n + size - 1) / size := by
      rw [Nat.le_div_iff_mul_le hs]; omega
    generalize (n + size - 1) / size = q at *
    rw [Nat.sub_mul, Nat.mul_comm q size]
    omega
  · rw [Nat.min_eq_right h]
    have : (n + n - 1) / n = 1 := by
      rw [Nat.div_eq_iff hn]; omega
    rw [this]
    omega

example : houghChunks 9 528 = 1 ∧ houghChunks 9 4 = 3 := by decide

section
variable [Field K] [LinearOrder K] [IsStrictOrderedRing K]

/-- **C78**: `hough_indexing_optimize_pc()` with the indexer of a detector returns a detector of the
shape of the patterns, with the tilts of that detector, the PCs found, and, with `batch=True`, the
map shape of the signal. Missing: binning and pixel size of the detector, which are not kept. -/
theorem C78_optimize_pc_partial (uniq : OrixPhase K → List Hkl → List Hkl)
    (solve : P → PC K → ℕ → HoughEntry K) (det : Detector K) (phases : List (OrixPhase K))
    (a : RefArg) (ix : HoughIndexer K P) (h : getIndexer uniq solve det phases a = .ok ix)
    (s : HoughSignal K P) (n : ℕ) (batch : Bool) (method : String) (found : List (PC K))
    (d : Detector K) (hd : houghOptimizePc s n ix batch method found = .ok d) :
    n = 3 ∧ method.toLower ∈ ["nelder-mead", "pso"] ∧
    (d.nrows, d.ncols) = s.sig ∧ s.sig = (det.nrows, det.ncols) ∧ d.tilt = det.tilt ∧
    d.sampleTilt = det.sampleTilt ∧ d.azimuthal = 0 ∧ d.twist = 0 ∧ d.pc = found ∧
    (batch = true → d.nav.prod = found.length ∧ (s.nav ≠ [] → d.nav = s.nav)) ∧
    (batch = false → d.nav = [1]) := by
  have hix : ix.patDim = (det.nrows, det.ncols) ∧ ix.camElev = det.tilt ∧
      ix.sampleTilt = det.sampleTilt := by
    unfold getIndexer at h
    split at h
    · simp at h
    · simp only [Except.ok.injEq] at h
      subst h
      exact ⟨rfl, rfl, rfl⟩
  obtain ⟨hp, ht, hst⟩ := hix
  unfold houghOptimizePc at hd
  by_cases h1 : n = 3
  · rw [if_neg (not_not.mpr h1)] at hd
    by_cases h2 : method.toLower ∈ ["nelder-mead", "pso"]
    · rw [if_neg (not_not.mpr h2)] at hd
      split at hd
      · simp at hd
      · rename_i herr
        have hsig : s.sig = (det.nrows, det.ncols) := by
          unfold indexerError at herr
          by_contra hne
          split_ifs at herr with h3 h4
          rw [← hp] at hne
          exact h4 hne
        by_cases h3 : batch = true ∧ found.length ≠ s.nav.prod
        · rw [if_pos h3] at hd
          simp at hd
        · rw [if_neg h3] at hd
          simp only [Except.ok.injEq] at hd
          subst hd
          refine ⟨h1, h2, rfl, hsig, ht, hst, rfl, rfl, rfl, ?_, ?_⟩
          · intro hb
            have hl : found.length = s.nav.prod := by
              by_contra hne
              exact h3 ⟨hb, hne⟩
            by_cases hnav : s.nav = []
            · simp only [hnav, hl]
              simp
            · simp [hb, hnav, hl]
          · intro hb
            simp [hb]
    · rw [if_pos h2] at hd
      simp at hd
  · rw [if_pos h1] at hd
    simp at hd

end

example : ∃ d, houghOptimizePc (exHoughSig 2 3) 3 exHoughIx true "PSO" exHoughDet.pc = .ok d := by
  exact ⟨exHoughDet, by decide +kernel⟩

end Kp
