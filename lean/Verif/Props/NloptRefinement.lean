import Verif.Spec.NloptRefinement
import Verif.Props.RefinementSetup
import Mathlib.Algebra.BigOperators.Fin
import Mathlib.Tactic.Linarith

/-
C147: with NLopt, a pattern is refined as if it were alone, although one optimizer is used for all
patterns of a block and all blocks are given the same one.
-/

namespace Kp
open Spec
noncomputable section

/-! ### One block -/

/-- The operations of a block, without other blocks. -/
def nloptSeq (alg : NloptAlgorithm) (ps : Bool) (o : NloptObject) (l : NloptLocals) :
    List NloptInstr → Except Err (List RefineRow)
  | [] => .ok []
  | c :: cs =>
    match nloptExec alg ps o l c with
    | .error e => .error e
    | .ok (o, l, r) => (nloptSeq alg ps o l cs).map (r ++ ·)

theorem map_nil_append {e : Except Err (List RefineRow)} : e.map (([] : List RefineRow) ++ ·) = e := by
  cases e <;> rfl

theorem except_map_id {e : Except Err (List RefineRow)} : e.map (fun x => x) = e := by
  cases e <;> rfl

/-- The optimizer of a block, before or after any pattern. -/
def NloptOwn (settings : NloptSettings) (trust : Bool) (o : NloptObject) : Prop :=
  o.settings = settings ∧ (trust = false → o.lower = none ∧ o.upper = none)

def NloptLocals.push (l : NloptLocals) (r : OptResult ℝ (List ℝ)) : NloptLocals :=
  ⟨l.xs ++ [r.x], l.vals ++ [r.funVal], l.evals ++ [r.nfev]⟩

theorem foldl_push (rs : List (OptResult ℝ (List ℝ))) (l : NloptLocals) :
    rs.foldl NloptLocals.push l =
      ⟨l.xs ++ rs.map (·.x), l.vals ++ rs.map (·.funVal), l.evals ++ rs.map (·.nfev)⟩ := by
  induction rs generalizing l with
  | nil => simp
  | cons r rs ih => rw [List.foldl_cons, ih]; simp [NloptLocals.push]

variable {alg : NloptAlgorithm} {settings : NloptSettings} {trust ps : Bool}

/-- Running the optimizer when everything is set. -/
theorem seq_run {o : NloptObject} {l : NloptLocals} {s : NloptStart} {p : NloptPoint}
    (rest : List NloptInstr) (hs : o.settings = settings)
    (hl : o.lower = if trust then some s.lower else none)
    (hu : o.upper = if trust then some s.upper else none) (ho : o.objective = some p.objective) :
    (∀ e, alg (ownProblem settings trust p s) s.x0 = .error e →
      nloptSeq alg ps o l (runInstrs s ++ rest) = .error e) ∧
    (∀ r, alg (ownProblem settings trust p s) s.x0 = .ok r →
      nloptSeq alg ps o l (runInstrs s ++ rest) =
        nloptSeq alg ps { o with lastValue := r.funVal, numEvals := r.nfev } (l.push r) rest) := by
  have hp : (⟨o.settings, o.lower, o.upper, p.objective⟩ : NloptProblem)
      = ownProblem settings trust p s := by
    unfold ownProblem; rw [hs, hl, hu]
  constructor
  · intro e he
    simp only [runInstrs, List.cons_append, nloptSeq, nloptExec, ho, hp, he]
  · intro r hr
    simp only [runInstrs, List.cons_append, List.nil_append, nloptSeq, nloptExec, ho, hp, hr,
      except_map_id, NloptLocals.push]

/-- What the operations for a starting point do. -/
theorem seq_start (mode : RMode) {o : NloptObject} {l : NloptLocals} {s : NloptStart} {p : NloptPoint}
    (rest : List NloptInstr) (hown : NloptOwn settings trust o)
    (ho : mode ≠ .pc → o.objective = some p.objective) :
    let prog := if mode = .pc then boundInstrs trust s ++ .setObjective p.objective :: runInstrs s
      else boundInstrs trust s ++ runInstrs s
    (∀ e, alg (ownProblem settings trust p s) s.x0 = .error e →
      nloptSeq alg ps o l (prog ++ rest) = .error e) ∧
    (∀ r, alg (ownProblem settings trust p s) s.x0 = .ok r →
      ∃ o', NloptOwn settings trust o' ∧ (mode ≠ .pc → o'.objective = some p.objective) ∧
        nloptSeq alg ps o l (prog ++ rest) = nloptSeq alg ps o' (l.push r) rest) := by
  obtain ⟨hs, hb⟩ := hown
  -- the optimizer with bounds and objective set
  let o1 : NloptObject := ⟨settings, if trust then some s.lower else none,
    if trust then some s.upper else none, some p.objective, o.lastValue, o.numEvals⟩
  have hprog : nloptSeq alg ps o l ((if mode = .pc then
      boundInstrs trust s ++ .setObjective p.objective :: runInstrs s
      else boundInstrs trust s ++ runInstrs s) ++ rest) =
      nloptSeq alg ps o1 l (runInstrs s ++ rest) := by
    obtain ⟨os, ol, ou, oo, ov, oe⟩ := o
    simp only at hs hb ho
    subst hs
    by_cases hm : mode = .pc
    · rw [if_pos hm]
      cases trust
      · obtain ⟨rfl, rfl⟩ := hb rfl
        simp only [boundInstrs, Bool.false_eq_true, if_false, List.nil_append, List.cons_append]
        rw [nloptSeq]
        simp only [nloptExec, map_nil_append, o1, Bool.false_eq_true, if_false]
      · simp only [boundInstrs, if_true, List.cons_append, List.nil_append]
        rw [nloptSeq]
        simp only [nloptExec, map_nil_append]
        rw [nloptSeq]
        simp only [nloptExec, map_nil_append]
        rw [nloptSeq]
        simp only [nloptExec, map_nil_append, o1, if_true]
    · rw [if_neg hm]
      have := ho hm
      subst this
      cases trust
      · obtain ⟨rfl, rfl⟩ := hb rfl
        simp only [boundInstrs, Bool.false_eq_true, if_false, List.nil_append, o1]
      · simp only [boundInstrs, if_true, List.cons_append, List.nil_append]
        rw [nloptSeq]
        simp only [nloptExec, map_nil_append]
        rw [nloptSeq]
        simp only [nloptExec, map_nil_append, o1, if_true]
  obtain ⟨h1, h2⟩ := seq_run (alg := alg) (settings := settings) (trust := trust) (ps := ps) (o := o1)
    (l := l) (s := s) (p := p) rest rfl rfl rfl rfl
  refine ⟨fun e he => hprog.trans (h1 e he), fun r hr => ⟨_, ⟨rfl, ?_⟩, fun _ => rfl,
    hprog.trans (h2 r hr)⟩⟩
  intro ht
  simp [o1, ht]

/-- All starting points of a pattern. -/
theorem seq_starts (mode : RMode) {p : NloptPoint} (rest : List NloptInstr) (starts : List NloptStart)
    {o : NloptObject} {l : NloptLocals} (hown : NloptOwn settings trust o)
    (ho : mode ≠ .pc → o.objective = some p.objective) :
    (∃ e, (∃ s ∈ starts, alg (ownProblem settings trust p s) s.x0 = .error e) ∧
      nloptSeq alg ps o l (starts.flatMap (fun s => if mode = .pc then
        boundInstrs trust s ++ .setObjective p.objective :: runInstrs s
        else boundInstrs trust s ++ runInstrs s) ++ rest) = .error e) ∨
    (∃ rs, List.Forall₂ (fun s r => alg (ownProblem settings trust p s) s.x0 = .ok r) starts rs ∧
      ∃ o', NloptOwn settings trust o' ∧ 
        nloptSeq alg ps o l (starts.flatMap (fun s => if mode = .pc then
          boundInstrs trust s ++ .setObjective p.objective :: runInstrs s
          else boundInstrs trust s ++ runInstrs s) ++ rest)
          = nloptSeq alg ps o' (rs.foldl NloptLocals.push l) rest) := by
  induction starts generalizing o l with
  | nil => exact .inr ⟨[], .nil, o, hown, rfl⟩
  | cons s ss ih =>
    rw [List.flatMap_cons, List.append_assoc]
    obtain ⟨h1, h2⟩ := seq_start (alg := alg) (ps := ps) mode (l := l) (s := s) (p := p)
      (ss.flatMap (fun s => if mode = .pc then
        boundInstrs trust s ++ .setObjective p.objective :: runInstrs s
        else boundInstrs trust s ++ runInstrs s) ++ rest) hown ho
    cases hr : alg (ownProblem settings trust p s) s.x0 with
    | error e => exact .inl ⟨e, ⟨s, List.mem_cons_self, hr⟩, h1 e hr⟩
    | ok r =>
      obtain ⟨o', hown', ho', heq⟩ := h2 r hr
      rcases ih (l := l.push r) hown' ho' with ⟨e, ⟨t, ht, hte⟩, hE⟩ | ⟨rs, hrs, o'', hown'', hE⟩
      · exact .inl ⟨e, ⟨t, List.mem_cons_of_mem _ ht, hte⟩, heq.trans hE⟩
      · exact .inr ⟨r :: rs, .cons hr hrs, o'', hown'', heq.trans hE⟩

/-- The first smallest of the values of some results. -/
theorem report_best {results : List (OptResult ℝ (List ℝ))} (h : results ≠ []) :
    ∃ best r, results[best]? = some r ∧
      (∀ j r', results[j]? = some r' → r.funVal ≤ r'.funVal ∧ (j < best → r.funVal < r'.funVal)) ∧
      (⟨1 - (results.map (·.funVal)).getD (argminFirst (results.map (·.funVal))) 0,
        (results.map (·.nfev)).getD (argminFirst (results.map (·.funVal))) 0,
        (results.map (·.x)).getD (argminFirst (results.map (·.funVal))) [],
        if ps then some (argminFirst (results.map (·.funVal))) else none⟩ : RefineRow) =
      ⟨1 - r.funVal, r.nfev, r.x, if ps then some best else none⟩ := by
  have hl : results.map (·.funVal) ≠ [] := by simpa using h
  obtain ⟨h1, h2, h3⟩ := argminFirst_spec hl
  generalize argminFirst (results.map (·.funVal)) = b at h1 h2 h3 ⊢
  have hb : b < results.length := by simpa using h1
  have get : ∀ j r', results[j]? = some r' → j < results.length ∧
      (results.map (·.funVal)).getD j 0 = r'.funVal := by
    intro j r' hj
    obtain ⟨hj', rfl⟩ := List.getElem?_eq_some_iff.mp hj
    exact ⟨hj', by simp [hj']⟩
  have gb := (get b results[b] (List.getElem?_eq_getElem hb)).2
  refine ⟨b, results[b], List.getElem?_eq_getElem hb, ?_, ?_⟩
  · intro j r' hj
    obtain ⟨hj', e⟩ := get j r' hj
    refine ⟨?_, fun hlt => ?_⟩
    · have := h2 j (by simpa using hj'); rwa [gb, e] at this
    · have := h3 j hlt; rwa [gb, e] at this
  · simp [hb]

/-- A pattern. -/
theorem seq_point (mode : RMode) {p : NloptPoint} (hp : p.starts ≠ []) (rest : List NloptInstr)
    {o : NloptObject} (hown : NloptOwn settings trust o) :
    (∃ e, FailsAlone alg settings trust p e ∧
      nloptSeq alg ps o ⟨[], [], []⟩ (pointProgram mode trust p ++ rest) = .error e) ∨
    (∃ row o', RefinedAlone alg settings trust ps p row ∧ NloptOwn settings trust o' ∧
      nloptSeq alg ps o ⟨[], [], []⟩ (pointProgram mode trust p ++ rest) =
        (nloptSeq alg ps o' ⟨[], [], []⟩ rest).map (row :: ·)) := by
  have key : ∀ o1 : NloptObject, NloptOwn settings trust o1 →
      (mode ≠ .pc → o1.objective = some p.objective) →
      nloptSeq alg ps o ⟨[], [], []⟩ (pointProgram mode trust p ++ rest) =
        nloptSeq alg ps o1 ⟨[], [], []⟩ (p.starts.flatMap (fun s => if mode = .pc then
          boundInstrs trust s ++ .setObjective p.objective :: runInstrs s
          else boundInstrs trust s ++ runInstrs s) ++ (.report :: rest)) →
      (∃ e, FailsAlone alg settings trust p e ∧
        nloptSeq alg ps o ⟨[], [], []⟩ (pointProgram mode trust p ++ rest) = .error e) ∨
      (∃ row o', RefinedAlone alg settings trust ps p row ∧ NloptOwn settings trust o' ∧
        nloptSeq alg ps o ⟨[], [], []⟩ (pointProgram mode trust p ++ rest) =
          (nloptSeq alg ps o' ⟨[], [], []⟩ rest).map (row :: ·)) := by
    intro o1 h1 h2 h3
    rcases seq_starts (alg := alg) (ps := ps) mode (.report :: rest) p.starts h1 h2
      with ⟨e, hf, hE⟩ | ⟨rs, hrs, o', hown', hE⟩
    · exact .inl ⟨e, hf, h3.trans hE⟩
    · have hne : rs ≠ [] := by
        rintro rfl
        exact hp (List.forall₂_nil_right_iff.mp hrs)
      obtain ⟨b, r, hb, hmin, hrow⟩ := report_best (ps := ps) hne
      refine .inr ⟨_, o', ⟨rs, hrs, b, r, hb, hmin, rfl⟩, hown', ?_⟩
      rw [h3, hE, foldl_push, nloptSeq]
      simp only [nloptExec, List.nil_append]
      rw [hrow]
      rfl
  cases mode
  · refine key { o with objective := some p.objective } ⟨hown.1, hown.2⟩ (fun _ => rfl) ?_
    simp only [pointProgram, List.cons_append, List.append_assoc, List.nil_append]
    rw [nloptSeq]
    simp [nloptExec, except_map_id]
  · refine key o hown (fun h => (h rfl).elim) ?_
    simp [pointProgram]
  · refine key { o with objective := some p.objective } ⟨hown.1, hown.2⟩ (fun _ => rfl) ?_
    simp only [pointProgram, List.cons_append, List.append_assoc, List.nil_append]
    rw [nloptSeq]
    simp [nloptExec, except_map_id]

/-- All patterns of a block. -/
theorem seq_block (mode : RMode) (points : List NloptPoint) (hp : ∀ p ∈ points, p.starts ≠ [])
    {o : NloptObject} (hown : NloptOwn settings trust o) :
    (∃ e, (∃ p ∈ points, FailsAlone alg settings trust p e) ∧
      nloptSeq alg ps o ⟨[], [], []⟩ (points.flatMap (pointProgram mode trust)) = .error e) ∨
    (∃ rows, List.Forall₂ (RefinedAlone alg settings trust ps) points rows ∧
      nloptSeq alg ps o ⟨[], [], []⟩ (points.flatMap (pointProgram mode trust)) = .ok rows) := by
  induction points generalizing o with
  | nil => exact .inr ⟨[], .nil, rfl⟩
  | cons p points ih =>
    rw [List.flatMap_cons]
    rcases seq_point (alg := alg) (ps := ps) mode (hp p List.mem_cons_self)
      (points.flatMap (pointProgram mode trust)) hown with ⟨e, hf, hE⟩ | ⟨row, o', hr, hown', hE⟩
    · exact .inl ⟨e, ⟨p, List.mem_cons_self, hf⟩, hE⟩
    · rcases ih (fun q hq => hp q (List.mem_cons_of_mem _ hq)) hown' with
        ⟨e, ⟨q, hq, hf⟩, hE'⟩ | ⟨rows, hrows, hE'⟩
      · exact .inl ⟨e, ⟨q, List.mem_cons_of_mem _ hq, hf⟩, by rw [hE, hE']; rfl⟩
      · exact .inr ⟨row :: rows, .cons hr hrows, by rw [hE, hE']; rfl⟩

/-! ### All blocks -/

variable {n : ℕ} {mode : RMode} {work : Fin n → List NloptPoint}

/-- What a block gives when it runs without the others. -/
def nloptTarget (alg : NloptAlgorithm) (ps : Bool) (settings : NloptSettings) (mode : RMode)
    (trust : Bool) (points : List NloptPoint) : Except Err (List RefineRow) :=
  nloptSeq alg ps (.new settings) ⟨[], [], []⟩ (points.flatMap (pointProgram mode trust))

/-- What holds at any time. -/
structure NloptInv (alg : NloptAlgorithm) (ps : Bool) (settings : NloptSettings) (mode : RMode)
    (trust : Bool) (work : Fin n → List NloptPoint) (s : NloptState n) : Prop where
  shared : s.heap 0 = .new settings
  next : 0 < s.next
  fresh : ∀ i, (s.blocks i).addr = none → s.blocks i = (nloptStart settings mode trust work).blocks i
  addr : ∀ i a, (s.blocks i).addr = some a → 0 < a ∧ a < s.next
  distinct : ∀ i j a, (s.blocks i).addr = some a → (s.blocks j).addr = some a → i = j
  going : ∀ i a, (s.blocks i).addr = some a → (s.blocks i).failed = none →
    (nloptSeq alg ps (s.heap a) (s.blocks i).vars (s.blocks i).todo).map ((s.blocks i).rows ++ ·)
      = nloptTarget alg ps settings mode trust (work i)
  failed : ∀ i e, (s.blocks i).failed = some e →
    nloptTarget alg ps settings mode trust (work i) = .error e

theorem NloptInv.start : NloptInv alg ps settings mode trust work
    (nloptStart settings mode trust work) where
  shared := rfl
  next := Nat.one_pos
  fresh _ _ := rfl
  addr i a h := by simp [nloptStart] at h
  distinct i j a h := by simp [nloptStart] at h
  going i a h := by simp [nloptStart] at h
  failed i e h := by simp [nloptStart] at h

theorem NloptInv.step {s t : NloptState n} (h : NloptInv alg ps settings mode trust work s)
    (st : NloptStep alg ps s t) : NloptInv alg ps settings mode trust work t := by
  cases st with
  | copy i hi =>
    have hb := h.fresh i hi
    have hn := h.next
    constructor
    · simp only
      rw [Function.update_of_ne (by omega)]
      exact h.shared
    · simp only; omega
    · intro j hj
      simp only at hj ⊢
      by_cases hij : j = i
      · subst hij; simp at hj
      · rw [Function.update_of_ne hij] at hj ⊢
        exact h.fresh j hj
    · intro j a hj
      simp only at hj ⊢
      by_cases hij : j = i
      · subst hij; simp at hj; omega
      · rw [Function.update_of_ne hij] at hj
        have := h.addr j a hj
        omega
    · intro j k a hj hk
      simp only at hj hk
      by_cases hji : j = i <;> by_cases hki : k = i
      · rw [hji, hki]
      · subst hji
        rw [Function.update_of_ne hki] at hk
        simp at hj
        have := h.addr k a hk
        omega
      · subst hki
        rw [Function.update_of_ne hji] at hj
        simp at hk
        have := h.addr j a hj
        omega
      · rw [Function.update_of_ne hji] at hj
        rw [Function.update_of_ne hki] at hk
        exact h.distinct j k a hj hk
    · intro j a hj hf
      simp only at hj hf ⊢
      by_cases hij : j = i
      · subst hij
        simp only [Function.update_self, Option.some.injEq] at hj hf ⊢
        subst hj
        rw [Function.update_self, h.shared, hb]
        exact map_nil_append
      · rw [Function.update_of_ne hij] at hj hf ⊢
        have := h.addr j a hj
        rw [Function.update_of_ne (by omega)]
        exact h.going j a hj hf
    · intro j e hf
      simp only at hf
      by_cases hij : j = i
      · subst hij
        simp only [Function.update_self] at hf
        exact h.failed j e hf
      · rw [Function.update_of_ne hij] at hf
        exact h.failed j e hf
  | exec i a c l hi ht hf o v r he =>
    have ha := h.addr i a hi
    constructor
    · simp only
      rw [Function.update_of_ne (by omega)]
      exact h.shared
    · exact h.next
    · intro j hj
      simp only at hj ⊢
      by_cases hij : j = i
      · subst hij; simp at hj
      · rw [Function.update_of_ne hij] at hj ⊢
        exact h.fresh j hj
    · intro j b hj
      simp only at hj ⊢
      by_cases hij : j = i
      · subst hij; simp at hj; omega
      · rw [Function.update_of_ne hij] at hj
        exact h.addr j b hj
    · intro j k b hj hk
      simp only at hj hk
      have back : ∀ m, ((Function.update s.blocks i
          (⟨some a, l, v, (s.blocks i).rows ++ r, none⟩ : NloptBlock)) m).addr = some b →
          (s.blocks m).addr = some b := by
        intro m hm
        by_cases hmi : m = i
        · subst hmi
          simp at hm
          rw [← hm]; exact hi
        · rwa [Function.update_of_ne hmi] at hm
      exact h.distinct j k b (back j hj) (back k hk)
    · intro j b hj hfj
      simp only at hj hfj ⊢
      by_cases hij : j = i
      · subst hij
        simp only [Function.update_self, Option.some.injEq] at hj ⊢
        subst hj
        rw [Function.update_self, ← h.going j a hi hf, ht, nloptSeq, he]
        simp only
        cases nloptSeq alg ps o v l with
        | error e => rfl
        | ok q => simp [Except.map]
      · rw [Function.update_of_ne hij] at hj hfj ⊢
        have hba : b ≠ a := by
          rintro rfl
          exact hij (h.distinct j i b hj hi)
        rw [Function.update_of_ne hba]
        exact h.going j b hj hfj
    · intro j e hfj
      simp only at hfj
      by_cases hij : j = i
      · subst hij; simp at hfj
      · rw [Function.update_of_ne hij] at hfj
        exact h.failed j e hfj
  | fail i a c l hi ht hf e he =>
    have same : ∀ m, ((Function.update s.blocks i { (s.blocks i) with failed := some e }) m).addr =
        (s.blocks m).addr := by
      intro m
      by_cases hmi : m = i
      · subst hmi; simp
      · rw [Function.update_of_ne hmi]
    constructor
    · exact h.shared
    · exact h.next
    · intro j hj
      simp only at hj ⊢
      by_cases hij : j = i
      · subst hij
        rw [same, hi] at hj
        cases hj
      · rw [Function.update_of_ne hij] at hj ⊢
        exact h.fresh j hj
    · intro j b hj
      simp only at hj
      rw [same] at hj
      exact h.addr j b hj
    · intro j k b hj hk
      simp only at hj hk
      rw [same] at hj hk
      exact h.distinct j k b hj hk
    · intro j b hj hfj
      simp only at hj hfj ⊢
      by_cases hij : j = i
      · subst hij; simp at hfj
      · rw [Function.update_of_ne hij] at hj hfj ⊢
        exact h.going j b hj hfj
    · intro j e' hfj
      simp only at hfj
      by_cases hij : j = i
      · subst hij
        simp only [Function.update_self, Option.some.injEq] at hfj
        subst hfj
        rw [← h.going j a hi hf, ht, nloptSeq, he]
        rfl
      · rw [Function.update_of_ne hij] at hfj
        exact h.failed j e' hfj

theorem NloptInv.run {m : ℕ} {s : NloptState n}
    (r : NloptRun alg ps m (nloptStart settings mode trust work) s) :
    NloptInv alg ps settings mode trust work s := by
  generalize h0 : nloptStart settings mode trust work = s0 at r
  induction r with
  | refl => subst h0; exact .start
  | tail _ _ _ _ _ st ih => exact (ih h0).step st

/-- C147: at the end of any run of all blocks, in any interleaving, a block has refined each of its
patterns as if it were alone; or it has raised an exception that one of its patterns raises alone. -/
theorem C147_alone (hw : ∀ i, ∀ p ∈ work i, p.starts ≠ []) {m : ℕ} {s : NloptState n}
    (r : NloptRun alg ps m (nloptStart settings mode trust work) s) (hd : s.Done) (i : Fin n) :
    ((s.blocks i).failed = none ∧
      List.Forall₂ (RefinedAlone alg settings trust ps) (work i) (s.blocks i).rows) ∨
    ∃ e, (s.blocks i).failed = some e ∧ ∃ p ∈ work i, FailsAlone alg settings trust p e := by
  have inv := NloptInv.run r
  obtain ⟨ha, hd⟩ := hd i
  obtain ⟨a, ha⟩ := Option.ne_none_iff_exists'.mp ha
  have hown : NloptOwn settings trust (.new settings) := ⟨rfl, fun _ => ⟨rfl, rfl⟩⟩
  have hb := seq_block (alg := alg) (ps := ps) mode (work i) (hw i) hown
  cases hf : (s.blocks i).failed with
  | none =>
    rw [hf] at hd
    have ht : (s.blocks i).todo = [] := by simpa using hd
    have hg := inv.going i a ha hf
    rw [ht, nloptSeq] at hg
    simp only [Except.map, List.append_nil] at hg
    rcases hb with ⟨e, _, hE⟩ | ⟨rows, hrows, hE⟩
    · unfold nloptTarget at hg; rw [hE] at hg; cases hg
    · unfold nloptTarget at hg
      rw [hE] at hg
      injection hg with hg
      exact .inl ⟨rfl, hg ▸ hrows⟩
  | some e =>
    have hg := inv.failed i e hf
    unfold nloptTarget at hg
    rcases hb with ⟨e', hex, hE⟩ | ⟨rows, _, hE⟩
    · rw [hE] at hg
      injection hg with hg
      exact .inr ⟨e, rfl, hg ▸ hex⟩
    · rw [hE] at hg; cases hg

theorem forall₂_ofFn_flatten {A B : Type} {R : A → B → Prop} : ∀ {n : ℕ} {f : Fin n → List A}
    {g : Fin n → List B}, (∀ i, List.Forall₂ R (f i) (g i)) →
    List.Forall₂ R (List.ofFn f).flatten (List.ofFn g).flatten
  | 0, _, _, _ => by simp
  | n + 1, f, g, h => by
    rw [List.ofFn_succ, List.ofFn_succ, List.flatten_cons, List.flatten_cons]
    exact List.rel_append (h 0) (forall₂_ofFn_flatten fun i => h i.succ)

theorem forall₂_ok_unique {A B : Type} {F : A → Except Err B} {l : List A} {a b : List B}
    (ha : List.Forall₂ (fun s r => F s = .ok r) l a) (hb : List.Forall₂ (fun s r => F s = .ok r) l b) :
    a = b := by
  induction ha generalizing b with
  | nil => cases hb; rfl
  | cons h hs ih =>
    cases hb with
    | cons h' hs' =>
      rw [h] at h'
      injection h' with h'
      rw [h', ih hs']

/-- C147: so if no pattern raises an exception alone, none is raised and all results are there. -/
theorem C147_no_failure (hw : ∀ i, ∀ p ∈ work i, p.starts ≠ []) {m : ℕ} {s : NloptState n}
    (r : NloptRun alg ps m (nloptStart settings mode trust work) s) (hd : s.Done)
    (hok : ∀ i, ∀ p ∈ work i, ∀ e, ¬ FailsAlone alg settings trust p e) :
    List.Forall₂ (RefinedAlone alg settings trust ps) ((List.ofFn work).flatten)
      ((List.ofFn fun i => (s.blocks i).rows).flatten) := by
  have each : ∀ i, List.Forall₂ (RefinedAlone alg settings trust ps) (work i) (s.blocks i).rows := by
    intro i
    rcases C147_alone hw r hd i with ⟨_, h⟩ | ⟨e, _, p, hp, hfail⟩
    · exact h
    · exact (hok i p hp e hfail).elim
  exact forall₂_ofFn_flatten each

/-- C147: a pattern has at most one result alone, so that results do not depend on the blocks patterns
are in, nor on the order of steps. -/
theorem C147_unique {p : NloptPoint} {a b : RefineRow}
    (ha : RefinedAlone alg settings trust ps p a) (hb : RefinedAlone alg settings trust ps p b) :
    a = b := by
  obtain ⟨rs, h1, i, r, hi, hmin, rfl⟩ := ha
  obtain ⟨rs', h1', i', r', hi', hmin', rfl⟩ := hb
  have : rs = rs' := forall₂_ok_unique h1 h1'
  subst this
  have e : i = i' := by
    rcases lt_trichotomy i i' with h | h | h
    · have a1 := (hmin' i r hi).2 h
      have a2 := (hmin i' r' hi').1
      exact absurd a1 (not_lt.mpr a2)
    · exact h
    · have a1 := (hmin i' r' hi').2 h
      have a2 := (hmin' i r hi).1
      exact absurd a1 (not_lt.mpr a2)
  subst e
  rw [hi] at hi'
  injection hi' with hi'
  rw [hi']

/-- C147: the optimizer all blocks are given is never changed. -/
theorem C147_shared_unchanged {m : ℕ} {s : NloptState n}
    (r : NloptRun alg ps m (nloptStart settings mode trust work) s) : s.heap 0 = .new settings :=
  (NloptInv.run r).shared

/-! ### Termination -/

/-- Steps a block may still make. -/
def NloptBlock.left (b : NloptBlock) : ℕ :=
  (if b.addr = none then 1 else 0) + (if b.failed = none then b.todo.length else 0)

theorem step_left {s t : NloptState n} (st : NloptStep alg ps s t) :
    ∑ i, (t.blocks i).left < ∑ i, (s.blocks i).left := by
  have key : ∀ (i : Fin n) (b : NloptBlock), b.left < (s.blocks i).left →
      ∑ j, (Function.update s.blocks i b j).left < ∑ j, (s.blocks j).left := by
    intro i b hb
    apply Finset.sum_lt_sum
    · intro j _
      by_cases hj : j = i
      · subst hj; rw [Function.update_self]; exact hb.le
      · rw [Function.update_of_ne hj]
    · exact ⟨i, Finset.mem_univ _, by rw [Function.update_self]; exact hb⟩
  cases st with
  | copy i hi => exact key i _ (by simp [NloptBlock.left, hi])
  | exec i a c l hi ht hf o v r he => exact key i _ (by simp [NloptBlock.left, hi, ht, hf])
  | fail i a c l hi ht hf e he => exact key i _ (by simp [NloptBlock.left, hi, ht, hf])

theorem run_left {m : ℕ} {s t : NloptState n} (r : NloptRun alg ps m s t) :
    m + ∑ i, (t.blocks i).left ≤ ∑ i, (s.blocks i).left := by
  induction r with
  | refl => simp
  | tail _ _ _ _ _ st ih =>
    have := step_left st
    omega

/-- C147: a run has at most as many steps as there are operations, and one for each copy. -/
theorem C147_terminates {m : ℕ} {s : NloptState n}
    (r : NloptRun alg ps m (nloptStart settings mode trust work) s) :
    m ≤ ∑ i, (1 + ((work i).flatMap (pointProgram mode trust)).length) := by
  have := run_left r
  have e : ∑ i, ((nloptStart settings mode trust work).blocks i).left =
      ∑ i, (1 + ((work i).flatMap (pointProgram mode trust)).length) :=
    Finset.sum_congr rfl fun i _ => by simp [NloptBlock.left, nloptStart]
  omega

/-- C147: a run which is not at its end can go on. -/
theorem C147_progress (s : NloptState n) (hd : ¬ s.Done) : ∃ t, NloptStep alg ps s t := by
  unfold NloptState.Done at hd
  push Not at hd
  obtain ⟨i, hi⟩ := hd
  cases ha : (s.blocks i).addr with
  | none => exact ⟨_, .copy s i ha⟩
  | some a =>
    obtain ⟨hf, ht⟩ := hi (by rw [ha]; simp)
    obtain ⟨c, l, ht⟩ := List.exists_cons_of_ne_nil ht
    cases he : nloptExec alg ps (s.heap a) (s.blocks i).vars c with
    | error e => exact ⟨_, .fail s i a c l ha ht hf e he⟩
    | ok q =>
      obtain ⟨o, v, r⟩ := q
      exact ⟨_, .exec s i a c l ha ht hf o v r he⟩

/-- C147: so there is a run to the end, and every run can be continued to one. -/
theorem C147_finishes (settings : NloptSettings) (mode : RMode) (trust : Bool)
    (work : Fin n → List NloptPoint) :
    ∃ m s, NloptRun alg ps m (nloptStart settings mode trust work) s ∧ s.Done := by
  by_contra hcon
  push Not at hcon
  have : ∀ m, ∃ s, NloptRun alg ps m (nloptStart settings mode trust work) s := by
    intro m
    induction m with
    | zero => exact ⟨_, .refl _⟩
    | succ m ih =>
      obtain ⟨s, hs⟩ := ih
      obtain ⟨t, ht⟩ := C147_progress (alg := alg) (ps := ps) s (hcon m s hs)
      exact ⟨t, .tail _ _ _ _ hs ht⟩
  obtain ⟨s, hs⟩ := this (∑ i, (1 + ((work i).flatMap (pointProgram mode trust)).length) + 1)
  have := C147_terminates hs
  omega

/-! ### Settings -/

/-- C147: what the optimizer is made with: the relative tolerance and the number of evaluations asked
for, one initial step for all angles or coordinates or, for both, the first for the angles and the
second for the coordinates of the projection center; another number of steps is an error. -/
theorem C147_settings (rtol : ℝ) (maxeval : Option ℕ) (a b : ℝ) :
    nloptSettings .ori "LN_NELDERMEAD" true rtol (some [a]) maxeval =
      .ok (some ⟨"LN_NELDERMEAD", 3, rtol, some [a, a, a], maxeval⟩) ∧
    nloptSettings .pc "ln_neldermead" true rtol (some [a]) maxeval =
      .ok (some ⟨"LN_NELDERMEAD", 3, rtol, some [a, a, a], maxeval⟩) ∧
    nloptSettings .oriPc "ln_neldermead" true rtol (some [a, b]) maxeval =
      .ok (some ⟨"LN_NELDERMEAD", 6, rtol, some [a, a, a, b, b, b], maxeval⟩) ∧
    (∀ mode, nloptSettings mode "ln_neldermead" true rtol none maxeval =
      .ok (some ⟨"LN_NELDERMEAD", if mode = .oriPc then 6 else 3, rtol, none, maxeval⟩)) ∧
    (∀ mode steps, steps.length ≠ (if mode = .oriPc then 2 else 1) →
      nloptSettings mode "ln_neldermead" true rtol (some steps) maxeval = .error .valueError) ∧
    (∀ mode steps, nloptSettings mode "ln_neldermead" false rtol steps maxeval = .error .valueError) := by
  have u1 : "LN_NELDERMEAD".toUpper = "LN_NELDERMEAD" := by decide +kernel
  have u2 : "ln_neldermead".toUpper = "LN_NELDERMEAD" := by decide +kernel
  have o1 : OptMethod.ofString "LN_NELDERMEAD" = some .lnNelderMead := by decide +kernel
  have o2 : OptMethod.ofString "ln_neldermead" = some .lnNelderMead := by decide +kernel
  refine ⟨?_, ?_, ?_, ?_, ?_, ?_⟩
  · simp [nloptSettings, o1, u1, OptMethod.isNlopt, initialSteps, RMode.nControl, List.replicate]
  · simp [nloptSettings, o2, u2, OptMethod.isNlopt, initialSteps, RMode.nControl, List.replicate]
  · simp [nloptSettings, o2, u2, OptMethod.isNlopt, initialSteps, RMode.nControl, List.replicate]
  · intro mode
    cases mode <;> simp [nloptSettings, o2, u2, OptMethod.isNlopt, RMode.nControl]
  · intro mode steps h
    simp [nloptSettings, o2, OptMethod.isNlopt, initialSteps, h]
  · intro mode steps
    simp [nloptSettings, o2, OptMethod.isNlopt]

/-! ### Agreement with the optimizer as a function (C77) -/

/-- C147: the results are those of the model of C77, where an optimizer is a function of the objective
function, starting point and bounds. -/
theorem C147_as_function {opt : Optimizer} {nPs : ℕ} {p : NloptPoint} {row : RefineRow}
    (halg : ∀ q x0, alg q x0 = .ok (opt q.objective (some x0)
      (match q.lower, q.upper with | some l, some u => some (l, u) | _, _ => none)))
    (hn : p.starts.length = nPs + 1)
    (h : RefinedAlone alg settings trust (decide (0 < nPs)) p row) :
    solveMany ⟨.lnNelderMead, trust, opt⟩ nPs p.objective (p.starts.map (·.x0))
      (p.starts.map (·.lower)) (p.starts.map (·.upper)) = some row := by
  let res : NloptStart → OptResult ℝ (List ℝ) := fun s =>
    opt p.objective (some s.x0) (if trust then some (s.lower, s.upper) else none)
  have hres : ∀ s, alg (ownProblem settings trust p s) s.x0 = .ok (res s) := by
    intro s
    rw [halg]
    cases trust <;> rfl
  have hall : List.Forall₂ (fun s r => alg (ownProblem settings trust p s) s.x0 = .ok r) p.starts
      (p.starts.map res) := by
    rw [List.forall₂_map_right_iff, List.forall₂_same]
    exact fun s _ => hres s
  have hne : p.starts.map res ≠ [] := by
    intro h0
    have := congrArg List.length h0
    simp [hn] at this
  obtain ⟨b, r, hb, hmin, hrow⟩ := report_best (ps := decide (0 < nPs)) hne
  have hrow' := C147_unique h ⟨_, hall, b, r, hb, hmin, rfl⟩
  rw [hrow', ← hrow]
  have hrun : ∀ s, (⟨.lnNelderMead, trust, opt⟩ : SolverKwargs).run p.objective s.x0 s.lower s.upper
      = res s := fun s => rfl
  unfold solveMany
  by_cases h0 : nPs = 0
  · subst h0
    obtain ⟨s, hs⟩ := List.length_eq_one_iff.mp hn
    rw [if_pos rfl, hs]
    simp only [List.map_cons, List.map_nil, List.getElem?_cons_zero, solveSingle, hrun]
    simp [argminFirst]
  · rw [if_neg h0]
    have hrange : (List.range (nPs + 1)).map ((⟨.lnNelderMead, trust, opt⟩ : SolverKwargs).runAt
        p.objective (p.starts.map (·.x0)) (p.starts.map (·.lower)) (p.starts.map (·.upper))) =
        (p.starts.map res).map some := by
      apply List.ext_getElem
      · simp [hn]
      · intro i h1 h2
        have hi : i < p.starts.length := by simpa using h2
        simp only [List.getElem_map, List.getElem_range, SolverKwargs.runAt, List.getElem?_map,
          List.getElem?_eq_getElem hi, Option.map_some, hrun]
    have hsome : ∀ l : List (OptResult ℝ (List ℝ)), allSome (l.map some) = some l := by
      intro l
      induction l with
      | nil => rfl
      | cons a l ih => rw [List.map_cons, allSome, ih]; rfl
    rw [hrange, hsome]
    simp only [OptMethod.isNlopt, if_true, bestNlopt]
    have hlt : argminFirst ((p.starts.map res).map (·.funVal)) < (p.starts.map res).length := by
      have := (argminFirst_spec (l := (p.starts.map res).map (·.funVal)) (by simpa using hne)).1
      simpa using this
    generalize argminFirst ((p.starts.map res).map (·.funVal)) = b at hlt ⊢
    have hb' : b < p.starts.length := by simpa using hlt
    simp [hb', Nat.pos_of_ne_zero h0]

/-! ### Examples -/

/-- An optimizer which gives back the starting point and its value, or raises an exception if it is
below the lower bound. -/
def lazyAlgorithm : NloptAlgorithm := fun q x0 =>
  match q.lower with
  | some (b :: _) => if x0.headD 0 < b then .error .valueError else .ok ⟨q.objective x0, 1, x0⟩
  | _ => .ok ⟨q.objective x0, 1, x0⟩

/-- A pattern with two starting points, of which the second is better. -/
example : RefinedAlone lazyAlgorithm ⟨"LN_NELDERMEAD", 3, 0, none, none⟩ true true
    ⟨fun x => 1 - x.headD 0, [⟨[1], [0], [2]⟩, ⟨[3], [2], [4]⟩]⟩ ⟨3, 1, [3], some 1⟩ := by
  refine ⟨[⟨0, 1, [1]⟩, ⟨-2, 1, [3]⟩], ?_, 1, ⟨-2, 1, [3]⟩, rfl, ?_, ?_⟩
  · refine .cons ?_ (.cons ?_ .nil)
    · norm_num [lazyAlgorithm, ownProblem]
    · norm_num [lazyAlgorithm, ownProblem]
  · intro j r' hj
    rcases j with _ | _ | j
    · simp only [List.getElem?_cons_zero, Option.some.injEq] at hj; subst hj; norm_num
    · simp only [List.getElem?_cons_succ, List.getElem?_cons_zero, Option.some.injEq] at hj
      subst hj; norm_num
    · simp at hj
  · norm_num

/-- With the bounds of the first starting point, the second pattern would be refined elsewhere: the bounds
matter to this optimizer. -/
example : FailsAlone lazyAlgorithm ⟨"LN_NELDERMEAD", 3, 0, none, none⟩ true
    ⟨fun x => 1 - x.headD 0, [⟨[1], [2], [3]⟩]⟩ .valueError ∧
    ¬ FailsAlone lazyAlgorithm ⟨"LN_NELDERMEAD", 3, 0, none, none⟩ false
    ⟨fun x => 1 - x.headD 0, [⟨[1], [2], [3]⟩]⟩ .valueError := by
  constructor
  · exact ⟨_, List.mem_singleton_self _, by norm_num [lazyAlgorithm, ownProblem]⟩
  · rintro ⟨s, _, h⟩
    simp [lazyAlgorithm, ownProblem] at h

/-- Two blocks with a pattern each: there are runs to the end. -/
example : ∃ m s, NloptRun (n := 2) lazyAlgorithm false m
    (nloptStart ⟨"LN_NELDERMEAD", 3, 0, none, none⟩ .ori true
      ![[⟨fun x => x.headD 0, [⟨[1], [0], [2]⟩]⟩], [⟨fun x => - x.headD 0, [⟨[5], [4], [6]⟩]⟩]]) s ∧
    s.Done := C147_finishes _ _ _ _

end
end Kp
