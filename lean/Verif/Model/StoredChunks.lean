import Verif.Model.Neighbours

/-
Model of what happens to the arrays of patterns in memory when signals are processed in place in
several chunks, or lazily:

* `EBSD.fft_filter(inplace=True)` (`signals/ebsd.py` L885-928) and
  `EBSD.average_neighbour_patterns(inplace=True)` (L1042-1095) of a signal in memory: a Dask array of
  the signal's own array (`da.from_array(signal.data)`, `signals/util/_dask.py` L159) is processed and
  the result of each chunk is stored in this array (`.store(self.data, compute=True)`, L926, L1094).
* methods which return a lazy signal of a signal in memory (`lazy_output=True`, `signals/ebsd.py`
  L570, L694, L782-783, L933, L1100, L1216, `as_lazy()`, `_kikuchipy_signal.py` L548-557), and methods
  which process in place (`self.map(..., inplace=True)`, `signals/ebsd.py` L566, L691, L1212).

Dask runs the tasks of different chunks in any order and at the same time. From knowledge of Dask and
HyperSpy (not in /repo): whether the chunks of `from_array` refer to the array's own memory or to
copies of it depends on the version of Dask, and is a parameter here (`copies`); `BaseSignal.map` in
place, with unchanged shape and data type, stores its result in the signal's array.

Simplifications: reading and storing one pattern are single steps; arrays are functions of, or lists
over, the map points. The chunk functions do not change the array they are given
(`np.empty_like`, `astype`, `pattern/chunk.py` L69, L115, L139, L157).
-/

namespace Kp

/-! ### Storing chunks in the array they are read from -/

section
variable {ι P : Type*}

/-- What is done with one chunk: the patterns which are read (with those of neighbouring chunks in the
overlap), the map points of the chunk and the chunk function, which gives the patterns of these. -/
structure StoreJob (ι P : Type*) where
  reads : List ι
  writes : List ι
  result : List P → List P

/-- How far a chunk has come: patterns to be read and those read, or patterns to be stored. -/
inductive JobState (ι P : Type*)
  | reading (todo : List ι) (got : List P)
  | writing (todo : List (ι × P))

/-- The array of the signal, and all chunks. -/
structure StoreState (ι P : Type*) where
  mem : ι → P
  jobs : List (JobState ι P)

variable [DecidableEq ι]

/-- The next step of a chunk. -/
def advanceJob (copies : Bool) (orig : ι → P) (j : StoreJob ι P) (mem : ι → P) :
    JobState ι P → (ι → P) × JobState ι P
  | .reading (p :: r) got => (mem, .reading r (got ++ [if copies then orig p else mem p]))
  | .reading [] got => (mem, .writing (j.writes.zip (j.result got)))
  | .writing ((p, v) :: r) => (Function.update mem p v, .writing r)
  | .writing [] => (mem, .writing [])

/-- One step of the `k`-th chunk. -/
def storeStep (copies : Bool) (orig : ι → P) (jobs : List (StoreJob ι P)) (s : StoreState ι P)
    (k : ℕ) : StoreState ι P :=
  match jobs[k]?, s.jobs[k]? with
  | some j, some js =>
    { mem := (advanceJob copies orig j s.mem js).1
      jobs := s.jobs.set k (advanceJob copies orig j s.mem js).2 }
  | _, _ => s

/-- `x.store(data, compute=True)` with chunks taking steps in the given order. -/
def runStore (copies : Bool) (jobs : List (StoreJob ι P)) (orig : ι → P) (sched : List ℕ) :
    StoreState ι P :=
  sched.foldl (storeStep copies orig jobs)
    { mem := orig, jobs := jobs.map fun j => .reading j.reads [] }

end

/-- Start and stop of all chunks of an axis. -/
def axisBlocks : List ℕ → ℕ → List (ℕ × ℕ)
  | [], _ => []
  | c :: cs, off => (off, off + c) :: axisBlocks cs (off + c)

/-- Map points in rows and columns. -/
def blockPoints (rb cb : ℕ × ℕ) : List (ℕ × ℕ) :=
  (List.range (rb.2 - rb.1)).flatMap fun i =>
    (List.range (cb.2 - cb.1)).map fun j => (rb.1 + i, cb.1 + j)

/-- All chunks. -/
def mapBlocks (rowChunks colChunks : List ℕ) : List ((ℕ × ℕ) × (ℕ × ℕ)) :=
  (axisBlocks rowChunks 0).flatMap fun rb => (axisBlocks colChunks 0).map fun cb => (rb, cb)

/-- One chunk of `map_blocks` with a function which processes the patterns one by one
(`pattern/chunk.py` L117-126). -/
def patternJob {P : Type*} (process : P → P) (b : (ℕ × ℕ) × (ℕ × ℕ)) : StoreJob (ℕ × ℕ) P where
  reads := blockPoints b.1 b.2
  writes := blockPoints b.1 b.2
  result := List.map process

/-- `fft_filter(inplace=True)`. -/
def patternJobs {P : Type*} (process : P → P) (rowChunks colChunks : List ℕ) :
    List (StoreJob (ℕ × ℕ) P) :=
  (mapBlocks rowChunks colChunks).map (patternJob process)

section
variable {K : Type*} [Field K] [LinearOrder K] [FloorRing K]

/-- An averaged pattern in the signal's array. Simplification: values which are not finite are taken
to be zero when stored. -/
def storedPattern (o : Option (List K)) (px : ℕ) : K := (o.getD []).getD px 0

/-- One chunk of `map_overlap` of a map with `rows` and `cols` (`signals/ebsd.py` L1071-1082): the
chunk extended by the depth is read, the chunk function is called with it and the window sums, and the
extension is trimmed. -/
def averageJob (rows cols : ℕ) (w : Img K) (m : ℕ) (d : DType) (omin omax : K) (dr dc : ℕ)
    (b : (ℕ × ℕ) × (ℕ × ℕ)) : StoreJob (ℕ × ℕ) (ℕ → K) :=
  let er := (b.1.1 - dr, min (b.1.2 + dr) rows)
  let ec := (b.2.1 - dc, min (b.2.2 + dc) cols)
  { reads := blockPoints er ec
    writes := blockPoints b.1 b.2
    result := fun l =>
      let a : Img ((ℕ → K) × ℤ) :=
        { rows := er.2 - er.1
          cols := ec.2 - ec.1
          val := fun r c => (l.getD (r * (ec.2 - ec.1) + c) (fun _ => 0),
            windowSums rows cols w (er.1 + r) (ec.1 + c)) }
      (blockPoints b.1 b.2).map fun p =>
        storedPattern ((averageChunk w m d omin omax a).val (p.1 - er.1) (p.2 - ec.1)) }

/-- `average_neighbour_patterns(inplace=True)` of a signal in memory: the chunks. -/
def averageJobs (rows cols : ℕ) (m : ℕ) (d : DType) (windowShape : List ℕ) (coeff : ℕ → ℕ → K)
    (rowChunks colChunks : List ℕ) : Except Err (List (StoreJob (ℕ × ℕ) (ℕ → K))) :=
  if windowShape = [1] ∨ windowShape = [1, 1] then .ok []
  else
    let w : Img K := { rows := windowShape.getD 0 1, cols := windowShape.getD 1 1, val := coeff }
    match averageDepth windowShape rowChunks rows 0, averageDepth windowShape colChunks cols 1,
        dtypeRange d with
    | .error e, _, _ => .error e
    | _, .error e, _ => .error e
    | _, _, none => .error .keyError
    | .ok dr, .ok dc, some (omin, omax) =>
      .ok ((mapBlocks rowChunks colChunks).map
        (averageJob rows cols w m d (omin : K) (omax : K) dr dc))

end

/-! ### Lazy signals of signals in memory -/

section
variable {A : Type*}

/-- A signal: in memory, with its array, or lazy, with the array it is computed from and what is done
with it. -/
inductive LazySignal (A : Type*)
  | memory (buf : ℕ)
  | lazy (buf : ℕ) (f : A → A)

/-- Arrays alive and signals, in the order in which they were made. -/
structure Session (A : Type*) where
  bufs : List A
  signals : List (LazySignal A)

/-- What a user does with the `i`-th signal.
* `inplace`: process in place
* `newSignal`: `inplace=False`, with `lazy_output` True or False; `as_lazy()` is `lazy_output=True`
  with no processing, `deepcopy()` of a signal in memory `lazy_output=False` with no processing
* `compute`: `compute()` of a lazy signal -/
inductive SessionStep (A : Type*)
  | inplace (i : ℕ) (f : A → A)
  | newSignal (i : ℕ) (f : A → A) (lazyOutput : Bool)
  | compute (i : ℕ)

/-- The patterns of a signal, now. -/
def Session.patterns (s : Session A) (i : ℕ) : Option A :=
  match s.signals[i]? with
  | some (.memory b) => s.bufs[b]?
  | some (.lazy b f) => s.bufs[b]?.map f
  | none => none

/-- Effect of a step. -/
def sessionStep (copies : Bool) (s : Session A) : SessionStep A → Session A
  | .inplace i f =>
    match s.signals[i]? with
    | some (.memory b) => { s with bufs := s.bufs.modify b f }
    | some (.lazy b g) => { s with signals := s.signals.set i (.lazy b (f ∘ g)) }
    | none => s
  | .newSignal i f lazyOutput =>
    match s.signals[i]?, s.patterns i with
    | some sig, some a =>
      if lazyOutput then
        match sig with
        | .memory b =>
          if copies then
            { bufs := s.bufs ++ [a], signals := s.signals ++ [.lazy s.bufs.length f] }
          else { s with signals := s.signals ++ [.lazy b f] }
        | .lazy b g => { s with signals := s.signals ++ [.lazy b (f ∘ g)] }
      else { bufs := s.bufs ++ [f a], signals := s.signals ++ [.memory s.bufs.length] }
    | _, _ => s
  | .compute i =>
    match s.signals[i]?, s.patterns i with
    | some (.lazy _ _), some a =>
      { bufs := s.bufs ++ [a], signals := s.signals.set i (.memory s.bufs.length) }
    | _, _ => s

/-- A session which starts with one signal in memory. -/
def runSession (copies : Bool) (a : A) (steps : List (SessionStep A)) : Session A :=
  steps.foldl (sessionStep copies) { bufs := [a], signals := [.memory 0] }

end

end Kp
