import Verif.Model.DictionaryIndexing

/-
Model of `EBSD.dictionary_indexing` as called by the user, with the similarity metric as an
object which lives longer than one call: `EBSD.dictionary_indexing` and
`EBSD._prepare_metric` (`signals/ebsd.py` L1922-1984 and L3049-3088), `SimilarityMetric`
(`indexing/similarity_metrics/_similarity_metric.py` L67-246) and the masking in
`NormalizedCrossCorrelationMetric.prepare_experimental`, `prepare_dictionary` and
`_mask_patterns` (`_normalized_cross_correlation.py` L88-188; the same lines in
`_normalized_dot_product.py`).  The loop over the dictionary is the one of
`Verif/Model/DictionaryIndexing.lean`.

Simplified: the similarity of two lists of kept pixels is a parameter `sim` (for the two
built-in metrics see `Verif/Model/Normalize.lean`), rounding to `dtype` is left out, masks are
NumPy arrays of Booleans, and the signal has at least one navigation dimension.
-/

namespace Kp

/-- A Boolean array: its shape and its elements in row-major order. -/
structure BoolArray where
  shape : List ℕ
  data : List Bool
  deriving DecidableEq

/-- Data types given as `dtype`. -/
inductive MatchType | float32 | float64 | other
  deriving DecidableEq

/-- The attributes of a `SimilarityMetric` (`_similarity_metric.py` L67-84).  `rechunk` has no
effect on the values and is left out. -/
structure MetricObject where
  nExperimental : Option ℕ := none
  nDictionary : Option ℕ := none
  navMask : Option BoolArray := none
  sigMask : Option BoolArray := none
  dtype : MatchType := .float32

/-- The metric given: the name of a metric, the object which the user made earlier, or
something else. -/
inductive MetricArg | named | object | invalid
  deriving DecidableEq

/-- The reasons to raise an error. -/
inductive IndexingError
  | navMaskShape | navMaskFull | signalShapes | dictionaryMap | metric | dtype | maskSize
  deriving DecidableEq

/-- The arguments of `EBSD.dictionary_indexing` and what it uses of the two signals: patterns
are lists of pixels in row-major order and are themselves in row-major order of the map.
`dictMap` are the shape and the rotations of `dictionary.xmap`, `dictChunk` the chunk size of
a lazy dictionary. -/
structure IndexingCall (K R : Type) where
  navShape : List ℕ
  sigShape : List ℕ
  patterns : List (List K)
  dictSigShape : List ℕ
  dictionary : List (List K)
  dictMap : Option (List ℕ × List R)
  dictChunk : Option ℕ
  metric : MetricArg
  keepN : ℕ
  nPer : Option ℕ
  navMask : Option BoolArray
  sigMask : Option BoolArray
  dtype : Option MatchType

/-- One point of the returned crystal map. -/
structure IndexedPoint (K R : Type) where
  inData : Bool
  scores : List K
  indices : List ℕ
  rotations : List R
  deriving DecidableEq

section
variable {K R : Type} [Field K] [LinearOrder K]

/-- The number of dictionary patterns per iteration (`ebsd.py` L1926-1930). -/
def perIteration (c : IndexingCall K R) : ℕ :=
  match c.nPer with
  | some n => n
  | none =>
    match c.dictChunk with
    | some n => n
    | none => c.dictionary.length

/-- The checks before the metric is prepared (`ebsd.py` L1932-1964). -/
def checkIndexingCall (c : IndexingCall K R) : Except IndexingError Unit := do
  match c.navMask with
  | some m =>
    if m.shape ≠ c.navShape then throw .navMaskShape
    else if m.data.all id then throw .navMaskFull
  | none => pure ()
  if c.sigShape ≠ c.dictSigShape then throw .signalShapes
  match c.dictMap with
  | none => throw .dictionaryMap
  | some (shape, _) => if shape ≠ [c.dictionary.length] then throw .dictionaryMap

/-- The assignments to the attributes of the metric (`ebsd.py` L3072-3083): a mask or data
type which is not given is left as it was. -/
def setMetric (m : MetricObject) (c : IndexingCall K R) : MetricObject :=
  { nExperimental := some (max c.patterns.length 1)
    nDictionary := some (max c.dictionary.length 1)
    navMask := match c.navMask with
      | some x => some x
      | none => m.navMask
    sigMask := match c.sigMask with
      | some x => some x
      | none => m.sigMask
    dtype := match c.dtype with
      | some x => x
      | none => m.dtype }

/-- `a[~mask.ravel()]` along an axis (`_normalized_cross_correlation.py` L118 and L187), which
raises an error unless the mask has the length of the axis. -/
def keepUnmasked {α : Type} (mask : Option BoolArray) (l : List α) :
    Except IndexingError (List α) :=
  match mask with
  | none => .ok l
  | some m =>
    if m.data.length = l.length then .ok (selectMask (m.data.map not) l) else .error .maskSize

/-- `prepare_experimental`, `prepare_dictionary`, `match` and `_dictionary_indexing`
(`_normalized_cross_correlation.py` L88-188, `_dictionary_indexing.py` L66-169) with the
metric `m`.  Points not indexed have the identity `r0` and whatever is in memory (`junk`). -/
def indexWithMetric (argtopk argsort : List K → List ℕ) (sign : ℤ) (sim : List K → List K → K)
    (r0 : R) (junk : ℕ → List K × List ℕ) (m : MetricObject) (c : IndexingCall K R) :
    Except IndexingError (List (IndexedPoint K R)) := do
  let rotations := match c.dictMap with
    | some (_, rs) => rs
    | none => []
  let _ ← keepUnmasked m.navMask c.patterns
  let experimental ← c.patterns.mapM (keepUnmasked m.sigMask)
  let dictionary ← c.dictionary.mapM (keepUnmasked m.sigMask)
  let index (p : List K) : IndexedPoint K R :=
    let best := dictionaryIndexing argtopk argsort sign c.keepN (perIteration c)
      (dictionary.map (sim p))
    { inData := true
      scores := best.map Prod.fst
      indices := best.map Prod.snd
      rotations := best.map (fun b => rotations.getD b.2 r0) }
  let keepN := min c.keepN c.dictionary.length
  let empty : List (IndexedPoint K R) := (List.range c.patterns.length).map (fun i =>
    { inData := false
      scores := (junk i).1
      indices := (junk i).2
      rotations := List.replicate keepN r0 })
  pure ((indexMap index empty (m.navMask.map BoolArray.data) experimental).map
    (fun p => { p.2 with inData := p.1 }))

/-- `EBSD.dictionary_indexing`: a metric given by name is made in the call (`ebsd.py`
L3064-3067), an object is the one in `m`.  Returns the object after the call, also when an
error is raised, and the crystal map. -/
def dictionaryIndexingCall (argtopk argsort : List K → List ℕ) (sign : ℤ)
    (allowed : List MatchType) (sim : List K → List K → K) (r0 : R)
    (junk : ℕ → List K × List ℕ) (m : MetricObject) (c : IndexingCall K R) :
    MetricObject × Except IndexingError (List (IndexedPoint K R)) :=
  match checkIndexingCall c with
  | .error e => (m, .error e)
  | .ok () =>
    match c.metric with
    | .invalid => (m, .error .metric)
    | .named =>
      let used := setMetric {} c
      if allowed ≠ [] ∧ used.dtype ∉ allowed then (m, .error .dtype)
      else (m, indexWithMetric argtopk argsort sign sim r0 junk used c)
    | .object =>
      let used := setMetric m c
      if allowed ≠ [] ∧ used.dtype ∉ allowed then (used, .error .dtype)
      else (used, indexWithMetric argtopk argsort sign sim r0 junk used c)

/-- The metric object after a number of calls. -/
def afterCalls (argtopk argsort : List K → List ℕ) (sign : ℤ)
    (allowed : List MatchType) (sim : List K → List K → K) (r0 : R)
    (junk : ℕ → List K × List ℕ) (m : MetricObject) (cs : List (IndexingCall K R)) :
    MetricObject :=
  cs.foldl (fun m c => (dictionaryIndexingCall argtopk argsort sign allowed sim r0 junk m c).1) m

end
end Kp
