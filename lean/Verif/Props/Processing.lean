import Verif.Model.Processing
import Mathlib.Tactic.NormNum
import Mathlib.Tactic.Tauto

/-
C86: what sequences of processing steps keep of a signal.
-/

set_option linter.unusedSectionVars false

namespace Kp

/-! What is to be shown. -/

section
variable {T M : Type}

/-- The static background has the shape and data type of the patterns. -/
def BackgroundFits (s : ScanSignal T M) : Prop :=
  ∀ b, s.background = some b → b.1 = s.sigShape ∧ b.2 = s.dtype

/-- The steps which do not make a new signal from an array alone. -/
def ProcessingStep.KeepsAxes : ProcessingStep T → Prop
  | .getDynamic _ _ => False
  | .fftFilter o => o.inplace = true
  | .average _ o => o.inplace = true
  | _ => True

/-- The steps which do not leave the static background in another data type. -/
def ProcessingStep.KeepsDtype : ProcessingStep T → Prop
  | .rescale d _ => d = none
  | .normalize d _ => d = none
  | .getDynamic d _ => d = none
  | _ => True

end

section
variable {T M : Type} [DecidableEq T]

theorem checkOutput_bind {α : Type} {o : OutputArgs} {f : Unit → Except ProcessingError α} {r : α}
    (h : (checkOutput o >>= f) = .ok r) : f () = .ok r := by
  unfold checkOutput at h
  split_ifs at h
  · cases h
  · exact h

theorem processingStep_spec (m0 : M) {s t : ScanSignal T M} {p : ProcessingStep T}
    (h : processingStep m0 s p = .ok t) :
    (t.navAxes = s.navAxes.map (fun a => newAxis a.size) ∧ t.metadata = m0 ∨
      t.navAxes = s.navAxes ∧ t.metadata = s.metadata) ∧
    (p.KeepsAxes → t.navAxes = s.navAxes ∧ t.metadata = s.metadata) ∧
    (t.background.isSome = s.background.isSome) ∧
    (p.KeepsDtype → BackgroundFits s → BackgroundFits t) := by
  have same : ∀ {t : ScanSignal T M}, t = s → (t.navAxes = s.navAxes.map (fun a => newAxis a.size) ∧ t.metadata = m0 ∨
      t.navAxes = s.navAxes ∧ t.metadata = s.metadata) ∧
    (p.KeepsAxes → t.navAxes = s.navAxes ∧ t.metadata = s.metadata) ∧
    (t.background.isSome = s.background.isSome) ∧
    (p.KeepsDtype → BackgroundFits s → BackgroundFits t) := by
    rintro t rfl
    exact ⟨.inr ⟨rfl, rfl⟩, fun _ => ⟨rfl, rfl⟩, rfl, fun _ h => h⟩
  cases p with
  | rescale d o =>
    have := checkOutput_bind h
    obtain rfl := Except.ok.inj this
    refine ⟨.inr ⟨rfl, rfl⟩, fun _ => ⟨rfl, rfl⟩, rfl, ?_⟩
    intro hd hb
    simp only [ProcessingStep.KeepsDtype] at hd
    subst hd
    exact hb
  | normalize d o =>
    have := checkOutput_bind h
    obtain rfl := Except.ok.inj this
    refine ⟨.inr ⟨rfl, rfl⟩, fun _ => ⟨rfl, rfl⟩, rfl, ?_⟩
    intro hd hb
    simp only [ProcessingStep.KeepsDtype] at hd
    subst hd
    exact hb
  | equalize o =>
    have := checkOutput_bind h
    obtain rfl := Except.ok.inj this
    exact ⟨.inr ⟨rfl, rfl⟩, fun _ => ⟨rfl, rfl⟩, rfl, fun _ h => h⟩
  | removeStatic o =>
    have := checkOutput_bind h
    cases hb : s.background with
    | none => simp only [hb] at this; cases this
    | some b =>
      simp only [hb] at this
      split_ifs at this
      all_goals first
        | (exfalso; exact absurd this (by simp [throw, throwThe, MonadExceptOf.throw]); done)
        | skip
      · obtain rfl := Except.ok.inj this
        exact ⟨.inr ⟨rfl, rfl⟩, fun _ => ⟨rfl, rfl⟩, by rw [← hb]; rfl, fun _ h => h⟩
  | removeDynamic o =>
    have := checkOutput_bind h
    obtain rfl := Except.ok.inj this
    exact ⟨.inr ⟨rfl, rfl⟩, fun _ => ⟨rfl, rfl⟩, rfl, fun _ h => h⟩
  | getDynamic d l =>
    obtain rfl := Except.ok.inj h
    refine ⟨.inl ⟨rfl, rfl⟩, fun h => h.elim, rfl, ?_⟩
    intro hd hb
    simp only [ProcessingStep.KeepsDtype] at hd
    subst hd
    exact hb
  | fftFilter o =>
    have := checkOutput_bind h
    split_ifs at this with hi
    · exact same (Except.ok.inj this).symm
    · obtain rfl := Except.ok.inj this
      exact ⟨.inl ⟨rfl, rfl⟩, fun h => absurd h hi, rfl, fun _ h => h⟩
  | average w o =>
    have := checkOutput_bind h
    split_ifs at this with h1 h2 h3
    · exact same (Except.ok.inj this).symm
    · exact same (Except.ok.inj this).symm
    · obtain rfl := Except.ok.inj this
      exact ⟨.inl ⟨rfl, rfl⟩, fun h => absurd h h3, rfl, fun _ h => h⟩
  | downsample k d o =>
    have := checkOutput_bind h
    split_ifs at this with h1
    · obtain rfl := Except.ok.inj this
      refine ⟨.inr ⟨rfl, rfl⟩, fun _ => ⟨rfl, rfl⟩, by simp, ?_⟩
      intro _ hb b hb2
      simp only [Option.map_eq_some_iff] at hb2
      obtain ⟨b', h1, rfl⟩ := hb2
      simp [mapped, (hb b' h1).1]
  | changeDtype d =>
    obtain rfl := Except.ok.inj h
    refine ⟨.inr ⟨rfl, rfl⟩, fun _ => ⟨rfl, rfl⟩, by simp, ?_⟩
    intro _ hb b hb2
    simp only [Option.map_eq_some_iff] at hb2
    obtain ⟨b', h1, rfl⟩ := hb2
    exact ⟨(hb b' h1).1, rfl⟩
  | asLazy =>
    obtain rfl := Except.ok.inj h
    exact ⟨.inr ⟨rfl, rfl⟩, fun _ => ⟨rfl, rfl⟩, rfl, fun _ h => h⟩
  | compute =>
    obtain rfl := Except.ok.inj h
    exact ⟨.inr ⟨rfl, rfl⟩, fun _ => ⟨rfl, rfl⟩, rfl, fun _ h => h⟩
  | deepcopy => exact same (Except.ok.inj h).symm

/-- C86, the part which holds for every sequence of operations: the signal obtained has a map of
the same shape, and a static background if and only if there was one. -/
theorem C86_map_shape (m0 : M) (ps : List (ProcessingStep T)) (s t : ScanSignal T M)
    (h : processing m0 s ps = .ok t) :
    t.navAxes.map ScanAxis.size = s.navAxes.map ScanAxis.size ∧
      t.background.isSome = s.background.isSome := by
  induction ps generalizing s with
  | nil => obtain rfl := Except.ok.inj h; exact ⟨rfl, rfl⟩
  | cons p ps ih =>
    rw [processing] at h
    cases hp : processingStep m0 s p with
    | error e => rw [hp] at h; cases h
    | ok s' =>
      rw [hp] at h
      obtain ⟨a, -, b, -⟩ := processingStep_spec m0 hp
      obtain ⟨c, d⟩ := ih s' h
      refine ⟨c.trans ?_, d.trans b⟩
      rcases a with ⟨a, -⟩ | ⟨a, -⟩ <;> rw [a]
      rw [List.map_map]; rfl

/-- C86, part.  After every sequence of operations none of which is `get_dynamic_background`, or
`fft_filter` or `average_neighbour_patterns` with `inplace=False`, the signal obtained has the
navigation axes (names, step sizes, offsets, units) and the metadata of the first.  Missing, and
false: the operations excluded, see below. -/
theorem C86_axes_partial (m0 : M) (ps : List (ProcessingStep T)) (s t : ScanSignal T M)
    (hk : ∀ p ∈ ps, p.KeepsAxes) (h : processing m0 s ps = .ok t) :
    t.navAxes = s.navAxes ∧ t.metadata = s.metadata := by
  induction ps generalizing s with
  | nil => obtain rfl := Except.ok.inj h; exact ⟨rfl, rfl⟩
  | cons p ps ih =>
    rw [processing] at h
    cases hp : processingStep m0 s p with
    | error e => rw [hp] at h; cases h
    | ok s' =>
      rw [hp] at h
      obtain ⟨-, a, -, -⟩ := processingStep_spec m0 hp
      obtain ⟨a1, a2⟩ := a (hk p (by simp))
      obtain ⟨c, d⟩ := ih s' (fun q hq => hk q (by simp [hq])) h
      exact ⟨c.trans a1, d.trans a2⟩

/-- C86, part.  After every sequence of operations in which no data type is given to
`rescale_intensity`, `normalize_intensity` or `get_dynamic_background`, the static background
still has the shape and data type of the patterns, so that it can be removed.  Missing, and
false: rescaling or normalizing to another data type, see below. -/
theorem C86_background_partial (m0 : M) (ps : List (ProcessingStep T)) (s t : ScanSignal T M)
    (hk : ∀ p ∈ ps, p.KeepsDtype) (hs : BackgroundFits s) (h : processing m0 s ps = .ok t) :
    BackgroundFits t ∧
      (s.background ≠ none → ∀ o : OutputArgs, ¬ (o.inplace = true ∧ o.lazyOutput = some true) →
        ∃ u, processingStep m0 t (.removeStatic o) = .ok u) := by
  have hf : BackgroundFits t := by
    induction ps generalizing s with
    | nil => obtain rfl := Except.ok.inj h; exact hs
    | cons p ps ih =>
      rw [processing] at h
      cases hp : processingStep m0 s p with
      | error e => rw [hp] at h; cases h
      | ok s' =>
        rw [hp] at h
        obtain ⟨-, -, -, a⟩ := processingStep_spec m0 hp
        exact ih s' (fun q hq => hk q (by simp [hq])) (a (hk p (by simp)) hs) h
  refine ⟨hf, ?_⟩
  intro hb o ho
  have hsome := (C86_map_shape m0 ps s t h).2
  cases hb' : t.background with
  | none =>
    rw [hb'] at hsome
    cases hc : s.background with
    | none => exact absurd hc hb
    | some b => rw [hc] at hsome; cases hsome
  | some b =>
    obtain ⟨h1, h2⟩ := hf b hb'
    refine ⟨mapped t o t.dtype, ?_⟩
    have ho' : checkOutput o = .ok () := by
      unfold checkOutput
      rw [if_neg (by tauto)]
    simp [processingStep, ho', hb', h1, h2, bind, Except.bind, pure, Except.pure]

/-- C86 is false of `fft_filter` and `average_neighbour_patterns` with `inplace=False` and of
`get_dynamic_background`: for every signal, no navigation axis of the signal returned has a name
or unit, every step size is 1 and every offset 0, and the metadata are those of a new signal. -/
theorem C86_axes_violated (m0 : M) (s t : ScanSignal T M) (o : OutputArgs) (w : ℕ × ℕ)
    (d : Option T) (l : Option Bool) (ho : o.inplace = false) (p : ProcessingStep T)
    (hp : p = .fftFilter o ∨ p = .average w o ∨ p = .getDynamic d l)
    (h : processingStep m0 s p = .ok t) :
    t.metadata = m0 ∧ ∀ a ∈ t.navAxes, a.name = "" ∧ a.scale = 1 ∧ a.offset = 0 ∧ a.units = "" := by
  have key : ∀ d l, t = fromArray m0 s d l → t.metadata = m0 ∧
      ∀ a ∈ t.navAxes, a.name = "" ∧ a.scale = 1 ∧ a.offset = 0 ∧ a.units = "" := by
    rintro d l rfl
    refine ⟨rfl, ?_⟩
    intro a ha
    simp only [fromArray, List.mem_map] at ha
    obtain ⟨b, -, rfl⟩ := ha
    exact ⟨rfl, rfl, rfl, rfl⟩
  rcases hp with rfl | rfl | rfl
  · have := checkOutput_bind h
    simp only [ho] at this
    exact key _ _ (Except.ok.inj this).symm
  · have := checkOutput_bind h
    simp only [ho] at this
    split_ifs at this
    · contradiction
    · contradiction
    · exact key _ _ (Except.ok.inj this).symm
  · exact key _ _ (Except.ok.inj h).symm

/-- C86 is false of `rescale_intensity` and `normalize_intensity` to another data type: the static
background of every signal which has one can then not be removed any more. -/
theorem C86_background_violated (m0 : M) (s t : ScanSignal T M) (d : T) (o o' : OutputArgs)
    (p : ProcessingStep T) (hp : p = .rescale (some d) o ∨ p = .normalize (some d) o)
    (hs : BackgroundFits s) (hb : s.background ≠ none) (hd : d ≠ s.dtype)
    (ho : checkOutput o' = .ok ()) (h : processingStep m0 s p = .ok t) :
    processingStep m0 t (.removeStatic o') = .error .backgroundDtype := by
  obtain ⟨b, hb'⟩ := Option.ne_none_iff_exists'.1 hb
  obtain ⟨-, h2⟩ := hs b hb'
  have ht : t = mapped s o d := by
    rcases hp with rfl | rfl
    · have := checkOutput_bind h
      exact (Except.ok.inj this).symm
    · have := checkOutput_bind h
      exact (Except.ok.inj this).symm
  subst ht
  have : b.2 ≠ d := by rw [h2]; exact fun h => hd h.symm
  simp [processingStep, ho, mapped, hb', this, bind, Except.bind, throw, throwThe,
    MonadExceptOf.throw]

/-- C86 is false of `average_neighbour_patterns` with a window of shape (1, 1) and
`inplace=False`: nothing is returned. -/
theorem C86_returned_none_violated (m0 : M) (s : ScanSignal T M) (o : OutputArgs)
    (ho : o.inplace = false) :
    processingStep m0 s (.average (1, 1) o) = .error .returnedNone := by
  simp [processingStep, checkOutput, ho, bind, Except.bind, throw, throwThe, MonadExceptOf.throw]

/-- The arguments `inplace` and `lazy_output` of an operation which has them; the dynamic background
is never in place. -/
def ProcessingStep.output : ProcessingStep T → Option OutputArgs
  | .rescale _ o | .normalize _ o | .equalize o | .removeStatic o | .removeDynamic o | .fftFilter o
  | .average _ o | .downsample _ _ o => some o
  | .getDynamic _ l => some ⟨false, l⟩
  | _ => none

/-- C86 (laziness): the result of an operation in place is lazy if the signal was, any other is lazy
if asked for, and like the signal if nothing was said; only `as_lazy()` and `compute()` change a
signal. -/
theorem C86_lazy (m0 : M) (s t : ScanSignal T M) (p : ProcessingStep T)
    (h : processingStep m0 s p = .ok t) :
    (∀ o, p.output = some o →
      (o.inplace = true → t.lazy = s.lazy) ∧
      (o.inplace = false → ∀ l, o.lazyOutput = some l → t.lazy = l) ∧
      (o.inplace = false → o.lazyOutput = none → t.lazy = s.lazy)) ∧
    (p = .asLazy → t.lazy = true) ∧ (p = .compute → t.lazy = false) ∧
    (p = .deepcopy → t = s) ∧ (∀ d, p = .changeDtype d → t.lazy = s.lazy) := by
  have key : ∀ o : OutputArgs, t.lazy = outputLazy s o →
      (o.inplace = true → t.lazy = s.lazy) ∧
      (o.inplace = false → ∀ l, o.lazyOutput = some l → t.lazy = l) ∧
      (o.inplace = false → o.lazyOutput = none → t.lazy = s.lazy) := by
    intro o ht
    unfold outputLazy at ht
    refine ⟨fun hi => ?_, fun hi l hl => ?_, fun hi hl => ?_⟩
    · rw [ht, if_pos hi]
    · rw [ht, if_neg (by simp [hi]), hl]
    · rw [ht, if_neg (by simp [hi]), hl]
  cases p with
  | rescale d o =>
    have h' := checkOutput_bind h
    obtain rfl := Except.ok.inj h'
    refine ⟨?_, by simp, by simp, by simp, by simp⟩
    rintro o' ho; obtain rfl := Option.some.inj ho; exact key o rfl
  | normalize d o =>
    have h' := checkOutput_bind h
    obtain rfl := Except.ok.inj h'
    refine ⟨?_, by simp, by simp, by simp, by simp⟩
    rintro o' ho; obtain rfl := Option.some.inj ho; exact key o rfl
  | equalize o =>
    have h' := checkOutput_bind h
    obtain rfl := Except.ok.inj h'
    refine ⟨?_, by simp, by simp, by simp, by simp⟩
    rintro o' ho; obtain rfl := Option.some.inj ho; exact key o rfl
  | removeDynamic o =>
    have h' := checkOutput_bind h
    obtain rfl := Except.ok.inj h'
    refine ⟨?_, by simp, by simp, by simp, by simp⟩
    rintro o' ho; obtain rfl := Option.some.inj ho; exact key o rfl
  | removeStatic o =>
    have h' := checkOutput_bind h
    refine ⟨?_, by simp, by simp, by simp, by simp⟩
    rintro o' ho; obtain rfl := Option.some.inj ho
    cases hb : s.background with
    | none => rw [hb] at h'; cases h'
    | some b =>
      rw [hb] at h'
      simp only at h'
      split_ifs at h' <;> first | (obtain rfl := Except.ok.inj h'; exact key o rfl) | cases h'
  | getDynamic d l =>
    obtain rfl := Except.ok.inj h
    refine ⟨?_, by simp, by simp, by simp, by simp⟩
    rintro o' ho; obtain rfl := Option.some.inj ho
    refine ⟨by simp, fun _ l' hl => ?_, fun _ hl => ?_⟩
    · simp only at hl; simp [fromArray, hl]
    · simp only at hl; simp [fromArray, hl]
  | fftFilter o =>
    have h' := checkOutput_bind h
    refine ⟨?_, by simp, by simp, by simp, by simp⟩
    rintro o' ho; obtain rfl := Option.some.inj ho
    split_ifs at h' with hi
    · obtain rfl := Except.ok.inj h'; simp [hi]
    · obtain rfl := Except.ok.inj h'; exact key o rfl
  | average w o =>
    have h' := checkOutput_bind h
    refine ⟨?_, by simp, by simp, by simp, by simp⟩
    rintro o' ho; obtain rfl := Option.some.inj ho
    by_cases hi : o.inplace = true <;> simp only [hi, if_true, Bool.false_eq_true, if_false] at h' <;>
      split_ifs at h' <;> first
        | (obtain rfl := Except.ok.inj h'; simp [hi]; done)
        | (obtain rfl := Except.ok.inj h'; exact key o rfl)
        | cases h'
  | downsample k d o =>
    have h' := checkOutput_bind h
    refine ⟨?_, by simp, by simp, by simp, by simp⟩
    rintro o' ho; obtain rfl := Option.some.inj ho
    by_cases hk : k ≤ 1 ∨ s.sigShape.1 % k ≠ 0 ∨ s.sigShape.2 % k ≠ 0
    · rw [if_pos hk] at h'; cases h'
    · rw [if_neg hk] at h'; obtain rfl := Except.ok.inj h'; exact key o rfl
  | changeDtype d =>
    obtain rfl := Except.ok.inj h
    exact ⟨by simp [ProcessingStep.output], by simp, by simp, by simp, by simp⟩
  | asLazy =>
    obtain rfl := Except.ok.inj h
    exact ⟨by simp [ProcessingStep.output], by simp, by simp, by simp, by simp⟩
  | compute =>
    obtain rfl := Except.ok.inj h
    exact ⟨by simp [ProcessingStep.output], by simp, by simp, by simp, by simp⟩
  | deepcopy =>
    obtain rfl := Except.ok.inj h
    exact ⟨by simp [ProcessingStep.output], by simp, by simp, by simp, by simp⟩

/-- C86 (downsampling): `downsample(factor)` is accepted for factors of two and more which divide both
sides of the patterns, and for no others; the patterns and the static background get smaller by the
factor. -/
theorem C86_downsample (m0 : M) (s : ScanSignal T M) (k : ℕ) (d : Option T) (o : OutputArgs)
    (ho : checkOutput o = .ok ()) :
    (2 ≤ k ∧ k ∣ s.sigShape.1 ∧ k ∣ s.sigShape.2 →
      ∃ t, processingStep m0 s (.downsample k d o) = .ok t ∧
        t.sigShape.1 * k = s.sigShape.1 ∧ t.sigShape.2 * k = s.sigShape.2 ∧
        (BackgroundFits s → BackgroundFits t)) ∧
    (¬ (2 ≤ k ∧ k ∣ s.sigShape.1 ∧ k ∣ s.sigShape.2) →
      processingStep m0 s (.downsample k d o) = .error .factor) := by
  have e : processingStep m0 s (.downsample k d o) =
      if k ≤ 1 ∨ s.sigShape.1 % k ≠ 0 ∨ s.sigShape.2 % k ≠ 0 then .error .factor
      else .ok { mapped s o (d.getD s.dtype) with
        sigShape := (s.sigShape.1 / k, s.sigShape.2 / k)
        background := s.background.map (fun b => ((b.1.1 / k, b.1.2 / k), d.getD s.dtype)) } := by
    simp only [processingStep, ho, bind, Except.bind]
    rfl
  rw [e]
  constructor
  · rintro ⟨h1, h2, h3⟩
    rw [if_neg (by
      have := Nat.mod_eq_zero_of_dvd h2
      have := Nat.mod_eq_zero_of_dvd h3
      omega)]
    refine ⟨_, rfl, Nat.div_mul_cancel h2, Nat.div_mul_cancel h3, ?_⟩
    intro hb b hb'
    simp only [Option.map_eq_some_iff] at hb'
    obtain ⟨b0, h4, rfl⟩ := hb'
    obtain ⟨h5, -⟩ := hb b0 h4
    simp only [h5, mapped, and_self]
  · intro hn
    rw [if_pos]
    by_contra hc
    push Not at hc
    exact hn ⟨by omega, Nat.dvd_of_mod_eq_zero hc.2.1, Nat.dvd_of_mod_eq_zero hc.2.2⟩

/-- C86: `set_scan_calibration` sets the step sizes of the two axes of a map, columns first, and
leaves everything else as it was. -/
theorem C86_scan_calibration (s : ScanSignal T M) (x y : ScanAxis) (hs : s.navAxes = [x, y])
    (stepX stepY : ℚ) :
    ∃ t, setScanCalibration s stepX stepY = some t ∧
      t.navAxes = [⟨"x", x.size, stepX, x.offset, "um"⟩, ⟨"y", y.size, stepY, y.offset, "um"⟩] ∧
      { t with navAxes := s.navAxes } = s := by
  refine ⟨{ s with navAxes := [⟨"x", x.size, stepX, x.offset, "um"⟩,
    ⟨"y", y.size, stepY, y.offset, "um"⟩] }, by simp only [setScanCalibration, hs], rfl, rfl⟩

/-- C86 is false of `set_scan_calibration` of a line scan: it always raises an error. -/
theorem C86_line_calibration_violated (s : ScanSignal T M) (x : ScanAxis) (hs : s.navAxes = [x])
    (stepX stepY : ℚ) : setScanCalibration s stepX stepY = none := by
  simp only [setScanCalibration, hs]

end

/-! Concrete cases. -/

/-- A map of 3 x 2 patterns with step size 1.5; data types are numbers of bits. -/
def exampleScan : ScanSignal ℕ String :=
  ⟨[⟨"x", 3, 3/2, 0, "um"⟩, ⟨"y", 2, 3/2, 0, "um"⟩], "Scan 1", 8, false, (60, 60),
    some ((60, 60), 8)⟩

example : processing "" exampleScan [.removeStatic {}, .removeDynamic { inplace := false },
    .asLazy, .downsample 2 none {}, .changeDtype 32, .removeStatic {}, .compute] =
    .ok { exampleScan with dtype := 32, sigShape := (30, 30), background := some ((30, 30), 32) } := by
  have h : ∀ e : Except ProcessingError (ScanSignal ℕ String), ∀ x,
      e.toOption = some x → e = .ok x := by
    intro e x he
    cases e <;> simp_all [Except.toOption]
  apply h
  decide +kernel
example : BackgroundFits exampleScan := by
  rintro b h; simp [exampleScan] at h; subst h; exact ⟨rfl, rfl⟩
example : ∀ p ∈ ([.removeStatic {}, .removeDynamic { inplace := false },
    .asLazy, .downsample 2 none {}, .changeDtype 32] : List (ProcessingStep ℕ)),
    p.KeepsAxes ∧ p.KeepsDtype := by
  intro p hp
  simp only [List.mem_cons, List.not_mem_nil, or_false] at hp
  rcases hp with rfl | rfl | rfl | rfl | rfl <;> exact ⟨trivial, trivial⟩
example : (processingStep "" exampleScan (.fftFilter { inplace := false })).toOption =
    some { exampleScan with navAxes := [⟨"", 3, 1, 0, ""⟩, ⟨"", 2, 1, 0, ""⟩], metadata := "" } := by
  decide +kernel
example : checkOutput {} = .ok () ∧ exampleScan.background ≠ none ∧ 32 ≠ exampleScan.dtype := by
  refine ⟨?_, by decide, by decide⟩
  simp [checkOutput]

example : (processingStep "" exampleScan (.rescale none ⟨false, some true⟩)).toOption.map
    ScanSignal.lazy = some true := by decide +kernel
example : (processingStep "" exampleScan (.getDynamic none (some true))).toOption.map
    ScanSignal.lazy = some true := by decide +kernel
example : checkOutput {} = .ok () ∧ (2 ≤ 3 ∧ 3 ∣ exampleScan.sigShape.1 ∧ 3 ∣ exampleScan.sigShape.2) ∧
    ¬ (2 ≤ 1 ∧ 1 ∣ exampleScan.sigShape.1 ∧ 1 ∣ exampleScan.sigShape.2) := by
  refine ⟨?_, by decide, by decide⟩
  simp [checkOutput]

end Kp
