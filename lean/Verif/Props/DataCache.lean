import Verif.Lemmas.DataCache

/-!
C81: Data sets loaded from the cache have been verified, whatever state the cache is in.

The states of the cache are arbitrary: they include those left by interrupted downloads, interrupted
unpacking, other versions and other programs.
-/

namespace Kp

variable {B H : Type}

/-! ### Specification -/

/-- A file has the registered hash. -/
def Verified (env : FetchEnv B H) (p : CachePath) (b : Option B) : Prop :=
  ∃ c, b = some c ∧ env.hashes p = some (env.md5 c)

/-- The server offers the registered file. -/
def Offered (env : FetchEnv B H) (p : CachePath) (b : B) : Prop :=
  env.hashes p = some (env.md5 b) ∧ ∃ url, env.urls p = some url ∧ env.net url = some b

/-- The archive of a data set is offered and has the data set's file, with the registered hash. -/
structure InArchive (env : FetchEnv B H) (d : CacheDataset) (c : String) (archive : B) : Prop where
  collection : d.collection = some c
  offered : Offered env ["data", c] archive
  names : ((env.members archive).map fun m => m.1).Nodup
  file : ∃ dir name b, d.relpath = "data" :: dir ++ [name] ∧ ([name], b) ∈ env.members archive ∧
    env.hashes d.relpath = some (env.md5 b)
  nested : ∃ dir name, dir ≠ [] ∧ d.relpath = "data" :: dir ++ [name]

variable [DecidableEq H]

/-! ### Lemmas -/

theorem fetchCached_ok (env : FetchEnv B H) (w w' : CacheWorld B) (p : CachePath) (f : DataFile)
    (h : fetchCached env w p = (.ok f, w')) : f = .cache p ∧ Verified env p (w'.read p) := by
  rw [fetchCached] at h
  rcases hp : poochFetch env w p with ⟨_ | a, w1⟩
  · rw [hp] at h; simp at h
  · rw [hp] at h
    obtain ⟨h1, h2⟩ := Prod.mk.inj h
    simp only [Except.ok.injEq] at h1
    subst h1 h2
    obtain ⟨b, hb, hh⟩ := (poochFetch_ok env w w1 p a hp).1
    exact ⟨rfl, b, hb, hh⟩

theorem fetchFromCollection_ok (env : FetchEnv B H) (w w' : CacheWorld B) (d : CacheDataset)
    (c : String) (p : CachePath) (h : fetchFromCollection env w d c = (.ok p, w')) :
    p = d.relpath := by
  rw [fetchFromCollection] at h
  rcases hp : poochFetch env w ["data", c] with ⟨_ | a, w1⟩
  · rw [hp] at h; simp at h
  · rw [hp] at h
    simp only at h
    cases hr : w1.read ["data", c] with
    | none => rw [hr] at h; simp at h
    | some archive =>
      rw [hr] at h
      simp only at h
      split_ifs at h
      · simp only [Prod.mk.injEq, Except.ok.injEq] at h; exact h.1.symm
      · simp at h

/-! ### Verification -/

/-- Whatever is in the cache, and whatever the server sends: a returned file exists and has the
registered hash. -/
theorem C81_verified (env : FetchEnv B H) (w w' : CacheWorld B) (d : CacheDataset) (allow : Bool)
    (f : DataFile) (h : fetchFilePath env w d allow = (.ok f, w')) :
    Verified env d.relpath (f.content env w') := by
  rw [fetchFilePath] at h
  cases hpk : env.package d.relpath.tail with
  | some b =>
    rw [hpk] at h
    simp only at h
    split_ifs at h with hh
    · simp only [Prod.mk.injEq, Except.ok.injEq] at h
      rw [← h.1]
      exact ⟨b, hpk, hh.symm⟩
    · simp at h
  | none =>
    rw [hpk] at h
    simp only at h
    have hmiss : ∀ w'', fetchMissing env w d allow = (.ok f, w'') →
        Verified env d.relpath (f.content env w'') := by
      intro w'' hm
      rw [fetchMissing] at hm
      split_ifs at hm
      · cases hc : d.collection with
        | none =>
          rw [hc] at hm
          simp only at hm
          obtain ⟨rfl, hv⟩ := fetchCached_ok env _ _ _ _ hm
          exact hv
        | some c =>
          rw [hc] at hm
          simp only at hm
          rcases hf : fetchFromCollection env w d c with ⟨_ | p, w1⟩
          · rw [hf] at hm; simp at hm
          · rw [hf] at hm
            simp only at hm
            have := fetchFromCollection_ok env w w1 d c p hf
            subst this
            obtain ⟨rfl, hv⟩ := fetchCached_ok env _ _ _ _ hm
            exact hv
      · simp at hm
    by_cases hp : env.pooch = false
    · rw [if_pos hp] at h; simp at h
    · rw [if_neg hp] at h
      cases hr : w.read d.relpath with
      | none => rw [hr] at h; exact hmiss w' h
      | some b =>
        rw [hr] at h
        simp only at h
        split_ifs at h
        · obtain ⟨rfl, hv⟩ := fetchCached_ok env _ _ _ _ h
          exact hv
        · exact hmiss w' h

/-- Without permission, nothing is requested and no file is changed. -/
theorem C81_offline (env : FetchEnv B H) (w : CacheWorld B) (d : CacheDataset) :
    (fetchFilePath env w d false).2 = w := by
  rw [fetchFilePath]
  cases hpk : env.package d.relpath.tail with
  | some b => simp only; split_ifs <;> rfl
  | none =>
    simp only
    have hm : (fetchMissing env w d false).2 = w := by
      rw [fetchMissing, if_neg (by simp)]
    split_ifs
    · rfl
    · cases hr : w.read d.relpath with
      | none => exact hm
      | some b =>
        simp only
        split_ifs with hh
        · rw [fetchCached, poochFetch_present env w d.relpath b hr hh.symm]
        · exact hm

/-- Without permission, a file is returned exactly if it is there and verified: in the package or
else, if pooch is installed, in the cache. -/
theorem C81_offline_returned (env : FetchEnv B H) (w : CacheWorld B) (d : CacheDataset) :
    (∃ f, (fetchFilePath env w d false).1 = .ok f) ↔
      Verified env d.relpath (env.package d.relpath.tail) ∨
      (env.package d.relpath.tail = none ∧ env.pooch = true ∧
        Verified env d.relpath (w.read d.relpath)) := by
  rw [fetchFilePath]
  cases hpk : env.package d.relpath.tail with
  | some b =>
    simp only
    constructor
    · rintro ⟨f, hf⟩
      split_ifs at hf with hh
      · exact Or.inl ⟨b, rfl, hh.symm⟩
    · rintro (⟨c, hc, hh⟩ | ⟨h, -⟩)
      · simp only [Option.some.injEq] at hc
        subst hc
        rw [if_pos hh.symm]
        exact ⟨_, rfl⟩
      · simp at h
  | none =>
    simp only
    have hm : ∀ f, (fetchMissing env w d false).1 ≠ .ok f := by
      intro f
      rw [fetchMissing, if_neg (by simp)]
      simp
    by_cases hp : env.pooch = false
    · rw [if_pos hp]
      constructor
      · rintro ⟨f, hf⟩; simp at hf
      · rintro (⟨c, hc, -⟩ | ⟨-, h, -⟩)
        · simp at hc
        · rw [hp] at h; simp at h
    · rw [if_neg hp]
      have hp' : env.pooch = true := by simpa using hp
      cases hr : w.read d.relpath with
      | none =>
        constructor
        · rintro ⟨f, hf⟩; exact absurd hf (hm f)
        · rintro (⟨c, hc, -⟩ | ⟨-, -, c, hc, -⟩) <;> simp at hc
      | some b =>
        simp only
        by_cases hh : some (env.md5 b) = env.hashes d.relpath
        · rw [if_pos hh, fetchCached, poochFetch_present env w d.relpath b hr hh.symm]
          exact ⟨fun _ => Or.inr ⟨trivial, hp', b, rfl, hh.symm⟩, fun _ => ⟨_, rfl⟩⟩
        · rw [if_neg hh]
          constructor
          · rintro ⟨f, hf⟩; exact absurd hf (hm f)
          · rintro (⟨c, hc, -⟩ | ⟨-, -, c, hc, hc'⟩)
            · simp at hc
            · simp only [Option.some.injEq] at hc
              subst hc
              exact absurd hc'.symm hh

/-- With permission, a data set that is a file of its own is returned from every state of the cache
if the server offers it. No other file of the cache is changed. -/
theorem C81_download (env : FetchEnv B H) (w : CacheWorld B) (d : CacheDataset) (b : B)
    (hp : env.pooch = true) (hpk : env.package d.relpath.tail = none) (hc : d.collection = none)
    (ho : Offered env d.relpath b) :
    ∃ w', fetchFilePath env w d true = (.ok (.cache d.relpath), w') ∧
      ∀ q, q ≠ d.relpath → w'.read q = w.read q := by
  obtain ⟨hh, url, hu, hn⟩ := ho
  obtain ⟨a, w', hf⟩ := poochFetch_download env w d.relpath b (by rw [hu]; exact hn) hh
  have hcached : fetchCached env w d.relpath = (.ok (.cache d.relpath), w') := by
    rw [fetchCached, hf]
  have hmiss : fetchMissing env w d true = (.ok (.cache d.relpath), w') := by
    rw [fetchMissing, if_pos rfl, hc]; exact hcached
  refine ⟨w', ?_, (poochFetch_ok env w w' d.relpath a hf).2.1⟩
  rw [fetchFilePath, hpk]
  simp only
  rw [if_neg (by rw [hp]; simp)]
  cases hr : w.read d.relpath with
  | none => exact hmiss
  | some c =>
    simp only
    split_ifs
    · exact hcached
    · exact hmiss

theorem collection_fresh (env : FetchEnv B H) (w : CacheWorld B) (d : CacheDataset) (c : String)
    (archive : B) (hp : env.pooch = true) (hpk : env.package d.relpath.tail = none)
    (ha : InArchive env d c archive) (hw : w.read ["data", c] = none) :
    ∃ w', fetchFilePath env w d true = (.ok (.cache d.relpath), w') := by
  rw [fetchFilePath, hpk]
  simp only
  rw [if_neg (by rw [hp]; simp)]
  have hmiss : ∃ w', fetchMissing env w d true = (.ok (.cache d.relpath), w') := by
    rw [fetchMissing, if_pos rfl, ha.collection]
    simp only
    obtain ⟨hh, url, hu, hn⟩ := ha.offered
    obtain ⟨w1, hf, hr1, -⟩ := poochFetch_missing env w ["data", c] archive (by rw [hu]; exact hn)
      hh hw
    obtain ⟨dir, name, b, hrel, hmem, hhash⟩ := ha.file
    obtain ⟨dir', name', hne, hrel'⟩ := ha.nested
    have hdir : dir = dir' := by
      have := hrel.symm.trans hrel'
      simp only [List.cons_append, List.cons.injEq, true_and] at this
      exact (List.append_inj' this rfl).1
    subst hdir
    have hext : d.extractDir = "data" :: dir := by
      rw [CacheDataset.extractDir, hrel]; simp
    have hreld : d.relpath = d.extractDir ++ [name] := by rw [hext, hrel]
    rw [fetchFromCollection, hf]
    simp only
    rw [hr1]
    simp only
    have hz : unzip env w1 d.extractDir archive .download =
        (env.members archive).foldl (fun w m => w.write (d.extractDir ++ m.1) m.2) w1 := by
      rw [unzip, if_pos (Or.inl rfl)]
    have hrd : (unzip env w1 d.extractDir archive .download).read d.relpath = some b := by
      rw [hz, hreld]
      exact read_extract_of_mem _ _ _ ha.names ([name], b) hmem
    have hfound : ((unzip env w1 d.extractDir archive .download).files.any fun f =>
        d.extractDir.isPrefixOf f.1 && f.1.getLast? == d.relpath.getLast?) = true := by
      rw [List.any_eq_true]
      refine ⟨(d.relpath, b), mem_of_read _ _ _ hrd, ?_⟩
      rw [Bool.and_eq_true]
      refine ⟨?_, by simp⟩
      rw [List.isPrefixOf_iff_prefix]
      exact ⟨[name], hreld.symm⟩
    rw [if_pos hfound]
    simp only
    have hlast : ((unzip env w1 d.extractDir archive .download).remove ["data", c]).read d.relpath =
        some b := by
      rw [read_remove, if_neg, hrd]
      intro e
      rw [hrel] at e
      simp only [List.cons_append, List.cons.injEq, true_and] at e
      have hlen := congrArg List.length e
      simp only [List.length_append, List.length_cons, List.length_nil] at hlen
      exact hne (List.length_eq_zero_iff.mp (by omega))
    exact ⟨_, by rw [fetchCached, poochFetch_present env _ d.relpath b hlast hhash]⟩
  cases hr : w.read d.relpath with
  | none => exact hmiss
  | some x =>
    simp only
    split_ifs with hh
    · exact ⟨w, by rw [fetchCached, poochFetch_present env w d.relpath x hr hh.symm]⟩
    · exact hmiss

/-- With permission, a data set in an archive is returned from every state of the cache without the
archive, if the server offers it. -/
theorem C81_archive_partial (env : FetchEnv B H) (w : CacheWorld B) (d : CacheDataset) (c : String)
    (archive : B) (hp : env.pooch = true) (hpk : env.package d.relpath.tail = none)
    (ha : InArchive env d c archive) (hw : w.read ["data", c] = none) :
    ∃ w', fetchFilePath env w d true = (.ok (.cache d.relpath), w') :=
  collection_fresh env w d c archive hp hpk ha hw

/-- From every state of the cache, at most the second call returns the data set. -/
theorem C81_archive_twice (env : FetchEnv B H) (w : CacheWorld B) (d : CacheDataset) (c : String)
    (archive : B) (hp : env.pooch = true) (hpk : env.package d.relpath.tail = none)
    (ha : InArchive env d c archive) (e : String) (w1 : CacheWorld B)
    (h1 : fetchFilePath env w d true = (.error e, w1)) :
    ∃ w2, fetchFilePath env w1 d true = (.ok (.cache d.relpath), w2) := by
  apply collection_fresh env w1 d c archive hp hpk ha
  rw [fetchFilePath, hpk] at h1
  simp only at h1
  rw [if_neg (by rw [hp]; simp)] at h1
  have hmiss : ∀ w', fetchMissing env w d true = (.error e, w') → w'.read ["data", c] = none := by
    intro w' hm
    rw [fetchMissing, if_pos rfl, ha.collection] at hm
    simp only at hm
    obtain ⟨hh, url, hu, hn⟩ := ha.offered
    obtain ⟨a, wa, hf⟩ := poochFetch_download env w ["data", c] archive (by rw [hu]; exact hn) hh
    obtain ⟨⟨b, hb, -⟩, -⟩ := poochFetch_ok env w wa ["data", c] a hf
    obtain ⟨dir, name, hne, hrel⟩ := ha.nested
    have hneq : ["data", c] ≠ d.relpath := by
      intro e
      rw [hrel] at e
      simp only [List.cons_append, List.cons.injEq, true_and] at e
      have hlen := congrArg List.length e
      simp only [List.length_append, List.length_cons, List.length_nil] at hlen
      exact hne (List.length_eq_zero_iff.mp (by omega))
    have hrem : ∀ x : CacheWorld B, (x.remove ["data", c]).read ["data", c] = none := by
      intro x; rw [read_remove, if_pos rfl]
    rw [fetchFromCollection, hf] at hm
    simp only at hm
    rw [hb] at hm
    simp only at hm
    split_ifs at hm with hfound
    · simp only at hm
      rw [fetchCached] at hm
      set x := (unzip env wa d.extractDir b a).remove ["data", c] with hx
      rcases hpf : poochFetch env x d.relpath with ⟨e' | a', w3⟩
      · rw [hpf] at hm
        simp only [Prod.mk.injEq] at hm
        rw [← hm.2]
        have hfiles := poochFetch_error env x w3 d.relpath e' hpf
        have : w3.read ["data", c] = x.read ["data", c] := by
          rw [CacheWorld.read, hfiles]; rfl
        rw [this, hx, hrem]
      · rw [hpf] at hm; simp at hm
    · simp only [Prod.mk.injEq] at hm
      rw [← hm.2, hrem]
  cases hr : w.read d.relpath with
  | none => rw [hr] at h1; exact hmiss w1 h1
  | some x =>
    rw [hr] at h1
    simp only at h1
    split_ifs at h1 with hh
    · rw [fetchCached, poochFetch_present env w d.relpath x hr hh.symm] at h1
      simp at h1
    · exact hmiss w1 h1

/-! ### Findings -/

/-- A world for the findings: contents are their own hashes, `7` is an archive with the files `1` and
`2`. -/
def gainEnv : FetchEnv ℕ ℕ where
  md5 := id
  hashes p :=
    if p = ["data", "scan1_gain0db.zip"] then some 7
    else if p = ["data", "ni_gain", "1", "Pattern.dat"] then some 1
    else if p = ["data", "ni_gain", "1", "Setting.txt"] then some 2
    else none
  urls p := if p = ["data", "scan1_gain0db.zip"] then some "https://zenodo.org" else none
  net u := if u = "https://zenodo.org" then some 7 else none
  members b := if b = 7 then [(["Pattern.dat"], 1), (["Setting.txt"], 2)] else []
  package _ := none
  pooch := true

/-- The data set of `ni_gain(1)`. -/
def gainDataset : CacheDataset := ⟨["data", "ni_gain", "1", "Pattern.dat"], some "scan1_gain0db.zip"⟩

theorem gain_inArchive : InArchive gainEnv gainDataset "scan1_gain0db.zip" 7 where
  collection := rfl
  offered := ⟨by decide, "https://zenodo.org", by decide, by decide⟩
  names := by decide
  file := ⟨["ni_gain", "1"], "Pattern.dat", 1, by decide, by decide, by decide⟩
  nested := ⟨["ni_gain", "1"], "Pattern.dat", by decide, by decide⟩

/-- After an interrupted unpacking, a call with permission and with everything on offer raises: the
archive is still there, so it is neither downloaded nor, as all files exist, unpacked again. -/
theorem C81_archive_violated :
    ∃ w, (fetchFilePath gainEnv w gainDataset true).1 = .error "download failed" := by
  refine ⟨⟨[(["data", "scan1_gain0db.zip"], 7), (["data", "ni_gain", "1", "Pattern.dat"], 0),
    (["data", "ni_gain", "1", "Setting.txt"], 2)], []⟩, ?_⟩
  decide +kernel

/-- Only the pattern file is verified: the data set is returned with a settings file, which is read
with it, that has another hash than the registered one. -/
theorem C81_settings_violated :
    ∃ w, (fetchFilePath gainEnv w gainDataset false) = (.ok (.cache gainDataset.relpath), w) ∧
      ∃ b, w.read ["data", "ni_gain", "1", "Setting.txt"] = some b ∧
        ¬ Verified gainEnv ["data", "ni_gain", "1", "Setting.txt"] (some b) := by
  refine ⟨⟨[(["data", "ni_gain", "1", "Pattern.dat"], 1),
    (["data", "ni_gain", "1", "Setting.txt"], 0)], []⟩, ?_, 0, by decide +kernel, ?_⟩
  · have h1 : CacheWorld.read (B := ℕ) ⟨[(["data", "ni_gain", "1", "Pattern.dat"], 1),
        (["data", "ni_gain", "1", "Setting.txt"], 0)], []⟩ gainDataset.relpath = some 1 := by
      decide +kernel
    rw [fetchFilePath]
    simp only [show gainEnv.package gainDataset.relpath.tail = none from rfl,
      show gainEnv.pooch = true from rfl, h1]
    rw [if_neg (by simp), if_pos (by decide), fetchCached,
      poochFetch_present gainEnv _ gainDataset.relpath 1 h1 (by decide)]
  · rintro ⟨c, hc, hh⟩
    simp only [Option.some.injEq] at hc
    subst hc
    revert hh
    decide

/-- The directory of data sets is the one in the environment variable, in the home directory if it
starts with its symbol. -/
theorem C81_home (r osCache home : String) :
    (CacheSession.get ⟨none⟩ ⟨some ("~/" ++ r), osCache, home⟩).1 = home ++ "/" ++ r ∧
      (CacheSession.get ⟨none⟩ ⟨some "~", osCache, home⟩).1 = home := by
  constructor
  · simp only [CacheSession.get, Option.getD_some, expandUser, String.toList_append]
    change home ++ String.ofList ('/' :: r.toList) = _
    apply String.toList_inj.1
    simp
  · simp only [CacheSession.get, Option.getD_some, expandUser]
    have : "~".toList = ['~'] := by decide
    rw [this]
    rfl

/-- `clear_cache()` empties the directory in use if the environment variable has not been changed
since the first data set was requested and does not start with the home directory's symbol. -/
theorem C81_clear_partial (e : CacheEnvironment)
    (h : ∀ v, e.setting = some v → v ≠ "~" ∧ ∀ r, v ≠ "~/" ++ r)
    (ho : e.osCache ≠ "~" ∧ ∀ r, e.osCache ≠ "~/" ++ r) :
    clearedDirectory e = (CacheSession.get ⟨none⟩ e).1 := by
  have key : ∀ p : String, p ≠ "~" → (∀ r, p ≠ "~/" ++ r) → expandUser e.home p = p := by
    intro p h1 h2
    unfold expandUser
    split
    · next h => exact absurd (String.toList_inj.1 (h.trans (by rfl))) h1
    · next r h =>
      refine absurd (String.toList_inj.1 (h.trans ?_)) (h2 (String.ofList r))
      simp
    · rfl
  simp only [clearedDirectory, CacheSession.get]
  cases hs : e.setting with
  | none => exact (key _ ho.1 ho.2).symm
  | some v => exact (key _ (h v hs).1 (h v hs).2).symm

/-- Otherwise it does not: changing the variable during a session changes the directory that is
cleared but not the directory in use, and `~` is expanded for one of them only. -/
theorem C81_clear_violated :
    (∀ (e e' : CacheEnvironment), clearedDirectory e' ≠ (CacheSession.get ⟨none⟩ e).1 →
      (CacheSession.get (CacheSession.get ⟨none⟩ e).2 e').1 ≠ clearedDirectory e') ∧
    clearedDirectory ⟨some "~/data", "/home/me/.cache", "/home/me"⟩ ≠
      (CacheSession.get ⟨none⟩ ⟨some "~/data", "/home/me/.cache", "/home/me"⟩).1 := by
  constructor
  · intro e e' h
    simp only [CacheSession.get] at h ⊢
    exact Ne.symm h
  · decide +kernel

/-! ### Gain series -/

/-- Exactly the numbers 1 to 10 name a registered data set of the gain series, and each names its own
archive. -/
theorem C81_gain_series (number : ℤ) (name : String)
    (hname : name = "Pattern.dat" ∨ name = "Setting.txt") :
    (∃ p a, niGainDataset number name = .ok (p, a) ∧ p ∈ niGainFiles) ↔ 1 ≤ number ∧ number ≤ 10 := by
  constructor
  · rintro ⟨p, a, h, hp⟩
    have hr : -9 ≤ number ∧ number ≤ 10 := by
      rw [niGainDataset, niGain] at h
      split_ifs at h with h1 h2 h2
      · omega
      · simp [bind, Except.bind] at h
      · omega
      · simp [bind, Except.bind] at h
    by_contra hcon
    obtain ⟨h1, h2⟩ := hr
    have h3 : number ≤ 0 := by omega
    have hp' : p = ["ni_gain", toString number, name] := by
      rw [niGainDataset] at h
      cases hg : niGain number with
      | error e => rw [hg] at h; simp [bind, Except.bind] at h
      | ok g =>
        rw [hg] at h
        simp only [bind, Except.bind, pure, Except.pure, Except.ok.injEq, Prod.mk.injEq] at h
        exact h.1.symm
    subst hp'
    rcases hname with rfl | rfl <;> interval_cases number <;> revert hp <;> decide +kernel
  · rintro ⟨h1, h2⟩
    rcases hname with rfl | rfl <;> interval_cases number <;>
      exact ⟨_, _, rfl, by decide +kernel⟩

/-- The archive is the registered one with that number. -/
theorem C81_gain_archive (number : ℤ) (h1 : 1 ≤ number) (h2 : number ≤ 10) (name : String)
    (p : CachePath) (a : String) (h : niGainDataset number name = .ok (p, a)) :
    niGainArchives[(number - 1).toNat]? = some a := by
  interval_cases number <;> · rw [niGainDataset] at h; cases h; decide +kernel

/-! ### Examples -/

/-- The hypotheses of the archive theorems are met, and the data set is returned from an empty
cache. -/
example : ∃ w, fetchFilePath gainEnv ⟨[], []⟩ gainDataset true =
    (.ok (.cache gainDataset.relpath), w) :=
  C81_archive_partial gainEnv _ gainDataset _ 7 rfl rfl gain_inArchive rfl

/-- From the state of `C81_archive_violated`, the second call returns it. -/
example : ∃ w e w1 w2, fetchFilePath gainEnv w gainDataset true = (.error e, w1) ∧
    fetchFilePath gainEnv w1 gainDataset true = (.ok (.cache gainDataset.relpath), w2) := by
  obtain ⟨w, h⟩ := C81_archive_violated
  obtain ⟨w2, h2⟩ := C81_archive_twice gainEnv w gainDataset _ 7 rfl rfl gain_inArchive
    "download failed" (fetchFilePath gainEnv w gainDataset true).2 (by rw [← h])
  exact ⟨w, _, _, w2, by rw [← h], h2⟩

/-- The hypotheses of `C81_download` are met by an environment with the archive as a data set. -/
example : Offered gainEnv ["data", "scan1_gain0db.zip"] 7 := gain_inArchive.offered

end Kp
