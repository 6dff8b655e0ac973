import Verif.Props.Cache
import Verif.Lemmas.ExampleFile

/-! # Where the reader cache is not transparent, and examples for `Props/Cache.lean` -/

namespace Segpy.Props

open Segpy.Spec

/-- A platform for examples: the hash function is the identity. -/
def examplePlatform : Platform Bytes where
  sha1 := id
  reprClass F := match F.getLast? with
    | none => asciiBytes "<class 'object'>"
    | some L => asciiBytes ("<class 'segpy." ++ L.name ++ "'>")
  reprOther := asciiBytes "'other'"
  picklable _ := true

def pathA : DataPath := ⟨["home"], "a.sgy"⟩

def pathB : DataPath := ⟨["home"], "b.sgy"⟩

/-- Opening a file; only the binary header format and the dimensionality vary. -/
def openAt (path : DataPath) (B : Format) (dim : Option Int) : OpenCall where
  path := path
  encoding := some .ebcdic
  B := B
  T := fmtTraceHeaderRev1
  e := .big
  dimensionality := dim

/-- A file system with one file. -/
def filesA (data : Bytes) : DataPath → Option Bytes := fun p => if p = pathA then some data else none

private theorem filesA_A (data : Bytes) : filesA data pathA = some data := if_pos rfl

/-- How the example file is opened, and what becomes of the reader when it is stored and loaded. -/
private theorem dumped {α : Type} (B : Format) (dim : Option Int) (f : Reader → Reader → α) (v : α)
    (h : (match createReader (some .ebcdic) B fmtTraceHeaderRev1 .big dim sampleFile with
      | (.ok (r, _), s') => match r.dump examplePlatform (some pathA) s'.pos with
        | .ok (p, _) => match p.reader.binary_reel_header.pickled with
          | .ok b => some (f r { p.reader with binary_reel_header := b })
          | .error _ => none
        | .error _ => none
      | (.error _, _) => none) = some v) :
    ∃ r progress s' p r' b, createReader (some .ebcdic) B fmtTraceHeaderRev1 .big dim
        { data := sampleFile.data, pos := 0 } = (.ok (r, progress), s') ∧
      r.dump examplePlatform (some pathA) s'.pos = .ok (p, r') ∧
      p.reader.binary_reel_header.pickled = .ok b ∧ f r { p.reader with binary_reel_header := b } = v := by
  split at h
  · rename_i r progress s' h1
    split at h
    · rename_i p r' h2
      split at h
      · rename_i b h3
        exact ⟨r, progress, s', p, r', b, h1, h2, h3, Option.some.inj h⟩
      · cases h
    · cases h
  · cases h

/-- The file system after a file has been opened, with the cache file. -/
theorem opened {data : Bytes} {B : Format} {dim : Option Int} {r r' : Reader} {progress : List ℚ} {s' : FileH} {p : Pickle}
    (h : createReader (some .ebcdic) B fmtTraceHeaderRev1 .big dim { data := data, pos := 0 } = (.ok (r, progress), s'))
    (hp : r.dump examplePlatform (some pathA) s'.pos = .ok (p, r')) :
    World.after examplePlatform (filesA data) [.openFile (openAt pathA B dim)] =
      { files := filesA data, cache := fun c => if c = (["home", ".segpy"], (openAt pathA B dim).fed examplePlatform data) then
          some (.reader p) else none } := by
  show (OpenCall.run _ _ _).2 = _
  rw [run_stores examplePlatform (openAt pathA B dim) _ (data := data) (filesA_A data) (d := ["home", ".segpy"]) rfl rfl rfl h hp]
  rfl

/-- Opening the file again. -/
private theorem reopened {data : Bytes} {B : Format} {dim dim' : Option Int} {r r' : Reader} {progress : List ℚ} {s' : FileH}
    {p : Pickle} {b : Header}
    (h : createReader (some .ebcdic) B fmtTraceHeaderRev1 .big dim { data := data, pos := 0 } = (.ok (r, progress), s'))
    (hp : r.dump examplePlatform (some pathA) s'.pos = .ok (p, r')) (hb : p.reader.binary_reel_header.pickled = .ok b)
    (hlen : 3600 ≤ data.length) (hdim : dim' ∈ [none, some 1, some 2, some 3]) :
    (OpenCall.run examplePlatform (openAt pathA B dim')
      (World.after examplePlatform (filesA data) [.openFile (openAt pathA B dim)])).1 =
        .ok ⟨{ p.reader with binary_reel_header := b }, some pathA, [1]⟩ := by
  have hname := (dump_same hp).2.1
  rw [opened h hp]
  rw [run_loads examplePlatform (openAt pathA B dim') _ (data := data) (filesA_A data) (d := ["home", ".segpy"]) rfl
      (p := p) (r := { p.reader with binary_reel_header := b }) (if_pos rfl) ?_ rfl hlen hdim]
  · rw [hname]
  · unfold Pickle.load
    rw [hname]
    simp only [filesA, if_pos, hb]
    rfl

private theorem uncached {data : Bytes} {B : Format} {dim : Option Int} {q : Reader} {progress : List ℚ} {s' : FileH}
    {cache : List String × Bytes → Option CacheFile}
    (h : createReader (some .ebcdic) B fmtTraceHeaderRev1 .big dim { data := data, pos := 0 } = (.ok (q, progress), s')) :
    withoutCache (openAt pathA B dim) { files := filesA data, cache := cache } = .ok q := by
  have : withoutCache (openAt pathA B dim) { files := filesA data, cache := cache } =
      (createReader (some .ebcdic) B fmtTraceHeaderRev1 .big dim { data := data, pos := 0 }).1.map Prod.fst := by
    unfold withoutCache
    show (match filesA data pathA with
      | none => Except.error Err.fileNotFoundError
      | some data => (createReader (some .ebcdic) B fmtTraceHeaderRev1 .big dim { data := data, pos := 0 }).1.map Prod.fst) = _
    rw [filesA_A]
  rw [this, h]
  rfl

theorem dumpedNone : ∃ r progress s' p r' b, createReader (some .ebcdic) fmtBinaryReelHeader fmtTraceHeaderRev1
        .big none { data := sampleFile.data, pos := 0 } = (.ok (r, progress), s') ∧
      r.dump examplePlatform (some pathA) s'.pos = .ok (p, r') ∧ p.reader.binary_reel_header.pickled = .ok b ∧
      (({ p.reader with binary_reel_header := b } : Reader).dimensionality,
        (r.traceSamples .little 0 none none sampleFile).1,
        (({ p.reader with binary_reel_header := b } : Reader).traceSamples .little 0 none none { data := [], pos := 0 }).1) =
        (.ok 3, .ok [.int 7, .int (-1)], .error .eofError) :=
  dumped fmtBinaryReelHeader none (fun r q => (q.dimensionality, (r.traceSamples .little 0 none none sampleFile).1,
      (q.traceSamples .little 0 none none { data := [], pos := 0 }).1)) _ (by decide +kernel)

private theorem sample_length : 3600 ≤ sampleFile.data.length := by decide +kernel

/-- The dimensionality of the earlier call is used: after the example file, which by its line numbers is a 3D survey, has
been opened, a request for a 1D reader is ignored. -/
theorem C52_dimensionality_fails : ∃ (data : Bytes) (es : List (Event Bytes)) (o : OpenCall) (r : Reader) (x : OpenResult),
    withoutCache o (World.after examplePlatform (filesA data) es) = .ok r ∧ r.dimensionality = .ok 0 ∧
    (o.run examplePlatform (World.after examplePlatform (filesA data) es)).1 = .ok x ∧ x.reader.dimensionality = .ok 3 := by
  obtain ⟨r, progress, s', p, r', b, h1, h2, h3, h4⟩ := dumpedNone
  obtain ⟨q, progress', t', q', _, _, g1, g2, _, g4⟩ := dumped fmtBinaryReelHeader (some 1) (fun q _ => q.dimensionality)
    (.ok 0) (by decide +kernel)
  refine ⟨sampleFile.data, [.openFile (openAt pathA fmtBinaryReelHeader none)],
    openAt pathA fmtBinaryReelHeader (some 1), q, _, ?_, g4, reopened h1 h2 h3 sample_length (by simp), (Prod.mk.inj h4).1⟩
  rw [opened h1 h2]
  exact uncached g1

private theorem anonymous_opens (data : Bytes) (w : World Bytes) (hw : ∀ c, w.cache c = none) {d n i : Res Int}
    (h3 : ((createReader (some .ebcdic) fmtBinaryReelHeader fmtTraceHeaderRev1 .big none { data := data, pos := 0 }).1.map
      fun x => (x.1.dimensionality, x.1.numTraces, x.1.traceIndex3 (7, 0))) = .ok (d, n, i)) :
    ∃ y, (createReaderCached examplePlatform {} (.absolute ["tmp"]) none (some .ebcdic) fmtBinaryReelHeader
      fmtTraceHeaderRev1 .big none { data := data, pos := 0 } w).1 = .ok y ∧ y.file = none ∧ y.reader.dimensionality = d := by
  have h := (C52_anonymous examplePlatform {} (.absolute ["tmp"]) (some .ebcdic) fmtBinaryReelHeader fmtTraceHeaderRev1
    .big none data w (C43_rev1_cataloguable .big) ⟨rfl, rfl⟩ (fun _ _ _ => Or.inl (hw _))).1
  generalize (createReaderCached examplePlatform {} (.absolute ["tmp"]) none (some .ebcdic) fmtBinaryReelHeader
    fmtTraceHeaderRev1 .big none { data := data, pos := 0 } w).1 = z at h
  cases hc : (createReader (some .ebcdic) fmtBinaryReelHeader fmtTraceHeaderRev1 .big none { data := data, pos := 0 }).1 with
  | error err => rw [hc] at h3; cases h3
  | ok x =>
    rw [hc] at h h3
    cases z with
    | error err => obtain ⟨-, ⟨h, -⟩ | ⟨h, -⟩⟩ := h <;> cases h
    | ok y =>
      obtain ⟨h1, h2, -⟩ := h
      refine ⟨y, rfl, h2, ?_⟩
      rw [h1]
      exact (Prod.mk.inj (Except.ok.inj h3)).1

-- the hypotheses of `C52_anonymous`: the example file in memory, with an empty absolute cache directory
example : ∃ y, (createReaderCached examplePlatform {} (.absolute ["tmp"]) none (some .ebcdic) fmtBinaryReelHeader
    fmtTraceHeaderRev1 .big none { data := sampleFile.data, pos := 0 } { files := fun _ => none, cache := fun _ => none }).1 =
      .ok y ∧ y.file = none ∧ y.reader.dimensionality = .ok 3 :=
  anonymous_opens _ _ (fun _ => rfl) sampleFile_opens

/-- A class derived from `BinaryReelHeader` that adds nothing. -/
def inheritingFormat : Format := fmtBinaryReelHeader ++ [{ name := "MyBinaryReelHeader", fields := [] }]

/-- A binary header whose class derives from another loses what it inherits: read with a class derived from
`BinaryReelHeader` that adds nothing, the sample format of the example file is 3, two byte integers, the first time, and
something else the second time. -/
theorem C52_derived_header_fails :
    ∃ (data : Bytes) (es : List (Event Bytes)) (o : OpenCall) (r : Reader) (x : OpenResult),
    withoutCache o (World.after examplePlatform (filesA data) es) = .ok r ∧
    r.binary_reel_header.get "data_sample_format" = .ok 3 ∧
    (o.run examplePlatform (World.after examplePlatform (filesA data) es)).1 = .ok x ∧
    x.reader.binary_reel_header.get "data_sample_format" ≠ .ok 3 := by
  obtain ⟨r, progress, s', p, r', b, h1, h2, h3, h4⟩ := dumped
    inheritingFormat none
    (fun r q => (r.binary_reel_header.get "data_sample_format", q.binary_reel_header.get "data_sample_format"))
    (.ok 3, .ok 5) (by decide +kernel)
  refine ⟨sampleFile.data, [.openFile (openAt pathA
    inheritingFormat none)], (openAt pathA
    inheritingFormat none), r,
    ⟨{ p.reader with binary_reel_header := b }, some pathA, [1]⟩, ?_, (Prod.mk.inj h4).1,
    reopened h1 h2 h3 sample_length (by simp), ?_⟩
  · rw [opened h1 h2]
    exact uncached h1
  · have := (Prod.mk.inj h4).2
    intro h
    rw [this] at h
    cases h

/-- Opening a copy of a file. -/
private theorem copied {data : Bytes} {B : Format} {dim : Option Int} {r r' : Reader} {progress : List ℚ} {s' : FileH}
    {p : Pickle} {b : Header}
    (h : createReader (some .ebcdic) B fmtTraceHeaderRev1 .big dim { data := data, pos := 0 } = (.ok (r, progress), s'))
    (hp : r.dump examplePlatform (some pathA) s'.pos = .ok (p, r')) (hb : p.reader.binary_reel_header.pickled = .ok b)
    (hlen : 3600 ≤ data.length) :
    withoutCache (openAt pathB B dim) (World.after examplePlatform (filesA data)
      [.openFile (openAt pathA B dim), .store pathB data, .store pathA []]) = .ok r ∧
    (OpenCall.run examplePlatform (openAt pathB B dim) (World.after examplePlatform (filesA data)
      [.openFile (openAt pathA B dim), .store pathB data, .store pathA []])).1 =
        .ok ⟨{ p.reader with binary_reel_header := b }, some pathA, [1]⟩ := by
  have hname := (dump_same hp).2.1
  have hdim := (createReader_ok h).choose_spec.choose_spec.choose_spec.choose_spec.choose_spec.choose_spec.choose_spec.choose_spec.choose_spec.choose_spec.2.2.2.2.2.2.2.2.1
  have hw : World.after examplePlatform (filesA data)
      [.openFile (openAt pathA B dim), .store pathB data, .store pathA []] =
      { files := fun q => if q = pathA then some [] else if q = pathB then some data else filesA data q,
        cache := fun c => if c = (["home", ".segpy"], (openAt pathB B dim).fed examplePlatform data) then
          some (.reader p) else none } := by
    have := opened h hp
    unfold World.after at this ⊢
    rw [List.foldl_cons, List.foldl_nil] at this
    rw [List.foldl_cons, this]
    rfl
  have hB : (fun q => if q = pathA then some [] else if q = pathB then some data else filesA data q) pathB = some data := by
    show (if pathB = pathA then _ else _) = _
    rw [if_neg (by decide)]
    exact if_pos rfl
  constructor
  · rw [hw]
    have : ∀ w : World Bytes, w.files pathB = some data → withoutCache (openAt pathB B dim) w =
        (createReader (some .ebcdic) B fmtTraceHeaderRev1 .big dim { data := data, pos := 0 }).1.map Prod.fst := by
      intro w hw
      unfold withoutCache
      have : w.files (openAt pathB B dim).path = some data := hw
      rw [this]
      rfl
    rw [this _ hB, h]
    rfl
  · rw [hw]
    rw [run_loads examplePlatform (openAt pathB B dim) _ (data := data) hB (d := ["home", ".segpy"]) rfl (p := p)
        (r := { p.reader with binary_reel_header := b }) (if_pos rfl) ?_ rfl hlen hdim]
    · rw [hname]
    · unfold Pickle.load
      rw [hname]
      simp only [if_pos, hb]
      rfl

/-- The reader reads the file that was opened first: a copy of a file is opened after the original has been emptied, and
gets a reader of the empty file. -/
theorem C52_copied_file_fails :
    ∃ (data : Bytes) (es : List (Event Bytes)) (o : OpenCall) (r : Reader) (x : OpenResult) (l : List PyNum),
    es = [.openFile (openAt pathA fmtBinaryReelHeader none), .store pathB data, .store pathA []] ∧ o.path = pathB ∧
    withoutCache o (World.after examplePlatform (filesA data) es) = .ok r ∧
    (r.traceSamples .little 0 none none { data := data, pos := 0 }).1 = .ok l ∧
    (o.run examplePlatform (World.after examplePlatform (filesA data) es)).1 = .ok x ∧ x.file = some pathA ∧
    (x.reader.traceSamples .little 0 none none { data := [], pos := 0 }).1 = .error .eofError := by
  obtain ⟨r, progress, s', p, r', b, h1, h2, h3, h4⟩ := dumpedNone
  obtain ⟨g1, g2⟩ := copied h1 h2 h3 sample_length
  exact ⟨sampleFile.data, _, openAt pathB fmtBinaryReelHeader none, r,
    ⟨{ p.reader with binary_reel_header := b }, some pathA, [1]⟩, [.int 7, .int (-1)], rfl, rfl, g1,
    (Prod.mk.inj (Prod.mk.inj h4).2).1, g2, rfl, (Prod.mk.inj (Prod.mk.inj h4).2).2⟩

/-- A cache directory that cannot be made prevents the file from being opened. -/
theorem C52_directory_fails {Key : Type} [DecidableEq Key] (P : Platform Key) (o : OpenCall) (w : World Key) (r : Reader)
    (hr : withoutCache o w = .ok r) (hdir : o.dir ≠ .disabled) (hempty : ∀ c, w.cache c = none)
    (hf : o.faults.makedirs = true) : (o.run P w).1 = .error .osError := by
  cases hdata : w.files o.path with
  | none => unfold withoutCache at hr; rw [hdata] at hr; cases hr
  | some data =>
    obtain ⟨d, hd⟩ : ∃ d, locateCacheFile (some o.path) o.dir = some d := by
      cases hdir' : o.dir with
      | disabled => exact absurd hdir' hdir
      | absolute d => exact ⟨_, rfl⟩
      | relative d => exact ⟨_, rfl⟩
    have hc := run_cases P o w data hdata d hd
    generalize o.run P w = x at hc ⊢
    cases hc with
    | refused h => rw [hr] at h; cases h
    | noRead f h hf => exact absurd h (by rw [hempty]; simp)
    | other h hf => exact absurd h (by rw [hempty]; simp)
    | failed w' hw err h => rw [hr] at h; cases h
    | loaded p r h hl hf => exact absurd h (by rw [hempty]; simp)
    | built w' hw r2 progress2 s2 h2 x hx =>
      unfold saveReaderToCache at hx
      rw [if_pos hf] at hx
      rw [hx]

/-- With a cache, a file cannot be opened as a 3D (2D) survey if its traces cannot be found by their line (ensemble)
numbers, although without a cache it can. -/
theorem C52_forced_fails {Key : Type} [DecidableEq Key] (P : Platform Key) (o : OpenCall) (w : World Key) (r : Reader)
    (hr : withoutCache o w = .ok r) (hdir : o.dir ≠ .disabled) (hempty : ∀ c, w.cache c = none) (hf : o.faults = {})
    (hlines : (r.dimensionality = .ok 3 ∧ r.inlineNumbers = .error .runtimeError) ∨
      (r.dimensionality = .ok 2 ∧ r.cdpNumbers = .error .runtimeError)) :
    (o.run P w).1 = .error .runtimeError := by
  cases hdata : w.files o.path with
  | none => unfold withoutCache at hr; rw [hdata] at hr; cases hr
  | some data =>
    obtain ⟨d, hd⟩ : ∃ d, locateCacheFile (some o.path) o.dir = some d := by
      cases hdir' : o.dir with
      | disabled => exact absurd hdir' hdir
      | absolute d => exact ⟨_, rfl⟩
      | relative d => exact ⟨_, rfl⟩
    have hwc : withoutCache o w =
        (createReader o.encoding o.B o.T o.e o.dimensionality { data := data, pos := 0 }).1.map Prod.fst := by
      unfold withoutCache; rw [hdata]
    have hdump : ∀ pos, r.dump P (some o.path) pos = .error .runtimeError := by
      intro pos
      have hg : r.getstateLines = .error .runtimeError := by
        unfold Reader.getstateLines
        have hdim : (r.dimensionality = .ok 3 → ∃ a b c, r.kind = .threeD a b c) ∧
            (r.dimensionality = .ok 2 → ∃ a b, r.kind = .twoD a b) := by
          unfold Reader.dimensionality
          cases r.kind with
          | plain =>
            simp only [bind, Except.bind, pure, Except.pure]
            cases r.numTraces with
            | error e => simp
            | ok n => simp only; split <;> simp
          | twoD a b => simp
          | threeD a b c => simp
        rcases hlines with ⟨h1, h2⟩ | ⟨h1, h2⟩
        · obtain ⟨a, b, c, hk⟩ := hdim.1 h1
          rw [hk]
          simp only [h2, bind, Except.bind]
        · obtain ⟨a, b, hk⟩ := hdim.2 h1
          rw [hk]
          simp only [h2, bind, Except.bind]
      unfold Reader.dump
      rw [hg]
      rfl
    have hc := run_cases P o w data hdata d hd
    generalize o.run P w = x at hc ⊢
    cases hc with
    | refused h => rw [hr] at h; cases h
    | noRead f h hf => exact absurd h (by rw [hempty]; simp)
    | other h hf => exact absurd h (by rw [hempty]; simp)
    | failed w' hw err h => rw [hr] at h; cases h
    | loaded p r h hl hf => exact absurd h (by rw [hempty]; simp)
    | built w' hw r2 progress2 s2 h2 x hx =>
      rw [hwc, h2] at hr
      cases hr
      unfold saveReaderToCache at hx
      rw [hf, hdump] at hx
      simp only [Bool.false_eq_true, if_false] at hx
      rw [if_neg (by simp)] at hx
      rw [hx]

-- the example file meets the hypotheses: it can be opened as a 2D survey although two traces have the same ensemble number
example : ∃ r, withoutCache (openAt pathA fmtBinaryReelHeader (some 2))
      { files := filesA sampleFile.data, cache := fun _ : List String × Bytes => none } = .ok r ∧
    r.dimensionality = .ok 2 ∧ r.cdpNumbers = .error .runtimeError := by
  have key : ((createReader (some .ebcdic) fmtBinaryReelHeader fmtTraceHeaderRev1 .big (some 2) sampleFile).1.map
      fun x => (x.1.dimensionality, x.1.cdpNumbers.map Prod.fst)) = .ok (.ok 2, .error .runtimeError) := by
    decide +kernel
  obtain ⟨r, progress, s', h⟩ := sampleFile_ok (some 2) (by simp)
  rw [h] at key
  simp only [Except.map, Except.ok.injEq, Prod.mk.injEq] at key
  refine ⟨r, uncached h, key.1, ?_⟩
  have := key.2
  cases hc : r.cdpNumbers with
  | ok y => rw [hc] at this; simp at this
  | error err => rw [hc] at this; simpa using this

/-! Cases that meet the hypotheses of the theorems in `Props/Cache.lean`. -/

private theorem plainA (path : DataPath) (dim : Option Int) : Plain examplePlatform (openAt path fmtBinaryReelHeader dim) where
  encoding := by simp [openAt]
  binary := by
    show ClassRepr (examplePlatform.reprClass fmtBinaryReelHeader)
    exact ⟨(examplePlatform.reprClass fmtBinaryReelHeader).tail, by decide +kernel, by decide +kernel⟩
  trace := by
    show ClassRepr (examplePlatform.reprClass fmtTraceHeaderRev1)
    exact ⟨(examplePlatform.reprClass fmtTraceHeaderRev1).tail, by decide +kernel, by decide +kernel⟩

private theorem earlier_open {Key : Type} {es es₁ : List (Event Key)} {o : OpenCall} (h : Earlier es es₁ o) :
    Event.openFile o ∈ es := by
  cases h
  simp

/-- A history: the file is opened, its cache file is damaged, it is opened again, another file is opened, moved away and
replaced by a copy of the first. -/
def exampleHistory (data : Bytes) (c : List String × Bytes) : List (Event Bytes) :=
  [.store pathA data, .openFile (openAt pathA fmtBinaryReelHeader none), .damageCache c,
    .openFile (openAt pathA fmtBinaryReelHeader none), .store pathB [], .openFile (openAt pathA fmtBinaryReelHeader none),
    .rename pathB ⟨["home"], "c.sgy"⟩, .store pathB data]

example (data : Bytes) (c : List String × Bytes) : Plain examplePlatform (openAt pathA fmtBinaryReelHeader none) ∧
    Undisturbed examplePlatform (fun _ => none) (exampleHistory data c) (openAt pathA fmtBinaryReelHeader none) ∧
    (∃ L, fmtBinaryReelHeader = [L]) ∧ fmtBinaryReelHeader.AfterStart ∧ fmtBinaryReelHeader.OrderSafe ∧
    Cataloguable fmtTraceHeaderRev1 .big := by
  have hall : ∀ es₁ o', Earlier (exampleHistory data c) es₁ o' → o' = openAt pathA fmtBinaryReelHeader none := by
    intro es₁ o' h
    have := earlier_open h
    unfold exampleHistory at this
    simpa using this
  refine ⟨plainA _ _, ⟨?_, ?_, ?_, ?_⟩, ⟨_, rfl⟩, by decide +kernel, by decide +kernel, C43_rev1_cataloguable _⟩
  · intro es₁ o' h
    rw [hall es₁ o' h]
    exact plainA _ _
  · intro es₁ o' x' x _ _ _ h
    exact h
  · intro es₁ o' h
    rw [hall es₁ o' h]
    exact ⟨fun _ => rfl, fun _ => rfl⟩
  · intro es₁ o' h _ _
    rw [hall es₁ o' h]
    exact Or.inr ⟨rfl, rfl⟩

-- opened for the second time the reader comes from the cache, and is a reader of the same file
example : ∃ x, (OpenCall.run examplePlatform (openAt pathA fmtBinaryReelHeader none)
      (World.after examplePlatform (filesA sampleFile.data) [.openFile (openAt pathA fmtBinaryReelHeader none)])).1 = .ok x ∧
    x.file = some pathA ∧ x.progress = [1] := by
  obtain ⟨r, progress, s', p, r', b, h1, h2, h3, _⟩ := dumpedNone
  exact ⟨⟨{ p.reader with binary_reel_header := b }, some pathA, [1]⟩, reopened h1 h2 h3 sample_length (by simp), rfl, rfl⟩

-- a damaged cache file is unusable, and so is one whose data file has been removed
example (data : Bytes) (p : Pickle) (hp : p.file_name = pathB) (c : List String × Bytes) :
    Unusable { files := filesA data, cache := fun _ => some .unloadable } c ∧
    Unusable { files := filesA data, cache := fun _ => some (.reader p) } c := by
  refine ⟨Or.inl rfl, Or.inr ⟨p, .typeError, rfl, ?_⟩⟩
  unfold Pickle.load
  rw [hp]
  rfl

end Segpy.Props
