import Verif.Lemmas.Cache
import Verif.Lemmas.ExampleFile
import Verif.Props.Packer
import Verif.Props.Scan

/-! # Properties of hashing and of the reader cache -/

namespace Segpy.Props

open Segpy.Spec Segpy.FileM

/-! ## C52 -/

theorem sameAnswers_of_same {r r' : Reader} (h : Same r r') : SameAnswers r r' where
  endian := h.endian
  encoding := h.encoding
  textual := h.textual
  extended := h.extended
  binary_format := h.binary_format
  binary := h.binary
  revision := h.revision
  bytes_per_sample := h.bytes_per_sample
  calls native calls c s := by
    rw [(C46_history native r' s calls c).1, (C46_history native r s calls c).1]
    exact h.call native c s

/-- Without a cache directory `create_reader` is what is called `withoutCache`, and touches no file. -/
theorem C52_disabled {Key : Type} [DecidableEq Key] (P : Platform Key) (o : OpenCall) (w : World Key)
    (h : o.dir = .disabled) :
    (o.run P w).1.map OpenResult.reader = withoutCache o w ∧ (∀ x, (o.run P w).1 = .ok x → x.file = some o.path) ∧
      (o.run P w).2 = w :=
  run_disabled P o w h

/-- At every point of every history, opening a file with a cache gives a reader of a file with the same contents that
gives the same answers as the reader made without a cache; if that cannot be made, the same exception is raised.  The
exceptions to this, apart from those ruled out by the hypotheses: `OSError` if the cache directory cannot be made or the
cache file cannot be opened, and `RuntimeError` if the requested dimensionality makes a reader that cannot list its line or
ensemble numbers.

Missing from the full property are these exceptions, binary headers declared in more than one class, and histories that are
not `Undisturbed`; see the theorems below. -/
theorem C52_transparent_partial {Key : Type} [DecidableEq Key] (P : Platform Key) (files : DataPath → Option Bytes)
    (es : List (Event Key)) (o : OpenCall) (hp : Plain P o) (hu : Undisturbed P files es o) (L : Level) (hB : o.B = [L])
    (hstart : o.B.AfterStart) (horder : o.B.OrderSafe) (hT : Cataloguable o.T o.e) :
    match withoutCache o (World.after P files es), (o.run P (World.after P files es)).1 with
    | .ok r, .ok x => SameAnswers r x.reader ∧ ∃ q, x.file = some q ∧
        (World.after P files es).files q = (World.after P files es).files o.path
    | .ok r, .error err =>
        (err = .osError ∧ (o.faults.makedirs = true ∨ o.faults.openRead = true)) ∨
        (err = .runtimeError ∧ ((o.dimensionality = some 3 ∧ r.inlineNumbers = .error .runtimeError) ∨
          (o.dimensionality = some 2 ∧ r.cdpNumbers = .error .runtimeError)))
    | .error err, .error err' => err' = err ∨ (err' = .osError ∧ o.faults.openRead = true)
    | .error _, .ok _ => False := by
  generalize hw : World.after P files es = w
  cases hdata : w.files o.path with
  | none =>
    have h1 : o.run P w = (.error .fileNotFoundError, w) := by unfold OpenCall.run; rw [hdata]
    have h2 : withoutCache o w = .error .fileNotFoundError := by unfold withoutCache; rw [hdata]
    rw [h1, h2]
    exact Or.inl rfl
  | some data =>
    cases hd : locateCacheFile (some o.path) o.dir with
    | none =>
      have : o.dir = .disabled := by
        cases hdir : o.dir <;> rw [hdir] at hd <;> first | rfl | cases hd
      obtain ⟨h1, h2, _⟩ := run_disabled P o w this
      rw [← h1]
      cases hr : (o.run P w).1 with
      | error err => exact Or.inl rfl
      | ok x => exact ⟨sameAnswers_of_same (Same.refl _), o.path, h2 x hr, hdata⟩
    | some d =>
      have hwc : withoutCache o w =
          (createReader o.encoding o.B o.T o.e o.dimensionality { data := data, pos := 0 }).1.map Prod.fst := by
        unfold withoutCache; rw [hdata]
      have hc := run_cases P o w data hdata d hd
      generalize hx : o.run P w = x at hc
      cases hc with
      | refused h => rw [h]; exact Or.inl rfl
      | noRead f h hf =>
        cases withoutCache o w with
        | ok r => exact Or.inl ⟨rfl, Or.inr hf⟩
        | error err => exact Or.inr ⟨rfl, hf⟩
      | other h hf =>
        exfalso
        rw [← hw] at h
        exact (after_cache P files es).1 _ h
      | failed w' hw' err h => rw [h]; exact Or.inl rfl
      | loaded p r h hl hf =>
        rw [← hw] at h
        obtain ⟨es₁, o', he, data', r', g1, g2, g3, g4, g5, g6⟩ := (after_cache P files es).2 _ _ h
        have hfed : o'.fed P data' = o.fed P data := by
          refine hu.no_collision es₁ o' _ _ he ⟨data', _, g1, hashFeed_eq _ _⟩ ⟨data, _, ?_, hashFeed_eq _ _⟩ g3.symm
          rw [hw]; exact hdata
        obtain ⟨i1, i2, i3, i4, i5⟩ := fed_inj P (hu.plain es₁ o' he) hp hfed
        have i6 := (hu.classes es₁ o' he).1 i3
        have i7 := (hu.classes es₁ o' he).2 i4
        have hloaded : w.files p.file_name ≠ none := by
          intro hn
          unfold Pickle.load at hl
          rw [hn] at hl
          cases hl
        rw [g4] at hloaded
        rcases hu.same_file es₁ o' he ⟨g2.trans hd.symm, i2, i6, i7, i5⟩ (by rw [hw, g1, hdata, i1]) with hnone | ⟨hsame, hdim⟩
        · rw [hw] at hnone
          exact absurd hnone hloaded
        rw [hw] at hsame
        have hcr : withoutCache o w = .ok r' := by
          rw [← g5]
          unfold withoutCache
          rw [hdata, g1]
          simp only
          rw [i1, i2, i5, i6, i7, hdim]
        rw [hcr]
        simp only
        rw [hwc] at hcr
        obtain ⟨progress, s', hcr'⟩ : ∃ progress s',
            createReader o.encoding o.B o.T o.e o.dimensionality { data := data, pos := 0 } = (.ok (r', progress), s') := by
          cases hc : createReader o.encoding o.B o.T o.e o.dimensionality { data := data, pos := 0 } with
          | mk y s' =>
            rw [hc] at hcr
            cases y with
            | error err => cases hcr
            | ok y => cases hcr; exact ⟨y.2, s', rfl⟩
        obtain ⟨b1, b2⟩ := createReader_binary hstart horder hcr'
        have v1 : p.reader.binary_reel_header.format = [L] := by rw [g6.binary_format, b1, hB]
        have v2 : p.reader.binary_reel_header.Valid := by
          intro f hf
          rw [v1, ← hB, ← b1] at hf
          obtain ⟨v, h1, h2⟩ := b2 f hf
          exact ⟨v, by rw [g6.binary]; exact h1, h2⟩
        rcases Pickle.load_same p w L v1 v2 with ⟨hn, _⟩ | ⟨r'', hl', hs⟩
        · rw [g4] at hn; exact absurd hn hloaded
        · rw [hl'] at hl
          cases hl
          exact ⟨sameAnswers_of_same (g6.trans hs), p.file_name, rfl, by rw [g4, hsame, hdata]⟩
      | built w' hw' r progress s' h x hx' =>
        rw [hwc, h]
        simp only [Except.map]
        rcases save_cases (P := P) (x := o.faults) (r := r) (name := o.path) (pos := s'.pos)
          (c := (d, P.sha1 (o.fed P data))) (w := w') with ⟨hm, hs⟩ | ⟨err, hde, hn1, _, hs⟩ | ⟨r', f, hs', hs, hf⟩
        · rw [hs] at hx'; subst hx'
          exact Or.inl ⟨rfl, Or.inl hm⟩
        · rw [hs] at hx'; subst hx'
          right
          rcases dump_error hT h hde with ⟨he, _⟩ | he
          · exact absurd he hn1
          · exact he
        · rw [hs] at hx'; subst hx'
          exact ⟨sameAnswers_of_same hs', o.path, rfl, hdata⟩

/-- In particular: as long as only one file is opened through the cache, always with the same dimensionality, whatever
else happens to it, to other files and to the cache files. -/
theorem C52_one_file_partial {Key : Type} [DecidableEq Key] (P : Platform Key) (files : DataPath → Option Bytes)
    (es : List (Event Key)) (o : OpenCall) (hp : Plain P o) (L : Level) (hB : o.B = [L]) (hstart : o.B.AfterStart)
    (horder : o.B.OrderSafe) (hT : Cataloguable o.T o.e) (hsha : Function.Injective P.sha1)
    (hplain : ∀ es₁ o', Earlier es es₁ o' → Plain P o')
    (hclass : ∀ es₁ o', Earlier es es₁ o' → (P.reprClass o'.B = P.reprClass o.B → o'.B = o.B) ∧
      (P.reprClass o'.T = P.reprClass o.T → o'.T = o.T))
    (hsame : ∀ es₁ o', Earlier es es₁ o' → o'.path = o.path ∧ o'.dimensionality = o.dimensionality)
    (hfaults : o.faults.makedirs = false ∧ o.faults.openRead = false)
    (r : Reader) (hr : withoutCache o (World.after P files es) = .ok r)
    (hlines : r.inlineNumbers ≠ .error .runtimeError ∧ r.cdpNumbers ≠ .error .runtimeError) :
    ∃ x, (o.run P (World.after P files es)).1 = .ok x ∧ SameAnswers r x.reader ∧ ∃ q, x.file = some q ∧
      (World.after P files es).files q = (World.after P files es).files o.path := by
  have := C52_transparent_partial P files es o hp
    ⟨hplain, fun _ _ _ _ _ _ _ h => hsha h, hclass, fun es₁ o' he _ _ =>
      Or.inr ⟨by rw [(hsame es₁ o' he).1], (hsame es₁ o' he).2⟩⟩ L hB hstart horder hT
  rw [hr] at this
  cases hx : (o.run P (World.after P files es)).1 with
  | ok x => rw [hx] at this; exact ⟨x, rfl, this⟩
  | error err =>
    rw [hx] at this
    simp [hfaults.1, hfaults.2, hlines.1, hlines.2] at this

/-! ## C53 -/

/-- The cache file cannot be used: loading it raises, for instance because it is damaged or because the file that the
stored reader was made for no longer exists. -/
def Unusable {Key : Type} (w : World Key) (c : List String × Key) : Prop :=
  w.cache c = some .unloadable ∨ ∃ p err, w.cache c = some (.reader p) ∧ p.load w = .error err

private theorem save_fst {Key : Type} [DecidableEq Key] (P : Platform Key) (x : Faults) (r : Reader) (name : Option DataPath)
    (pos : Nat) (c : List String × Key) (w w' : World Key) :
    (saveReaderToCache P x r name pos c w).1 = (saveReaderToCache P x r name pos c w').1 := by
  unfold saveReaderToCache
  split
  · rfl
  · split
    · rfl
    · split
      · split <;> rfl
      · split <;> rfl

/-- A file object without a name, such as `io.BytesIO`: opened with a cache it gives the reader made without one, unless
an absolute cache directory holds something for it, and nothing that can be loaded is left in the cache.  The exception is
again a dimensionality that makes a reader that cannot list its numbers. -/
theorem C52_anonymous {Key : Type} [DecidableEq Key] (P : Platform Key) (x : Faults) (dir : CacheDir)
    (encoding : Option Encoding) (B T : Format) (e : Endian) (dim : Option Int) (data : Bytes) (w : World Key)
    (hT : Cataloguable T e) (hf : x.makedirs = false ∧ x.openRead = false)
    (hcache : ∀ d key, dir = .absolute d → w.cache (d, key) = none ∨ w.cache (d, key) = some .unloadable) :
    (match (createReader encoding B T e dim { data := data, pos := 0 }).1,
        (createReaderCached P x dir none encoding B T e dim { data := data, pos := 0 } w).1 with
    | .ok (r, p), .ok y => y.reader = r ∧ y.file = none ∧ y.progress = p
    | .ok (r, _), .error err => err = .runtimeError ∧ ((dim = some 3 ∧ r.inlineNumbers = .error .runtimeError) ∨
        (dim = some 2 ∧ r.cdpNumbers = .error .runtimeError))
    | .error err, .error err' => err' = err
    | .error _, .ok _ => False) ∧
    ∀ c p, (createReaderCached P x dir none encoding B T e dim { data := data, pos := 0 } w).2.cache c =
      some (.reader p) → w.cache c = some (.reader p) := by
  generalize hs : ({ data := data, pos := 0 } : FileH) = s
  by_cases hl : s.data.length < REEL_HEADER_NUM_BYTES
  · have h1 : createReader encoding B T e dim s = (.error .valueError, s) := by
      unfold createReader
      rw [bind_ok (show fileLength s = (.ok s.data.length, s) from rfl), if_pos hl]
      rfl
    have h2 : createReaderCached P x dir none encoding B T e dim s w = (.error .valueError, w) := by
      unfold createReaderCached
      rw [if_pos hl]
    rw [h1, h2]
    exact ⟨rfl, fun _ _ h => h⟩
  by_cases hd : dim ∈ [none, some 1, some 2, some 3]
  swap
  · have h1 : createReader encoding B T e dim s = (.error .valueError, s) := by
      unfold createReader
      rw [bind_ok (show fileLength s = (.ok s.data.length, s) from rfl), if_neg hl, if_pos hd]
      rfl
    have h2 : createReaderCached P x dir none encoding B T e dim s w = (.error .valueError, w) := by
      unfold createReaderCached
      rw [if_neg hl, if_pos hd]
    rw [h1, h2]
    exact ⟨rfl, fun _ _ h => h⟩
  obtain ⟨hmake, hmake'⟩ := createReader_of_makeReader (encoding := encoding) (B := B) (T := T) (e := e) hl hd
  have hhash : P.hashForFile encoding B T e s =
      (.ok (P.sha1 (s.data ++ lengthAsBytes s.data.length ++
        [P.reprEncoding encoding, P.reprClass B, P.reprClass T, reprEndian e].flatten)), s) := by
    unfold Platform.hashForFile
    rw [bind_ok (hashFeed_eq _ s), ← hs]
    rfl
  generalize P.sha1 (s.data ++ lengthAsBytes s.data.length ++
        [P.reprEncoding encoding, P.reprClass B, P.reprClass T, reprEndian e].flatten) = key at hhash
  cases hm : makeReader encoding B T e dim s with
  | mk z s' =>
  cases dir with
  | disabled =>
    have hopen : createReaderCached P x .disabled none encoding B T e dim s w = match (generalizing := false) z with
        | .error err => (.error err, w)
        | .ok (r, progress) => (.ok ⟨r, none, progress ++ [1]⟩, w) := by
      unfold createReaderCached
      rw [if_neg hl, if_neg (not_not.mpr hd), if_pos rfl, hm]
      cases z <;> rfl
    rw [hopen]
    cases z with
    | error err =>
      rw [hmake err s' hm]
      exact ⟨rfl, fun _ _ h => h⟩
    | ok z =>
      rw [hmake' z.1 z.2 s' hm]
      exact ⟨⟨rfl, rfl, rfl⟩, fun _ _ h => h⟩
  | relative d =>
    have hopen : createReaderCached P x (.relative d) none encoding B T e dim s w = match (generalizing := false) z with
        | .error err => (.error err, w)
        | .ok (r, progress) => (.ok ⟨r, none, progress ++ [1]⟩, w) := by
      unfold createReaderCached
      rw [if_neg hl, if_neg (not_not.mpr hd), if_neg (by simp), hhash]
      simp only [locateCacheFile, Option.map_none, hm]
      cases z <;> rfl
    rw [hopen]
    cases z with
    | error err =>
      rw [hmake err s' hm]
      exact ⟨rfl, fun _ _ h => h⟩
    | ok z =>
      rw [hmake' z.1 z.2 s' hm]
      exact ⟨⟨rfl, rfl, rfl⟩, fun _ _ h => h⟩
  | absolute d =>
    -- whatever is there cannot be loaded
    obtain ⟨w', hw', hload⟩ : ∃ w' : World Key, (∀ c p, w'.cache c = some (.reader p) → w.cache c = some (.reader p)) ∧
        loadReaderFromCache x (d, key) w = (.ok none, w') := by
      unfold loadReaderFromCache
      rcases hcache d key rfl with h | h
      · rw [h]
        exact ⟨w, fun _ _ h => h, rfl⟩
      · rw [h]
        simp only [hf.2, Bool.false_eq_true, if_false]
        refine ⟨_, ?_, rfl⟩
        intro c p
        split
        · exact id
        · unfold World.setCache
          simp only
          split
          · intro h; cases h
          · exact id
    have hopen : createReaderCached P x (.absolute d) none encoding B T e dim s w = match (generalizing := false) z with
        | .error err => (.error err, w')
        | .ok (r, progress) => match saveReaderToCache P x r none s'.pos (d, key) w' with
          | (.error err, w) => (.error err, w)
          | (.ok r, w) => (.ok ⟨r, none, progress ++ [1]⟩, w) := by
      unfold createReaderCached
      rw [if_neg hl, if_neg (not_not.mpr hd), if_neg (by simp), hhash]
      simp only [locateCacheFile, hload, hm]
      cases z <;> rfl
    cases z with
    | error err =>
      rw [hopen, hmake err s' hm]
      exact ⟨rfl, hw'⟩
    | ok z =>
      obtain ⟨r, p⟩ := z
      have hcr := hmake' r p s' hm
      rw [hopen, hcr]
      simp only
      have hset : ∀ c q, (w'.setCache (d, key) (some .unloadable)).cache c = some (.reader q) →
          w.cache c = some (.reader q) := by
        intro c q
        unfold World.setCache
        simp only
        split
        · intro h; cases h
        · exact hw' c q
      unfold saveReaderToCache
      simp only [hf.1, Bool.false_eq_true, if_false]
      by_cases how : x.openWrite = true
      · simp only [how, if_true]
        exact ⟨by simp, hw'⟩
      · simp only [how, Bool.false_eq_true, if_false]
        cases hg : r.getstateLines with
        | error err =>
          have hdump : ∀ (P : Platform Key) name, r.dump P name s'.pos = .error err := by
            intro P name
            unfold Reader.dump
            rw [hg]
            rfl
          rcases dump_error (P := { P with picklable := fun _ => true }) hT hcr (hdump _ (some ⟨[], ""⟩)) with
            ⟨-, F, hF⟩ | ⟨rfl, h2⟩
          · cases hF
          · rw [hdump]
            simp only
            rw [if_neg (by decide)]
            exact ⟨⟨rfl, h2⟩, hset⟩
        | ok r1 =>
          have hdump : r.dump P none s'.pos = .error .typeError := by
            unfold Reader.dump
            rw [hg]
            rfl
          rw [hdump]
          simp only
          rw [if_pos (by decide)]
          exact ⟨⟨rfl, rfl, rfl⟩, hset⟩

/-- An unusable cache file is as good as none: what `create_reader` returns or raises is the same, whichever cache file it
is, and whether or not it can be removed. -/
theorem C53_unusable {Key : Type} [DecidableEq Key] (P : Platform Key) (o : OpenCall) (w : World Key)
    (c : List String × Key) (hc : Unusable w c) (hf : o.faults.openRead = false) :
    (o.run P w).1 = (o.run P (w.setCache c none)).1 := by
  unfold OpenCall.run
  rw [show (w.setCache c none).files = w.files from rfl]
  cases w.files o.path with
  | none => rfl
  | some data =>
    simp only
    unfold createReaderCached
    split
    · rfl
    split
    · rfl
    split
    · cases makeReader o.encoding o.B o.T o.e o.dimensionality { data := data, pos := 0 } with
      | mk y s' => cases y <;> rfl
    rw [hashForFile_eq]
    simp only
    cases locateCacheFile (some o.path) o.dir with
    | none =>
      simp only
      cases makeReader o.encoding o.B o.T o.e o.dimensionality { data := data, pos := 0 } with
      | mk y s' => cases y <;> rfl
    | some d =>
      simp only
      have hl : (loadReaderFromCache o.faults (d, P.sha1 (o.fed P data)) w).1 =
          (loadReaderFromCache o.faults (d, P.sha1 (o.fed P data)) (w.setCache c none)).1 := by
        unfold loadReaderFromCache
        by_cases hcc : (d, P.sha1 (o.fed P data)) = c
        · have h2 : (w.setCache c none).cache (d, P.sha1 (o.fed P data)) = none := if_pos hcc
          rw [h2, hcc]
          rcases hc with hc | ⟨p, err, hc, hp⟩
          · rw [hc]; simp only [hf, Bool.false_eq_true, if_false]
          · rw [hc]; simp only [hf, Bool.false_eq_true, if_false, hp]
        · have h2 : (w.setCache c none).cache (d, P.sha1 (o.fed P data)) = w.cache (d, P.sha1 (o.fed P data)) := if_neg hcc
          rw [h2]
          have hload : ∀ p : Pickle, p.load (w.setCache c none) = p.load w := fun _ => rfl
          cases w.cache (d, P.sha1 (o.fed P data)) with
          | none => rfl
          | some f =>
            simp only [hf, Bool.false_eq_true, if_false]
            cases f with
            | unloadable => rfl
            | other => rfl
            | reader p =>
              simp only [hload]
              cases p.load w <;> rfl
      generalize loadReaderFromCache o.faults (d, P.sha1 (o.fed P data)) w = x at hl ⊢
      generalize loadReaderFromCache o.faults (d, P.sha1 (o.fed P data)) (w.setCache c none) = y at hl ⊢
      obtain ⟨x1, x2⟩ := x
      obtain ⟨y1, y2⟩ := y
      simp only at hl
      subst hl
      cases x1 with
      | error err => rfl
      | ok x1 =>
        cases x1 with
        | some z => rfl
        | none =>
          simp only
          cases makeReader o.encoding o.B o.T o.e o.dimensionality { data := data, pos := 0 } with
          | mk z s' =>
            cases z with
            | error err => rfl
            | ok z =>
              simp only
              have hs := save_fst P o.faults z.1 (some o.path) s'.pos (d, P.sha1 (o.fed P data)) x2 y2
              generalize saveReaderToCache P o.faults z.1 (some o.path) s'.pos (d, P.sha1 (o.fed P data)) x2 = u at hs ⊢
              generalize saveReaderToCache P o.faults z.1 (some o.path) s'.pos (d, P.sha1 (o.fed P data)) y2 = v at hs ⊢
              obtain ⟨u1, u2⟩ := u
              obtain ⟨v1, v2⟩ := v
              simp only at hs
              subst hs
              cases u1 <;> rfl

/-- If it is that of the file being opened it is also removed, so that afterwards all files are as if it had not been
there. -/
theorem C53_removed {Key : Type} [DecidableEq Key] (P : Platform Key) (o : OpenCall) (w : World Key) (data x : Bytes)
    (d : List String) (hdata : w.files o.path = some data) (hx : Hashed P o w x)
    (hd : locateCacheFile (some o.path) o.dir = some d) (hc : Unusable w (d, P.sha1 x))
    (hf : o.faults.openRead = false ∧ o.faults.unlink = false) (hlen : 3600 ≤ data.length)
    (hdim : o.dimensionality ∈ [none, some 1, some 2, some 3]) :
    o.run P w = o.run P (w.setCache (d, P.sha1 x) none) := by
  obtain ⟨data', s', h1, h2⟩ := hx
  rw [hdata] at h1
  cases h1
  rw [hashFeed_eq] at h2
  have hx : x = o.fed P data := by
    simp only [Prod.mk.injEq, Except.ok.injEq] at h2
    exact h2.1.symm
  subst hx
  unfold OpenCall.run
  rw [show (w.setCache (d, P.sha1 (o.fed P data)) none).files = w.files from rfl, hdata]
  have hdis : o.dir ≠ .disabled := by intro h; rw [h] at hd; cases hd
  have h36 : REEL_HEADER_NUM_BYTES = 3600 := rfl
  simp only
  unfold createReaderCached
  rw [if_neg (show ¬ data.length < REEL_HEADER_NUM_BYTES by omega), if_neg (not_not.mpr hdim), if_neg hdis,
    if_neg (show ¬ data.length < REEL_HEADER_NUM_BYTES by omega), if_neg (not_not.mpr hdim), if_neg hdis, hashForFile_eq]
  simp only [hd]
  have hl : loadReaderFromCache o.faults (d, P.sha1 (o.fed P data)) w =
      (.ok none, w.setCache (d, P.sha1 (o.fed P data)) none) := by
    unfold loadReaderFromCache
    rcases hc with hc | ⟨p, err, hc, hp⟩
    · rw [hc]; simp only [hf.1, hf.2, Bool.false_eq_true, if_false]
    · rw [hc]; simp only [hf.1, hf.2, Bool.false_eq_true, if_false, hp]
  have hl' : loadReaderFromCache o.faults (d, P.sha1 (o.fed P data)) (w.setCache (d, P.sha1 (o.fed P data)) none) =
      (.ok none, w.setCache (d, P.sha1 (o.fed P data)) none) := by
    unfold loadReaderFromCache
    rw [show (w.setCache (d, P.sha1 (o.fed P data)) none).cache (d, P.sha1 (o.fed P data)) = none from if_pos rfl]
  rw [hl, hl']

/-- What is left in the cache after a file has been opened can be used the next time: if nothing fails, the classes can be
pickled and the binary header is declared in one class, the cache file for the file loads. -/
theorem C53_repaired {Key : Type} [DecidableEq Key] (P : Platform Key) (o : OpenCall) (w : World Key) (x : Bytes)
    (d : List String) (hx : Hashed P o w x) (hd : locateCacheFile (some o.path) o.dir = some d) (hf : o.faults = {})
    (L : Level) (hB : o.B = [L]) (hstart : o.B.AfterStart) (horder : o.B.OrderSafe) (hT : Cataloguable o.T o.e)
    (hpick : ∀ F, P.picklable F = true) (hold : w.cache (d, P.sha1 x) = none ∨ Unusable w (d, P.sha1 x))
    (y : OpenResult) (hy : (o.run P w).1 = .ok y) :
    ∃ p r, (o.run P w).2.cache (d, P.sha1 x) = some (.reader p) ∧ p.file_name = o.path ∧ p.load (o.run P w).2 = .ok r ∧
      SameAnswers y.reader r := by
  obtain ⟨data, s', hdata, h2⟩ := hx
  rw [hashFeed_eq] at h2
  have hx : x = o.fed P data := by
    simp only [Prod.mk.injEq, Except.ok.injEq] at h2
    exact h2.1.symm
  subst hx
  have hc := run_cases P o w data hdata d hd
  generalize o.run P w = z at hc hy ⊢
  cases hc with
  | refused h => cases hy
  | noRead f h hf => cases hy
  | other h hf => cases hy
  | failed w' hw err h => cases hy
  | loaded p r h hl hf =>
    exfalso
    rcases hold with hn | hn | ⟨p', err, hn, hp⟩
    · rw [hn] at h; cases h
    · rw [hn] at h; cases h
    · rw [hn] at h; cases h; rw [hp] at hl; cases hl
  | built w' hw r progress s2 h x hx =>
    obtain ⟨b1, b2⟩ := createReader_binary hstart horder h
    have hfiles : w'.files = w.files := by rcases hw with rfl | rfl <;> rfl
    cases hdump : r.dump P (some o.path) s2.pos with
    | error err =>
      exfalso
      rcases dump_error hT h hdump with ⟨_, F, hF⟩ | ⟨he, _⟩
      · rw [hpick] at hF
        cases hF
      · subst he
        unfold saveReaderToCache at hx
        rw [hf, hdump] at hx
        simp only [Bool.false_eq_true, if_false] at hx
        rw [if_neg (by simp)] at hx
        rw [hx] at hy
        cases hy
    | ok q =>
      obtain ⟨p, r'⟩ := q
      obtain ⟨e1, e2, e3⟩ := dump_same hdump
      have hs : saveReaderToCache P o.faults r (some o.path) s2.pos (d, P.sha1 (o.fed P data)) w' =
          (.ok r', w'.setCache (d, P.sha1 (o.fed P data)) (some (.reader p))) := by
        unfold saveReaderToCache
        rw [hf, hdump]
        rfl
      rw [hs] at hx
      subst hx
      cases hy
      have v1 : p.reader.binary_reel_header.format = [L] := by rw [e1, e3.binary_format, b1, hB]
      have v2 : p.reader.binary_reel_header.Valid := by
        intro f hf
        rw [v1, ← hB, ← b1] at hf
        obtain ⟨v, h1, h2⟩ := b2 f hf
        exact ⟨v, by rw [e1, e3.binary]; exact h1, h2⟩
      rcases Pickle.load_same p (w'.setCache (d, P.sha1 (o.fed P data)) (some (.reader p))) L v1 v2 with
        ⟨hn, _⟩ | ⟨r'', hl, hs⟩
      · exfalso
        rw [e2] at hn
        have : w'.files o.path = none := hn
        rw [hfiles, hdata] at this
        cases this
      · refine ⟨p, r'', if_pos rfl, e2, hl, ?_⟩
        rw [e1] at hs
        exact sameAnswers_of_same hs

/-- A cache file that holds something else than a reader is reported with `TypeError`. -/
theorem C53_not_a_reader {Key : Type} [DecidableEq Key] (P : Platform Key) (o : OpenCall) (w : World Key) (r : Reader)
    (x : Bytes) (d : List String) (hr : withoutCache o w = .ok r) (hx : Hashed P o w x)
    (hd : locateCacheFile (some o.path) o.dir = some d) (hc : w.cache (d, P.sha1 x) = some .other)
    (hf : o.faults.openRead = false) : o.run P w = (.error .typeError, w) := by
  obtain ⟨data, s', hdata, h2⟩ := hx
  rw [hashFeed_eq] at h2
  have hx : x = o.fed P data := by
    simp only [Prod.mk.injEq, Except.ok.injEq] at h2
    exact h2.1.symm
  subst hx
  have hwc : withoutCache o w =
      (createReader o.encoding o.B o.T o.e o.dimensionality { data := data, pos := 0 }).1.map Prod.fst := by
    unfold withoutCache; rw [hdata]
  have hlen : 3600 ≤ data.length ∧ o.dimensionality ∈ [none, some 1, some 2, some 3] := by
    by_contra hcon
    rw [hwc, C50_refused _ _ _ _ _ _ (by
      by_cases h : data.length < 3600
      · exact Or.inl h
      · right; intro hm; exact hcon ⟨by omega, hm⟩)] at hr
    cases hr
  have hdis : o.dir ≠ .disabled := by intro h; rw [h] at hd; cases hd
  have h36 : REEL_HEADER_NUM_BYTES = 3600 := rfl
  unfold OpenCall.run
  rw [hdata]
  simp only
  unfold createReaderCached
  rw [if_neg (show ¬ data.length < REEL_HEADER_NUM_BYTES by omega), if_neg (not_not.mpr hlen.2), if_neg hdis,
    hashForFile_eq]
  simp only [hd]
  unfold loadReaderFromCache
  rw [hc]
  simp only [hf, Bool.false_eq_true, if_false]

/-! ## C56

`hashFeed args` is what `hash_for_file(fh, *args)` feeds to the hash function, `args` being the encoded `repr`s of the
arguments. -/

/-- The hash function is fed the contents of the file, their length as a little-endian number, and the arguments one after
the other; wherever the file was positioned, it is left at its beginning. -/
theorem C56_feed (args : List Bytes) (s : FileH) :
    ∃ length : Bytes, bytesNat .little length = s.data.length ∧
      hashFeed args s = (.ok (s.data ++ length ++ args.flatten), { s with pos := 0 }) := by
  refine ⟨lengthAsBytes s.data.length, ?_, hashFeed_eq args s⟩
  rw [bytesNat_eq]
  show leNat (leBytes _ _) = _
  rw [leNat_leBytes]
  apply Nat.mod_eq_of_lt
  refine lt_of_lt_of_le (lt_two_pow_bitLength _) ?_
  rw [show (256 : Nat) = 2 ^ 8 from rfl, ← pow_mul]
  apply Nat.pow_le_pow_right (by norm_num)
  omega

/-- So it does not depend on where the file was positioned. -/
theorem C56_position (args : List Bytes) (s : FileH) (pos : Nat) :
    hashFeed args { s with pos := pos } = hashFeed args s := by
  rw [hashFeed_eq, hashFeed_eq]

/-- Nor on the size of the blocks that are read: with any size the loop feeds what is left of the file. -/
theorem C56_block_size (block : Nat) (hb : 1 ≤ block) (fuel : Nat) (s : FileH) (hpos : s.pos ≤ s.data.length)
    (hf : s.data.length - s.pos < fuel) :
    hashLoop block fuel [] s = (.ok (s.data.drop s.pos), { s with pos := s.data.length }) := by
  rw [hashLoop_eq block hb fuel [] s hf, List.nil_append, Nat.max_eq_right hpos]

/-- With the same arguments, different contents are fed differently.  Missing: different arguments
(`C56_arguments_fail`, `C56_contents_fail`). -/
theorem C56_contents_partial (args : List Bytes) (s s' : FileH) :
    (hashFeed args s).1 = (hashFeed args s').1 ↔ s.data = s'.data := by
  rw [hashFeed_eq, hashFeed_eq]
  constructor
  · intro h
    exact feed_inj (List.append_cancel_right (Except.ok.inj h))
  · intro h
    rw [h]

/-- The arguments that `create_reader` hashes, and the contents of the file, are determined by what is fed to the hash
function, if classes print in the usual way and the encoding is a supported one. -/
theorem C56_create_reader {Key : Type} (P : Platform Key) (o o' : OpenCall) (w w' : World Key) (x : Bytes)
    (hp : Plain P o) (hp' : Plain P o') (h : Hashed P o w x) (h' : Hashed P o' w' x) :
    w.files o.path = w'.files o'.path ∧ o.encoding = o'.encoding ∧ P.reprClass o.B = P.reprClass o'.B ∧
      P.reprClass o.T = P.reprClass o'.T ∧ o.e = o'.e := by
  obtain ⟨data, s, h1, h2⟩ := h
  obtain ⟨data', s', h1', h2'⟩ := h'
  rw [hashFeed_eq] at h2 h2'
  have hx : o.fed P data = o'.fed P data' :=
    (Except.ok.inj (Prod.mk.inj h2).1).trans (Except.ok.inj (Prod.mk.inj h2').1).symm
  obtain ⟨g1, g2⟩ := fed_inj P hp hp' hx
  exact ⟨by rw [h1, h1', g1], g2⟩

/-- In general the arguments are not told apart: 1 and 23 are fed like 12 and 3. -/
theorem C56_arguments_fail (s : FileH) :
    hashFeed [asciiBytes "1", asciiBytes "23"] s = hashFeed [asciiBytes "12", asciiBytes "3"] s := by
  rw [hashFeed_eq, hashFeed_eq]
  rfl

/-- Nor is the contents: the empty file with the integer written as 60 ones is fed like a file of 49 bytes with the integer
written as eleven ones. -/
theorem C56_contents_fail :
    (hashFeed [List.replicate 60 0x31] { data := [], pos := 0 }).1 =
      (hashFeed [List.replicate 11 0x31] { data := 0 :: List.replicate 48 0x31, pos := 0 }).1 := by
  rw [hashFeed_eq, hashFeed_eq]
  decide +kernel

-- a file of three bytes and one argument
example : (hashFeed [asciiBytes "'>'"] { data := [10, 11, 12], pos := 2 }).1 =
    .ok [10, 11, 12, 3, 0x27, 0x3e, 0x27] := by
  decide +kernel

end Segpy.Props
