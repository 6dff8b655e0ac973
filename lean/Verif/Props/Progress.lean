import Verif.Lemmas.ProgressWrite
import Verif.Props.Writer
import Verif.Lemmas.Cache
import Verif.Lemmas.ExampleFile

/-! # Progress callbacks that raise: C102 -/

namespace Segpy.Props

open Segpy.Spec Segpy.FileM

/-! ## C102 stopping through the progress callback -/

/-- Opening a file with a callback that may raise, and may move the position of the file.  The bytes of the file stay
what they are.  If the file can be opened without the callback then it is opened in the same way, with the same reports,
unless the callback raises at one of these reports, and then `create_reader` raises what the callback first raised.  If
it cannot be opened then it still cannot, and what is raised is either the same or was raised by the callback. -/
theorem C102_read (cb : Callback) (encoding : Option Encoding) (B T : Format) (e : Endian) (dim : Option Int) (s : FileH) :
    (createReaderWith cb encoding B T e dim s).2.data = s.data ∧
    (∀ (r : Reader) (progress : List ℚ) (s' : FileH), createReader encoding B T e dim s = (.ok (r, progress), s') →
      (createReaderWith cb encoding B T e dim s).1 =
        match cb.firstRaise [] progress with
        | some err => .error err
        | none => .ok (r, progress)) ∧
    ∀ (err : Err) (s' : FileH), createReader encoding B T e dim s = (.error err, s') →
      (createReaderWith cb encoding B T e dim s).1 = .error err ∨
      ∃ (reports : List ℚ) (err' : Err), cb.raises reports = some err' ∧
        (createReaderWith cb encoding B T e dim s).1 = .error err' := by
  obtain ⟨h1, h2⟩ := createReader_follows cb encoding B T e dim s
  refine ⟨h1, fun r progress s' h => ?_, fun err s' h => ?_⟩
  · rw [h] at h2
    obtain ⟨new, hn, hw⟩ := h2
    rw [List.nil_append] at hn
    dsimp only at hn
    rw [hw, hn]
    rfl
  · rw [h] at h2
    exact h2

/-- A callback first raises at the first of the reports for which it raises. -/
theorem C102_first_raise (cb : Callback) (reports : List ℚ) :
    (∀ err, cb.firstRaise [] reports = some err ↔ ∃ k < reports.length, cb.raises (reports.take (k + 1)) = some err ∧
      ∀ j < k, cb.raises (reports.take (j + 1)) = none) ∧
    (cb.firstRaise [] reports = none ↔ ∀ k < reports.length, cb.raises (reports.take (k + 1)) = none) := by
  have some_of : ∀ err, cb.firstRaise [] reports = some err → ∃ k < reports.length,
      cb.raises (reports.take (k + 1)) = some err ∧ ∀ j < k, cb.raises (reports.take (j + 1)) = none := by
    intro err h
    obtain ⟨k, hk, h1, h2⟩ := Callback.firstRaise_some h
    exact ⟨k, hk, by simpa using h1, fun j hj => by simpa using h2 j hj⟩
  have none_of : cb.firstRaise [] reports = none → ∀ k < reports.length, cb.raises (reports.take (k + 1)) = none := by
    suffices H : ∀ (l past : List ℚ), cb.firstRaise past l = none →
        ∀ k < l.length, cb.raises (past ++ l.take (k + 1)) = none by
      intro h k hk
      simpa using H reports [] h k hk
    intro l
    induction l with
    | nil => intro _ _ k hk; simp at hk
    | cons x rest ih =>
      intro past h k hk
      simp only [Callback.firstRaise] at h
      cases hx : cb.raises (past ++ [x]) with
      | some err => rw [hx] at h; cases h
      | none =>
        rw [hx] at h
        cases k with
        | zero => simpa using hx
        | succ k => simpa using ih _ h k (by simpa using hk)
  refine ⟨fun err => ⟨some_of err, fun ⟨k, hk, h1, h2⟩ => ?_⟩, none_of, fun h => ?_⟩
  · cases hf : cb.firstRaise [] reports with
    | none => rw [none_of hf k hk] at h1; cases h1
    | some err' =>
      obtain ⟨k', hk', g1, g2⟩ := some_of err' hf
      rcases Nat.lt_trichotomy k k' with hlt | rfl | hlt
      · rw [g2 k hlt] at h1; cases h1
      · rw [g1] at h1; exact h1
      · rw [h2 k' hlt] at g1; cases g1
  · cases hf : cb.firstRaise [] reports with
    | none => rfl
    | some err =>
      obtain ⟨k, hk, h1, -⟩ := some_of err hf
      rw [h k hk] at h1; cases h1

private theorem load_world {Key : Type} [DecidableEq Key] (x : Faults) (c : List String × Key) (w : World Key) :
    (loadReaderFromCache x c w).2 = w ∨ (loadReaderFromCache x c w).2 = w.setCache c none := by
  unfold loadReaderFromCache
  repeat' split
  all_goals first | exact .inl rfl | exact .inr rfl

private theorem load_none {Key : Type} [DecidableEq Key] (x : Faults) (c : List String × Key) (w : World Key)
    (h : w.cache c = none) : loadReaderFromCache x c w = (.ok none, w) := by
  unfold loadReaderFromCache
  rw [h]

/-- Opening a file with a cache directory.  If the callback raises at one of the reports before the last then no cache
file is written - the most that may happen to one is that it is removed because it was stale - and no data file changes. -/
theorem C102_cancelled_not_cached {Key : Type} [DecidableEq Key] (cb : Callback) (P : Platform Key) (x : Faults)
    (dir : CacheDir) (name : Option DataPath) (encoding : Option Encoding) (B T : Format) (e : Endian) (dim : Option Int)
    (data : Bytes) (w : World Key) (r : Reader) (progress : List ℚ) (s' : FileH) (err : Err)
    (hopen : createReader encoding B T e dim { data := data, pos := 0 } = (.ok (r, progress ++ [1]), s'))
    (hcb : cb.firstRaise [] progress = some err) :
    let out := createReaderCachedWith cb P x dir name encoding B T e dim { data := data, pos := 0 } w
    out.2.files = w.files ∧ (∀ c, out.2.cache c = w.cache c ∨ out.2.cache c = none) ∧
    ((∀ c, w.cache c = none) → out.1 = .error err ∧ out.2 = w) ∧
    (out.2 = w ∨ ∃ c, out.2 = (Event.dropCache c).step P w) := by
  intro out
  by_cases hl : data.length < REEL_HEADER_NUM_BYTES
  · rw [Props.C50_refused _ _ _ _ _ _ (Or.inl hl)] at hopen; cases hopen
  by_cases hdim : dim ∈ [none, some 1, some 2, some 3]
  swap
  · rw [Props.C50_refused _ _ _ _ _ _ (Or.inr hdim)] at hopen; cases hopen
  obtain ⟨m1, m2⟩ := createReader_of_makeReader (encoding := encoding) (B := B) (T := T) (e := e)
    (s := { data := data, pos := 0 }) hl hdim
  -- without a cache, the callback stops it
  have hmk : (makeReaderWith cb encoding B T e dim { data := data, pos := 0 }).1 = .error err := by
    have hf := (makeReader_follows cb encoding B T e dim { data := data, pos := 0 }).2
    cases hm : makeReader encoding B T e dim { data := data, pos := 0 } with
    | mk y t =>
      cases y with
      | error err' => rw [m1 _ _ hm] at hopen; cases hopen
      | ok y =>
        obtain ⟨r', progress'⟩ := y
        rw [m2 _ _ _ hm] at hopen
        have : progress' = progress := by
          injection hopen with h1 h2
          injection h1 with h1
          injection h1 with h1 h3
          exact List.append_cancel_right h3
        subst this
        rw [hm] at hf
        obtain ⟨new, hn, hw⟩ := hf
        rw [List.nil_append] at hn
        dsimp only at hn
        subst hn
        rw [hw, hcb]
        rfl
  obtain ⟨t, ht⟩ : ∃ t, makeReaderWith cb encoding B T e dim { data := data, pos := 0 } = (.error err, t) :=
    ⟨_, Prod.ext hmk rfl⟩
  have hout : out = createReaderCachedWith cb P x dir name encoding B T e dim { data := data, pos := 0 } w := rfl
  clear_value out
  unfold createReaderCachedWith at hout
  simp only [if_neg hl, if_neg (not_not.mpr hdim)] at hout
  have hid : out = (.error err, w) → out.2.files = w.files ∧ (∀ c, out.2.cache c = w.cache c ∨ out.2.cache c = none) ∧
      ((∀ c, w.cache c = none) → out.1 = .error err ∧ out.2 = w) ∧
      (out.2 = w ∨ ∃ c, out.2 = (Event.dropCache c).step P w) := by
    rintro rfl
    exact ⟨rfl, fun c => .inl rfl, fun _ => ⟨rfl, rfl⟩, .inl rfl⟩
  split at hout
  · rw [ht] at hout; exact hid hout
  rw [hashForFile_eq P ⟨x, dir, ⟨[], ""⟩, encoding, B, T, e, dim⟩] at hout
  simp only [ht] at hout
  cases hd : locateCacheFile name dir with
  | none => rw [hd] at hout; exact hid hout
  | some d =>
    rw [hd] at hout
    dsimp only at hout
    generalize hc : ((d, P.sha1 (OpenCall.fed P ⟨x, dir, ⟨[], ""⟩, encoding, B, T, e, dim⟩ data)) : List String × Key) = c
      at hout
    have hload := load_world x c w
    have hnone := load_none x c w
    generalize loadReaderFromCache x c w = q at hout hload hnone
    obtain ⟨res, w'⟩ := q
    have hw' : out.2 = w' := by
      rcases res with err' | _ | ⟨r', file⟩
      · rw [hout]
      · rw [hout]
      · dsimp only at hout
        split at hout <;> rw [hout]
    refine ⟨?_, ?_, fun hall => ?_, ?_⟩
    · rw [hw']
      rcases hload with h | h <;> dsimp only at h <;> subst h <;> rfl
    · intro c'
      rw [hw']
      rcases hload with h | h <;> dsimp only at h <;> subst h
      · exact .inl rfl
      · unfold World.setCache
        dsimp only
        split
        · exact .inr rfl
        · exact .inl rfl
    · have := hnone (hall c)
      injection this with h1 h2
      subst h1 h2
      rw [hout]
      exact ⟨rfl, rfl⟩
    · rw [hw']
      rcases hload with h | h
      · exact .inl h
      · exact .inr ⟨c, h⟩

/-- Opening that was stopped leaves the files as some other history leaves them, in which no call was stopped; so what is
proved of all histories (C52, C53) holds also of those in which calls are stopped. -/
theorem C102_cancelled_history {Key : Type} [DecidableEq Key] (cb : Callback) (P : Platform Key) (o : OpenCall)
    (files : DataPath → Option Bytes) (es : List (Event Key)) (data : Bytes) (r : Reader) (progress : List ℚ) (s' : FileH)
    (err : Err) (hopen : createReader o.encoding o.B o.T o.e o.dimensionality { data := data, pos := 0 } =
      (.ok (r, progress ++ [1]), s'))
    (hcb : cb.firstRaise [] progress = some err) :
    ∃ es' : List (Event Key), (createReaderCachedWith cb P o.faults o.dir (some o.path) o.encoding o.B o.T o.e
      o.dimensionality { data := data, pos := 0 } (World.after P files es)).2 = World.after P files es' := by
  have h := (C102_cancelled_not_cached cb P o.faults o.dir (some o.path) o.encoding o.B o.T o.e o.dimensionality data
    (World.after P files es) r progress s' err hopen hcb).2.2.2
  rcases h with h | ⟨c, h⟩
  · exact ⟨es, h⟩
  · refine ⟨es ++ [.dropCache c], h.trans ?_⟩
    unfold World.after
    rw [List.foldl_append]
    rfl

/-- Opening a file with a cache directory and a callback that does not touch the file, and does not raise before the last
report.  The files are left exactly as without the callback: in particular, if it raises at the last report the cache file
has been written. -/
theorem C102_last_report {Key : Type} [DecidableEq Key] (cb : Callback)
    (hstill : ∀ reports pos, cb.moves reports pos = pos) (P : Platform Key) (x : Faults)
    (dir : CacheDir) (name : Option DataPath) (encoding : Option Encoding) (B T : Format) (e : Endian) (dim : Option Int)
    (data : Bytes) (w : World Key) (r : Reader) (progress : List ℚ) (s' : FileH)
    (hopen : createReader encoding B T e dim { data := data, pos := 0 } = (.ok (r, progress ++ [1]), s'))
    (hcb : cb.firstRaise [] progress = none) :
    let out := createReaderCachedWith cb P x dir name encoding B T e dim { data := data, pos := 0 } w
    let plain := createReaderCached P x dir name encoding B T e dim { data := data, pos := 0 } w
    out.2 = plain.2 ∧
    (∀ err, plain.1 = .error err → out.1 = .error err) ∧
    (∀ o, plain.1 = .ok o → out.1 =
      match cb.raises o.progress with
      | some err => .error err
      | none => .ok o) := by
  intro out plain
  by_cases hl : data.length < REEL_HEADER_NUM_BYTES
  · rw [Props.C50_refused _ _ _ _ _ _ (Or.inl hl)] at hopen; cases hopen
  by_cases hdim : dim ∈ [none, some 1, some 2, some 3]
  swap
  · rw [Props.C50_refused _ _ _ _ _ _ (Or.inr hdim)] at hopen; cases hopen
  obtain ⟨m1, m2⟩ := createReader_of_makeReader (encoding := encoding) (B := B) (T := T) (e := e)
    (s := { data := data, pos := 0 }) hl hdim
  obtain ⟨t, hm, ht⟩ : ∃ t, makeReader encoding B T e dim { data := data, pos := 0 } = (.ok (r, progress), t) ∧
      makeReaderWith cb encoding B T e dim { data := data, pos := 0 } = (.ok (r, progress), t) := by
    cases hm : makeReader encoding B T e dim { data := data, pos := 0 } with
    | mk y t =>
      cases y with
      | error err' => rw [m1 _ _ hm] at hopen; cases hopen
      | ok y =>
        obtain ⟨r', progress'⟩ := y
        rw [m2 _ _ _ hm] at hopen
        injection hopen with h1 h2
        injection h1 with h1
        injection h1 with h1 h3
        have h3 := List.append_cancel_right h3
        subst h1 h3
        exact ⟨t, rfl, makeReader_still hstill hm hcb⟩
  have key : ∀ (q : Res OpenResult × World Key) (q' : Res OpenResult × World Key), plain = q →
      q' = (match q with
        | (.error err, w) => (.error err, w)
        | (.ok o, w) => (match cb.raises o.progress with
          | some err => (.error err, w)
          | none => (.ok o, w))) → out = q' →
      out.2 = plain.2 ∧ (∀ err, plain.1 = .error err → out.1 = .error err) ∧
      (∀ o, plain.1 = .ok o → out.1 =
        match cb.raises o.progress with
        | some err => .error err
        | none => .ok o) := by
    intro q q' hq hq' ho
    rw [ho, hq, hq']
    rcases q with ⟨err | o, w'⟩
    · exact ⟨rfl, fun _ h => h, fun o h => (by cases h)⟩
    · cases hr : cb.raises o.progress with
      | some err => exact ⟨by simp [hr], fun _ h => (by cases h), fun o' h => by cases h; simp [hr]⟩
      | none => exact ⟨by simp [hr], fun _ h => (by cases h), fun o' h => by cases h; simp [hr]⟩
  refine key plain out rfl ?_ rfl
  show createReaderCachedWith cb P x dir name encoding B T e dim { data := data, pos := 0 } w =
    (match createReaderCached P x dir name encoding B T e dim { data := data, pos := 0 } w with
      | (.error err, w) => (.error err, w)
      | (.ok o, w) => (match cb.raises o.progress with
        | some err => (.error err, w)
        | none => (.ok o, w)))
  unfold createReaderCachedWith createReaderCached
  simp only [if_neg hl, if_neg (not_not.mpr hdim)]
  split
  · rw [hm, ht]
    rfl
  rw [hashForFile_eq P ⟨x, dir, ⟨[], ""⟩, encoding, B, T, e, dim⟩]
  simp only [hm, ht]
  cases locateCacheFile name dir with
  | none => rfl
  | some d =>
    dsimp only
    rcases loadReaderFromCache x _ w with ⟨err | _ | ⟨r', file⟩, w'⟩
    · rfl
    · dsimp only
      rcases saveReaderToCache P x r name t.pos _ w' with ⟨err | r', w''⟩ <;> rfl
    · rfl

/-! ## Writing -/

/-- With a callback that never raises nothing changes. -/
theorem C102_write_same (cb : Callback) (hstill : ∀ reports pos, cb.moves reports pos = pos)
    (hnever : ∀ reports, cb.raises reports = none) (d : Dataset) (encoding : Option Encoding) (T : Format) (e : Endian)
    (s : FileH) : writeSegyWith cb d encoding T e s = writeSegy d encoding T e s := by
  unfold writeSegyWith writeSegy
  split
  · rfl
  refine bind_congr_right fun _ t => bind_congr_right fun _ t => bind_congr_right fun _ t => bind_congr_right fun p t => ?_
  rw [bind_apply, bind_apply, writeTracesWith_silent hstill hnever, bind_apply]
  rcases writeTraces d p e d.trace_indexes t with ⟨_ | a, t⟩
  · rfl
  · show ((cb.call ([] ++ a ++ [1]) >>= fun _ => pure ([] ++ a ++ [1]) : FileM (List ℚ))) t = _
    rw [bind_ok (Callback.call_still hstill (hnever _) t), List.nil_append]

/-- Writing a consistent dataset with a callback that does not touch the file.  It is called once after each trace, and
once more.  If it returns every time then the file is as without it.  If it first raises at call `k`, counted from zero,
then `write_segy` raises the same, and the file holds exactly the headers and the first `k + 1` traces - all of them, if
it raised at the last call.  What has been written can be opened, and has these traces. -/
theorem C102_write (d : Dataset) (enc : Encoding) (T : Format) (e : Endian) (t : SegYType) (hs : List Header)
    (vss : List (List PyNum)) (h : Consistent d enc T e t hs vss) (encoding : Option Encoding)
    (henc : (encoding.or d.encoding).getD .ascii = enc) :
    ∃ progress complete, writeSegy d encoding T e { data := [], pos := 0 } = (.ok progress, complete) ∧
      progress.length = hs.length + 1 ∧
      ∀ cb : Callback, (∀ reports pos, cb.moves reports pos = pos) →
        ((∀ k ≤ hs.length, cb.raises (progress.take (k + 1)) = none) →
          writeSegyWith cb d encoding T e { data := [], pos := 0 } = (.ok progress, complete)) ∧
        ∀ (k : Nat) (err : Err), k ≤ hs.length → (∀ j < k, cb.raises (progress.take (j + 1)) = none) →
          cb.raises (progress.take (k + 1)) = some err →
          ∃ s, writeSegyWith cb d encoding T e { data := [], pos := 0 } = (.error err, s) ∧
            s.data = complete.data.take (traceStart (firstTrace d) t vss (min (k + 1) hs.length)) ∧
            s.data.length = traceStart (firstTrace d) t vss (min (k + 1) hs.length) ∧
            ∀ (asked : Option Encoding) (dim : Option Int), usedEncoding asked s.data = enc →
              dim ∈ [none, some 1, some 2, some 3] →
              ∃ r p s', createReader asked d.binary_reel_header.format T e dim { s with pos := 0 } = (.ok (r, p), s') ∧
                ReadsBack d T t hs vss s.data.length { s with pos := 0 } r := by
  obtain ⟨I, hI⟩ := h.image encoding henc
  have hnum := I.num
  have hne : d.num_traces ≠ 0 := by
    rw [h.num_traces]
    have := List.length_pos_iff.mpr h.some_trace
    omega
  have hpos : 0 < hs.length := List.length_pos_iff.mpr h.some_trace
  -- the headers
  have hhead : ∀ cb, writeSegyWith cb d encoding T e { data := [], pos := 0 } =
      (writeTracesWith cb d I.packer e d.trace_indexes [] >>= fun reports =>
        cb.call (reports ++ [1]) >>= fun _ => pure (reports ++ [1])) { data := I.head, pos := I.head.length } := by
    intro cb
    have h36 : I.text.flatten.length + I.bin.length = 3600 := by rw [I.text_length, I.bin_length]
    unfold writeSegyWith
    simp only [henc, (isSupported_iff enc).mpr h.encoding, Bool.not_true, Bool.false_eq_true, if_false]
    rw [bind_ok ((I.write_text 0).free _ rfl rfl rfl),
      bind_ok ((I.write_bin I.text.flatten.length).free _ (by simp) (by simp) rfl),
      bind_ok (I.write_pages.free _ (by simpa using h36) (by simpa using h36) rfl), I.packs, bind_ok (lift_apply _ _)]
    have hl : I.head.length = 3600 + (pagesBytes I.ess).length := by
      unfold Image.head; rw [List.length_append, List.length_append, h36]
    rw [hl]
    rfl
  -- the first traces
  have htraces : ∀ m ≤ hs.length, writeTraces d I.packer e ((List.range m).map fun i : Nat => (i : Int))
      { data := I.head, pos := I.head.length } =
      (.ok ((List.range m).map fun i : Nat => round64 ((i : ℚ) / d.num_traces)),
        { data := I.head ++ body (I.ts.take m), pos := I.head.length + (body (I.ts.take m)).length }) := by
    intro m hm
    have hml : (I.ts.take m).length = m := by rw [List.length_take]; omega
    have := (writeTraces_appends (T := T) (e := e) (p := I.packer) h.sample_format hne (I.ts.take m) 0 I.head.length
      (fun x hx => I.ok x (List.mem_of_mem_take hx))
      (fun j hj => by
        rw [hml] at hj
        rw [Nat.zero_add, h.trace_header j (by omega), List.getElem_take]
        simp [← I.headers])
      (fun j hj => by
        rw [hml] at hj
        rw [Nat.zero_add, h.trace_samples j (by rw [h.same_length]; omega), List.getElem_take]
        simp [← I.samples])).free { data := I.head, pos := I.head.length } rfl rfl rfl
    rw [hml, ← List.range_eq_range'] at this
    exact this
  have htake : ∀ m, I.full.take (traceStart (firstTrace d) t vss m) = I.head ++ body (I.ts.take m) := by
    intro m
    rw [I.start]
    unfold Image.full
    rw [List.take_length_add_append]
    congr 1
    conv_lhs => rw [← List.take_append_drop m I.ts, body_append, List.take_append_drop]
    rw [List.take_left]
  have hall := htraces hs.length (Nat.le_refl _)
  rw [← h.indexes, h.num_traces] at hall
  simp only [Int.cast_natCast] at hall
  have hts : I.ts.take hs.length = I.ts := List.take_of_length_le (by omega)
  refine ⟨_, _, hI.free { data := [], pos := 0 } rfl rfl rfl, by simp, fun cb hstill => ?_⟩
  have hpre : ∀ j < hs.length, (((List.range hs.length).map fun i : Nat => round64 ((i : ℚ) / hs.length)) ++ [1]).take (j + 1) =
      ((List.range hs.length).map fun i : Nat => round64 ((i : ℚ) / hs.length)).take (j + 1) := by
    intro j hj
    rw [List.take_append_of_le_length]
    simp; omega
  have hlast : (((List.range hs.length).map fun i : Nat => round64 ((i : ℚ) / hs.length)) ++ [1]).take (hs.length + 1) =
      ((List.range hs.length).map fun i : Nat => round64 ((i : ℚ) / hs.length)) ++ [1] :=
    List.take_of_length_le (by simp)
  have hidx : d.trace_indexes.length = hs.length := by rw [h.indexes]; simp
  obtain ⟨a1, a2⟩ := writeTracesWith_stops hstill d I.packer e d.trace_indexes [] _ _ _ hall
  simp only [List.nil_append, hidx] at a1 a2
  have key : ∀ m, 0 < m → m ≤ hs.length → ∀ u : FileH,
      u = { data := I.head ++ body (I.ts.take m), pos := I.head.length + (body (I.ts.take m)).length } →
      u.data = I.full.take (traceStart (firstTrace d) t vss m) ∧
      u.data.length = traceStart (firstTrace d) t vss m ∧
      ∀ (asked : Option Encoding) (dim : Option Int), usedEncoding asked u.data = enc →
        dim ∈ [none, some 1, some 2, some 3] →
        ∃ r p s', createReader asked d.binary_reel_header.format T e dim { u with pos := 0 } = (.ok (r, p), s') ∧
          ReadsBack d T t hs vss u.data.length { u with pos := 0 } r := by
    intro m hm0 hm u hu
    have hd : u.data = I.full.take (traceStart (firstTrace d) t vss m) := by rw [htake, hu]
    have hlen : u.data.length = traceStart (firstTrace d) t vss m := by
      rw [hu, I.start, List.length_append]
    refine ⟨hd, hlen, fun asked dim hasked hdim => ?_⟩
    have hk : firstTrace d + 240 ≤ traceStart (firstTrace d) t vss m := by
      unfold traceStart
      obtain ⟨vs, vss', hv⟩ : ∃ vs vss', vss = vs :: vss' := by
        have := h.same_length
        cases vss with
        | nil => simp at this; omega
        | cons vs vss' => exact ⟨_, _, rfl⟩
      obtain ⟨n, rfl⟩ : ∃ n, m = n + 1 := ⟨m - 1, by omega⟩
      rw [hv, List.take_succ_cons, List.map_cons, List.sum_cons]
      omega
    have hu' : ({ u with pos := 0 } : FileH) =
        { data := I.full.take (traceStart (firstTrace d) t vss m), pos := 0, limit := none } := by
      rw [← hd, hu]
    rw [hlen, hu']
    exact read_prefix h I _ hk none asked (by rw [← hd]; exact hasked) dim hdim
  refine ⟨fun hn => ?_, fun k err hk hn hr => ?_⟩
  · have h1 := a1 fun j hj => by rw [← hpre j hj]; exact hn j (by omega)
    have h2 := hn hs.length (Nat.le_refl _)
    rw [hlast] at h2
    rw [hhead, bind_ok h1, bind_ok (Callback.call_still hstill h2 _), hts]
    simp only [List.nil_append, Nat.zero_add, Image.full, List.length_append]
    rfl
  · rcases Nat.lt_or_ge k hs.length with hlt | hge
    · rw [hpre k hlt] at hr
      obtain ⟨new', s'', b1, b2⟩ := a2 k err hlt (fun j hj => by rw [← hpre j (by omega)]; exact hn j hj) hr
      rw [h.indexes, ← List.map_take, List.take_range, Nat.min_eq_left (by omega), htraces (k + 1) (by omega)] at b1
      have hu := congrArg Prod.snd b1
      refine ⟨s'', by rw [hhead, bind_error b2], ?_⟩
      rw [Nat.min_eq_left (by omega)]
      simp only [List.nil_append]
      exact key (k + 1) (by omega) (by omega) s'' hu.symm
    · obtain rfl : k = hs.length := by omega
      rw [hlast] at hr
      have h1 := a1 fun j hj => by rw [← hpre j hj]; exact hn j hj
      refine ⟨_, by rw [hhead, bind_ok h1, bind_error (Callback.call_still_error hstill hr _)], ?_⟩
      rw [Nat.min_eq_right (by omega)]
      simp only [List.nil_append]
      exact key hs.length hpos (Nat.le_refl _) _ rfl

-- a callback that raises `KeyError` at its first call leaves one of two traces
example : ∃ (d : Dataset) (s : FileH), writeSegyWith ⟨fun _ => some .keyError, fun _ pos => pos⟩ d none fmtTraceHeaderRev1
    .big { data := [], pos := 0 } = (.error .keyError, s) ∧ s.data.length = 7044 := by
  obtain ⟨d, hs, vss, hc, henc, htwo, hend⟩ := consistent_example_two
  obtain ⟨progress, complete, -, -, hcb⟩ := C102_write _ _ _ _ _ _ _ hc none (by rw [henc]; rfl)
  obtain ⟨s, h1, -, h2, -⟩ := (hcb ⟨fun _ => some .keyError, fun _ pos => pos⟩ fun _ _ => rfl).2 0 .keyError (by simp)
    (fun j hj => by omega) rfl
  rw [htwo] at h2
  exact ⟨d, s, h1, h2.trans hend⟩

/-- How opening a file of three traces ends with a callback, and how many reports there were. -/
private def opens (cb : Callback) : Res Nat :=
  match createReaderWith cb (some .ebcdic) fmtBinaryReelHeader fmtTraceHeaderRev1 .big none sampleFile with
  | (.ok (_, progress), _) => .ok progress.length
  | (.error err, _) => .error err

-- with a callback that rewinds the file every time; and if it also raises at the third report
example : opens ⟨fun _ => none, fun _ _ => 0⟩ = .ok 10 ∧
    opens ⟨fun l => if l.length = 3 then some .keyError else none, fun _ _ => 0⟩ = .error .keyError := by
  decide +kernel

end Segpy.Props
