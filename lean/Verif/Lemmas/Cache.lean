import Verif.Lemmas.Memo
import Verif.Props.Reader
import Verif.Props.Header
import Verif.Lemmas.Struct
import Verif.Spec.Cache

/-! # Lemmas about hashing and the cache -/

namespace Segpy

open Spec FileM

/-! ## Hashing -/

theorem hashLoop_eq (block : Nat) (hb : 0 < block) : ∀ (fuel : Nat) (fed : Bytes) (s : FileH),
    s.data.length - s.pos < fuel →
    hashLoop block fuel fed s = (.ok (fed ++ s.data.drop s.pos), { s with pos := max s.pos s.data.length }) := by
  intro fuel
  induction fuel with
  | zero => intro fed s h; omega
  | succ fuel ih =>
    intro fed s h
    have hr : FileM.read block s = (.ok ((s.data.drop s.pos).take block),
        { s with pos := s.pos + ((s.data.drop s.pos).take block).length }) := by
      have : ¬ ((block : Int) < 0) := by omega
      simp only [FileM.read, if_neg this, Int.toNat_natCast]
    unfold hashLoop
    rw [bind_ok hr]
    by_cases he : s.data.drop s.pos = []
    · rw [if_pos (by simp [he])]
      have : s.data.length ≤ s.pos := List.drop_eq_nil_iff.mp he
      simp only [he, List.take_nil, List.length_nil, Nat.add_zero, List.append_nil, Nat.max_eq_left this]
      rfl
    · have hpos : 0 < (s.data.drop s.pos).length := List.length_pos_iff.mpr he
      have hlen : ((s.data.drop s.pos).take block).length = min block (s.data.drop s.pos).length := List.length_take
      have hdl : (s.data.drop s.pos).length = s.data.length - s.pos := List.length_drop
      rw [if_neg, ih]
      · simp only
        congr 2
        · rw [List.append_assoc]
          congr 1
          rw [hlen]
          rcases Nat.le_total block (s.data.drop s.pos).length with hle | hle
          · rw [Nat.min_eq_left hle, ← List.drop_drop, List.take_append_drop]
          · have hnil : List.drop (s.pos + (s.data.drop s.pos).length) s.data = [] :=
              List.drop_eq_nil_of_le (by omega)
            rw [Nat.min_eq_right hle, List.take_of_length_le hle, hnil, List.append_nil]
        · have hle : ((s.data.drop s.pos).take block).length ≤ s.data.length - s.pos := by
            rw [hlen, hdl]; exact Nat.min_le_right _ _
          have : s.pos < s.data.length := by omega
          rw [Nat.max_eq_right (by omega), Nat.max_eq_right (by omega)]
      · simp only
        omega
      · intro hc
        have := List.isEmpty_iff.mp hc
        rw [this] at hlen
        simp only [List.length_nil] at hlen
        omega

theorem foldl_append_flatten (args : List Bytes) (a : Bytes) :
    args.foldl (fun fed arg => fed ++ arg) a = a ++ args.flatten := by
  induction args generalizing a with
  | nil => simp
  | cons x xs ih => simp [ih]

theorem hashFeed_eq (args : List Bytes) (s : FileH) :
    hashFeed args s = (.ok (s.data ++ lengthAsBytes s.data.length ++ args.flatten), { s with pos := 0 }) := by
  unfold hashFeed
  have h0 : FileM.seek 0 s = (.ok (), { s with pos := 0 }) := seek_apply 0 s
  rw [bind_ok h0, bind_ok (hashLoop_eq _ (by norm_num) _ _ _ (by simp))]
  simp only [List.nil_append, List.drop_zero, Nat.zero_max]
  have ht : FileM.tell { s with pos := s.data.length } = (.ok s.data.length, { s with pos := s.data.length }) := rfl
  rw [bind_ok ht]
  have h1 : FileM.seek 0 { s with pos := s.data.length } = (.ok (), { s with pos := 0 }) :=
    seek_apply 0 { s with pos := s.data.length }
  rw [bind_ok h1, foldl_append_flatten]
  rfl

theorem bitLength_mono {a b : Nat} (h : a ≤ b) : bitLength a ≤ bitLength b := by
  unfold bitLength
  split
  · omega
  · rw [if_neg (by omega)]
    have : Nat.log2 a ≤ Nat.log2 b := by
      rw [Nat.le_log2 (by omega)]
      exact le_trans (Nat.log2_self_le (by omega)) h
    omega

theorem lt_two_pow_bitLength (n : Nat) : n < 2 ^ bitLength n := by
  unfold bitLength
  split
  · rename_i h; rw [h]; norm_num
  · exact Nat.lt_log2_self

theorem leBytes_length' (k n : Nat) : (leBytes k n).length = k := by
  induction k generalizing n with
  | zero => rfl
  | succ k ih => simp [leBytes, ih]

theorem lengthAsBytes_length (n : Nat) : (lengthAsBytes n).length = bitLength n / 8 + 1 := leBytes_length' _ _

/-- With the same arguments, what is fed determines the contents. -/
theorem feed_inj {a b : Bytes} (h : a ++ lengthAsBytes a.length = b ++ lengthAsBytes b.length) : a = b := by
  have hl : a.length + (bitLength a.length / 8 + 1) = b.length + (bitLength b.length / 8 + 1) := by
    have := congrArg List.length h
    rwa [List.length_append, List.length_append, lengthAsBytes_length, lengthAsBytes_length] at this
  have : a.length = b.length := by
    rcases Nat.lt_trichotomy a.length b.length with hlt | heq | hgt
    · have := Nat.div_le_div_right (c := 8) (bitLength_mono hlt.le); omega
    · exact heq
    · have := Nat.div_le_div_right (c := 8) (bitLength_mono hgt.le); omega
  exact (List.append_inj h this).1

theorem last_class {u u' w w' : Bytes} (h : u ++ 0x3c :: w = u' ++ 0x3c :: w') (hw : (0x3c : UInt8) ∉ w)
    (hw' : (0x3c : UInt8) ∉ w') : u = u' ∧ w = w' := by
  rcases List.append_eq_append_iff.mp h with ⟨x, h1, h2⟩ | ⟨x, h1, h2⟩
  · cases x with
    | nil => simp at h1 h2; exact ⟨h1.symm, h2⟩
    | cons y x =>
      exfalso
      rw [List.cons_append] at h2
      injection h2 with _ h3
      apply hw
      rw [h3]
      simp
  · cases x with
    | nil => simp at h1 h2; exact ⟨h1, h2.symm⟩
    | cons y x =>
      exfalso
      rw [List.cons_append] at h2
      injection h2 with _ h3
      apply hw'
      rw [h3]
      simp

/-! ## Pickling -/

/-- A pickled reader loads as one that gives the same answers, if its binary header was declared in one class. -/
theorem Pickle.load_same {Key : Type} (p : Pickle) (w : World Key) (L : Level)
    (hF : p.reader.binary_reel_header.format = [L]) (hv : p.reader.binary_reel_header.Valid) :
    (w.files p.file_name = none ∧ p.load w = .error .typeError) ∨ ∃ r, p.load w = .ok r ∧ Same p.reader r := by
  unfold Pickle.load
  cases w.files p.file_name with
  | none => left; exact ⟨rfl, rfl⟩
  | some data =>
    right
    obtain ⟨b, h1, h2, h3⟩ := Props.C33_pickle_single_class_partial _ L hF hv
    simp only [h1, bind, Except.bind, pure, Except.pure]
    refine ⟨_, rfl, ?_⟩
    refine ⟨rfl, h2, ?_, rfl, rfl, rfl, rfl, rfl, rfl, rfl, rfl, max_answer _ _ rfl rfl, inline_answer _ _ rfl,
      xline_answer _ _ rfl, cdp_answer _ _ rfl, rfl, rfl, fun _ => rfl, fun _ => rfl, rfl, fun _ => rfl, fun _ => rfl⟩
    intro n
    show b.get n = _
    cases ha : p.reader.binary_reel_header.format.attr n with
    | none => unfold Header.get; rw [h2, ha]
    | some f =>
      have hn := Format.attr_name ha
      subst hn
      exact h3 f (Format.mem_fields.2 ha)

theorem getstate_same {r r' : Reader} (h : r.getstateLines = .ok r') : Same r r' := by
  unfold Reader.getstateLines at h
  split at h
  · cases h; exact Same.refl r
  · simp only [bind, Except.bind] at h
    split at h
    · cases h
    · rename_i y hy
      cases h
      exact cdp_same _ _ _ hy
  · simp only [bind, Except.bind] at h
    split at h
    · cases h
    · rename_i y hy
      split at h
      · cases h
      · rename_i z hz
        cases h
        exact (inline_same _ _ _ hy).trans (xline_same _ _ _ hz)

theorem dump_same {Key : Type} {P : Platform Key} {r r' : Reader} {name : DataPath} {pos : Nat} {p : Pickle}
    (h : r.dump P (some name) pos = .ok (p, r')) : p.reader = r' ∧ p.file_name = name ∧ Same r r' := by
  unfold Reader.dump at h
  simp only [bind, Except.bind] at h
  split at h
  · cases h
  rename_i r1 h1
  split at h
  · cases h
  rename_i y hy
  split at h
  · cases h
    exact ⟨rfl, rfl, (getstate_same h1).trans (max_same _ _ _ hy)⟩
  · cases h

/-- The binary header of a reader is one read with the given format. -/
theorem createReader_binary {encoding : Option Encoding} {B T : Format} {e : Endian} {dim : Option Int} {s s' : FileH}
    {r : Reader} {progress : List ℚ} (hstart : B.AfterStart) (horder : B.OrderSafe)
    (h : createReader encoding B T e dim s = (.ok (r, progress), s')) :
    r.binary_reel_header.format = B ∧ r.binary_reel_header.Valid := by
  obtain ⟨enc, textual, binary, extended, bps, catalogs, k1, k2, k3, k4, _, _, h3, _, _, _, h7, _⟩ := createReader_ok h
  have hb : r.binary_reel_header = binary := by
    unfold makeReaderOf at h7
    simp only [bind, Except.bind] at h7
    have key : ∀ offsets lengths kind, Reader.make textual binary extended offsets lengths T enc e kind = .ok r →
        r.binary_reel_header = binary := by
      intro offsets lengths kind hm
      unfold Reader.make at hm
      simp only [bind, Except.bind, pure, Except.pure] at hm
      split at hm
      · cases hm
      split at hm
      · cases hm
      split at hm
      · cases hm
      cases hm
      rfl
    split at h7
    · cases h7
    split at h7
    · cases h7
    split at h7
    · cases h7
    split at h7
    · cases h7
    split at h7
    · exact key _ _ _ h7
    split at h7
    · exact key _ _ _ h7
    · exact key _ _ _ h7
  rw [hb]
  unfold readBinaryReelHeader at h3
  obtain ⟨p, s1, h4, h3⟩ := bind_eq_ok h3
  obtain ⟨hp, rfl⟩ := lift_eq_ok h4
  have hu : ∃ bs, p.unpack bs = .ok binary := by
    cases hl : B.lengthInBytes with
    | none => rw [hl] at h3; cases h3
    | some n =>
      rw [hl] at h3
      obtain ⟨bs, s2, _, h3⟩ := bind_eq_ok h3
      exact ⟨bs, (lift_eq_ok h3).1⟩
  obtain ⟨bs, hu⟩ := hu
  rcases Props.C29_unpack B e p bs hp hstart horder with ⟨h, h1, h2, _, h4⟩ | ⟨h1, _⟩
  · rw [h1] at hu
    cases hu
    refine ⟨h2, ?_⟩
    intro f hf
    rw [h2] at hf
    exact ⟨_, (h4 f hf).2, (h4 f hf).1⟩
  · rw [h1] at hu
    cases hu

/-- What keeps a reader from being dumped: a class that cannot be pickled, or an empty catalog under a forced
dimensionality. -/
theorem dump_error {Key : Type} {P : Platform Key} {encoding : Option Encoding} {B T : Format} {e : Endian}
    {dim : Option Int} {s s' : FileH} {r : Reader} {progress : List ℚ} (hT : Cataloguable T e)
    (h : createReader encoding B T e dim s = (.ok (r, progress), s')) {name : DataPath} {pos : Nat} {err : Err}
    (hd : r.dump P (some name) pos = .error err) :
    (err = .attributeError ∧ ∃ F, P.picklable F = false) ∨ (err = .runtimeError ∧ ((dim = some 3 ∧ r.inlineNumbers = .error .runtimeError) ∨
      (dim = some 2 ∧ r.cdpNumbers = .error .runtimeError))) := by
  obtain ⟨t, starts, g1, _, f3, f2, n3, n2, f0, hdim⟩ := Props.C49_finds T e hT encoding B dim s s' r progress h
  obtain ⟨m, rm, hm, _⟩ := g1.max_num_trace_samples
  have hmax : ∀ r', Same r r' → ∃ y, r'.maxNumTraceSamples = .ok y := by
    intro r' hs
    have := hs.max
    rw [hm] at this
    cases hr : r'.maxNumTraceSamples with
    | ok y => exact ⟨y, rfl⟩
    | error e => rw [hr] at this; cases this
  have hfin : ∀ r', r.getstateLines = .ok r' → err = .attributeError ∧ ∃ F, P.picklable F = false := by
    intro r' hg
    obtain ⟨y, hy⟩ := hmax r' (getstate_same hg)
    unfold Reader.dump at hd
    rw [hg] at hd
    simp only [bind, Except.bind, hy] at hd
    split at hd
    · cases hd
    · rename_i hpick
      cases hd
      refine ⟨rfl, ?_⟩
      rw [Bool.and_eq_true, not_and_or, Bool.not_eq_true, Bool.not_eq_true] at hpick
      rcases hpick with h | h
      · exact ⟨_, h⟩
      · exact ⟨_, h⟩
  have hforced : r.getstateLines = .error err → err = .runtimeError ∧
      ((dim = some 3 ∧ r.inlineNumbers = .error .runtimeError) ∨
        (dim = some 2 ∧ r.cdpNumbers = .error .runtimeError)) := by
    intro hg
    unfold Reader.getstateLines at hg
    split at hg
    · cases hg
    · rename_i c mn hk
      have h2 : r.dimensionality = .ok 2 := by unfold Reader.dimensionality; rw [hk]
      by_cases hnd : (ensembles T e s.data starts).Nodup
      · obtain ⟨q, r', hq, _⟩ := (f2 h2 hnd).cdps
        rw [hq] at hg; cases hg
      · have hc := (n2 h2 hnd).cdps
        rw [hc] at hg
        cases hg
        refine ⟨rfl, Or.inr ⟨?_, hc⟩⟩
        rw [h2] at hdim
        cases dim with
        | none =>
          exfalso
          simp only [hnd, if_false] at hdim
          split at hdim <;> simp at hdim
        | some n =>
          simp only at hdim
          split at hdim
          · split at hdim <;> simp at hdim
          · cases hdim; rfl
    · rename_i c mi mj hk
      have h3 : r.dimensionality = .ok 3 := by unfold Reader.dimensionality; rw [hk]
      by_cases hnd : (linePairs T e s.data starts).Nodup
      · exfalso
        obtain ⟨q, r', hq, _⟩ := (f3 h3 hnd).inlines
        obtain ⟨q', r'', hq', _⟩ := (f3 h3 hnd).xlines
        have hs := (inline_same _ _ _ hq).xline
        rw [hq'] at hs
        rw [hq] at hg
        simp only [bind, Except.bind] at hg
        cases hx : r'.xlineNumbers with
        | error e => rw [hx] at hs; cases hs
        | ok y => rw [hx] at hg; cases hg
      · have hc := (n3 h3 hnd).inlines
        rw [hc] at hg
        cases hg
        refine ⟨rfl, Or.inl ⟨?_, hc⟩⟩
        rw [h3] at hdim
        cases dim with
        | none =>
          exfalso
          simp only [hnd, if_false] at hdim
          split at hdim <;> simp at hdim
        | some n =>
          simp only at hdim
          split at hdim
          · split at hdim <;> simp at hdim
          · cases hdim; rfl
  cases hg : r.getstateLines with
  | ok r' => exact Or.inl (hfin r' hg)
  | error err' =>
    have : err' = err := by
      unfold Reader.dump at hd
      rw [hg] at hd
      simpa [bind, Except.bind] using hd
    subst this
    exact Or.inr (hforced hg)

/-! ## Opening -/

/-- What is fed to the hash function by a call. -/
def OpenCall.fed {Key : Type} (P : Platform Key) (o : OpenCall) (data : Bytes) : Bytes :=
  data ++ lengthAsBytes data.length ++ [P.reprEncoding o.encoding, P.reprClass o.B, P.reprClass o.T, reprEndian o.e].flatten

theorem hashForFile_eq {Key : Type} (P : Platform Key) (o : OpenCall) (s : FileH) :
    P.hashForFile o.encoding o.B o.T o.e s = (.ok (P.sha1 (o.fed P s.data)), { s with pos := 0 }) := by
  unfold Platform.hashForFile
  rw [bind_ok (hashFeed_eq _ s)]
  rfl

theorem createReader_of_makeReader {encoding : Option Encoding} {B T : Format} {e : Endian} {dim : Option Int} {s : FileH}
    (hl : ¬ s.data.length < REEL_HEADER_NUM_BYTES) (hd : dim ∈ [none, some 1, some 2, some 3]) :
    (∀ err s', makeReader encoding B T e dim s = (.error err, s') → createReader encoding B T e dim s = (.error err, s')) ∧
    (∀ r p s', makeReader encoding B T e dim s = (.ok (r, p), s') →
      createReader encoding B T e dim s = (.ok (r, p ++ [1]), s')) := by
  have : createReader encoding B T e dim s = (do
      let (reader, progress) ← makeReader encoding B T e dim
      return (reader, progress ++ [1]) : FileM (Reader × List ℚ)) s := by
    unfold createReader
    rw [bind_ok (show fileLength s = (.ok s.data.length, s) from rfl), if_neg hl, if_neg (not_not.mpr hd)]
  constructor
  · intro err s' h
    rw [this, bind_error h]
  · intro r p s' h
    rw [this, bind_ok h]
    rfl

/-- The cases of `create_reader` with a cache on a data file. -/
inductive RunCases {Key : Type} [DecidableEq Key] (P : Platform Key) (o : OpenCall) (w : World Key) (data : Bytes)
    (c : List String × Key) : Res OpenResult × World Key → Prop where
  | refused (h : withoutCache o w = .error .valueError) : RunCases P o w data c (.error .valueError, w)
  | noRead (f : CacheFile) (h : w.cache c = some f) (hf : o.faults.openRead = true) :
      RunCases P o w data c (.error .osError, w)
  | other (h : w.cache c = some .other) (hf : o.faults.openRead = false) : RunCases P o w data c (.error .typeError, w)
  | loaded (p : Pickle) (r : Reader) (h : w.cache c = some (.reader p)) (hl : p.load w = .ok r)
      (hf : o.faults.openRead = false) :
      RunCases P o w data c (.ok ⟨r, some p.file_name, [1]⟩, w)
  | failed (w' : World Key) (hw : w' = w ∨ w' = w.setCache c none) (err : Err) (h : withoutCache o w = .error err) :
      RunCases P o w data c (.error err, w')
  | built (w' : World Key) (hw : w' = w ∨ w' = w.setCache c none) (r : Reader) (progress : List ℚ) (s' : FileH)
      (h : createReader o.encoding o.B o.T o.e o.dimensionality { data := data, pos := 0 } = (.ok (r, progress), s'))
      (x : Res OpenResult × World Key)
      (hx : x = match saveReaderToCache P o.faults r (some o.path) s'.pos c w' with
        | (.error err, w) => (.error err, w)
        | (.ok r, w) => (.ok ⟨r, some o.path, progress⟩, w)) :
      RunCases P o w data c x

theorem run_cases {Key : Type} [DecidableEq Key] (P : Platform Key) (o : OpenCall) (w : World Key) (data : Bytes)
    (hdata : w.files o.path = some data) (d : List String) (hd : locateCacheFile (some o.path) o.dir = some d) :
    RunCases P o w data (d, P.sha1 (o.fed P data)) (o.run P w) := by
  have hdis : o.dir ≠ .disabled := by intro h; rw [h] at hd; cases hd
  have hwc : withoutCache o w =
      (createReader o.encoding o.B o.T o.e o.dimensionality { data := data, pos := 0 }).1.map Prod.fst := by
    unfold withoutCache; rw [hdata]
  unfold OpenCall.run
  rw [hdata]
  simp only
  unfold createReaderCached
  by_cases hl : data.length < REEL_HEADER_NUM_BYTES
  · rw [if_pos hl]
    refine .refused ?_
    rw [hwc, Props.C50_refused _ _ _ _ _ _ (Or.inl hl)]
    rfl
  rw [if_neg hl]
  by_cases hdim : o.dimensionality ∈ [none, some 1, some 2, some 3]
  swap
  · rw [if_pos hdim]
    refine .refused ?_
    rw [hwc, Props.C50_refused _ _ _ _ _ _ (Or.inr hdim)]
    rfl
  rw [if_neg (not_not.mpr hdim), if_neg hdis, hashForFile_eq]
  simp only [hd]
  obtain ⟨m1, m2⟩ := createReader_of_makeReader (encoding := o.encoding) (B := o.B) (T := o.T) (e := o.e)
    (s := { data := data, pos := 0 }) hl hdim
  have hrest : ∀ w' : World Key, (w' = w ∨ w' = w.setCache (d, P.sha1 (o.fed P data)) none) →
      RunCases P o w data (d, P.sha1 (o.fed P data))
        (match makeReader o.encoding o.B o.T o.e o.dimensionality { data := data, pos := 0 } with
          | (.error err, _) => (.error err, w')
          | (.ok (r, progress), s) =>
            match saveReaderToCache P o.faults r (some o.path) s.pos (d, P.sha1 (o.fed P data)) w' with
            | (.error err, w) => (.error err, w)
            | (.ok r, w) => (.ok ⟨r, some o.path, progress ++ [1]⟩, w)) := by
    intro w' hw
    cases hm : makeReader o.encoding o.B o.T o.e o.dimensionality { data := data, pos := 0 } with
    | mk y s' =>
      cases y with
      | error err =>
        refine .failed w' hw err ?_
        rw [hwc, m1 _ _ hm]
        rfl
      | ok y => exact .built w' hw y.1 _ s' (m2 _ _ _ hm) _ rfl
  unfold loadReaderFromCache
  cases hc : w.cache (d, P.sha1 (o.fed P data)) with
  | none => exact hrest w (Or.inl rfl)
  | some f =>
    simp only
    cases hf : o.faults.openRead with
    | true => exact .noRead f hc hf
    | false =>
      have hstale : ∀ b : Bool, (if b = true then w else w.setCache (d, P.sha1 (o.fed P data)) none) = w ∨
          (if b = true then w else w.setCache (d, P.sha1 (o.fed P data)) none) =
            w.setCache (d, P.sha1 (o.fed P data)) none := by
        intro b; cases b <;> simp
      cases f with
      | unloadable => exact hrest _ (hstale _)
      | other => exact .other hc hf
      | reader p =>
        simp only
        cases hp : p.load w with
        | error err => exact hrest _ (hstale _)
        | ok r => exact .loaded p r hc hp hf

/-- The events leave every cache file stemming from some earlier call. -/
structure Stems {Key : Type} [DecidableEq Key] (P : Platform Key) (o : OpenCall) (w : World Key) (c : List String × Key)
    (p : Pickle) : Prop where
  stems : ∃ data r, w.files o.path = some data ∧ locateCacheFile (some o.path) o.dir = some c.1 ∧
    c.2 = P.sha1 (o.fed P data) ∧ p.file_name = o.path ∧ withoutCache o w = .ok r ∧ Same r p.reader

theorem save_cases {Key : Type} [DecidableEq Key] {P : Platform Key} {x : Faults} {r : Reader} {name : DataPath} {pos : Nat}
    {c : List String × Key} {w : World Key} :
    (x.makedirs = true ∧ saveReaderToCache P x r (some name) pos c w = (.error .osError, w)) ∨
    (∃ err, r.dump P (some name) pos = .error err ∧ err ≠ .attributeError ∧ err ≠ .typeError ∧
      saveReaderToCache P x r (some name) pos c w = (.error err, w.setCache c (some .unloadable))) ∨
    (∃ r' f, Same r r' ∧ saveReaderToCache P x r (some name) pos c w = (.ok r', f) ∧
      (f = w ∨ f = w.setCache c (some .unloadable) ∨
        ∃ p, f = w.setCache c (some (.reader p)) ∧ p.file_name = name ∧ Same r p.reader)) := by
  unfold saveReaderToCache
  cases hm : x.makedirs with
  | true => left; exact ⟨rfl, rfl⟩
  | false =>
    right
    cases hw : x.openWrite with
    | true => right; exact ⟨r, w, Same.refl r, rfl, Or.inl rfl⟩
    | false =>
      simp only [Bool.false_eq_true, if_false]
      cases hd : r.dump P (some name) pos with
      | error err =>
        simp only
        by_cases he : err = .attributeError ∨ err = .typeError ∨ err = .osError
        · rw [if_pos he]
          right
          exact ⟨r, _, Same.refl r, rfl, Or.inr (Or.inl rfl)⟩
        · rw [if_neg he]
          push Not at he
          left
          exact ⟨err, rfl, he.1, he.2.1, rfl⟩
      | ok y =>
        obtain ⟨p, r'⟩ := y
        obtain ⟨h1, h2, h3⟩ := dump_same hd
        right
        simp only
        cases hx : x.write with
        | true => exact ⟨r', _, h3, rfl, Or.inr (Or.inl rfl)⟩
        | false => exact ⟨r', _, h3, rfl, Or.inr (Or.inr ⟨p, rfl, h2, by rw [h1]; exact h3⟩)⟩

theorem setCache_reader {Key : Type} [DecidableEq Key] {w : World Key} {c c' : List String × Key} {f : Option CacheFile}
    {p : Pickle} (h : (w.setCache c f).cache c' = some (.reader p)) :
    w.cache c' = some (.reader p) ∨ (c' = c ∧ f = some (.reader p)) := by
  unfold World.setCache at h
  simp only at h
  split at h
  · rename_i hc; exact Or.inr ⟨hc, h⟩
  · exact Or.inl h

theorem run_disabled {Key : Type} [DecidableEq Key] (P : Platform Key) (o : OpenCall) (w : World Key)
    (h : o.dir = .disabled) :
    (o.run P w).1.map OpenResult.reader = withoutCache o w ∧ (∀ x, (o.run P w).1 = .ok x → x.file = some o.path) ∧
      (o.run P w).2 = w := by
  unfold OpenCall.run withoutCache
  cases hdata : w.files o.path with
  | none => exact ⟨rfl, fun x hx => (by cases hx), rfl⟩
  | some data =>
    simp only
    unfold createReaderCached
    by_cases hl : data.length < REEL_HEADER_NUM_BYTES
    · rw [if_pos hl, Props.C50_refused _ _ _ _ _ _ (Or.inl hl)]
      exact ⟨rfl, fun x hx => (by cases hx), rfl⟩
    rw [if_neg hl]
    by_cases hdim : o.dimensionality ∈ [none, some 1, some 2, some 3]
    swap
    · rw [if_pos hdim, Props.C50_refused _ _ _ _ _ _ (Or.inr hdim)]
      exact ⟨rfl, fun x hx => (by cases hx), rfl⟩
    rw [if_neg (not_not.mpr hdim), if_pos h]
    obtain ⟨m1, m2⟩ := createReader_of_makeReader (encoding := o.encoding) (B := o.B) (T := o.T) (e := o.e)
      (s := { data := data, pos := 0 }) hl hdim
    cases hm : makeReader o.encoding o.B o.T o.e o.dimensionality { data := data, pos := 0 } with
    | mk y s' =>
      cases y with
      | error err =>
        rw [m1 _ _ hm]
        exact ⟨rfl, fun x hx => (by cases hx), rfl⟩
      | ok y =>
        rw [m2 _ _ _ hm]
        exact ⟨rfl, fun x hx => (by cases hx; rfl), rfl⟩

/-- Opening a file changes no data file; it leaves no cache file that is not a reader's unless there was one; and every
reader's pickle was there before or has just been made. -/
theorem run_effect {Key : Type} [DecidableEq Key] (P : Platform Key) (o : OpenCall) (w : World Key) :
    (o.run P w).2.files = w.files ∧ (∀ c, (o.run P w).2.cache c = some .other → w.cache c = some .other) ∧
    ∀ c p, (o.run P w).2.cache c = some (.reader p) → w.cache c = some (.reader p) ∨ Stems P o w c p := by
  cases hdata : w.files o.path with
  | none =>
    have : o.run P w = (.error .fileNotFoundError, w) := by unfold OpenCall.run; rw [hdata]
    rw [this]
    exact ⟨rfl, fun _ h => h, fun _ _ h => Or.inl h⟩
  | some data =>
    cases hd : locateCacheFile (some o.path) o.dir with
    | none =>
      have : o.dir = .disabled := by
        cases hdir : o.dir <;> rw [hdir] at hd <;> first | rfl | cases hd
      rw [(run_disabled P o w this).2.2]
      exact ⟨rfl, fun _ h => h, fun _ _ h => Or.inl h⟩
    | some d =>
      have hset : ∀ {w' : World Key} {c c' : List String × Key} {f : Option CacheFile}, f ≠ some .other →
          (w'.setCache c f).cache c' = some .other → w'.cache c' = some .other := by
        intro w' c c' f hne h
        unfold World.setCache at h
        simp only at h
        split at h
        · exact absurd h hne
        · exact h
      have hc := run_cases P o w data hdata d hd
      generalize hx : o.run P w = x at hc
      cases hc with
      | refused h => exact ⟨rfl, fun _ h => h, fun _ _ h => Or.inl h⟩
      | noRead f h hf => exact ⟨rfl, fun _ h => h, fun _ _ h => Or.inl h⟩
      | other h hf => exact ⟨rfl, fun _ h => h, fun _ _ h => Or.inl h⟩
      | loaded p r h hl hf => exact ⟨rfl, fun _ h => h, fun _ _ h => Or.inl h⟩
      | failed w' hw err h =>
        rcases hw with rfl | rfl
        · exact ⟨rfl, fun _ h => h, fun _ _ h => Or.inl h⟩
        · refine ⟨rfl, fun c h => hset (by simp) h, fun c p h => ?_⟩
          rcases setCache_reader h with h | ⟨_, h⟩
          · exact Or.inl h
          · cases h
      | built w' hw r progress s' h x hx' =>
        have hstem : ∀ p : Pickle, p.file_name = o.path → Same r p.reader → Stems P o w (d, P.sha1 (o.fed P data)) p := by
          intro p h1 h2
          refine ⟨data, r, hdata, hd, rfl, h1, ?_, h2⟩
          unfold withoutCache
          rw [hdata]
          simp only
          rw [h]
          rfl
        have hw0 : w'.files = w.files ∧ (∀ c, w'.cache c = some .other → w.cache c = some .other) ∧
            ∀ c p, w'.cache c = some (.reader p) → w.cache c = some (.reader p) := by
          rcases hw with rfl | rfl
          · exact ⟨rfl, fun _ h => h, fun _ _ h => h⟩
          · refine ⟨rfl, fun c h => hset (by simp) h, fun c p h => ?_⟩
            rcases setCache_reader h with h | ⟨_, h⟩
            · exact h
            · cases h
        have hmain : ∀ f : Option CacheFile, (f = some .unloadable ∨ ∃ p, f = some (.reader p) ∧ p.file_name = o.path ∧
            Same r p.reader) → ∀ q : World Key, q = w'.setCache (d, P.sha1 (o.fed P data)) f →
            q.files = w.files ∧ (∀ c, q.cache c = some .other → w.cache c = some .other) ∧
            ∀ c p, q.cache c = some (.reader p) → w.cache c = some (.reader p) ∨ Stems P o w c p := by
          intro f hf q hq
          subst hq
          refine ⟨hw0.1, fun c h => hw0.2.1 c (hset ?_ h), fun c p h => ?_⟩
          · rcases hf with rfl | ⟨p, rfl, _⟩ <;> simp
          · rcases setCache_reader h with h | ⟨h1, h2⟩
            · exact Or.inl (hw0.2.2 c p h)
            · rcases hf with rfl | ⟨p', rfl, h3, h4⟩
              · cases h2
              · cases h2
                right
                rw [h1]
                exact hstem p h3 h4
        rcases save_cases (P := P) (x := o.faults) (r := r) (name := o.path) (pos := s'.pos)
          (c := (d, P.sha1 (o.fed P data))) (w := w') with ⟨_, hs⟩ | ⟨err, _, _, _, hs⟩ | ⟨r', f, _, hs, hf⟩
        · rw [hs] at hx'; subst hx'
          exact ⟨hw0.1, hw0.2.1, fun c p h => Or.inl (hw0.2.2 c p h)⟩
        · rw [hs] at hx'; subst hx'
          exact hmain _ (Or.inl rfl) _ rfl
        · rw [hs] at hx'; subst hx'
          rcases hf with rfl | rfl | ⟨p, rfl, h1, h2⟩
          · exact ⟨hw0.1, hw0.2.1, fun c p h => Or.inl (hw0.2.2 c p h)⟩
          · exact hmain _ (Or.inl rfl) _ rfl
          · exact hmain _ (Or.inr ⟨p, rfl, h1, h2⟩) _ rfl

/-- In every history the cache files are readers' pickles made by earlier calls, or cannot be loaded. -/
theorem after_cache {Key : Type} [DecidableEq Key] (P : Platform Key) (files : DataPath → Option Bytes)
    (es : List (Event Key)) :
    (∀ c, (World.after P files es).cache c ≠ some .other) ∧
    ∀ c p, (World.after P files es).cache c = some (.reader p) →
      ∃ es₁ o, Earlier es es₁ o ∧ Stems P o (World.after P files es₁) c p := by
  induction es using List.reverseRecOn with
  | nil => exact ⟨fun c h => (by cases h), fun c p h => (by cases h)⟩
  | append_singleton es ev ih =>
    have hstep : World.after P files (es ++ [ev]) = Event.step P (World.after P files es) ev := by
      unfold World.after; rw [List.foldl_append]; rfl
    rw [hstep]
    have hmore : ∀ {es₁ o}, Earlier es es₁ o → Earlier (es ++ [ev]) es₁ o := by
      intro es₁ o h
      cases h with
      | intro _ _ es₂ => rw [List.append_assoc]; exact .intro es₁ o _
    have hkeep : ∀ w' : World Key, (∀ c, w'.cache c = some .other → (World.after P files es).cache c = some .other) →
        (∀ c p, w'.cache c = some (.reader p) → (World.after P files es).cache c = some (.reader p)) →
        (∀ c, w'.cache c ≠ some .other) ∧ ∀ c p, w'.cache c = some (.reader p) →
          ∃ es₁ o, Earlier (es ++ [ev]) es₁ o ∧ Stems P o (World.after P files es₁) c p := by
      intro w' h1 h2
      refine ⟨fun c h => ih.1 c (h1 c h), fun c p h => ?_⟩
      obtain ⟨es₁, o, h3, h4⟩ := ih.2 c p (h2 c p h)
      exact ⟨es₁, o, hmore h3, h4⟩
    have hset : ∀ {w' : World Key} {c c' : List String × Key} {f : Option CacheFile}, f ≠ some .other →
        (w'.setCache c f).cache c' = some .other → w'.cache c' = some .other := by
      intro w' c c' f hne h
      unfold World.setCache at h
      simp only at h
      split at h
      · exact absurd h hne
      · exact h
    cases ev with
    | store p data => exact hkeep _ (fun _ h => h) (fun _ _ h => h)
    | remove p => exact hkeep _ (fun _ h => h) (fun _ _ h => h)
    | rename p q =>
      have : (Event.step P (World.after P files es) (.rename p q)).cache = (World.after P files es).cache := by
        simp only [Event.step]
        split <;> rfl
      exact hkeep _ (fun c h => by rw [← this]; exact h) (fun c p h => by rw [← this]; exact h)
    | dropCache c =>
      refine hkeep _ (fun c' h => hset (by simp) h) (fun c' p h => ?_)
      rcases setCache_reader h with h | ⟨_, h⟩
      · exact h
      · cases h
    | damageCache c =>
      refine hkeep _ (fun c' h => hset (by split <;> simp) h) (fun c' p h => ?_)
      rcases setCache_reader h with h | ⟨_, h⟩
      · exact h
      · split at h <;> cases h
    | openFile o =>
      obtain ⟨_, h2, h3⟩ := run_effect P o (World.after P files es)
      refine ⟨fun c h => ih.1 c (h2 c h), fun c p h => ?_⟩
      rcases h3 c p h with h | h
      · obtain ⟨es₁, o', h4, h5⟩ := ih.2 c p h
        exact ⟨es₁, o', hmore h4, h5⟩
      · exact ⟨es, o, .intro es o [], h⟩

/-! ## What the key determines -/

/-- The bytes fed to the hash function determine the contents of the file and the arguments of a call. -/
theorem fed_inj {Key : Type} (P : Platform Key) {o o' : OpenCall} (ho : Plain P o) (ho' : Plain P o') {data data' : Bytes}
    (h : o.fed P data = o'.fed P data') :
    data = data' ∧ o.encoding = o'.encoding ∧ P.reprClass o.B = P.reprClass o'.B ∧ P.reprClass o.T = P.reprClass o'.T ∧
      o.e = o'.e := by
  obtain ⟨b, hb, hb'⟩ := ho.binary
  obtain ⟨b', hc, hc'⟩ := ho'.binary
  obtain ⟨t, ht, ht'⟩ := ho.trace
  obtain ⟨t', hu, hu'⟩ := ho'.trace
  unfold OpenCall.fed at h
  simp only [List.flatten_cons, List.flatten_nil, List.append_nil] at h
  have he : o.e = o'.e := by
    have := congrArg (fun l => l.reverse.take 2) h
    revert this
    cases o.e <;> cases o'.e <;> simp [reprEndian, asciiBytes]
  rw [he] at h
  have h1 : data ++ lengthAsBytes data.length ++ P.reprEncoding o.encoding ++ P.reprClass o.B ++ P.reprClass o.T =
      data' ++ lengthAsBytes data'.length ++ P.reprEncoding o'.encoding ++ P.reprClass o'.B ++ P.reprClass o'.T := by
    simp only [← List.append_assoc] at h
    exact List.append_cancel_right h
  rw [ht, hu] at h1
  obtain ⟨h2, rfl⟩ := last_class h1 ht' hu'
  rw [hb, hc] at h2
  obtain ⟨h3, rfl⟩ := last_class h2 hb' hc'
  have henc : o.encoding = o'.encoding := by
    have h4 := congrArg (fun l => l.reverse.take 2) h3
    have e1 := ho.encoding
    have e2 := ho'.encoding
    revert h4 e1 e2
    cases o.encoding with
    | none =>
      cases o'.encoding with
      | none => simp
      | some x => cases x <;> simp [Platform.reprEncoding, asciiBytes]
    | some x =>
      cases o'.encoding with
      | none => cases x <;> simp [Platform.reprEncoding, asciiBytes]
      | some y => cases x <;> cases y <;> simp [Platform.reprEncoding, asciiBytes]
  rw [henc] at h3
  exact ⟨feed_inj (List.append_cancel_right h3), henc, by rw [hb, hc], by rw [ht, hu], he⟩

/-! ## Opening twice -/

/-- If there is no cache file yet and nothing fails, one is made. -/
theorem run_stores {Key : Type} [DecidableEq Key] (P : Platform Key) (o : OpenCall) (w : World Key) {data : Bytes}
    (hdata : w.files o.path = some data) {d : List String} (hd : locateCacheFile (some o.path) o.dir = some d)
    (hc : w.cache (d, P.sha1 (o.fed P data)) = none) (hf : o.faults = {}) {r r' : Reader} {progress : List ℚ} {s' : FileH}
    {p : Pickle}
    (h : createReader o.encoding o.B o.T o.e o.dimensionality { data := data, pos := 0 } = (.ok (r, progress), s'))
    (hp : r.dump P (some o.path) s'.pos = .ok (p, r')) :
    o.run P w = (.ok ⟨r', some o.path, progress⟩, w.setCache (d, P.sha1 (o.fed P data)) (some (.reader p))) := by
  have hwc : withoutCache o w = .ok r := by unfold withoutCache; rw [hdata]; simp only; rw [h]; rfl
  have hr := run_cases P o w data hdata d hd
  generalize o.run P w = x at hr ⊢
  cases hr with
  | refused h => rw [hwc] at h; cases h
  | noRead f h hf => rw [hc] at h; cases h
  | other h hf => rw [hc] at h; cases h
  | failed w' hw err h => rw [hwc] at h; cases h
  | loaded p r h hl hf => rw [hc] at h; cases h
  | built w' hw r2 progress2 s2 h2 x hx =>
    rw [h] at h2
    cases h2
    have hw' : w'.setCache (d, P.sha1 (o.fed P data)) (some (.reader p)) =
        w.setCache (d, P.sha1 (o.fed P data)) (some (.reader p)) := by
      rcases hw with rfl | rfl
      · rfl
      · unfold World.setCache
        congr 1
        funext c
        simp only
        split <;> rfl
    rw [hx]
    unfold saveReaderToCache
    rw [hf, hp]
    simp only [Bool.false_eq_true, if_false]
    rw [hw']

/-- A cache file that can be loaded is used. -/
theorem run_loads {Key : Type} [DecidableEq Key] (P : Platform Key) (o : OpenCall) (w : World Key) {data : Bytes}
    (hdata : w.files o.path = some data) {d : List String} (hd : locateCacheFile (some o.path) o.dir = some d)
    {p : Pickle} {r : Reader} (hc : w.cache (d, P.sha1 (o.fed P data)) = some (.reader p)) (hl : p.load w = .ok r)
    (hf : o.faults.openRead = false) (hlen : 3600 ≤ data.length)
    (hdim : o.dimensionality ∈ [none, some 1, some 2, some 3]) :
    o.run P w = (.ok ⟨r, some p.file_name, [1]⟩, w) := by
  have hdis : o.dir ≠ .disabled := by intro h; rw [h] at hd; cases hd
  have h36 : REEL_HEADER_NUM_BYTES = 3600 := rfl
  unfold OpenCall.run
  rw [hdata]
  simp only
  unfold createReaderCached
  rw [if_neg (show ¬ data.length < REEL_HEADER_NUM_BYTES by omega), if_neg (not_not.mpr hdim), if_neg hdis, hashForFile_eq]
  simp only [hd]
  unfold loadReaderFromCache
  rw [hc]
  simp only [hf, hl, Bool.false_eq_true, if_false]

end Segpy
