import Verif.Lemmas.Progress
import Verif.Lemmas.Placed

namespace Segpy

open FileM

/-- One iteration of the loop of `write_segy`, without the call of the callback. -/
def traceStep (d : Dataset) (p : HeaderPacker) (e : Endian) (i : Int) : FileM Unit := do
  let header ← FileM.lift (d.trace_header i)
  writeTraceHeader header p
  let samples ← FileM.lift (d.trace_samples i)
  let format ← FileM.lift d.dataSampleFormat
  writeTraceSamples samples format e
  if d.num_traces = 0 then FileM.raise .zeroDivisionError else return ()

theorem bind_congr_right {α β : Type} {m : FileM α} {f g : α → FileM β} {s : FileH} (h : ∀ a t, f a t = g a t) :
    (m >>= f) s = (m >>= g) s := by
  rw [bind_apply, bind_apply]
  rcases m s with ⟨_ | a, t⟩
  · rfl
  · exact h a t

theorem traceStep_then {α : Type} (d : Dataset) (p : HeaderPacker) (e : Endian) (i : Int) (f : FileM α) (s : FileH) :
    (traceStep d p e i >>= fun _ => f) s = (do
      let header ← FileM.lift (d.trace_header i)
      writeTraceHeader header p
      let samples ← FileM.lift (d.trace_samples i)
      let format ← FileM.lift d.dataSampleFormat
      writeTraceSamples samples format e
      if d.num_traces = 0 then FileM.raise .zeroDivisionError else f : FileM α) s := by
  unfold traceStep
  rw [bind_then]
  refine bind_congr_right fun a t => ?_
  rw [bind_then]
  refine bind_congr_right fun a t => ?_
  rw [bind_then]
  refine bind_congr_right fun a t => ?_
  rw [bind_then]
  refine bind_congr_right fun a t => ?_
  rw [bind_then]
  refine bind_congr_right fun a t => ?_
  split <;> rfl

theorem writeTraces_cons (d : Dataset) (p : HeaderPacker) (e : Endian) (i : Int) (rest : List Int) (s : FileH) :
    writeTraces d p e (i :: rest) s = (traceStep d p e i >>= fun _ => writeTraces d p e rest >>= fun later =>
      pure (round64 ((i : ℚ) / d.num_traces) :: later)) s := by
  rw [traceStep_then]; rfl

theorem writeTracesWith_cons (cb : Callback) (d : Dataset) (p : HeaderPacker) (e : Endian) (i : Int) (rest : List Int)
    (reports : List ℚ) (s : FileH) :
    writeTracesWith cb d p e (i :: rest) reports s = (traceStep d p e i >>= fun _ =>
      cb.call (reports ++ [round64 ((i : ℚ) / d.num_traces)]) >>= fun _ =>
        writeTracesWith cb d p e rest (reports ++ [round64 ((i : ℚ) / d.num_traces)])) s := by
  rw [traceStep_then]; rfl

/-- The callback does not touch the file. -/
def Callback.Still (cb : Callback) : Prop := ∀ reports pos, cb.moves reports pos = pos

theorem Callback.call_still {cb : Callback} (hc : cb.Still) {reports : List ℚ} (h : cb.raises reports = none) (s : FileH) :
    cb.call reports s = (.ok (), s) := by
  rw [Callback.call_ok h, hc]

theorem Callback.call_still_error {cb : Callback} (hc : cb.Still) {reports : List ℚ} {err : Err}
    (h : cb.raises reports = some err) (s : FileH) : cb.call reports s = (.error err, s) := by
  rw [Callback.call_error h, hc]

theorem writeTracesWith_silent {cb : Callback} (hc : cb.Still) (hr : ∀ l, cb.raises l = none) (d : Dataset)
    (p : HeaderPacker) (e : Endian) (is : List Int) : ∀ (reports : List ℚ) (s : FileH),
    writeTracesWith cb d p e is reports s = (writeTraces d p e is >>= fun later => pure (reports ++ later)) s := by
  induction is with
  | nil =>
    intro reports s
    show (Except.ok reports, s) = (Except.ok (reports ++ []), s)
    simp
  | cons i rest ih =>
    intro reports s
    rw [writeTracesWith_cons, bind_apply, bind_apply, writeTraces_cons, bind_apply]
    rcases traceStep d p e i s with ⟨_ | a, t⟩
    · rfl
    · dsimp only
      rw [bind_ok (Callback.call_still hc (hr _) t), ih, bind_apply, bind_apply]
      rcases writeTraces d p e rest t with ⟨_ | a, t⟩
      · rfl
      · show (Except.ok _, t) = (Except.ok _, t)
        simp

theorem writeTracesWith_stops {cb : Callback} (hc : cb.Still) (d : Dataset) (p : HeaderPacker) (e : Endian)
    (is : List Int) : ∀ (reports new : List ℚ) (s s' : FileH), writeTraces d p e is s = (.ok new, s') →
      ((∀ j < is.length, cb.raises (reports ++ new.take (j + 1)) = none) →
        writeTracesWith cb d p e is reports s = (.ok (reports ++ new), s')) ∧
      ∀ (k : Nat) (err : Err), k < is.length → (∀ j < k, cb.raises (reports ++ new.take (j + 1)) = none) →
        cb.raises (reports ++ new.take (k + 1)) = some err →
        ∃ new' s'', writeTraces d p e (is.take (k + 1)) s = (.ok new', s'') ∧
          writeTracesWith cb d p e is reports s = (.error err, s'') := by
  induction is with
  | nil =>
    intro reports new s s' h
    cases h
    refine ⟨fun _ => ?_, fun k err hk => by simp at hk⟩
    show (Except.ok reports, s) = (Except.ok (reports ++ []), s)
    simp
  | cons i rest ih =>
    intro reports new s s' h
    rw [writeTraces_cons] at h
    obtain ⟨_, t, h1, h2⟩ := bind_eq_ok h
    obtain ⟨later, t2, h3, h4⟩ := bind_eq_ok h2
    cases h4
    obtain ⟨a1, a2⟩ := ih (reports ++ [round64 ((i : ℚ) / d.num_traces)]) later t _ h3
    refine ⟨fun hn => ?_, fun k err hk hn hr => ?_⟩
    · have h0 : cb.raises (reports ++ [round64 ((i : ℚ) / d.num_traces)]) = none := by simpa using hn 0 (by simp)
      rw [writeTracesWith_cons, bind_ok h1, bind_ok (Callback.call_still hc h0 t), a1 ?_]
      · simp
      · intro j hj
        simpa using hn (j + 1) (by simpa using hj)
    · cases k with
      | zero =>
        have h0 : cb.raises (reports ++ [round64 ((i : ℚ) / d.num_traces)]) = some err := by simpa using hr
        refine ⟨[round64 ((i : ℚ) / d.num_traces)], t, ?_, ?_⟩
        · rw [List.take_succ_cons, writeTraces_cons, bind_ok h1]
          rfl
        · rw [writeTracesWith_cons, bind_ok h1, bind_error (Callback.call_still_error hc h0 t)]
      | succ k =>
        have h0 : cb.raises (reports ++ [round64 ((i : ℚ) / d.num_traces)]) = none := by simpa using hn 0 (by simp)
        obtain ⟨new', s'', b1, b2⟩ := a2 k err (by simpa using hk) (fun j hj => by simpa using hn (j + 1) (by omega))
          (by simpa using hr)
        refine ⟨round64 ((i : ℚ) / d.num_traces) :: new', s'', ?_, ?_⟩
        · rw [List.take_succ_cons, writeTraces_cons, bind_ok h1, bind_ok b1]
          rfl
        · rw [writeTracesWith_cons, bind_ok h1, bind_ok (Callback.call_still hc h0 t), b2]

end Segpy

namespace Segpy

open FileM

/-! ## Callbacks that do not touch the file -/

/-- Whenever the first computation succeeds, the second does the same. -/
def Sub {α : Type} (m' m : FileM α) : Prop := ∀ (s : FileH) (a : α) (s1 : FileH), m' s = (.ok a, s1) → m s = (.ok a, s1)

theorem Sub.refl {α : Type} (m : FileM α) : Sub m m := fun _ _ _ h => h

theorem Sub.bind {α β : Type} {m' m : FileM α} {f' f : α → FileM β} (h : Sub m' m) (hf : ∀ a, Sub (f' a) (f a)) :
    Sub (m' >>= f') (m >>= f) := by
  intro s b s1 hb
  obtain ⟨a, t, h1, h2⟩ := bind_eq_ok hb
  rw [bind_ok (h s a t h1)]
  exact hf a t b s1 h2

theorem Sub.call {α : Type} {cb : Callback} (hc : cb.Still) {l : List ℚ} {m' m : FileM α} (h : Sub m' m) :
    Sub (cb.call l >>= fun _ => m') m := by
  intro s b s1 hb
  obtain ⟨_, t, h1, h2⟩ := bind_eq_ok hb
  cases hr : cb.raises l with
  | some err => rw [Callback.call_error hr] at h1; cases h1
  | none =>
    rw [Callback.call_still hc hr] at h1
    cases h1
    exact h _ b s1 h2

theorem Sub.ite {α : Type} {c : Prop} [Decidable c] {m' m n' n : FileM α} (h1 : Sub m' m) (h2 : Sub n' n) :
    Sub (if c then m' else n') (if c then m else n) := by split <;> assumption

theorem catalogLoop_sub {cb : Callback} (hc : cb.Still) (p : HeaderPacker) (bps length : Nat) (fuel : Nat) :
    ∀ (n : Nat) (pos : Int) (scan : Scan),
      Sub (catalogLoopWith cb p bps length fuel n pos scan) (catalogLoop p bps length fuel n pos scan) := by
  induction fuel with
  | zero => intro n pos scan; exact Sub.refl _
  | succ fuel ih =>
    intro n pos scan
    unfold catalogLoopWith catalogLoop
    refine Sub.bind (Sub.refl _) fun x => Sub.call hc (Sub.bind (Sub.refl _) fun _ => Sub.bind (Sub.refl _) fun data => ?_)
    exact Sub.ite (Sub.refl _) (Sub.bind (Sub.refl _) fun y => ih _ _ _)

theorem create_sub {cb : Callback} (hc : cb.Still) (scan : Scan) : Sub (scan.createWith cb) (FileM.lift scan.create) := by
  have h : ∀ s, FileM.lift scan.create s = (do
      let trace_offset ← FileM.lift (createCatalogInt scan.offsets)
      let trace_length ← FileM.lift (createCatalogInt scan.lengths)
      let cdp ← FileM.lift (createCatalogInt scan.cdps)
      let line ← FileM.lift (createCatalogPair scan.lines)
      return { trace_offset, trace_length, cdp, line,
               progress := scan.progress ++ [3 / 4] ++ [3 / 4 + 3 / 4 / 4] ++ [3 / 4 + 3 / 4 / 2] ++
                 [3 / 4 + 3 / 4 * 3 / 4] ++ [1] } : FileM Catalogs) s := by
    intro s
    unfold Scan.create
    rw [show scan.progress ++ [3 / 4, 3 / 4 + 3 / 4 / 4, 3 / 4 + 3 / 4 / 2, 3 / 4 + 3 / 4 * 3 / 4, 1] =
      scan.progress ++ [3 / 4] ++ [3 / 4 + 3 / 4 / 4] ++ [3 / 4 + 3 / 4 / 2] ++ [3 / 4 + 3 / 4 * 3 / 4] ++ [1] by simp]
    cases createCatalogInt scan.offsets with
    | error err => rfl
    | ok c1 =>
    cases createCatalogInt scan.lengths with
    | error err => rfl
    | ok c2 =>
    cases createCatalogInt scan.cdps with
    | error err => rfl
    | ok c3 =>
    cases createCatalogPair scan.lines <;> rfl
  intro s a s1 ha
  rw [h]
  refine (?_ : Sub (scan.createWith cb) _) s a s1 ha
  unfold Scan.createWith
  exact Sub.call hc (Sub.bind (Sub.refl _) fun _ => Sub.call hc (Sub.bind (Sub.refl _) fun _ =>
    Sub.call hc (Sub.bind (Sub.refl _) fun _ => Sub.call hc (Sub.bind (Sub.refl _) fun _ => Sub.call hc (Sub.refl _)))))

theorem catalogTraces_sub {cb : Callback} (hc : cb.Still) (bps : Nat) (T : Format) (e : Endian) :
    Sub (catalogTracesWith cb bps T e) (catalogTraces bps T e) := by
  have key : ∀ fuel : Nat, Sub (do
      let S ← FileM.lift (T.subFormat "CatalogSubFormat" catalogFieldNames)
      let trace_header_packer ← FileM.lift (makeHeaderPacker S e)
      let length ← fileLength
      let pos_begin ← FileM.tell
      let scan ← catalogLoopWith cb trace_header_packer bps length fuel 0 pos_begin {}
      scan.createWith cb : FileM Catalogs) (catalogTracesFuel fuel bps T e) := by
    intro fuel
    unfold catalogTracesFuel
    exact Sub.bind (Sub.refl _) fun _ => Sub.bind (Sub.refl _) fun _ => Sub.bind (Sub.refl _) fun _ =>
      Sub.bind (Sub.refl _) fun _ => Sub.bind (catalogLoop_sub hc _ _ _ _ _ _ _) fun _ => create_sub hc _
  exact fun s => key (s.data.length + 1) s

theorem makeReader_sub {cb : Callback} (hc : cb.Still) (encoding : Option Encoding) (B T : Format) (e : Endian)
    (dim : Option Int) : Sub (makeReaderWith cb encoding B T e dim) (makeReader encoding B T e dim) := by
  unfold makeReaderWith makeReader
  exact Sub.bind (Sub.refl _) fun _ => Sub.bind (Sub.refl _) fun _ => Sub.bind (Sub.refl _) fun _ =>
    Sub.bind (Sub.refl _) fun _ => Sub.bind (Sub.refl _) fun _ => Sub.bind (catalogTraces_sub hc _ _ _) fun _ =>
    Sub.refl _

/-- Without an exception before the last report. -/
theorem makeReader_still {cb : Callback} (hc : cb.Still) {encoding : Option Encoding} {B T : Format} {e : Endian}
    {dim : Option Int} {s s1 : FileH} {r : Reader} {progress : List ℚ}
    (h : makeReader encoding B T e dim s = (.ok (r, progress), s1)) (hr : cb.firstRaise [] progress = none) :
    makeReaderWith cb encoding B T e dim s = (.ok (r, progress), s1) := by
  have hf := (makeReader_follows cb encoding B T e dim s).2
  rw [h] at hf
  obtain ⟨new, hn, hw⟩ := hf
  rw [List.nil_append] at hn
  dsimp only at hn
  subst hn
  rw [hr] at hw
  have h2 : makeReaderWith cb encoding B T e dim s =
      (.ok (r, progress), (makeReaderWith cb encoding B T e dim s).2) := Prod.ext hw rfl
  have h3 := makeReader_sub hc encoding B T e dim s _ _ h2
  rw [h] at h3
  exact h2.trans h3.symm

end Segpy
