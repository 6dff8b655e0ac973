import Verif.Lemmas.Update
import Verif.Lemmas.ExampleFile
import Verif.Props.Writer

/-! # Properties of updating a file in place: C85 -/

namespace Segpy.Props

open Segpy.Spec Segpy.FileM

/-- A file that differs only in its traces can be opened if it has some. -/
theorem changed_opens {T : Format} {e : Endian} (hT : Cataloguable T e) {encoding : Option Encoding} {B : Format}
    (hB : Regular B e 400) {dim : Option Int} {s s' : FileH} {r : Reader} {progress : List ℚ}
    (h : createReader encoding B T e dim s = (.ok (r, progress), s')) (hpos : s.pos = 0) {t : SegYType} {starts : List Nat}
    (ho : Opened T e dim s.data (3600 + 3200 * r.extended_textual_headers.length) t starts r) {d : Bytes}
    (hgrow : s.data.length ≤ d.length)
    (hreel : d.take (3600 + 3200 * r.extended_textual_headers.length) =
      s.data.take (3600 + 3200 * r.extended_textual_headers.length))
    {starts2 : List Nat}
    (hne : starts2 ≠ []) (htr : Traces T e d t.size (3600 + 3200 * r.extended_textual_headers.length) starts2) :
    ∃ r2 progress2 s2, createReader encoding B T e dim { s with data := d } = (.ok (r2, progress2), s2) ∧
      r2.encoding = r.encoding ∧ r2.textual_reel_header = r.textual_reel_header ∧
      r2.binary_reel_header = r.binary_reel_header ∧ r2.extended_textual_headers = r.extended_textual_headers ∧
      r2.revision = r.revision ∧ Opened T e dim d (3600 + 3200 * r.extended_textual_headers.length) t starts2 r2 := by
  obtain ⟨enc, textual, binary, extended, bps, catalogs, k1, k2, k3, k4, h1, h2, h3, h4, h5, h6, h7, -, hdim, hsize⟩ :=
    createReader_ok h
  obtain ⟨rfl, rfl, rfl, rfl, -⟩ := makeReaderOf_fields h7
  obtain ⟨henc, -⟩ := createReader_reel h
  have hk1 : k1 = 0 := by
    rw [← hpos]
    rcases h1 with ⟨_, h1⟩ | ⟨_, o, _, h1⟩
    · exact h1
    · rw [guess_eq] at h1
      exact (congrArg (fun x => x.2.pos) h1).symm
  subst hk1
  have hk4 := extendedOf_pos h4
  simp only at hk4
  have hk2 := (local_text _ _ _ _ h2).1
  have hk2' := (readTextual_ok h2).1
  have hk2e : k2 = 3200 := by
    have := congrArg FileH.pos hk2'
    simpa using this
  obtain ⟨-, -, hbin⟩ := local_binary (n := 400) hB.afterStart hB.length _ _ _ h3
  have hk3 : k3 ≤ k2 + 400 := by
    have hb := h3
    unfold readBinaryReelHeader at hb
    rw [hB.length] at hb
    simp only at hb
    obtain ⟨p, s2, g1, hb⟩ := bind_eq_ok hb
    rw [lift_apply] at g1
    obtain ⟨-, rfl⟩ := Prod.mk.inj g1
    obtain ⟨buf, s3, g2, hb⟩ := bind_eq_ok hb
    rw [show ((400 : Nat) : Int) = (400 : Nat) from rfl, read_apply] at g2
    obtain ⟨-, rfl⟩ := Prod.mk.inj g2
    rw [lift_apply] at hb
    obtain ⟨-, g⟩ := Prod.mk.inj hb
    have := congrArg FileH.pos g
    simp only at this
    rw [← this, List.length_take]
    omega
  obtain ⟨v, t', hv, ht', -⟩ := headerBytesPerSample_ok h5
  have htt : t' = t := by
    have := ho.format
    unfold Reader.dataSampleFormat at this
    rw [hv] at this
    simp only [bind, Except.bind] at this
    rw [ht'] at this
    exact Except.ok.inj this
  subst htt
  have hused : usedEncoding encoding d = r.encoding := by
    rw [henc]
    unfold usedEncoding
    cases encoding with
    | some _ => rfl
    | none => simp only; rw [take_of_take hreel (by omega)]
  have hread : HeadersRead encoding B e { s with data := d } r.textual_reel_header r.binary_reel_header
      r.extended_textual_headers t' := by
    refine ⟨by simp only; omega, ⟨{ s with data := d, pos := k2 }, { s with data := d, pos := k3 },
      { s with data := d, pos := k4 }, ?_, hbin d hgrow (slice_of_take hreel (by simp only; omega)), ?_⟩, v, hv, ht'⟩
    · simp only [hused, hpos]
      exact (local_text _ _ _ _ h2).2.2 d hgrow (slice_of_take hreel (by simp only; omega))
    · simp only [hused]
      exact extended_local h4 d hgrow (slice_of_take hreel (by simp only; omega))
  obtain ⟨w, hw, hrev⟩ : ∃ w, r.binary_reel_header.get "format_revision_num" = .ok w ∧
      canonicalizeRevision w = .ok r.revision := by
    obtain ⟨w, hw, hr⟩ := C55_canonical_partial T e encoding B dim s s' r progress h
    refine ⟨w, hw, ?_⟩
    rcases hr with ⟨rfl, hr⟩ | ⟨rfl | rfl | rfl, hr⟩ <;> rw [hr] <;> rfl
  obtain ⟨r2, progress2, s2, m1, m2, m3, m4, m5, m6, m7⟩ := (C51_opens_partial T e hT encoding B dim hdim _ _ _ _ _
    hread).1 starts2 r.revision w hne htr hw hrev
  obtain ⟨t2, starts3, ho2⟩ := createReader_opened hT m1
  have htt : t2 = t' := by
    have := ho2.format
    rw [m2.data_sample_format] at this
    exact (Except.ok.inj this).symm
  subst htt
  have hss : starts3 = starts2 := C61_unique _ _ _ _ _ _ _ ho2.traces (by rw [m5]; exact htr)
  subst hss
  rw [m5] at ho2
  exact ⟨r2, progress2, s2, m1, m6.trans hused, m3, m4, m5, m7, ho2⟩

/-- The bytes of a header. -/
private def packed (p : HeaderPacker) (h : Header) : Bytes := (p.pack h).toOption.getD []

/-- The bytes of samples. -/
private def stored (t : SegYType) (e : Endian) (vs : List PyNum) : Bytes := (sampleBytes vs t e).toOption.getD []

private theorem or_some {α β : Type} (f : α → β) (o : Option α) (a : α) (b : β) :
    ((o.or (some a)).map f).getD b = (o.map f).getD (f a) := by
  cases o <;> rfl

/-- What changes do to a file. -/
private theorem holds_updates {T : Format} {e : Endian} (hR : Regular T e 240) {p : HeaderPacker}
    (hp : makeHeaderPacker T e = .ok p) {t : SegYType} {starts : List Nat} {n : Nat → Nat} {first stop : Nat} {d0 : Bytes}
    (ht : Tiled starts n t.size first stop) (hfit : ∀ q ∈ starts, q + 240 ≤ d0.length) {num : Int → Res Int}
    (hnum : ∀ i < starts.length, num i = .ok (n i : Int)) (us : List Update) :
    ∀ (s : FileH) (H S : Nat → Bytes), s.limit = none → (∀ u ∈ us, Allowed T t num starts.length u) →
      Holds starts n t.size first stop d0 s.data H S →
      ∃ d pos, applyUpdates starts p t e us s = (.ok (), { s with data := d, pos := pos }) ∧
        Holds starts n t.size first stop d0 d (fun i => ((lastHeader us i).map (packed p)).getD (H i))
          (fun i => ((lastSamples us i).map (stored t e)).getD (S i)) := by
  induction us with
  | nil => intro s H S hl _ hh; exact ⟨s.data, s.pos, rfl, hh⟩
  | cons u us ih =>
    intro s H S hl ha hh
    have hu := ha u List.mem_cons_self
    have hus := fun v hv => ha v (List.mem_cons_of_mem _ hv)
    unfold applyUpdates
    cases u with
    | header i h =>
      obtain ⟨hi, hf, hv, -⟩ := hu
      obtain ⟨bs, hb, hbl, -⟩ := pack_regular hR hp hf hv
      have hrun : applyUpdate starts p t e (.header i h) s =
          (.ok (), { s with data := overwrite s.data starts[i] bs, pos := starts[i] + bs.length }) := by
        unfold applyUpdate
        simp only
        rw [bind_ok (seek_apply _ _)]
        unfold writeTraceHeader
        rw [hb, bind_ok (lift_apply _ _), write_apply (by exact hl)]
        simp [List.getD_eq_getElem?_getD, List.getElem?_eq_getElem hi]
      obtain ⟨d, pos, g1, g2⟩ := ih { s with data := overwrite s.data starts[i] bs, pos := starts[i] + bs.length }
        (Function.update H i bs) S hl hus (hh.setHeader ht hfit i hi bs hbl)
      refine ⟨d, pos, by rw [bind_ok hrun, g1], ?_⟩
      have hpk : packed p h = bs := by unfold packed; rw [hb]; rfl
      have e1 : (fun j => ((lastHeader (.header i h :: us) j).map (packed p)).getD (H j)) =
          fun j => ((lastHeader us j).map (packed p)).getD (Function.update H i bs j) := by
        funext j
        have hlast : lastHeader (.header i h :: us) j = (lastHeader us j).or (if i = j then some h else none) := rfl
        rw [hlast]
        by_cases hij : i = j
        · subst hij
          rw [if_pos rfl, or_some, Function.update_self, hpk]
        · rw [if_neg hij, Option.or_none, Function.update_of_ne (fun hc => hij hc.symm)]
      rw [e1]
      exact g2
    | samples i vs =>
      obtain ⟨hi, hn, hf⟩ := hu
      obtain ⟨bs, hb, -, hbl⟩ := sampleBytes_fits (e := e) hf
      have hnv : n i = vs.length := by
        rw [hnum i hi] at hn
        have := Except.ok.inj hn
        omega
      have hrun : applyUpdate starts p t e (.samples i vs) s =
          (.ok (), { s with data := overwrite s.data (starts[i] + 240) bs, pos := starts[i] + 240 + bs.length }) := by
        unfold applyUpdate
        simp only
        rw [bind_ok (seek_apply _ _)]
        unfold writeTraceSamples
        rw [hb, bind_ok (lift_apply _ _), write_apply (by exact hl)]
        simp [List.getD_eq_getElem?_getD, List.getElem?_eq_getElem hi, TRACE_HEADER_NUM_BYTES]
      obtain ⟨d, pos, g1, g2⟩ := ih
        { s with data := overwrite s.data (starts[i] + 240) bs, pos := starts[i] + 240 + bs.length }
        H (Function.update S i bs) hl hus (hh.setAllSamples ht hfit i hi bs (by rw [hbl, hnv]))
      refine ⟨d, pos, by rw [bind_ok hrun, g1], ?_⟩
      have hpk : stored t e vs = bs := by unfold stored; rw [hb]; rfl
      have e1 : (fun j => ((lastSamples (.samples i vs :: us) j).map (stored t e)).getD (S j)) =
          fun j => ((lastSamples us j).map (stored t e)).getD (Function.update S i bs j) := by
        funext j
        have hlast : lastSamples (.samples i vs :: us) j = (lastSamples us j).or (if i = j then some vs else none) := rfl
        rw [hlast]
        by_cases hij : i = j
        · subst hij
          rw [if_pos rfl, or_some, Function.update_self, hpk]
        · rw [if_neg hij, Option.or_none, Function.update_of_ne (fun hc => hij hc.symm)]
      rw [e1]
      exact g2

private theorem lastHeader_mem {us : List Update} {i : Nat} {h : Header} (hl : lastHeader us i = some h) :
    .header i h ∈ us := by
  induction us with
  | nil => cases hl
  | cons u us ih =>
    cases u with
    | samples j vs => exact List.mem_cons_of_mem _ (ih hl)
    | header j h' =>
      unfold lastHeader at hl
      cases ho : lastHeader us i with
      | some h'' =>
        rw [ho] at hl
        cases hl
        exact List.mem_cons_of_mem _ (ih ho)
      | none =>
        rw [ho, Option.none_or] at hl
        split at hl
        · rename_i hij
          cases hl
          subst hij
          exact List.mem_cons_self
        · cases hl

private theorem lastSamples_mem {us : List Update} {i : Nat} {vs : List PyNum} (hl : lastSamples us i = some vs) :
    .samples i vs ∈ us := by
  induction us with
  | nil => cases hl
  | cons u us ih =>
    cases u with
    | header j h => exact List.mem_cons_of_mem _ (ih hl)
    | samples j h' =>
      unfold lastSamples at hl
      cases ho : lastSamples us i with
      | some h'' =>
        rw [ho] at hl
        cases hl
        exact List.mem_cons_of_mem _ (ih ho)
      | none =>
        rw [ho, Option.none_or] at hl
        split at hl
        · rename_i hij
          cases hl
          subst hij
          exact List.mem_cons_self
        · cases hl

private theorem finds_again {T : Format} {e : Endian} (hT : Cataloguable T e) {p : HeaderPacker}
    (hp : makeHeaderPacker T e = .ok p) {dim : Option Int} {d0 d : Bytes} {pos : Nat} {t : SegYType} {starts : List Nat}
    {n : Nat → Nat} (hn : (fun i => samplesAt T e d0 (starts.getD i 0)) = n) {r2 : Reader}
    (ho2 : Opened T e dim d pos t starts r2) (hnumf : ∀ q ∈ starts, samplesAt T e d q = samplesAt T e d0 q) :
    Finds starts n t e p r2 := by
  have := ho2.finds hT hp
  refine ⟨this.num, this.offset, ?_, this.format, this.endian, this.packer⟩
  intro i hi
  have hgd : starts.getD i 0 = starts[i] := by
    simp [List.getD_eq_getElem?_getD, List.getElem?_eq_getElem hi]
  rw [this.length i hi, ← hn]
  simp only [hgd]
  rw [hnumf _ (List.getElem_mem hi)]

/-- Traces of a file are changed in place any number of times, without changing their lengths.  None of the changes
raises; the file can be opened again; the reel headers, the number of traces and the number of samples of each are what
they were; and both the reader that was open all the time and a new one find, for each trace, the header and the samples
that it was given last, and where it was given none what it had at first. -/
theorem C85_updates (T : Format) (e : Endian) (hT : Cataloguable T e) (hR : Regular T e 240) (encoding : Option Encoding)
    (B : Format) (hB : Regular B e 400) (dim : Option Int) (s s' : FileH) (r : Reader) (progress : List ℚ)
    (h : createReader encoding B T e dim s = (.ok (r, progress), s')) (hpos : s.pos = 0) (hlimit : s.limit = none)
    (p : HeaderPacker) (hp : makeHeaderPacker T e = .ok p) :
    ∃ t starts, Describes T e s.data t starts r ∧
      Traces T e s.data t.size (3600 + 3200 * r.extended_textual_headers.length) starts ∧
      ∀ us : List Update, (∀ u ∈ us, Allowed T t r.numTraceSamples starts.length u) →
        ∃ s1, applyUpdates starts p t e us s = (.ok (), s1) ∧
          ∃ r2 progress2 s2, createReader encoding B T e dim { s1 with pos := 0 } = (.ok (r2, progress2), s2) ∧
            r2.encoding = r.encoding ∧ r2.textual_reel_header = r.textual_reel_header ∧
            r2.binary_reel_header = r.binary_reel_header ∧ r2.extended_textual_headers = r.extended_textual_headers ∧
            r2.revision = r.revision ∧ r2.dataSampleFormat = r.dataSampleFormat ∧ r2.numTraces = r.numTraces ∧
            ∀ (i : Nat), i < starts.length → r2.numTraceSamples i = r.numTraceSamples i ∧
              ∀ q ∈ [r, r2], ∀ (native : Endian) (k : Nat),
                (match lastHeader us i with
                  | none => ∀ packer, (q.traceHeader i packer { s1 with pos := k }).1 = (r.traceHeader i packer s).1
                  | some new => ∃ hd, (q.traceHeader i none { s1 with pos := k }).1 = .ok hd ∧ hd.format = T ∧
                      ∀ f ∈ T.fields, hd.get f.name = new.get f.name) ∧
                (match lastSamples us i with
                  | none => ∀ start stop, (q.traceSamples native i start stop { s1 with pos := k }).1 =
                      (r.traceSamples native i start stop s).1
                  | some new => ∃ ws, (q.traceSamples native i none none { s1 with pos := k }).1 = .ok ws ∧
                      List.Forall₂ (StoredAs t) new ws) := by
  obtain ⟨t, starts, ⟨hd, -⟩, ho⟩ := createReader_all hT h
  refine ⟨t, starts, hd, ho.traces, ?_⟩
  intro us ha
  obtain ⟨stop, hc, hend⟩ := id ho.traces
  have htile := chain_tiled hc
  obtain ⟨-, -, hfit, -⟩ := C43_tiles T e s.data t.size _ starts ho.traces
  have hfind := ho.finds hT hp
  generalize hn : (fun i => samplesAt T e s.data (starts.getD i 0)) = n at htile hfind
  have h0 : Holds starts n t.size (3600 + 3200 * r.extended_textual_headers.length) stop s.data s.data
      (fun i => headerBytes s.data (starts.getD i 0))
      (fun i => (s.data.drop (starts.getD i 0 + 240)).take (n i * t.size)) := by
    refine ⟨le_refl _, hend, rfl, ?_, ?_⟩ <;> intro i hi <;>
      simp [List.getD_eq_getElem?_getD, List.getElem?_eq_getElem hi]
  obtain ⟨d, pos, hrun, hh⟩ := holds_updates hR hp htile hfit (num := r.numTraceSamples)
    (fun i hi => hfind.length i hi) us s _ _ hlimit ha h0
  have hgd : ∀ i (hi : i < starts.length), starts.getD i 0 = starts[i] := by
    intro i hi
    simp [List.getD_eq_getElem?_getD, List.getElem?_eq_getElem hi]
  -- the fields of the trace headers
  have hfields : ∀ i (hi : i < starts.length) new, lastHeader us i = some new →
      ∃ bs, p.pack new = .ok bs ∧ headerBytes d starts[i] = bs ∧ new.format = T ∧ new.Valid ∧
        new.get "num_samples" = .ok (n i : Int) ∧
        ∀ f ∈ T.fields, f.value_type.Admits (fieldAt T e d starts[i] f.name) ∧
          new.get f.name = .ok (fieldAt T e d starts[i] f.name) := by
    intro i hi new hl
    obtain ⟨-, hf, hv, hnum⟩ := ha _ (lastHeader_mem hl)
    obtain ⟨bs, hb, -, hfl⟩ := pack_regular hR hp hf hv
    have hbytes := hh.header i hi
    simp only [hl, Option.map_some, Option.getD_some] at hbytes
    have hpk : packed p new = bs := by unfold packed; rw [hb]; rfl
    rw [hpk] at hbytes
    refine ⟨bs, hb, hbytes, hf, hv, by rw [hnum, hfind.length i hi], ?_⟩
    intro f hfm
    unfold fieldAt
    rw [Format.mem_fields.mp hfm]
    simp only [hbytes]
    exact hfl f hfm
  have hsame : ∀ i (hi : i < starts.length), lastHeader us i = none →
      headerBytes d starts[i] = headerBytes s.data starts[i] := by
    intro i hi hl
    have hbytes := hh.header i hi
    simp only [hl, Option.map_none, Option.getD_none, hgd i hi] at hbytes
    exact hbytes
  have hnumf : ∀ q ∈ starts, samplesAt T e d q = samplesAt T e s.data q := by
    intro q hq
    obtain ⟨i, hi, rfl⟩ := List.mem_iff_getElem.mp hq
    cases hl : lastHeader us i with
    | none =>
      unfold samplesAt fieldAt
      rw [hsame i hi hl]
    | some new =>
      obtain ⟨bs, -, -, -, -, hnum, hfl⟩ := hfields i hi new hl
      obtain ⟨f, hf⟩ := Format.attr_of_mem (hT.present "num_samples" (by simp))
      have hname := Format.attr_name hf
      have := (hfl f (Format.mem_fields.mpr (by rw [hname]; exact hf))).2
      rw [hname, hnum] at this
      have hni : n i = samplesAt T e s.data starts[i] := by rw [← hn]; simp only [hgd i hi]
      rw [← hni]
      unfold samplesAt
      rw [← Except.ok.inj this, Int.toNat_natCast]
  have hidx : ∀ q ∈ starts, Indexable T e d q := by
    intro q hq
    have hold := (start_facts hT ho hq).2.1
    obtain ⟨i, hi, rfl⟩ := List.mem_iff_getElem.mp hq
    cases hl : lastHeader us i with
    | none =>
      unfold Indexable fieldAt at hold ⊢
      rw [hsame i hi hl]
      exact hold
    | some new =>
      obtain ⟨bs, -, -, -, -, -, hfl⟩ := hfields i hi new hl
      intro name hname f hf
      have hfn := Format.attr_name hf
      have := (hfl f (Format.mem_fields.mpr (by rw [hfn]; exact hf))).1
      rw [hfn] at this
      exact this
  have htr := Holds.traces hc hh.grows hh.bound hidx hnumf
  obtain ⟨r2, progress2, s2, m1, m2, m3, m4, m5, m6, ho2⟩ := changed_opens hT hB h hpos ho hh.grows hh.reel
    ho.some_trace htr
  have hfind2 := finds_again hT hp hn ho2 hnumf
  refine ⟨_, hrun, r2, progress2, s2, ?_, m2, m3, m4, m5, m6, ?_, ?_, ?_⟩
  · rw [← m1]
    simp only [hpos]
  · rw [hfind.format, hfind2.format]
  · rw [hfind.num, hfind2.num]
  intro i hi
  refine ⟨by rw [hfind.length i hi, hfind2.length i hi], ?_⟩
  intro q hq native k
  have hfq : Finds starts n t e p q := by
    rcases List.mem_cons.mp hq with rfl | hq
    · exact hfind
    · rw [List.mem_singleton] at hq
      subst hq
      exact hfind2
  constructor
  · cases hl : lastHeader us i with
    | none =>
      intro packer
      exact hfind.header_same hfq i hi packer s _ (hsame i hi hl)
    | some new =>
      obtain ⟨bs, hb, hbytes, hf, hv, -, -⟩ := hfields i hi new hl
      obtain ⟨h', g1, g2, -⟩ := C28_round_trip_partial T e p new bs hp hR.afterStart hf hv hR.orderSafe hb
      refine ⟨h', ?_, ?_, g2⟩
      · rw [hfq.header_at i hi, readTraceHeader_at]
        simp only [Option.getD_none, hbytes, g1]
      · rcases C29_unpack T e p bs hp hR.afterStart hR.orderSafe with ⟨h'', k1, k2, -⟩ | ⟨k1, -⟩
        · rw [g1] at k1
          cases k1
          exact k2
        · rw [g1] at k1; cases k1
  · have hbytes := hh.samples i hi
    cases hl : lastSamples us i with
    | none =>
      intro start stop'
      simp only [hl, Option.map_none, Option.getD_none, hgd i hi] at hbytes
      exact hfind.samples_same hfq native i hi start stop' s _ hbytes
    | some new =>
      obtain ⟨-, hnum, hfits⟩ := ha _ (lastSamples_mem hl)
      obtain ⟨bs, hb, hfl, hbl⟩ := sampleBytes_fits (e := e) hfits
      have hpk : stored t e new = bs := by unfold stored; rw [hb]; rfl
      simp only [hl, Option.map_some, Option.getD_some, hpk] at hbytes
      have hnl : n i = new.length := by
        rw [hfind.length i hi] at hnum
        have := Except.ok.inj hnum
        omega
      rw [hnl, ← hbl] at hbytes
      obtain ⟨ws, w1, w2⟩ := C42_read_back native e t new bs { s with data := d, pos := k } (starts[i] + 240) hb hfl hbytes
      refine ⟨ws, ?_, w2⟩
      rw [traceSamples_eq, hfq.locate i hi, hnl, hfq.endian]
      simp only [Option.getD_none]
      rw [if_neg (by omega), if_neg (by omega)]
      have e1 : ((starts[i] : Int) + 240 + 0 * (t.size : Int)) = ((starts[i] + 240 : Nat) : Int) := by push_cast; ring
      simp only [e1, sub_zero]
      rw [w1]

/-- A header with the given ensemble number and number of samples. -/
private def newHeader (ensemble n : Int) : Header :=
  { format := fmtTraceHeaderRev1
    data := fmtTraceHeaderRev1.fields.map fun f => (f.name, if f.name = "num_samples" then n else
      if f.name = "ensemble_num" then ensemble else f.default) }

private def exampleUpdates : List Update :=
  [.samples 0 [.int 9, .int (-3)], .header 2 (newHeader 77 1), .samples 0 [.int 11, .int (-12)]]

-- the hypotheses hold of the sample file and these changes
example : ∃ r progress s', createReader (some .ebcdic) fmtBinaryReelHeader fmtTraceHeaderRev1 .big none sampleFile =
      (.ok (r, progress), s') ∧ sampleFile.pos = 0 ∧ sampleFile.limit = none ∧
    Regular fmtTraceHeaderRev1 .big 240 ∧ Regular fmtBinaryReelHeader .big 400 ∧
    (∃ p, makeHeaderPacker fmtTraceHeaderRev1 .big = .ok p) ∧
    ∀ u ∈ exampleUpdates, Allowed fmtTraceHeaderRev1 (.int .int16) r.numTraceSamples 3 u := by
  obtain ⟨r, progress, s', h⟩ := sampleFile_ok none (by simp)
  have hr : Regular fmtTraceHeaderRev1 .big 240 := shipped_regular (by decide +kernel) _
  refine ⟨r, progress, s', h, rfl, rfl, hr, shipped_regular (by decide +kernel) _, hr.packs, ?_⟩
  have key : ((createReader (some .ebcdic) fmtBinaryReelHeader fmtTraceHeaderRev1 .big none sampleFile).1.map fun x =>
      (x.1.numTraceSamples 0, x.1.numTraceSamples 2)) = .ok (.ok 2, .ok 1) := by decide +kernel
  rw [h] at key
  obtain ⟨k0, k2⟩ := Prod.mk.inj (Except.ok.inj key)
  intro u hu
  simp only [exampleUpdates, List.mem_cons, List.not_mem_nil, or_false] at hu
  have small : ∀ n : Int, -32768 ≤ n → n ≤ 32767 → Fits (.int .int16) (.int n) := fun n h1 h2 => ⟨n, rfl, h1, h2⟩
  rcases hu with rfl | rfl | rfl
  · refine ⟨by omega, k0, ?_⟩
    intro v hv
    simp only [List.mem_cons, List.not_mem_nil, or_false] at hv
    rcases hv with rfl | rfl <;> exact small _ (by omega) (by omega)
  · exact ⟨by omega, rfl, valid_of (by decide +kernel), (by decide +kernel : (newHeader 77 1).get "num_samples" = .ok 1).trans
      k2.symm⟩
  · refine ⟨by omega, k0, ?_⟩
    intro v hv
    simp only [List.mem_cons, List.not_mem_nil, or_false] at hv
    rcases hv with rfl | rfl <;> exact small _ (by omega) (by omega)

/-- The sample file after these changes, opened again. -/
private def afterwards (us : List Update) : Res (Res Int × Res (List PyNum) × Res (List PyNum) × Res Int) := do
  let p ← makeHeaderPacker fmtTraceHeaderRev1 .big
  let s := (applyUpdates [3600, 3844, 4084] p (.int .int16) .big us sampleFile).2
  let x ← (createReader (some .ebcdic) fmtBinaryReelHeader fmtTraceHeaderRev1 .big none { s with pos := 0 }).1
  return (x.1.numTraces, (x.1.traceSamples .little 0 none none s).1, (x.1.traceSamples .little 2 none none s).1,
    (x.1.traceHeader 2 none s).1.bind fun h => h.get "ensemble_num")

-- changes; and a header with another number of samples, after which trace 0 has lost a sample
example : (afterwards exampleUpdates).map (fun x => x.1) = .ok (.ok 3) ∧
    (afterwards exampleUpdates).map (fun x => x.2.1) = .ok (.ok [.int 11, .int (-12)]) ∧
    (afterwards exampleUpdates).map (fun x => x.2.2) = .ok (.ok [.int 256], .ok 77) ∧
    (afterwards []).map (fun x => x.2.1) = .ok (.ok [.int 7, .int (-1)]) ∧
    (afterwards []).map (fun x => x.2.2) = .ok (.ok [.int 256], .ok 2) ∧
    (afterwards [.header 0 (newHeader 1 1)]).map (fun x => x.2.1) = .ok (.ok [.int 7]) := by
  decide +kernel

/-- A change that raises without the device failing leaves the file as it was. -/
theorem C85_refused (starts : List Nat) (p : HeaderPacker) (t : SegYType) (e : Endian) (u : Update) (s s1 : FileH)
    (err : Err) (hlimit : s.limit = none) (h : applyUpdate starts p t e u s = (.error err, s1)) : s1.data = s.data := by
  cases u with
  | header i hd =>
    unfold applyUpdate at h
    simp only at h
    rw [bind_ok (seek_apply _ _)] at h
    unfold writeTraceHeader at h
    cases hb : p.pack hd with
    | error err' =>
      rw [hb, bind_error (lift_apply _ _)] at h
      rw [← (Prod.mk.inj h).2]
    | ok bs =>
      rw [hb, bind_ok (lift_apply _ _), write_apply (by exact hlimit)] at h
      cases (Prod.mk.inj h).1
  | samples i vs =>
    unfold applyUpdate at h
    simp only at h
    rw [bind_ok (seek_apply _ _)] at h
    unfold writeTraceSamples at h
    cases hb : sampleBytes vs t e with
    | error err' =>
      rw [hb, bind_error (lift_apply _ _)] at h
      rw [← (Prod.mk.inj h).2]
    | ok bs =>
      rw [hb, bind_ok (lift_apply _ _), write_apply (by exact hlimit)] at h
      cases (Prod.mk.inj h).1

/-- The device fails after `k` bytes of the samples that trace `i` is given.  The file can be opened again; reel headers,
number and lengths of traces, all trace headers and the samples of all other traces are what they were; the first samples
of trace `i`, as far as they lie in the first `k` bytes, are what they would be had the device not failed, and the last
ones, as far as they lie after these, are what they were. -/
theorem C85_crash (T : Format) (e : Endian) (hT : Cataloguable T e) (encoding : Option Encoding)
    (B : Format) (hB : Regular B e 400) (dim : Option Int) (s s' : FileH) (r : Reader) (progress : List ℚ)
    (h : createReader encoding B T e dim s = (.ok (r, progress), s')) (hpos : s.pos = 0)
    (k : Nat) (hlimit : s.limit = some k) (p : HeaderPacker) (hp : makeHeaderPacker T e = .ok p) :
    ∃ t starts, Describes T e s.data t starts r ∧
      Traces T e s.data t.size (3600 + 3200 * r.extended_textual_headers.length) starts ∧
      ∀ i vs, Allowed T t r.numTraceSamples starts.length (.samples i vs) → k < vs.length * t.size →
        ∃ s1 full, applyUpdate starts p t e (.samples i vs) s = (.error .osError, s1) ∧
          applyUpdate starts p t e (.samples i vs) { s with limit := none } = (.ok (), full) ∧
          ∃ r2 progress2 s2, createReader encoding B T e dim { s with data := s1.data } = (.ok (r2, progress2), s2) ∧
            r2.encoding = r.encoding ∧ r2.textual_reel_header = r.textual_reel_header ∧
            r2.binary_reel_header = r.binary_reel_header ∧ r2.extended_textual_headers = r.extended_textual_headers ∧
            r2.revision = r.revision ∧ r2.dataSampleFormat = r.dataSampleFormat ∧ r2.numTraces = r.numTraces ∧
            ∀ (j : Nat), j < starts.length → r2.numTraceSamples j = r.numTraceSamples j ∧
              ∀ q ∈ [r, r2], ∀ (native : Endian) (k' : Nat),
                (∀ packer, (q.traceHeader j packer { s1 with pos := k' }).1 = (r.traceHeader j packer s).1) ∧
                (j ≠ i → ∀ start stop, (q.traceSamples native j start stop { s1 with pos := k' }).1 =
                  (r.traceSamples native j start stop s).1) ∧
                (j = i → ∀ m : Nat,
                  (m * t.size ≤ k → (q.traceSamples native j none (some m) { s1 with pos := k' }).1 =
                    (r.traceSamples native j none (some m) full).1) ∧
                  (k ≤ m * t.size → (q.traceSamples native j (some m) none { s1 with pos := k' }).1 =
                    (r.traceSamples native j (some m) none s).1)) := by
  obtain ⟨t, starts, ⟨hd, -⟩, ho⟩ := createReader_all hT h
  refine ⟨t, starts, hd, ho.traces, ?_⟩
  rintro i vs ⟨hi, hnum, hfits⟩ hk
  obtain ⟨stop, hc, hend⟩ := id ho.traces
  have htile := chain_tiled hc
  obtain ⟨-, -, hfit, -⟩ := C43_tiles T e s.data t.size _ starts ho.traces
  have hfind := ho.finds hT hp
  generalize hn : (fun i => samplesAt T e s.data (starts.getD i 0)) = n at htile hfind
  have h0 : Holds starts n t.size (3600 + 3200 * r.extended_textual_headers.length) stop s.data s.data
      (fun i => headerBytes s.data (starts.getD i 0))
      (fun i => (s.data.drop (starts.getD i 0 + 240)).take (n i * t.size)) := by
    refine ⟨le_refl _, hend, rfl, ?_, ?_⟩ <;> intro i hi <;>
      simp [List.getD_eq_getElem?_getD, List.getElem?_eq_getElem hi]
  obtain ⟨bs, hb, -, hbl⟩ := sampleBytes_fits (e := e) hfits
  have hnl : n i = vs.length := by
    rw [hfind.length i hi] at hnum
    have := Except.ok.inj hnum
    omega
  have hseek : ∀ s : FileH, applyUpdate starts p t e (.samples i vs) s = write bs { s with pos := starts[i] + 240 } := by
    intro s
    unfold applyUpdate
    simp only
    rw [bind_ok (seek_apply _ _)]
    unfold writeTraceSamples
    rw [hb, bind_ok (lift_apply _ _)]
    simp [List.getD_eq_getElem?_getD, List.getElem?_eq_getElem hi, TRACE_HEADER_NUM_BYTES]
  have hkl : (bs.take k).length = k := by rw [List.length_take, hbl]; omega
  have hh := h0.setSamples htile hfit i hi (bs.take k) (by rw [hkl, hnl]; omega)
  have hgd : ∀ i (hi : i < starts.length), starts.getD i 0 = starts[i] := by
    intro i hi
    simp [List.getD_eq_getElem?_getD, List.getElem?_eq_getElem hi]
  have hsame : ∀ j (hj : j < starts.length),
      headerBytes (overwrite s.data (starts[i] + 240) (bs.take k)) starts[j] = headerBytes s.data starts[j] := by
    intro j hj
    rw [hh.header j hj, hgd j hj]
  have hnumf : ∀ q ∈ starts, samplesAt T e (overwrite s.data (starts[i] + 240) (bs.take k)) q = samplesAt T e s.data q := by
    intro q hq
    obtain ⟨j, hj, rfl⟩ := List.mem_iff_getElem.mp hq
    unfold samplesAt fieldAt
    rw [hsame j hj]
  have hidx : ∀ q ∈ starts, Indexable T e (overwrite s.data (starts[i] + 240) (bs.take k)) q := by
    intro q hq
    have hold := (start_facts hT ho hq).2.1
    obtain ⟨j, hj, rfl⟩ := List.mem_iff_getElem.mp hq
    unfold Indexable fieldAt at hold ⊢
    rw [hsame j hj]
    exact hold
  have htr := Holds.traces hc hh.grows hh.bound hidx hnumf
  obtain ⟨r2, progress2, s2, m1, m2, m3, m4, m5, m6, ho2⟩ := changed_opens hT hB h hpos ho hh.grows hh.reel
    ho.some_trace htr
  have hfind2 := finds_again hT hp hn ho2 hnumf
  refine ⟨_, _, by rw [hseek]; unfold write; simp only [hlimit]; rw [if_neg (by rw [hbl]; omega)], by
    rw [hseek, write_apply rfl], r2, progress2, s2, m1, m2, m3, m4, m5, m6, ?_, ?_, ?_⟩
  · rw [hfind.format, hfind2.format]
  · rw [hfind.num, hfind2.num]
  intro j hj
  refine ⟨by rw [hfind.length j hj, hfind2.length j hj], ?_⟩
  intro q hq native k'
  have hfq : Finds starts n t e p q := by
    rcases List.mem_cons.mp hq with rfl | hq
    · exact hfind
    · rw [List.mem_singleton] at hq
      subst hq
      exact hfind2
  refine ⟨fun packer => hfind.header_same hfq j hj packer s _ (hsame j hj), ?_, ?_⟩
  · intro hij start stop'
    have hbytes := hh.samples j hj
    rw [Function.update_of_ne hij] at hbytes
    simp only [hgd j hj] at hbytes
    exact hfind.samples_same hfq native j hj start stop' s _ hbytes
  · rintro rfl m
    have hle : starts[j] + 240 ≤ s.data.length := hfit _ (List.getElem_mem hj)
    constructor
    · intro hm
      refine hfind.samples_range hfq native j hj none (some m) _ _ ?_
      intro a b ha hb' hab hbn
      have ha0 : a = 0 := by
        have : (0 : Int) = a := ha
        omega
      have hbm : b = m := by
        have : (m : Int) = b := hb'
        omega
      subst ha0 hbm
      simp only [Nat.zero_mul, Nat.add_zero, Nat.sub_zero]
      have e1 := overwrite_drop s.data (bs.take k) (starts[j] + 240)
      have e2 := overwrite_drop s.data bs (starts[j] + 240)
      rw [hkl] at e1
      have f1 := congrArg (List.take (b * t.size)) e1
      have f2 := congrArg (List.take (b * t.size)) e2
      rw [List.take_take, Nat.min_eq_left hm, List.take_take, Nat.min_eq_left hm] at f1
      rw [List.take_take, Nat.min_eq_left (by omega)] at f2
      rw [f1, f2]
    · intro hm
      refine hfind.samples_range hfq native j hj (some m) none _ _ ?_
      intro a b ha _ _ _
      have ham : a = m := by
        have : (m : Int) = a := ha
        omega
      subst ham
      exact overwrite_slice _ _ _ _ _ hle (by rw [hkl]; omega)

-- the device fails after three of the four bytes of two samples: the first is new, and the second is neither
example : ((makeHeaderPacker fmtTraceHeaderRev1 .big).bind fun p =>
    let q := applyUpdate [3600, 3844, 4084] p (.int .int16) .big (.samples 0 [.int 9, .int 9])
      { sampleFile with limit := some 3 }
    (createReader (some .ebcdic) fmtBinaryReelHeader fmtTraceHeaderRev1 .big none
      { sampleFile with data := q.2.data }).1.map fun x =>
        (q.1, (x.1.traceSamples .little 0 none none q.2).1, (x.1.traceSamples .little 2 none none q.2).1)) =
    .ok (.error .osError, .ok [.int 9, .int 255], .ok [.int 256]) := by
  decide +kernel

end Segpy.Props
