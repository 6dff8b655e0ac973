import Verif.Spec.Writer
import Verif.Props.Opening

/-! # Lemmas about writing -/

namespace Segpy

open Spec FileM

/-! ## Appending to a file -/

/-- At the end of a file of `n` bytes the computation appends `bs`, as far as the device takes it. -/
structure Appends {α : Type} (n : Nat) (m : FileM α) (a : α) (bs : Bytes) : Prop where
  free : ∀ s : FileH, s.data.length = n → s.pos = n → s.limit = none →
    m s = (.ok a, { data := s.data ++ bs, pos := n + bs.length, limit := none })
  within : ∀ (s : FileH) (k : Nat), s.data.length = n → s.pos = n → s.limit = some k → bs.length ≤ k →
    m s = (.ok a, { data := s.data ++ bs, pos := n + bs.length, limit := some (k - bs.length) })
  beyond : ∀ (s : FileH) (k : Nat), s.data.length = n → s.pos = n → s.limit = some k → k < bs.length →
    m s = (.error .osError, { data := s.data ++ bs.take k, pos := n + k, limit := some 0 })

namespace Appends

theorem pure {α : Type} (n : Nat) (a : α) : Appends n (pure a : FileM α) a [] := by
  refine ⟨?_, ?_, ?_⟩
  · rintro ⟨d, p, l⟩ h1 h2 h3; simp only at h1 h2 h3; subst h1 h2 h3; simp
  · rintro ⟨d, p, l⟩ k h1 h2 h3 _; simp only at h1 h2 h3; subst h1 h2 h3; simp
  · intro s k _ _ _ h; simp at h

theorem lift {α : Type} (n : Nat) {x : Res α} {a : α} (h : x = .ok a) : Appends n (FileM.lift x) a [] := by
  subst h; exact pure n a

theorem bind {α β : Type} {n : Nat} {m : FileM α} {a : α} {bs : Bytes} {f : α → FileM β} {b : β} {bs' : Bytes}
    (h : Appends n m a bs) (h' : Appends (n + bs.length) (f a) b bs') : Appends n (m >>= f) b (bs ++ bs') := by
  refine ⟨?_, ?_, ?_⟩
  · intro s h1 h2 h3
    rw [bind_ok (h.free s h1 h2 h3), h'.free _ (by simp [h1]) rfl rfl]
    simp [Nat.add_assoc]
  · intro s k h1 h2 h3 h4
    rw [List.length_append] at h4
    rw [bind_ok (h.within s k h1 h2 h3 (by omega)), h'.within _ (k - bs.length) (by simp [h1]) rfl rfl (by omega)]
    simp [Nat.add_assoc, Nat.sub_sub]
  · intro s k h1 h2 h3 h4
    rw [List.length_append] at h4
    by_cases hk : k < bs.length
    · rw [bind_error (h.beyond s k h1 h2 h3 hk), List.take_append_of_le_length (by omega)]
    · rw [bind_ok (h.within s k h1 h2 h3 (by omega)), h'.beyond _ (k - bs.length) (by simp [h1]) rfl rfl (by omega)]
      rw [List.take_append, List.take_of_length_le (by omega : bs.length ≤ k), List.append_assoc,
        show n + bs.length + (k - bs.length) = n + k by omega]

theorem lift_bind {α β : Type} {n : Nat} {x : Res α} {a : α} {f : α → FileM β} {b : β} {bs : Bytes} (hx : x = .ok a)
    (h : Appends n (f a) b bs) : Appends n (FileM.lift x >>= f) b bs := by
  have := (lift n hx).bind (f := f) (b := b) (bs' := bs) (by simpa using h)
  simpa using this

theorem write (n : Nat) (bs : Bytes) : Appends n (FileM.write bs) () bs := by
  refine ⟨?_, ?_, ?_⟩
  · rintro ⟨d, p, l⟩ h1 h2 h3
    simp only at h1 h2 h3
    subst h1 h2 h3
    rw [write_apply rfl]
    simp only [overwrite_end]
  · rintro ⟨d, p, l⟩ k h1 h2 h3 h4
    simp only at h1 h2 h3
    subst h1 h2 h3
    unfold FileM.write
    simp only [if_pos h4, overwrite_end]
  · rintro ⟨d, p, l⟩ k h1 h2 h3 h4
    simp only at h1 h2 h3
    subst h1 h2 h3
    unfold FileM.write
    have : (bs.take k).length = k := by rw [List.length_take]; omega
    simp only [if_neg (not_le.mpr h4), overwrite_end, this]

theorem congr {α : Type} {n : Nat} {m m' : FileM α} {a : α} {bs : Bytes} (h : Appends n m a bs)
    (hm : ∀ s : FileH, s.data.length = n → s.pos = n → m' s = m s) : Appends n m' a bs :=
  ⟨fun s h1 h2 h3 => by rw [hm s h1 h2]; exact h.free s h1 h2 h3,
   fun s k h1 h2 h3 h4 => by rw [hm s h1 h2]; exact h.within s k h1 h2 h3 h4,
   fun s k h1 h2 h3 h4 => by rw [hm s h1 h2]; exact h.beyond s k h1 h2 h3 h4⟩

end Appends

/-! ## The parts of a file -/

/-- The bytes of the textual header. -/
theorem writeTextual_appends {enc : Encoding} (henc : enc ≠ .other) {lines : List PyStr}
    (h : ∀ i < 40, Encodable enc (lines.getD i [])) :
    ∃ bss : List Bytes, (fortyCards lines).mapM (encode enc) = .ok bss ∧ bss.flatten.length = 3200 ∧
      ∀ n, Appends n (writeTextualReelHeader lines enc) () bss.flatten := by
  have hsup := (isSupported_iff enc).mpr henc
  have hm : ∃ bss, ((List.range 40).map fun i => lines.getD i []).mapM (encodeCard enc) = .ok bss := by
    cases hm : ((List.range 40).map fun i => lines.getD i []).mapM (encodeCard enc) with
    | ok bss => exact ⟨bss, rfl⟩
    | error err =>
      obtain ⟨l, hl, he⟩ := mapM_error hm
      obtain ⟨i, hi, rfl⟩ := List.mem_map.mp hl
      exact absurd (h i (List.mem_range.mp hi)) (encodeCard_error henc he).2
  obtain ⟨bss, hm⟩ := hm
  have hc : (fortyCards lines).mapM (encode enc) = .ok bss := by
    unfold fortyCards
    rw [mapM_ok_iff] at hm ⊢
    rw [List.forall₂_map_left_iff] at hm ⊢
    exact hm.imp fun i b hb => encodeCard_ok hb
  have hl : ∀ c ∈ fortyCards lines, c.length = 80 := by
    intro c hc
    unfold fortyCards at hc
    obtain ⟨i, _, rfl⟩ := List.mem_map.mp hc
    exact card_length _
  have hlen : bss.flatten.length = 3200 := by
    rw [(cards_length hc hl).2]
    simp [fortyCards]
  refine ⟨bss, hc, hlen, fun n => ?_⟩
  unfold writeTextualReelHeader
  simp only [hsup, Bool.not_true, Bool.false_eq_true, if_false]
  rw [padTo_eq]
  have := (Appends.lift n hm).bind (f := fun padded_lines : List Bytes =>
      let joined_header := padded_lines.flatten
      if joined_header.length ≠ TEXTUAL_HEADER_NUM_BYTES then FileM.raise .assertionError
      else FileM.write joined_header) (b := ()) (bs' := bss.flatten) (by
    simp only
    rw [if_neg (not_not.mpr (by rw [hlen]; rfl))]
    exact Appends.write _ _)
  simpa using this

/-- The bytes of a header of a regular format. -/
theorem pack_regular {F : Format} {e : Endian} {n : Nat} (hF : Regular F e n) {p : HeaderPacker}
    (hp : makeHeaderPacker F e = .ok p) {h : Header} (hf : h.format = F) (hv : h.Valid) :
    ∃ bs, p.pack h = .ok bs ∧ bs.length = n ∧
      ∀ f ∈ F.fields, f.value_type.Admits (storedInt e f.value_type.segy (F.fieldBytes f bs)) ∧
        h.get f.name = .ok (storedInt e f.value_type.segy (F.fieldBytes f bs)) := by
  have hclass : ∃ G, h.format = F ++ G := ⟨[], by simp [hf]⟩
  obtain ⟨bs, hb⟩ : ∃ bs, p.pack h = .ok bs := by
    rw [Props.C27_pack_iff F e p h hp hF.afterStart hclass]
    refine ⟨?_, ?_⟩
    · intro f hfm v hg
      obtain ⟨w, hw, ha⟩ := hv f (by rw [hf]; exact hfm)
      rw [hg] at hw
      cases hw
      exact hF.storable f hfm _ ha
    · intro f hfm g hgm hoff
      rcases hF.disjoint f hfm g hgm with rfl | hd
      · rfl
      · have h1 : 0 < f.value_type.size := f.value_type.segy.size_pos
        have h2 : 0 < g.value_type.size := g.value_type.segy.size_pos
        unfold Field.Disjoint at hd
        omega
  refine ⟨bs, hb, ?_, ?_⟩
  · have := (Props.C27_layout F e p h bs hp hF.afterStart hclass hb).1
    unfold Format.packedLength at this
    rw [hF.length] at this
    simp only at this
    omega
  · obtain ⟨h', h1, h2, _⟩ := Props.C28_round_trip_partial F e p h bs hp hF.afterStart hf hv hF.orderSafe hb
    rcases Props.C29_unpack F e p bs hp hF.afterStart hF.orderSafe with ⟨h'', g1, _, _, g4⟩ | ⟨g1, _⟩
    · rw [h1] at g1
      cases g1
      intro f hfm
      exact ⟨(g4 f hfm).1, by rw [← h2 f hfm]; exact (g4 f hfm).2⟩
    · rw [h1] at g1; cases g1

theorem writeBinary_appends {h : Header} {e : Endian} {n : Nat} (hF : Regular h.format e n) (hv : h.Valid) :
    ∃ bs, bs.length = n ∧
      (∀ f ∈ h.format.fields, f.value_type.Admits (storedInt e f.value_type.segy (h.format.fieldBytes f bs)) ∧
        h.get f.name = .ok (storedInt e f.value_type.segy (h.format.fieldBytes f bs))) ∧
      ∀ k, Appends k (writeBinaryReelHeader h e) () bs := by
  obtain ⟨p, hp⟩ := hF.packs
  obtain ⟨bs, h1, h2, h3⟩ := pack_regular hF hp rfl hv
  refine ⟨bs, h2, h3, fun k => ?_⟩
  exact Appends.lift_bind hp (Appends.lift_bind h1 (Appends.write _ bs))

theorem writeExtPages_appends {enc : Encoding} {pages : List (List PyStr)} {ess : List (List Bytes)}
    (h : pages.mapM (encodeExtPage enc) = .ok ess) : ∀ n, Appends n (writeExtPages ess) () (pagesBytes ess) := by
  rw [mapM_ok_iff] at h
  induction h with
  | nil => intro n; exact Appends.pure n ()
  | cons h1 _ ih =>
    intro n
    rw [writeExtPages]
    rw [if_neg (by rw [page_bytes_length h1]; decide)]
    exact (Appends.write n _).bind (ih _)

theorem writeExtended_appends {enc : Encoding} (henc : enc ≠ .other) {pages : List (List PyStr)}
    (h : ∀ p ∈ pages, IsPage enc p) :
    ∃ ess, pages.mapM (encodeExtPage enc) = .ok ess ∧
      Appends 3600 (writeExtendedTextualHeaders pages enc) () (pagesBytes ess) := by
  have hm : ∃ ess, pages.mapM (encodeExtPage enc) = .ok ess := by
    cases hm : pages.mapM (encodeExtPage enc) with
    | ok ess => exact ⟨ess, rfl⟩
    | error err =>
      obtain ⟨l, hl, he⟩ := mapM_error hm
      exact absurd (h l hl) (encodeExtPage_error henc he).2
  obtain ⟨ess, hm⟩ := hm
  refine ⟨ess, hm, ?_⟩
  have hsup := (isSupported_iff enc).mpr henc
  have := (Appends.lift 3600 hm).bind (writeExtPages_appends hm _)
  refine Appends.congr (by simpa using this) ?_
  rintro ⟨d, p, l⟩ h1 h2
  simp only at h1 h2
  subst h2
  unfold writeExtendedTextualHeaders
  simp only [hsup, Bool.not_true, Bool.false_eq_true, if_false]
  rw [bind_ok (seek_apply _ _)]
  rfl

/-! ## Traces -/

/-- A trace and the bytes it is written as. -/
structure Written where
  header : Header
  samples : List PyNum
  headerBytes : Bytes
  sampleBytes : Bytes

/-- The bytes of traces. -/
def body (ts : List Written) : Bytes := ts.flatMap fun x => x.headerBytes ++ x.sampleBytes

/-- What is known of a written trace. -/
structure Written.Ok (T : Format) (e : Endian) (t : SegYType) (p : HeaderPacker) (x : Written) : Prop where
  pack : p.pack x.header = .ok x.headerBytes
  header_length : x.headerBytes.length = 240
  fields : ∀ f ∈ T.fields, f.value_type.Admits (storedInt e f.value_type.segy (T.fieldBytes f x.headerBytes)) ∧
        x.header.get f.name = .ok (storedInt e f.value_type.segy (T.fieldBytes f x.headerBytes))
  num : x.header.get "num_samples" = .ok (x.samples.length : Int)
  stored : Segpy.sampleBytes x.samples t e = .ok x.sampleBytes
  floats : t = .float32 → ∀ v ∈ x.samples, ∃ f, v = .float f
  samples_length : x.sampleBytes.length = x.samples.length * t.size

theorem body_cons (x : Written) (ts : List Written) : body (x :: ts) = x.headerBytes ++ x.sampleBytes ++ body ts := rfl

theorem body_append (a b : List Written) : body (a ++ b) = body a ++ body b := by
  unfold body; rw [List.flatMap_append]

theorem traceStart_succ (first : Nat) (t : SegYType) (vss : List (List PyNum)) (i : Nat) (hi : i < vss.length) :
    traceStart first t vss (i + 1) = traceStart first t vss i + (240 + vss[i].length * t.size) := by
  unfold traceStart
  rw [List.take_succ_eq_append_getElem hi, List.map_append, List.sum_append, List.map_singleton, List.sum_singleton,
    Nat.add_assoc]

theorem sampleBytes_fits {t : SegYType} {e : Endian} {vs : List PyNum} (h : ∀ v ∈ vs, Fits t v) :
    ∃ buf, sampleBytes vs t e = .ok buf ∧ (t = .float32 → ∀ v ∈ vs, ∃ f, v = .float f) ∧
      buf.length = vs.length * t.size := by
  have hf : t = .float32 → ∀ v ∈ vs, ∃ f, v = .float f := by
    rintro rfl v hv
    obtain ⟨f, hf, _⟩ := h v hv
    exact ⟨f, hf⟩
  have key : ∃ buf, sampleBytes vs t e = .ok buf := by
    unfold sampleBytes
    cases t with
    | int t =>
      rw [if_neg (by simp)]
      exact (Props.C42_int_accepts e t vs).mpr h
    | float32 =>
      rw [if_neg (by simp)]
      have : ∃ fs : List PyFloat, vs = fs.map .float ∧ ∀ f ∈ fs, Fits32 f := by
        clear hf
        induction vs with
        | nil => exact ⟨[], rfl, by simp⟩
        | cons v vs ih =>
          obtain ⟨fs, rfl, hfs⟩ := ih fun w hw => h w (List.mem_cons_of_mem _ hw)
          obtain ⟨f, rfl, hf⟩ := h v List.mem_cons_self
          exact ⟨f :: fs, rfl, by simpa using ⟨hf, hfs⟩⟩
      obtain ⟨fs, rfl, hfs⟩ := this
      exact ((Props.C42_float32_accepts e fs).1).mpr hfs
    | ibm =>
      rw [if_pos rfl]
      exact (Props.C42_ibm_accepts vs).mpr h
  obtain ⟨buf, hb⟩ := key
  exact ⟨buf, hb, hf, (Props.C42_stored .big e t vs buf hb hf).1⟩

/-- The traces of a consistent dataset and their bytes. -/
theorem Spec.Consistent.written {d : Dataset} {enc : Encoding} {T : Format} {e : Endian} {t : SegYType} {hs : List Header}
    {vss : List (List PyNum)} (h : Consistent d enc T e t hs vss) {p : HeaderPacker} (hp : makeHeaderPacker T e = .ok p) :
    ∃ ts : List Written, ts.map Written.header = hs ∧ ts.map Written.samples = vss ∧ ∀ x ∈ ts, x.Ok T e t p := by
  have h1 := h.header_format
  have h2 := h.header_valid
  have h3 := h.same_length
  have h4 := h.num_samples
  have h5 := h.fits
  have hR := h.trace_format
  clear h
  induction hs generalizing vss with
  | nil =>
    refine ⟨[], rfl, ?_, by simp⟩
    rw [List.length_nil, List.length_eq_zero_iff] at h3
    exact h3.symm
  | cons hd hs ih =>
    cases vss with
    | nil => simp at h3
    | cons vs vss =>
      obtain ⟨ts, e1, e2, e3⟩ := ih (vss := vss) (fun x hx => h1 x (List.mem_cons_of_mem _ hx))
        (fun x hx => h2 x (List.mem_cons_of_mem _ hx)) (by simpa using h3)
        (fun i hi hi' => by
          have := h4 (i + 1) (by simpa using hi) (by simpa using hi')
          simpa using this)
        (fun x hx => h5 x (List.mem_cons_of_mem _ hx))
      obtain ⟨hb, g1, g2, g3⟩ := pack_regular hR hp (h1 hd List.mem_cons_self) (h2 hd List.mem_cons_self)
      obtain ⟨sb, k1, k2, k3⟩ := sampleBytes_fits (e := e) (h5 vs List.mem_cons_self)
      have hn : hd.get "num_samples" = .ok (vs.length : Int) := h4 0 (by simp) (by simp)
      refine ⟨⟨hd, vs, hb, sb⟩ :: ts, by simp [e1], by simp [e2], ?_⟩
      intro x hx
      rcases List.mem_cons.mp hx with rfl | hx
      · exact ⟨g1, g2, g3, hn, k1, k2, k3⟩
      · exact e3 x hx

theorem writeTraces_appends {d : Dataset} {p : HeaderPacker} {T : Format} {e : Endian} {t : SegYType}
    (ht : d.dataSampleFormat = .ok t) (hn : d.num_traces ≠ 0) (ts : List Written) :
    ∀ (a n : Nat), (∀ x ∈ ts, x.Ok T e t p) →
      (∀ j (hj : j < ts.length), d.trace_header ((a + j : Nat) : Int) = .ok ts[j].header) →
      (∀ j (hj : j < ts.length), d.trace_samples ((a + j : Nat) : Int) = .ok ts[j].samples) →
      Appends n (writeTraces d p e ((List.range' a ts.length).map fun i : Nat => (i : Int)))
        ((List.range' a ts.length).map fun i : Nat => round64 ((i : ℚ) / d.num_traces)) (body ts) := by
  induction ts with
  | nil => intro a n _ _ _; exact Appends.pure n _
  | cons x ts ih =>
    intro a n hok hh hs
    have ho := hok x List.mem_cons_self
    have h0 := hh 0 (by simp)
    have s0 := hs 0 (by simp)
    simp only [Nat.add_zero, List.getElem_cons_zero] at h0 s0
    rw [List.length_cons, List.range'_succ, List.map_cons, List.map_cons, writeTraces, body_cons]
    have hrest := fun n => ih (a + 1) n (fun y hy => hok y (List.mem_cons_of_mem _ hy))
      (fun j hj => by
        have := hh (j + 1) (by simpa using hj)
        rw [show a + (j + 1) = a + 1 + j by omega] at this
        simpa using this)
      (fun j hj => by
        have := hs (j + 1) (by simpa using hj)
        rw [show a + (j + 1) = a + 1 + j by omega] at this
        simpa using this)
    have hw : Appends n (writeTraceHeader x.header p) () x.headerBytes :=
      Appends.lift_bind ho.pack (Appends.write _ x.headerBytes)
    have hws : ∀ n, Appends n (writeTraceSamples x.samples t e) () x.sampleBytes := fun n =>
      Appends.lift_bind ho.stored (Appends.write _ x.sampleBytes)
    have hlast : ∀ n, Appends n (do
        let later ← writeTraces d p e ((List.range' (a + 1) ts.length).map fun i : Nat => (i : Int))
        return round64 (((a : Int) : ℚ) / d.num_traces) :: later) (round64 ((a : ℚ) / d.num_traces) ::
          (List.range' (a + 1) ts.length).map fun i : Nat => round64 ((i : ℚ) / d.num_traces)) (body ts) := by
      intro n
      have := (hrest n).bind (f := fun later => Pure.pure (round64 (((a : Int) : ℚ) / d.num_traces) :: later))
        (Appends.pure _ _)
      rw [List.append_nil] at this
      exact this
    rw [List.append_assoc]
    refine Appends.lift_bind h0 (hw.bind (Appends.lift_bind s0 (Appends.lift_bind ht ((hws _).bind ?_))))
    rw [if_neg hn]
    exact hlast _

/-! ## The traces of what was written -/

theorem header_at {pre rest hb : Bytes} {k : Nat} (hl : hb.length = 240) (hk : pre.length + 240 ≤ k) :
    Spec.headerBytes ((pre ++ (hb ++ rest)).take k) pre.length = hb := by
  unfold Spec.headerBytes
  rw [List.drop_take, List.drop_left, List.take_take, Nat.min_eq_left (by omega), ← hl, List.take_left]

theorem fieldAt_written {T : Format} {e : Endian} {t : SegYType} {p : HeaderPacker} {x : Written} (hx : x.Ok T e t p)
    {data : Bytes} {pos : Nat} (h : Spec.headerBytes data pos = x.headerBytes) {f : Field} (hf : f ∈ T.fields) :
    f.value_type.Admits (fieldAt T e data pos f.name) ∧ x.header.get f.name = .ok (fieldAt T e data pos f.name) := by
  unfold fieldAt
  rw [Format.mem_fields.mp hf]
  simp only [h]
  exact hx.fields f hf

theorem Written.Ok.num_field {T : Format} {e : Endian} {t : SegYType} {p : HeaderPacker} {x : Written} (hx : x.Ok T e t p)
    (hT : Cataloguable T e) {data : Bytes} {pos : Nat} (h : Spec.headerBytes data pos = x.headerBytes) :
    fieldAt T e data pos "num_samples" = x.samples.length := by
  obtain ⟨f, hf⟩ := Format.attr_of_mem (hT.present "num_samples" (by simp))
  have hn := Format.attr_name hf
  have := (fieldAt_written hx h (f := f) (Format.mem_fields.mpr (by rw [hn]; exact hf))).2
  rw [hn, hx.num] at this
  exact (Except.ok.inj this).symm

/-- The traces of the first `k` bytes. -/
theorem traces_written {T : Format} {e : Endian} {t : SegYType} {p : HeaderPacker} (hT : Cataloguable T e)
    (ts : List Written) : ∀ (pre : Bytes) (k : Nat), (∀ x ∈ ts, x.Ok T e t p) →
      ∃ m ≤ ts.length, (∀ i < ts.length, pre.length + (body (ts.take i)).length + 240 ≤ k ↔ i < m) ∧
        Traces T e ((pre ++ body ts).take k) t.size pre.length
          ((List.range m).map fun i => pre.length + (body (ts.take i)).length) := by
  induction ts with
  | nil =>
    intro pre k _
    refine ⟨0, by simp, by simp, pre.length, .nil _, ?_⟩
    rw [List.length_take]
    simp only [body, List.flatMap_nil, List.append_nil]
    omega
  | cons x ts ih =>
    intro pre k hok
    have ho := hok x List.mem_cons_self
    by_cases hk : pre.length + 240 ≤ k
    · obtain ⟨m, hm, h1, stop, h2, h3⟩ := ih (pre ++ (x.headerBytes ++ x.sampleBytes)) k
        (fun y hy => hok y (List.mem_cons_of_mem _ hy))
      have hpre : (pre ++ (x.headerBytes ++ x.sampleBytes)).length = pre.length + 240 + x.samples.length * t.size := by
        rw [List.length_append, List.length_append, ho.header_length, ho.samples_length]; omega
      have hbx : ∀ l, (body (x :: l)).length = 240 + x.samples.length * t.size + (body l).length := by
        intro l
        rw [body_cons, List.length_append, List.length_append, ho.header_length, ho.samples_length]
      have hdata : pre ++ (x.headerBytes ++ x.sampleBytes) ++ body ts = pre ++ body (x :: ts) := by
        rw [body_cons]; simp [List.append_assoc]
      rw [hdata] at h2 h3
      have hat : Spec.headerBytes ((pre ++ body (x :: ts)).take k) pre.length = x.headerBytes := by
        rw [body_cons, List.append_assoc]
        exact header_at ho.header_length hk
      refine ⟨m + 1, by simpa using hm, ?_, stop, ?_, h3⟩
      · intro i hi
        cases i with
        | zero => simpa [body] using hk
        | succ i =>
          rw [List.take_succ_cons, hbx]
          have := h1 i (by simpa using hi)
          rw [hpre] at this
          constructor
          · intro h
            have := this.mp (by omega)
            omega
          · intro h
            have := this.mpr (by omega)
            omega
      · rw [List.range_succ_eq_map, List.map_cons, List.map_map]
        have hn := ho.num_field hT hat
        refine .cons ?_ ?_ ?_
        · rw [List.length_take, List.length_append]
          have := hbx ts
          omega
        · intro name hname f hf
          have hnm := Format.attr_name hf
          have := (fieldAt_written ho hat (f := f) (Format.mem_fields.mpr (by rw [hnm]; exact hf))).1
          rw [hnm] at this
          exact this
        · have hsa : samplesAt T e ((pre ++ body (x :: ts)).take k) pre.length = x.samples.length := by
            unfold samplesAt; rw [hn]; rfl
          rw [hsa, ← hpre]
          convert h2 using 2
          funext i
          simp only [Function.comp, Nat.succ_eq_add_one, List.take_succ_cons, hbx, hpre]
          omega
    · refine ⟨0, by simp, ?_, pre.length, .nil _, ?_⟩
      · intro i _
        constructor
        · intro h; omega
        · intro h; omega
      · rw [List.length_take]; omega

/-! ## The whole file -/

/-- The parts of the file a consistent dataset is written to. -/
structure Image (d : Dataset) (enc : Encoding) (T : Format) (e : Endian) (t : SegYType) (hs : List Header)
    (vss : List (List PyNum)) where
  packer : HeaderPacker
  packs : makeHeaderPacker T e = .ok packer
  text : List Bytes
  textual : (fortyCards d.textual_reel_header).mapM (encode enc) = .ok text
  text_length : text.flatten.length = 3200
  bin : Bytes
  bin_length : bin.length = 400
  binary : ∀ f ∈ d.binary_reel_header.format.fields,
    f.value_type.Admits (storedInt e f.value_type.segy (d.binary_reel_header.format.fieldBytes f bin)) ∧
      d.binary_reel_header.get f.name = .ok (storedInt e f.value_type.segy (d.binary_reel_header.format.fieldBytes f bin))
  ess : List (List Bytes)
  pages : d.extended_textual_header.mapM (encodeExtPage enc) = .ok ess
  write_text : ∀ n, Appends n (writeTextualReelHeader d.textual_reel_header enc) () text.flatten
  write_bin : ∀ n, Appends n (writeBinaryReelHeader d.binary_reel_header e) () bin
  write_pages : Appends 3600 (writeExtendedTextualHeaders d.extended_textual_header enc) () (pagesBytes ess)
  ts : List Written
  headers : ts.map Written.header = hs
  samples : ts.map Written.samples = vss
  ok : ∀ x ∈ ts, x.Ok T e t packer

namespace Image

variable {d : Dataset} {enc : Encoding} {T : Format} {e : Endian} {t : SegYType} {hs : List Header}
  {vss : List (List PyNum)}

/-- All headers of the file. -/
def head (I : Image d enc T e t hs vss) : Bytes := I.text.flatten ++ I.bin ++ pagesBytes I.ess

/-- The whole file. -/
def full (I : Image d enc T e t hs vss) : Bytes := I.head ++ body I.ts

theorem head_length (I : Image d enc T e t hs vss) : I.head.length = firstTrace d := by
  unfold head firstTrace
  rw [List.length_append, List.length_append, I.text_length, I.bin_length, pagesBytes_length I.pages]

theorem num (I : Image d enc T e t hs vss) : I.ts.length = hs.length := by
  have := congrArg List.length I.headers
  rwa [List.length_map] at this

theorem start (I : Image d enc T e t hs vss) (i : Nat) :
    traceStart (firstTrace d) t vss i = I.head.length + (body (I.ts.take i)).length := by
  rw [I.head_length]
  unfold traceStart
  congr 1
  have hok := I.ok
  have hs := I.samples
  generalize I.ts = ts at hok hs
  generalize I.packer = p at hok
  clear I
  subst hs
  induction ts generalizing i with
  | nil => simp [body]
  | cons x ts ih =>
    cases i with
    | zero => simp [body]
    | succ i =>
      have ho := hok x List.mem_cons_self
      rw [List.map_cons, List.take_succ_cons, List.take_succ_cons, List.map_cons, List.sum_cons, body_cons,
        List.length_append, List.length_append, ho.header_length, ho.samples_length,
        ih i fun y hy => hok y (List.mem_cons_of_mem _ hy)]

theorem full_length (I : Image d enc T e t hs vss) : I.full.length = traceStart (firstTrace d) t vss hs.length := by
  rw [I.start, ← I.num, List.take_length]
  unfold full
  rw [List.length_append]

end Image

theorem Spec.Consistent.image {d : Dataset} {enc : Encoding} {T : Format} {e : Endian} {t : SegYType} {hs : List Header}
    {vss : List (List PyNum)} (h : Consistent d enc T e t hs vss) (encoding : Option Encoding)
    (henc : (encoding.or d.encoding).getD .ascii = enc) :
    ∃ I : Image d enc T e t hs vss, Appends 0 (writeSegy d encoding T e)
      (((List.range hs.length).map fun i : Nat => round64 ((i : ℚ) / hs.length)) ++ [1]) I.full := by
  obtain ⟨p, hp⟩ := h.trace_format.packs
  obtain ⟨text, t1, t2, t3⟩ := writeTextual_appends h.encoding h.textual
  obtain ⟨bin, b1, b2, b3⟩ := writeBinary_appends h.binary_format h.binary_valid
  obtain ⟨ess, x1, x2⟩ := writeExtended_appends h.encoding h.pages
  obtain ⟨ts, w1, w2, w3⟩ := h.written hp
  have hnum : ts.length = hs.length := by rw [← w1, List.length_map]
  refine ⟨⟨p, hp, text, t1, t2, bin, b1, b2, ess, x1, t3, b3, x2, ts, w1, w2, w3⟩, ?_⟩
  have hne : d.num_traces ≠ 0 := by
    rw [h.num_traces]
    have := List.length_pos_iff.mpr h.some_trace
    omega
  have hw := fun n => writeTraces_appends (T := T) (e := e) (p := p) h.sample_format hne ts 0 n w3
    (fun j hj => by
      rw [Nat.zero_add, h.trace_header j (by omega)]
      simp [← w1])
    (fun j hj => by
      rw [Nat.zero_add, h.trace_samples j (by rw [h.same_length]; omega)]
      simp [← w2])
  rw [← List.range_eq_range', hnum, ← h.indexes, h.num_traces] at hw
  unfold Image.full Image.head writeSegy
  simp only [henc, (isSupported_iff enc).mpr h.encoding, Bool.not_true, Bool.false_eq_true, if_false]
  rw [List.append_assoc, List.append_assoc]
  refine (t3 0).bind ((b3 _).bind (Appends.bind (a := ()) (bs := pagesBytes ess) ?_ (Appends.lift_bind hp ?_)))
  · rw [t2, b1]; exact x2
  · have := (hw (0 + text.flatten.length + bin.length + (pagesBytes ess).length)).bind
      (f := fun progress => (Pure.pure (progress ++ [1]) : FileM (List ℚ))) (Appends.pure _ _)
    rw [List.append_nil] at this
    exact this

theorem readExtendedOf_written {enc : Encoding} {pages : List (List PyStr)} {ess : List (List Bytes)}
    (h : pages.mapM (encodeExtPage enc) = .ok ess) (hstop : ∀ p ∈ pages.dropLast, ¬ Stops p) {hd : Header} {n : Int}
    (hn : hd.get "num_extended_textual_headers" = .ok n)
    (hnum : n = pages.length ∨ (n < 0 ∧ ∃ p, pages.getLast? = some p ∧ Stops p)) {pre post : Bytes} {s : FileH}
    (hd' : s.data = pre ++ pagesBytes ess ++ post) (hp : pre.length = 3600) :
    ∃ s', readExtendedHeadersOf hd enc s = (.ok pages, s') := by
  have h36 : ((REEL_HEADER_NUM_BYTES : Nat)) = pre.length := by rw [hp]; rfl
  unfold readExtendedHeadersOf readExtendedTextualHeaders
  rw [hn, bind_ok (lift_apply _ _), h36, bind_ok (seek_apply pre.length s)]
  rcases hnum with rfl | ⟨hneg, hlast⟩
  · rw [if_neg (by omega)]
    unfold readExtendedHeadersCounted
    rw [if_neg (by omega), Int.toNat_natCast]
    exact ⟨_, readCounted_loop pages.length h 0 [] pre post _ hd' rfl (by omega) hstop⟩
  · rw [if_pos hneg]
    unfold readExtendedHeadersUntilEnd
    refine ⟨_, readUntil_loop h _ [] pre post _ hd' rfl ?_ hstop hlast⟩
    simp only [hd', List.length_append, pagesBytes_length h]
    omega

theorem get_mem_fields {h : Header} {n : String} {v : Int} (hg : h.get n = .ok v) : ∃ f ∈ h.format.fields, f.name = n := by
  cases ha : h.format.attr n with
  | none => unfold Header.get at hg; rw [ha] at hg; cases hg
  | some f =>
    have := Format.attr_name ha
    exact ⟨f, Format.mem_fields.mpr (by rw [this]; exact ha), this⟩

/-- The textual and binary header of what was written can be read. -/
theorem Spec.Consistent.reelRead {d : Dataset} {enc : Encoding} {T : Format} {e : Endian} {t : SegYType} {hs : List Header}
    {vss : List (List PyNum)} (h : Consistent d enc T e t hs vss) (I : Image d enc T e t hs vss) (rest : Bytes)
    (limit : Option Nat) :
    ∃ binary, readTextualReelHeader enc { data := I.text.flatten ++ I.bin ++ rest, pos := 0, limit := limit } =
        (.ok (fortyCards d.textual_reel_header), { data := I.text.flatten ++ I.bin ++ rest, pos := 3200, limit := limit }) ∧
      readBinaryReelHeader d.binary_reel_header.format e { data := I.text.flatten ++ I.bin ++ rest, pos := 3200, limit := limit } =
        (.ok binary, { data := I.text.flatten ++ I.bin ++ rest, pos := 3600, limit := limit }) ∧
      binary.format = d.binary_reel_header.format ∧
      (∀ f ∈ d.binary_reel_header.format.fields, binary.get f.name = d.binary_reel_header.get f.name) ∧
      ∀ n v, d.binary_reel_header.get n = .ok v → binary.get n = .ok v := by
  have hcards : ∀ c ∈ fortyCards d.textual_reel_header, c.length = 80 := by
    intro c hc
    unfold fortyCards at hc
    obtain ⟨i, _, rfl⟩ := List.mem_map.mp hc
    exact card_length _
  have hs1 := readTextual_at (s := { data := I.text.flatten ++ I.bin ++ rest, pos := 0, limit := limit }) I.textual
    (by simp [fortyCards]) hcards (pre := []) (post := I.bin ++ rest) (by simp [List.append_assoc]) rfl
  obtain ⟨p, hp⟩ := h.binary_format.packs
  have hbytes : Props.reelHeaderBytes (I.text.flatten ++ I.bin ++ rest) 3200 = I.bin := by
    unfold Props.reelHeaderBytes
    rw [← I.text_length, List.append_assoc, List.drop_left, ← I.bin_length, List.take_left]
  have hb := Props.C62_read_binary d.binary_reel_header.format e p hp h.binary_format.afterStart h.binary_format.orderSafe
    h.binary_format.length { data := I.text.flatten ++ I.bin ++ rest, pos := 3200, limit := limit }
  simp only [hbytes] at hb
  rcases hb with ⟨binary, b1, b2, b3, b4⟩ | ⟨k, b1, b2⟩
  · have hget : ∀ f ∈ d.binary_reel_header.format.fields, binary.get f.name = d.binary_reel_header.get f.name := by
      intro f hf
      rw [(b4 f hf).2, (I.binary f hf).2]
    refine ⟨binary, hs1, b1, b3, hget, ?_⟩
    intro n v hv
    obtain ⟨f, hf, rfl⟩ := get_mem_fields hv
    rw [hget f hf, hv]
  · exfalso
    rcases b2 with b2 | ⟨f, hf, b2⟩
    · rw [List.length_append, List.length_append, I.text_length, I.bin_length] at b2; omega
    · exact b2 (I.binary f hf).1

/-- The headers of what was written can be read. -/
theorem Spec.Consistent.headersRead {d : Dataset} {enc : Encoding} {T : Format} {e : Endian} {t : SegYType} {hs : List Header}
    {vss : List (List PyNum)} (h : Consistent d enc T e t hs vss) (I : Image d enc T e t hs vss) (rest : Bytes)
    (limit : Option Nat) (encoding : Option Encoding)
    (henc : Props.usedEncoding encoding (I.head ++ rest) = enc) :
    ∃ binary, Props.HeadersRead encoding d.binary_reel_header.format e { data := I.head ++ rest, pos := 0, limit := limit }
        (fortyCards d.textual_reel_header) binary d.extended_textual_header t ∧
      binary.format = d.binary_reel_header.format ∧
      ∀ f ∈ d.binary_reel_header.format.fields, binary.get f.name = d.binary_reel_header.get f.name := by
  obtain ⟨binary, b0, b1, b3, hget, hget'⟩ := h.reelRead I (pagesBytes I.ess ++ rest) limit
  rw [← List.append_assoc, ← Image.head] at b0 b1
  have hlen := I.head_length
  unfold firstTrace at hlen
  obtain ⟨n, hn, hnum⟩ := h.num_pages
  obtain ⟨s3, hs3⟩ := readExtendedOf_written I.pages h.no_early_stop (hget' _ _ hn) hnum
    (pre := I.text.flatten ++ I.bin) (post := rest) (s := { data := I.head ++ rest, pos := 3600, limit := limit }) rfl
    (by rw [List.length_append, I.text_length, I.bin_length])
  refine ⟨binary, ⟨by simp only [List.length_append]; omega, ⟨_, _, s3, ?_, b1, ?_⟩, ?_⟩, b3, hget⟩
  · rw [henc]; exact b0
  · rw [henc]; exact hs3
  · have := h.sample_format
    unfold Dataset.dataSampleFormat at this
    cases hv : d.binary_reel_header.get "data_sample_format" with
    | error err => rw [hv] at this; cases this
    | ok v => rw [hv] at this; exact ⟨v, hget' _ _ hv, this⟩

/-! ## Incomplete files -/

theorem readTextual_short {enc : Encoding} {s : FileH} (h : s.data.length < s.pos + 3200) :
    (readTextualReelHeader enc s).1 = .error .eofError := by
  rw [readTextual_apply, if_neg (by omega)]

theorem bind_error_fst {α β : Type} {m : FileM α} {f : α → FileM β} {s : FileH} {err : Err} (h : (m s).1 = .error err) :
    ((m >>= f) s).1 = .error err := by
  rw [bind_apply]
  cases hm : m s with
  | mk x s' =>
    rw [hm] at h
    simp only at h
    subst h
    rfl

/-- The first page of a cut list of pages: it is complete and read, or it is not complete. -/
theorem page_cut {enc : Encoding} {page : List PyStr} {es : List Bytes} (h1 : encodeExtPage enc page = .ok es)
    {rest pre : Bytes} {j : Nat} {s : FileH} (hd : s.data = pre ++ (es.flatten ++ rest).take j) (hp : s.pos = pre.length) :
    (j < 3200 ∧ (readTextualReelHeader enc s).1 = .error .eofError) ∨
    (3200 ≤ j ∧ readTextualReelHeader enc s = (.ok page, { s with pos := s.pos + 3200 }) ∧
      s.data = (pre ++ es.flatten) ++ rest.take (j - 3200)) := by
  have hl := page_bytes_length h1
  obtain ⟨g1, g2, g3⟩ := encodeExtPage_ok h1
  by_cases hj : j < 3200
  · refine Or.inl ⟨hj, readTextual_short ?_⟩
    rw [hd, hp, List.length_append, List.length_take]; omega
  · have hd' : s.data = (pre ++ es.flatten) ++ rest.take (j - 3200) := by
      rw [hd, List.take_append, List.take_of_length_le (by omega), hl, List.append_assoc]
    exact Or.inr ⟨by omega, readTextual_at g1 g2 g3 hd' hp, hd'⟩

theorem readCounted_cut {enc : Encoding} (N : Nat) {pages : List (List PyStr)} {ess : List (List Bytes)}
    (h : pages.mapM (encodeExtPage enc) = .ok ess) :
    ∀ (i : Nat) (acc : List (List PyStr)) (pre : Bytes) (j : Nat) (s : FileH),
      s.data = pre ++ (pagesBytes ess).take j → s.pos = pre.length → j < (pagesBytes ess).length →
      (∀ p ∈ pages.dropLast, ¬ StopPage p) →
      (readExtendedCountedLoop enc N pages.length i acc s).1 = .error .eofError := by
  rw [mapM_ok_iff] at h
  induction h with
  | nil => intro i acc pre j s _ _ hj _; simp [pagesBytes] at hj
  | @cons page es pages' ess' h1 h2 ih =>
    intro i acc pre j s hd hp hj hstop
    have hl := page_bytes_length h1
    have e1 : pagesBytes (es :: ess') = es.flatten ++ pagesBytes ess' := by simp [pagesBytes]
    rw [e1] at hd hj
    rw [List.length_cons, readExtendedCountedLoop]
    rcases page_cut h1 hd hp with ⟨_, hr⟩ | ⟨hj2, hr, hd2⟩
    · exact bind_error_fst hr
    · rw [bind_ok hr]
      have hmore : pages' ≠ [] := by
        rintro rfl
        cases h2
        rw [List.length_append, hl] at hj
        simp [pagesBytes] at hj
        omega
      have hns : ¬ StopPage page := by
        apply hstop
        cases pages' with
        | nil => exact absurd rfl hmore
        | cons q qs => rw [List.dropLast_cons_cons]; simp
      obtain ⟨g1, g2, g3⟩ := encodeExtPage_ok h1
      rcases hasEnd_eq g2 with ⟨hst, _⟩ | ⟨_, he⟩
      · exact absurd hst hns
      · simp only [bind_ok (show FileM.lift (hasEndTextStanza page) _ = _ by rw [lift_apply, he])]
        refine ih (i + 1) (acc ++ [page]) (pre ++ es.flatten) (j - 3200) _ hd2 ?_ ?_ ?_
        · rw [List.length_append, hl]; simp only; omega
        · rw [List.length_append] at hj; omega
        · intro p hp'
          apply hstop
          cases pages' with
          | nil => exact absurd rfl hmore
          | cons q qs => rw [List.dropLast_cons_cons]; exact List.mem_cons_of_mem _ hp'

theorem readUntil_cut {enc : Encoding} {pages : List (List PyStr)} {ess : List (List Bytes)}
    (h : pages.mapM (encodeExtPage enc) = .ok ess) :
    ∀ (fuel : Nat) (acc : List (List PyStr)) (pre : Bytes) (j : Nat) (s : FileH),
      s.data = pre ++ (pagesBytes ess).take j → s.pos = pre.length → j < (pagesBytes ess).length → j < 3200 * fuel →
      (∀ p ∈ pages.dropLast, ¬ StopPage p) →
      (readExtendedUntilEndLoop enc fuel acc s).1 = .error .eofError := by
  rw [mapM_ok_iff] at h
  induction h with
  | nil => intro i acc pre j s _ _ hj _ _; simp [pagesBytes] at hj
  | @cons page es pages' ess' h1 h2 ih =>
    intro fuel acc pre j s hd hp hj hfuel hstop
    have hl := page_bytes_length h1
    have e1 : pagesBytes (es :: ess') = es.flatten ++ pagesBytes ess' := by simp [pagesBytes]
    rw [e1] at hd hj
    obtain ⟨fuel, rfl⟩ : ∃ f, fuel = f + 1 := ⟨fuel - 1, by omega⟩
    rw [readExtendedUntilEndLoop]
    rcases page_cut h1 hd hp with ⟨_, hr⟩ | ⟨hj2, hr, hd2⟩
    · exact bind_error_fst hr
    · rw [bind_ok hr]
      have hmore : pages' ≠ [] := by
        rintro rfl
        cases h2
        rw [List.length_append, hl] at hj
        simp [pagesBytes] at hj
        omega
      have hns : ¬ StopPage page := by
        apply hstop
        cases pages' with
        | nil => exact absurd rfl hmore
        | cons q qs => rw [List.dropLast_cons_cons]; simp
      obtain ⟨g1, g2, g3⟩ := encodeExtPage_ok h1
      rcases hasEnd_eq g2 with ⟨hst, _⟩ | ⟨_, he⟩
      · exact absurd hst hns
      · simp only [bind_ok (show FileM.lift (hasEndTextStanza page) _ = _ by rw [lift_apply, he])]
        simp only [Bool.false_eq_true, if_false]
        refine ih fuel (acc ++ [page]) (pre ++ es.flatten) (j - 3200) _ hd2 ?_ ?_ (by omega) ?_
        · rw [List.length_append, hl]; simp only; omega
        · rw [List.length_append] at hj; omega
        · intro p hp'
          apply hstop
          cases pages' with
          | nil => exact absurd rfl hmore
          | cons q qs => rw [List.dropLast_cons_cons]; exact List.mem_cons_of_mem _ hp'

theorem readExtendedOf_cut {enc : Encoding} {pages : List (List PyStr)} {ess : List (List Bytes)}
    (h : pages.mapM (encodeExtPage enc) = .ok ess) (hstop : ∀ p ∈ pages.dropLast, ¬ Stops p) {hd : Header} {n : Int}
    (hn : hd.get "num_extended_textual_headers" = .ok n) (hnum : n = pages.length ∨ n < 0) {pre : Bytes} {s : FileH}
    {j : Nat} (hd' : s.data = pre ++ (pagesBytes ess).take j) (hp : pre.length = 3600) (hj : j < (pagesBytes ess).length) :
    (readExtendedHeadersOf hd enc s).1 = .error .eofError := by
  have h36 : ((REEL_HEADER_NUM_BYTES : Nat)) = pre.length := by rw [hp]; rfl
  unfold readExtendedHeadersOf readExtendedTextualHeaders
  rw [hn, bind_ok (lift_apply _ _), h36, bind_ok (seek_apply pre.length s)]
  by_cases hneg : n < 0
  · rw [if_pos hneg]
    unfold readExtendedHeadersUntilEnd
    refine readUntil_cut h _ [] pre j _ hd' rfl hj ?_ hstop
    simp only [hd', List.length_append, List.length_take]
    omega
  · rw [if_neg hneg]
    unfold readExtendedHeadersCounted
    rcases hnum with rfl | hnum
    · rw [if_neg hneg, Int.toNat_natCast]
      exact readCounted_cut _ h 0 [] pre j _ hd' rfl hj hstop
    · omega

/-- A file cut within the extended headers. -/
theorem Spec.Consistent.cutInPages {d : Dataset} {enc : Encoding} {T : Format} {e : Endian} {t : SegYType} {hs : List Header}
    {vss : List (List PyNum)} (h : Consistent d enc T e t hs vss) (I : Image d enc T e t hs vss) (k : Nat)
    (hk : 3600 ≤ k) (hk' : k < firstTrace d) (limit : Option Nat) (encoding : Option Encoding)
    (henc : Props.usedEncoding encoding (I.full.take k) = enc) (T' : Format) (dim : Option Int)
    (hdim : dim ∈ [none, some 1, some 2, some 3]) :
    (createReader encoding d.binary_reel_header.format T' e dim { data := I.full.take k, pos := 0, limit := limit }).1 =
      .error .eofError := by
  have h36 : (I.text.flatten ++ I.bin).length = 3600 := by rw [List.length_append, I.text_length, I.bin_length]
  have hhead := I.head_length
  have hpl : (pagesBytes I.ess).length = firstTrace d - 3600 := by
    unfold Image.head at hhead
    rw [List.length_append, h36] at hhead
    omega
  have hdata : I.full.take k = I.text.flatten ++ I.bin ++ (pagesBytes I.ess).take (k - 3600) := by
    unfold Image.full
    rw [List.take_append_of_le_length (by omega)]
    unfold Image.head
    rw [List.take_append, List.take_of_length_le (by omega), h36]
  rw [hdata] at henc ⊢
  obtain ⟨binary, b0, b1, _, _, hget'⟩ := h.reelRead I ((pagesBytes I.ess).take (k - 3600)) limit
  obtain ⟨n, hn, hnum⟩ := h.num_pages
  have hext := readExtendedOf_cut I.pages h.no_early_stop (hget' _ _ hn) (hnum.imp id And.left)
    (s := { data := I.text.flatten ++ I.bin ++ (pagesBytes I.ess).take (k - 3600), pos := 3600, limit := limit }) rfl h36
    (by omega)
  rw [Props.create_text hdim (by simp only [List.length_append] at h36 ⊢; omega) (by rw [henc]; exact b0), henc]
  have : (Props.afterText enc d.binary_reel_header.format T' e dim (fortyCards d.textual_reel_header)
      { data := I.text.flatten ++ I.bin ++ (pagesBytes I.ess).take (k - 3600), pos := 3200, limit := limit }).1 =
      .error .eofError := by
    unfold Props.afterText
    rw [bind_ok b1]
    exact bind_error_fst hext
  revert this
  generalize Props.afterText _ _ _ _ _ _ _ = x
  intro hx
  obtain ⟨x1, x2⟩ := x
  simp only at hx
  subst hx
  rfl

/-! ## Datasets that raise -/

theorem writeTraces_raises {d : Dataset} {p : HeaderPacker} {T : Format} {e : Endian} {t : SegYType}
    (ht : d.dataSampleFormat = .ok t) (hn : d.num_traces ≠ 0) (ts : List Written) :
    ∀ (a : Nat) (rest : List Int) (x : Written) (err : Err), (∀ x ∈ ts, x.Ok T e t p) → x.Ok T e t p →
      (∀ j (hj : j < ts.length), d.trace_header ((a + j : Nat) : Int) = .ok ts[j].header) →
      (∀ j (hj : j < ts.length), d.trace_samples ((a + j : Nat) : Int) = .ok ts[j].samples) →
      ∀ s : FileH, s.pos = s.data.length → s.limit = none →
      (d.trace_header ((a + ts.length : Nat) : Int) = .error err →
        writeTraces d p e (((List.range' a (ts.length + 1)).map fun i : Nat => (i : Int)) ++ rest) s =
          (.error err, { data := s.data ++ body ts, pos := s.data.length + (body ts).length, limit := none })) ∧
      (d.trace_header ((a + ts.length : Nat) : Int) = .ok x.header →
        (d.trace_samples ((a + ts.length : Nat) : Int) = .error err ∨
          ∃ vs, d.trace_samples ((a + ts.length : Nat) : Int) = .ok vs ∧ sampleBytes vs t e = .error err) →
        writeTraces d p e (((List.range' a (ts.length + 1)).map fun i : Nat => (i : Int)) ++ rest) s =
          (.error err, { data := s.data ++ (body ts ++ x.headerBytes),
                         pos := s.data.length + (body ts ++ x.headerBytes).length, limit := none })) := by
  induction ts with
  | nil =>
    rintro a rest x err _ hx _ _ ⟨dt, ps, lm⟩ hpos hlim
    simp only at hpos hlim
    subst hpos hlim
    simp only [List.length_nil, Nat.add_zero, Nat.zero_add, List.range'_one, List.map_cons, List.map_nil,
      List.cons_append, List.nil_append, writeTraces, body, List.flatMap_nil, List.append_nil]
    refine ⟨fun h => ?_, fun h h' => ?_⟩
    · rw [h]; rfl
    · have hw : Appends dt.length (writeTraceHeader x.header p) () x.headerBytes :=
        Appends.lift_bind hx.pack (Appends.write _ x.headerBytes)
      rw [h, bind_ok (lift_apply _ _), bind_ok (hw.free _ rfl rfl rfl)]
      rcases h' with h' | ⟨vs, h', hb⟩
      · rw [h', bind_error (lift_apply _ _)]
      · rw [h', bind_ok (lift_apply _ _), ht, bind_ok (lift_apply _ _)]
        unfold writeTraceSamples
        rw [hb, bind_error]
        exact bind_error (lift_apply _ _)
  | cons y ts ih =>
    intro a rest x err hok hx hh hs s hpos hlim
    have ho := hok y List.mem_cons_self
    have h0 := hh 0 (by simp)
    have s0 := hs 0 (by simp)
    simp only [Nat.add_zero, List.getElem_cons_zero] at h0 s0
    have hw : ∀ n, Appends n (writeTraceHeader y.header p) () y.headerBytes := fun n =>
      Appends.lift_bind ho.pack (Appends.write _ y.headerBytes)
    have hws : ∀ n, Appends n (writeTraceSamples y.samples t e) () y.sampleBytes := fun n =>
      Appends.lift_bind ho.stored (Appends.write _ y.sampleBytes)
    have hstep : ∀ l : List Int, writeTraces d p e ((a : Int) :: l) s =
        (writeTraces d p e l >>= fun later => pure (round64 (((a : Int) : ℚ) / d.num_traces) :: later))
        { data := s.data ++ (y.headerBytes ++ y.sampleBytes),
          pos := s.data.length + (y.headerBytes ++ y.sampleBytes).length, limit := none } := by
      intro l
      rw [writeTraces, h0, bind_ok (lift_apply _ _), bind_ok ((hw s.data.length).free s rfl hpos hlim), s0,
        bind_ok (lift_apply _ _), ht, bind_ok (lift_apply _ _),
        bind_ok ((hws (s.data.length + y.headerBytes.length)).free _ (by simp) rfl rfl), if_neg hn]
      simp [List.append_assoc, Nat.add_assoc]
    have hnext := ih (a + 1) rest x err (fun z hz => hok z (List.mem_cons_of_mem _ hz)) hx
      (fun j hj => by
        have := hh (j + 1) (by simpa using hj)
        rw [show a + (j + 1) = a + 1 + j by omega] at this
        simpa using this)
      (fun j hj => by
        have := hs (j + 1) (by simpa using hj)
        rw [show a + (j + 1) = a + 1 + j by omega] at this
        simpa using this)
      { data := s.data ++ (y.headerBytes ++ y.sampleBytes),
        pos := s.data.length + (y.headerBytes ++ y.sampleBytes).length, limit := none } (by simp) rfl
    rw [show a + 1 + ts.length = a + (ts.length + 1) by omega] at hnext
    rw [List.length_cons, List.range'_succ, List.map_cons, List.cons_append, hstep, body_cons]
    refine ⟨fun h => ?_, fun h h' => ?_⟩
    · rw [bind_error (hnext.1 h)]
      simp [List.append_assoc, Nat.add_assoc]
    · rw [bind_error (hnext.2 h h')]
      simp [List.append_assoc, Nat.add_assoc]

theorem sampleBytes_refuses {t : SegYType} {e : Endian} {vs : List PyNum} (hf : t = .float32 → ∀ v ∈ vs, ∃ f, v = .float f)
    (h : ∃ v ∈ vs, ¬ Fits t v) : ∃ err, sampleBytes vs t e = .error err := by
  cases hs : sampleBytes vs t e with
  | error err => exact ⟨err, rfl⟩
  | ok buf =>
    exfalso
    obtain ⟨v, hv, hn⟩ := h
    unfold sampleBytes at hs
    cases t with
    | int t =>
      rw [if_neg (by simp)] at hs
      exact hn ((Props.C42_int_accepts e t vs).mp ⟨buf, hs⟩ v hv)
    | float32 =>
      rw [if_neg (by simp)] at hs
      have : ∃ fs : List PyFloat, vs = fs.map .float := by
        have hf' := hf rfl
        clear hs hv hn hf
        induction vs with
        | nil => exact ⟨[], rfl⟩
        | cons v vs ih =>
          obtain ⟨fs, rfl⟩ := ih fun w hw => hf' w (List.mem_cons_of_mem _ hw)
          obtain ⟨f, rfl⟩ := hf' v List.mem_cons_self
          exact ⟨f :: fs, rfl⟩
      obtain ⟨fs, rfl⟩ := this
      obtain ⟨f, hfm, rfl⟩ := List.mem_map.mp hv
      exact hn ⟨f, rfl, ((Props.C42_float32_accepts e fs).1).mp ⟨buf, hs⟩ f hfm⟩
    | ibm =>
      rw [if_pos rfl] at hs
      exact hn ((Props.C42_ibm_accepts vs).mp ⟨buf, hs⟩ v hv)

/-- The headers of a consistent dataset are written whatever its traces are. -/
theorem Spec.Consistent.writeHead {d : Dataset} {enc : Encoding} {T : Format} {e : Endian} {t : SegYType} {hs : List Header}
    {vss : List (List PyNum)} (h : Consistent d enc T e t hs vss) (I : Image d enc T e t hs vss) (d' : Dataset)
    (h1 : d'.textual_reel_header = d.textual_reel_header) (h2 : d'.binary_reel_header = d.binary_reel_header)
    (h3 : d'.extended_textual_header = d.extended_textual_header) (h4 : d'.encoding = d.encoding)
    (encoding : Option Encoding) (henc : (encoding.or d.encoding).getD .ascii = enc) :
    writeSegy d' encoding T e { data := [], pos := 0 } =
      (writeTraces d' I.packer e d'.trace_indexes >>= fun progress => pure (progress ++ [1]))
        { data := I.head, pos := I.head.length } := by
  have h36 : I.text.flatten.length + I.bin.length = 3600 := by rw [I.text_length, I.bin_length]
  unfold writeSegy
  simp only [h4, henc, (isSupported_iff enc).mpr h.encoding, Bool.not_true, Bool.false_eq_true, if_false]
  rw [h1, h2, h3, bind_ok ((I.write_text 0).free _ rfl rfl rfl),
    bind_ok ((I.write_bin I.text.flatten.length).free _ (by simp) (by simp) rfl),
    bind_ok (I.write_pages.free _ (by simpa using h36) (by simpa using h36) rfl), I.packs, bind_ok (lift_apply _ _)]
  have hl : I.head.length = 3600 + (pagesBytes I.ess).length := by
    unfold Image.head; rw [List.length_append, List.length_append, h36]
  rw [hl]
  rfl

end Segpy
