import Verif.Lemmas.Update
import Verif.Props.Writer

/-! # Overwriting the reel headers -/

namespace Segpy

open Spec FileM

/-- The bytes that `write_textual_reel_header` writes. -/
theorem writeTextual_writes {enc : Encoding} (henc : enc ≠ .other) {lines : List PyStr}
    (h : ∀ i < 40, Encodable enc (lines.getD i [])) :
    ∃ bss : List Bytes, (fortyCards lines).mapM (encode enc) = .ok bss ∧ bss.flatten.length = 3200 ∧
      ∀ s, writeTextualReelHeader lines enc s = FileM.write bss.flatten s := by
  have hsup := (isSupported_iff enc).mpr henc
  obtain ⟨bss, hc, hlen, -⟩ := writeTextual_appends henc h
  refine ⟨bss, hc, hlen, fun s => ?_⟩
  have hm : ((List.range 40).map fun i => lines.getD i []).mapM (encodeCard enc) = .ok bss := by
    cases hm : ((List.range 40).map fun i => lines.getD i []).mapM (encodeCard enc) with
    | ok bss' =>
      have hc' : (fortyCards lines).mapM (encode enc) = .ok bss' := by
        unfold fortyCards
        rw [mapM_ok_iff] at hm ⊢
        rw [List.forall₂_map_left_iff] at hm ⊢
        exact hm.imp fun i b hb => encodeCard_ok hb
      rw [hc] at hc'
      exact hc'.symm
    | error err =>
      obtain ⟨l, hl, he⟩ := mapM_error hm
      obtain ⟨i, hi, rfl⟩ := List.mem_map.mp hl
      exact absurd (h i (List.mem_range.mp hi)) (encodeCard_error henc he).2
  unfold writeTextualReelHeader
  simp only [hsup, Bool.not_true, Bool.false_eq_true, if_false]
  rw [padTo_eq, hm, bind_ok (lift_apply _ _)]
  rw [if_neg (not_not.mpr (by rw [hlen]; rfl))]

/-- The bytes that `write_binary_reel_header` writes. -/
theorem writeBinary_writes {h : Header} {e : Endian} {n : Nat} (hF : Regular h.format e n) (hv : h.Valid) :
    ∃ bs, bs.length = n ∧
      (∀ f ∈ h.format.fields, f.value_type.Admits (storedInt e f.value_type.segy (h.format.fieldBytes f bs)) ∧
        h.get f.name = .ok (storedInt e f.value_type.segy (h.format.fieldBytes f bs))) ∧
      ∀ s, writeBinaryReelHeader h e s = FileM.write bs s := by
  obtain ⟨p, hp⟩ := hF.packs
  obtain ⟨bs, h1, h2, h3⟩ := pack_regular hF hp rfl hv
  refine ⟨bs, h2, h3, fun s => ?_⟩
  unfold writeBinaryReelHeader
  rw [hp, bind_ok (lift_apply _ _), h1, bind_ok (lift_apply _ _)]

/-- How the reel headers of a file that can be opened are read. -/
theorem reel_facts {T : Format} {e : Endian} {encoding : Option Encoding} {B : Format}
    (hB : Regular B e 400) {dim : Option Int} {s s' : FileH} {r : Reader} {progress : List ℚ}
    (h : createReader encoding B T e dim s = (.ok (r, progress), s')) (hpos : s.pos = 0) :
    3600 ≤ s.data.length ∧ dim ∈ [none, some 1, some 2, some 3] ∧ r.encoding = Props.usedEncoding encoding s.data ∧
    readTextualReelHeader r.encoding s = (.ok r.textual_reel_header, { s with pos := 3200 }) ∧
    readBinaryReelHeader B e { s with pos := 3200 } = (.ok r.binary_reel_header, { s with pos := 3600 }) ∧
    readExtendedHeadersOf r.binary_reel_header r.encoding { s with pos := 3600 } =
      (.ok r.extended_textual_headers, { s with pos := 3600 + 3200 * r.extended_textual_headers.length }) ∧
    ∃ v t, r.binary_reel_header.get "data_sample_format" = .ok v ∧ dataSampleFormatToSegYType v = .ok t ∧
      r.dataSampleFormat = .ok t := by
  obtain ⟨enc, textual, binary, extended, bps, catalogs, k1, k2, k3, k4, h1, h2, h3, h4, h5, h6, h7, -, hdim, hsize⟩ :=
    createReader_ok h
  obtain ⟨rfl, rfl, rfl, rfl, -⟩ := Props.makeReaderOf_fields h7
  obtain ⟨henc, -⟩ := createReader_reel h
  have hk1 : k1 = 0 := by
    rw [← hpos]
    rcases h1 with ⟨_, h1⟩ | ⟨_, o, _, h1⟩
    · exact h1
    · rw [Props.guess_eq] at h1
      exact (congrArg (fun x => x.2.pos) h1).symm
  subst hk1
  have hs : ({ s with pos := 0 } : FileH) = s := by rw [← hpos]
  rw [hs] at h2
  have hk4 := extendedOf_pos h4
  simp only at hk4
  have hk2' := (readTextual_ok h2).1
  have hk2e : k2 = 3200 := by
    have := congrArg FileH.pos hk2'
    simpa [hpos] using this
  subst hk2e
  have hk3 : k3 = 3600 := by
    obtain ⟨p, hp⟩ := hB.packs
    rcases Props.C62_read_binary B e p hp hB.afterStart hB.orderSafe hB.length { s with pos := 3200 } with
      ⟨x, b1, -⟩ | ⟨k, b1, -⟩
    · rw [h3] at b1
      exact congrArg (fun y => y.2.pos) b1
    · rw [h3] at b1
      cases b1
  subst hk3 hk4
  obtain ⟨v, t, hv, ht, -⟩ := headerBytesPerSample_ok h5
  refine ⟨hsize, hdim, henc, h2, h3, h4, v, t, hv, ht, ?_⟩
  unfold Reader.dataSampleFormat
  rw [hv]
  exact ht

/-- A file whose reel headers can be read, with traces, can be opened. -/
theorem opens_with {T : Format} {e : Endian} (hT : Cataloguable T e) {encoding : Option Encoding} {B : Format}
    {dim : Option Int} (hdim : dim ∈ [none, some 1, some 2, some 3]) {s : FileH} {textual : List PyStr} {binary : Header}
    {extended : List (List PyStr)} {t : SegYType} (hread : Props.HeadersRead encoding B e s textual binary extended t)
    {starts : List Nat} (hne : starts ≠ []) (htr : Traces T e s.data t.size (3600 + 3200 * extended.length) starts)
    {w revision : Int} (hw : binary.get "format_revision_num" = .ok w) (hrev : canonicalizeRevision w = .ok revision) :
    ∃ r2 progress2 s2, createReader encoding B T e dim s = (.ok (r2, progress2), s2) ∧
      r2.encoding = Props.usedEncoding encoding s.data ∧ r2.textual_reel_header = textual ∧
      r2.binary_reel_header = binary ∧ r2.extended_textual_headers = extended ∧
      r2.revision = revision ∧ Opened T e dim s.data (3600 + 3200 * extended.length) t starts r2 := by
  obtain ⟨r2, progress2, s2, m1, m2, m3, m4, m5, m6, m7⟩ := (Props.C51_opens_partial T e hT encoding B dim hdim _ _ _ _ _
    hread).1 starts revision w hne htr hw hrev
  obtain ⟨t2, starts3, ho2⟩ := createReader_opened hT m1
  have htt : t2 = t := by
    have := ho2.format
    rw [m2.data_sample_format] at this
    exact (Except.ok.inj this).symm
  subst htt
  have hss : starts3 = starts := Props.C61_unique _ _ _ _ _ _ _ ho2.traces (by rw [m5]; exact htr)
  subst hss
  rw [m5] at ho2
  exact ⟨r2, progress2, s2, m1, m6, m3, m4, m5, m7, ho2⟩

/-- Traces are the same in a file that differs only before them. -/
theorem same_after {T : Format} {e : Endian} (hT : Cataloguable T e) {p : HeaderPacker}
    (hp : makeHeaderPacker T e = .ok p) {dim dim2 : Option Int} {s s1 : FileH} {pos : Nat} {t : SegYType} {starts : List Nat}
    {r q : Reader} (ho : Opened T e dim s.data pos t starts r) (hq : Opened T e dim2 s1.data pos t starts q ∨ q = r)
    (hd : s1.data.drop pos = s.data.drop pos) : SameTraces r s q s1 := by
  have hfind := ho.finds hT hp
  obtain ⟨stop, hc, -⟩ := ho.traces
  have hslice : ∀ a n, pos ≤ a → (s1.data.drop a).take n = (s.data.drop a).take n := by
    intro a n ha
    obtain ⟨k, rfl⟩ := Nat.exists_eq_add_of_le ha
    rw [← List.drop_drop, ← List.drop_drop, hd]
  have hle := (chain_tiled hc).first_le
  have hfq : Finds starts (fun i => samplesAt T e s.data (starts.getD i 0)) t e p q := by
    rcases hq with hq | rfl
    · have := hq.finds hT hp
      refine ⟨this.num, this.offset, ?_, this.format, this.endian, this.packer⟩
      intro i hi
      rw [this.length i hi]
      have hgd : starts.getD i 0 = starts[i] := by
        simp [List.getD_eq_getElem?_getD, List.getElem?_eq_getElem hi]
      simp only [hgd]
      unfold samplesAt fieldAt headerBytes
      rw [hslice _ _ (hle i hi)]
    · exact hfind
  have hlen : ∀ n : Nat, r.numTraces = .ok n → n = starts.length := by
    intro n hn
    rw [hfind.num] at hn
    have := Except.ok.inj hn
    omega
  refine ⟨?_, ?_, ?_, ?_, ?_⟩
  · rw [hfind.num, hfq.num]
  · rw [hfind.format, hfq.format]
  · intro i n hn hi
    rw [hlen n hn] at hi
    rw [hfind.length i hi, hfq.length i hi]
  · intro i n k packer hn hi
    rw [hlen n hn] at hi
    exact hfind.header_same hfq i hi packer s _ (hslice _ _ (hle i hi))
  · intro i n k native start stop' hn hi
    rw [hlen n hn] at hi
    exact hfind.samples_same hfq native i hi start stop' s _ (hslice _ _ (by have := hle i hi; omega))

theorem traces_after {T : Format} {e : Endian} (hT : Cataloguable T e) {dim : Option Int} {d d0 : Bytes} {pos : Nat}
    {t : SegYType} {starts : List Nat} {r : Reader} (ho : Opened T e dim d0 pos t starts r) (hl : d.length = d0.length)
    (hd : d.drop pos = d0.drop pos) : Traces T e d t.size pos starts := by
  obtain ⟨stop, hc, hend⟩ := ho.traces
  have hle := hc.le_stop.2
  have hb : ∀ q ∈ starts, headerBytes d q = headerBytes d0 q := by
    intro q hq
    unfold headerBytes
    obtain ⟨k, rfl⟩ := Nat.exists_eq_add_of_le (hle q hq).1
    rw [← List.drop_drop, ← List.drop_drop, hd]
  refine Holds.traces hc (by omega) (by omega) ?_ ?_
  · intro q hq
    have := (Props.start_facts hT ho hq).2.1
    unfold Indexable fieldAt at this ⊢
    rw [hb q hq]
    exact this
  · intro q hq
    unfold samplesAt fieldAt
    rw [hb q hq]

/-! ## Text that is a mixture of two texts -/

private theorem exists_mapM {α β : Type} {f : α → Res β} {l : List α} (h : ∀ a ∈ l, ∃ b, f a = .ok b) :
    ∃ bs, l.mapM f = .ok bs := by
  induction l with
  | nil => exact ⟨[], rfl⟩
  | cons a l ih =>
    obtain ⟨b, hb⟩ := h a List.mem_cons_self
    obtain ⟨bs, hbs⟩ := ih fun x hx => h x (List.mem_cons_of_mem _ hx)
    exact ⟨b :: bs, by rw [List.mapM_cons, hb, hbs]; rfl⟩

private theorem forall₂_flatten {α β : Type} {R : α → β → Prop} {l : List (List α)} {m : List (List β)}
    (h : List.Forall₂ (List.Forall₂ R) l m) : List.Forall₂ R l.flatten m.flatten := by
  induction h with
  | nil => exact List.Forall₂.nil
  | cons h1 _ ih => exact List.rel_append h1 ih

/-- Decoding a textual header is decoding each of its bytes. -/
theorem decodeCards_bytes {enc : Encoding} {raw : Bytes} (hl : raw.length = 3200) :
    (∀ cards, decodeCards enc raw = .ok cards → raw.mapM (decodeByte enc) = .ok cards.flatten) ∧
    (∀ text, raw.mapM (decodeByte enc) = .ok text →
      ∃ cards, decodeCards enc raw = .ok cards ∧ cards.flatten = text ∧ cards.length = 40 ∧ ∀ c ∈ cards, c.length = 80) := by
  obtain ⟨b1, b2, b3⟩ := batchedLoop_exact 80 (by omega) none 40 raw (by omega)
  have heq : decodeCards enc raw = (batchedLoop 80 none [] raw).mapM (decode enc) := by
    unfold decodeCards batched
    rw [if_neg (by decide)]
    rfl
  rw [heq]
  generalize batchedLoop 80 none [] raw = bss at b1 b2 b3
  have hflat : ∀ cards, bss.mapM (decode enc) = .ok cards → raw.mapM (decodeByte enc) = .ok cards.flatten := by
    intro cards h
    rw [mapM_ok_iff] at h ⊢
    rw [← b3]
    exact forall₂_flatten (h.imp fun a b hab => (mapM_ok_iff _ _ _).mp hab)
  refine ⟨hflat, ?_⟩
  intro text h
  obtain ⟨cards, hc⟩ : ∃ cards, bss.mapM (decode enc) = .ok cards := by
    apply exists_mapM
    intro bs hbs
    unfold decode
    apply exists_mapM
    intro b hb
    have hf := (mapM_ok_iff _ _ _).mp h
    rw [← b3] at hf
    have hmem : b ∈ bss.flatten := List.mem_flatten.mpr ⟨bs, hbs, hb⟩
    obtain ⟨i, hi, rfl⟩ := List.mem_iff_getElem.mp hmem
    have hi2 : i < text.length := by rw [← hf.length_eq]; exact hi
    exact ⟨text[i], (List.forall₂_iff_get.mp hf).2 i hi hi2⟩
  have h2 := hflat cards hc
  rw [h] at h2
  have hf := (mapM_ok_iff _ _ _).mp hc
  refine ⟨cards, hc, (Except.ok.inj h2).symm, by rw [← hf.length_eq, b1], ?_⟩
  intro c hcm
  obtain ⟨i, hi, rfl⟩ := List.mem_iff_getElem.mp hcm
  have hi2 : i < bss.length := by rw [hf.length_eq]; exact hi
  have := (List.forall₂_iff_get.mp hf).2 i hi2 hi
  simp only [List.get_eq_getElem] at this
  rw [decode_length this, b2 _ (List.getElem_mem _)]

/-- Part of a text followed by the rest of another. -/
theorem mapM_mixed {α β : Type} {f : α → Res β} {l l' : List α} {m m' : List β} (h : l.mapM f = .ok m)
    (h' : l'.mapM f = .ok m') (k : Nat) : (l.take k ++ l'.drop k).mapM f = .ok (m.take k ++ m'.drop k) := by
  rw [mapM_ok_iff] at h h' ⊢
  exact List.rel_append (List.forall₂_take k h) (List.forall₂_drop k h')

end Segpy
