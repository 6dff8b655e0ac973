import Verif.Props.Writer
import Verif.Props.Opening
import Verif.Props.Text
import Verif.Lemmas.Extract4
import Verif.Lemmas.Cache
import Verif.Spec.Copy
import Verif.Model.Copy

/-! # Lemmas about copying a file -/

namespace Segpy

open Spec FileM

private theorem exists_left {α β} {R : α → β → Prop} {l : List α} {r : List β} (h : List.Forall₂ R l r) {b : β}
    (hb : b ∈ r) : ∃ a ∈ l, R a b := by
  induction h with
  | nil => simp at hb
  | cons h1 _ ih =>
    rcases List.mem_cons.mp hb with rfl | hb
    · exact ⟨_, List.mem_cons_self, h1⟩
    · obtain ⟨a, h2, h3⟩ := ih hb
      exact ⟨a, List.mem_cons_of_mem _ h2, h3⟩

/-! ## Textual headers -/

/-- A textual header that was read is a page, and is stored as the bytes it was read from. -/
theorem readTextual_page {enc : Encoding} {s s' : FileH} {l : List PyStr}
    (h : readTextualReelHeader enc s = (.ok l, s')) : enc ≠ .other ∧ IsPage enc l ∧
      ∃ bss, l.mapM (encode enc) = .ok bss ∧ bss.flatten = (s.data.drop s.pos).take 3200 := by
  rw [readTextual_apply] at h
  split at h
  swap
  · simp at h
  rename_i hl
  simp only [Prod.mk.injEq] at h
  have hlen : ((s.data.drop s.pos).take 3200).length = 40 * 80 := by
    rw [List.length_take, List.length_drop]; omega
  obtain ⟨b1, b2, b3⟩ := batchedLoop_exact 80 (by omega) none 40 _ hlen
  have hd := h.1
  unfold decodeCards batched at hd
  rw [if_neg (by decide)] at hd
  simp only [bind, Except.bind] at hd
  have hc : (CARD_LENGTH : Int).toNat = 80 := rfl
  rw [hc] at hd
  have hf := (mapM_ok_iff _ _ _).mp hd
  have hother : enc ≠ .other := by
    rintro rfl
    cases hb : batchedLoop 80 none [] ((s.data.drop s.pos).take 3200) with
    | nil => rw [hb] at b1; simp at b1
    | cons x xs =>
      rw [hb] at hd b2
      have hx := b2 x List.mem_cons_self
      cases x with
      | nil => simp at hx
      | cons y ys =>
        rw [List.mapM_cons] at hd
        unfold decode at hd
        rw [List.mapM_cons] at hd
        cases hd
  refine ⟨hother, ⟨?_, ?_⟩, _, mapM_inverse (fun a b hab => (Props.C35_encode_decode enc b a hab).1) hd, b3⟩
  · rw [← hf.length_eq, b1]
  · intro x hx
    obtain ⟨y, hy, hxy⟩ := exists_left hf hx
    exact ⟨by rw [decode_length hxy, b2 y hy], (encodable_iff enc hother x).mpr ⟨_, (Props.C35_encode_decode enc x y hxy).1⟩⟩

theorem card_of_length {l : PyStr} (h : l.length = 80) : card l = l := by
  unfold card
  rw [h, List.take_of_length_le (by omega)]
  simp

theorem fortyCards_page {enc : Encoding} {l : List PyStr} (h : IsPage enc l) : fortyCards l = l := by
  unfold fortyCards
  refine List.ext_getElem (by simp [h.1]) ?_
  intro i h1 h2
  simp only [List.getElem_map, List.getElem_range]
  rw [List.getD_eq_getElem?_getD, List.getElem?_eq_getElem h2, Option.getD_some]
  exact card_of_length (h.2 _ (List.getElem_mem h2)).1

theorem page_encodable {enc : Encoding} {l : List PyStr} (h : IsPage enc l) (i : Nat) (hi : i < 40) :
    Encodable enc (l.getD i []) := by
  have h2 : i < l.length := by rw [h.1]; exact hi
  rw [List.getD_eq_getElem?_getD, List.getElem?_eq_getElem h2, Option.getD_some]
  exact (h.2 _ (List.getElem_mem h2)).2

/-- Two files whose textual headers read the same begin with the same bytes. -/
theorem readTextual_inj {enc : Encoding} {s1 s2 s1' s2' : FileH} {l : List PyStr}
    (h1 : readTextualReelHeader enc s1 = (.ok l, s1')) (h2 : readTextualReelHeader enc s2 = (.ok l, s2')) :
    (s1.data.drop s1.pos).take 3200 = (s2.data.drop s2.pos).take 3200 := by
  obtain ⟨_, _, b1, g1, e1⟩ := readTextual_page h1
  obtain ⟨_, _, b2, g2, e2⟩ := readTextual_page h2
  rw [g1] at g2
  cases g2
  rw [← e1, e2]

theorem hasEnd_stops {l : List PyStr} {b : Bool} (h : hasEndTextStanza l = .ok b) : b = true ↔ Stops l := by
  unfold hasEndTextStanza at h
  cases l with
  | nil => cases h
  | cons x xs =>
    simp only [Except.ok.injEq] at h
    rw [← h]
    unfold Stops
    simp only [List.getD_cons_zero]
    exact isSubstring_iff _ _

/-- Extended headers read up to the stop stanza. -/
theorem until_pages {enc : Encoding} (fuel : Nat) {s s' : FileH} {acc out : List (List PyStr)}
    (h : readExtendedUntilEndLoop enc fuel acc s = (.ok out, s')) :
    ∃ pages, out = acc ++ pages ∧ (∀ p ∈ pages, IsPage enc p) ∧ (∀ p ∈ pages.dropLast, ¬ Stops p) ∧
      ∃ p, pages.getLast? = some p ∧ Stops p := by
  induction fuel generalizing acc s with
  | zero => simp [readExtendedUntilEndLoop] at h
  | succ fuel ih =>
    unfold readExtendedUntilEndLoop at h
    obtain ⟨p, s1, h1, g⟩ := bind_eq_ok h
    clear h
    have hp := (readTextual_page h1).2.1
    obtain ⟨b, s2, h2, h⟩ := bind_eq_ok g
    clear g
    obtain ⟨hb, hs2⟩ := lift_eq_ok h2
    have hs := hasEnd_stops hb
    split at h
    · rename_i hbt
      simp only [pure_apply, Prod.mk.injEq, Except.ok.injEq] at h
      obtain ⟨rfl, rfl⟩ := h
      refine ⟨[p], rfl, by simpa using hp, by simp, p, rfl, hs.mp hbt⟩
    · rename_i hbf
      obtain ⟨pages, g1, g2, g3, q, g4, g5⟩ := ih h
      have hne : pages ≠ [] := by rintro rfl; simp at g4
      refine ⟨p :: pages, by rw [g1]; simp, ?_, ?_, q, ?_, g5⟩
      · intro x hx
        rcases List.mem_cons.mp hx with rfl | hx
        · exact hp
        · exact g2 x hx
      · rw [List.dropLast_cons_of_ne_nil hne]
        intro x hx
        rcases List.mem_cons.mp hx with rfl | hx
        · exact fun hx' => hbf (hs.mpr hx')
        · exact g3 x hx
      · rw [List.getLast?_cons, g4]; rfl

/-- Extended headers of which a number is read. -/
theorem counted_pages {enc : Encoding} (n left : Nat) {i : Nat} {s s' : FileH} {acc out : List (List PyStr)}
    (hi : i + left = n) (h : readExtendedCountedLoop enc n left i acc s = (.ok out, s')) :
    ∃ pages, out = acc ++ pages ∧ pages.length = left ∧ (∀ p ∈ pages, IsPage enc p) ∧
      (∀ p ∈ pages.dropLast, ¬ Stops p) := by
  induction left generalizing acc s i with
  | zero =>
    simp only [readExtendedCountedLoop, pure_apply, Prod.mk.injEq, Except.ok.injEq] at h
    obtain ⟨rfl, rfl⟩ := h
    exact ⟨[], by simp, rfl, by simp, by simp⟩
  | succ left ih =>
    unfold readExtendedCountedLoop at h
    obtain ⟨p, s1, h1, g⟩ := bind_eq_ok h
    clear h
    have hp := (readTextual_page h1).2.1
    obtain ⟨b, s2, h2, h⟩ := bind_eq_ok g
    clear g
    obtain ⟨hb, hs2⟩ := lift_eq_ok h2
    have hs := hasEnd_stops hb
    split at h
    · simp at h
    · rename_i hbf
      obtain ⟨pages, g1, g2, g3, g4⟩ := ih (by omega) h
      refine ⟨p :: pages, by rw [g1]; simp, by simp [g2], ?_, ?_⟩
      · intro x hx
        rcases List.mem_cons.mp hx with rfl | hx
        · exact hp
        · exact g3 x hx
      · cases left with
        | zero =>
          have : pages = [] := List.eq_nil_of_length_eq_zero g2
          subst this
          simp
        | succ left =>
          have hne : pages ≠ [] := by rintro rfl; simp at g2
          rw [List.dropLast_cons_of_ne_nil hne]
          intro x hx
          rcases List.mem_cons.mp hx with rfl | hx
          · intro hx'
            have := hs.mpr hx'
            rw [this] at hbf
            simp only [Bool.true_and, bne_iff_ne, ne_eq, Decidable.not_not] at hbf
            omega
          · exact g4 x hx

/-- The extended headers that were read are as they have to be for writing. -/
theorem extendedOf_pages {enc : Encoding} {hd : Header} {s s' : FileH} {out : List (List PyStr)}
    (h : readExtendedHeadersOf hd enc s = (.ok out, s')) :
    (∀ p ∈ out, IsPage enc p) ∧ (∀ p ∈ out.dropLast, ¬ Stops p) ∧
      ∃ n, hd.get "num_extended_textual_headers" = .ok n ∧
        (n = out.length ∨ (n < 0 ∧ ∃ p, out.getLast? = some p ∧ Stops p)) := by
  unfold readExtendedHeadersOf at h
  obtain ⟨n, s1, h1, g⟩ := bind_eq_ok h
  clear h
  obtain ⟨hn, rfl⟩ := lift_eq_ok h1
  unfold readExtendedTextualHeaders at g
  rw [bind_ok (show FileM.seek (REEL_HEADER_NUM_BYTES : Nat) _ = _ from seek_apply _ _)] at g
  split at g
  · rename_i hneg
    obtain ⟨pages, g1, g2, g3, g4⟩ := until_pages _ g
    rw [List.nil_append] at g1
    subst g1
    exact ⟨g2, g3, n, hn, Or.inr ⟨hneg, g4⟩⟩
  · rename_i hneg
    unfold readExtendedHeadersCounted at g
    split at g
    · simp at g
    · obtain ⟨pages, g1, g2, g3, g4⟩ := counted_pages n.toNat n.toNat (by omega) g
      rw [List.nil_append] at g1
      subst g1
      exact ⟨g3, g4, n, hn, Or.inl (by omega)⟩

/-! ## The reel headers of a reader -/

theorem createReader_reel {encoding : Option Encoding} {B T : Format} {e : Endian} {dim : Option Int} {s s' : FileH}
    {r : Reader} {progress : List ℚ} (h : createReader encoding B T e dim s = (.ok (r, progress), s')) :
    r.encoding = Props.usedEncoding encoding s.data ∧
    (∃ s1, readTextualReelHeader r.encoding s = (.ok r.textual_reel_header, s1)) ∧
    (∃ s1 s2, readExtendedHeadersOf r.binary_reel_header r.encoding s1 = (.ok r.extended_textual_headers, s2)) := by
  obtain ⟨enc, textual, binary, extended, bps, catalogs, k1, k2, k3, k4, h1, h2, _, h4, _, _, h7, _⟩ :=
    createReader_ok h
  have hr : r.textual_reel_header = textual ∧ r.binary_reel_header = binary ∧ r.extended_textual_headers = extended ∧
      r.encoding = enc := by
    have key : ∀ offsets lengths kind, Reader.make textual binary extended offsets lengths T enc e kind = .ok r →
        r.textual_reel_header = textual ∧ r.binary_reel_header = binary ∧ r.extended_textual_headers = extended ∧
          r.encoding = enc := by
      intro offsets lengths kind hm
      unfold Reader.make at hm
      obtain ⟨_, _, hm⟩ := res_bind_ok hm
      obtain ⟨_, _, hm⟩ := res_bind_ok hm
      obtain ⟨_, _, hm⟩ := res_bind_ok hm
      cases hm
      exact ⟨rfl, rfl, rfl, rfl⟩
    unfold makeReaderOf at h7
    simp only at h7
    split at h7
    · cases h7
    obtain ⟨_, _, h7⟩ := res_bind_ok h7
    obtain ⟨_, _, h7⟩ := res_bind_ok h7
    obtain ⟨_, _, h7⟩ := res_bind_ok h7
    split at h7
    · exact key _ _ _ h7
    split at h7
    · exact key _ _ _ h7
    · exact key _ _ _ h7
  obtain ⟨r1, r2, r3, r4⟩ := hr
  have hk : enc = Props.usedEncoding encoding s.data ∧ k1 = s.pos := by
    rcases h1 with ⟨rfl, rfl⟩ | ⟨rfl, o, ho, hg⟩
    · exact ⟨rfl, rfl⟩
    · rw [Props.guess_eq] at hg
      simp only [Prod.mk.injEq, Except.ok.injEq] at hg
      refine ⟨?_, ?_⟩
      · rw [← ho, ← hg.1]; rfl
      · exact (congrArg FileH.pos hg.2).symm
  obtain ⟨rfl, rfl⟩ := hk
  rw [r4, r1, r2, r3]
  exact ⟨rfl, ⟨_, h2⟩, _, _, h4⟩

/-! ## Samples -/

theorem storedInt_bounds {e : Endian} {t : IntType} {item : Bytes} (hl : item.length = t.size) :
    intLo t ≤ storedInt e t item ∧ storedInt e t item ≤ intHi t := by
  have hlt := leNat_lt (e.order item)
  rw [Endian.order_length, hl] at hlt
  rw [← bytesNat_eq] at hlt
  unfold storedInt
  rw [hl]
  generalize bytesNat e item = n at hlt
  cases t
  case int32 => rw [show IntType.int32.size = 4 from rfl] at hlt ⊢; simp [IntType.signed, intLo, intHi] at hlt ⊢; split <;> omega
  case nnint32 => rw [show IntType.nnint32.size = 4 from rfl] at hlt ⊢; simp [IntType.signed, intLo, intHi] at hlt ⊢; omega
  case int16 => rw [show IntType.int16.size = 2 from rfl] at hlt ⊢; simp [IntType.signed, intLo, intHi] at hlt ⊢; split <;> omega
  case nnint16 => rw [show IntType.nnint16.size = 2 from rfl] at hlt ⊢; simp [IntType.signed, intLo, intHi] at hlt ⊢; omega
  case int8 => rw [show IntType.int8.size = 1 from rfl] at hlt ⊢; simp [IntType.signed, intLo, intHi] at hlt ⊢; split <;> omega
  case nnint8 => rw [show IntType.nnint8.size = 1 from rfl] at hlt ⊢; simp [IntType.signed, intLo, intHi] at hlt ⊢; omega

theorem isFloat32_fits {q : ℚ} (h : IsFloat32 q) : |q| < (2 : ℚ) ^ (128 : Int) - 2 ^ (103 : Int) := by
  rw [← not_le, ← round32_overflow, round32, roundTo_of_representable h.1, not_le]
  exact h.2

/-- The number a sample stands for can be stored as a sample, and is then read back unchanged. -/
theorem standsFor_stored {e : Endian} {t : SegYType} {item : Bytes} {v : PyNum} (hl : item.length = t.size)
    (h : StandsFor e t item v) : Fits t v ∧ ∀ w, StoredAs t v w → w = v := by
  cases t with
  | int t =>
    have hv : v = .int (storedInt e t item) := h
    subst hv
    exact ⟨⟨_, rfl, storedInt_bounds hl⟩, fun w hw => hw⟩
  | float32 =>
    obtain ⟨f, rfl, hf⟩ := h
    have hq : ∀ q, f = .fin q → IsFloat32 q := by
      intro q hq
      subst hq
      by_cases hx : bytesNat e item / 2 ^ 23 % 2 ^ 8 = 255
      · rw [if_pos hx] at hf
        split at hf <;> cases hf
      · rw [if_neg hx] at hf
        have hv := hf.2.1
        simp only [PyFloat.val] at hv
        rw [hv]
        exact float32Value_isFloat32 _ hx
    refine ⟨⟨f, rfl, ?_⟩, ?_⟩
    · cases f with
      | fin q => exact isFloat32_fits (hq q rfl)
      | negZero => trivial
      | inf _ => trivial
      | nan => trivial
    · rintro w ⟨f', g, h1, rfl, hg⟩
      cases h1
      congr 1
      cases f with
      | fin q =>
        obtain ⟨r, hr, h1, h2⟩ := hg
        have := rounding32_self (hq q rfl) hr
        subst this
        by_cases h0 : r = 0
        · rw [h2 h0, h0]; simp
        · exact h1 h0
      | negZero => exact hg
      | inf _ => exact hg
      | nan => exact hg
  | ibm =>
    obtain ⟨a, b, c, d, rfl, rfl⟩ := h
    refine ⟨trivial, ?_⟩
    rintro w ⟨x, rfl, hx⟩
    rw [show x = _ from hx]

/-- What is known of an opened reader. -/
theorem createReader_all {T : Format} {e : Endian} (hT : Cataloguable T e) {encoding : Option Encoding} {B : Format}
    {dim : Option Int} {s s' : FileH} {r : Reader} {progress : List ℚ}
    (h : createReader encoding B T e dim s = (.ok (r, progress), s')) :
    ∃ t starts, Readable T e s t starts r ∧
      Opened T e dim s.data (3600 + 3200 * r.extended_textual_headers.length) t starts r := by
  obtain ⟨t, starts, g1, g2, g3, -⟩ := createReader_sectioned hT h
  obtain ⟨t', starts', ho⟩ := createReader_opened hT h
  have htt : t' = t := by
    have := ho.format
    rw [g1.data_sample_format] at this
    exact (Except.ok.inj this).symm
  subst htt
  have hss := Props.C61_unique _ _ _ _ _ _ _ ho.traces g2
  subst hss
  exact ⟨t', starts', g3, ho⟩

/-- A trace header that is returned has the given format, is valid, and says what the bytes of the file say. -/
theorem traceHeader_ok {T : Format} {e : Endian} (hT : Cataloguable T e) (horder : T.OrderSafe) {dim : Option Int}
    {s : FileH} {pos0 : Nat} {t : SegYType} {starts : List Nat} {r : Reader} (hr : Readable T e s t starts r)
    (ho : Opened T e dim s.data pos0 t starts r) {i : Nat} (hi : i < starts.length) {pos : Nat} {hd : Header}
    (h : (r.traceHeader i none { s with pos := pos }).1 = .ok hd) :
    hd.format = T ∧ hd.Valid ∧ ∀ f ∈ T.fields, hd.get f.name = .ok (fieldAt T e s.data starts[i] f.name) := by
  have hfield : ∀ f ∈ T.fields, fieldAt T e s.data starts[i] f.name =
      storedInt e f.value_type.segy (T.fieldBytes f (headerBytes s.data starts[i])) := by
    intro f hf
    unfold fieldAt
    rw [Format.mem_fields.mp hf]
  unfold Reader.traceHeader at h
  rw [hr.describes.num_traces, bind_ok (lift_apply _ _), if_neg (by omega)] at h
  simp only [Option.getD_none] at h
  rw [ho.offset.get_number hi, bind_ok (lift_apply _ _)] at h
  rcases Props.C54_read_header_partial T e _ ho.packer hT.afterStart horder hT.length starts[i] { s with pos := pos } with
    ⟨hd', h1, _, h3, h4⟩ | ⟨k, h1, h3⟩
  · rw [h1] at h
    cases h
    refine ⟨h3, ?_, ?_⟩
    · intro f hf
      rw [h3] at hf
      exact ⟨_, (h4 f hf).2, (h4 f hf).1⟩
    · intro f hf
      rw [hfield f hf]
      exact (h4 f hf).2
  · rw [h1] at h
    cases h

/-- All samples of a trace, if they can be read. -/
theorem traceSamples_ok {T : Format} {e : Endian} (hT : Cataloguable T e) {dim : Option Int}
    {s : FileH} {pos0 : Nat} {t : SegYType} {starts : List Nat} {r : Reader} (hr : Readable T e s t starts r)
    (ho : Opened T e dim s.data pos0 t starts r) {native : Endian} {i : Nat} (hi : i < starts.length) {pos : Nat}
    {vs : List PyNum} (h : (r.traceSamples native i none none { s with pos := pos }).1 = .ok vs) :
    fieldAt T e s.data starts[i] "num_samples" = (vs.length : Int) ∧
      (∀ pos', (r.traceSamples native i none none { s with pos := pos' }).1 = .ok vs) ∧
      ∀ v ∈ vs, Fits t v ∧ ∀ w, StoredAs t v w → w = v := by
  obtain ⟨-, -, hn⟩ := Props.start_facts hT ho (List.getElem_mem hi)
  have hlen := (Props.C45_subrange r native i _ vs h).1
  rw [hr.describes.num_trace_samples i hi] at hlen
  have hlen' := Except.ok.inj hlen
  have hpos : ∀ pos', (r.traceSamples native i none none { s with pos := pos' }).1 = .ok vs := by
    intro pos'
    rw [traceSamples_pos] at h ⊢
    exact h
  refine ⟨hlen', hpos, ?_⟩
  obtain ⟨f1, f2⟩ := hr.reads native i hi 0 vs.length pos (Nat.zero_le _) (by rw [hlen'])
  have hall := traceSamples_all r native i _ (hr.describes.num_trace_samples i hi) { s with pos := pos }
  rw [hlen'] at hall
  have hall' : (r.traceSamples native i (some ((0 : Nat) : Int)) (some (vs.length : Int)) { s with pos := pos }).1 = .ok vs := by
    rw [← h, hall]; rfl
  by_cases hz : vs.length = 0
  · have : vs = [] := List.eq_nil_of_length_eq_zero hz
    subst this
    simp
  by_cases hfit : starts[i] + 240 + vs.length * t.size ≤ s.data.length
  · obtain ⟨l, l1, l2, l3⟩ := f2 (Or.inr hfit)
    rw [hall'] at l1
    cases l1
    intro v hv
    obtain ⟨k, hk, rfl⟩ := List.mem_iff_getElem.mp hv
    refine standsFor_stored ?_ (l3 k hk)
    rw [List.length_take, List.length_drop]
    have hp := t.size_pos
    have : (k + 1) * t.size ≤ vs.length * t.size := Nat.mul_le_mul_right _ (by omega)
    rw [Nat.succ_mul] at this
    omega
  · have := f1 (by omega) (by omega)
    rw [hall'] at this
    cases this

theorem exists_list {α : Type} (n : Nat) {P : Nat → α → Prop} (h : ∀ i < n, ∃ x, P i x) :
    ∃ l : List α, l.length = n ∧ ∀ i (hi : i < l.length), P i l[i] := by
  induction n with
  | zero => exact ⟨[], rfl, by simp⟩
  | succ n ih =>
    obtain ⟨l, h1, h2⟩ := ih fun i hi => h i (by omega)
    obtain ⟨x, hx⟩ := h n (by omega)
    refine ⟨l ++ [x], by simp [h1], ?_⟩
    intro i hi
    by_cases hin : i < l.length
    · rw [List.getElem_append_left hin]; exact h2 i hin
    · have : i = l.length := by simp at hi; omega
      subst this
      rw [List.getElem_append_right (le_refl _)]
      simpa [h1] using hx

/-- The dataset a reader is. -/
theorem asDataset_consistent {T : Format} {e e' : Endian} (hT : Cataloguable T e) (hT' : Cataloguable T e')
    (hTr : Regular T e' 240) {B : Format} (hB : Regular B e' 400) {encoding : Option Encoding} {dim : Option Int}
    {s s' : FileH} {r : Reader} {progress : List ℚ} (h : createReader encoding B T e dim s = (.ok (r, progress), s'))
    {native : Endian} (hread : AllReadable native r s) :
    ∃ t starts hs vss, Readable T e s t starts r ∧
      Opened T e dim s.data (3600 + 3200 * r.extended_textual_headers.length) t starts r ∧
      hs.length = starts.length ∧ Consistent (r.asDataset native s) r.encoding T e' t hs vss := by
  obtain ⟨t, starts, hr, ho⟩ := createReader_all hT h
  obtain ⟨henc, ⟨s1, ht⟩, s2, s3, hx⟩ := createReader_reel h
  obtain ⟨t1, t2, -⟩ := readTextual_page ht
  obtain ⟨x1, x2, x3⟩ := extendedOf_pages hx
  obtain ⟨b1, b2⟩ := createReader_binary hB.afterStart hB.orderSafe h
  have hdesc := hr.describes
  obtain ⟨l, hl, hread⟩ := hread
  rw [hdesc.trace_indexes] at hl
  have hl' := Except.ok.inj hl
  have hh : ∀ i < starts.length, ∃ hd, (r.traceHeader i none s).1 = .ok hd := by
    intro i hi
    exact (hread i (by rw [← hl']; exact List.mem_map.mpr ⟨i, List.mem_range.mpr hi, rfl⟩)).1
  have hv : ∀ i < starts.length, ∃ vs, (r.traceSamples native i none none s).1 = .ok vs := by
    intro i hi
    exact (hread i (by rw [← hl']; exact List.mem_map.mpr ⟨i, List.mem_range.mpr hi, rfl⟩)).2
  obtain ⟨hs, hs1, hs2⟩ := exists_list _ hh
  obtain ⟨vss, vs1, vs2⟩ := exists_list _ hv
  have hhok := fun i (hi : i < hs.length) => traceHeader_ok hT hTr.orderSafe hr ho (hs1 ▸ hi) (pos := s.pos) (hs2 i hi)
  have hvok := fun i (hi : i < vss.length) => traceSamples_ok hT hr ho (vs1 ▸ hi) (pos := s.pos) (vs2 i hi)
  refine ⟨t, starts, hs, vss, hr, ho, hs1, ?_⟩
  have hrev := Props.C55_canonical_partial T e encoding B dim s s' r progress h
  refine
    { encoding := t1
      textual := fun i hi => page_encodable t2 i hi
      binary_format := by show Regular r.binary_reel_header.format e' 400; rw [b1]; exact hB
      binary_valid := b2
      sample_format := hdesc.data_sample_format
      revision := ?_
      pages := x1
      no_early_stop := x2
      num_pages := x3
      some_trace := ?_
      num_traces := ?_
      indexes := ?_
      trace_format := hTr
      cataloguable := hT'
      trace_header := hs2
      header_format := ?_
      header_valid := ?_
      same_length := by rw [vs1, hs1]
      num_samples := ?_
      trace_samples := vs2
      fits := ?_ }
  · obtain ⟨v, hv, hv'⟩ := hrev
    refine ⟨v, hv, ?_⟩
    rcases hv' with ⟨hv', -⟩ | ⟨hv', -⟩
    · exact Or.inl hv'
    · exact Or.inr hv'
  · intro hnil
    have := ho.some_trace
    rw [hnil] at hs1
    exact this (List.eq_nil_of_length_eq_zero hs1.symm)
  · show (match r.numTraces with | .ok n => n | .error _ => 0) = _
    rw [hdesc.num_traces, hs1]
  · show (match r.traceIndexes with | .ok l => l | .error _ => []) = _
    rw [hdesc.trace_indexes, hs1]
  · intro hd hmem
    obtain ⟨i, hi, rfl⟩ := List.mem_iff_getElem.mp hmem
    exact (hhok i hi).1
  · intro hd hmem
    obtain ⟨i, hi, rfl⟩ := List.mem_iff_getElem.mp hmem
    exact (hhok i hi).2.1
  · intro i hi hi'
    have hp := hT.present "num_samples" (by simp)
    obtain ⟨f, hf, hfn⟩ : ∃ f ∈ T.fields, f.name = "num_samples" := by
      obtain ⟨f, hf⟩ := Format.attr_of_mem hp
      exact ⟨f, Format.mem_fields.mpr (by rw [Format.attr_name hf]; exact hf), Format.attr_name hf⟩
    have := (hhok i hi).2.2 f hf
    rw [hfn, (hvok i hi').1] at this
    exact this
  · intro vs hmem v hv
    obtain ⟨i, hi, rfl⟩ := List.mem_iff_getElem.mp hmem
    exact ((hvok i hi).2.2 v hv).1

end Segpy
