import Verif.Lemmas.File
import Verif.Lemmas.Text
import Verif.Lemmas.Batched
import Verif.Model.TextHeader
import Verif.Spec.Text

/-! # Lemmas about textual headers -/

namespace Segpy
open FileM

theorem encodable_iff (enc : Encoding) (henc : enc ≠ .other) (s : PyStr) :
    Spec.Encodable enc s ↔ ∃ bs, encode enc s = .ok bs := by
  rw [encode_ok_iff]
  cases enc
  · exact Iff.rfl
  · exact Iff.rfl
  · exact absurd rfl henc

theorem encodable_card {enc : Encoding} (henc : enc ≠ .other) {l : PyStr} (h : Spec.Encodable enc l) :
    Spec.Encodable enc (Spec.card l) := by
  have h0 : (' ' : Char).toNat < 128 := by decide
  cases enc
  · intro c hc
    rcases List.mem_append.mp hc with hc | hc
    · exact h c (List.mem_of_mem_take hc)
    · rw [List.eq_of_mem_replicate hc]; exact h0
  · intro c hc
    rcases List.mem_append.mp hc with hc | hc
    · exact h c (List.mem_of_mem_take hc)
    · rw [List.eq_of_mem_replicate hc]; omega
  · exact absurd rfl henc

theorem card_length (l : PyStr) : (Spec.card l).length = 80 := by
  unfold Spec.card
  rw [List.length_append, List.length_take, List.length_replicate]; omega

theorem isSupported_iff (enc : Encoding) : isSupportedEncoding enc = true ↔ enc ≠ .other := by
  cases enc <;> simp [isSupportedEncoding]

/-- An encoded card is the encoding of the card. -/
theorem encodeCard_ok {enc : Encoding} {l : PyStr} {bs : Bytes} (h : encodeCard enc l = .ok bs) :
    encode enc (Spec.card l) = .ok bs := by
  unfold encodeCard at h
  simp only [bind, Except.bind, pure, Except.pure] at h
  cases h1 : encode enc l with
  | error e => rw [h1] at h; cases h
  | ok b =>
    rw [h1] at h; simp only at h
    cases h2 : encodeChar enc ' ' with
    | error e => rw [h2] at h; cases h
    | ok sp =>
      rw [h2] at h; cases h
      have hlen := encode_length h1
      unfold ljust
      rw [hlen, CARD_LENGTH]
      have e1 : (b ++ List.replicate (80 - l.length) sp).take 80 = b.take 80 ++ List.replicate (80 - l.length) sp := by
        rw [List.take_append, List.take_replicate, hlen, Nat.min_self]
      rw [e1]
      exact mapM_append_ok (mapM_take 80 h1) (mapM_replicate _ h2)

theorem encodeCard_isOk {enc : Encoding} (henc : enc ≠ .other) {l : PyStr} (h : Spec.Encodable enc l) :
    ∃ bs, encodeCard enc l = .ok bs := by
  obtain ⟨bs, h1⟩ := (encodable_iff enc henc l).mp h
  obtain ⟨sp, h2⟩ := encode_space enc henc
  exact ⟨_, by simp [encodeCard, h1, h2, bind, Except.bind, pure, Except.pure]; rfl⟩

theorem encodeCard_error {enc : Encoding} (henc : enc ≠ .other) {l : PyStr} {e : Err}
    (h : encodeCard enc l = .error e) : e = .unicodeError ∧ ¬ Spec.Encodable enc l := by
  obtain ⟨sp, h2⟩ := encode_space enc henc
  unfold encodeCard at h
  simp only [bind, Except.bind, pure, Except.pure] at h
  cases h1 : encode enc l with
  | error e' =>
    rw [h1] at h; cases h
    refine ⟨encode_error henc h1, fun hh => ?_⟩
    obtain ⟨bs, h3⟩ := (encodable_iff enc henc l).mp hh
    rw [h3] at h1; cases h1
  | ok b => rw [h1, h2] at h; cases h

theorem padTo_eq (lines : List PyStr) :
    padTo lines [] CARDS_PER_HEADER = (List.range 40).map fun i => lines.getD i [] := by
  unfold padTo CARDS_PER_HEADER
  apply List.ext_getElem
  · simp
  · intro i h1 h2
    have hi : i < 40 := by simpa using h2
    rw [List.getElem_take, List.getElem_map, List.getElem_range, List.getElem_append]
    split
    · rename_i h
      rw [List.getD_eq_getElem?_getD, List.getElem?_eq_getElem h, Option.getD_some]
    · rename_i h
      rw [List.getElem_replicate, List.getD_eq_getElem?_getD, List.getElem?_eq_none (by omega), Option.getD_none]

theorem cards_length {enc : Encoding} {cards : List PyStr} {bss : List Bytes}
    (h : cards.mapM (encode enc) = .ok bss) (hl : ∀ c ∈ cards, c.length = 80) :
    (∀ b ∈ bss, b.length = 80) ∧ bss.flatten.length = 80 * cards.length := by
  rw [mapM_ok_iff] at h
  induction h with
  | nil => simp
  | cons h1 _ ih =>
    obtain ⟨i1, i2⟩ := ih fun c hc => hl c (by simp [hc])
    have := encode_length h1
    have h80 := hl _ List.mem_cons_self
    refine ⟨?_, ?_⟩
    · intro b hb
      rcases List.mem_cons.mp hb with rfl | hb
      · omega
      · exact i1 b hb
    · rw [List.flatten_cons, List.length_append, i2, List.length_cons]; omega

theorem decodeCards_cards {enc : Encoding} {cards : List PyStr} {bss : List Bytes}
    (h : cards.mapM (encode enc) = .ok bss) (hl : ∀ c ∈ cards, c.length = 80) :
    decodeCards enc bss.flatten = .ok cards := by
  unfold decodeCards
  rw [show (CARD_LENGTH : Int) = ((80 : Nat) : Int) from rfl,
    batched_cards 80 (by omega) none bss (cards_length h hl).1]
  simp only [bind, Except.bind]
  exact mapM_inverse (fun _ _ => decode_encode) h

/-- Reading a page that is stored at the current position. -/
theorem readTextual_at {enc : Encoding} {cards : List PyStr} {bss : List Bytes} {pre post : Bytes} {s : FileH}
    (h : cards.mapM (encode enc) = .ok bss) (h40 : cards.length = 40) (hl : ∀ c ∈ cards, c.length = 80)
    (hd : s.data = pre ++ bss.flatten ++ post) (hp : s.pos = pre.length) :
    readTextualReelHeader enc s = (.ok cards, { s with pos := s.pos + 3200 }) := by
  have hlen : bss.flatten.length = 3200 := by rw [(cards_length h hl).2, h40]
  unfold readTextualReelHeader
  have hr := read_at hd hp
  rw [hlen] at hr
  rw [bind_ok (show FileM.read (TEXTUAL_HEADER_NUM_BYTES : Nat) s = _ from hr)]
  simp only [hlen]
  rw [if_neg (by decide)]
  simp only [lift_apply]
  rw [decodeCards_cards h hl]

/-- What reading a textual header does in general. -/
theorem readTextual_apply (enc : Encoding) (s : FileH) :
    readTextualReelHeader enc s =
      if s.pos + 3200 ≤ s.data.length then
        (decodeCards enc ((s.data.drop s.pos).take 3200), { s with pos := s.pos + 3200 })
      else (.error .eofError, { s with pos := s.pos + (s.data.length - s.pos) }) := by
  unfold readTextualReelHeader
  rw [bind_ok (show FileM.read (TEXTUAL_HEADER_NUM_BYTES : Nat) s = _ from read_apply _ s)]
  have e : ((s.data.drop s.pos).take TEXTUAL_HEADER_NUM_BYTES).length = min 3200 (s.data.length - s.pos) := by
    rw [List.length_take, List.length_drop]; rfl
  simp only [e]
  by_cases h : s.pos + 3200 ≤ s.data.length
  · rw [if_pos h, if_neg (by show ¬ (_ < 3200); omega), Nat.min_eq_left (by omega)]
    simp only [lift_apply]
    rfl
  · rw [if_neg h, if_pos (by show _ < 3200; omega)]
    simp only [raise_apply]
    rw [Nat.min_eq_right (by omega)]

end Segpy

/-! ## Extended headers -/

namespace Segpy
open FileM

theorem encodeExtPage_ok {enc : Encoding} {page : List PyStr} {ess : List Bytes}
    (h : encodeExtPage enc page = .ok ess) :
    page.mapM (encode enc) = .ok ess ∧ page.length = 40 ∧ ∀ l ∈ page, l.length = 80 := by
  unfold encodeExtPage at h
  simp only [bind, Except.bind, pure, Except.pure] at h
  cases hm : page.mapM (encodeExtLine enc) with
  | error e => rw [hm] at h; cases h
  | ok r =>
    rw [hm] at h; simp only at h
    split at h
    · cases h
    · rename_i h40
      cases h
      have hf := (mapM_ok_iff _ _ _).mp hm
      have hlines : List.Forall₂ (fun a b => encode enc a = .ok b ∧ a.length = 80) page ess := by
        refine hf.imp fun a b hab => ?_
        unfold encodeExtLine at hab
        simp only [bind, Except.bind, pure, Except.pure] at hab
        cases he : encode enc a with
        | error e => rw [he] at hab; cases hab
        | ok c =>
          rw [he] at hab; simp only at hab
          split at hab
          · cases hab
          · rename_i hc
            cases hab
            refine ⟨rfl, ?_⟩
            rw [← encode_length he]
            unfold CARD_LENGTH at hc; omega
      refine ⟨(mapM_ok_iff _ _ _).mpr (hlines.imp fun _ _ h => h.1), ?_, ?_⟩
      · rw [← hf.length_eq] at h40; unfold CARDS_PER_HEADER at h40; omega
      · intro l hl
        clear hf hm h40
        induction hlines with
        | nil => cases hl
        | cons h1 _ ih =>
          rcases List.mem_cons.mp hl with rfl | hl
          · exact h1.2
          · exact ih hl

theorem encodeExtPage_isOk {enc : Encoding} (henc : enc ≠ .other) {page : List PyStr} (h : Spec.IsPage enc page) :
    ∃ ess, encodeExtPage enc page = .ok ess := by
  cases hm : page.mapM (encodeExtLine enc) with
  | error e =>
    exfalso
    obtain ⟨l, hl, he⟩ := mapM_error hm
    obtain ⟨h80, henl⟩ := h.2 l hl
    obtain ⟨bs, hbs⟩ := (encodable_iff enc henc l).mp henl
    unfold encodeExtLine at he
    simp only [bind, Except.bind, pure, Except.pure, hbs] at he
    rw [if_neg (by rw [encode_length hbs, h80]; decide)] at he
    cases he
  | ok r =>
    refine ⟨r, ?_⟩
    unfold encodeExtPage
    simp only [bind, Except.bind, pure, Except.pure, hm]
    rw [if_neg (by rw [mapM_ok_length hm, h.1]; decide)]

/-- The errors the page encoding can raise. -/
theorem encodeExtPage_error {enc : Encoding} (henc : enc ≠ .other) {page : List PyStr} {e : Err}
    (h : encodeExtPage enc page = .error e) : (e = .unicodeError ∨ e = .valueError) ∧ ¬ Spec.IsPage enc page := by
  refine ⟨?_, fun hp => ?_⟩
  · unfold encodeExtPage at h
    simp only [bind, Except.bind, pure, Except.pure] at h
    cases hm : page.mapM (encodeExtLine enc) with
    | error e' =>
      rw [hm] at h; cases h
      obtain ⟨l, _, he⟩ := mapM_error hm
      unfold encodeExtLine at he
      simp only [bind, Except.bind, pure, Except.pure] at he
      cases hel : encode enc l with
      | error e'' =>
        rw [hel] at he; cases he
        exact Or.inl (encode_error henc hel)
      | ok b =>
        rw [hel] at he; simp only at he
        split at he <;> cases he
        exact Or.inr rfl
    | ok r =>
      rw [hm] at h; simp only at h
      split at h <;> cases h
      exact Or.inr rfl
  · obtain ⟨ess, he⟩ := encodeExtPage_isOk henc hp
    rw [he] at h; cases h

theorem isPage_of_encode {enc : Encoding} (henc : enc ≠ .other) {page : List PyStr} {ess : List Bytes}
    (h : encodeExtPage enc page = .ok ess) : Spec.IsPage enc page := by
  obtain ⟨h1, h2, h3⟩ := encodeExtPage_ok h
  refine ⟨h2, fun l hl => ⟨h3 l hl, (encodable_iff enc henc l).mpr ?_⟩⟩
  cases he : encode enc l with
  | ok b => exact ⟨b, rfl⟩
  | error e =>
    have := mapM_raises (f := encode enc) hl (by rw [he]; rfl)
    rw [h1] at this; cases this

theorem page_bytes_length {enc : Encoding} {page : List PyStr} {ess : List Bytes}
    (h : encodeExtPage enc page = .ok ess) : ess.flatten.length = 3200 := by
  obtain ⟨h1, h2, h3⟩ := encodeExtPage_ok h
  rw [(cards_length h1 h3).2, h2]

/-- The bytes of a list of encoded pages. -/
def pagesBytes (ess : List (List Bytes)) : Bytes := (ess.map List.flatten).flatten

theorem pagesBytes_length {enc : Encoding} {pages : List (List PyStr)} {ess : List (List Bytes)}
    (h : pages.mapM (encodeExtPage enc) = .ok ess) : (pagesBytes ess).length = 3200 * pages.length := by
  rw [mapM_ok_iff] at h
  induction h with
  | nil => rfl
  | cons h1 _ ih =>
    unfold pagesBytes at ih ⊢
    rw [List.map_cons, List.flatten_cons, List.length_append, ih, page_bytes_length h1, List.length_cons]; omega

theorem writeExtPages_apply {enc : Encoding} {pages : List (List PyStr)} {ess : List (List Bytes)}
    (h : pages.mapM (encodeExtPage enc) = .ok ess) :
    ∀ s : FileH, s.limit = none → writeExtPages ess s =
      (.ok (), { s with data := overwrite s.data s.pos (pagesBytes ess), pos := s.pos + (pagesBytes ess).length }) := by
  rw [mapM_ok_iff] at h
  induction h with
  | nil => intro s hs; simp [writeExtPages, pagesBytes, overwrite]
  | cons h1 _ ih =>
    intro s hs
    rw [writeExtPages, if_neg (by rw [page_bytes_length h1]; decide), bind_ok (write_apply hs _),
      ih { s with data := overwrite s.data s.pos _, pos := s.pos + _ } hs]
    simp only [overwrite_overwrite]
    unfold pagesBytes
    simp only [List.map_cons, List.flatten_cons, List.length_append, Nat.add_assoc]

theorem hasEnd_iff {page : List PyStr} (h : page.length = 40) (b : Bool) :
    hasEndTextStanza page = .ok b ↔ (b = true ↔ END_TEXT_STANZA <:+: page.getD 0 []) := by
  cases page with
  | nil => simp at h
  | cons l ls =>
    rw [← isSubstring_iff]
    simp only [hasEndTextStanza, Except.ok.injEq, List.getD_cons_zero]
    cases b <;> simp

/-- Does the first line of the page contain the stop stanza? -/
def StopPage (page : List PyStr) : Prop := END_TEXT_STANZA <:+: page.getD 0 []

theorem hasEnd_eq {page : List PyStr} (h : page.length = 40) :
    (StopPage page ∧ hasEndTextStanza page = .ok true) ∨ (¬ StopPage page ∧ hasEndTextStanza page = .ok false) := by
  by_cases hs : StopPage page
  · exact Or.inl ⟨hs, (hasEnd_iff h true).mpr ⟨fun _ => hs, fun _ => rfl⟩⟩
  · exact Or.inr ⟨hs, (hasEnd_iff h false).mpr ⟨fun h => (by cases h), fun h => absurd h hs⟩⟩

theorem readCounted_loop {enc : Encoding} (N : Nat) {pages : List (List PyStr)} {ess : List (List Bytes)}
    (h : pages.mapM (encodeExtPage enc) = .ok ess) :
    ∀ (i : Nat) (acc : List (List PyStr)) (pre post : Bytes) (s : FileH),
      s.data = pre ++ pagesBytes ess ++ post → s.pos = pre.length → i + pages.length = N →
      (∀ p ∈ pages.dropLast, ¬ StopPage p) →
      readExtendedCountedLoop enc N pages.length i acc s =
        (.ok (acc ++ pages), { s with pos := s.pos + 3200 * pages.length }) := by
  rw [mapM_ok_iff] at h
  induction h with
  | nil => intro i acc pre post s _ _ _ _; simp [readExtendedCountedLoop]
  | @cons page es pages' ess' h1 h2 ih =>
    intro i acc pre post s hd hp hN hstop
    obtain ⟨g1, g2, g3⟩ := encodeExtPage_ok h1
    have hd' : s.data = pre ++ es.flatten ++ (pagesBytes ess' ++ post) := by
      rw [hd]; simp [pagesBytes, List.append_assoc]
    rw [List.length_cons, readExtendedCountedLoop, bind_ok (readTextual_at g1 g2 g3 hd' hp)]
    have hcont : readExtendedCountedLoop enc N pages'.length (i + 1) (acc ++ [page]) { s with pos := s.pos + 3200 } =
        (.ok (acc ++ page :: pages'), { s with pos := s.pos + 3200 * (pages'.length + 1) }) := by
      rw [ih (i + 1) (acc ++ [page]) (pre ++ es.flatten) post]
      · simp only [List.append_assoc, List.singleton_append]
        congr 2; omega
      · rw [hd']; simp [List.append_assoc]
      · rw [List.length_append, page_bytes_length h1, hp]
      · rw [List.length_cons] at hN; omega
      · intro p hp'
        cases hps : pages' with
        | nil => rw [hps] at hp'; cases hp'
        | cons q qs =>
          apply hstop
          rw [hps] at hp' ⊢
          rw [List.dropLast_cons_cons]
          exact List.mem_cons_of_mem _ hp'
    rcases hasEnd_eq g2 with ⟨hst, he⟩ | ⟨hst, he⟩
    · simp only [bind_ok (show FileM.lift (hasEndTextStanza page) _ = _ by rw [lift_apply, he])]
      have hlast : pages' = [] := by
        cases hps : pages' with
        | nil => rfl
        | cons q qs =>
          exfalso
          apply hstop page _ hst
          rw [hps, List.dropLast_cons_cons]; simp
      rw [if_neg]
      · exact hcont
      · rw [hlast] at hN
        simp at hN ⊢
        omega
    · simp only [bind_ok (show FileM.lift (hasEndTextStanza page) _ = _ by rw [lift_apply, he])]
      exact hcont

theorem readUntil_loop {enc : Encoding} {pages : List (List PyStr)} {ess : List (List Bytes)}
    (h : pages.mapM (encodeExtPage enc) = .ok ess) :
    ∀ (fuel : Nat) (acc : List (List PyStr)) (pre post : Bytes) (s : FileH),
      s.data = pre ++ pagesBytes ess ++ post → s.pos = pre.length → pages.length ≤ fuel →
      (∀ p ∈ pages.dropLast, ¬ StopPage p) → (∃ p, pages.getLast? = some p ∧ StopPage p) →
      readExtendedUntilEndLoop enc fuel acc s =
        (.ok (acc ++ pages), { s with pos := s.pos + 3200 * pages.length }) := by
  rw [mapM_ok_iff] at h
  induction h with
  | nil => intro _ _ _ _ _ _ _ _ _ ⟨p, hp, _⟩; cases hp
  | @cons page es pages' ess' h1 h2 ih =>
    intro fuel acc pre post s hd hp hN hstop hlast
    obtain ⟨g1, g2, g3⟩ := encodeExtPage_ok h1
    have hd' : s.data = pre ++ es.flatten ++ (pagesBytes ess' ++ post) := by
      rw [hd]; simp [pagesBytes, List.append_assoc]
    obtain ⟨fuel, rfl⟩ : ∃ f, fuel = f + 1 := ⟨fuel - 1, by rw [List.length_cons] at hN; omega⟩
    rw [readExtendedUntilEndLoop, bind_ok (readTextual_at g1 g2 g3 hd' hp)]
    cases hps : pages' with
    | nil =>
      subst hps
      obtain ⟨p, hpl, hst⟩ := hlast
      simp at hpl; subst hpl
      rcases hasEnd_eq g2 with ⟨_, he⟩ | ⟨hst', _⟩
      · simp only [bind_ok (show FileM.lift (hasEndTextStanza page) _ = _ by rw [lift_apply, he])]
        simp
      · exact absurd hst hst'
    | cons q qs =>
      have hns : ¬ StopPage page := hstop page (by rw [hps, List.dropLast_cons_cons]; simp)
      rcases hasEnd_eq g2 with ⟨hst', _⟩ | ⟨_, he⟩
      · exact absurd hst' hns
      · simp only [bind_ok (show FileM.lift (hasEndTextStanza page) _ = _ by rw [lift_apply, he])]
        simp only [Bool.false_eq_true, if_false]
        rw [ih fuel (acc ++ [page]) (pre ++ es.flatten) post]
        · rw [hps]
          have e : s.pos + 3200 + 3200 * (q :: qs).length = s.pos + 3200 * (page :: q :: qs).length := by
            rw [List.length_cons (a := page)]; omega
          simp only [List.append_assoc, List.singleton_append]
          rw [e]
        · rw [hd']; simp [List.append_assoc]
        · rw [List.length_append, page_bytes_length h1, hp]
        · rw [List.length_cons] at hN; omega
        · intro p hp'
          apply hstop
          rw [hps] at hp' ⊢
          rw [List.dropLast_cons_cons]
          exact List.mem_cons_of_mem _ hp'
        · obtain ⟨p, hpl, hst⟩ := hlast
          refine ⟨p, ?_, hst⟩
          rw [hps] at hpl ⊢
          simpa using hpl

/-- Running out of fuel does not happen: with more fuel than bytes left, the loop ends by reading the stop stanza, or
because the file ends or a page cannot be decoded. -/
theorem readUntil_fuel (enc : Encoding) (fuel : Nat) :
    ∀ (acc : List (List PyStr)) (s : FileH), s.data.length - s.pos < fuel →
      (readExtendedUntilEndLoop enc fuel acc s).1 ≠ .error .nonTermination := by
  induction fuel with
  | zero => intro acc s h; omega
  | succ fuel ih =>
    intro acc s h
    rw [readExtendedUntilEndLoop, bind_apply, readTextual_apply]
    by_cases hlen : s.pos + 3200 ≤ s.data.length
    · rw [if_pos hlen]
      cases hd : decodeCards enc ((s.data.drop s.pos).take 3200) with
      | error e =>
        simp only
        intro hc
        simp only [Except.error.injEq] at hc
        subst hc
        unfold decodeCards batched at hd
        rw [if_neg (by decide)] at hd
        simp only [bind, Except.bind] at hd
        obtain ⟨b, _, he⟩ := mapM_error hd
        obtain ⟨x, _, hx⟩ := mapM_error he
        cases enc <;> simp only [decodeByte] at hx
        · split at hx <;> cases hx
        · cases hx
        · cases hx
      | ok cards =>
        simp only
        cases cards with
        | nil =>
          simp only [bind_apply, lift_apply, hasEndTextStanza]
          simp
        | cons c cs =>
          simp only [bind_apply, lift_apply, hasEndTextStanza]
          split
          · simp
          · exact ih _ _ (by simp only; omega)
    · rw [if_neg hlen]; simp

end Segpy
