import Verif.Spec.Opens
import Verif.Props.Reel

/-! # Lemmas: which files open -/

namespace Segpy

open Spec FileM Props

theorem bind_eq_error {α β : Type} {m : FileM α} {f : α → FileM β} {s s' : FileH} {err : Err}
    (h : (m >>= f) s = (.error err, s')) :
    m s = (.error err, s') ∨ ∃ a s1, m s = (.ok a, s1) ∧ f a s1 = (.error err, s') := by
  rw [bind_apply] at h
  cases hm : m s with
  | mk x s1 =>
    rw [hm] at h
    cases x with
    | error k => exact Or.inl (by simpa using h)
    | ok a => exact Or.inr ⟨a, s1, rfl, h⟩

/-! ## Pages -/

theorem PageAt.encoding {enc : Encoding} {data : Bytes} {pos : Nat} {page : List PyStr} (h : PageAt enc data pos page) :
    enc ≠ .other := by
  rintro rfl
  obtain ⟨⟨h40, hl⟩, -, -⟩ := h
  cases page with
  | nil => simp at h40
  | cons l ls => exact (hl l List.mem_cons_self).2

private theorem mapM_flatten {enc : Encoding} : ∀ {l : List PyStr} {bs : Bytes}, encode enc l.flatten = .ok bs →
    ∃ bss, l.mapM (encode enc) = .ok bss ∧ bss.flatten = bs := by
  intro l
  induction l with
  | nil => intro bs h; cases h; exact ⟨[], rfl, rfl⟩
  | cons x xs ih =>
    intro bs h
    unfold encode at h
    rw [List.flatten_cons, List.mapM_append] at h
    obtain ⟨b1, h1, h⟩ := res_bind_ok h
    obtain ⟨b2, h2, h⟩ := res_bind_ok h
    cases h
    obtain ⟨bss, h3, h4⟩ := ih h2
    refine ⟨b1 :: bss, ?_, by rw [List.flatten_cons, h4]⟩
    rw [List.mapM_cons, show encode enc x = .ok b1 from h1, h3]
    rfl

theorem readTextual_of_page {enc : Encoding} {s : FileH} {page : List PyStr} (h : PageAt enc s.data s.pos page) :
    readTextualReelHeader enc s = (.ok page, { s with pos := s.pos + 3200 }) := by
  obtain ⟨⟨h40, hl⟩, hlen, he⟩ := h
  obtain ⟨bss, h1, h2⟩ := mapM_flatten he
  refine readTextual_at (pre := s.data.take s.pos) (post := s.data.drop (s.pos + 3200)) h1 h40 (fun c hc => (hl c hc).1) ?_ ?_
  · rw [h2, List.append_assoc, ← List.drop_drop, List.take_append_drop, List.take_append_drop]
  · rw [List.length_take]; omega

theorem readTextual_error {enc : Encoding} (henc : enc ≠ .other) {s s' : FileH} {err : Err}
    (h : readTextualReelHeader enc s = (.error err, s')) :
    (err = .eofError ∧ s.data.length < s.pos + 3200) ∨
      (err = .unicodeError ∧ s.pos + 3200 ≤ s.data.length ∧ ¬ ∃ page, PageAt enc s.data s.pos page) := by
  have hno : ¬ ∃ page, PageAt enc s.data s.pos page := by
    rintro ⟨page, hp⟩
    rw [readTextual_of_page hp] at h
    cases h
  rw [readTextual_apply] at h
  split at h
  · rename_i hl
    right
    refine ⟨?_, hl, hno⟩
    have hd := (Prod.mk.inj h).1
    unfold decodeCards batched at hd
    rw [if_neg (by decide)] at hd
    simp only [bind, Except.bind] at hd
    obtain ⟨bs, -, hb⟩ := mapM_error hd
    unfold decode at hb
    obtain ⟨b, -, hb⟩ := mapM_error hb
    cases enc with
    | other => exact absurd rfl henc
    | ebcdic => cases hb
    | ascii =>
      simp only [decodeByte] at hb
      split at hb
      · cases hb
      · exact (Except.error.inj hb).symm
  · rename_i hl
    exact Or.inl ⟨(Except.error.inj (Prod.mk.inj h).1).symm, by omega⟩

/-! ## Extended headers -/

private theorem page_of_read {enc : Encoding} {s s' : FileH} {l : List PyStr}
    (h : readTextualReelHeader enc s = (.ok l, s')) : l.length = 40 ∧ s' = { s with pos := s.pos + 3200 } := by
  have h1 := (readTextual_page h).2.1.1
  rw [readTextual_apply] at h
  split at h
  · exact ⟨h1, (Prod.mk.inj h).2.symm⟩
  · simp at h

private theorem counted_ok {enc : Encoding} {N : Nat} : ∀ {pages : List (List PyStr)} {i : Nat} {acc : List (List PyStr)}
    {s : FileH}, (∀ k (h : k < pages.length), PageAt enc s.data (s.pos + 3200 * k) pages[k]) →
    (∀ p ∈ pages.dropLast, ¬ Stops p) → i + pages.length = N →
    readExtendedCountedLoop enc N pages.length i acc s = (.ok (acc ++ pages), { s with pos := s.pos + 3200 * pages.length })
  | [], i, acc, s, _, _, _ => by simp [readExtendedCountedLoop]
  | p :: ps, i, acc, s, hp, hstop, hN => by
    have h0 : PageAt enc s.data s.pos p := hp 0 (by simp)
    rw [List.length_cons]
    unfold readExtendedCountedLoop
    rw [bind_ok (readTextual_of_page h0)]
    have ih := counted_ok (N := N) (pages := ps) (i := i + 1) (acc := acc ++ [p]) (s := { s with pos := s.pos + 3200 })
      (fun k hk => by
        have := hp (k + 1) (by simpa using hk)
        rw [List.getElem_cons_succ, show s.pos + 3200 * (k + 1) = s.pos + 3200 + 3200 * k by ring] at this
        exact this)
      (fun q hq => hstop q (by
        cases ps with
        | nil => simp at hq
        | cons a b => rw [List.dropLast_cons_cons]; exact List.mem_cons_of_mem _ hq))
      (by rw [List.length_cons] at hN; omega)
    have hgo : readExtendedCountedLoop enc N ps.length (i + 1) (acc ++ [p]) { s with pos := s.pos + 3200 } =
        (.ok (acc ++ p :: ps), { s with pos := s.pos + 3200 * (ps.length + 1) }) := by
      rw [ih, List.append_assoc]
      simp only [List.singleton_append]
      congr 2
      ring
    rcases hasEnd_eq h0.1.1 with ⟨hs, he⟩ | ⟨hs, he⟩
    · rw [bind_ok (show FileM.lift (hasEndTextStanza p) _ = (.ok true, _) by rw [he]; rfl)]
      cases ps with
      | cons a b => exact absurd hs (hstop p (by simp))
      | nil =>
        have : i = N - 1 := by simp at hN; omega
        simp only [this, bne_self_eq_false, Bool.and_false, Bool.false_eq_true, if_false]
        rw [← this]
        exact hgo
    · rw [bind_ok (show FileM.lift (hasEndTextStanza p) _ = (.ok false, _) by rw [he]; rfl)]
      simp only [Bool.false_and, Bool.false_eq_true, if_false]
      exact hgo

private theorem until_ok {enc : Encoding} : ∀ {pages : List (List PyStr)} {fuel : Nat} {acc : List (List PyStr)}
    {s : FileH}, (∀ k (h : k < pages.length), PageAt enc s.data (s.pos + 3200 * k) pages[k]) →
    (∀ p ∈ pages.dropLast, ¬ Stops p) → (∃ p, pages.getLast? = some p ∧ Stops p) → pages.length ≤ fuel →
    readExtendedUntilEndLoop enc fuel acc s = (.ok (acc ++ pages), { s with pos := s.pos + 3200 * pages.length })
  | [], _, _, _, _, _, ⟨_, h, _⟩, _ => by simp at h
  | p :: ps, 0, acc, s, _, _, _, hf => by simp at hf
  | p :: ps, fuel + 1, acc, s, hp, hstop, hlast, hf => by
    have h0 : PageAt enc s.data s.pos p := hp 0 (by simp)
    unfold readExtendedUntilEndLoop
    rw [bind_ok (readTextual_of_page h0)]
    cases ps with
    | nil =>
      obtain ⟨q, hq, hs⟩ := hlast
      simp only [List.getLast?_singleton, Option.some.injEq] at hq
      subst hq
      rcases hasEnd_eq h0.1.1 with ⟨-, he⟩ | ⟨hn, -⟩
      · rw [bind_ok (show FileM.lift (hasEndTextStanza p) _ = (.ok true, _) by rw [he]; rfl)]
        simp
      · exact absurd hs hn
    | cons a b =>
      rcases hasEnd_eq h0.1.1 with ⟨hs, -⟩ | ⟨-, he⟩
      · exact absurd hs (hstop p (by simp))
      · rw [bind_ok (show FileM.lift (hasEndTextStanza p) _ = (.ok false, _) by rw [he]; rfl)]
        simp only [Bool.false_eq_true, if_false]
        have ih := until_ok (pages := a :: b) (fuel := fuel) (acc := acc ++ [p]) (s := { s with pos := s.pos + 3200 })
          (fun k hk => by
            have := hp (k + 1) (by simpa using hk)
            rw [List.getElem_cons_succ, show s.pos + 3200 * (k + 1) = s.pos + 3200 + 3200 * k by ring] at this
            exact this)
          (fun q hq => hstop q (by rw [List.dropLast_cons_cons]; exact List.mem_cons_of_mem _ hq))
          (by simpa using hlast) (by rw [List.length_cons] at hf; omega)
        have e1 : acc ++ [p] ++ a :: b = acc ++ p :: a :: b := by simp
        have e2 : s.pos + 3200 + 3200 * (a :: b).length = s.pos + 3200 * (p :: a :: b).length := by
          rw [List.length_cons (a := p)]; ring
        rw [ih, e1, ← e2]

/-- Extended headers that are there are read. -/
theorem readExtended_of_pages {enc : Encoding} {hd : Header} {s : FileH} {declared : Int} {pages : List (List PyStr)}
    (hn : hd.get "num_extended_textual_headers" = .ok declared) (h : ExtendedPages enc s.data declared pages) :
    readExtendedHeadersOf hd enc s = (.ok pages, { s with pos := 3600 + 3200 * pages.length }) := by
  unfold readExtendedHeadersOf readExtendedTextualHeaders
  rw [bind_ok (show FileM.lift (hd.get "num_extended_textual_headers") s = (.ok declared, s) by rw [hn]; rfl),
    bind_ok (show FileM.seek (REEL_HEADER_NUM_BYTES : Nat) _ = _ from seek_apply _ _)]
  have hlen : 3200 * pages.length ≤ s.data.length := by
    by_cases hp : pages = []
    · simp [hp]
    · have hpos : 0 < pages.length := List.length_pos_iff.mpr hp
      have := (h.readable (pages.length - 1) (by omega)).2.1
      omega
  rcases h.count with hc | ⟨hneg, hlast⟩
  · rw [if_neg (by omega)]
    unfold readExtendedHeadersCounted
    rw [if_neg (by omega), hc, Int.toNat_natCast]
    exact (counted_ok (acc := []) (s := { s with pos := REEL_HEADER_NUM_BYTES }) h.readable h.only_last_stops (by omega))
  · rw [if_pos hneg]
    unfold readExtendedHeadersUntilEnd
    exact (until_ok (acc := []) (s := { s with pos := REEL_HEADER_NUM_BYTES }) h.readable h.only_last_stops hlast
      (by show pages.length ≤ s.data.length + 1; omega))

/-- Reading extended headers raises `EOFError` if the file ends within them, and otherwise something caught by
`except ValueError`. -/
theorem readExtended_error {enc : Encoding} (henc : enc ≠ .other) {hd : Header} {declared : Int}
    (hn : hd.get "num_extended_textual_headers" = .ok declared) {s s' : FileH} {err : Err}
    (h : readExtendedHeadersOf hd enc s = (.error err, s')) : err = .eofError ∨ err = .unicodeError ∨ err = .valueError := by
  have hterm := C39_until_end_terminates enc henc declared s
  unfold readExtendedHeadersOf at h
  rw [bind_ok (show FileM.lift (hd.get "num_extended_textual_headers") s = (.ok declared, s) by rw [hn]; rfl)] at h
  rw [h] at hterm
  have hterm : err ≠ .nonTermination := fun hx => hterm (by rw [hx])
  unfold readExtendedTextualHeaders at h
  rw [bind_ok (show FileM.seek (REEL_HEADER_NUM_BYTES : Nat) _ = _ from seek_apply _ _)] at h
  split at h
  · unfold readExtendedHeadersUntilEnd at h
    have key : ∀ fuel acc (s s' : FileH), readExtendedUntilEndLoop enc fuel acc s = (.error err, s') →
        err = .eofError ∨ err = .unicodeError ∨ err = .valueError := by
      intro fuel
      induction fuel with
      | zero =>
        intro acc s s' h
        exact absurd (Except.error.inj (Prod.mk.inj h).1).symm hterm
      | succ fuel ih =>
        intro acc s s' h
        unfold readExtendedUntilEndLoop at h
        rcases bind_eq_error h with h1 | ⟨p, s1, h1, h2⟩
        · rcases readTextual_error henc h1 with ⟨h, -⟩ | ⟨h, -⟩
          · exact Or.inl h
          · exact Or.inr (Or.inl h)
        · obtain ⟨hp, -⟩ := page_of_read h1
          rcases bind_eq_error h2 with h3 | ⟨b, s2, h3, h4⟩
          · rcases hasEnd_eq hp with ⟨-, he⟩ | ⟨-, he⟩ <;> · rw [he] at h3; cases h3
          · split at h4
            · cases h4
            · exact ih _ _ _ h4
    exact key _ _ _ _ h
  · unfold readExtendedHeadersCounted at h
    split at h
    · exact Or.inr (Or.inr (Except.error.inj (Prod.mk.inj h).1).symm)
    · have key : ∀ left i acc (s s' : FileH), readExtendedCountedLoop enc declared.toNat left i acc s = (.error err, s') →
          err = .eofError ∨ err = .unicodeError ∨ err = .valueError := by
        intro left
        induction left with
        | zero => intro i acc s s' h; cases h
        | succ left ih =>
          intro i acc s s' h
          unfold readExtendedCountedLoop at h
          rcases bind_eq_error h with h1 | ⟨p, s1, h1, h2⟩
          · rcases readTextual_error henc h1 with ⟨h, -⟩ | ⟨h, -⟩
            · exact Or.inl h
            · exact Or.inr (Or.inl h)
          · obtain ⟨hp, -⟩ := page_of_read h1
            rcases bind_eq_error h2 with h3 | ⟨b, s2, h3, h4⟩
            · rcases hasEnd_eq hp with ⟨-, he⟩ | ⟨-, he⟩ <;> · rw [he] at h3; cases h3
            · split at h4
              · exact Or.inr (Or.inr (Except.error.inj (Prod.mk.inj h4).1).symm)
              · exact ih _ _ _ _ h4
      exact key _ _ _ _ _ h

/-! ## The end of opening -/

theorem makeReaderOf_error {T : Format} {e : Endian} (hT : Cataloguable T e) {dim : Option Int}
    (hdim : dim ∈ [none, some 1, some 2, some 3]) {textual : List PyStr} {binary : Header}
    {extended : List (List PyStr)} {catalogs : Catalogs} {enc : Encoding} {data : Bytes}
    {starts : List Nat} {err : Err} (hne : starts ≠ [])
    (hidx : Indexes T e data starts catalogs.trace_offset catalogs.trace_length catalogs.cdp catalogs.line)
    (hrev : extractRevision binary = .error err) :
    makeReaderOf dim textual binary extended catalogs T enc e = .error err := by
  obtain ⟨p, hp⟩ := hT.packs
  obtain ⟨co, hco, ro⟩ := hidx.offset
  obtain ⟨cl, hcl, rl⟩ := hidx.length
  have hcdp : ∃ cdp, catalogOrEmpty1 catalogs.cdp = .ok cdp := by
    by_cases hn : (ensembles T e data starts).Nodup
    · obtain ⟨c, h1, h2⟩ := hidx.cdp hn
      exact ⟨c, by rw [h1, catalogOrEmpty1_refines h2 (toNumber_ne hne _)]⟩
    · exact ⟨.dictionary [], by rw [hidx.no_cdp hn]; rfl⟩
  obtain ⟨cdp, hcdp⟩ := hcdp
  have hmake : ∀ a b kind, Reader.make textual binary extended a b T enc e kind = .error err := by
    intro a b kind
    unfold Reader.make
    rw [hp, hrev]
    rfl
  unfold makeReaderOf
  have hd : 1 ≤ dim.getD (chooseDimensionality catalogs.cdp catalogs.line) ∧
      dim.getD (chooseDimensionality catalogs.cdp catalogs.line) ≤ 3 := by
    simp only [List.mem_cons, List.not_mem_nil, or_false] at hdim
    rcases hdim with rfl | rfl | rfl | rfl
    · simp only [Option.getD_none]
      unfold chooseDimensionality
      split
      · decide
      · split <;> decide
    all_goals simp
  simp only [hd, and_self, not_true, if_false]
  rw [hco, hcl, catalogOrEmpty1_refines ro (byNumber_ne hne _), catalogOrEmpty1_refines rl (byNumber_ne hne _), hcdp]
  simp only [bind, Except.bind, hmake]
  split
  · rfl
  · split <;> rfl

end Segpy
