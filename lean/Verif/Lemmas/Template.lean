import Verif.Lemmas.Batched
import Verif.Lemmas.Text
import Verif.Model.TextHeader
import Verif.Spec.Template

/-! # Lemmas about the standard textual header template -/

namespace Segpy

/-! ## Finding placeholders -/

theorem takeWhile_append_stop {α : Type} (p : α → Bool) (l : List α) (x : α) (rest : List α) (h : ∀ a ∈ l, p a = true)
    (hx : p x = false) : (l ++ x :: rest).takeWhile p = l ∧ (l ++ x :: rest).dropWhile p = x :: rest := by
  induction l with
  | nil => simp [hx]
  | cons a l ih =>
    have ha := h a (by simp)
    obtain ⟨i1, i2⟩ := ih fun b hb => h b (by simp [hb])
    simp only [List.cons_append, List.takeWhile_cons, List.dropWhile_cons, ha, if_true, i1, i2, and_self]

theorem takeWhile_blanks (k : Nat) (tail : PyStr) (h : ∀ x, tail.head? = some x → isSpace x = false) :
    (List.replicate k ' ' ++ tail).takeWhile isSpace = List.replicate k ' ' ∧
    (List.replicate k ' ' ++ tail).dropWhile isSpace = tail := by
  have hs : isSpace ' ' = true := by decide
  induction k with
  | zero =>
    cases tail with
    | nil => simp
    | cons x xs => simp [h x rfl]
  | succ k ih =>
    simp only [List.replicate_succ, List.cons_append, List.takeWhile_cons, List.dropWhile_cons, hs, if_true, ih, and_self]

theorem word_not_space {c : Char} (h : isWordChar c = true) : isSpace c = false := by
  unfold isWordChar at h
  rw [Bool.or_eq_true] at h
  have hn : (48 ≤ c.toNat ∧ c.toNat ≤ 57) ∨ (65 ≤ c.toNat ∧ c.toNat ≤ 90) ∨ (97 ≤ c.toNat ∧ c.toNat ≤ 122) ∨
      c.toNat = 95 := by
    rcases h with h | h
    · simp only [Char.isAlphanum, Char.isAlpha, Char.isUpper, Char.isLower, Char.isDigit, Bool.or_eq_true,
        Bool.and_eq_true, decide_eq_true_eq, ge_iff_le, UInt32.le_iff_toNat_le] at h
      change ((65 ≤ c.toNat ∧ c.toNat ≤ 90) ∨ (97 ≤ c.toNat ∧ c.toNat ≤ 122)) ∨ (48 ≤ c.toNat ∧ c.toNat ≤ 57) at h
      omega
    · have : c = '_' := by simpa using h
      subst this
      right; right; right; rfl
  unfold isSpace
  simp only [decide_eq_false_iff_not]
  omega

theorem matchPlaceholder_of {name : PyStr} {i j : Nat} {rest : PyStr}
    (hn : ∀ c ∈ name, isWordChar c = true) :
    matchPlaceholder ('{' :: (List.replicate i ' ' ++ name ++ List.replicate j ' ' ++ '}' :: rest)) =
      some (name, 1 + i + name.length + j + 1) ∨ name = [] := by
  cases name with
  | nil => exact Or.inr rfl
  | cons c cs =>
    left
    unfold matchPlaceholder
    have e1 := takeWhile_blanks i ((c :: cs) ++ (List.replicate j ' ' ++ '}' :: rest)) (by
      intro x hx
      simp at hx; subst hx
      exact word_not_space (hn _ (by simp)))
    have e3 := takeWhile_blanks j ('}' :: rest) (by intro x hx; simp at hx; subst hx; decide)
    have e2 : ((c :: cs) ++ (List.replicate j ' ' ++ '}' :: rest)).takeWhile isWordChar = c :: cs ∧
        ((c :: cs) ++ (List.replicate j ' ' ++ '}' :: rest)).dropWhile isWordChar =
          List.replicate j ' ' ++ '}' :: rest := by
      cases j with
      | zero => exact takeWhile_append_stop _ _ '}' rest hn (by decide)
      | succ j =>
        rw [List.replicate_succ, List.cons_append]
        exact takeWhile_append_stop _ _ ' ' _ hn (by decide)
    simp only [List.append_assoc]
    simp only [e1.1, e1.2, e2.1, e2.2, e3.1, e3.2, List.length_replicate]

theorem matchPlaceholder_empty (k : Nat) (rest : PyStr) :
    matchPlaceholder ('{' :: (List.replicate k ' ' ++ '}' :: rest)) = some ([], 1 + k + 1) := by
  unfold matchPlaceholder
  have e1 := takeWhile_blanks k ('}' :: rest) (by intro x hx; simp at hx; subst hx; decide)
  simp only [e1.1, e1.2, List.length_replicate]
  have h1 : ('}' :: rest).takeWhile isWordChar = [] := by simp [show isWordChar '}' = false by decide]
  have h2 : ('}' :: rest).dropWhile isWordChar = '}' :: rest := by
    simp [show isWordChar '}' = false by decide]
  have h3 : ('}' :: rest).takeWhile isSpace = [] := by simp [show isSpace '}' = false by decide]
  have h4 : ('}' :: rest).dropWhile isSpace = '}' :: rest := by
    simp [show isSpace '}' = false by decide]
  simp only [h1, h2, h3, h4, List.length_nil]

/-- The placeholders of the template as natural number triples (name, start, end). -/
def templateTriples : List (PyStr × Nat × Nat) := findPlaceholders 0 0 TEMPLATE

/-- Check at each position from `idx` on that a match there is recorded in `T`. -/
def scanOk (T : List (PyStr × Nat × Nat)) : Nat → PyStr → Bool
  | _, [] => true
  | idx, c :: cs =>
    (match matchPlaceholder (c :: cs) with
      | some (n, k) => decide ((n, idx, idx + k) ∈ T)
      | none => true) && scanOk T (idx + 1) cs

theorem scanOk_drop (T : List (PyStr × Nat × Nat)) (s : PyStr) : ∀ (idx a : Nat), scanOk T idx s = true →
    ∀ n k, matchPlaceholder (s.drop a) = some (n, k) → (n, idx + a, idx + a + k) ∈ T := by
  induction s with
  | nil => intro idx a _ n k h; rw [List.drop_nil] at h; cases h
  | cons c cs ih =>
    intro idx a h n k hm
    rw [scanOk, Bool.and_eq_true] at h
    cases a with
    | zero =>
      rw [List.drop_zero] at hm
      rw [hm] at h
      exact of_decide_eq_true h.1
    | succ a =>
      rw [List.drop_succ_cons] at hm
      have := ih (idx + 1) a h.2 n k hm
      rw [show idx + 1 + a = idx + (a + 1) by omega] at this
      exact this

theorem template_length : TEMPLATE.length = 3200 := by decide +kernel

theorem template_scan : scanOk templateTriples 0 TEMPLATE = true := by decide +kernel

/-- Every placeholder in the sense of the specification is found. -/
theorem placeholder_found {name : PyStr} {a b : Nat} (h : Spec.IsPlaceholder name a b) :
    (name, a, b) ∈ templateTriples := by
  obtain ⟨i, j, rest, hd, hb, hn⟩ := h
  have hn' : ∀ c ∈ name, isWordChar c = true := by
    intro c hc
    unfold isWordChar
    rcases hn c hc with h | h
    · simp [h]
    · simp [h]
  rcases matchPlaceholder_of (i := i) (j := j) (rest := rest) hn' with hm | hm
  · rw [← hd] at hm
    have := scanOk_drop _ _ 0 a template_scan _ _ hm
    rw [hb]
    convert this using 3 <;> omega
  · subst hm
    have hm := matchPlaceholder_empty (i + j) rest
    have e : '{' :: (List.replicate (i + j) ' ' ++ '}' :: rest) = TEMPLATE.drop a := by
      rw [hd, List.append_nil, ← List.replicate_append_replicate]
    rw [e] at hm
    have := scanOk_drop _ _ 0 a template_scan _ _ hm
    rw [hb]
    (convert this using 3; all_goals simp; all_goals omega)

/-- The entries of the table are ordered, disjoint, non-empty intervals below 3200. -/
def orderedFrom : Nat → List (PyStr × Nat × Nat) → Bool
  | idx, [] => decide (idx ≤ 3200)
  | idx, (_, a, b) :: rest => decide (idx ≤ a) && decide (a < b) && orderedFrom b rest

theorem triples_ordered : orderedFrom 0 templateTriples = true := by decide +kernel

theorem parse_eq : parseTemplate TEMPLATE = templateTriples.map fun t => (t.1, (⟨t.2.1, t.2.2⟩ : Interval)) := by
  decide +kernel

/-- The field names in order of the placeholders. -/
def templateFields : List PyStr := TEMPLATE_FIELD_NAMES.map fun p => p.2.toList

/-- Look up of a placeholder name. -/
theorem templateFieldName_ok_iff (n f : PyStr) : templateFieldName n = .ok f → Spec.NamesField n f := by
  unfold templateFieldName
  intro h
  cases hf : TEMPLATE_FIELD_NAMES.find? (fun p => p.1.toList == n) with
  | none => rw [hf] at h; cases h
  | some p =>
    rw [hf] at h
    simp only [Except.ok.injEq] at h
    have h1 := List.find?_some hf
    exact ⟨p, List.mem_of_find?_eq_some hf, by simpa using h1, h⟩

theorem names_table : ((TEMPLATE_FIELD_NAMES.map fun p => p.1.toList).Nodup) ∧ templateFields.Nodup ∧
    (templateTriples.map Prod.fst).Nodup ∧
    (∀ t ∈ templateTriples, ∃ p ∈ TEMPLATE_FIELD_NAMES, p.1.toList = t.1 ∧ templateFieldName t.1 = .ok p.2.toList) ∧
    (∀ p ∈ TEMPLATE_FIELD_NAMES, ∃ t ∈ templateTriples, p.1.toList = t.1 ∧ templateFieldName t.1 = .ok p.2.toList) := by
  decide +kernel

/-- Number of blanks after the opening brace at `a`. -/
def leadBlanks (a : Nat) : Nat := (((TEMPLATE.drop a).tail).takeWhile (· == ' ')).length

theorem triples_shape : ∀ t ∈ templateTriples,
    (TEMPLATE.drop t.2.1).take (t.2.2 - t.2.1) =
      '{' :: (List.replicate (if t.1 = [] then 0 else leadBlanks t.2.1) ' ' ++ t.1 ++
        List.replicate (t.2.2 - t.2.1 - 2 - t.1.length - (if t.1 = [] then 0 else leadBlanks t.2.1)) ' ' ++ ['}']) ∧
    (∀ c ∈ t.1, (c.isAlphanum || c == '_') = true) := by
  decide +kernel

/-- Every placeholder found is one in the sense of the specification. -/
theorem found_placeholder {name : PyStr} {a b : Nat} (h : (name, a, b) ∈ templateTriples) :
    Spec.IsPlaceholder name a b := by
  obtain ⟨h1, h2⟩ := triples_shape _ h
  simp only at h1 h2
  generalize (if name = [] then 0 else leadBlanks a) = i at h1
  generalize b - a - 2 - name.length - i = j at h1
  refine ⟨i, j, TEMPLATE.drop (a + (b - a)), ?_, ?_, ?_⟩
  · rw [← List.take_append_drop (b - a) (TEMPLATE.drop a), h1, List.drop_drop]
    simp
  · have hl := congrArg List.length h1
    rw [List.length_take, List.length_drop, template_length] at hl
    simp only [List.length_cons, List.length_append, List.length_replicate, List.length_nil] at hl
    have hb : b ≤ 3200 ∧ a < b := by
      have : ∀ t ∈ templateTriples, t.2.2 ≤ 3200 ∧ t.2.1 < t.2.2 := by decide +kernel
      exact this _ h
    omega
  · intro c hc
    have := h2 c hc
    rw [Bool.or_eq_true, beq_iff_eq] at this
    exact this

/-! ## Substitution -/

/-- What the loop of `format_standard_textual_header` produces: background and fitted values in turn. -/
def weave (template : PyStr) (val : PyStr → PyStr) : Nat → List (PyStr × Nat × Nat) → PyStr
  | idx, [] => template.drop idx
  | idx, (n, a, b) :: rest =>
    (template.take a).drop idx ++ ljust ((val n).take (b - a)) (b - a) ' ' ++ weave template val b rest

theorem fit_length (s : PyStr) (w : Nat) : (ljust (s.take w) w ' ').length = w := by
  unfold ljust
  rw [List.length_append, List.length_take, List.length_replicate]; omega

/-- `ordered` for an arbitrary length. -/
def orderedIn (len : Nat) : Nat → List (PyStr × Nat × Nat) → Prop
  | idx, [] => idx ≤ len
  | idx, (_, a, b) :: rest => idx ≤ a ∧ a < b ∧ orderedIn len b rest

theorem orderedIn_of (idx : Nat) (l : List (PyStr × Nat × Nat)) (h : orderedFrom idx l = true) : orderedIn 3200 idx l := by
  induction l generalizing idx with
  | nil => simpa [orderedFrom, orderedIn] using h
  | cons t rest ih =>
    obtain ⟨n, a, b⟩ := t
    simp only [orderedFrom, Bool.and_eq_true, decide_eq_true_eq] at h
    exact ⟨h.1.1, h.1.2, ih b h.2⟩

theorem orderedIn_le {len idx : Nat} {l : List (PyStr × Nat × Nat)} (h : orderedIn len idx l) : idx ≤ len := by
  induction l generalizing idx with
  | nil => exact h
  | cons t rest ih => obtain ⟨n, a, b⟩ := t; have := ih h.2.2; have := h.1; have := h.2.1; omega

theorem orderedIn_bounds {len idx : Nat} {l : List (PyStr × Nat × Nat)} (h : orderedIn len idx l) :
    ∀ t ∈ l, idx ≤ t.2.1 ∧ t.2.1 < t.2.2 ∧ t.2.2 ≤ len := by
  induction l generalizing idx with
  | nil => intro t ht; cases ht
  | cons t0 rest ih =>
    obtain ⟨n, a, b⟩ := t0
    intro t ht
    rcases List.mem_cons.mp ht with rfl | ht
    · exact ⟨h.1, h.2.1, orderedIn_le h.2.2⟩
    · have := ih h.2.2 t ht
      have h1 := h.1
      have h2 := h.2.1
      omega

theorem weave_length (template : PyStr) (val : PyStr → PyStr) {idx : Nat} {l : List (PyStr × Nat × Nat)}
    (h : orderedIn template.length idx l) : (weave template val idx l).length = template.length - idx := by
  induction l generalizing idx with
  | nil => rw [weave, List.length_drop]
  | cons t rest ih =>
    obtain ⟨n, a, b⟩ := t
    have hb := orderedIn_le h.2.2
    have h1 := h.1
    have h2 := h.2.1
    rw [weave, List.length_append, List.length_append, fit_length, ih h.2.2, List.length_drop, List.length_take]
    omega

/-- In the woven text each placeholder's interval holds its fitted value. -/
theorem weave_field (template : PyStr) (val : PyStr → PyStr) {idx : Nat} {l : List (PyStr × Nat × Nat)}
    (h : orderedIn template.length idx l) : ∀ t ∈ l,
    ((weave template val idx l).drop (t.2.1 - idx)).take (t.2.2 - t.2.1) =
      ljust ((val t.1).take (t.2.2 - t.2.1)) (t.2.2 - t.2.1) ' ' := by
  induction l generalizing idx with
  | nil => intro t ht; cases ht
  | cons t0 rest ih =>
    obtain ⟨n, a, b⟩ := t0
    have hb := orderedIn_le h.2.2
    have h1 := h.1
    have h2 := h.2.1
    have hbg : ((template.take a).drop idx).length = a - idx := by rw [List.length_drop, List.length_take]; omega
    intro t ht
    rw [weave]
    rcases List.mem_cons.mp ht with rfl | ht
    · rw [List.append_assoc, List.drop_left' hbg, List.take_left' (fit_length _ _)]
    · have hbd := (orderedIn_bounds h.2.2 t ht).1
      have hlen : ((template.take a).drop idx ++ ljust ((val n).take (b - a)) (b - a) ' ').length = b - idx := by
        rw [List.length_append, hbg, fit_length]; omega
      rw [show t.2.1 - idx = (b - idx) + (t.2.1 - b) by omega, ← List.drop_drop, List.drop_left' hlen]
      exact ih h.2.2 t ht

/-- Outside the placeholders the woven text is the template. -/
theorem weave_background (template : PyStr) (val : PyStr → PyStr) {idx : Nat} {l : List (PyStr × Nat × Nat)}
    (h : orderedIn template.length idx l) : ∀ p, idx ≤ p → (∀ t ∈ l, p < t.2.1 ∨ t.2.2 ≤ p) →
    (weave template val idx l)[p - idx]? = template[p]? := by
  induction l generalizing idx with
  | nil => intro p hp _; rw [weave, List.getElem?_drop]; congr 1; omega
  | cons t0 rest ih =>
    obtain ⟨n, a, b⟩ := t0
    have hb := orderedIn_le h.2.2
    have h1 := h.1
    have h2 := h.2.1
    have hbg : ((template.take a).drop idx).length = a - idx := by rw [List.length_drop, List.length_take]; omega
    intro p hp hout
    rw [weave]
    rcases hout (n, a, b) (by simp) with hlt | hge
    · simp only at hlt
      rw [List.append_assoc, List.getElem?_append_left (by omega), List.getElem?_drop, List.getElem?_take]
      rw [if_pos (by omega)]
      congr 1; omega
    · simp only at hge
      have hlen : ((template.take a).drop idx ++ ljust ((val n).take (b - a)) (b - a) ' ').length = b - idx := by
        rw [List.length_append, hbg, fit_length]; omega
      rw [List.getElem?_append_right (by omega), hlen, show p - idx - (b - idx) = p - b by omega]
      exact ih h.2.2 p hge fun t ht => hout t (by simp [ht])

/-- The value `pop` would give. -/
def Kwargs.value (kw : Kwargs) (f : PyStr) : PyStr := (kw.pop f).1

theorem find_filter_ne (kw : Kwargs) {f g : PyStr} (h : g ≠ f) :
    (kw.filter fun p => !(p.1 == f)).find? (fun p => p.1 == g) = kw.find? fun p => p.1 == g := by
  induction kw with
  | nil => rfl
  | cons p kw ih =>
    by_cases hf : p.1 = f
    · rw [List.filter_cons_of_neg (by simp [hf]), ih, List.find?_cons_of_neg (by
        simp only [beq_iff_eq]; rw [hf]; exact fun hh => h hh.symm)]
    · rw [List.filter_cons_of_pos (by simp [hf])]
      by_cases hg : p.1 = g
      · rw [List.find?_cons_of_pos (by simp [hg]), List.find?_cons_of_pos (by simp [hg])]
      · rw [List.find?_cons_of_neg (by simp [hg]), List.find?_cons_of_neg (by simp [hg]), ih]

theorem value_pop_ne (kw : Kwargs) {f g : PyStr} (h : g ≠ f) : Kwargs.value (kw.pop f).2 g = kw.value g := by
  unfold Kwargs.value Kwargs.pop
  simp only
  rw [find_filter_ne kw h]

theorem complementaryLoop_triples (stop : Int) (l : List (PyStr × Nat × Nat)) (idx : Int) :
    complementaryLoop stop idx (l.map fun t => (⟨t.2.1, t.2.2⟩ : Interval)) =
      match l with
      | [] => [⟨idx, stop⟩]
      | t :: rest => ⟨idx, t.2.1⟩ :: complementaryLoop stop t.2.2 (rest.map fun t => (⟨t.2.1, t.2.2⟩ : Interval)) := by
  cases l <;> rfl

/-- The formatting loop computes the woven text and removes the fields it used. -/
theorem formatLoop_eq (template : PyStr) (field : PyStr → PyStr) (l : List (PyStr × Nat × Nat)) :
    ∀ (idx : Nat) (kw : Kwargs), orderedIn template.length idx l →
      (∀ t ∈ l, templateFieldName t.1 = .ok (field t.1)) → (l.map fun t => field t.1).Nodup →
      ∃ chunks, formatLoop template
          (complementaryLoop template.length idx (l.map fun t => (⟨t.2.1, t.2.2⟩ : Interval)))
          (l.map fun t => (t.1, (⟨t.2.1, t.2.2⟩ : Interval))) kw =
        .ok (chunks, kw.filter fun p => !((l.map fun t => field t.1).contains p.1)) ∧
        chunks.flatten = weave template (fun n => kw.value (field n)) idx l := by
  induction l with
  | nil =>
    intro idx kw h _ _
    refine ⟨[template.drop idx], ?_, by simp [weave]⟩
    simp only [List.map_nil, complementaryLoop, formatLoop, bind, Except.bind, pure, Except.pure, sliceStr,
      Int.toNat_natCast, List.take_length]
    simp
  | cons t rest ih =>
    obtain ⟨n, a, b⟩ := t
    intro idx kw h hnames hnd
    have hn := hnames (n, a, b) (by simp)
    rw [List.map_cons, List.nodup_cons] at hnd
    obtain ⟨chunks, hc1, hc2⟩ := ih b (kw.pop (field n)).2 h.2.2 (fun t ht => hnames t (by simp [ht])) hnd.2
    refine ⟨[(template.take a).drop idx] ++ [ljust ((kw.value (field n)).take (b - a)) (b - a) ' '] ++ chunks, ?_, ?_⟩
    · rw [complementaryLoop_triples]
      simp only [List.map_cons]
      rw [formatLoop]
      simp only [hn, bind, Except.bind, pure, Except.pure, List.tail_cons, hc1, List.head?_cons, Option.map_some,
        Option.toList_some]
      have e1 : ((b : Int) - (a : Int)).toNat = b - a := by omega
      have e2 : sliceStr template ⟨(idx : Int), (a : Int)⟩ = (template.take a).drop idx := by simp [sliceStr]
      rw [e1, e2]
      have e3 : ((kw.pop (field n)).2.filter fun p => !((rest.map fun t => field t.1).contains p.1)) =
          kw.filter fun p => !((field n :: rest.map fun t => field t.1).contains p.1) := by
        unfold Kwargs.pop
        simp only [List.filter_filter]
        apply List.filter_congr
        intro p _
        rw [List.contains_cons]
        cases h1 : (p.1 == field n) <;> simp
      rw [e3]
      rfl
    · rw [weave]
      simp only [List.flatten_append, List.flatten_cons, List.flatten_nil, List.append_nil, hc2]
      congr 1
      -- the values of the other fields are not affected by the pop
      have hw : ∀ (l : List (PyStr × Nat × Nat)) (i : Nat), (∀ t ∈ l, field t.1 ≠ field n) →
          weave template (fun m => Kwargs.value (kw.pop (field n)).2 (field m)) i l =
            weave template (fun m => kw.value (field m)) i l := by
        intro l
        induction l with
        | nil => intro i _; rfl
        | cons t l ihl =>
          obtain ⟨m, a', b'⟩ := t
          intro i hne
          rw [weave, weave, value_pop_ne kw (hne (m, a', b') (by simp)), ihl b' fun t ht => hne t (by simp [ht])]
      apply hw
      intro t ht heq
      apply hnd.1
      rw [← heq]
      exact List.mem_map.mpr ⟨t, ht, rfl⟩

/-! ## Stripping and parsing -/

theorem isSpace_blank : isSpace ' ' = true := by decide

theorem dropWhile_blanks (k : Nat) (l : PyStr) :
    (List.replicate k ' ' ++ l).dropWhile isSpace = l.dropWhile isSpace := by
  induction k with
  | zero => simp
  | succ k ih => rw [List.replicate_succ, List.cons_append, List.dropWhile_cons, if_pos isSpace_blank, ih]

/-- Stripping ignores padding. -/
theorem strip_blanks (s : PyStr) (k : Nat) : strip (s ++ List.replicate k ' ') = strip s := by
  unfold strip
  rw [List.dropWhile_append]
  split
  · rename_i h
    rw [List.isEmpty_iff] at h
    rw [h]
    have := dropWhile_blanks k []
    rw [List.append_nil] at this
    rw [this]
    simp
  · rw [List.reverse_append, List.reverse_replicate, dropWhile_blanks]

theorem fieldsSet_fresh {V : Type} (fields : List (PyStr × V)) (n : PyStr) (v : V) (h : n ∉ fields.map Prod.fst) :
    fieldsSet fields n v = fields ++ [(n, v)] := by
  unfold fieldsSet
  rw [if_neg]
  intro hany
  obtain ⟨p, hp, hpn⟩ := List.any_eq_true.mp hany
  exact h (List.mem_map.mpr ⟨p, hp, by simpa using hpn⟩)

theorem parseLoop_eq (header : PyStr) (field : PyStr → PyStr) (l : List (PyStr × Nat × Nat)) :
    ∀ (acc : List (PyStr × PyStr)), (∀ t ∈ l, templateFieldName t.1 = .ok (field t.1)) →
      (acc.map Prod.fst ++ l.map fun t => field t.1).Nodup →
      parseLoop header (l.map fun t => (t.1, (⟨t.2.1, t.2.2⟩ : Interval))) acc =
        .ok (acc ++ l.map fun t => (field t.1, strip ((header.drop t.2.1).take (t.2.2 - t.2.1)))) := by
  induction l with
  | nil => intro acc _ _; simp [parseLoop]
  | cons t rest ih =>
    obtain ⟨n, a, b⟩ := t
    intro acc hn hnd
    have h1 := hn (n, a, b) (by simp)
    simp only [List.map_cons]
    rw [parseLoop]
    simp only [h1, bind, Except.bind]
    have hfresh : field n ∉ acc.map Prod.fst := by
      intro hmem
      have := (List.nodup_append.mp hnd).2.2 _ hmem _ (by simp : field n ∈ _)
      exact this rfl
    rw [fieldsSet_fresh _ _ _ hfresh, ih _ (fun t ht => hn t (by simp [ht]))]
    · have e : sliceStr header ⟨(a : Int), (b : Int)⟩ = (header.drop a).take (b - a) := by
        simp [sliceStr, List.drop_take]
      simp only [e, List.append_assoc, List.singleton_append]
    · simpa [List.append_assoc] using hnd

end Segpy
