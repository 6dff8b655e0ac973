import Verif.Lemmas.Header2
import Verif.Model.Formats

/-!
# Properties C31-C33: header objects
-/

namespace Segpy.Props

open Segpy

/-- A format in two classes, used in the examples. -/
def derivedFormat : Format :=
  [⟨"Base", [⟨"a", vtInt16, 0, 0⟩, ⟨"kind", vtDataSampleFormatField, 2, 1⟩], none, none⟩,
   ⟨"Derived", [⟨"b", vtNNInt16, 4, 7⟩], none, none⟩]

/-! ## C31 -/

/-- After any history of constructions, assignments and copies, successful or raising, every field of every
header object has a value that its type admits. -/
theorem C31_admissible (ops : List HeaderWorld.Op) (i : Nat) :
    let w := HeaderWorld.empty.run ops
    (w.classOf i).DefaultsAdmitted →
    ∀ f ∈ (w.classOf i).fields, ∃ v, w.get i f.name = .ok v ∧ f.value_type.Admits v := by
  intro w hd f hf
  have r : HeaderWorld.Reached w := HeaderWorld.reached_run ops HeaderWorld.reached_empty
  have ha := Format.mem_fields.1 hf
  unfold HeaderWorld.get
  rw [ha]
  simp only
  cases hg : odictGet w.data (f, i) with
  | ok v => exact ⟨v, rfl, r.admitted f i v hg⟩
  | error e => exact ⟨f.default, rfl, hd f hf⟩

/-- An assignment raises `ValueError` exactly when the field's type does not admit the value, and then changes
nothing at all. -/
theorem C31_failed_assignment (w : HeaderWorld) (i : Nat) (hi : i < w.classes.length) (f : Field)
    (hf : f ∈ (w.classOf i).fields) (v : Int) :
    (¬ f.value_type.Admits v → w.step (.assign i f.name v) = (w, .error .valueError)) ∧
    (f.value_type.Admits v → (w.step (.assign i f.name v)).2 = .ok ()) := by
  have ha := Format.mem_fields.1 hf
  unfold HeaderWorld.step
  simp only [hi, if_true]
  rw [HeaderWorld.set_eq ha]
  exact ⟨fun h => by rw [if_neg h], fun h => by rw [if_pos h]⟩

/-- An assignment that succeeds gives the field its value, and changes no other field of the object and no other
object. -/
theorem C31_assignment (w : HeaderWorld) (i : Nat) (hi : i < w.classes.length) (f : Field)
    (hf : f ∈ (w.classOf i).fields) (v : Int) (hv : f.value_type.Admits v) (j : Nat) (n : String) :
    (w.step (.assign i f.name v)).1.classes = w.classes ∧
    (w.step (.assign i f.name v)).1.get j n = if j = i ∧ n = f.name then .ok v else w.get j n := by
  have ha := Format.mem_fields.1 hf
  unfold HeaderWorld.step
  simp only [hi, if_true]
  by_cases hj : j = i
  · subst hj
    rw [HeaderWorld.set_eq ha, if_pos hv]
    refine ⟨rfl, ?_⟩
    unfold HeaderWorld.get HeaderWorld.classOf
    simp only [odictGet_set, true_and]
    by_cases hn : n = f.name
    · subst hn
      unfold HeaderWorld.classOf at ha
      rw [ha]
      simp
    · rw [if_neg hn]
      cases hg : ((w.classes[j]?).getD []).attr n with
      | none => rfl
      | some g =>
        simp only
        rw [if_neg]
        intro he
        apply hn
        rw [← Format.attr_name hg, ← show f = g from congrArg Prod.fst he]
  · rw [if_neg (fun h => hj h.1)]
    have hfr := HeaderWorld.set_frame w i f.name v
    exact ⟨hfr.classes, HeaderWorld.get_frame hfr hj n⟩

/-- Making or copying a header, successful or not, changes no field of any header there was, nor its class. -/
theorem C31_isolation (w : HeaderWorld) (op : HeaderWorld.Op) (hop : ∀ i n v, op ≠ .assign i n v) (j : Nat)
    (hj : j < w.classes.length) :
    (w.step op).1.classOf j = w.classOf j ∧ ∀ n, (w.step op).1.get j n = w.get j n := by
  have hmake : ∀ F args kwargs, (w.make F args kwargs).1.classOf j = w.classOf j ∧
      ∀ n, (w.make F args kwargs).1.get j n = w.get j n := by
    intro F args kwargs
    refine ⟨?_, HeaderWorld.make_get w F args kwargs j hj⟩
    rw [HeaderWorld.classOf_congr (HeaderWorld.make_frame w F args kwargs).classes]
    exact HeaderWorld.classOf_append w F _ j hj
  cases op with
  | make F args kwargs => exact hmake F args kwargs
  | assign i n v => exact absurd rfl (hop i n v)
  | copy i updates =>
    unfold HeaderWorld.step
    simp only
    split
    · unfold HeaderWorld.copy
      cases w.collect i (w.classOf i).orderedFieldNames with
      | error e => exact ⟨rfl, fun _ => rfl⟩
      | ok fields => exact hmake _ _ _
    · exact ⟨rfl, fun _ => rfl⟩

/-- In every state a history leads to, a constructor has the outcome, and makes an object with the values, of
the model in which a header holds its own values; so the theorems about single headers hold of objects. -/
theorem C31_refines_make (ops : List HeaderWorld.Op) (F : Format) (args : List Int) (kwargs : List (String × Int)) :
    let w := HeaderWorld.empty.run ops
    let w' := w.step (.make F args kwargs)
    match Header.make F args kwargs with
    | .error e => w'.2 = .error e
    | .ok h => w'.2 = .ok () ∧ w'.1.classOf w.classes.length = F ∧
        ∀ n, w'.1.get w.classes.length n = h.get n := by
  intro w w'
  have r : HeaderWorld.Reached w := HeaderWorld.reached_run ops HeaderWorld.reached_empty
  obtain ⟨h1, h2⟩ := HeaderWorld.make_sim w r.clean F args kwargs
  have hw : w' = w.make F args kwargs := rfl
  rw [hw]
  cases hm : Header.make F args kwargs with
  | error e => rw [hm] at h1; exact h1
  | ok h =>
    rw [hm] at h1
    have s := h2 h hm
    refine ⟨h1, ?_, fun n => s.get n⟩
    rw [HeaderWorld.classOf_congr (HeaderWorld.make_frame w F args kwargs).classes]
    exact HeaderWorld.classOf_new w F _

/-- The same for copies: if object `i` has the class and the values of the header `h`, its copy has the
outcome and the values of `h`'s copy. -/
theorem C31_refines_copy (ops : List HeaderWorld.Op) (i : Nat) (h : Header) (updates : List (String × Int)) :
    let w := HeaderWorld.empty.run ops
    let w' := w.step (.copy i updates)
    i < w.classes.length → w.classOf i = h.format → (∀ n, w.get i n = h.get n) →
    match h.copy updates with
    | .error e => w'.2 = .error e
    | .ok h' => w'.2 = .ok () ∧ ∀ n, w'.1.get w.classes.length n = h'.get n := by
  intro w w' hi hc hg
  have r : HeaderWorld.Reached w := HeaderWorld.reached_run ops HeaderWorld.reached_empty
  have hw : w' = w.copy i updates := by
    show w.step (.copy i updates) = _
    unfold HeaderWorld.step
    simp only [hi, if_true]
  have hcol : w.collect i (w.classOf i).orderedFieldNames = h.collect h.format.orderedFieldNames := by
    unfold HeaderWorld.collect Header.collect
    simp only [hg, hc]
  rw [hw]
  unfold HeaderWorld.copy Header.copy
  rw [hcol, hc]
  cases h.collect h.format.orderedFieldNames with
  | error e => rfl
  | ok fields =>
    simp only [bind, Except.bind]
    obtain ⟨h1, h2⟩ := HeaderWorld.make_sim w r.clean h.format []
      (updates.foldl (fun d p => odictSet d p.1 p.2) fields)
    cases hm : Header.make h.format [] (updates.foldl (fun d p => odictSet d p.1 p.2) fields) with
    | error e => rw [hm] at h1; exact h1
    | ok h' => rw [hm] at h1; exact ⟨h1, fun n => (h2 h' hm).get n⟩

example :
    let w := HeaderWorld.empty.run [.make derivedFormat [3] [], .make derivedFormat [4, 2] [("b", 9)],
      .assign 0 "kind" 4, .assign 1 "kind" 5, .copy 1 [("a", -1)], .make derivedFormat [99999] []]
    w.classes.length = 4 ∧ w.get 0 "a" = .ok 3 ∧ w.get 0 "kind" = .ok 1 ∧ w.get 1 "kind" = .ok 5 ∧
    w.get 2 "a" = .ok (-1) ∧ w.get 2 "b" = .ok 9 ∧ w.get 1 "a" = .ok 4 ∧ w.get 3 "b" = .ok 7 ∧
    (w.classOf 2).DefaultsAdmitted := by decide +kernel

/-- The least value an integer field type without a lower bound of its own admits. -/
def defaultLeast : IntType → Int
  | .int32 => -2 ^ 31
  | .int16 => -2 ^ 15
  | .int8 => -2 ^ 7
  | .nnint32 | .nnint16 | .nnint8 => 0

/-- The greatest value an integer field type without an upper bound of its own admits: that of the signed integers of its
width, for the non-negative types too. -/
def defaultGreatest : IntType → Int
  | .int32 | .nnint32 => 2 ^ 31 - 1
  | .int16 | .nnint16 => 2 ^ 15 - 1
  | .int8 | .nnint8 => 2 ^ 7 - 1

/-- What integer field types accept: the values within the bounds given, or else within those of the SEG Y type. -/
theorem C31_int_types (name : String) (t : IntType) (least greatest : Option Int) (v : Int) :
    (ValueType.mkInt name t least greatest).call v =
      if least.getD (defaultLeast t) ≤ v ∧ v ≤ greatest.getD (defaultGreatest t) then .ok v else .error .valueError := by
  have h1 : t.limitMin = defaultLeast t := by cases t <;> decide
  have h2 : t.limitMax = defaultGreatest t := by cases t <;> decide
  unfold ValueType.mkInt ValueType.call
  rw [h1, h2]

/-- What enumerated field types accept: the values of the enumeration, all of which must be within the bounds of the SEG Y
type for there to be such a field type. -/
theorem C31_enum_types (name : String) (values : List Int) (t : IntType) :
    ((∀ v ∈ values, defaultLeast t ≤ v ∧ v ≤ defaultGreatest t) →
      ∃ T, ValueType.mkEnum name values t = .ok T ∧ ∀ v, T.call v = if v ∈ values then .ok v else .error .valueError) ∧
    ((∃ v ∈ values, ¬ (defaultLeast t ≤ v ∧ v ≤ defaultGreatest t)) →
      ValueType.mkEnum name values t = .error .valueError) := by
  have h1 : t.limitMin = defaultLeast t := by cases t <;> decide
  have h2 : t.limitMax = defaultGreatest t := by cases t <;> decide
  unfold ValueType.mkEnum
  rw [h1, h2]
  constructor
  · intro h
    rw [if_neg]
    · exact ⟨_, rfl, fun v => rfl⟩
    · intro hc
      simp only [List.any_eq_true, Bool.or_eq_true, decide_eq_true_eq] at hc
      obtain ⟨v, hv, hc⟩ := hc
      have := h v hv
      omega
  · rintro ⟨v, hv, hc⟩
    rw [if_pos]
    simp only [List.any_eq_true, Bool.or_eq_true, decide_eq_true_eq]
    exact ⟨v, hv, by omega⟩

example : (ValueType.mkInt "X" .nnint16 none none).call 32768 = .error .valueError ∧
    (ValueType.mkInt "X" .int16 (some (-1)) none).call (-1) = .ok (-1) := by decide

/-! ## C32 -/

/-- Copying with updates of known fields to admissible values gives a header of the same class with the updated
values and otherwise the old ones. -/
theorem C32_copy (h : Header) (updates : List (String × Int)) (hv : h.Valid)
    (hkeys : (updates.map Prod.fst).Nodup)
    (hup : ∀ u ∈ updates, ∃ f ∈ h.format.fields, f.name = u.1 ∧ f.value_type.Admits u.2) :
    ∃ h', h.copy updates = .ok h' ∧ h'.format = h.format ∧
      (∀ u ∈ updates, h'.get u.1 = .ok u.2) ∧
      (∀ f ∈ h.format.fields, f.name ∉ updates.map Prod.fst → h'.get f.name = h.get f.name) := by
  have hvalid := hv
  set fields := odictOf (h.format.orderedFieldNames.map fun n => (n, h.val n)) with hfields
  set kw := updates.foldl (fun d p => odictSet d p.1 p.2) fields with hkw
  have hlast : ∀ n, lastValue kw n = match lastValue updates n with
      | some v => some v
      | none => if n ∈ h.format.orderedFieldNames then some (h.val n) else none := by
    intro n
    rw [hkw, lastValue_foldl _ _ (odictOf_keys_nodup _), lastValue_odictOf, Header.lastValue_map]
    cases lastValue updates n <;> rfl
  have hknown : ∀ u ∈ updates, ∃ f, h.format.attr u.1 = some f ∧ f.value_type.Admits u.2 := by
    intro u hu
    obtain ⟨f, hf, hn, ha⟩ := hup u hu
    exact ⟨f, hn ▸ Format.mem_fields.1 hf, ha⟩
  have hadm : ∀ p ∈ kw, ∃ f, h.format.attr p.1 = some f ∧ f.value_type.Admits p.2 := by
    intro p hp
    have hnd : (kw.map Prod.fst).Nodup := (foldl_odictSet updates fields (odictOf_keys_nodup _))
    have h1 := lastValue_of_mem_nodup hnd hp
    rw [hlast] at h1
    cases hl : lastValue updates p.1 with
    | some v =>
      rw [hl] at h1
      simp only [Option.some.injEq] at h1
      have := hknown _ (lastValue_mem hl)
      rw [h1] at this
      exact this
    | none =>
      rw [hl] at h1
      simp only at h1
      split at h1
      · rename_i hm
        injection h1 with h1
        obtain ⟨v, f, hf, hg, ha⟩ := Header.valid_get hvalid hm
        refine ⟨f, hf, ?_⟩
        rw [← h1]
        unfold Header.val
        rw [hg]
        exact ha
      · simp at h1
  have hmake : h.copy updates = Header.setAll ⟨h.format, []⟩ kw := by
    unfold Header.copy
    rw [Header.collect_eq _ fun n hn => hn]
    simp only [bind, Except.bind]
    unfold Header.make
    simp only [List.zip_nil_right, Header.setAll, bind, Except.bind]
    apply Header.setKeywords_eq
    intro p hp
    obtain ⟨f, hf, _⟩ := hadm p hp
    exact ⟨f, hf⟩
  have hspec := Header.setAll_spec kw ⟨h.format, []⟩
  rw [if_pos] at hspec
  swap
  · intro p hp f hf
    obtain ⟨g, hg, ha⟩ := hadm p hp
    simp only at hf
    rw [hg] at hf
    injection hf with hf
    exact hf ▸ ha
  obtain ⟨h', e1, e2, e3⟩ := hspec
  refine ⟨h', hmake.trans e1, e2, ?_, ?_⟩
  · intro u hu
    obtain ⟨f, hf, _⟩ := hknown u hu
    rw [e3 u.1 f hf, hlast, lastValue_of_mem_nodup hkeys (show (u.1, u.2) ∈ updates from hu)]
  · intro f hf hn
    have hfa := Format.mem_fields.1 hf
    rw [e3 f.name f hfa, hlast, lastValue_none hn]
    simp only [Format.mem_names_of_attr hfa, if_true]
    exact (Header.get_val hfa).symm

/-- An update to an inadmissible value raises `ValueError`, whatever the other updates; otherwise an update of a
name that is no attribute of the header raises `TypeError`.  The full claim would be that every name that is not a field
raises. -/
theorem C32_raises_partial (h : Header) (updates : List (String × Int)) (hv : h.Valid)
    (hkeys : (updates.map Prod.fst).Nodup) :
    ((∃ u ∈ updates, ∃ f ∈ h.format.fields, f.name = u.1 ∧ ¬ f.value_type.Admits u.2) →
      h.copy updates = .error .valueError) ∧
    ((∀ u ∈ updates, ∀ f ∈ h.format.fields, f.name = u.1 → f.value_type.Admits u.2) →
      (∃ u ∈ updates, u.1 ∉ h.format.orderedFieldNames ∧ u.1 ∉ h.format.otherAttributes) →
      h.copy updates = .error .typeError) := by
  classical
  have hvalid := hv
  set fields := odictOf (h.format.orderedFieldNames.map fun n => (n, h.val n)) with hfields
  set kw := updates.foldl (fun d p => odictSet d p.1 p.2) fields with hkw
  have hmemf : ∀ p ∈ fields, p.1 ∈ h.format.orderedFieldNames ∧ p.2 = h.val p.1 := by
    intro p hp
    have := lastValue_mem (mem_odictOf (show (p.1, p.2) ∈ odictOf _ from hp))
    obtain ⟨n, hn, he⟩ := List.mem_map.1 this
    have e1 : n = p.1 := congrArg Prod.fst he
    have e2 : h.val n = p.2 := congrArg Prod.snd he
    rw [← e1, ← e2]
    exact ⟨hn, rfl⟩
  obtain ⟨A, B, hAB, hA, hB, hAm, hBne, _, _⟩ := Header.foldl_known (· ∈ h.format.orderedFieldNames) updates
    fields [] (fun p hp => (hmemf p hp).1) (by simp) (by
      intro n hn
      have : (lastValue fields n).isSome := by
        rw [hfields, lastValue_odictOf, Header.lastValue_map, if_pos hn]
        rfl
      exact lastValue_isSome.1 this)
  rw [List.append_nil] at hAB
  have hAknown : ∀ p ∈ A, p.1 ∈ h.format.orderedFieldNames := by
    intro p hp
    have : p.1 ∈ A.map Prod.fst := List.mem_map.2 ⟨p, hp, rfl⟩
    rw [hA] at this
    obtain ⟨q, hq, he⟩ := List.mem_map.1 this
    exact he ▸ (hmemf q hq).1
  have hcopy : h.copy updates = (Header.setAll ⟨h.format, []⟩ A).bind fun h' => h'.setKeywords B := by
    unfold Header.copy
    rw [Header.collect_eq _ fun n hn => hn]
    simp only [bind, Except.bind]
    unfold Header.make
    simp only [List.zip_nil_right, Header.setAll, bind, Except.bind]
    rw [hAB, Header.setKeywords_append, Header.setKeywords_eq]
    · rfl
    · intro p hp
      exact Format.attr_of_mem (hAknown p hp)
  have hlast : ∀ n, lastValue kw n = match lastValue updates n with
      | some v => some v
      | none => lastValue fields n := by
    intro n
    rw [hkw, lastValue_foldl _ _ (odictOf_keys_nodup _)]
    cases lastValue updates n <;> rfl
  have hnd : (kw.map Prod.fst).Nodup := foldl_odictSet updates fields (odictOf_keys_nodup _)
  have hspec := Header.setAll_spec A ⟨h.format, []⟩
  constructor
  · rintro ⟨u, hu, f, hf, hn, hna⟩
    have hfa := Format.mem_fields.1 hf
    rw [hn] at hfa
    have huA : u ∈ A := by
      have h1 : u.1 ∈ A.map Prod.fst := by
        rw [hA]
        have : (lastValue fields u.1).isSome := by
          rw [hfields, lastValue_odictOf, Header.lastValue_map, if_pos (Format.mem_names_of_attr hfa)]
          rfl
        exact lastValue_isSome.1 this
      obtain ⟨p, hp, he⟩ := List.mem_map.1 h1
      have hpk : p ∈ kw := by rw [hkw, hAB]; exact List.mem_append_left _ hp
      have h2 := lastValue_of_mem_nodup hnd (show (p.1, p.2) ∈ kw from hpk)
      rw [he, hlast, lastValue_of_mem_nodup hkeys (show (u.1, u.2) ∈ updates from hu)] at h2
      simp only [Option.some.injEq] at h2
      have : p = u := Prod.ext he h2.symm
      exact this ▸ hp
    rw [if_neg (fun hc => hna (hc u huA f hfa))] at hspec
    rw [hcopy, hspec]
    rfl
  · intro hadm hunk
    have hall : ∀ p ∈ A, ∀ f, h.format.attr p.1 = some f → f.value_type.Admits p.2 := by
      intro p hp f hf
      rcases hAm p hp with hp | hp
      · obtain ⟨hm, he⟩ := hmemf p hp
        obtain ⟨v, g, hg, hv, ha⟩ := Header.valid_get hvalid hm
        rw [hg] at hf
        injection hf with hf
        rw [he]
        unfold Header.val
        rw [hv]
        exact hf ▸ ha
      · exact hadm p hp f (Format.mem_fields.2 ((Format.attr_name hf).symm ▸ hf)) (Format.attr_name hf)
    rw [if_pos hall] at hspec
    obtain ⟨h', e1, e2, _⟩ := hspec
    rw [hcopy, e1]
    show h'.setKeywords B = _
    obtain ⟨u, hu, hu1, hu2⟩ := hunk
    refine Header.setKeywords_unknown B h' ?_ ?_
    · intro q hq
      rw [e2]
      cases hf : h.format.attr q.1 with
      | none => rfl
      | some f => exact absurd (Format.mem_names_of_attr hf) (hB q hq)
    · have h1 : (lastValue kw u.1).isSome := by
        rw [hlast, lastValue_of_mem_nodup hkeys (show (u.1, u.2) ∈ updates from hu)]
        rfl
      have h2 := lastValue_isSome.1 h1
      rw [hkw, hAB, List.map_append] at h2
      rcases List.mem_append.1 h2 with h2 | h2
      · obtain ⟨p, hp, he⟩ := List.mem_map.1 h2
        exact absurd (he ▸ hAknown p hp) hu1
      · obtain ⟨p, hp, he⟩ := List.mem_map.1 h2
        refine ⟨p, hp, ?_⟩
        rw [e2, he]
        exact hu2

/-- The full claim is false of the code: the name of a method or layout constant is accepted in place of a field's, and
the copy has the same fields as without it. -/
theorem C32_other_names_fail (h : Header) (name : String) (v : Int)
    (hn : name ∉ h.format.orderedFieldNames) (ho : name ∈ h.format.otherAttributes) :
    h.copy [(name, v)] = h.copy [] := by
  have hno : h.format.attr name = none := by
    cases hf : h.format.attr name with
    | none => rfl
    | some f => exact absurd (Format.mem_names_of_attr hf) hn
  have hkeys : ∀ p ∈ odictOf (h.format.orderedFieldNames.map fun n => (n, h.val n)),
      p.1 ∈ h.format.orderedFieldNames := by
    intro p hp
    have := lastValue_mem (mem_odictOf (show (p.1, p.2) ∈ odictOf _ from hp))
    obtain ⟨n, hn, he⟩ := List.mem_map.1 this
    exact congrArg Prod.fst he ▸ hn
  unfold Header.copy
  rw [Header.collect_eq _ fun n hn => hn]
  simp only [bind, Except.bind, List.foldl]
  rw [odictSet_new]
  swap
  · intro hm
    obtain ⟨p, hp, he⟩ := List.mem_map.1 hm
    exact hn (he ▸ hkeys p hp)
  generalize odictOf (h.format.orderedFieldNames.map fun n => (n, h.val n)) = fields at hkeys
  unfold Header.make
  simp only [List.zip_nil_right, Header.setAll, bind, Except.bind]
  rw [Header.setKeywords_append,
    Header.setKeywords_eq fields ⟨h.format, []⟩ fun p hp => Format.attr_of_mem (hkeys p hp)]
  have hspec := Header.setAll_spec fields ⟨h.format, []⟩
  split at hspec
  · obtain ⟨h', e1, e2, _⟩ := hspec
    rw [e1]
    simp only [Except.bind]
    refine Header.setKeywords_other _ h' ?_ ?_ <;> simpa [e2]
  · rw [hspec]
    rfl

/-- Copying leaves the copied object, and every other, as it was. -/
theorem C32_original_untouched (w : HeaderWorld) (i : Nat) (updates : List (String × Int)) (j : Nat)
    (hj : j < w.classes.length) (n : String) : (w.step (.copy i updates)).1.get j n = w.get j n :=
  (C31_isolation w (.copy i updates) (by simp) j hj).2 n

example : ∃ h, Header.make derivedFormat [3] [] = .ok h ∧
    ((h.copy [("b", 8), ("kind", 5)]).bind fun h' => h'.collect ["a", "kind", "b"])
      = .ok [("a", 3), ("kind", 5), ("b", 8)] ∧
    h.copy [("z", 1), ("b", -1)] = .error .valueError ∧ h.copy [("z", 1), ("b", 1)] = .error .typeError ∧
    h.copy [("copy", 1)] = h.copy [] ∧ "copy" ∉ h.format.orderedFieldNames ∧ "copy" ∈ h.format.otherAttributes :=
  ⟨⟨derivedFormat, [("a", 3)]⟩, by decide +kernel, by decide +kernel, by decide +kernel, by decide +kernel,
    by decide +kernel, by decide +kernel, by decide +kernel⟩

/-! ## C33 -/

/-- Pickling: proved that the fields declared by the header's own class are preserved, and that every inherited
field comes back with its default.  Missing: the inherited fields, which are lost (`C33_derived_format_fails`). -/
theorem C33_pickle_partial (h : Header) (hv : h.Valid) :
    ∃ h', h.pickled = .ok h' ∧ h'.format = h.format ∧
      ∀ f ∈ h.format.fields, h'.get f.name =
        if f.name ∈ h.format.ownFieldNames then h.get f.name else .ok f.default := by
  have hown : ∀ n ∈ h.format.ownFieldNames, n ∈ h.format.orderedFieldNames := by
    intro n hn
    unfold Format.ownFieldNames at hn
    cases hl : h.format.getLast? with
    | none => rw [hl] at hn; simp at hn
    | some L =>
      rw [hl] at hn
      exact List.mem_flatMap.2 ⟨L, List.mem_of_getLast? hl, hn⟩
  unfold Header.pickled
  rw [Header.collect_eq _ hown]
  simp only [bind, Except.bind]
  have hspec := Header.setAll_spec (odictOf (h.format.ownFieldNames.map fun n => (n, h.val n))) ⟨h.format, []⟩
  rw [if_pos] at hspec
  · obtain ⟨h', e1, e2, e3⟩ := hspec
    refine ⟨h', e1, e2, fun f hf => ?_⟩
    have hfa := Format.mem_fields.1 hf
    rw [e3 f.name f hfa, lastValue_odictOf, Header.lastValue_map]
    by_cases hm : f.name ∈ h.format.ownFieldNames
    · rw [if_pos hm, if_pos hm]
      exact (Header.get_val hfa).symm
    · rw [if_neg hm, if_neg hm]
      exact Header.fresh_get hfa
  · intro p hp f hf
    have := lastValue_mem (mem_odictOf (show (p.1, p.2) ∈ odictOf _ from hp))
    obtain ⟨n, hn, he⟩ := List.mem_map.1 this
    have e1 : n = p.1 := congrArg Prod.fst he
    have e2 : h.val n = p.2 := congrArg Prod.snd he
    obtain ⟨v, g, hg, hget, ha⟩ := Header.valid_get hv (hown n hn)
    simp only at hf
    rw [← e1, hg] at hf
    injection hf with hf
    rw [← e2, ← hf]
    unfold Header.val
    rw [hget]
    exact ha

/-- For formats declared in a single class pickling preserves the header. -/
theorem C33_pickle_single_class_partial (h : Header) (L : Level) (hF : h.format = [L]) (hv : h.Valid) :
    ∃ h', h.pickled = .ok h' ∧ h'.format = h.format ∧
      ∀ f ∈ h.format.fields, h'.get f.name = h.get f.name := by
  obtain ⟨h', e1, e2, e3⟩ := C33_pickle_partial h hv
  refine ⟨h', e1, e2, fun f hf => ?_⟩
  rw [e3 f hf, if_pos]
  have := Format.mem_names_of_attr (Format.mem_fields.1 hf)
  rw [hF] at this ⊢
  unfold Format.orderedFieldNames at this
  simpa [Format.ownFieldNames] using this

/-- The property fails for derived formats: pickling a `TraceHeaderRev1` loses the fields it inherits from
`TraceHeaderRev0`. -/
theorem C33_derived_format_fails :
    ∃ h h' : Header, Header.make fmtTraceHeaderRev1 [7] [("inline_number", 5)] = .ok h ∧ h.pickled = .ok h' ∧
      h.get "line_sequence_num" = .ok 7 ∧ h'.get "line_sequence_num" = .ok 0 ∧
      h'.get "inline_number" = .ok 5 := by
  have hm : Header.make fmtTraceHeaderRev1 [7] [("inline_number", 5)] =
      .ok ⟨fmtTraceHeaderRev1, [("line_sequence_num", 7), ("inline_number", 5)]⟩ := by decide +kernel
  have key : ((⟨fmtTraceHeaderRev1, [("line_sequence_num", 7), ("inline_number", 5)]⟩ : Header).pickled.bind
      fun h' => h'.collect ["line_sequence_num", "inline_number"]) =
      .ok [("line_sequence_num", 0), ("inline_number", 5)] := by decide +kernel
  cases hp : (⟨fmtTraceHeaderRev1, [("line_sequence_num", 7), ("inline_number", 5)]⟩ : Header).pickled with
  | error e => rw [hp] at key; simp [Except.bind] at key
  | ok h' =>
    refine ⟨_, h', hm, hp, by decide +kernel, ?_, ?_⟩
    · have : ((⟨fmtTraceHeaderRev1, [("line_sequence_num", 7), ("inline_number", 5)]⟩ : Header).pickled.bind
        fun h' => h'.get "line_sequence_num") = .ok 0 := by decide +kernel
      rw [hp] at this
      exact this
    · have : ((⟨fmtTraceHeaderRev1, [("line_sequence_num", 7), ("inline_number", 5)]⟩ : Header).pickled.bind
        fun h' => h'.get "inline_number") = .ok 5 := by decide +kernel
      rw [hp] at this
      exact this

example : ∃ h, Header.make fmtBinaryReelHeader [] [("num_samples", 100)] = .ok h ∧
    (h.pickled.bind fun h' => h.areEqual h') = .ok true :=
  ⟨⟨fmtBinaryReelHeader, [("num_samples", 100)]⟩, by decide +kernel, by decide +kernel⟩

end Segpy.Props
