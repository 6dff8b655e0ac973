import Verif.Model.HeaderWorld
import Verif.Lemmas.Header

/-!
# Lemmas about header objects with shared dictionaries
-/

namespace Segpy

namespace HeaderWorld

theorem set_eq {w : HeaderWorld} {i : Nat} {n : String} {f : Field} (hf : (w.classOf i).attr n = some f)
    (v : Int) : w.set i n v = if f.value_type.Admits v then ({ w with data := odictSet w.data (f, i) v }, .ok ())
      else (w, .error .valueError) := by
  unfold set
  rw [hf]
  simp only [ValueType.call_eq]
  split <;> rename_i h <;> split at h <;> simp_all

theorem set_no_attr {w : HeaderWorld} {i : Nat} {n : String} (hf : (w.classOf i).attr n = none) (v : Int) :
    w.set i n v = (w, .ok ()) := by
  unfold set
  rw [hf]

/-- What operations on object `i` keep: the classes, and the values of other objects. -/
structure Frame (i : Nat) (w w' : HeaderWorld) : Prop where
  classes : w'.classes = w.classes
  others : ∀ f j, j ≠ i → odictGet w'.data (f, j) = odictGet w.data (f, j)
  admitted : (∀ f j v, odictGet w.data (f, j) = .ok v → f.value_type.Admits v) →
    ∀ f j v, odictGet w'.data (f, j) = .ok v → f.value_type.Admits v

theorem Frame.refl (i : Nat) (w : HeaderWorld) : Frame i w w := ⟨rfl, fun _ _ _ => rfl, fun h => h⟩

theorem Frame.trans {i : Nat} {a b c : HeaderWorld} (h1 : Frame i a b) (h2 : Frame i b c) : Frame i a c :=
  ⟨h2.classes.trans h1.classes, fun f j hj => (h2.others f j hj).trans (h1.others f j hj),
    fun h => h2.admitted (h1.admitted h)⟩

theorem set_frame (w : HeaderWorld) (i : Nat) (n : String) (v : Int) : Frame i w (w.set i n v).1 := by
  cases hf : (w.classOf i).attr n with
  | none => rw [set_no_attr hf]; exact .refl i w
  | some f =>
    rw [set_eq hf]
    split
    · rename_i ha
      refine ⟨rfl, fun g j hj => ?_, fun h g j x hx => ?_⟩
      · simp only [odictGet_set]
        rw [if_neg]
        intro h
        exact hj (congrArg Prod.snd h).symm
      · simp only [odictGet_set] at hx
        split at hx
        · rename_i he
          injection hx with hx
          rw [← hx, ← show f = g from congrArg Prod.fst he]
          exact ha
        · exact h g j x hx
    · exact .refl i w

theorem setAll_frame (kvs : List (String × Int)) (w : HeaderWorld) (i : Nat) : Frame i w (w.setAll i kvs).1 := by
  induction kvs generalizing w with
  | nil => exact .refl i w
  | cons p kvs ih =>
    obtain ⟨k, v⟩ := p
    rw [setAll]
    have := set_frame w i k v
    cases hs : w.set i k v with
    | mk w' r =>
      rw [hs] at this
      cases r with
      | error e => exact this
      | ok u => exact this.trans (ih w')

theorem setKeywords_frame (kvs : List (String × Int)) (w : HeaderWorld) (i : Nat) :
    Frame i w (w.setKeywords i kvs).1 := by
  induction kvs generalizing w with
  | nil => exact .refl i w
  | cons p kvs ih =>
    obtain ⟨k, v⟩ := p
    rw [setKeywords]
    cases hg : w.get i k with
    | error e =>
      simp only
      split
      · exact ih w
      · exact .refl i w
    | ok x =>
      simp only
      have := set_frame w i k v
      cases hs : w.set i k v with
      | mk w' r =>
        rw [hs] at this
        cases r with
        | error e => exact this
        | ok u => exact this.trans (ih w')

/-- A constructor adds one object and changes no other. -/
theorem make_frame (w : HeaderWorld) (F : Format) (args : List Int) (kwargs : List (String × Int)) :
    Frame w.classes.length { w with classes := w.classes ++ [F] } (w.make F args kwargs).1 := by
  unfold make
  simp only
  have h1 := setAll_frame (List.zip F.orderedFieldNames args) { w with classes := w.classes ++ [F] }
    w.classes.length
  cases hs : ({ w with classes := w.classes ++ [F] } : HeaderWorld).setAll w.classes.length
      (List.zip F.orderedFieldNames args) with
  | mk w' r =>
    rw [hs] at h1
    cases r with
    | error e => exact h1
    | ok u => exact h1.trans (setKeywords_frame kwargs w' _)

theorem classOf_append (w : HeaderWorld) (F : Format) (data : List ((Field × Nat) × Int)) (i : Nat)
    (hi : i < w.classes.length) : classOf ⟨w.classes ++ [F], data⟩ i = w.classOf i := by
  unfold classOf
  rw [List.getElem?_append_left hi]

theorem classOf_new (w : HeaderWorld) (F : Format) (data : List ((Field × Nat) × Int)) :
    classOf ⟨w.classes ++ [F], data⟩ w.classes.length = F := by
  unfold classOf
  simp

theorem classOf_congr {w w' : HeaderWorld} (h : w'.classes = w.classes) (i : Nat) :
    w'.classOf i = w.classOf i := by
  unfold classOf
  rw [h]

/-- Values only depend on the class and the entries of the object. -/
theorem get_congr {w w' : HeaderWorld} {i : Nat} (hc : w'.classOf i = w.classOf i)
    (hd : ∀ f, odictGet w'.data (f, i) = odictGet w.data (f, i)) (n : String) : w'.get i n = w.get i n := by
  unfold get
  rw [hc]
  cases (w.classOf i).attr n with
  | none => rfl
  | some f => simp only [hd f]

theorem get_frame {w w' : HeaderWorld} {i j : Nat} (h : Frame i w w') (hj : j ≠ i) (n : String) :
    w'.get j n = w.get j n := get_congr (classOf_congr h.classes j) (fun f => h.others f j hj) n

theorem make_get (w : HeaderWorld) (F : Format) (args : List Int) (kwargs : List (String × Int)) (j : Nat)
    (hj : j < w.classes.length) (n : String) : (w.make F args kwargs).1.get j n = w.get j n := by
  rw [get_frame (make_frame w F args kwargs) (by omega)]
  exact get_congr (classOf_append w F _ j hj) (fun _ => rfl) n

/-! ## Agreement with `Header` -/

/-- Object `i` and the header `h` have the same class and values. -/
structure Sim (w : HeaderWorld) (i : Nat) (h : Header) : Prop where
  cls : w.classOf i = h.format
  entries : ∀ n f, h.format.attr n = some f → odictGet w.data (f, i) = odictGet h.data n

theorem Sim.get {w : HeaderWorld} {i : Nat} {h : Header} (s : Sim w i h) (n : String) : w.get i n = h.get n := by
  unfold HeaderWorld.get Header.get
  rw [s.cls]
  cases hf : h.format.attr n with
  | none => rfl
  | some f =>
    simp only [s.entries n f hf]
    cases odictGet h.data n <;> rfl

/-- Assignment in the two models. -/
theorem Sim.set {w : HeaderWorld} {i : Nat} {h : Header} (s : Sim w i h) (n : String) (v : Int) :
    (w.set i n v).2 = (h.set n v).map (fun _ => ()) ∧
      ∀ h', h.set n v = .ok h' → Sim (w.set i n v).1 i h' := by
  cases hf : h.format.attr n with
  | none =>
    rw [set_no_attr (by rw [s.cls]; exact hf), Header.set_no_attr hf]
    refine ⟨rfl, fun h' hh => ?_⟩
    injection hh with hh
    exact hh ▸ s
  | some f =>
    rw [set_eq (by rw [s.cls]; exact hf), Header.set_eq hf]
    by_cases ha : f.value_type.Admits v
    · rw [if_pos ha, if_pos ha]
      refine ⟨rfl, fun h' hh => ?_⟩
      injection hh with hh
      subst hh
      refine ⟨s.cls, fun m g hg => ?_⟩
      simp only [odictGet_set]
      by_cases hm : n = m
      · subst hm
        rw [hf] at hg
        injection hg with hg
        rw [hg]
        simp
      · rw [if_neg hm, if_neg]
        · exact s.entries m g hg
        · intro he
          apply hm
          have h1 : f = g := congrArg Prod.fst he
          rw [← Format.attr_name hf, ← Format.attr_name hg, h1]
    · rw [if_neg ha, if_neg ha]
      exact ⟨rfl, fun h' hh => by simp at hh⟩

theorem Sim.setAll (kvs : List (String × Int)) {w : HeaderWorld} {i : Nat} {h : Header} (s : Sim w i h) :
    (w.setAll i kvs).2 = (h.setAll kvs).map (fun _ => ()) ∧
      ∀ h', h.setAll kvs = .ok h' → Sim (w.setAll i kvs).1 i h' := by
  induction kvs generalizing w h with
  | nil =>
    refine ⟨rfl, fun h' hh => ?_⟩
    injection hh with hh
    exact hh ▸ s
  | cons p kvs ih =>
    obtain ⟨k, v⟩ := p
    obtain ⟨h1, h2⟩ := s.set k v
    rw [HeaderWorld.setAll, Header.setAll]
    cases hs : h.set k v with
    | error e =>
      rw [hs] at h1
      cases hw : w.set i k v with
      | mk w' r =>
        rw [hw] at h1
        simp only [Except.map] at h1
        subst h1
        simp [bind, Except.bind, Except.map]
    | ok h1' =>
      rw [hs] at h1
      have s' := h2 h1' hs
      cases hw : w.set i k v with
      | mk w' r =>
        rw [hw] at h1 s'
        simp only [Except.map] at h1
        subst h1
        simp only [bind, Except.bind]
        exact ih s'

theorem Sim.setKeywords (kvs : List (String × Int)) {w : HeaderWorld} {i : Nat} {h : Header} (s : Sim w i h) :
    (w.setKeywords i kvs).2 = (h.setKeywords kvs).map (fun _ => ()) ∧
      ∀ h', h.setKeywords kvs = .ok h' → Sim (w.setKeywords i kvs).1 i h' := by
  induction kvs generalizing w h with
  | nil =>
    refine ⟨rfl, fun h' hh => ?_⟩
    injection hh with hh
    exact hh ▸ s
  | cons p kvs ih =>
    obtain ⟨k, v⟩ := p
    obtain ⟨h1, h2⟩ := s.set k v
    rw [HeaderWorld.setKeywords, Header.setKeywords, s.get k]
    cases hg : h.get k with
    | error e =>
      simp only [s.cls]
      split
      · exact ih s
      · exact ⟨rfl, fun h' hh => by simp at hh⟩
    | ok x =>
      simp only
      cases hs : h.set k v with
      | error e =>
        rw [hs] at h1
        cases hw : w.set i k v with
        | mk w' r =>
          rw [hw] at h1
          simp only [Except.map] at h1
          subst h1
          simp [bind, Except.bind, Except.map]
      | ok h1' =>
        rw [hs] at h1
        have s' := h2 h1' hs
        cases hw : w.set i k v with
        | mk w' r =>
          rw [hw] at h1 s'
          simp only [Except.map] at h1
          subst h1
          simp only [bind, Except.bind]
          exact ih s'

/-- No entries for objects yet to be made. -/
def Clean (w : HeaderWorld) : Prop := ∀ f j, w.classes.length ≤ j → odictGet w.data (f, j) = .error .keyError

theorem make_sim (w : HeaderWorld) (hc : w.Clean) (F : Format) (args : List Int) (kwargs : List (String × Int)) :
    (w.make F args kwargs).2 = (Header.make F args kwargs).map (fun _ => ()) ∧
      ∀ h, Header.make F args kwargs = .ok h → Sim (w.make F args kwargs).1 w.classes.length h := by
  have s0 : Sim { w with classes := w.classes ++ [F] } w.classes.length ⟨F, []⟩ := by
    refine ⟨classOf_new w F _, fun n f _ => ?_⟩
    exact hc f w.classes.length (le_refl _)
  obtain ⟨h1, h2⟩ := s0.setAll (List.zip F.orderedFieldNames args)
  unfold make Header.make
  simp only
  cases hs : Header.setAll ⟨F, []⟩ (List.zip F.orderedFieldNames args) with
  | error e =>
    rw [hs] at h1
    cases hw : ({ w with classes := w.classes ++ [F] } : HeaderWorld).setAll w.classes.length
      (List.zip F.orderedFieldNames args) with
    | mk w' r =>
      rw [hw] at h1
      simp only [Except.map] at h1
      subst h1
      simp [bind, Except.bind, Except.map]
  | ok h1' =>
    rw [hs] at h1
    have s' := h2 h1' hs
    cases hw : ({ w with classes := w.classes ++ [F] } : HeaderWorld).setAll w.classes.length
      (List.zip F.orderedFieldNames args) with
    | mk w' r =>
      rw [hw] at h1 s'
      simp only [Except.map] at h1
      subst h1
      simp only [bind, Except.bind]
      exact s'.setKeywords kwargs

theorem collect_eq {w : HeaderWorld} {i : Nat} {h : Header} (s : Sim w i h) (names : List String) :
    w.collect i names = h.collect names := by
  unfold HeaderWorld.collect Header.collect
  simp only [s.get]

theorem copy_sim (w : HeaderWorld) (hc : w.Clean) {i : Nat} {h : Header} (s : Sim w i h)
    (updates : List (String × Int)) :
    (w.copy i updates).2 = (h.copy updates).map (fun _ => ()) ∧
      ∀ h', h.copy updates = .ok h' → Sim (w.copy i updates).1 w.classes.length h' := by
  unfold HeaderWorld.copy Header.copy
  rw [collect_eq s, s.cls]
  cases h.collect h.format.orderedFieldNames with
  | error e => exact ⟨rfl, fun h' hh => by simp [bind, Except.bind] at hh⟩
  | ok fields =>
    simp only [bind, Except.bind]
    exact make_sim w hc _ _ _

/-! ## Histories -/

/-- What holds of every state a history leads to. -/
structure Reached (w : HeaderWorld) : Prop where
  clean : w.Clean
  admitted : ∀ f j v, odictGet w.data (f, j) = .ok v → f.value_type.Admits v

theorem reached_empty : Reached empty :=
  ⟨fun _ _ _ => rfl, fun _ _ _ h => by simp [empty, odictGet] at h⟩

theorem reached_frame {i : Nat} {w w' : HeaderWorld} (h : Frame i w w') (hi : i < w.classes.length)
    (r : Reached w) : Reached w' := by
  refine ⟨fun f j hj => ?_, h.admitted r.admitted⟩
  rw [h.classes] at hj
  rw [h.others f j (by omega)]
  exact r.clean f j hj

theorem reached_make {w : HeaderWorld} (r : Reached w) (F : Format) (args : List Int)
    (kwargs : List (String × Int)) : Reached (w.make F args kwargs).1 := by
  refine reached_frame (make_frame w F args kwargs) (by simp) ⟨fun f j hj => ?_, r.admitted⟩
  simp only [List.length_append, List.length_singleton] at hj
  exact r.clean f j (by omega)

theorem reached_step {w : HeaderWorld} (r : Reached w) (op : Op) : Reached (w.step op).1 := by
  cases op with
  | make F args kwargs => exact reached_make r F args kwargs
  | assign i n v =>
    unfold step
    simp only
    split
    · rename_i hi
      exact reached_frame (set_frame w i n v) hi r
    · exact r
  | copy i updates =>
    unfold step
    simp only
    split
    · unfold copy
      cases w.collect i (w.classOf i).orderedFieldNames with
      | error e => exact r
      | ok fields => exact reached_make r _ _ _
    · exact r

theorem reached_run (ops : List Op) {w : HeaderWorld} (r : Reached w) : Reached (w.run ops) := by
  unfold run
  induction ops generalizing w with
  | nil => exact r
  | cons op ops ih => exact ih (reached_step r op)

end HeaderWorld

end Segpy
