import Verif.Spec.HeaderMemory
import Verif.Lemmas.HeaderWorld

/-!
# Lemmas about header objects that come and go
-/

namespace Segpy

namespace HeaderMemory

/-- The memory and the world have the same objects; the memory has the entries of those that live. -/
structure Rel (m : HeaderMemory) (w : HeaderWorld) : Prop where
  classes : w.classes = m.objects.map HeaderObject.cls
  data : m.data = w.data.filter fun e => m.live e.1.2
  addresses : ∀ (i j : Nat) (x y : HeaderObject), m.objects[i]? = some x → m.objects[j]? = some y → x.alive = true → y.alive = true →
    x.address = y.address → i = j
  nodup : (w.data.map Prod.fst).Nodup

theorem Rel.classOf {m : HeaderMemory} {w : HeaderWorld} (r : Rel m w) (i : Nat) : m.classOf i = w.classOf i := by
  unfold HeaderMemory.classOf HeaderWorld.classOf
  rw [r.classes, List.getElem?_map]
  cases m.objects[i]? <;> rfl

theorem Rel.refEq {m : HeaderMemory} {w : HeaderWorld} (r : Rel m w) {i j : Nat} (hi : m.live i = true)
    (hj : m.live j = true) : m.refEq j i = decide (j = i) := by
  unfold HeaderMemory.refEq
  unfold live at hi hj
  cases hx : m.objects[j]? with
  | none => simp [hx] at hj
  | some x =>
    cases hy : m.objects[i]? with
    | none => simp [hy] at hi
    | some y =>
      simp only [hx] at hj
      simp only [hy] at hi
      simp only [hj, hi, Bool.true_and]
      by_cases h : j = i
      · subst h
        rw [hx] at hy
        injection hy with hy
        simp [hy]
      · have : x.address ≠ y.address := fun he => h (r.addresses j i x y hx hy hj hi he)
        simp [h, this]

theorem Rel.live_entry {m : HeaderMemory} {w : HeaderWorld} (r : Rel m w) {e : (Field × Nat) × Int}
    (he : e ∈ m.data) : m.live e.1.2 = true := by
  rw [r.data] at he
  exact (List.mem_filter.1 he).2

theorem Rel.find {m : HeaderMemory} {w : HeaderWorld} (r : Rel m w) {i : Nat} (hi : m.live i = true) (f : Field) :
    m.find f i = (odictGet w.data (f, i)).toOption := by
  have h : ∀ d : List ((Field × Nat) × Int),
      ((d.filter fun e => m.live e.1.2).find? fun e => e.1.1 = f && m.refEq e.1.2 i).map Prod.snd =
        (odictGet d (f, i)).toOption := by
    intro d
    induction d with
    | nil => rfl
    | cons e d ih =>
      obtain ⟨⟨g, j⟩, v⟩ := e
      rw [odictGet]
      by_cases hj : m.live j = true
      · rw [List.filter_cons_of_pos (by simpa using hj), List.find?_cons]
        simp only [r.refEq hi hj]
        by_cases hk : (g, j) = (f, i)
        · rw [if_pos hk]
          obtain ⟨rfl, rfl⟩ := Prod.mk.injEq .. ▸ hk
          simp [Except.toOption]
        · rw [if_neg hk]
          have : (decide (g = f) && decide (j = i)) = false := by
            simp only [Bool.and_eq_false_iff, decide_eq_false_iff_not]
            by_contra hc
            push Not at hc
            exact hk (by rw [hc.1, hc.2])
          rw [this]
          exact ih
      · rw [List.filter_cons_of_neg (by simpa using hj), if_neg]
        · exact ih
        · intro hk
          have : j = i := congrArg Prod.snd hk
          exact hj (this ▸ hi)
  unfold HeaderMemory.find
  rw [r.data]
  exact h w.data

theorem Rel.storeIn {m : HeaderMemory} {w : HeaderWorld} (r : Rel m w) {i : Nat} (hi : m.live i = true) (f : Field)
    (v : Int) : m.storeIn f i v m.data = (odictSet w.data (f, i) v).filter fun e => m.live e.1.2 := by
  have h : ∀ d : List ((Field × Nat) × Int), m.storeIn f i v (d.filter fun e => m.live e.1.2) =
      (odictSet d (f, i) v).filter fun e => m.live e.1.2 := by
    intro d
    induction d with
    | nil => simp [HeaderMemory.storeIn, odictSet, hi]
    | cons e d ih =>
      obtain ⟨⟨g, j⟩, x⟩ := e
      rw [odictSet]
      by_cases hj : m.live j = true
      · rw [List.filter_cons_of_pos (by simpa using hj), HeaderMemory.storeIn]
        simp only [r.refEq hi hj]
        by_cases hk : (g, j) = (f, i)
        · rw [if_pos hk]
          obtain ⟨rfl, rfl⟩ := Prod.mk.injEq .. ▸ hk
          simp [hj]
        · rw [if_neg hk]
          have : (decide (g = f) && decide (j = i)) = false := by
            simp only [Bool.and_eq_false_iff, decide_eq_false_iff_not]
            by_contra hc
            push Not at hc
            exact hk (by rw [hc.1, hc.2])
          rw [this, if_neg (by simp), List.filter_cons_of_pos (by simpa using hj), ih]
      · rw [List.filter_cons_of_neg (by simpa using hj), if_neg, List.filter_cons_of_neg (by simpa using hj), ih]
        intro hk
        have : j = i := congrArg Prod.snd hk
        exact hj (this ▸ hi)
  rw [r.data]
  exact h w.data

theorem Rel.get {m : HeaderMemory} {w : HeaderWorld} (r : Rel m w) {i : Nat} (hi : m.live i = true) (n : String) :
    m.get i n = w.get i n := by
  unfold HeaderMemory.get HeaderWorld.get
  rw [r.classOf]
  cases (w.classOf i).attr n with
  | none => rfl
  | some f =>
    simp only [r.find hi]
    cases odictGet w.data (f, i) <;> rfl

theorem odictSet_nodup' {κ ν : Type} [DecidableEq κ] {d : List (κ × ν)} (h : (d.map Prod.fst).Nodup) (k : κ) (v : ν) :
    ((odictSet d k v).map Prod.fst).Nodup := by
  have hm : ∀ (d : List (κ × ν)) (x : κ), x ∈ (odictSet d k v).map Prod.fst → x = k ∨ x ∈ d.map Prod.fst := by
    intro d x
    induction d with
    | nil => simp [odictSet]
    | cons e d ih =>
      obtain ⟨k', v'⟩ := e
      rw [odictSet]
      split
      · rename_i hk
        intro hx
        exact .inr hx
      · simp only [List.map_cons, List.mem_cons]
        rintro (hx | hx)
        · exact .inr (.inl hx)
        · rcases ih hx with hx | hx
          · exact .inl hx
          · exact .inr (.inr hx)
  induction d with
  | nil => simp [odictSet]
  | cons e d ih =>
    obtain ⟨k', v'⟩ := e
    rw [odictSet]
    simp only [List.map_cons, List.nodup_cons] at h
    split
    · simpa using h
    · rename_i hk
      simp only [List.map_cons, List.nodup_cons]
      refine ⟨fun hx => ?_, ih h.2⟩
      rcases hm d k' hx with hx | hx
      · exact hk hx
      · exact h.1 hx

/-- What running the same thing in memory and world comes to. -/
structure Same (m : HeaderMemory) (a : HeaderMemory × Res Unit) (b : HeaderWorld × Res Unit) : Prop where
  outcome : a.2 = b.2
  objects : a.1.objects = m.objects
  rel : Rel a.1 b.1

theorem live_congr {m m' : HeaderMemory} (h : m'.objects = m.objects) (i : Nat) : m'.live i = m.live i := by
  unfold live
  rw [h]

theorem Rel.set {m : HeaderMemory} {w : HeaderWorld} (r : Rel m w) {i : Nat} (hi : m.live i = true) (n : String)
    (v : Int) : Same m (m.set i n v) (w.set i n v) := by
  unfold HeaderMemory.set HeaderWorld.set
  rw [r.classOf]
  cases (w.classOf i).attr n with
  | none => exact ⟨rfl, rfl, r⟩
  | some f =>
    simp only
    cases f.value_type.call v with
    | error e => exact ⟨rfl, rfl, r⟩
    | ok v =>
      refine ⟨rfl, rfl, r.classes, ?_, r.addresses, odictSet_nodup' r.nodup _ _⟩
      simp only [r.storeIn hi]
      rfl

theorem Same.trans {m m1 : HeaderMemory} {a : HeaderMemory × Res Unit} {b : HeaderWorld × Res Unit}
    (h0 : m1.objects = m.objects) (h : Same m1 a b) : Same m a b := ⟨h.outcome, h.objects.trans h0, h.rel⟩

theorem Rel.setAll (kvs : List (String × Int)) {m : HeaderMemory} {w : HeaderWorld} (r : Rel m w) {i : Nat}
    (hi : m.live i = true) : Same m (m.setAll i kvs) (w.setAll i kvs) := by
  induction kvs generalizing m w with
  | nil => exact ⟨rfl, rfl, r⟩
  | cons p kvs ih =>
    obtain ⟨k, v⟩ := p
    have h := r.set hi k v
    rw [HeaderMemory.setAll, HeaderWorld.setAll]
    cases hm : m.set i k v with
    | mk m' x =>
      cases hw : w.set i k v with
      | mk w' y =>
        rw [hm, hw] at h
        have ho : x = y := h.outcome
        subst ho
        cases x with
        | error e => exact h
        | ok u => exact (ih h.rel (by rw [live_congr h.objects]; exact hi)).trans h.objects

theorem Rel.setKeywords (kvs : List (String × Int)) {m : HeaderMemory} {w : HeaderWorld} (r : Rel m w) {i : Nat}
    (hi : m.live i = true) : Same m (m.setKeywords i kvs) (w.setKeywords i kvs) := by
  induction kvs generalizing m w with
  | nil => exact ⟨rfl, rfl, r⟩
  | cons p kvs ih =>
    obtain ⟨k, v⟩ := p
    have h := r.set hi k v
    rw [HeaderMemory.setKeywords, HeaderWorld.setKeywords, r.get hi, r.classOf]
    cases w.get i k with
    | error e =>
      simp only
      split
      · exact ih r hi
      · exact ⟨rfl, rfl, r⟩
    | ok x =>
      simp only
      cases hm : m.set i k v with
      | mk m' x =>
        cases hw : w.set i k v with
        | mk w' y =>
          rw [hm, hw] at h
          have ho : x = y := h.outcome
          subst ho
          cases x with
          | error e => exact h
          | ok u => exact (ih h.rel (by rw [live_congr h.objects]; exact hi)).trans h.objects

theorem live_append (m : HeaderMemory) (o : HeaderObject) (d : List ((Field × Nat) × Int)) (i : Nat)
    (hi : i < m.objects.length) : live ⟨m.objects ++ [o], d⟩ i = m.live i := by
  unfold live
  rw [List.getElem?_append_left hi]

/-- A new object in memory and world. -/
theorem Rel.make {m : HeaderMemory} {w : HeaderWorld} (r : Rel m w) (hc : w.Clean) (F : Format) (args : List Int)
    (kwargs : List (String × Int)) {address : Nat} (hfree : m.Free address) :
    (m.make F args kwargs address).2 = (w.make F args kwargs).2 ∧
      (m.make F args kwargs address).1.objects = m.objects ++ [⟨F, address, true⟩] ∧
      Rel (m.make F args kwargs address).1 (w.make F args kwargs).1 := by
  have hlen : w.classes.length = m.objects.length := by rw [r.classes, List.length_map]
  have r0 : Rel ⟨m.objects ++ [⟨F, address, true⟩], m.data⟩ { w with classes := w.classes ++ [F] } := by
    refine ⟨by simp [r.classes], ?_, ?_, r.nodup⟩
    · show m.data = _
      rw [r.data]
      refine List.filter_congr fun e he => ?_
      rw [live_append]
      by_contra hlt
      have h1 := hc e.1.1 e.1.2 (by omega)
      exact absurd h1 (by
        intro h1
        have : ∀ d : List ((Field × Nat) × Int), e ∈ d → odictGet d e.1 ≠ .error .keyError := by
          intro d
          induction d with
          | nil => simp
          | cons q d ih =>
            intro hm
            rw [show q :: d = (q.1, q.2) :: d from rfl, odictGet]
            split
            · simp
            · rename_i hk
              rcases List.mem_cons.1 hm with hm | hm
              · exact absurd (by rw [hm]) hk
              · exact ih hm
        exact this w.data he h1)
    · intro i j x y hx hy hxa hya he
      simp only [List.getElem?_append] at hx hy
      have hone : ∀ k (z : HeaderObject), [(⟨F, address, true⟩ : HeaderObject)][k]? = some z →
          k = 0 ∧ z = ⟨F, address, true⟩ := by
        intro k z hz
        cases k with
        | zero => exact ⟨rfl, by simpa using hz.symm⟩
        | succ k => simp at hz
      split at hx <;> split at hy
      · exact r.addresses i j x y hx hy hxa hya he
      · obtain ⟨_, rfl⟩ := hone _ _ hy
        exact absurd he (hfree x (List.mem_of_getElem? hx) hxa)
      · obtain ⟨_, rfl⟩ := hone _ _ hx
        exact absurd he.symm (hfree y (List.mem_of_getElem? hy) hya)
      · have h1 := (hone _ _ hx).1
        have h2 := (hone _ _ hy).1
        omega
  have hi0 : live ⟨m.objects ++ [⟨F, address, true⟩], m.data⟩ m.objects.length = true := by simp [live]
  have h1 := r0.setAll (List.zip F.orderedFieldNames args) hi0
  unfold HeaderMemory.make HeaderWorld.make
  simp only [hlen]
  cases hm : (⟨m.objects ++ [⟨F, address, true⟩], m.data⟩ : HeaderMemory).setAll m.objects.length
      (List.zip F.orderedFieldNames args) with
  | mk m' x =>
    cases hw : ({ w with classes := w.classes ++ [F] } : HeaderWorld).setAll m.objects.length
        (List.zip F.orderedFieldNames args) with
    | mk w' y =>
      rw [hm, hw] at h1
      have ho : x = y := h1.outcome
      subst ho
      cases x with
      | error e => exact ⟨rfl, h1.objects, h1.rel⟩
      | ok u =>
        have h2 := h1.rel.setKeywords kwargs (i := m.objects.length) (by rw [live_congr h1.objects]; exact hi0)
        exact ⟨h2.outcome, h2.objects.trans h1.objects, h2.rel⟩

theorem Rel.copy {m : HeaderMemory} {w : HeaderWorld} (r : Rel m w) (hc : w.Clean) {i : Nat} (hi : m.live i = true)
    (updates : List (String × Int)) {address : Nat} (hfree : m.Free address) :
    (m.copy i updates address).2 = (w.copy i updates).2 ∧
      Rel (m.copy i updates address).1 (w.copy i updates).1 := by
  have hcol : ∀ names, m.collect i names = w.collect i names := by
    intro names
    unfold HeaderMemory.collect HeaderWorld.collect
    simp only [r.get hi]
  unfold HeaderMemory.copy HeaderWorld.copy
  rw [hcol, r.classOf]
  cases w.collect i (w.classOf i).orderedFieldNames with
  | error e => exact ⟨rfl, r⟩
  | ok fields =>
    have h := r.make hc (w.classOf i) [] (updates.foldl (fun d p => odictSet d p.1 p.2) fields) hfree
    exact ⟨h.1, h.2.2⟩

theorem live_forget (m : HeaderMemory) (i j : Nat) :
    (m.forget i).live j = (m.live j && decide (j ≠ i)) := by
  unfold live forget
  simp only [List.getElem?_modify]
  by_cases h : i = j
  · subst h
    cases m.objects[i]? <;> simp
  · have : j ≠ i := fun he => h he.symm
    cases m.objects[j]? <;> simp [h, this]

theorem Rel.forget {m : HeaderMemory} {w : HeaderWorld} (r : Rel m w) (i : Nat) : Rel (m.forget i) w := by
  have hcls : (m.forget i).objects.map HeaderObject.cls = m.objects.map HeaderObject.cls := by
    apply List.ext_getElem?
    intro k
    unfold HeaderMemory.forget
    simp only [List.getElem?_map, List.getElem?_modify]
    by_cases h : i = k
    · subst h
      cases m.objects[i]? <;> simp
    · simp [h]
  refine ⟨r.classes.trans hcls.symm, ?_, ?_, r.nodup⟩
  · show m.data.filter _ = _
    rw [r.data, List.filter_filter]
    refine List.filter_congr fun e _ => ?_
    rw [live_forget, Bool.and_comm]
  · intro a b x y hx hy hxa hya he
    have back : ∀ (k : Nat) (z : HeaderObject), (m.forget i).objects[k]? = some z → z.alive = true → m.objects[k]? = some z := by
      intro k z hz hza
      unfold HeaderMemory.forget at hz
      simp only [List.getElem?_modify] at hz
      by_cases h : i = k
      · subst h
        cases ho : m.objects[i]? with
        | none => rw [ho] at hz; simp at hz
        | some o =>
          rw [ho] at hz
          have hz : ({ o with alive := false } : HeaderObject) = z := by simpa using hz
          rw [← hz] at hza
          simp at hza
      · simpa [h] using hz
    exact r.addresses a b x y (back a x hx hxa) (back b y hy hya) hxa hya he

theorem forever_cons (op : Op) (ops : List Op) : forever (op :: ops) = forever [op] ++ forever ops := by
  cases op <;> rfl

/-- One operation. -/
theorem Rel.step {m : HeaderMemory} {w : HeaderWorld} (r : Rel m w) (hr : w.Reached) (op : Op)
    (hp : m.Possible op) :
    Rel (m.step op).1 (w.run (forever [op])) ∧ (w.run (forever [op])).Reached ∧
      ∀ op', forever [op] = [op'] → (m.step op).2 = (w.step op').2 := by
  have hlt : ∀ {i}, m.live i = true → i < w.classes.length := by
    intro i hi
    rw [r.classes, List.length_map]
    by_contra hge
    unfold live at hi
    rw [List.getElem?_eq_none (by omega)] at hi
    simp at hi
  refine ⟨?_, HeaderWorld.reached_run _ hr, ?_⟩ <;> cases op with
  | make F args kwargs address => ?_
  | assign i n v => ?_
  | copy i updates address => ?_
  | forget i => ?_
  · exact (r.make hr.clean F args kwargs hp).2.2
  · show Rel _ (w.step (.assign i n v)).1
    unfold HeaderWorld.step
    simp only
    rw [if_pos (hlt hp)]
    exact (r.set hp n v).rel
  · show Rel _ (w.step (.copy i updates)).1
    unfold HeaderWorld.step
    simp only
    rw [if_pos (hlt hp.1)]
    exact (r.copy hr.clean hp.1 updates hp.2).2
  · exact r.forget i
  · intro op' he
    simp only [forever, List.cons.injEq, and_true] at he
    subst he
    exact (r.make hr.clean F args kwargs hp).1
  · intro op' he
    simp only [forever, List.cons.injEq, and_true] at he
    subst he
    unfold HeaderWorld.step
    simp only
    rw [if_pos (hlt hp)]
    exact (r.set hp n v).outcome
  · intro op' he
    simp only [forever, List.cons.injEq, and_true] at he
    subst he
    unfold HeaderWorld.step
    simp only
    rw [if_pos (hlt hp.1)]
    exact (r.copy hr.clean hp.1 updates hp.2).1
  · intro op' he
    simp [forever] at he

theorem Rel.run (ops : List Op) {m : HeaderMemory} {w : HeaderWorld} (r : Rel m w) (hr : w.Reached)
    (hp : m.AllPossible ops) : Rel (m.run ops) (w.run (forever ops)) ∧ (w.run (forever ops)).Reached := by
  induction ops generalizing m w with
  | nil => exact ⟨r, hr⟩
  | cons op ops ih =>
    obtain ⟨h1, h2, _⟩ := r.step hr op hp.1
    rw [forever_cons]
    have : w.run (forever [op] ++ forever ops) = (w.run (forever [op])).run (forever ops) := by
      unfold HeaderWorld.run
      rw [List.foldl_append]
    rw [this]
    exact ih h1 h2 hp.2

theorem rel_empty : Rel empty HeaderWorld.empty :=
  ⟨rfl, rfl, fun i _ _ _ h => by simp [empty] at h, by simp [HeaderWorld.empty]⟩

end HeaderMemory

end Segpy
