import Verif.Lemmas.Packer

/-!
# Lemmas about header objects
-/

namespace Segpy

/-! ## Association lists -/

/-- The last value assigned to a name in a list of assignments. -/
def lastValue : List (String × Int) → String → Option Int
  | [], _ => none
  | (k, v) :: rest, n =>
    match lastValue rest n with
    | some w => some w
    | none => if k = n then some v else none

theorem lastValue_mem {l : List (String × Int)} {n : String} {v : Int} (h : lastValue l n = some v) :
    (n, v) ∈ l := by
  induction l with
  | nil => simp [lastValue] at h
  | cons p l ih =>
    obtain ⟨k, w⟩ := p
    rw [lastValue] at h
    cases hl : lastValue l n with
    | some u =>
      rw [hl] at h
      simp only [Option.some.injEq] at h
      subst h
      exact List.mem_cons_of_mem _ (ih hl)
    | none =>
      rw [hl] at h
      simp only at h
      split at h
      · rename_i hk
        subst hk
        simp only [Option.some.injEq] at h
        subst h
        simp
      · simp at h

theorem lastValue_isSome {l : List (String × Int)} {n : String} :
    (lastValue l n).isSome ↔ n ∈ l.map Prod.fst := by
  induction l with
  | nil => simp [lastValue]
  | cons p l ih =>
    obtain ⟨k, w⟩ := p
    rw [lastValue]
    cases hl : lastValue l n with
    | some u =>
      rw [hl] at ih
      simp only [Option.isSome_some, true_iff, List.map_cons, List.mem_cons] at ih ⊢
      exact Or.inr ih
    | none =>
      rw [hl] at ih
      simp only [Option.isSome_none, Bool.false_eq_true, false_iff, List.map_cons, List.mem_cons] at ih ⊢
      split
      · rename_i hk
        simp [hk]
      · rename_i hk
        simp only [Option.isSome_none, Bool.false_eq_true, false_iff, not_or]
        exact ⟨fun h => hk h.symm, ih⟩

theorem lastValue_none {l : List (String × Int)} {n : String} (h : n ∉ l.map Prod.fst) :
    lastValue l n = none := by
  cases hl : lastValue l n with
  | none => rfl
  | some v => exact absurd (lastValue_isSome.1 (by rw [hl]; rfl)) h

theorem lastValue_of_mem_nodup {l : List (String × Int)} (hn : (l.map Prod.fst).Nodup) {n : String} {v : Int}
    (h : (n, v) ∈ l) : lastValue l n = some v := by
  have hs : (lastValue l n).isSome := lastValue_isSome.2 (List.mem_map_of_mem (f := Prod.fst) h)
  obtain ⟨w, hw⟩ := Option.isSome_iff_exists.1 hs
  have := List.inj_on_of_nodup_map hn h (lastValue_mem hw) rfl
  rw [hw]
  exact congrArg some (congrArg Prod.snd this).symm

theorem odictSet_keys {ν : Type} (d : List (String × ν)) (k : String) (v : ν) :
    (odictSet d k v).map Prod.fst = if k ∈ d.map Prod.fst then d.map Prod.fst else d.map Prod.fst ++ [k] := by
  induction d with
  | nil => simp [odictSet]
  | cons p d ih =>
    obtain ⟨k', v'⟩ := p
    rw [odictSet]
    by_cases h : k' = k
    · simp [h]
    · rw [if_neg h, List.map_cons, ih]
      have h' : ¬ k = k' := fun e => h e.symm
      simp only [List.map_cons, List.mem_cons, h', false_or]
      split <;> simp

theorem odictSet_nodup {ν : Type} {d : List (String × ν)} (h : (d.map Prod.fst).Nodup) (k : String) (v : ν) :
    ((odictSet d k v).map Prod.fst).Nodup := by
  rw [odictSet_keys]
  split
  · exact h
  · rename_i hk
    rw [List.nodup_append]
    refine ⟨h, by simp, ?_⟩
    intro a ha b hb
    simp only [List.mem_singleton] at hb
    subst hb
    rintro rfl
    exact hk ha

theorem odictGet_set {κ ν : Type} [DecidableEq κ] (d : List (κ × ν)) (k : κ) (v : ν) (n : κ) :
    odictGet (odictSet d k v) n = if k = n then .ok v else odictGet d n := by
  induction d with
  | nil => simp [odictSet, odictGet]
  | cons p d ih =>
    obtain ⟨k', v'⟩ := p
    rw [odictSet]
    by_cases h : k' = k
    · rw [if_pos h]
      subst h
      simp only [odictGet]
      split <;> rfl
    · rw [if_neg h]
      simp only [odictGet, ih]
      by_cases h2 : k' = n
      · rw [if_pos h2, if_pos h2, if_neg]
        intro h3
        exact h (h2.trans h3.symm)
      · rw [if_neg h2, if_neg h2]

theorem lastValue_set {d : List (String × Int)} (h : (d.map Prod.fst).Nodup) (k : String) (v : Int) (n : String) :
    lastValue (odictSet d k v) n = if k = n then some v else lastValue d n := by
  induction d with
  | nil => simp [odictSet, lastValue]
  | cons p d ih =>
    obtain ⟨k', v'⟩ := p
    rw [List.map_cons, List.nodup_cons] at h
    rw [odictSet]
    by_cases hk : k' = k
    · rw [if_pos hk]
      subst hk
      simp only [lastValue]
      by_cases hn : k' = n
      · subst hn
        rw [lastValue_none h.1]
        simp
      · simp [hn]
    · rw [if_neg hk, lastValue, ih h.2]
      by_cases hn : k = n
      · simp [hn]
      · simp only [hn, if_false, lastValue]

theorem foldl_odictSet {ν : Type} (l d : List (String × ν)) (h : (d.map Prod.fst).Nodup) :
    ((l.foldl (fun d p => odictSet d p.1 p.2) d).map Prod.fst).Nodup := by
  induction l generalizing d with
  | nil => exact h
  | cons p l ih => exact ih _ (odictSet_nodup h _ _)

theorem lastValue_foldl (l d : List (String × Int)) (h : (d.map Prod.fst).Nodup) (n : String) :
    lastValue (l.foldl (fun d p => odictSet d p.1 p.2) d) n =
      match lastValue l n with
      | some w => some w
      | none => lastValue d n := by
  induction l generalizing d with
  | nil => rfl
  | cons p l ih =>
    obtain ⟨k, v⟩ := p
    rw [List.foldl_cons, ih _ (odictSet_nodup h _ _), lastValue_set h, lastValue]
    cases lastValue l n with
    | some w => rfl
    | none => simp only; split <;> rfl

theorem odictOf_keys_nodup (l : List (String × Int)) : ((odictOf l).map Prod.fst).Nodup :=
  foldl_odictSet l [] (by simp)

theorem lastValue_odictOf (l : List (String × Int)) (n : String) : lastValue (odictOf l) n = lastValue l n := by
  unfold odictOf
  rw [lastValue_foldl l [] (by simp)]
  cases lastValue l n <;> rfl

theorem mem_odictOf {l : List (String × Int)} {n : String} {v : Int} (h : (n, v) ∈ odictOf l) :
    lastValue l n = some v := by
  rw [← lastValue_odictOf]
  exact lastValue_of_mem_nodup (odictOf_keys_nodup l) h

/-! ## Getting and setting -/

namespace Header

theorem get_of_attr {h : Header} {n : String} {f : Field} (hf : h.format.attr n = some f) :
    ∃ v, h.get n = .ok v := by
  unfold get
  rw [hf]
  cases odictGet h.data n with
  | ok v => exact ⟨v, rfl⟩
  | error _ => exact ⟨_, rfl⟩

theorem get_no_attr {h : Header} {n : String} (hf : h.format.attr n = none) :
    h.get n = .error .attributeError := by
  unfold get
  rw [hf]

/-- Assignment to a field. -/
theorem set_eq {h : Header} {n : String} {f : Field} (hf : h.format.attr n = some f) (v : Int) :
    h.set n v = if f.value_type.Admits v then .ok { h with data := odictSet h.data n v }
      else .error .valueError := by
  unfold set
  rw [hf]
  simp only [ValueType.call_eq]
  split <;> rfl

theorem set_no_attr {h : Header} {n : String} (hf : h.format.attr n = none) (v : Int) : h.set n v = .ok h := by
  unfold set
  rw [hf]

theorem set_format {h h' : Header} {n : String} {v : Int} (hs : h.set n v = .ok h') : h'.format = h.format := by
  cases hf : h.format.attr n with
  | none => rw [set_no_attr hf] at hs; injection hs with hs; rw [hs]
  | some f =>
    rw [set_eq hf] at hs
    split at hs
    · injection hs with hs; rw [← hs]
    · simp at hs

theorem get_set {h h' : Header} {n : String} {v : Int} {f : Field} (hf : h.format.attr n = some f)
    (hs : h.set n v = .ok h') (m : String) : h'.get m = if n = m then .ok v else h.get m := by
  rw [set_eq hf] at hs
  split at hs
  · injection hs with hs
    subst hs
    unfold get
    simp only [odictGet_set]
    by_cases hm : n = m
    · subst hm
      simp [hf]
    · simp [hm]
  · simp at hs

/-- The positional loop: it succeeds when every value is admitted, and then each name has the last value
given to it. -/
theorem setAll_spec (kvs : List (String × Int)) (h : Header) :
    if ∀ p ∈ kvs, ∀ f, h.format.attr p.1 = some f → f.value_type.Admits p.2
    then ∃ h', h.setAll kvs = .ok h' ∧ h'.format = h.format ∧
      ∀ n f, h.format.attr n = some f → h'.get n = match lastValue kvs n with
        | some v => .ok v
        | none => h.get n
    else h.setAll kvs = .error .valueError := by
  classical
  induction kvs generalizing h with
  | nil => rw [if_pos (by simp)]; exact ⟨h, rfl, rfl, fun _ _ _ => rfl⟩
  | cons p kvs ih =>
    obtain ⟨k, v⟩ := p
    cases hf : h.format.attr k with
    | none =>
      have hstep : h.setAll ((k, v) :: kvs) = h.setAll kvs := by
        rw [setAll, set_no_attr hf]; rfl
      have := ih h
      rw [hstep]
      split
      · rename_i hall
        rw [if_pos fun p hp => hall p (List.mem_cons_of_mem _ hp)] at this
        obtain ⟨h', h1, h2, h3⟩ := this
        refine ⟨h', h1, h2, fun n f hn => ?_⟩
        rw [h3 n f hn, lastValue]
        cases lastValue kvs n with
        | some w => rfl
        | none =>
          have : ¬ k = n := by rintro rfl; rw [hf] at hn; simp at hn
          simp [this]
      · rename_i hall
        rw [if_neg] at this
        · exact this
        · intro hc
          apply hall
          intro p hp g hg
          rcases List.mem_cons.1 hp with rfl | hp
          · rw [hf] at hg; simp at hg
          · exact hc p hp g hg
    | some f =>
      by_cases hv : f.value_type.Admits v
      · obtain ⟨h1, hh1⟩ : ∃ h1, h.set k v = .ok h1 := by rw [set_eq hf, if_pos hv]; exact ⟨_, rfl⟩
        have hstep : h.setAll ((k, v) :: kvs) = h1.setAll kvs := by
          rw [setAll, hh1]; rfl
        have hfmt := set_format hh1
        have := ih h1
        rw [hstep]
        simp only [hfmt] at this
        split
        · rename_i hall
          rw [if_pos fun p hp => hall p (List.mem_cons_of_mem _ hp)] at this
          obtain ⟨h', e1, e2, e3⟩ := this
          refine ⟨h', e1, e2, fun n g hn => ?_⟩
          rw [e3 n g hn, lastValue]
          cases lastValue kvs n with
          | some w => rfl
          | none =>
            simp only
            rw [get_set hf hh1]
            split <;> rfl
        · rename_i hall
          rw [if_neg] at this
          · exact this
          · intro hc
            apply hall
            intro p hp g hg
            rcases List.mem_cons.1 hp with rfl | hp
            · rw [hf] at hg
              injection hg with hg
              exact hg ▸ hv
            · exact hc p hp g hg
      · rw [if_neg]
        · rw [setAll, set_eq hf, if_neg hv]; rfl
        · intro hc
          exact hv (hc (k, v) (by simp) f hf)

/-- The keyword loop: as the positional loop, on names that are all fields. -/
theorem setKeywords_eq (kvs : List (String × Int)) (h : Header)
    (hk : ∀ p ∈ kvs, ∃ f, h.format.attr p.1 = some f) : h.setKeywords kvs = h.setAll kvs := by
  induction kvs generalizing h with
  | nil => rfl
  | cons p kvs ih =>
    obtain ⟨k, v⟩ := p
    obtain ⟨f, hf⟩ := hk (k, v) (by simp)
    obtain ⟨w, hw⟩ := get_of_attr hf
    rw [setKeywords, hw, setAll]
    simp only
    cases hs : h.set k v with
    | error e => rfl
    | ok h' =>
      simp only [bind, Except.bind]
      apply ih
      intro p hp
      rw [set_format hs]
      exact hk p (List.mem_cons_of_mem _ hp)

/-- The keyword loop on names none of which is a field: it raises if one of them is no attribute at all. -/
theorem setKeywords_unknown (kvs : List (String × Int)) (h : Header) (hn : ∀ p ∈ kvs, h.format.attr p.1 = none)
    (hk : ∃ p ∈ kvs, p.1 ∉ h.format.otherAttributes) : h.setKeywords kvs = .error .typeError := by
  induction kvs with
  | nil => simp at hk
  | cons p kvs ih =>
    obtain ⟨k, v⟩ := p
    rw [setKeywords, get_no_attr (hn (k, v) (by simp))]
    simp only
    split
    · rename_i hm
      apply ih (fun p hp => hn p (List.mem_cons_of_mem _ hp))
      obtain ⟨q, hq, hq'⟩ := hk
      rcases List.mem_cons.1 hq with rfl | hq
      · exact absurd hm hq'
      · exact ⟨q, hq, hq'⟩
    · rfl

/-- And otherwise changes nothing. -/
theorem setKeywords_other (kvs : List (String × Int)) (h : Header) (hn : ∀ p ∈ kvs, h.format.attr p.1 = none)
    (hk : ∀ p ∈ kvs, p.1 ∈ h.format.otherAttributes) : h.setKeywords kvs = .ok h := by
  induction kvs with
  | nil => rfl
  | cons p kvs ih =>
    obtain ⟨k, v⟩ := p
    rw [setKeywords, get_no_attr (hn (k, v) (by simp))]
    simp only
    rw [if_pos (hk (k, v) (by simp))]
    exact ih (fun p hp => hn p (List.mem_cons_of_mem _ hp)) fun p hp => hk p (List.mem_cons_of_mem _ hp)

theorem fresh_get {F : Format} {n : String} {f : Field} (hf : F.attr n = some f) :
    (⟨F, []⟩ : Header).get n = .ok f.default := by
  unfold get
  simp only [hf, odictGet]

end Header

end Segpy
