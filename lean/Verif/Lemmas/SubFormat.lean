import Verif.Lemmas.Packer2

/-!
# Lemmas about sub-formats
-/

namespace Segpy

theorem copyFields_spec {F : Format} (hd : F.DefaultsAdmitted) (names : List String) :
    ∀ (ns : List (String × Field)), (∀ n ∈ names, n ∈ F.orderedFieldNames) → names.Nodup →
      (∀ n ∈ names, n ∉ ns.map Prod.fst) →
      F.copyFields ns names = .ok (ns ++ (names.filterMap F.attr).map fun f => (f.name, f)) := by
  induction names with
  | nil => intro ns _ _ _; simp [Format.copyFields]
  | cons n names ih =>
    intro ns hmem hnd hfresh
    obtain ⟨f, hf⟩ := Format.attr_of_mem (hmem n (by simp))
    have hname := Format.attr_name hf
    have hdef : f.value_type.Admits f.default := hd f (Format.mem_fields.2 (hname.symm ▸ hf))
    rw [Format.copyFields, hf]
    simp only [hname, ne_eq, not_true_eq_false, if_false]
    unfold mkField
    rw [ValueType.call_eq, if_pos hdef]
    simp only [bind, Except.bind, pure, Except.pure]
    have hf' : (⟨n, f.value_type, f.offset, f.default⟩ : Field) = f := by rw [← hname]
    rw [hf', odictSet_fresh ns n f (fun p hp h => hfresh n (by simp) (h ▸ List.mem_map.2 ⟨p, hp, rfl⟩))]
    rw [ih]
    · simp [hf, hname]
    · exact fun m hm => hmem m (List.mem_cons_of_mem _ hm)
    · exact (List.nodup_cons.1 hnd).2
    · intro m hm
      have h1 := hfresh m (List.mem_cons_of_mem _ hm)
      have h2 : m ≠ n := fun h => (List.nodup_cons.1 hnd).1 (h ▸ hm)
      simp only [List.map_append, List.map_cons, List.map_nil, List.mem_append, List.mem_singleton, not_or]
      exact ⟨h1, h2⟩

/-- What a sub-format is: one class with the selected fields, in the order of the selection. -/
theorem subFormat_eq {F : Format} (hd : F.DefaultsAdmitted) (name : String) (names : List String)
    (hmem : ∀ n ∈ names, n ∈ F.orderedFieldNames) (hnd : names.Nodup) :
    F.subFormat name names = .ok [⟨name, names.filterMap F.attr,
      F.findSome? Level.start_offset, F.findSome? Level.length_in_bytes⟩] := by
  unfold Format.subFormat
  rw [copyFields_spec hd names [] hmem hnd (by simp)]
  simp only [bind, Except.bind, pure, Except.pure, List.nil_append, List.map_map]
  congr 3
  exact List.map_id _

theorem filterMap_attr_names {F : Format} (names : List String) (hmem : ∀ n ∈ names, n ∈ F.orderedFieldNames) :
    (names.filterMap F.attr).map Field.name = names := by
  induction names with
  | nil => rfl
  | cons n names ih =>
    obtain ⟨f, hf⟩ := Format.attr_of_mem (hmem n (by simp))
    rw [List.filterMap_cons_some hf, List.map_cons, Format.attr_name hf,
      ih fun m hm => hmem m (List.mem_cons_of_mem _ hm)]

/-- The attributes of a format of one class with distinct names. -/
theorem attr_single {L : Level} (hnd : (L.fields.map Field.name).Nodup) {f : Field} (hf : f ∈ L.fields) :
    Format.attr [L] f.name = some f := by
  unfold Format.attr
  simp only [List.reverse_singleton, List.findSome?_cons, List.findSome?_nil]
  have : L.fields.find? (fun g => decide (g.name = f.name)) = some f := by
    obtain ⟨l⟩ := L
    induction ‹List Field› with
    | nil => simp at hf
    | cons g l ih =>
      simp only [List.map_cons, List.nodup_cons] at hnd
      rcases List.mem_cons.1 hf with rfl | hf
      · simp
      · have : g.name ≠ f.name := fun h => hnd.1 (h ▸ List.mem_map.2 ⟨f, hf, rfl⟩)
        simp only [List.find?_cons, this, decide_false]
        exact ih hnd.2 hf
  rw [this]

theorem fields_single {L : Level} (hnd : (L.fields.map Field.name).Nodup) : Format.fields [L] = L.fields := by
  unfold Format.fields Format.orderedFieldNames
  simp only [List.flatMap_cons, List.flatMap_nil, List.append_nil, List.filterMap_map]
  have : ∀ l : List Field, (∀ f ∈ l, f ∈ L.fields) →
      l.filterMap (Format.attr [L] ∘ Field.name) = l := by
    intro l
    induction l with
    | nil => intro _; rfl
    | cons f l ih =>
      intro h
      rw [List.filterMap_cons_some (b := f) (by exact attr_single hnd (h f (by simp)))]
      rw [ih fun g hg => h g (List.mem_cons_of_mem _ hg)]
  exact this _ fun _ h => h

/-- The fields of a sub-format are the selected fields of its parent. -/
theorem subFormat_fields {F S : Format} (hd : F.DefaultsAdmitted) {name : String} {names : List String}
    (hmem : ∀ n ∈ names, n ∈ F.orderedFieldNames) (hnd : names.Nodup) (hS : F.subFormat name names = .ok S) :
    S.fields = names.filterMap F.attr := by
  rw [subFormat_eq hd name names hmem hnd] at hS
  injection hS with hS
  rw [← hS]
  exact fields_single (by rw [filterMap_attr_names names hmem]; exact hnd)

end Segpy
