import Verif.Lemmas.HeaderWorld
import Verif.Lemmas.Packer2

/-!
# Lemmas about copying and pickling headers
-/

namespace Segpy

namespace Header

theorem valid_get {h : Header} (hv : h.Valid) {n : String} (hn : n ∈ h.format.orderedFieldNames) :
    ∃ v f, h.format.attr n = some f ∧ h.get n = .ok v ∧ f.value_type.Admits v := by
  obtain ⟨f, hf⟩ := Format.attr_of_mem hn
  obtain ⟨v, h1, h2⟩ := hv f (Format.mem_fields.2 ((Format.attr_name hf).symm ▸ hf))
  rw [Format.attr_name hf] at h1
  exact ⟨v, f, hf, h1, h2⟩

theorem collect_eq {h : Header} (names : List String) (hn : ∀ n ∈ names, n ∈ h.format.orderedFieldNames) :
    h.collect names = .ok (odictOf (names.map fun n => (n, h.val n))) := by
  unfold collect
  rw [mapM_ok (g := fun n => (n, h.val n))]
  · rfl
  · intro n hm
    obtain ⟨f, hf⟩ := Format.attr_of_mem (hn n hm)
    rw [get_val hf]
    rfl

theorem lastValue_map (names : List String) (g : String → Int) (n : String) :
    lastValue (names.map fun m => (m, g m)) n = if n ∈ names then some (g n) else none := by
  split
  · rename_i h
    have : (lastValue (names.map fun m => (m, g m)) n).isSome := by
      rw [lastValue_isSome]
      simpa using h
    obtain ⟨v, hv⟩ := Option.isSome_iff_exists.1 this
    have hm := lastValue_mem hv
    obtain ⟨m, _, he⟩ := List.mem_map.1 hm
    rw [hv]
    have e1 : m = n := congrArg Prod.fst he
    have e2 : g m = v := congrArg Prod.snd he
    rw [← e2, e1]
  · rename_i h
    apply lastValue_none
    simpa using h

/-- Updating a dictionary keeps the known names before the unknown ones. -/
theorem foldl_known (known : String → Prop) (ups : List (String × Int)) :
    ∀ (A B : List (String × Int)), (∀ p ∈ A, known p.1) → (∀ p ∈ B, ¬ known p.1) →
      (∀ n, known n → n ∈ A.map Prod.fst) →
      ∃ A' B', ups.foldl (fun d p => odictSet d p.1 p.2) (A ++ B) = A' ++ B' ∧
        A'.map Prod.fst = A.map Prod.fst ∧ (∀ p ∈ B', ¬ known p.1) ∧
        (∀ p ∈ A', p ∈ A ∨ p ∈ ups) ∧ ((∃ p ∈ ups, ¬ known p.1) → B' ≠ []) ∧ (B ≠ [] → B' ≠ []) ∧
        ((∀ p ∈ ups, known p.1) → B' = B) := by
  induction ups with
  | nil => intro A B hA hB _; exact ⟨A, B, rfl, rfl, hB, fun p h => .inl h, by simp, id, fun _ => rfl⟩
  | cons q ups ih =>
    intro A B hA hB hall
    obtain ⟨k, v⟩ := q
    have split_left : ∀ A : List (String × Int), k ∈ A.map Prod.fst →
        odictSet (A ++ B) k v = odictSet A k v ++ B := by
      intro A
      induction A with
      | nil => simp
      | cons a A ihA =>
        intro h
        simp only [List.cons_append, odictSet]
        by_cases ha : a.1 = k
        · simp [ha]
        · simp only [ha, if_false]
          rw [ihA]
          · rfl
          · rcases List.mem_cons.1 h with h | h
            · exact absurd h.symm ha
            · exact h
    have split_right : ∀ A : List (String × Int), k ∉ A.map Prod.fst →
        odictSet (A ++ B) k v = A ++ odictSet B k v := by
      intro A
      induction A with
      | nil => simp
      | cons a A ihA =>
        intro h
        simp only [List.map_cons, List.mem_cons, not_or] at h
        simp only [List.cons_append, odictSet]
        rw [if_neg (fun e => h.1 e.symm), ihA h.2]
    have mem_set : ∀ (D : List (String × Int)) (p : String × Int), p ∈ odictSet D k v → p ∈ D ∨ p = (k, v) := by
      intro D
      induction D with
      | nil => intro p hp; simp only [odictSet, List.mem_singleton] at hp; exact .inr hp
      | cons a D ihD =>
        intro p hp
        simp only [odictSet] at hp
        split at hp
        · rename_i ha
          rcases List.mem_cons.1 hp with rfl | hp
          · right; rw [ha]
          · left; exact List.mem_cons_of_mem _ hp
        · rcases List.mem_cons.1 hp with rfl | hp
          · left; simp
          · rcases ihD p hp with h | h
            · left; exact List.mem_cons_of_mem _ h
            · exact .inr h
    have set_ne : ∀ D : List (String × Int), odictSet D k v ≠ [] := by
      intro D
      cases D with
      | nil => simp [odictSet]
      | cons a D => simp only [odictSet]; split <;> simp
    by_cases hk : known k
    · have hkA := hall k hk
      have hkeys : (odictSet A k v).map Prod.fst = A.map Prod.fst := by
        rw [odictSet_keys, if_pos hkA]
      obtain ⟨A', B', h1, h2, h3, h4, h5, h6, h7⟩ := ih (odictSet A k v) B
        (by
          intro p hp
          rcases mem_set A p hp with h | h
          · exact hA p h
          · rw [h]; exact hk) hB (by rw [hkeys]; exact hall)
      refine ⟨A', B', ?_, h2.trans hkeys, h3, ?_, ?_, h6, ?_⟩
      · rw [List.foldl_cons, split_left A hkA]; exact h1
      · intro p hp
        rcases h4 p hp with h | h
        · rcases mem_set A p h with h | h
          · exact .inl h
          · right; rw [h]; simp
        · right; exact List.mem_cons_of_mem _ h
      · rintro ⟨p, hp, hn⟩
        rcases List.mem_cons.1 hp with rfl | hp
        · exact absurd hk hn
        · exact h5 ⟨p, hp, hn⟩
      · intro h
        exact h7 fun p hp => h p (List.mem_cons_of_mem _ hp)
    · have hkA : k ∉ A.map Prod.fst := by
        intro h
        obtain ⟨p, hp, he⟩ := List.mem_map.1 h
        exact hk (he ▸ hA p hp)
      obtain ⟨A', B', h1, h2, h3, h4, h5, h6, h7⟩ := ih A (odictSet B k v) hA
        (by
          intro p hp
          rcases mem_set B p hp with h | h
          · exact hB p h
          · rw [h]; exact hk) hall
      refine ⟨A', B', ?_, h2, h3, ?_, ?_, fun _ => h6 (set_ne B), ?_⟩
      · rw [List.foldl_cons, split_right A hkA]; exact h1
      · intro p hp
        rcases h4 p hp with h | h
        · exact .inl h
        · right; exact List.mem_cons_of_mem _ h
      · exact fun _ => h6 (set_ne B)
      · intro h
        exact absurd (h (k, v) (by simp)) hk

/-- The keyword loop on a list in two parts. -/
theorem setKeywords_append (A B : List (String × Int)) (h : Header) :
    h.setKeywords (A ++ B) = (h.setKeywords A).bind fun h' => h'.setKeywords B := by
  induction A generalizing h with
  | nil => rfl
  | cons p A ih =>
    obtain ⟨k, v⟩ := p
    rw [List.cons_append, setKeywords, setKeywords]
    cases h.get k with
    | error e =>
      simp only
      split
      · exact ih h
      · rfl
    | ok x =>
      simp only
      cases h.set k v with
      | error e => rfl
      | ok h' => exact ih h'

end Header

end Segpy
