import Verif.Lemmas.HeaderMemory
import Verif.Props.Header

/-!
# C83: headers and garbage collection
-/

namespace Segpy.Props

open Segpy HeaderMemory

/-- After any possible history, the fields of every living header are what they would be if no header had ever been
collected. -/
theorem C83_fields (ops : List Op) (hp : empty.AllPossible ops) (i : Nat) (hi : (empty.run ops).live i = true)
    (name : String) : (empty.run ops).get i name = (HeaderWorld.empty.run (forever ops)).get i name :=
  (rel_empty.run ops HeaderWorld.reached_empty hp).1.get hi name

/-- And the next operation returns or raises as it would then. -/
theorem C83_outcomes (ops : List Op) (hp : empty.AllPossible ops) (op : Op) (hop : (empty.run ops).Possible op)
    (op' : HeaderWorld.Op) (he : forever [op] = [op']) :
    ((empty.run ops).step op).2 = ((HeaderWorld.empty.run (forever ops)).step op').2 := by
  obtain ⟨r, hr⟩ := rel_empty.run ops HeaderWorld.reached_empty hp
  exact (r.step hr op hop).2.2 op' he

/-- A new header has the default values, also at the address of one that has been collected. -/
theorem C83_new_header (ops : List Op) (hp : empty.AllPossible ops) (F : Format) (address : Nat)
    (hfree : (empty.run ops).Free address) :
    let m := (empty.run ops).step (.make F [] [] address)
    m.2 = .ok () ∧ ∀ f ∈ F.fields, m.1.get (empty.run ops).objects.length f.name = .ok f.default := by
  obtain ⟨r, hr⟩ := rel_empty.run ops HeaderWorld.reached_empty hp
  obtain ⟨h1, h2, h3⟩ := r.make hr.clean F [] [] hfree
  have hlive : ((empty.run ops).make F [] [] address).1.live (empty.run ops).objects.length = true := by
    unfold live
    rw [h2]
    simp
  have hlen : (HeaderWorld.empty.run (forever ops)).classes.length = (empty.run ops).objects.length := by
    rw [r.classes, List.length_map]
  obtain ⟨s1, s2⟩ := HeaderWorld.make_sim _ hr.clean F [] []
  have hmake : Header.make F [] [] = .ok ⟨F, []⟩ := by
    unfold Header.make
    simp [Header.setAll, Header.setKeywords, bind, Except.bind]
  have s := s2 _ hmake
  rw [hlen] at s
  refine ⟨?_, fun f hf => ?_⟩
  · show ((empty.run ops).make F [] [] address).2 = _
    rw [h1, s1, hmake]
    rfl
  · show ((empty.run ops).make F [] [] address).1.get _ _ = _
    rw [h3.get hlive, s.get]
    unfold Header.get
    rw [show Format.attr (⟨F, []⟩ : Header).format f.name = some f from Format.mem_fields.1 hf]
    rfl

/-- Collected headers leave nothing behind: every stored value is that of a field of a living header, and there is one
for each field at most. -/
theorem C83_no_leaks (ops : List Op) (hp : empty.AllPossible ops) :
    (∀ e ∈ (empty.run ops).data, (empty.run ops).live e.1.2 = true) ∧
      ((empty.run ops).data.map Prod.fst).Nodup := by
  obtain ⟨r, _⟩ := rel_empty.run ops HeaderWorld.reached_empty hp
  refine ⟨fun e he => r.live_entry he, ?_⟩
  rw [r.data]
  exact r.nodup.sublist (List.filter_sublist.map _)

/-- Forgetting a header changes no other. -/
theorem C83_forget (ops : List Op) (hp : empty.AllPossible ops) (i j : Nat)
    (hj : (empty.run ops).live j = true) (hne : j ≠ i) (name : String) :
    let m := ((empty.run ops).step (.forget i)).1
    m.live i = false ∧ m.live j = true ∧ m.get j name = (empty.run ops).get j name := by
  obtain ⟨r, _⟩ := rel_empty.run ops HeaderWorld.reached_empty hp
  have hl : ((empty.run ops).forget i).live j = true := by
    rw [live_forget]
    simp [hj, hne]
  refine ⟨?_, hl, ?_⟩
  · show ((empty.run ops).forget i).live i = false
    rw [live_forget]
    simp
  · show ((empty.run ops).forget i).get j name = _
    rw [(r.forget i).get hl, r.get hj]

/-- A history in which the second header is made where the first was. -/
example :
    let ops : List Op := [.make derivedFormat [3, 4] [] 100, .make derivedFormat [5] [] 200, .assign 0 "b" 8, .forget 0,
      .make derivedFormat [] [] 100, .copy 1 [("b", 2)] 300]
    empty.AllPossible ops ∧ (empty.run ops).live 2 = true ∧ (empty.run ops).live 0 = false ∧
      (empty.run ops).get 2 "b" = .ok 7 ∧ (empty.run ops).get 1 "a" = .ok 5 ∧ (empty.run ops).get 3 "b" = .ok 2 ∧
      (empty.run ops).Free 400 ∧ ¬ (empty.run ops).Free 100 := by
  decide +kernel

end Segpy.Props
