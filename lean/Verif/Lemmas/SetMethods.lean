import Verif.Spec.SetMethods
import Verif.Lemmas.Slice

/-!
# Lemmas about what slices select
-/

namespace Segpy

/-- The positions a slice computes are those it selects. -/
theorem indices_selects {s : PySlice} {n : Nat} {i : PyRange} (h : s.indices n = .ok i) (p : Nat) :
    (p : Int) ∈ i.toList ↔ Selects n s p := by
  constructor
  · intro hp
    obtain ⟨hb, hstep⟩ := PySlice.indices_bounds h
    have hpn := (hb _ hp).2
    rw [← PyRange.contains_iff] at hp
    unfold PySlice.indices PyRange.make at h
    simp only at h
    split at h
    · cases h
    rename_i hne
    injection h with h
    unfold PyRange.contains at hp
    rw [← h] at hp
    simp only [Bool.and_eq_true, decide_eq_true_iff, ← Int.dvd_iff_fmod_eq_zero] at hp
    refine ⟨by omega, ?_⟩
    by_cases hc : 0 < s.step.getD 1
    · have hc' : ¬ s.step.getD 1 < 0 := by omega
      simp only [hc, hc', if_true, if_false, Bool.and_eq_true, decide_eq_true_iff] at hp ⊢
      obtain ⟨⟨h1, h2⟩, h3⟩ := hp
      have hf : (match s.start with
          | none => (0 : Int)
          | some x => PySlice.adjust n 0 n x) = max 0 ((s.start.map (fromEnd n)).getD 0) := by
        cases hs : s.start with
        | none => simp
        | some x =>
          rw [hs] at h1
          simp only [PySlice.adjust, fromEnd, Option.map_some, Option.getD_some] at h1 ⊢
          split <;> rename_i hx <;> simp only [hx, if_true, if_false] at h1 <;> omega
      refine ⟨by rw [← hf]; exact h1, ?_, by rw [← hf]; exact h3⟩
      intro b hb'
      rw [Option.mem_def] at hb'
      rw [hb'] at h2
      simp only [PySlice.adjust] at h2
      unfold fromEnd
      split at h2 <;> rename_i hx <;> simp only [hx, if_true, if_false] <;> omega
    · have hc' : s.step.getD 1 < 0 := by omega
      simp only [hc, hc', if_true, if_false, Bool.and_eq_true, decide_eq_true_iff] at hp ⊢
      obtain ⟨⟨h1, h2⟩, h3⟩ := hp
      have hf : (match s.start with
          | none => (n : Int) - 1
          | some x => PySlice.adjust n (-1) (n - 1) x) = min (n - 1 : Int) ((s.start.map (fromEnd n)).getD (n - 1)) := by
        cases hs : s.start with
        | none => simp
        | some x =>
          rw [hs] at h1
          simp only [PySlice.adjust, fromEnd, Option.map_some, Option.getD_some] at h1 ⊢
          split <;> rename_i hx <;> simp only [hx, if_true, if_false] at h1 <;> omega
      refine ⟨by rw [← hf]; exact h1, ?_, by rw [← hf]; exact (by rw [← Int.dvd_neg, Int.neg_sub]; exact h3)⟩
      intro b hb'
      rw [Option.mem_def] at hb'
      rw [hb'] at h2
      simp only [PySlice.adjust] at h2
      unfold fromEnd
      split at h2 <;> rename_i hx <;> simp only [hx, if_true, if_false] <;> omega
  · rintro ⟨hpn, hp⟩
    rw [← PyRange.contains_iff]
    unfold PySlice.indices PyRange.make at h
    simp only at h
    split at h
    · cases h
    rename_i hne
    injection h with h
    unfold PyRange.contains
    rw [← h]
    simp only [Bool.and_eq_true, decide_eq_true_iff, ← Int.dvd_iff_fmod_eq_zero]
    by_cases hc : 0 < s.step.getD 1
    · have hc' : ¬ s.step.getD 1 < 0 := by omega
      simp only [hc, hc', if_true, if_false, Bool.and_eq_true, decide_eq_true_iff] at hp ⊢
      obtain ⟨h1, h2, h3⟩ := hp
      have hf : (match s.start with
          | none => (0 : Int)
          | some x => PySlice.adjust n 0 n x) = max 0 ((s.start.map (fromEnd n)).getD 0) := by
        cases hs : s.start with
        | none => simp
        | some x =>
          rw [hs] at h1
          simp only [PySlice.adjust, fromEnd, Option.map_some, Option.getD_some] at h1 ⊢
          split <;> rename_i hx <;> simp only [hx, if_true, if_false] at h1 <;> omega
      rw [← hf] at h1 h3
      refine ⟨⟨h1, ?_⟩, h3⟩
      cases hb : s.stop with
      | none => simp only; omega
      | some b =>
        have := h2 b hb
        simp only [PySlice.adjust]
        unfold fromEnd at this
        split <;> rename_i hx <;> simp only [hx, if_true, if_false] at this <;> omega
    · have hc' : s.step.getD 1 < 0 := by omega
      simp only [hc, hc', if_true, if_false, Bool.and_eq_true, decide_eq_true_iff] at hp ⊢
      obtain ⟨h1, h2, h3⟩ := hp
      have hf : (match s.start with
          | none => (n : Int) - 1
          | some x => PySlice.adjust n (-1) (n - 1) x) = min (n - 1 : Int) ((s.start.map (fromEnd n)).getD (n - 1)) := by
        cases hs : s.start with
        | none => simp
        | some x =>
          rw [hs] at h1
          simp only [PySlice.adjust, fromEnd, Option.map_some, Option.getD_some] at h1 ⊢
          split <;> rename_i hx <;> simp only [hx, if_true, if_false] at h1 <;> omega
      rw [← hf] at h1 h3
      refine ⟨⟨h1, ?_⟩, (by rw [← Int.dvd_neg, Int.neg_sub]; exact h3)⟩
      cases hb : s.stop with
      | none => simp only; omega
      | some b =>
        have := h2 b hb
        simp only [PySlice.adjust]
        unfold fromEnd at this
        split <;> rename_i hx <;> simp only [hx, if_true, if_false] at this <;> omega

end Segpy
