import Verif.Model.Util

/-! # Lemmas about `batched` -/

namespace Segpy

theorem batchedLoop_spec {α : Type} (n : Nat) (hn : 1 ≤ n) (pending xs : List α) (hp : pending.length < n) :
    (batchedLoop n none pending xs).flatten = pending ++ xs ∧
    (∀ b ∈ (batchedLoop n none pending xs).dropLast, b.length = n) ∧
    (∀ b ∈ batchedLoop n none pending xs, 1 ≤ b.length ∧ b.length ≤ n) := by
  induction xs generalizing pending with
  | nil =>
    unfold batchedLoop
    by_cases h : pending.length > 0
    · simp only [h, if_true]
      refine ⟨by simp, by simp, ?_⟩
      intro b hb
      rw [List.mem_singleton] at hb
      subst hb; omega
    · simp only [h, if_false]
      have : pending = [] := List.length_eq_zero_iff.mp (by omega)
      simp [this]
  | cons x xs ih =>
    unfold batchedLoop
    by_cases h : (pending ++ [x]).length = n
    · simp only [h, if_true]
      obtain ⟨h1, h2, h3⟩ := ih [] (by simp; omega)
      refine ⟨by simp [h1], ?_, ?_⟩
      · intro b hb
        cases hq : batchedLoop n none [] xs with
        | nil => rw [hq] at hb; simp at hb
        | cons c cs =>
          rw [hq, List.dropLast_cons_cons] at hb
          rcases List.mem_cons.mp hb with hb | hb
          · rw [hb, h]
          · exact h2 b (by rw [hq]; exact hb)
      · intro b hb
        rcases List.mem_cons.mp hb with hb | hb
        · rw [hb, h]; exact ⟨hn, le_refl _⟩
        · exact h3 b hb
    · simp only [h, if_false]
      have hl : (pending ++ [x]).length < n := by
        simp only [List.length_append, List.length_singleton] at h ⊢; omega
      obtain ⟨h1, h2, h3⟩ := ih _ hl
      exact ⟨by simpa using h1, h2, h3⟩

theorem batchedLoop_pad {α : Type} (n : Nat) (p : α) (pending xs : List α) (hp : pending.length < n) :
    (∀ b ∈ batchedLoop n (some p) pending xs, b.length = n) ∧
    ∃ k, k < n ∧ (batchedLoop n (some p) pending xs).flatten = pending ++ xs ++ List.replicate k p := by
  induction xs generalizing pending with
  | nil =>
    unfold batchedLoop
    by_cases h : pending.length > 0
    · simp only [h, if_true]
      refine ⟨?_, n - pending.length, by omega, by simp⟩
      intro b hb
      rw [List.mem_singleton] at hb
      rw [hb]; simp; omega
    · simp only [h, if_false]
      have : pending = [] := List.length_eq_zero_iff.mp (by omega)
      exact ⟨by simp, 0, by omega, by simp [this]⟩
  | cons x xs ih =>
    unfold batchedLoop
    by_cases h : (pending ++ [x]).length = n
    · simp only [h, if_true]
      obtain ⟨h1, k, h2, h3⟩ := ih [] (by simp; omega)
      refine ⟨?_, k, h2, by simp [h3]⟩
      intro b hb
      rcases List.mem_cons.mp hb with hb | hb
      · rw [hb, h]
      · exact h1 b hb
    · simp only [h, if_false]
      have hl : (pending ++ [x]).length < n := by
        simp only [List.length_append, List.length_singleton] at h ⊢; omega
      obtain ⟨h1, k, h2, h3⟩ := ih _ hl
      exact ⟨h1, k, h2, by simpa using h3⟩


theorem batchedLoop_chunk {α : Type} (n : Nat) (p : Option α) (xs : List α) :
    ∀ (pending rest : List α), xs ≠ [] → pending.length + xs.length = n →
      batchedLoop n p pending (xs ++ rest) = (pending ++ xs) :: batchedLoop n p [] rest := by
  induction xs with
  | nil => intro _ _ h; exact absurd rfl h
  | cons x xs ih =>
    intro pending rest _ hlen
    rw [List.cons_append]
    rw [batchedLoop]
    cases xs with
    | nil =>
      rw [if_pos (by simpa using hlen)]
      simp
    | cons y ys =>
      rw [if_neg (by simp at hlen ⊢; omega), ih _ _ (by simp) (by simp at hlen ⊢; omega)]
      simp

/-- Cards of equal length that have been joined are recovered. -/
theorem batchedLoop_cards {α : Type} (n : Nat) (hn : 1 ≤ n) (p : Option α) (cards : List (List α))
    (h : ∀ c ∈ cards, c.length = n) : batchedLoop n p [] cards.flatten = cards := by
  induction cards with
  | nil => rfl
  | cons c cs ih =>
    have hc := h c (by simp)
    rw [List.flatten_cons, batchedLoop_chunk n p c [] _ (by intro h0; rw [h0] at hc; simp at hc; omega) (by simpa using hc),
      ih fun x hx => h x (by simp [hx])]
    simp

theorem batched_cards {α : Type} (n : Nat) (hn : 1 ≤ n) (p : Option α) (cards : List (List α))
    (h : ∀ c ∈ cards, c.length = n) : batched cards.flatten n p = .ok cards := by
  unfold batched
  rw [if_neg (by omega)]
  simp only [Int.toNat_natCast]
  rw [batchedLoop_cards n hn p cards h]

/-- Without left-over items all batches are full. -/
theorem batchedLoop_exact {α : Type} (n : Nat) (hn : 1 ≤ n) (p : Option α) (k : Nat) :
    ∀ (xs : List α), xs.length = k * n →
      (batchedLoop n p [] xs).length = k ∧ (∀ b ∈ batchedLoop n p [] xs, b.length = n) ∧
      (batchedLoop n p [] xs).flatten = xs := by
  induction k with
  | zero =>
    intro xs h
    have : xs = [] := List.eq_nil_of_length_eq_zero (by omega)
    subst this
    simp [batchedLoop]
  | succ k ih =>
    intro xs h
    have hle : n ≤ xs.length := by rw [h, Nat.succ_mul]; omega
    have e := batchedLoop_chunk n p (xs.take n) [] (xs.drop n)
      (by intro h0; have := congrArg List.length h0; rw [List.length_take, List.length_nil] at this; omega)
      (by rw [List.length_take, List.length_nil]; omega)
    rw [List.take_append_drop, List.nil_append] at e
    obtain ⟨i1, i2, i3⟩ := ih (xs.drop n) (by rw [List.length_drop, h, Nat.succ_mul]; omega)
    rw [e]
    refine ⟨by simp [i1], ?_, ?_⟩
    · intro b hb
      rcases List.mem_cons.mp hb with rfl | hb
      · rw [List.length_take]; omega
      · exact i2 b hb
    · rw [List.flatten_cons, i3, List.take_append_drop]

end Segpy
