import Verif.Lemmas.NumpyReader
import Verif.Spec.Numpy

/-! # Lemmas about extracting arrays -/

namespace Segpy

open FileM Spec

instance : LawfulMonad FileM := LawfulMonad.mk'
  (id_map := fun m => by
    funext s
    show FileM.bind m (fun a => FileM.pure a) s = m s
    unfold FileM.bind FileM.pure
    rcases m s with ⟨r, s'⟩
    cases r <;> rfl)
  (pure_bind := fun _ _ => rfl)
  (bind_assoc := fun m f g => by
    funext s
    show FileM.bind (FileM.bind m f) g s = FileM.bind m (fun a => FileM.bind (f a) g) s
    unfold FileM.bind
    rcases m s with ⟨r, s'⟩
    cases r <;> rfl)

/-- The action succeeds with the given answer wherever the position of the file is, and changes no more than that. -/
def FileM.Yields {α : Type} (m : FileM α) (s : FileH) (a : α) : Prop :=
  ∀ pos, ∃ k, m { s with pos := pos } = (.ok a, { s with pos := k })

theorem FileM.Yields.pure {α : Type} (s : FileH) (a : α) : FileM.Yields (Pure.pure a) s a := fun pos => ⟨pos, rfl⟩

theorem FileM.Yields.lift {α : Type} {r : Res α} {s : FileH} {a : α} (h : r = .ok a) : FileM.Yields (FileM.lift r) s a := by
  intro pos; exact ⟨pos, by rw [h]; rfl⟩

theorem FileM.Yields.bind {α β : Type} {m : FileM α} {f : α → FileM β} {s : FileH} {a : α} {b : β} (h1 : m.Yields s a)
    (h2 : (f a).Yields s b) : FileM.Yields (m >>= f) s b := by
  intro pos
  obtain ⟨k, hk⟩ := h1 pos
  obtain ⟨k', hk'⟩ := h2 k
  exact ⟨k', by rw [bind_ok hk, hk']⟩

theorem FileM.Yields.of_reads {α : Type} {m : FileM α} {s : FileH} {a : α} (hr : m.Reads)
    (h : ∀ pos, (m { s with pos := pos }).1 = .ok a) : m.Yields s a := by
  intro pos
  obtain ⟨k, hk⟩ := hr { s with pos := pos }
  exact ⟨k, Prod.ext (h pos) hk⟩

theorem FileM.Yields.mapM {α β : Type} {f : α → FileM β} {s : FileH} {P : α → β → Prop} (l : List α)
    (h : ∀ a ∈ l, ∃ b, (f a).Yields s b ∧ P a b) : ∃ bs, (l.mapM f).Yields s bs ∧ List.Forall₂ P l bs := by
  induction l with
  | nil => exact ⟨[], FileM.Yields.pure s [], .nil⟩
  | cons a l ih =>
    obtain ⟨b, h1, h2⟩ := h a List.mem_cons_self
    obtain ⟨bs, h3, h4⟩ := ih fun x hx => h x (List.mem_cons_of_mem _ hx)
    refine ⟨b :: bs, ?_, .cons h2 h4⟩
    rw [List.mapM_cons]
    exact h1.bind (h3.bind (FileM.Yields.pure s _))

theorem res_mapM {α β : Type} {f : α → Res β} {P : α → β → Prop} (l : List α)
    (h : ∀ a ∈ l, ∃ b, f a = .ok b ∧ P a b) : ∃ bs, l.mapM f = .ok bs ∧ List.Forall₂ P l bs := by
  induction l with
  | nil => exact ⟨[], rfl, .nil⟩
  | cons a l ih =>
    obtain ⟨b, h1, h2⟩ := h a List.mem_cons_self
    obtain ⟨bs, h3, h4⟩ := ih fun x hx => h x (List.mem_cons_of_mem _ hx)
    refine ⟨b :: bs, ?_, .cons h2 h4⟩
    rw [List.mapM_cons, h1, h3]
    rfl

/-! ## Elements -/

theorem toFloat32_of_fits {f : PyFloat} (h : Fits32 f) : StoredAs32 f (toFloat32 f) := by
  obtain ⟨bits, h1, -, h3⟩ := Props.bits_ok f h
  unfold toFloat32
  rw [h1]
  exact h3

theorem toFloat32_of_not_fits {f : PyFloat} (h : ¬ Fits32 f) : toFloat32 f = .inf f.signbit := by
  unfold toFloat32
  rw [Props.bits_overflow f h]

theorem rounding32_self {q r : ℚ} (hq : IsFloat32 q) (h : IsRounding32 q r) : r = q := by
  have := h.nearest q hq
  rw [sub_self, abs_zero] at this
  have h0 := abs_eq_zero.mp (le_antisymm this (abs_nonneg _))
  linarith

theorem fits32_of_float32 {q : ℚ} (hq : IsFloat32 q) : Fits32 (.fin q) := by
  show |q| < _
  rw [← not_le, ← round32_overflow, round32, roundTo_of_representable hq.1, not_le]
  exact hq.2

/-- A number read from binary32 is kept as it is. -/
theorem toFloat32_self {f : PyFloat} (h : ∀ q, f = .fin q → IsFloat32 q) : toFloat32 f = f := by
  cases f with
  | nan => decide +kernel
  | inf s => cases s <;> decide +kernel
  | negZero => decide +kernel
  | fin q =>
    have hq := h q rfl
    have hfit : Fits32 (.fin q) := fits32_of_float32 hq
    obtain ⟨r, h1, h2, h3⟩ := toFloat32_of_fits hfit
    have hr := rounding32_self hq h1
    subst hr
    by_cases h0 : r = 0
    · rw [h3 h0, h0]; simp
    · exact h2 h0

/-- The number that 32 bits denote is a binary32 number. -/
theorem float32Value_isFloat32 (bits : Nat) (h : bits / 2 ^ 23 % 2 ^ 8 ≠ 255) : IsFloat32 (float32Value bits) := by
  have hf : bits % 2 ^ 23 < 2 ^ 23 := Nat.mod_lt _ (by norm_num)
  have he : bits / 2 ^ 23 % 2 ^ 8 < 2 ^ 8 := Nat.mod_lt _ (by norm_num)
  unfold float32Value
  simp only
  generalize bits % 2 ^ 23 = f at hf
  generalize bits / 2 ^ 23 % 2 ^ 8 = x at he h
  have hsign : ∀ q : ℚ, IsFloat32 q → IsFloat32 ((if bits < 2 ^ 31 then 1 else -1) * q) := by
    intro q hq
    split
    · rwa [one_mul]
    · obtain ⟨⟨m, u, h1, h2, h3⟩, h4⟩ := hq
      refine ⟨⟨-m, u, by rw [h1]; push_cast; ring, by rwa [abs_neg], h3⟩, by rw [neg_one_mul, abs_neg]; exact h4⟩
  apply hsign
  have hz : ∀ u v : Int, ∀ a : ℚ, a / 2 ^ 23 * (2 : ℚ) ^ u = a * (2 : ℚ) ^ (u - 23) := by
    intro u v a
    rw [zpow_sub₀ (by norm_num)]
    norm_num
    ring
  by_cases hx : x = 0
  · rw [if_pos hx]
    refine ⟨⟨f, -149, ?_, ?_, le_refl _⟩, ?_⟩
    · rw [hz _ 0]; norm_num
    · rw [abs_of_nonneg (by positivity)]; norm_num; omega
    · rw [abs_of_nonneg (by positivity), hz _ 0]
      have h1 : (f : ℚ) ≤ (2 : ℚ) ^ (23 : Int) := by norm_num; exact_mod_cast hf.le
      calc (f : ℚ) * (2 : ℚ) ^ (-126 - 23 : Int) ≤ (2 : ℚ) ^ (23 : Int) * (2 : ℚ) ^ (-126 - 23 : Int) :=
            mul_le_mul_of_nonneg_right h1 (by positivity)
        _ = (2 : ℚ) ^ (-126 : Int) := by rw [← zpow_add₀ (by norm_num)]; norm_num
        _ < (2 : ℚ) ^ (128 : Int) := zpow_lt_zpow_right₀ (by norm_num) (by norm_num)
  · rw [if_neg hx]
    have e1 : (1 + (f : ℚ) / 2 ^ 23) * (2 : ℚ) ^ ((x : Int) - 127) = ((2 ^ 23 + f : Nat) : ℚ) * (2 : ℚ) ^ ((x : Int) - 150) := by
      have := hz ((x : Int) - 127) 0 ((2 ^ 23 + f : Nat) : ℚ)
      rw [show (x : Int) - 127 - 23 = (x : Int) - 150 by ring] at this
      rw [← this]
      push_cast
      ring
    rw [e1]
    refine ⟨⟨(2 ^ 23 + f : Nat), (x : Int) - 150, by norm_cast, ?_, by omega⟩, ?_⟩
    · rw [abs_of_nonneg (by positivity)]
      have : 2 ^ 23 + f < 2 ^ 24 := by omega
      exact_mod_cast this
    · rw [abs_of_nonneg (by positivity)]
      have h1 : ((2 ^ 23 + f : Nat) : ℚ) < (2 : ℚ) ^ (24 : Int) := by
        have : 2 ^ 23 + f < 2 ^ 24 := by omega
        norm_num
        exact_mod_cast this
      calc ((2 ^ 23 + f : Nat) : ℚ) * (2 : ℚ) ^ ((x : Int) - 150) < (2 : ℚ) ^ (24 : Int) * (2 : ℚ) ^ ((x : Int) - 150) :=
            mul_lt_mul_of_pos_right h1 (by positivity)
        _ = (2 : ℚ) ^ ((x : Int) - 126) := by rw [← zpow_add₀ (by norm_num)]; congr 1; ring
        _ ≤ (2 : ℚ) ^ (128 : Int) := zpow_le_zpow_right₀ (by norm_num) (by omega)

/-- The element made of a sample. -/
theorem cast_elementOf {e : Endian} {t : SegYType} {d : DType} {item : Bytes} {v : PyNum} (hd : makeDtype t = .ok d)
    (hl : item.length = t.size) (h : StandsFor e t item v) : ∃ x, d.cast v = .ok x ∧ ElementOf e t item x := by
  cases t with
  | int t =>
    have hv : v = .int (storedInt e t item) := h
    have hb : ∀ n : Nat, t.signed = true → item.length = n → 1 ≤ n →
        -(2 : Int) ^ (8 * n - 1) ≤ storedInt e t item ∧ storedInt e t item < (2 : Int) ^ (8 * n - 1) := by
      intro n hs hn h1
      have hlt : bytesNat e item < 2 ^ (8 * n) := by
        have := leNat_lt (e.order item)
        rw [Endian.order_length, hn] at this
        rw [bytesNat_eq, pow_mul]
        exact this
      unfold storedInt
      simp only [hn, hs, true_and]
      have hp : (2 : Int) ^ (8 * n) = 2 * 2 ^ (8 * n - 1) := by
        rw [← pow_succ']; congr 1; omega
      have hlt' : (bytesNat e item : Int) < 2 ^ (8 * n) := by exact_mod_cast hlt
      have h0 : (0 : Int) ≤ bytesNat e item := by positivity
      split <;> omega
    cases t with
    | int32 =>
      cases hd
      refine ⟨_, ?_, rfl⟩
      rw [hv]
      exact if_pos (hb 4 rfl hl (by norm_num))
    | int16 =>
      cases hd
      refine ⟨_, ?_, rfl⟩
      rw [hv]
      exact if_pos (hb 2 rfl hl (by norm_num))
    | int8 =>
      cases hd
      refine ⟨_, ?_, rfl⟩
      rw [hv]
      exact if_pos (hb 1 rfl hl (by norm_num))
    | _ => cases hd
  | float32 =>
    obtain ⟨f, rfl, hf⟩ := h
    cases hd
    refine ⟨.float (toFloat32 f), rfl, f, ⟨f, rfl, hf⟩, ?_⟩
    rw [toFloat32_self]
    intro q hq
    subst hq
    by_cases hx : bytesNat e item / 2 ^ 23 % 2 ^ 8 = 255
    · rw [if_pos hx] at hf
      split at hf <;> cases hf
    · rw [if_neg hx] at hf
      have hv := hf.2.1
      simp only [PyFloat.val] at hv
      rw [hv]
      exact float32Value_isFloat32 _ hx
  | ibm =>
    obtain ⟨a, b, c, d', rfl, rfl⟩ := h
    cases hd
    refine ⟨.float (toFloat32 (IBMFloat.mk a b c d').toFloat), rfl, a, b, c, d', rfl, ?_⟩
    have hv : (IBMFloat.mk a b c d').toFloat = .fin (ibmValue a b c d') := by rw [IBMFloat.toFloat_eq]; rfl
    rw [hv]
    by_cases hfit : |ibmValue a b c d'| < (2 : ℚ) ^ (128 : Int) - 2 ^ (103 : Int)
    · rw [if_pos hfit]
      exact ⟨_, rfl, toFloat32_of_fits hfit⟩
    · rw [if_neg hfit, toFloat32_of_not_fits (f := .fin _) hfit]
      rfl

end Segpy
