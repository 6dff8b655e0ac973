import Verif.Model.HeaderMemory

/-!
# Specification: which histories of header objects are possible
-/

namespace Segpy

namespace HeaderMemory

/-- No living object is at the address. -/
def Free (m : HeaderMemory) (address : Nat) : Prop := ∀ o ∈ m.objects, o.alive = true → o.address ≠ address

instance (m : HeaderMemory) (address : Nat) : Decidable (m.Free address) := by unfold Free; infer_instance

/-- A program can only use objects it has not forgotten, and the interpreter only gives out free addresses. -/
def Possible (m : HeaderMemory) : Op → Prop
  | .make _ _ _ address => m.Free address
  | .assign i _ _ => m.live i = true
  | .copy i _ address => m.live i = true ∧ m.Free address
  | .forget i => m.live i = true

instance (m : HeaderMemory) (op : Op) : Decidable (m.Possible op) := by
  cases op <;> unfold Possible <;> infer_instance

/-- Every operation of the history is possible when its turn comes. -/
def AllPossible (m : HeaderMemory) : List Op → Prop
  | [] => True
  | op :: ops => m.Possible op ∧ AllPossible (m.step op).1 ops

instance : (m : HeaderMemory) → (ops : List Op) → Decidable (m.AllPossible ops)
  | _, [] => inferInstanceAs (Decidable True)
  | m, op :: ops =>
    have := instDecidableAllPossible (m.step op).1 ops
    inferInstanceAs (Decidable (_ ∧ _))

/-- The same history in a world where objects live forever. -/
def forever : List Op → List HeaderWorld.Op
  | [] => []
  | .make F args kwargs _ :: ops => .make F args kwargs :: forever ops
  | .assign i name v :: ops => .assign i name v :: forever ops
  | .copy i updates _ :: ops => .copy i updates :: forever ops
  | .forget _ :: ops => forever ops

end HeaderMemory

end Segpy
