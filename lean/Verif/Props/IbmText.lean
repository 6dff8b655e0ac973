import Verif.Model.IbmText
import Verif.Spec.IbmText
import Verif.Spec.IbmFloat
import Verif.Lemmas.IbmFloat
import Mathlib.Data.Rat.Encodable

/-! # Properties of `repr` and `str` of IBM floats: C103 -/

namespace Segpy.Props

open Segpy.Spec

private theorem literal_value (b : UInt8) : hexByteValue (IBMFloat.hexLiteral b) = some b.toNat := by
  have h : ∀ n : Fin 256, hexByteValue (IBMFloat.hexLiteral (UInt8.ofNat n.1)) = some n.1 := by decide +kernel
  have := h ⟨b.toNat, b.toNat_lt⟩
  rwa [UInt8.ofNat_toNat] at this

/-- `repr(x)` is, up to the sign `≈`, a Python expression that constructs `x`: the name of the class and its call with the
list of four hexadecimal literals, of the bytes of `x`. -/
theorem C103_repr (floatRepr : PyFloat → List Char) (x : IBMFloat) :
    ∃ la lb lc ld : List Char,
      x.reprText floatRepr = "IBMFloat(bytes([".toList ++ la ++ ", ".toList ++ lb ++ ", ".toList ++ lc ++ ", ".toList ++ ld
        ++ "])) ≈ ".toList ++ floatRepr x.toFloat ∧
      [la, lb, lc, ld].map hexByteValue = x.toBytes.map fun v => some v.toNat := by
  refine ⟨IBMFloat.hexLiteral x.a, IBMFloat.hexLiteral x.b, IBMFloat.hexLiteral x.c, IBMFloat.hexLiteral x.d, ?_, ?_⟩
  · unfold IBMFloat.reprText
    simp [IBMFloat.toBytes, List.intercalate, List.intersperse]
  · simp only [IBMFloat.toBytes, List.map_cons, List.map_nil, literal_value]

private theorem literal_length (b : UInt8) : (IBMFloat.hexLiteral b).length = 4 := by
  have h : ∀ n : Fin 256, (IBMFloat.hexLiteral (UInt8.ofNat n.1)).length = 4 := by decide +kernel
  have := h ⟨b.toNat, b.toNat_lt⟩
  rwa [UInt8.ofNat_toNat] at this

private theorem literal_inj {a b : UInt8} (h : IBMFloat.hexLiteral a = IBMFloat.hexLiteral b) : a = b := by
  have := literal_value a
  rw [h, literal_value b] at this
  exact UInt8.toNat_inj.mp (Option.some.inj this).symm

/-- Two IBM floats have the same `repr` only if they are made of the same bytes, whatever `repr` of a float gives. -/
theorem C103_repr_identifies (floatRepr : PyFloat → List Char) (x y : IBMFloat) :
    x.reprText floatRepr = y.reprText floatRepr ↔ x.toBytes = y.toBytes := by
  constructor
  · intro h
    unfold IBMFloat.reprText at h
    simp only [IBMFloat.toBytes, List.intercalate, List.intersperse, List.map_cons, List.map_nil, List.flatten_cons,
      List.flatten_nil, List.append_assoc, List.append_nil, List.append_cancel_left_eq] at h
    obtain ⟨ha, h⟩ := List.append_inj h (by rw [literal_length, literal_length])
    rw [List.append_cancel_left_eq] at h
    obtain ⟨hb, h⟩ := List.append_inj h (by rw [literal_length, literal_length])
    rw [List.append_cancel_left_eq] at h
    obtain ⟨hc, h⟩ := List.append_inj h (by rw [literal_length, literal_length])
    rw [List.append_cancel_left_eq] at h
    obtain ⟨hd, h⟩ := List.append_inj h (by rw [literal_length, literal_length])
    simp only [IBMFloat.toBytes, literal_inj ha, literal_inj hb, literal_inj hc, literal_inj hd]
  · intro h
    cases x
    cases y
    simp only [IBMFloat.toBytes, List.cons.injEq, and_true] at h
    obtain ⟨rfl, rfl, rfl, rfl⟩ := h
    rfl

/-- Two IBM floats have the same `str` exactly if they denote the same number, as `str` is different for
floats that are different. -/
theorem C103_str (floatRepr : PyFloat → List Char)
    (inj : ∀ p q : ℚ, IbmRepresentable p → IbmRepresentable q → floatRepr (.fin p) = floatRepr (.fin q) → p = q)
    (x y : IBMFloat) :
    x.strText floatRepr = y.strText floatRepr ↔ ibmValue x.a x.b x.c x.d = ibmValue y.a y.b y.c y.d := by
  unfold IBMFloat.strText
  rw [IBMFloat.toFloat_eq, IBMFloat.toFloat_eq]
  exact ⟨fun h => inj _ _ ⟨_, _, _, _, rfl⟩ ⟨_, _, _, _, rfl⟩ h, fun h => congrArg (fun q => floatRepr (.fin q)) h⟩

/-- One, in two ways. -/
example : (⟨0x41, 0x10, 0x00, 0x00⟩ : IBMFloat).reprText (fun _ => "1.0".toList)
    = "IBMFloat(bytes([0x41, 0x10, 0x00, 0x00])) ≈ 1.0".toList := by decide +kernel

example (floatRepr : PyFloat → List Char) :
    let x : IBMFloat := ⟨0x41, 0x10, 0x00, 0x00⟩
    let y : IBMFloat := ⟨0x42, 0x01, 0x00, 0x00⟩
    x.strText floatRepr = y.strText floatRepr ∧ x.reprText floatRepr ≠ y.reprText floatRepr := by
  refine ⟨?_, fun h => ?_⟩
  · unfold IBMFloat.strText
    rw [IBMFloat.toFloat_eq, IBMFloat.toFloat_eq]
    congr 2
    decide +kernel
  · have := (C103_repr_identifies floatRepr _ _).mp h
    revert this
    decide

/-- There are functions of floats as `C103_str` asks for. -/
example : ∃ floatRepr : PyFloat → List Char,
    ∀ p q : ℚ, IbmRepresentable p → IbmRepresentable q → floatRepr (.fin p) = floatRepr (.fin q) → p = q :=
  ⟨fun f => match f with | .fin r => List.replicate (Encodable.encode r) '1' | _ => [], fun p q _ _ h =>
    Encodable.encode_injective (by simpa using congrArg List.length h)⟩

end Segpy.Props
