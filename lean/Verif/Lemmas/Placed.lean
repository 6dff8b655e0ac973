import Verif.Lemmas.Writer

/-! # Lemmas about writing to a file that is not empty -/

namespace Segpy

open Spec FileM

theorem overwrite_get (d bs : Bytes) (pos : Nat) (h : bs ≠ []) (i : Nat) :
    (overwrite d pos bs)[i]? =
      if i < pos then (if i < d.length then d[i]? else some 0) else if i < pos + bs.length then bs[i - pos]? else d[i]? := by
  unfold overwrite
  rw [if_neg (by simpa using h)]
  have h1 : (d.take pos ++ List.replicate (pos - d.length) (0 : UInt8)).length = pos := by
    rw [List.length_append, List.length_take, List.length_replicate]; omega
  rw [List.append_assoc]
  by_cases hi : i < pos
  · rw [if_pos hi, List.getElem?_append_left (by omega)]
    by_cases hd : i < d.length
    · rw [if_pos hd, List.getElem?_append_left (by rw [List.length_take]; omega), List.getElem?_take_of_lt hi]
    · rw [if_neg hd, List.getElem?_append_right (by rw [List.length_take]; omega), List.length_take,
        List.getElem?_replicate, if_pos (by omega)]
  · rw [if_neg hi, List.getElem?_append_right (by omega), h1]
    by_cases hb : i < pos + bs.length
    · rw [if_pos hb, List.getElem?_append_left (by omega)]
    · rw [if_neg hb, List.getElem?_append_right (by omega), List.getElem?_drop]
      congr 1
      omega

theorem overwrite_nil (d : Bytes) (pos : Nat) : overwrite d pos [] = d := rfl

/-- Writing twice in succession is writing once. -/
theorem overwrite_overwrite (d a b : Bytes) (pos : Nat) :
    overwrite (overwrite d pos a) (pos + a.length) b = overwrite d pos (a ++ b) := by
  by_cases ha : a = []
  · subst ha; rfl
  by_cases hb : b = []
  · subst hb; rw [overwrite_nil, List.append_nil]
  have hlen := overwrite_length d a pos ha
  apply List.ext_getElem?
  intro i
  rw [overwrite_get (overwrite d pos a) b _ hb, overwrite_get d (a ++ b) _ (by simp [ha]), overwrite_get d a _ ha,
    List.length_append, hlen]
  by_cases h1 : i < pos
  · rw [if_pos (by omega), if_pos (by omega), if_pos h1, if_pos h1]
  rw [if_neg h1, if_neg h1]
  by_cases h2 : i < pos + a.length
  · rw [if_pos h2, if_pos (by omega), if_pos h2, if_pos (by omega), List.getElem?_append_left (by omega)]
  rw [if_neg h2, if_neg h2, ← Nat.add_assoc]
  by_cases h3 : i < pos + a.length + b.length
  · rw [if_pos h3, if_pos h3, List.getElem?_append_right (by omega)]
    congr 1
    omega
  · rw [if_neg h3, if_neg h3]

theorem bind_then {α β γ : Type} (m : FileM α) (f : α → FileM β) (g : β → FileM γ) (s : FileH) :
    ((m >>= f) >>= g) s = (m >>= fun a => f a >>= g) s := by
  rw [bind_apply, bind_apply, bind_apply]
  rcases m s with ⟨_ | _, _⟩ <;> rfl

/-- A computation that writes the same bytes, and returns or raises the same, whatever the file holds. -/
def Blind {α : Type} (m : FileM α) : Prop :=
  ∃ (r : Res α) (bs : Bytes), ∀ (data : Bytes) (pos : Nat),
    m { data := data, pos := pos } = (r, { data := overwrite data pos bs, pos := pos + bs.length })

namespace Blind

theorem lift {α : Type} (r : Res α) : Blind (FileM.lift r) := ⟨r, [], fun _ _ => rfl⟩

theorem pure {α : Type} (a : α) : Blind (Pure.pure a : FileM α) := ⟨.ok a, [], fun _ _ => rfl⟩

theorem raise {α : Type} (err : Err) : Blind (FileM.raise err : FileM α) := ⟨.error err, [], fun _ _ => rfl⟩

theorem write (bs : Bytes) : Blind (FileM.write bs) := ⟨.ok (), bs, fun _ _ => write_apply rfl bs⟩

theorem bind {α β : Type} {m : FileM α} {f : α → FileM β} (h : Blind m) (h' : ∀ a, Blind (f a)) : Blind (m >>= f) := by
  obtain ⟨r, bs, h⟩ := h
  cases r with
  | error err => exact ⟨.error err, bs, fun data pos => bind_error (h data pos)⟩
  | ok a =>
    obtain ⟨r', bs', h'⟩ := h' a
    refine ⟨r', bs ++ bs', fun data pos => ?_⟩
    rw [bind_ok (h data pos), h', overwrite_overwrite, List.length_append, Nat.add_assoc]

theorem ite {α : Type} {c : Prop} [Decidable c] {m m' : FileM α} (h : Blind m) (h' : Blind m') :
    Blind (if c then m else m') := by
  split <;> assumption

end Blind

theorem writeTextual_blind (lines : List PyStr) (enc : Encoding) : Blind (writeTextualReelHeader lines enc) :=
  Blind.ite (Blind.raise _) (Blind.bind (Blind.lift _) fun _ => Blind.ite (Blind.raise _) (Blind.write _))

theorem writeBinary_blind (h : Header) (e : Endian) : Blind (writeBinaryReelHeader h e) :=
  Blind.bind (Blind.lift _) fun _ => Blind.bind (Blind.lift _) fun _ => Blind.write _

theorem writeExtPages_blind : ∀ pages, Blind (writeExtPages pages)
  | [] => Blind.pure ()
  | _ :: rest => Blind.ite (Blind.raise _) (Blind.bind (Blind.write _) fun _ => writeExtPages_blind rest)

theorem writeTraces_blind (d : Dataset) (p : HeaderPacker) (e : Endian) : ∀ is, Blind (writeTraces d p e is)
  | [] => Blind.pure _
  | _ :: rest =>
    Blind.bind (Blind.lift _) fun _ =>
      Blind.bind (Blind.bind (Blind.lift _) fun _ => Blind.write _) fun _ =>
        Blind.bind (Blind.lift _) fun _ => Blind.bind (Blind.lift _) fun _ =>
          Blind.bind (Blind.bind (Blind.lift _) fun _ => Blind.write _) fun _ =>
            Blind.ite (Blind.raise _) (Blind.bind (writeTraces_blind d p e rest) fun _ => Blind.pure _)

/-- The two parts of `write_segy`: the reel headers up to the binary one at the position of the file, and the rest at
byte 3600. -/
theorem writeSegy_parts (d : Dataset) (encoding : Option Encoding) (T : Format) (e : Endian) :
    ∃ (r : Res (List ℚ)) (head tail : Bytes),
      (∀ data pos, (writeSegy d encoding T e { data := data, pos := pos }).1 = r ∧
        ((∃ progress, r = .ok progress) → writeSegy d encoding T e { data := data, pos := pos } =
          (r, { data := overwrite (overwrite data pos head) 3600 tail, pos := 3600 + tail.length }))) ∧
      ((∃ progress, r = .ok progress) → Regular d.binary_reel_header.format e 400 → head.length = 3600) := by
  set enc := (encoding.or d.encoding).getD .ascii with henc
  by_cases hsup : isSupportedEncoding enc = true
  swap
  · refine ⟨.error .unsupportedEncodingError, [], [], fun data pos => ?_, fun h => by obtain ⟨_, h⟩ := h; cases h⟩
    have : writeSegy d encoding T e { data := data, pos := pos } =
        (.error .unsupportedEncodingError, { data := data, pos := pos }) := by
      unfold writeSegy
      simp only [← henc, hsup, Bool.not_false, if_true]
      rfl
    exact ⟨by rw [this], fun h => by obtain ⟨_, h⟩ := h; cases h⟩
  have hw : ∀ s, writeSegy d encoding T e s = (do
      writeTextualReelHeader d.textual_reel_header enc
      writeBinaryReelHeader d.binary_reel_header e
      writeExtendedTextualHeaders d.extended_textual_header enc
      let trace_header_packer ← FileM.lift (makeHeaderPacker T e)
      let progress ← writeTraces d trace_header_packer e d.trace_indexes
      return progress ++ [1] : FileM (List ℚ)) s := by
    intro s
    unfold writeSegy
    simp only [← henc, hsup, Bool.not_true, Bool.false_eq_true, if_false]
  obtain ⟨r1, bs1, h1⟩ := writeTextual_blind d.textual_reel_header enc
  cases r1 with
  | error err =>
    refine ⟨.error err, [], [], fun data pos => ⟨by rw [hw, bind_error (h1 data pos)], ?_⟩, ?_⟩ <;>
    · intro h; obtain ⟨_, h⟩ := h; cases h
  | ok _ =>
  obtain ⟨r2, bs2, h2⟩ := writeBinary_blind d.binary_reel_header e
  cases r2 with
  | error err =>
    refine ⟨.error err, [], [], fun data pos => ⟨by rw [hw, bind_ok (h1 data pos), bind_error (h2 _ _)], ?_⟩, ?_⟩ <;>
    · intro h; obtain ⟨_, h⟩ := h; cases h
  | ok _ =>
  have hrest : Blind (do
      let encoded_pages ← FileM.lift (d.extended_textual_header.mapM (encodeExtPage enc))
      writeExtPages encoded_pages
      let trace_header_packer ← FileM.lift (makeHeaderPacker T e)
      let progress ← writeTraces d trace_header_packer e d.trace_indexes
      return progress ++ [1] : FileM (List ℚ)) :=
    Blind.bind (Blind.lift _) fun _ => Blind.bind (writeExtPages_blind _) fun _ => Blind.bind (Blind.lift _) fun _ =>
      Blind.bind (writeTraces_blind _ _ _ _) fun _ => Blind.pure _
  obtain ⟨r, tail, h3⟩ := hrest
  have key : ∀ data pos, writeSegy d encoding T e { data := data, pos := pos } =
      (r, { data := overwrite (overwrite data pos (bs1 ++ bs2)) 3600 tail, pos := 3600 + tail.length }) := by
    intro data pos
    rw [hw, bind_ok (h1 data pos), bind_ok (h2 _ _), overwrite_overwrite, ← h3]
    unfold writeExtendedTextualHeaders
    simp only [hsup, Bool.not_true, Bool.false_eq_true, if_false]
    rw [bind_then, bind_ok (seek_apply _ _), bind_then]
    rfl
  refine ⟨r, bs1 ++ bs2, tail, fun data pos => ⟨by rw [key], fun _ => key data pos⟩, fun _ hB => ?_⟩
  have hl1 : bs1.length = 3200 := by
    have := h1 [] 0
    unfold writeTextualReelHeader at this
    simp only [hsup, Bool.not_true, Bool.false_eq_true, if_false] at this
    obtain ⟨lines, s1, g1, g2⟩ := bind_eq_ok this
    obtain ⟨-, rfl⟩ := lift_eq_ok g1
    split at g2
    · cases g2
    · rename_i hlen
      rw [write_apply rfl] at g2
      have := congrArg FileH.pos (Prod.mk.inj g2).2
      have h32 : TEXTUAL_HEADER_NUM_BYTES = 3200 := rfl
      simp only at this
      omega
  have hl2 : bs2.length = 400 := by
    have := h2 [] 0
    unfold writeBinaryReelHeader at this
    obtain ⟨p, s1, g1, g2⟩ := bind_eq_ok this
    obtain ⟨hp, rfl⟩ := lift_eq_ok g1
    obtain ⟨buf, s2, g3, g4⟩ := bind_eq_ok g2
    obtain ⟨hbuf, rfl⟩ := lift_eq_ok g3
    rw [write_apply rfl] at g4
    have hlen := (Props.C27_layout _ e p d.binary_reel_header buf hp hB.afterStart ⟨[], by simp⟩ hbuf).1
    unfold Format.packedLength at hlen
    rw [hB.length] at hlen
    have := congrArg FileH.pos (Prod.mk.inj g4).2
    simp only at this hlen
    omega
  rw [List.length_append]
  omega

end Segpy
