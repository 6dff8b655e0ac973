import Verif.Py.File

/-! # Lemmas about the file model -/

namespace Segpy
namespace FileM

theorem bind_apply {α β : Type} (m : FileM α) (f : α → FileM β) (s : FileH) :
    (m >>= f) s = match m s with
      | (.ok a, s') => f a s'
      | (.error e, s') => (.error e, s') := rfl

theorem bind_ok {α β : Type} {m : FileM α} {f : α → FileM β} {s s' : FileH} {a : α} (h : m s = (.ok a, s')) :
    (m >>= f) s = f a s' := by rw [bind_apply, h]

theorem bind_error {α β : Type} {m : FileM α} {f : α → FileM β} {s s' : FileH} {e : Err}
    (h : m s = (.error e, s')) : (m >>= f) s = (.error e, s') := by rw [bind_apply, h]

@[simp] theorem pure_apply {α : Type} (a : α) (s : FileH) : (pure a : FileM α) s = (.ok a, s) := rfl
@[simp] theorem raise_apply {α : Type} (e : Err) (s : FileH) : (raise e : FileM α) s = (.error e, s) := rfl
@[simp] theorem lift_apply {α : Type} (r : Res α) (s : FileH) : lift r s = (r, s) := rfl
@[simp] theorem tell_apply (s : FileH) : tell s = (.ok s.pos, s) := rfl

theorem seek_apply (n : Nat) (s : FileH) : seek n s = (.ok (), { s with pos := n }) := by
  unfold seek
  rw [if_neg (by omega)]
  simp

theorem read_apply (n : Nat) (s : FileH) :
    read n s = (.ok ((s.data.drop s.pos).take n), { s with pos := s.pos + ((s.data.drop s.pos).take n).length }) := by
  unfold read
  have : ¬ ((n : Int) < 0) := by omega
  simp only [if_neg this, Int.toNat_natCast]

theorem read_full {n : Nat} {s : FileH} (h : s.pos + n ≤ s.data.length) :
    read n s = (.ok ((s.data.drop s.pos).take n), { s with pos := s.pos + n }) := by
  rw [read_apply]
  have : ((s.data.drop s.pos).take n).length = n := by rw [List.length_take, List.length_drop]; omega
  rw [this]

/-- Reading when the next bytes are known. -/
theorem read_at {pre bs post : Bytes} {s : FileH} (hd : s.data = pre ++ bs ++ post) (hp : s.pos = pre.length) :
    read bs.length s = (.ok bs, { s with pos := s.pos + bs.length }) := by
  have h1 : (s.data.drop s.pos).take bs.length = bs := by
    rw [hd, hp, List.append_assoc, List.drop_left, List.take_left]
  rw [read_apply, h1]

theorem write_apply {s : FileH} (hl : s.limit = none) (bs : Bytes) :
    write bs s = (.ok (), { s with data := overwrite s.data s.pos bs, pos := s.pos + bs.length }) := by
  unfold write; rw [hl]

theorem overwrite_end (data bs : Bytes) : overwrite data data.length bs = data ++ bs := by
  unfold overwrite
  split
  · rename_i h
    rw [List.isEmpty_iff] at h
    simp [h]
  · simp

theorem overwrite_drop (data bs : Bytes) (pos : Nat) :
    ((overwrite data pos bs).drop pos).take bs.length = bs := by
  unfold overwrite
  split
  · rename_i h
    rw [List.isEmpty_iff] at h
    simp [h]
  · have : (data.take pos ++ List.replicate (pos - data.length) (0 : UInt8)).length = pos := by
      rw [List.length_append, List.length_take, List.length_replicate]; omega
    rw [List.append_assoc, List.drop_left' this, List.take_left]

theorem overwrite_take (data bs : Bytes) (pos : Nat) (h : pos ≤ data.length) :
    (overwrite data pos bs).take pos = data.take pos := by
  unfold overwrite
  split
  · rfl
  · have : (data.take pos ++ List.replicate (pos - data.length) (0 : UInt8)).length = pos := by
      rw [List.length_append, List.length_take, List.length_replicate]; omega
    rw [List.append_assoc, List.take_left' this]
    simp [Nat.sub_eq_zero_of_le h]

theorem overwrite_after (data bs : Bytes) (pos : Nat) :
    (overwrite data pos bs).drop (pos + bs.length) = data.drop (pos + bs.length) := by
  unfold overwrite
  split
  · rfl
  · have : (data.take pos ++ List.replicate (pos - data.length) (0 : UInt8) ++ bs).length = pos + bs.length := by
      rw [List.length_append, List.length_append, List.length_take, List.length_replicate]; omega
    rw [List.drop_left' this]

theorem overwrite_length (data bs : Bytes) (pos : Nat) (h : bs ≠ []) :
    (overwrite data pos bs).length = max data.length (pos + bs.length) := by
  unfold overwrite
  rw [if_neg (by simpa using h)]
  simp only [List.length_append, List.length_take, List.length_replicate, List.length_drop]
  omega

end FileM
end Segpy

namespace Segpy.FileM

theorem overwrite_overwrite (d a b : Bytes) (p : Nat) :
    overwrite (overwrite d p a) (p + a.length) b = overwrite d p (a ++ b) := by
  cases a with
  | nil => simp [overwrite]
  | cons a0 a' =>
    cases b with
    | nil => simp [overwrite]
    | cons b0 b' =>
      generalize ha : a0 :: a' = a
      generalize hb : b0 :: b' = b
      have hae : a.isEmpty = false := by rw [← ha]; rfl
      have hbe : b.isEmpty = false := by rw [← hb]; rfl
      have habe : (a ++ b).isEmpty = false := by rw [← ha]; rfl
      unfold overwrite
      simp only [hae, hbe, habe, Bool.false_eq_true, if_false]
      have hP : (d.take p ++ List.replicate (p - d.length) (0 : UInt8)).length = p := by
        rw [List.length_append, List.length_take, List.length_replicate]; omega
      generalize d.take p ++ List.replicate (p - d.length) (0 : UInt8) = P at hP
      have hPa : (P ++ a).length = p + a.length := by rw [List.length_append, hP]
      rw [List.take_left' hPa]
      have h0 : p + a.length - (P ++ a ++ d.drop (p + a.length)).length = 0 := by
        rw [List.length_append, hPa]; omega
      rw [h0]
      have h1 : (P ++ a ++ d.drop (p + a.length)).drop (p + a.length + b.length) = d.drop (p + (a ++ b).length) := by
        rw [← hPa, ← List.drop_drop, List.drop_left, List.drop_drop, hPa, List.length_append, Nat.add_assoc]
      rw [h1]
      simp

end Segpy.FileM
