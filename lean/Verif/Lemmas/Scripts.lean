import Verif.Spec.Scripts
import Verif.Lemmas.Reader

/-! # Lemmas about the command lines of the example scripts -/

namespace Segpy

open Segpy.Spec Segpy.FileM

theorem exitCode_statusOf (err : OpenError) : err.exitCode = statusOf err := by cases err <;> rfl

theorem exitCode_of (err : Err) : err.exitCode = 66 ∨ err.exitCode = 70 := by
  cases err <;> first | (left; rfl) | (right; rfl)

theorem run_ended (fs : FileSystem) (a b : String) (work : FileH → Res (List ℚ) × FileH) :
    Ended fs a b (fs.run a b work).1 (fs.run a b work).2 := by
  refine ⟨?_, ?_, ?_⟩
  · intro err h
    unfold FileSystem.run
    simp only [h]
    exact ⟨exitCode_statusOf err, trivial⟩
  · intro i err hi h
    unfold FileSystem.run
    simp only [hi, h]
    exact ⟨exitCode_statusOf err, trivial⟩
  · intro i o hi ho
    unfold FileSystem.run
    simp only [hi, ho]
    split
    · rename_i err written hw
      refine ⟨?_, rfl, rfl, ?_⟩
      · rcases exitCode_of err with h | h <;> simp [h]
      · intro f hf
        simp only [FileSystem.put, hf, if_false]
    · refine ⟨by simp [exitOk], rfl, rfl, ?_⟩
      intro f hf
      simp only [FileSystem.put, hf, if_false]

theorem run_work {fs : FileSystem} {a b : String} {i o : Nat} (hi : fs.openRead a = .ok i)
    (ho : fs.openWrite b = .ok o) (hne : i ≠ o) (work : FileH → Res (List ℚ) × FileH) :
    ((fs.run a b work).1 = 0 ↔ ∃ p c, work (atStart (fs.contents i)) = (.ok p, c)) ∧
    (fs.run a b work).2.contents o = (work (atStart (fs.contents i))).2.data := by
  unfold FileSystem.run
  simp only [hi, ho]
  have : (fs.put o []).contents i = fs.contents i := by simp [FileSystem.put, hne]
  rw [this]
  show ((match work (atStart (fs.contents i)) with
      | (.error err, written) => (err.exitCode, (fs.put o []).put o written.data)
      | (.ok _, written) => (exitOk, (fs.put o []).put o written.data)).1 = 0 ↔ _) ∧
    (match work (atStart (fs.contents i)) with
      | (.error err, written) => (err.exitCode, (fs.put o []).put o written.data)
      | (.ok _, written) => (exitOk, (fs.put o []).put o written.data)).2.contents o = _
  generalize work (atStart (fs.contents i)) = w
  obtain ⟨x, c⟩ := w
  cases x with
  | error err =>
    refine ⟨?_, by simp [FileSystem.put]⟩
    constructor
    · intro h
      exfalso
      rcases exitCode_of err with h' | h' <;> (simp only at h; omega)
    · rintro ⟨p, c', h⟩
      cases h
  | ok p => exact ⟨⟨fun _ => ⟨p, c, rfl⟩, fun _ => rfl⟩, by simp [FileSystem.put]⟩

theorem run_error {fs : FileSystem} {a b : String} {i o : Nat} (hi : fs.openRead a = .ok i)
    (ho : fs.openWrite b = .ok o) (hne : i ≠ o) (work : FileH → Res (List ℚ) × FileH) {err : Err} {c : FileH}
    (h : work (atStart (fs.contents i)) = (.error err, c)) : (fs.run a b work).1 = err.exitCode := by
  unfold FileSystem.run
  simp only [hi, ho]
  have : (fs.put o []).contents i = fs.contents i := by simp [FileSystem.put, hne]
  rw [this]
  have h' : work { data := fs.contents i, pos := 0 } = (.error err, c) := h
  rw [h']

theorem writeTraces_reads {d : Dataset} {p : HeaderPacker} {e : Endian} (l : List Int) {s s' : FileH} {progress : List ℚ}
    (h : writeTraces d p e l s = (.ok progress, s')) :
    ∀ i ∈ l, (∃ hd, d.trace_header i = .ok hd) ∧ ∃ vs, d.trace_samples i = .ok vs := by
  induction l generalizing s s' progress with
  | nil => intro i hi; cases hi
  | cons j l ih =>
    have heq : writeTraces d p e (j :: l) = (do
      let header ← FileM.lift (d.trace_header j)
      writeTraceHeader header p
      let samples ← FileM.lift (d.trace_samples j)
      let format ← FileM.lift d.dataSampleFormat
      writeTraceSamples samples format e
      if d.num_traces = 0 then FileM.raise .zeroDivisionError
      else
        let later ← writeTraces d p e l
        return round64 ((j : ℚ) / d.num_traces) :: later) := rfl
    rw [heq] at h
    obtain ⟨hd, s1, h1, g1⟩ := bind_eq_ok h
    obtain ⟨-, s2, -, g2⟩ := bind_eq_ok g1
    obtain ⟨vs, s3, h3, g3⟩ := bind_eq_ok g2
    obtain ⟨fmt, s4, -, g4⟩ := bind_eq_ok g3
    obtain ⟨-, s5, -, g⟩ := bind_eq_ok g4
    clear h g1 g2 g3 g4 heq
    split at g
    · cases g
    obtain ⟨later, s6, h6, -⟩ := bind_eq_ok g
    intro i hi
    rcases List.mem_cons.mp hi with rfl | hi
    · exact ⟨⟨hd, (lift_eq_ok h1).1⟩, ⟨vs, (lift_eq_ok h3).1⟩⟩
    · exact ih h6 i hi

theorem writeSegy_reads {d : Dataset} {encoding : Option Encoding} {T : Format} {e : Endian} {s s' : FileH}
    {progress : List ℚ} (h : writeSegy d encoding T e s = (.ok progress, s')) :
    ∀ i ∈ d.trace_indexes, (∃ hd, d.trace_header i = .ok hd) ∧ ∃ vs, d.trace_samples i = .ok vs := by
  unfold writeSegy at h
  split at h
  · cases h
  obtain ⟨-, s1, -, g⟩ := bind_eq_ok h; clear h
  obtain ⟨-, s2, -, g⟩ := bind_eq_ok g
  obtain ⟨-, s3, -, g⟩ := bind_eq_ok g
  obtain ⟨p, s4, -, g⟩ := bind_eq_ok g
  obtain ⟨progress', s5, h5, -⟩ := bind_eq_ok g
  exact writeTraces_reads _ h5

/-- On a device that never fails, the file stays one on such a device. -/
def KeepsFree {α : Type} (m : FileM α) : Prop := ∀ s : FileH, s.limit = none → (m s).2.limit = none

namespace KeepsFree

theorem bind {α β : Type} {m : FileM α} {f : α → FileM β} (hm : KeepsFree m) (hf : ∀ a, KeepsFree (f a)) :
    KeepsFree (m >>= f) := by
  intro s hs
  have h1 := hm s hs
  rw [bind_apply]
  split
  · rename_i a s' h
    rw [h] at h1
    exact hf a s' h1
  · rename_i err s' h
    rw [h] at h1
    exact h1

theorem pure {α : Type} (a : α) : KeepsFree (Pure.pure a : FileM α) := fun _ hs => hs

theorem lift {α : Type} (r : Res α) : KeepsFree (FileM.lift r) := fun _ hs => hs

theorem raise {α : Type} (e : Err) : KeepsFree (FileM.raise e : FileM α) := fun _ hs => hs

theorem seek (n : Int) : KeepsFree (FileM.seek n) := by
  intro s hs
  unfold FileM.seek
  split <;> exact hs

theorem write (bs : Bytes) : KeepsFree (FileM.write bs) := by
  intro s hs
  unfold FileM.write
  rw [hs]

theorem writeExtPages (l : List (List Bytes)) : KeepsFree (Segpy.writeExtPages l) := by
  induction l with
  | nil => exact pure ()
  | cons p l ih =>
    unfold Segpy.writeExtPages
    dsimp only
    split
    · exact raise _
    · exact bind (write _) fun _ => ih

theorem writeTraces (d : Dataset) (p : HeaderPacker) (e : Endian) (l : List Int) :
    KeepsFree (Segpy.writeTraces d p e l) := by
  induction l with
  | nil => exact pure _
  | cons i l ih =>
    refine bind (lift _) fun hd => bind (bind (lift _) fun _ => write _) fun _ => bind (lift _) fun vs =>
      bind (lift _) fun fmt => bind (bind (lift _) fun _ => write _) fun _ => ?_
    split
    · exact raise _
    · exact bind ih fun _ => pure _

theorem writeSegy (d : Dataset) (encoding : Option Encoding) (T : Format) (e : Endian) :
    KeepsFree (Segpy.writeSegy d encoding T e) := by
  unfold Segpy.writeSegy
  dsimp only
  split
  · exact raise _
  · refine bind ?_ fun _ => bind ?_ fun _ => bind ?_ fun _ => bind (lift _) fun p => bind (writeTraces _ _ _ _) fun _ => pure _
    · unfold writeTextualReelHeader
      split
      · exact raise _
      · refine bind (lift _) fun l => ?_
        dsimp only
        split
        · exact raise _
        · exact write _
    · exact bind (lift _) fun _ => bind (lift _) fun _ => write _
    · unfold writeExtendedTextualHeaders
      split
      · exact raise _
      · exact bind (seek _) fun _ => bind (lift _) fun _ => writeExtPages _

end KeepsFree

/-- A file on such a device, set to its start. -/
theorem atStart_eq {c : FileH} (h : c.limit = none) : { c with pos := 0 } = atStart c.data := by
  cases c
  cases h
  rfl

theorem loadSaveFile_free (native : Endian) (s : FileH) : (loadSaveFile native s).2.limit = none := by
  unfold loadSaveFile
  split
  · rfl
  · exact KeepsFree.writeSegy _ _ _ _ _ rfl

theorem convertFile_free (native : Endian) (t : SegYType) (s : FileH) : (convertFile native t s).2.limit = none := by
  unfold convertFile
  split
  · rfl
  · split
    · rfl
    · split
      · rfl
      · split
        · rfl
        · exact KeepsFree.writeSegy _ _ _ _ _ rfl

theorem scaleSamplesFile_free (native : Endian) (k : PyFloat) (s : FileH) :
    (scaleSamplesFile native k s).2.limit = none := by
  unfold scaleSamplesFile
  split
  · rfl
  · split
    · rfl
    · exact KeepsFree.writeSegy _ _ _ _ _ rfl

theorem scaleCoordinatesFile_free (native : Endian) (k : PyFloat) (s : FileH) :
    (scaleCoordinatesFile native k s).2.limit = none := by
  unfold scaleCoordinatesFile
  split
  · rfl
  · exact KeepsFree.writeSegy _ _ _ _ _ rfl

end Segpy
