import Verif.Spec.CacheFiles
import Verif.Lemmas.Cache

/-! # The data files of a history: C52 -/

namespace Segpy.Props

open Segpy.Spec

private theorem load_files {Key : Type} [DecidableEq Key] (x : Faults) (c : List String × Key) (w : World Key) :
    (loadReaderFromCache x c w).2.files = w.files := by
  unfold loadReaderFromCache
  repeat' split
  all_goals rfl

private theorem save_files {Key : Type} [DecidableEq Key] (P : Platform Key) (x : Faults) (r : Reader)
    (name : Option DataPath) (pos : Nat) (c : List String × Key) (w : World Key) :
    (saveReaderToCache P x r name pos c w).2.files = w.files := by
  unfold saveReaderToCache
  repeat' split
  all_goals rfl

private theorem open_files {Key : Type} [DecidableEq Key] (P : Platform Key) (o : OpenCall) (w : World Key) :
    (o.run P w).2.files = w.files := by
  have hl : ∀ c r w', loadReaderFromCache o.faults c w = (r, w') → w'.files = w.files := fun c r w' h => by
    have := load_files o.faults c w
    rwa [h] at this
  have hs : ∀ r name pos c w1 res w', saveReaderToCache P o.faults r name pos c w1 = (res, w') →
      w'.files = w1.files := fun r name pos c w1 res w' h => by
    have := save_files P o.faults r name pos c w1
    rwa [h] at this
  unfold OpenCall.run createReaderCached
  repeat' split
  all_goals first
    | rfl
    | exact hl _ _ _ ‹_›
    | exact (hs _ _ _ _ _ _ _ ‹_›).trans (hl _ _ _ ‹_›)

/-- At every point of every history, opening a file with `create_reader`, with or without a cache directory and whatever
fails meanwhile, changes no data file; the other events do to the data files what they say. -/
theorem C52_data_files {Key : Type} [DecidableEq Key] (P : Platform Key) (files : DataPath → Option Bytes)
    (es : List (Event Key)) (ev : Event Key) :
    FilesAfter (World.after P files es).files (World.after P files (es ++ [ev])).files ev := by
  have h : World.after P files (es ++ [ev]) = ev.step P (World.after P files es) := by
    unfold World.after
    rw [List.foldl_append]
    rfl
  rw [h]
  generalize World.after P files es = w
  cases ev with
  | store p data => exact ⟨by simp [Event.step], fun q hq => by simp [Event.step, hq]⟩
  | remove p => exact ⟨by simp [Event.step], fun q hq => by simp [Event.step, hq]⟩
  | rename p q =>
    cases hp : w.files p with
    | none => exact ⟨fun _ => by simp [Event.step, hp], fun h => absurd hp h⟩
    | some data =>
      refine ⟨fun h => (by rw [hp] at h; cases h), fun _ => ⟨by simp [Event.step, hp], fun hq => ?_, fun x h1 h2 => ?_⟩⟩
      · simp [Event.step, hp, Ne.symm hq]
      · simp [Event.step, hp, h1, h2]
  | dropCache c => rfl
  | damageCache c => rfl
  | openFile o => exact open_files P o w

/-- A history in which a file is stored and renamed: the new name has its bytes and the old one none. -/
example {Key : Type} [DecidableEq Key] (P : Platform Key) (p q : DataPath) (hq : q ≠ p) (data : Bytes) :
    let w := World.after P (fun _ => none) [.store p data, .rename p q]
    w.files q = some data ∧ w.files p = none := by
  have h1 := C52_data_files P (fun _ => none) [] (.store p data)
  have h2 := C52_data_files P (fun _ => none) [.store p data] (.rename p q)
  have hs : (World.after P (fun _ => none) [.store p data]).files p = some data := h1.1
  have h := h2.2 (by rw [hs]; simp)
  exact ⟨h.1.trans hs, h.2.1 hq⟩

end Segpy.Props
