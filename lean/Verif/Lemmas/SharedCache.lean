import Verif.Spec.SharedCache
import Verif.Lemmas.Cache
import Verif.Lemmas.File

/-!
# Lemmas about processes that share a cache directory
-/

namespace Segpy

open Spec

theorem overwrite_getElem? (d bs : Bytes) (pos k : Nat) (hbs : bs ≠ []) :
    (FileM.overwrite d pos bs)[k]? =
      if k < pos then (if k < d.length then d[k]? else some 0)
      else if k < pos + bs.length then bs[k - pos]? else d[k]? := by
  unfold FileM.overwrite
  rw [if_neg (by simpa using hbs)]
  have hl : (d.take pos ++ List.replicate (pos - d.length) (0 : UInt8)).length = pos := by
    rw [List.length_append, List.length_take, List.length_replicate]; omega
  rw [List.getElem?_append, List.length_append, hl]
  by_cases h1 : k < pos
  · rw [if_pos (by omega), List.getElem?_append_left (by omega), if_pos h1, List.getElem?_append, List.length_take]
    by_cases h2 : k < d.length
    · rw [if_pos (by omega), if_pos h2, List.getElem?_take, if_pos h1]
    · rw [if_neg (by omega), if_neg h2, List.getElem?_replicate, if_pos (by omega)]
  · rw [if_neg h1]
    by_cases h2 : k < pos + bs.length
    · rw [if_pos h2, if_pos h2, List.getElem?_append_right (by omega), hl]
    · rw [if_neg h2, if_neg h2, List.getElem?_drop, show pos + bs.length + (k - (pos + bs.length)) = k by omega]

namespace CacheFiles

/-- The cache file is one of the files. -/
def Ok (fs : CacheFiles) : Prop := ∀ i, fs.entry = some i → i < fs.contents.length

theorem create_some {fs : CacheFiles} {i : Nat} (h : fs.entry = some i) :
    fs.create = (i, ⟨some i, fs.contents.set i []⟩) := by
  unfold create
  obtain ⟨entry, contents⟩ := fs
  simp only at h
  subst h
  rfl

theorem create_none {fs : CacheFiles} (h : fs.entry = none) :
    fs.create = (fs.contents.length, ⟨some fs.contents.length, fs.contents ++ [[]]⟩) := by
  unfold create
  obtain ⟨entry, contents⟩ := fs
  simp only at h
  subst h
  rfl

theorem create_spec {fs : CacheFiles} (h : fs.Ok) :
    fs.create.2.Ok ∧ fs.create.2.entry = some fs.create.1 ∧ fs.create.1 < fs.create.2.contents.length ∧
      fs.create.2.content fs.create.1 = [] ∧ fs.contents.length ≤ fs.create.2.contents.length ∧
      (∀ j, j ≠ fs.create.1 → fs.create.2.content j = fs.content j) ∧
      (∀ j, j < fs.create.2.contents.length → j < fs.contents.length ∨ j = fs.create.1) := by
  cases he : fs.entry with
  | some i =>
    have hi := h i he
    rw [create_some he]
    refine ⟨?_, rfl, by simpa using hi, ?_, by simp, ?_, ?_⟩
    · intro j hj
      simp only [Option.some.injEq] at hj
      subst hj
      simpa using hi
    · simp [content, hi]
    · intro j hj
      simp only [content]
      rw [List.getElem?_set_ne (fun h => hj h.symm)]
    · intro j hj
      simp only [List.length_set] at hj
      exact .inl hj
  | none =>
    rw [create_none he]
    refine ⟨?_, rfl, by simp, by simp [content], by simp, ?_, ?_⟩
    · intro j hj
      simp only [Option.some.injEq] at hj
      subst hj
      simp
    · intro j hj
      simp only [content]
      simp only at hj
      by_cases hl : j < fs.contents.length
      · rw [List.getElem?_append_left hl]
      · rw [List.getElem?_eq_none (by simp; omega), List.getElem?_eq_none (by omega)]
    · intro j hj
      simp only [List.length_append, List.length_singleton] at hj
      simp only
      omega

theorem content_write (fs : CacheFiles) (i pos : Nat) (bs : Bytes) (j : Nat) :
    (fs.write i pos bs).content j =
      if j = i ∧ i < fs.contents.length then FileM.overwrite (fs.content i) pos bs else fs.content j := by
  unfold write content
  simp only
  by_cases h : j = i
  · subst h
    by_cases hl : j < fs.contents.length
    · simp [hl]
    · simp [hl]
  · rw [List.getElem?_set_ne (fun he => h he.symm), if_neg (fun he => h he.1)]

end CacheFiles

namespace SharedCall

variable {Key : Type}

/-! ## A process alone -/

/-- What writing the rest comes to. -/
def finWrite (fs : CacheFiles) (i pos : Nat) (bytes : Bytes) : CacheFiles :=
  if bytes.drop pos = [] then fs else fs.write i pos (bytes.drop pos)

/-- What the rest of `building` comes to. -/
def finBuild (S : SharedCall Key) (fs : CacheFiles) : Res OpenResult × CacheFiles :=
  match S.build with
  | (.error err, _) => (.error err, fs)
  | (.ok (r, progress), s) =>
    match r.dump S.P (some S.o.path) s.pos with
    | .error err =>
      if err = .attributeError ∨ err = .typeError ∨ err = .osError then
        (.ok ⟨r, some S.o.path, progress ++ [1]⟩, fs.create.2)
      else (.error err, fs.create.2)
    | .ok (p, r) =>
      (.ok ⟨r, some S.o.path, progress ++ [1]⟩, finWrite fs.create.2 fs.create.1 0 (S.dumps p))

/-- What the rest after reading comes to. -/
def finUnpickle (S : SharedCall Key) (fs : CacheFiles) (got : Bytes) : Res OpenResult × CacheFiles :=
  match S.unpickle got with
  | .finished x => (x, fs)
  | _ => S.finBuild { fs with entry := none }

/-- What a process will return and leave behind if it is alone from now on. -/
def fin (S : SharedCall Key) (fs : CacheFiles) : CachePhase → Res OpenResult × CacheFiles
  | .start =>
    if S.data.length < REEL_HEADER_NUM_BYTES then (.error .valueError, fs)
    else if S.o.dimensionality ∉ [none, some 1, some 2, some 3] then (.error .valueError, fs)
    else
      match fs.entry with
      | some i => S.finUnpickle fs (fs.content i)
      | none => S.finBuild fs
  | .openRead =>
    match fs.entry with
    | some i => S.finUnpickle fs (fs.content i)
    | none => (.error .fileNotFoundError, fs)
  | .reading i got => S.finUnpickle fs (got ++ (fs.content i).drop got.length)
  | .unlinking => S.finBuild { fs with entry := none }
  | .building => S.finBuild fs
  | .writing i pos bytes result => (.ok result, finWrite fs i pos bytes)
  | .finished x => (x, fs)
  | .killed => (.error .osError, fs)

theorem unpickle_cases (S : SharedCall Key) (got : Bytes) :
    S.unpickle got = .unlinking ∨ ∃ x, S.unpickle got = .finished x := by
  unfold unpickle
  split
  · exact .inl rfl
  · exact .inr ⟨_, rfl⟩
  · split
    · exact .inl rfl
    · exact .inr ⟨_, rfl⟩

theorem take_drop_nil {n : Nat} {l : Bytes} {k : Nat} (h : (l.drop k).take (n + 1) = []) : l.drop k = [] := by
  cases hl : l.drop k with
  | nil => rfl
  | cons a b => rw [hl] at h; simp at h

theorem write_write (fs : CacheFiles) (i pos : Nat) (a b : Bytes) :
    (fs.write i pos a).write i (pos + a.length) b = fs.write i pos (a ++ b) := by
  have h := CacheFiles.content_write fs i pos a i
  unfold CacheFiles.write at *
  simp only [List.set_set]
  by_cases hl : i < fs.contents.length
  · rw [if_pos ⟨rfl, hl⟩] at h
    rw [h, FileM.overwrite_overwrite]
  · rw [List.set_eq_of_length_le (by omega), List.set_eq_of_length_le (by omega)]

theorem fin_unpickle (S : SharedCall Key) (fs : CacheFiles) (got : Bytes) :
    S.fin fs (S.unpickle got) = S.finUnpickle fs got := by
  unfold finUnpickle
  rcases S.unpickle_cases got with h | ⟨x, h⟩ <;> rw [h] <;> rfl

theorem fin_step (S : SharedCall Key) (n : Nat) (fs : CacheFiles) (ph : CachePhase) :
    S.fin (S.step n fs ph).2 (S.step n fs ph).1 = S.fin fs ph := by
  cases ph with
  | start =>
    simp only [step, fin]
    by_cases h1 : S.data.length < REEL_HEADER_NUM_BYTES
    · simp only [if_pos h1]
    · simp only [if_neg h1]
      by_cases h2 : S.o.dimensionality ∉ [none, some 1, some 2, some 3]
      · simp only [if_pos h2]
      · simp only [if_neg h2]
        cases he : fs.entry with
        | none => simp
        | some i => simp [he]
  | openRead =>
    simp only [step, fin]
    cases he : fs.entry with
    | none => rfl
    | some i => simp
  | reading i got =>
    by_cases h : ((fs.content i).drop got.length).take (n + 1) = []
    · have : S.step n fs (.reading i got) = (S.unpickle got, fs) := by simp only [step, if_pos h]
      rw [this, fin_unpickle, fin, take_drop_nil h, List.append_nil]
    · have : S.step n fs (.reading i got) =
          (.reading i (got ++ ((fs.content i).drop got.length).take (n + 1)), fs) := by simp only [step, if_neg h]
      rw [this]
      simp only [fin, List.append_assoc, List.length_append]
      congr 2
      rw [← List.drop_drop]
      generalize (fs.content i).drop got.length = l
      rw [List.length_take]
      rcases Nat.lt_or_ge (n + 1) l.length with h | h
      · rw [Nat.min_eq_left (by omega), List.take_append_drop]
      · rw [Nat.min_eq_right h, List.drop_length, List.append_nil, List.take_of_length_le h]
  | unlinking => rfl
  | building =>
    simp only [step, fin, finBuild]
    cases S.build with
    | mk x s =>
      cases x with
      | error err => rfl
      | ok y =>
        obtain ⟨r, progress⟩ := y
        simp only
        cases r.dump S.P (some S.o.path) s.pos with
        | error err =>
          by_cases h : err = .attributeError ∨ err = .typeError ∨ err = .osError
          · simp only [if_pos h]
          · simp only [if_neg h]
        | ok z => rfl
  | writing i pos bytes result =>
    by_cases h : (bytes.drop pos).take (n + 1) = []
    · have : S.step n fs (.writing i pos bytes result) = (.finished (.ok result), fs) := by simp only [step, if_pos h]
      rw [this]
      simp only [fin, finWrite, take_drop_nil h, if_true]
    · have : S.step n fs (.writing i pos bytes result) =
          (.writing i (pos + ((bytes.drop pos).take (n + 1)).length) bytes result,
            fs.write i pos ((bytes.drop pos).take (n + 1))) := by simp only [step, if_neg h]
      rw [this]
      have hne : bytes.drop pos ≠ [] := fun hn => h (by rw [hn]; rfl)
      simp only [fin, finWrite, if_neg hne, ← List.drop_drop]
      congr 1
      have hcat : (bytes.drop pos).take (n + 1) ++ (bytes.drop pos).drop ((bytes.drop pos).take (n + 1)).length =
          bytes.drop pos := by
        generalize bytes.drop pos = l
        rw [List.length_take]
        rcases Nat.lt_or_ge (n + 1) l.length with h | h
        · rw [Nat.min_eq_left (by omega), List.take_append_drop]
        · rw [Nat.min_eq_right h, List.drop_length, List.append_nil, List.take_of_length_le h]
      split
      · rename_i hd
        rw [hd, List.append_nil] at hcat
        rw [hcat]
      · rw [write_write, hcat]
  | finished x => rfl
  | killed => rfl

theorem fin_alone (S : SharedCall Key) (ns : List Nat) (ph : CachePhase) (fs : CacheFiles) :
    S.fin (alone S (ph, fs) ns).2 (alone S (ph, fs) ns).1 = S.fin fs ph := by
  induction ns generalizing ph fs with
  | nil => rfl
  | cons n ns ih =>
    rw [alone]
    exact (ih _ _).trans (S.fin_step n fs ph)

/-! ## The sequential model -/

variable [DecidableEq Key]

theorem worldOf_set (S : SharedCall Key) (c : List String × Key) (fs fs' : CacheFiles) (f : Option CacheFile)
    (h : (fs'.entry.map fun i => S.loads (fs'.content i)) = f) :
    worldOf S c fs' = (worldOf S c fs).setCache c f := by
  unfold worldOf World.setCache
  simp only [h]
  congr 1
  funext c'
  split <;> rfl

theorem content_finWrite {fs : CacheFiles} {i : Nat} (hi : i < fs.contents.length) (he : fs.content i = [])
    (bytes : Bytes) : (finWrite fs i 0 bytes).content i = bytes := by
  unfold finWrite
  rw [List.drop_zero]
  split
  · rename_i h
    rw [he, h]
  · rw [CacheFiles.content_write, if_pos ⟨rfl, hi⟩, he]
    exact FileM.overwrite_end [] bytes

theorem entry_finWrite (fs : CacheFiles) (i pos : Nat) (bytes : Bytes) : (finWrite fs i pos bytes).entry = fs.entry := by
  unfold finWrite
  split <;> rfl

/-- The arguments are refused. -/
def Refused (S : SharedCall Key) : Prop :=
  S.data.length < REEL_HEADER_NUM_BYTES ∨ S.o.dimensionality ∉ [none, some 1, some 2, some 3]

instance (S : SharedCall Key) : Decidable S.Refused := by unfold Refused; infer_instance

/-- What a process pickles. -/
def Dumped (S : SharedCall Key) (p : Pickle) : Prop :=
  ¬ S.Refused ∧ ∃ r progress s r', S.build = (.ok (r, progress), s) ∧ r.dump S.P (some S.o.path) s.pos = .ok (p, r')

theorem finBuild_world (S : SharedCall Key) (c : List String × Key) (fs : CacheFiles) (hok : fs.Ok)
    (hempty : S.loads [] = .unloadable) (hd : ∀ p, S.Dumped p → S.loads (S.dumps p) = .reader p) (hr : ¬ S.Refused) :
    (match S.build with
      | (.error err, _) => ((.error err, worldOf S c fs) : Res OpenResult × World Key)
      | (.ok (r, progress), s) =>
        match saveReaderToCache S.P {} r (some S.o.path) s.pos c (worldOf S c fs) with
        | (.error err, w) => (.error err, w)
        | (.ok r, w) => (.ok ⟨r, some S.o.path, progress ++ [1]⟩, w)) =
      ((S.finBuild fs).1, worldOf S c (S.finBuild fs).2) := by
  obtain ⟨_, g2, g3, g4, _, _, _⟩ := CacheFiles.create_spec hok
  unfold finBuild
  cases hb : S.build with
  | mk x s =>
    cases x with
    | error err => rfl
    | ok y =>
      obtain ⟨r, progress⟩ := y
      simp only
      unfold saveReaderToCache
      have hw : worldOf S c fs.create.2 = (worldOf S c fs).setCache c (some .unloadable) := by
        apply worldOf_set
        rw [g2]
        simp only [Option.map_some]
        rw [g4, hempty]
      rw [if_neg (by simp), if_neg (by simp)]
      cases hdump : r.dump S.P (some S.o.path) s.pos with
      | error err =>
        by_cases h : err = .attributeError ∨ err = .typeError ∨ err = .osError
        · simp only [if_pos h, hw]
        · simp only [if_neg h, hw]
      | ok z =>
        obtain ⟨p, r'⟩ := z
        have hf : ¬ (({} : Faults).write = true) := by simp
        simp only [if_neg hf]
        congr 1
        symm
        apply worldOf_set
        rw [entry_finWrite, g2]
        simp only [Option.map_some]
        rw [content_finWrite g3 g4, hd p ⟨hr, r, progress, s, r', hb, hdump⟩]

theorem fin_start (S : SharedCall Key) {d : List String} (hu : UsesCache S d) (fs : CacheFiles) (hok : fs.Ok)
    (hempty : S.loads [] = .unloadable) (hd : ∀ p, S.Dumped p → S.loads (S.dumps p) = .reader p) :
    let c := (d, S.P.sha1 (S.o.fed S.P S.data))
    ((S.fin fs .start).1, worldOf S c (S.fin fs .start).2) = S.o.run S.P (worldOf S c fs) := by
  intro c
  have hdis : S.o.dir ≠ .disabled := by
    intro h
    have := hu.directory
    rw [h] at this
    cases this
  unfold OpenCall.run
  rw [show (worldOf S c fs).files S.o.path = some S.data from hu.data]
  simp only
  unfold createReaderCached
  simp only [fin]
  by_cases h1 : S.data.length < REEL_HEADER_NUM_BYTES
  · simp only [if_pos h1]
  simp only [if_neg h1]
  by_cases h2 : S.o.dimensionality ∉ [none, some 1, some 2, some 3]
  · simp only [if_pos h2]
  simp only [if_neg h2, if_neg hdis]
  have hr : ¬ S.Refused := not_or.2 ⟨h1, h2⟩
  rw [hashForFile_eq]
  simp only [hu.directory, hu.faults]
  have hcache : (worldOf S c fs).cache c = fs.entry.map fun i => S.loads (fs.content i) := by
    unfold worldOf
    simp
  rw [show ((d, S.P.sha1 (S.o.fed S.P S.data)) : List String × Key) = c from rfl]
  unfold loadReaderFromCache
  rw [hcache]
  cases he : fs.entry with
  | none =>
    simp only [Option.map_none]
    exact (finBuild_world S c fs hok hempty hd hr).symm
  | some i =>
    simp only [Option.map_some]
    have hstale : ((S.finBuild { fs with entry := none }).1, worldOf S c (S.finBuild { fs with entry := none }).2) =
        (match S.build with
        | (.error err, _) => ((.error err, (worldOf S c fs).setCache c none) : Res OpenResult × World Key)
        | (.ok (r, progress), s) =>
          match saveReaderToCache S.P {} r (some S.o.path) s.pos c ((worldOf S c fs).setCache c none) with
          | (.error err, w) => (.error err, w)
          | (.ok r, w) => (.ok ⟨r, some S.o.path, progress ++ [1]⟩, w)) := by
      rw [← worldOf_set S c fs { fs with entry := none } none rfl]
      exact (finBuild_world S c { fs with entry := none } (fun i hi => by cases hi) hempty hd hr).symm
    unfold finUnpickle unpickle
    cases hl : S.loads (fs.content i) with
    | unloadable => exact hstale
    | other => rfl
    | reader p =>
      simp only
      have hload : p.load (worldOf S c fs) = p.load ({ files := S.files, cache := fun _ => none } : World Key) := rfl
      rw [hload]
      cases p.load ({ files := S.files, cache := fun _ => none } : World Key) with
      | error err => exact hstale
      | ok r => rfl

/-! ## Schedules -/

/-- The bytes that are written, if the reader can be made and pickled. -/
def full (S : SharedCall Key) : Bytes :=
  if S.Refused then []
  else
    match S.build with
    | (.error _, _) => []
    | (.ok (r, _), s) =>
      match r.dump S.P (some S.o.path) s.pos with
      | .error _ => []
      | .ok (p, _) => S.dumps p

/-- What a process returns that makes the reader itself. -/
def built (S : SharedCall Key) : Res OpenResult := (S.finBuild ⟨none, []⟩).1

omit [DecidableEq Key] in
theorem finBuild_fst (S : SharedCall Key) (fs : CacheFiles) : (S.finBuild fs).1 = S.built := by
  unfold built finBuild
  cases S.build with
  | mk x s =>
    cases x with
    | error err => rfl
    | ok y =>
      obtain ⟨r, progress⟩ := y
      simp only
      cases r.dump S.P (some S.o.path) s.pos with
      | error err =>
        by_cases h : err = .attributeError ∨ err = .typeError ∨ err = .osError
        · simp only [if_pos h]
        · simp only [if_neg h]
      | ok z => rfl

/-- The reader can be made. -/
def Builds (S : SharedCall Key) : Prop := ∃ r progress s, S.build = (.ok (r, progress), s)

/-- What a process may return. -/
inductive Good (S : SharedCall Key) : Res OpenResult → Prop where
  | refused (h : S.Refused) : Good S (.error .valueError)
  | built (h : ¬ S.Refused) : Good S S.built
  | loaded (h : ¬ S.Refused) (p : Pickle) (hp : S.Dumped p) (r : Reader)
      (hl : p.load ({ files := S.files, cache := fun _ => none } : World Key) = .ok r) :
      Good S (.ok ⟨r, some p.file_name, [1]⟩)
  | raced (h : ¬ S.Refused) (hb : S.Builds) : Good S (.error .fileNotFoundError)

/-- What holds of a process at any time. -/
def PhaseOk (S : SharedCall Key) (fs : CacheFiles) : CachePhase → Prop
  | .start => True
  | .openRead => ¬ S.Refused ∧ S.Builds
  | .reading _ got => ¬ S.Refused ∧ S.Builds ∧ Torn S.full got
  | .unlinking => ¬ S.Refused ∧ S.Builds
  | .building => ¬ S.Refused
  | .writing i pos bytes result => ¬ S.Refused ∧ S.Builds ∧ i < fs.contents.length ∧ bytes = S.full ∧
      pos ≤ bytes.length ∧ .ok result = S.built
  | .finished x => Good S x
  | .killed => True

/-- What holds of the cache files at any time. -/
structure FilesOk (S : SharedCall Key) (fs : CacheFiles) : Prop where
  ok : fs.Ok
  torn : ∀ j, Torn S.full (fs.content j)
  builds : fs.entry.isSome → S.Builds

theorem torn_nil (full : Bytes) : Torn full [] := ⟨by simp, by simp⟩

theorem torn_write {full x : Bytes} {pos n : Nat} (h : Torn full x) (hne : (full.drop pos).take n ≠ []) :
    Torn full (FileM.overwrite x pos ((full.drop pos).take n)) := by
  have hl : ((full.drop pos).take n).length ≤ full.length - pos := by
    rw [List.length_take, List.length_drop]
    omega
  have hpos : pos < full.length := by
    by_contra hge
    apply hne
    rw [List.drop_eq_nil_of_le (by omega), List.take_nil]
  refine ⟨?_, ?_⟩
  · rw [FileM.overwrite_length _ _ _ hne]
    have := h.1
    omega
  · intro k b hb
    rw [overwrite_getElem? _ _ _ _ hne] at hb
    split at hb
    · split at hb
      · exact h.2 k b hb
      · injection hb with hb
        exact .inr hb.symm
    · split at hb
      · rename_i h1 h2
        left
        rw [List.getElem?_take, if_pos (by rw [List.length_take] at h2; omega), List.getElem?_drop,
          show pos + (k - pos) = k by omega] at hb
        exact hb
      · exact h.2 k b hb

theorem torn_read {full x got : Bytes} {n : Nat} (h : Torn full x) (hg : Torn full got)
    (hne : (x.drop got.length).take n ≠ []) : Torn full (got ++ (x.drop got.length).take n) := by
  have hlt : got.length < x.length := by
    by_contra hge
    apply hne
    rw [List.drop_eq_nil_of_le (by omega), List.take_nil]
  refine ⟨?_, ?_⟩
  · rw [List.length_append, List.length_take, List.length_drop]
    have := h.1
    omega
  · intro k b hb
    rw [List.getElem?_append] at hb
    split at hb
    · exact hg.2 k b hb
    · rw [List.getElem?_take] at hb
      split at hb
      · rw [List.getElem?_drop, show got.length + (k - got.length) = k by omega] at hb
        exact h.2 k b hb
      · cases hb

omit [DecidableEq Key] in
/-- Unpickling what has been read. -/
theorem unpickle_ok (S : SharedCall Key) (hempty : S.loads [] = .unloadable) (hd : ∀ p, S.Dumped p → Pickles S p)
    {got : Bytes} (hr : ¬ S.Refused) (hb : S.Builds) (hg : Torn S.full got) :
    S.unpickle got = .unlinking ∨ ∃ x, S.unpickle got = .finished x ∧ Good S x := by
  obtain ⟨r, progress, s, hbuild⟩ := hb
  cases hdump : r.dump S.P (some S.o.path) s.pos with
  | error err =>
    have hfull : S.full = [] := by
      unfold full
      rw [if_neg hr, hbuild]
      simp only [hdump]
    have : got = [] := by
      have := hg.1
      rw [hfull] at this
      exact List.eq_nil_of_length_eq_zero (by simpa using this)
    left
    unfold unpickle
    rw [this, hempty]
  | ok z =>
    obtain ⟨p, r'⟩ := z
    have hfull : S.full = S.dumps p := by
      unfold full
      rw [if_neg hr, hbuild]
      simp only [hdump]
    have hp : S.Dumped p := ⟨hr, r, progress, s, r', hbuild, hdump⟩
    rw [hfull] at hg
    unfold unpickle
    by_cases he : got = S.dumps p
    · rw [he, (hd p hp).loads]
      simp only
      cases hl : p.load ({ files := S.files, cache := fun _ => none } : World Key) with
      | error err => exact .inl rfl
      | ok r'' => exact .inr ⟨_, rfl, .loaded hr p hp r'' hl⟩
    · rw [(hd p hp).torn got hg he]
      exact .inl rfl

omit [DecidableEq Key] in
theorem step_ok (S : SharedCall Key) (hempty : S.loads [] = .unloadable) (hd : ∀ p, S.Dumped p → Pickles S p) (n : Nat)
    {fs : CacheFiles} (hfs : FilesOk S fs) {ph : CachePhase} (hph : PhaseOk S fs ph) :
    FilesOk S (S.step n fs ph).2 ∧ PhaseOk S (S.step n fs ph).2 (S.step n fs ph).1 ∧
      fs.contents.length ≤ (S.step n fs ph).2.contents.length := by
  cases ph with
  | start =>
    simp only [step]
    by_cases h1 : S.data.length < REEL_HEADER_NUM_BYTES
    · simp only [if_pos h1]
      exact ⟨hfs, .refused (.inl h1), le_refl _⟩
    simp only [if_neg h1]
    by_cases h2 : S.o.dimensionality ∉ [none, some 1, some 2, some 3]
    · simp only [if_pos h2]
      exact ⟨hfs, .refused (.inr h2), le_refl _⟩
    simp only [if_neg h2]
    have hr : ¬ S.Refused := by
      rintro (h | h)
      · exact h1 h
      · exact h2 h
    by_cases h3 : fs.entry.isSome
    · simp only [if_pos h3]
      exact ⟨hfs, ⟨hr, hfs.builds h3⟩, le_refl _⟩
    · simp only [if_neg h3]
      exact ⟨hfs, hr, le_refl _⟩
  | openRead =>
    simp only [step]
    cases he : fs.entry with
    | none => exact ⟨hfs, .raced hph.1 hph.2, le_refl _⟩
    | some i => exact ⟨hfs, ⟨hph.1, hph.2, torn_nil _⟩, le_refl _⟩
  | reading i got =>
    obtain ⟨hr, hb, hg⟩ := hph
    by_cases h : ((fs.content i).drop got.length).take (n + 1) = []
    · have : S.step n fs (.reading i got) = (S.unpickle got, fs) := by simp only [step, if_pos h]
      rw [this]
      rcases S.unpickle_ok hempty hd hr hb hg with h1 | ⟨x, h1, hx⟩
      · rw [h1]
        exact ⟨hfs, ⟨hr, hb⟩, le_refl _⟩
      · rw [h1]
        exact ⟨hfs, hx, le_refl _⟩
    · have : S.step n fs (.reading i got) =
          (.reading i (got ++ ((fs.content i).drop got.length).take (n + 1)), fs) := by simp only [step, if_neg h]
      rw [this]
      exact ⟨hfs, ⟨hr, hb, torn_read (hfs.torn i) hg h⟩, le_refl _⟩
  | unlinking => exact ⟨⟨fun i hi => (by cases hi), hfs.torn, fun h => (by cases h)⟩, hph.1, le_refl _⟩
  | building =>
    obtain ⟨g1, g2, g3, g4, g5, g6, _⟩ := CacheFiles.create_spec hfs.ok
    have hfst := S.finBuild_fst fs
    unfold finBuild at hfst
    simp only [step]
    cases hbuild : S.build with
    | mk x s =>
      rw [hbuild] at hfst
      cases x with
      | error err =>
        simp only at hfst ⊢
        refine ⟨hfs, ?_, le_refl _⟩
        show Good S _
        rw [hfst]
        exact .built hph
      | ok y =>
        obtain ⟨r, progress⟩ := y
        have hB : S.Builds := ⟨r, progress, s, hbuild⟩
        have hfs' : FilesOk S fs.create.2 := by
          refine ⟨g1, fun j => ?_, fun _ => hB⟩
          by_cases hj : j = fs.create.1
          · rw [hj, g4]; exact torn_nil _
          · rw [g6 j hj]; exact hfs.torn j
        simp only at hfst ⊢
        cases hdump : r.dump S.P (some S.o.path) s.pos with
        | error err =>
          rw [hdump] at hfst
          simp only at hfst ⊢
          by_cases h : err = .attributeError ∨ err = .typeError ∨ err = .osError
          · rw [if_pos h] at hfst ⊢
            refine ⟨hfs', ?_, g5⟩
            show Good S _
            rw [show (Except.ok ⟨r, some S.o.path, progress ++ [1]⟩ : Res OpenResult) = S.built from hfst]
            exact .built hph
          · rw [if_neg h] at hfst ⊢
            refine ⟨hfs', ?_, g5⟩
            show Good S _
            rw [show (Except.error err : Res OpenResult) = S.built from hfst]
            exact .built hph
        | ok z =>
          obtain ⟨p, r'⟩ := z
          rw [hdump] at hfst
          refine ⟨hfs', ⟨hph, hB, g3, ?_, by simp, hfst⟩, g5⟩
          unfold full
          rw [if_neg hph, hbuild]
          simp only [hdump]
  | writing i pos bytes result =>
    obtain ⟨hr, hb, hi, hbytes, hpos, hres⟩ := hph
    by_cases h : (bytes.drop pos).take (n + 1) = []
    · have : S.step n fs (.writing i pos bytes result) = (.finished (.ok result), fs) := by simp only [step, if_pos h]
      rw [this]
      refine ⟨hfs, ?_, le_refl _⟩
      show Good S _
      rw [hres]
      exact .built hr
    · have : S.step n fs (.writing i pos bytes result) =
          (.writing i (pos + ((bytes.drop pos).take (n + 1)).length) bytes result,
            fs.write i pos ((bytes.drop pos).take (n + 1))) := by simp only [step, if_neg h]
      rw [this]
      have hlen : (fs.write i pos ((bytes.drop pos).take (n + 1))).contents.length = fs.contents.length := by
        simp [CacheFiles.write]
      refine ⟨⟨?_, ?_, hfs.builds⟩, ⟨hr, hb, by rw [hlen]; exact hi, hbytes, ?_, hres⟩, by rw [hlen]⟩
      · intro j hj
        rw [hlen]
        exact hfs.ok j hj
      · intro j
        rw [CacheFiles.content_write]
        split
        · rw [hbytes] at h ⊢
          exact torn_write (hfs.torn i) h
        · exact hfs.torn j
      · rw [List.length_take, List.length_drop]
        omega
  | finished x => exact ⟨hfs, hph, le_refl _⟩
  | killed => exact ⟨hfs, trivial, le_refl _⟩

omit [DecidableEq Key] in
theorem phaseOk_mono (S : SharedCall Key) {fs fs' : CacheFiles} (h : fs.contents.length ≤ fs'.contents.length)
    {ph : CachePhase} (hph : PhaseOk S fs ph) : PhaseOk S fs' ph := by
  cases ph <;> first | exact hph | skip
  obtain ⟨h1, h2, h3, h4⟩ := hph
  exact ⟨h1, h2, by omega, h4⟩

/-- What holds of every state that a schedule leads to. -/
structure SystemOk (S : SharedCall Key) (c : CacheSystem) : Prop where
  files : FilesOk S c.files
  processes : ∀ (p : Nat) (ph : CachePhase), c.processes[p]? = some ph → PhaseOk S c.files ph

omit [DecidableEq Key] in
theorem systemOk_initial (S : SharedCall Key) (n : Nat) : SystemOk S (.initial n) := by
  refine ⟨⟨fun i hi => (by cases hi), fun j => ?_, fun h => (by cases h)⟩, fun p ph h => ?_⟩
  · show Torn _ (CacheFiles.content ⟨none, []⟩ j)
    simp only [CacheFiles.content, List.getElem?_nil, Option.getD_none]
    exact torn_nil _
  · simp only [CacheSystem.initial, List.getElem?_replicate] at h
    split at h
    · injection h with h
      rw [← h]
      trivial
    · cases h

theorem getElem?_set_cases {α : Type} {l : List α} {p q : Nat} {a b : α} (h : (l.set p a)[q]? = some b) :
    (q = p ∧ b = a ∧ p < l.length) ∨ (q ≠ p ∧ l[q]? = some b) := by
  by_cases hq : q = p
  · left
    subst hq
    have hl : q < l.length := by
      have := (List.getElem?_eq_some_iff.1 h).1
      simpa using this
    rw [List.getElem?_set_self hl] at h
    injection h with h
    exact ⟨rfl, h.symm, hl⟩
  · right
    rw [List.getElem?_set_ne (fun he => hq he.symm)] at h
    exact ⟨hq, h⟩

omit [DecidableEq Key] in
theorem systemOk_step (S : SharedCall Key) (hempty : S.loads [] = .unloadable) (hd : ∀ p, S.Dumped p → Pickles S p)
    {c : CacheSystem} (h : SystemOk S c) (ev : CacheEvent) : SystemOk S (c.step S ev) := by
  cases ev with
  | step p n =>
    simp only [CacheSystem.step]
    cases hp : c.processes[p]? with
    | none => exact h
    | some ph =>
      obtain ⟨h1, h2, h3⟩ := S.step_ok hempty hd n h.files (h.processes p ph hp)
      refine ⟨h1, fun q ph' hq => ?_⟩
      rcases getElem?_set_cases hq with ⟨_, rfl, _⟩ | ⟨_, hq⟩
      · exact h2
      · exact S.phaseOk_mono h3 (h.processes q ph' hq)
  | kill p =>
    simp only [CacheSystem.step]
    cases hp : c.processes[p]? with
    | none => exact h
    | some ph =>
      have hk : SystemOk S { c with processes := c.processes.set p .killed } := by
        refine ⟨h.files, fun q ph' hq => ?_⟩
        rcases getElem?_set_cases hq with ⟨_, rfl, _⟩ | ⟨_, hq⟩
        · trivial
        · exact h.processes q ph' hq
      cases ph <;> first | exact hk | exact h

omit [DecidableEq Key] in
theorem systemOk_run (S : SharedCall Key) (hempty : S.loads [] = .unloadable) (hd : ∀ p, S.Dumped p → Pickles S p)
    (es : List CacheEvent) {c : CacheSystem} (h : SystemOk S c) : SystemOk S (c.run S es) := by
  unfold CacheSystem.run
  induction es generalizing c with
  | nil => exact h
  | cons ev es ih => exact ih (S.systemOk_step hempty hd h ev)

/-! ## What one process leaves -/

theorem run_none (S : SharedCall Key) {d : List String} (hu : UsesCache S d) (hr : ¬ S.Refused) :
    let w : World Key := { files := S.files, cache := fun _ => none }
    S.o.run S.P w =
      match S.build with
      | (.error err, _) => ((.error err, w) : Res OpenResult × World Key)
      | (.ok (r, progress), s) =>
        match saveReaderToCache S.P {} r (some S.o.path) s.pos (d, S.P.sha1 (S.o.fed S.P S.data)) w with
        | (.error err, w) => (.error err, w)
        | (.ok r, w) => (.ok ⟨r, some S.o.path, progress ++ [1]⟩, w) := by
  intro w
  have hdis : S.o.dir ≠ .disabled := by
    intro h
    have := hu.directory
    rw [h] at this
    cases this
  unfold OpenCall.run
  rw [show w.files S.o.path = some S.data from hu.data]
  simp only
  unfold createReaderCached
  obtain ⟨h1, h2⟩ := not_or.1 hr
  simp only [if_neg h1, if_neg h2, if_neg hdis]
  rw [hashForFile_eq]
  simp only [hu.directory, hu.faults]
  unfold loadReaderFromCache
  rfl

theorem run_refused (S : SharedCall Key) {d : List String} (hu : UsesCache S d) (hr : S.Refused) :
    S.o.run S.P { files := S.files, cache := fun _ => none } =
      (.error .valueError, ({ files := S.files, cache := fun _ => none } : World Key)) := by
  unfold OpenCall.run
  rw [show ({ files := S.files, cache := fun _ => none } : World Key).files S.o.path = some S.data from hu.data]
  simp only
  unfold createReaderCached
  by_cases h1 : S.data.length < REEL_HEADER_NUM_BYTES
  · simp only [if_pos h1]
  · simp only [if_neg h1, if_pos (hr.resolve_left h1)]

/-- What a process that makes the reader returns is what one process alone returns. -/
theorem run_built (S : SharedCall Key) {d : List String} (hu : UsesCache S d) (hr : ¬ S.Refused) :
    (S.o.run S.P { files := S.files, cache := fun _ => none }).1 = S.built := by
  rw [S.run_none hu hr]
  unfold built finBuild
  cases S.build with
  | mk x s =>
    cases x with
    | error err => rfl
    | ok y =>
      obtain ⟨r, progress⟩ := y
      simp only
      unfold saveReaderToCache
      rw [if_neg (by simp), if_neg (by simp)]
      cases r.dump S.P (some S.o.path) s.pos with
      | error err =>
        by_cases h : err = .attributeError ∨ err = .typeError ∨ err = .osError
        · simp only [if_pos h]
        · simp only [if_neg h]
      | ok z =>
        have hf : ¬ (({} : Faults).write = true) := by simp
        simp only [if_neg hf]

theorem leaves_iff (S : SharedCall Key) {d : List String} (hu : UsesCache S d) (p : Pickle) :
    Leaves S p ↔ S.Dumped p := by
  unfold Leaves Dumped
  by_cases hr : S.Refused
  · rw [S.run_refused hu hr]
    constructor
    · rintro ⟨c, h⟩
      cases h
    · rintro ⟨h, _⟩
      exact absurd hr h
  rw [S.run_none hu hr]
  cases hb : S.build with
  | mk x s =>
    cases x with
    | error err =>
      constructor
      · rintro ⟨c, h⟩
        cases h
      · rintro ⟨_, r, progress, s', r', h, _⟩
        cases h
    | ok y =>
      obtain ⟨r, progress⟩ := y
      simp only
      unfold saveReaderToCache
      rw [if_neg (by simp), if_neg (by simp)]
      cases hdump : r.dump S.P (some S.o.path) s.pos with
      | error err =>
        constructor
        · rintro ⟨c, h⟩
          exfalso
          have hc : ∀ (k : List String × Key), (({ files := S.files, cache := fun _ => none } : World Key).setCache k
              (some .unloadable)).cache c = some (.reader p) → False := by
            intro k hk
            unfold World.setCache at hk
            simp only at hk
            split at hk <;> cases hk
          by_cases h' : err = .attributeError ∨ err = .typeError ∨ err = .osError
          · simp only [if_pos h'] at h
            exact hc _ h
          · simp only [if_neg h'] at h
            exact hc _ h
        · rintro ⟨_, r1, progress1, s1, r', h, h'⟩
          cases h
          rw [hdump] at h'
          cases h'
      | ok z =>
        obtain ⟨p', r'⟩ := z
        have hf : ¬ (({} : Faults).write = true) := by simp
        simp only [if_neg hf]
        constructor
        · rintro ⟨c, h⟩
          unfold World.setCache at h
          simp only at h
          split at h
          · injection h with h
            injection h with h
            subst h
            exact ⟨hr, r, progress, s, r', rfl, hdump⟩
          · cases h
        · rintro ⟨_, r1, progress1, s1, r2, h, h'⟩
          cases h
          rw [hdump] at h'
          cases h'
          refine ⟨(d, S.P.sha1 (S.o.fed S.P S.data)), ?_⟩
          unfold World.setCache
          simp

omit [DecidableEq Key] in
/-- A loaded reader gives the same answers. -/
theorem loaded_same (S : SharedCall Key) {d : List String} (hu : UsesCache S d) (L : Level) (hB : S.o.B = [L])
    (hstart : S.o.B.AfterStart) (horder : S.o.B.OrderSafe) {p : Pickle} (hp : S.Dumped p) :
    ∃ y r, S.built = .ok y ∧ p.file_name = S.o.path ∧
      p.load ({ files := S.files, cache := fun _ => none } : World Key) = .ok r ∧ Same y.reader r := by
  obtain ⟨hr, r, progress, s, r', hb, hdump⟩ := hp
  obtain ⟨g1, g2, g3⟩ := dump_same hdump
  obtain ⟨h1, h2⟩ := not_or.1 hr
  have hc := (createReader_of_makeReader (encoding := S.o.encoding) (B := S.o.B) (T := S.o.T) (e := S.o.e)
    (s := { data := S.data, pos := 0 }) h1 (not_not.1 h2)).2 r progress s hb
  obtain ⟨hbf, hbv⟩ := createReader_binary hstart horder hc
  have hbf' : p.reader.binary_reel_header.format = [L] := by
    rw [g1, ← hB, ← hbf]
    exact g3.binary_format
  have hbv' : p.reader.binary_reel_header.Valid := by
    rw [g1]
    intro f hf
    rw [g3.binary_format] at hf
    rw [g3.binary]
    exact hbv f hf
  have hbuilt : S.built = .ok ⟨r', some S.o.path, progress ++ [1]⟩ := by
    unfold built finBuild
    rw [hb]
    simp only [hdump]
  rcases Pickle.load_same p ({ files := S.files, cache := fun _ => none } : World Key) L hbf' hbv' with ⟨hnone, _⟩ | ⟨r'', hl, hs⟩
  · exfalso
    rw [g2] at hnone
    have := hu.data
    rw [show S.files S.o.path = none from hnone] at this
    cases this
  · refine ⟨_, r'', hbuilt, g2, hl, ?_⟩
    rw [← g1]
    exact hs

/-! ## Every process comes to an end -/

/-- How many operations a process has before it at most. -/
def work (F : Nat) : CachePhase → Nat
  | .start => 2 * F + 6
  | .openRead => 2 * F + 5
  | .reading _ got => (F - got.length) + F + 4
  | .unlinking => F + 3
  | .building => F + 2
  | .writing _ pos _ _ => (F - pos) + 1
  | .finished _ => 0
  | .killed => 0

omit [DecidableEq Key] in
theorem work_step (S : SharedCall Key) (n : Nat) {fs : CacheFiles} (hfs : FilesOk S fs) {ph : CachePhase}
    (hph : PhaseOk S fs ph) (hk : ph ≠ .killed) :
    work S.full.length (S.step n fs ph).1 ≤ work S.full.length ph - 1 ∧ (S.step n fs ph).1 ≠ .killed := by
  cases ph with
  | start =>
    simp only [step]
    by_cases h1 : S.data.length < REEL_HEADER_NUM_BYTES
    · simp only [if_pos h1]
      exact ⟨by simp only [work]; omega, by simp⟩
    simp only [if_neg h1]
    by_cases h2 : S.o.dimensionality ∉ [none, some 1, some 2, some 3]
    · simp only [if_pos h2]
      exact ⟨by simp only [work]; omega, by simp⟩
    simp only [if_neg h2]
    by_cases h3 : fs.entry.isSome
    · simp only [if_pos h3]
      exact ⟨by simp only [work]; omega, by simp⟩
    · simp only [if_neg h3]
      exact ⟨by simp only [work]; omega, by simp⟩
  | openRead =>
    simp only [step]
    cases he : fs.entry with
    | none => exact ⟨by simp only [work]; omega, by simp⟩
    | some i => exact ⟨by simp only [work, List.length_nil]; omega, by simp⟩
  | reading i got =>
    by_cases h : ((fs.content i).drop got.length).take (n + 1) = []
    · have : S.step n fs (.reading i got) = (S.unpickle got, fs) := by simp only [step, if_pos h]
      rw [this]
      rcases S.unpickle_cases got with h1 | ⟨x, h1⟩ <;> rw [h1]
      · exact ⟨by simp only [work]; omega, by simp⟩
      · exact ⟨by simp only [work]; omega, by simp⟩
    · have : S.step n fs (.reading i got) =
          (.reading i (got ++ ((fs.content i).drop got.length).take (n + 1)), fs) := by simp only [step, if_neg h]
      rw [this]
      refine ⟨?_, by simp⟩
      have hl := (torn_read (hfs.torn i) hph.2.2 h).1
      have hpos := List.length_pos_of_ne_nil h
      simp only [work]
      rw [List.length_append] at hl ⊢
      omega
  | unlinking => exact ⟨by simp only [step, work]; omega, by simp [step]⟩
  | building =>
    simp only [step]
    cases hbuild : S.build with
    | mk x s =>
      cases x with
      | error err => exact ⟨by simp only [work]; omega, by simp⟩
      | ok y =>
        obtain ⟨r, progress⟩ := y
        simp only
        cases hdump : r.dump S.P (some S.o.path) s.pos with
        | error err =>
          simp only
          by_cases h : err = .attributeError ∨ err = .typeError ∨ err = .osError
          · simp only [if_pos h]
            exact ⟨by simp only [work]; omega, by simp⟩
          · simp only [if_neg h]
            exact ⟨by simp only [work]; omega, by simp⟩
        | ok z => exact ⟨by simp only [work]; omega, by simp⟩
  | writing i pos bytes result =>
    obtain ⟨_, _, _, hbytes, hpos, _⟩ := hph
    by_cases h : (bytes.drop pos).take (n + 1) = []
    · have : S.step n fs (.writing i pos bytes result) = (.finished (.ok result), fs) := by simp only [step, if_pos h]
      rw [this]
      exact ⟨by simp only [work]; omega, by simp⟩
    · have : S.step n fs (.writing i pos bytes result) =
          (.writing i (pos + ((bytes.drop pos).take (n + 1)).length) bytes result,
            fs.write i pos ((bytes.drop pos).take (n + 1))) := by simp only [step, if_neg h]
      rw [this]
      refine ⟨?_, by simp⟩
      have h1 := List.length_pos_of_ne_nil h
      have h2 : ((bytes.drop pos).take (n + 1)).length ≤ bytes.length - pos := by
        rw [List.length_take, List.length_drop]
        omega
      rw [hbytes] at hpos h1 h2
      rw [hbytes]
      simp only [work]
      omega
  | finished x => exact ⟨by simp [step, work], by simp [step]⟩
  | killed => exact absurd rfl hk

omit [DecidableEq Key] in
theorem work_run (S : SharedCall Key) (hempty : S.loads [] = .unloadable) (hd : ∀ p, S.Dumped p → Pickles S p)
    (q : Nat) (es : List CacheEvent) (hes : .kill q ∉ es) {c : CacheSystem} (h : SystemOk S c) {ph : CachePhase}
    (hq : c.processes[q]? = some ph) (hk : ph ≠ .killed) :
    ∃ ph', (c.run S es).processes[q]? = some ph' ∧ ph' ≠ .killed ∧
      work S.full.length ph' ≤ work S.full.length ph - turns q es := by
  induction es generalizing c ph with
  | nil => exact ⟨ph, hq, hk, by simp [turns]⟩
  | cons ev es ih =>
    have hes' : .kill q ∉ es := fun hm => hes (List.mem_cons_of_mem _ hm)
    have h' := S.systemOk_step hempty hd h ev
    have key : ∀ ph1, (c.step S ev).processes[q]? = some ph1 → ph1 ≠ .killed →
        work S.full.length ph1 ≤ work S.full.length ph - (turns q (ev :: es) - turns q es) →
        turns q es ≤ turns q (ev :: es) →
        ∃ ph', (c.run S (ev :: es)).processes[q]? = some ph' ∧ ph' ≠ .killed ∧
          work S.full.length ph' ≤ work S.full.length ph - turns q (ev :: es) := by
      intro ph1 h1 h2 h3 h4
      obtain ⟨ph', g1, g2, g3⟩ := ih hes' h' h1 h2
      exact ⟨ph', g1, g2, by omega⟩
    cases ev with
    | step p n =>
      by_cases hpq : p = q
      · subst hpq
        have ht : turns p (.step p n :: es) = turns p es + 1 := by simp [turns]
        obtain ⟨w1, w2⟩ := S.work_step n h.files (h.processes p ph hq) hk
        have hl : p < c.processes.length := (List.getElem?_eq_some_iff.1 hq).1
        refine key (S.step n c.files ph).1 ?_ w2 (by rw [ht]; omega) (by omega)
        simp only [CacheSystem.step, hq]
        rw [List.getElem?_set_self hl]
      · have ht : turns q (.step p n :: es) = turns q es := by simp [turns, hpq]
        refine key ph ?_ hk (by rw [ht]; omega) (by omega)
        simp only [CacheSystem.step]
        cases c.processes[p]? with
        | none => exact hq
        | some ph1 =>
          simp only
          rw [List.getElem?_set_ne hpq]
          exact hq
    | kill p =>
      have hpq : p ≠ q := by
        rintro rfl
        exact hes (List.mem_cons_self ..)
      have ht : turns q (.kill p :: es) = turns q es := by simp [turns]
      refine key ph ?_ hk (by rw [ht]; omega) (by omega)
      simp only [CacheSystem.step]
      cases c.processes[p]? with
      | none => exact hq
      | some ph1 =>
        cases ph1 <;> first | exact hq | (simp only; rw [List.getElem?_set_ne hpq]; exact hq)

/-! ## What is left in the end -/

/-- Every byte of every file is right, or a process has still to write it; and there is a cache file, or a process will
make one. -/
structure Converges (S : SharedCall Key) (c : CacheSystem) : Prop where
  bytes : ∀ j k, j < c.files.contents.length → k < S.full.length → (c.files.content j)[k]? = S.full[k]? ∨
    ∃ (q : Nat) (pos : Nat) (bytes : Bytes) (result : OpenResult),
      c.processes[q]? = some (.writing j pos bytes result) ∧ pos ≤ k
  entry : c.files.entry = none → (∀ (q : Nat) (ph : CachePhase), c.processes[q]? = some ph → ph = .start) ∨
    ∃ q : Nat, c.processes[q]? = some .building

omit [DecidableEq Key] in
theorem converges_initial (S : SharedCall Key) (n : Nat) : Converges S (.initial n) := by
  refine ⟨fun j k hj => (by cases hj), fun _ => .inl fun q ph h => ?_⟩
  simp only [CacheSystem.initial, List.getElem?_replicate] at h
  split at h
  · injection h with h
    exact h.symm
  · cases h

omit [DecidableEq Key] in
/-- An operation that leaves the files alone, of a process that is not writing and not `building`. -/
theorem converges_same (S : SharedCall Key) {c : CacheSystem} (h : Converges S c) {p : Nat} {ph ph' : CachePhase}
    (hp : c.processes[p]? = some ph) (hw : ∀ i pos bytes result, ph ≠ .writing i pos bytes result)
    (hb : ph ≠ .building) (hs : c.files.entry = none → ph = .start → ph' = .building) :
    Converges S ⟨c.files, c.processes.set p ph'⟩ := by
  have hl : p < c.processes.length := (List.getElem?_eq_some_iff.1 hp).1
  refine ⟨fun j k hj hk => ?_, fun hn => ?_⟩
  · rcases h.bytes j k hj hk with h1 | ⟨q, pos, bytes, result, h1, h2⟩
    · exact .inl h1
    · refine .inr ⟨q, pos, bytes, result, ?_, h2⟩
      have : p ≠ q := by
        rintro rfl
        rw [hp] at h1
        injection h1 with h1
        exact hw _ _ _ _ h1
      simp only
      rw [List.getElem?_set_ne this]
      exact h1
  · right
    rcases h.entry hn with h1 | ⟨q, h1⟩
    · refine ⟨p, ?_⟩
      simp only
      rw [List.getElem?_set_self hl, hs hn (h1 p ph hp)]
    · refine ⟨q, ?_⟩
      have : p ≠ q := by
        rintro rfl
        rw [hp] at h1
        injection h1 with h1
        exact hb h1
      simp only
      rw [List.getElem?_set_ne this]
      exact h1

omit [DecidableEq Key] in
theorem converges_step (S : SharedCall Key) {pickle : Pickle} (hp : S.Dumped pickle) {c : CacheSystem} (hok : SystemOk S c) (h : Converges S c) (p n : Nat) :
    Converges S (c.step S (.step p n)) := by
  simp only [CacheSystem.step]
  cases hph : c.processes[p]? with
  | none => exact h
  | some ph =>
    have hl : p < c.processes.length := (List.getElem?_eq_some_iff.1 hph).1
    simp only
    obtain ⟨hr, r, progress, s, r', hb, hdump⟩ := hp
    obtain ⟨h1, h2⟩ := not_or.1 hr
    cases ph with
    | start =>
      simp only [step, if_neg h1, if_neg h2]
      by_cases h3 : c.files.entry.isSome
      · simp only [if_pos h3]
        exact S.converges_same h hph (by simp) (by simp) (fun he => by rw [he] at h3; cases h3)
      · simp only [if_neg h3]
        exact S.converges_same h hph (by simp) (by simp) (fun _ _ => rfl)
    | openRead =>
      simp only [step]
      cases he : c.files.entry with
      | none => exact S.converges_same h hph (by simp) (by simp) (fun _ h => by cases h)
      | some i => exact S.converges_same h hph (by simp) (by simp) (fun _ h => by cases h)
    | reading i got =>
      by_cases hb : ((c.files.content i).drop got.length).take (n + 1) = []
      · have : S.step n c.files (.reading i got) = (S.unpickle got, c.files) := by simp only [step, if_pos hb]
        rw [this]
        exact S.converges_same h hph (by simp) (by simp) (fun _ h => by cases h)
      · have : S.step n c.files (.reading i got) =
            (.reading i (got ++ ((c.files.content i).drop got.length).take (n + 1)), c.files) := by
          simp only [step, if_neg hb]
        rw [this]
        exact S.converges_same h hph (by simp) (by simp) (fun _ h => by cases h)
    | unlinking =>
      have hc := S.converges_same (ph' := .building) h hph (by simp) (by simp) (fun _ h => by cases h)
      simp only [step]
      refine ⟨hc.bytes, fun _ => .inr ⟨p, ?_⟩⟩
      simp only
      rw [List.getElem?_set_self hl]
    | building =>
      obtain ⟨g1, g2, g3, g4, g5, g6, g7⟩ := CacheFiles.create_spec hok.files.ok
      simp only [step, hb, hdump]
      refine ⟨fun j k hj hk => ?_, fun hn => ?_⟩
      · simp only at hj ⊢
        by_cases hjc : j = c.files.create.1
        · refine .inr ⟨p, 0, S.dumps pickle, ⟨r', some S.o.path, progress ++ [1]⟩, ?_, Nat.zero_le _⟩
          rw [List.getElem?_set_self hl, hjc]
        · rcases g7 j hj with hj' | hj'
          · rw [g6 j hjc]
            rcases h.bytes j k hj' hk with h3 | ⟨q, pos, bytes, result, h3, h4⟩
            · exact .inl h3
            · refine .inr ⟨q, pos, bytes, result, ?_, h4⟩
              have : p ≠ q := by
                rintro rfl
                rw [hph] at h3
                cases h3
              rw [List.getElem?_set_ne this]
              exact h3
          · exact absurd hj' hjc
      · simp only at hn
        rw [g2] at hn
        cases hn
    | writing i pos bytes result =>
      obtain ⟨_, _, hi, hbytes, hpos, _⟩ := hok.processes p _ hph
      have hother : ∀ {j k : Nat} {ph' : CachePhase} (m : Nat), k < m → (∃ (q pos' : Nat) (bytes : Bytes)
          (result : OpenResult), c.processes[q]? = some (.writing j pos' bytes result) ∧ pos' ≤ k) →
          (j = i → pos ≤ k → False) →
          ∃ (q pos' : Nat) (bytes : Bytes) (result : OpenResult),
            (c.processes.set p ph')[q]? = some (.writing j pos' bytes result) ∧ pos' ≤ k := by
        rintro j k ph' m _ ⟨q, pos', bytes', result', h3, h4⟩ hne
        refine ⟨q, pos', bytes', result', ?_, h4⟩
        have : p ≠ q := by
          rintro rfl
          rw [hph] at h3
          injection h3 with h3
          injection h3 with e1 e2
          exact hne e1.symm (by omega)
        rw [List.getElem?_set_ne this]
        exact h3
      have hentry : ∀ (fs' : CacheFiles) (ph' : CachePhase), fs'.entry = c.files.entry → fs'.entry = none →
          (∀ (q : Nat) (ph : CachePhase), (c.processes.set p ph')[q]? = some ph → ph = .start) ∨
            ∃ q : Nat, (c.processes.set p ph')[q]? = some .building := by
        intro fs' ph' he hn
        right
        rcases h.entry (he ▸ hn) with h3 | ⟨q, h3⟩
        · have := h3 p _ hph
          cases this
        · refine ⟨q, ?_⟩
          have : p ≠ q := by
            rintro rfl
            rw [hph] at h3
            cases h3
          rw [List.getElem?_set_ne this]
          exact h3
      by_cases hblk : (bytes.drop pos).take (n + 1) = []
      · have : S.step n c.files (.writing i pos bytes result) = (.finished (.ok result), c.files) := by
          simp only [step, if_pos hblk]
        rw [this]
        have hend : bytes.length ≤ pos := by
          have := take_drop_nil hblk
          rwa [List.drop_eq_nil_iff] at this
        refine ⟨fun j k hj hk => ?_, fun hn => hentry _ _ rfl hn⟩
        rcases h.bytes j k hj hk with h3 | h3
        · exact .inl h3
        · refine .inr (hother _ hk h3 fun _ hle => ?_)
          rw [hbytes] at hend
          omega
      · have : S.step n c.files (.writing i pos bytes result) =
            (.writing i (pos + ((bytes.drop pos).take (n + 1)).length) bytes result,
              c.files.write i pos ((bytes.drop pos).take (n + 1))) := by simp only [step, if_neg hblk]
        rw [this]
        refine ⟨fun j k hj hk => ?_, fun hn => hentry (c.files.write i pos ((bytes.drop pos).take (n + 1))) _ rfl hn⟩
        have hj' : j < c.files.contents.length := by simpa [CacheFiles.write] using hj
        simp only
        rw [CacheFiles.content_write]
        by_cases hji : j = i
        · rw [if_pos ⟨hji, hi⟩, overwrite_getElem? _ _ _ _ hblk]
          subst hji
          by_cases hkp : k < pos
          · rw [if_pos hkp]
            rcases h.bytes j k hj' hk with h3 | h3
            · left
              rw [List.getElem?_eq_getElem hk] at h3 ⊢
              have hlt : k < (c.files.content j).length := (List.getElem?_eq_some_iff.1 h3).1
              rw [if_pos hlt]
              exact h3
            · exact .inr (hother _ hk h3 fun _ hle => by omega)
          · rw [if_neg hkp]
            by_cases hkb : k < pos + ((bytes.drop pos).take (n + 1)).length
            · left
              rw [if_pos hkb, List.getElem?_take, if_pos (by rw [List.length_take] at hkb; omega), List.getElem?_drop,
                show pos + (k - pos) = k by omega, hbytes]
            · right
              refine ⟨p, _, bytes, result, ?_, Nat.le_of_not_lt hkb⟩
              rw [List.getElem?_set_self hl]
        · rw [if_neg (fun he => hji he.1)]
          rcases h.bytes j k hj' hk with h3 | h3
          · exact .inl h3
          · exact .inr (hother _ hk h3 fun he _ => hji he)
    | finished x => exact S.converges_same h hph (by simp) (by simp) (fun _ h => by cases h)
    | killed => exact S.converges_same h hph (by simp) (by simp) (fun _ h => by cases h)

omit [DecidableEq Key] in
theorem converges_run (S : SharedCall Key) (hempty : S.loads [] = .unloadable) (hd : ∀ p, S.Dumped p → Pickles S p)
    {pickle : Pickle} (hp : S.Dumped pickle) (es : List CacheEvent) (hes : ∀ q, .kill q ∉ es) {c : CacheSystem}
    (hok : SystemOk S c) (h : Converges S c) : Converges S (c.run S es) := by
  induction es generalizing c with
  | nil => exact h
  | cons ev es ih =>
    have hes' : ∀ q, .kill q ∉ es := fun q hm => hes q (List.mem_cons_of_mem _ hm)
    cases ev with
    | kill q => exact absurd (List.mem_cons_self ..) (hes q)
    | step p n => exact ih hes' (S.systemOk_step hempty hd hok _) (S.converges_step hp hok h p n)

omit [DecidableEq Key] in
theorem full_dumped (S : SharedCall Key) {p : Pickle} (hp : S.Dumped p) : S.full = S.dumps p := by
  obtain ⟨hr, r, progress, s, r', hb, hdump⟩ := hp
  unfold full
  rw [if_neg hr, hb]
  simp only [hdump]

omit [DecidableEq Key] in
theorem full_nil (S : SharedCall Key) (h : ¬ ∃ p, S.Dumped p) : S.full = [] := by
  unfold full
  by_cases hr : S.Refused
  · rw [if_pos hr]
  · rw [if_neg hr]
    cases hb : S.build with
    | mk x s =>
      cases x with
      | error err => rfl
      | ok y =>
        obtain ⟨r, progress⟩ := y
        simp only
        cases hdump : r.dump S.P (some S.o.path) s.pos with
        | error err => rfl
        | ok z => exact absurd ⟨z.1, hr, r, progress, s, z.2, hb, hdump⟩ h

/-! ## A complete cache file -/

/-- What holds if there is a complete cache file from the beginning. -/
structure Warm (S : SharedCall Key) (full : Bytes) (x : Res OpenResult) (c : CacheSystem) : Prop where
  files : c.files = ⟨some 0, [full]⟩
  processes : ∀ (q : Nat) (ph : CachePhase), c.processes[q]? = some ph → ph = .start ∨ ph = .openRead ∨
    (∃ got, ph = .reading 0 got ∧ got = full.take got.length) ∨ ph = .finished x ∨ ph = .killed

omit [DecidableEq Key] in
theorem warm_step (S : SharedCall Key) (hr : ¬ S.Refused) {full : Bytes} {x : Res OpenResult}
    (hx : S.unpickle full = .finished x) {c : CacheSystem} (h : Warm S full x c) (ev : CacheEvent) :
    Warm S full x (c.step S ev) := by
  obtain ⟨h1, h2⟩ := not_or.1 hr
  cases ev with
  | step p n =>
    simp only [CacheSystem.step]
    cases hp : c.processes[p]? with
    | none => exact h
    | some ph =>
      have set : ∀ ph', (ph' = .start ∨ ph' = .openRead ∨ (∃ got, ph' = .reading 0 got ∧ got = full.take got.length) ∨
          ph' = .finished x ∨ ph' = .killed) → Warm S full x ⟨c.files, c.processes.set p ph'⟩ := by
        intro ph' hph'
        refine ⟨h.files, fun q ph1 hq => ?_⟩
        rcases getElem?_set_cases hq with ⟨_, rfl, _⟩ | ⟨_, hq⟩
        · exact hph'
        · exact h.processes q ph1 hq
      simp only
      rcases h.processes p ph hp with rfl | rfl | ⟨got, rfl, hg⟩ | rfl | rfl
      · simp only [step, if_neg h1, if_neg h2]
        rw [if_pos (by rw [h.files]; rfl)]
        exact set _ (.inr (.inl rfl))
      · have : S.step n c.files .openRead = (.reading 0 [], c.files) := by simp only [step, h.files]
        rw [this]
        exact set _ (.inr (.inr (.inl ⟨[], rfl, by simp⟩)))
      · have hc : c.files.content 0 = full := by rw [h.files]; rfl
        by_cases hb : ((c.files.content 0).drop got.length).take (n + 1) = []
        · have : S.step n c.files (.reading 0 got) = (S.unpickle got, c.files) := by simp only [step, if_pos hb]
          rw [this]
          have hgot : got = full := by
            have := take_drop_nil hb
            rw [hc, List.drop_eq_nil_iff] at this
            rw [hg, List.take_of_length_le this]
          rw [hgot, hx]
          exact set _ (.inr (.inr (.inr (.inl rfl))))
        · have : S.step n c.files (.reading 0 got) =
              (.reading 0 (got ++ ((c.files.content 0).drop got.length).take (n + 1)), c.files) := by
            simp only [step, if_neg hb]
          rw [this]
          refine set _ (.inr (.inr (.inl ⟨_, rfl, ?_⟩)))
          rw [hc]
          generalize n + 1 = m
          rw [List.length_append, List.take_add (i := got.length), ← hg]
          congr 1
          generalize full.drop got.length = l
          rw [List.length_take]
          rcases Nat.le_total m l.length with hm | hm
          · rw [Nat.min_eq_left hm]
          · rw [Nat.min_eq_right hm, List.take_of_length_le hm, List.take_length]
      · exact set _ (.inr (.inr (.inr (.inl rfl))))
      · exact set _ (.inr (.inr (.inr (.inr rfl))))
  | kill p =>
    simp only [CacheSystem.step]
    cases hp : c.processes[p]? with
    | none => exact h
    | some ph =>
      have hk : Warm S full x { c with processes := c.processes.set p .killed } := by
        refine ⟨h.files, fun q ph1 hq => ?_⟩
        rcases getElem?_set_cases hq with ⟨_, rfl, _⟩ | ⟨_, hq⟩
        · exact .inr (.inr (.inr (.inr rfl)))
        · exact h.processes q ph1 hq
      cases ph <;> first | exact hk | exact h

omit [DecidableEq Key] in
theorem warm_run (S : SharedCall Key) (hr : ¬ S.Refused) {full : Bytes} {x : Res OpenResult}
    (hx : S.unpickle full = .finished x) (es : List CacheEvent) {c : CacheSystem} (h : Warm S full x c) :
    Warm S full x (c.run S es) := by
  induction es generalizing c with
  | nil => exact h
  | cons ev es ih => exact ih (S.warm_step hr hx h ev)

end SharedCall

end Segpy
