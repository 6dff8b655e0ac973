import Verif.Lemmas.SharedCache
import Verif.Props.CacheLimits

/-! # Properties of processes that share a cache directory: C84

Several processes call `create_reader` with the same arguments for the same data file, so that they share a cache file.
`S` says what is called, and `S.dumps` and `S.loads` stand for pickling to and from bytes.  The assumptions about pickling
are that an empty file cannot be loaded, that the pickle of the reader can be loaded again, and that what is there while it
is being written cannot (`Pickles`). -/

namespace Segpy.Props

open Segpy.Spec

variable {Key : Type} [DecidableEq Key]

private theorem dumped_pickles {S : SharedCall Key} {d : List String} (hu : UsesCache S d)
    (hp : ∀ p, Leaves S p → Pickles S p) : ∀ p, S.Dumped p → Pickles S p :=
  fun p h => hp p ((S.leaves_iff hu p).2 h)

/-- A process that is not disturbed returns and leaves behind what `create_reader` as a whole does, whatever was in the
cache file and however many bytes are read and written at a time. -/
theorem C84_alone (S : SharedCall Key) (d : List String) (hu : UsesCache S d) (hempty : S.loads [] = .unloadable)
    (hp : ∀ p, Leaves S p → Pickles S p) (fs fs' : CacheFiles) (hfs : ∀ i, fs.entry = some i → i < fs.contents.length)
    (ns : List Nat) (x : Res OpenResult) (h : alone S (.start, fs) ns = (.finished x, fs')) :
    ∃ c, S.o.run S.P (worldOf S c fs) = (x, worldOf S c fs') := by
  refine ⟨(d, S.P.sha1 (S.o.fed S.P S.data)), ?_⟩
  have h1 := S.fin_start hu fs hfs hempty fun p hd => (dumped_pickles hu hp p hd).loads
  have h2 := S.fin_alone ns (.start) fs
  rw [h] at h2
  rw [← h1, ← h2]
  rfl

/-- Whatever the processes do in whatever order, and whichever of them are killed at whatever points: what a process gets
from `create_reader` is a reader of the data file that gives the same answers as the reader a single process gets, or the
exception that a single process gets.  The only other possibility is `FileNotFoundError`. -/
theorem C84_results_partial (S : SharedCall Key) (d : List String) (hu : UsesCache S d)
    (hempty : S.loads [] = .unloadable) (hp : ∀ p, Leaves S p → Pickles S p) (L : Level) (hB : S.o.B = [L])
    (hstart : S.o.B.AfterStart) (horder : S.o.B.OrderSafe) (n : Nat) (es : List CacheEvent) (q : Nat) (x : Res OpenResult)
    (hx : ((CacheSystem.initial n).run S es).processes[q]? = some (.finished x)) :
    x = .error .fileNotFoundError ∨
    match (generalizing := false) (S.o.run S.P { files := S.files, cache := fun _ => none }).1, x with
    | .ok y, .ok z => SameAnswers y.reader z.reader ∧ z.file = some S.o.path
    | .error err, .error err' => err' = err
    | _, _ => False := by
  have hd := dumped_pickles hu hp
  have hg : S.Good x := ((S.systemOk_run hempty hd es (S.systemOk_initial n)).processes q _ hx)
  have hfile : ∀ y, S.built = .ok y → y.file = some S.o.path := by
    intro y hy
    unfold SharedCall.built SharedCall.finBuild at hy
    split at hy
    · cases hy
    · split at hy
      · split at hy
        · cases hy; rfl
        · cases hy
      · cases hy; rfl
  cases hg with
  | refused h => right; rw [S.run_refused hu h]
  | built h =>
    right
    rw [S.run_built hu h]
    cases hb : S.built with
    | error err => rfl
    | ok y => exact ⟨sameAnswers_of_same (Same.refl _), hfile y hb⟩
  | loaded h p hp r hl =>
    right
    rw [S.run_built hu h]
    obtain ⟨y, r', h1, h2, h3, h4⟩ := S.loaded_same hu L hB hstart horder hp
    rw [hl] at h3
    cases h3
    rw [h1]
    exact ⟨sameAnswers_of_same h4, by rw [h2]⟩
  | raced h hb => exact .inl rfl

/-- That can happen whenever a single process leaves a reader in the cache.  One process has created the cache file and
not yet written to it; a second finds it empty, and a third sees that it exists; the second removes it, and the third
cannot open it. -/
theorem C84_race_fails (S : SharedCall Key) (d : List String) (hu : UsesCache S d) (hempty : S.loads [] = .unloadable)
    (p : Pickle) (hp : Leaves S p) :
    ((CacheSystem.initial 3).run S [.step 0 0, .step 0 0, .step 1 0, .step 1 0, .step 1 0, .step 2 0, .step 1 0,
      .step 2 0]).processes[2]? = some (.finished (.error .fileNotFoundError)) := by
  obtain ⟨hr, r, progress, s, r', hb, hdump⟩ := (S.leaves_iff hu p).1 hp
  obtain ⟨h1, h2⟩ := not_or.1 hr
  have e0 : S.step 0 ⟨none, []⟩ .start = (.building, ⟨none, []⟩) := by
    simp only [SharedCall.step, if_neg h1, if_neg h2]
    rfl
  have e1 : S.step 0 ⟨none, []⟩ .building =
      (.writing 0 0 (S.dumps p) ⟨r', some S.o.path, progress ++ [1]⟩, ⟨some 0, [[]]⟩) := by
    simp only [SharedCall.step, hb, hdump]
    rfl
  have e2 : S.step 0 ⟨some 0, [[]]⟩ .start = (.openRead, ⟨some 0, [[]]⟩) := by
    simp only [SharedCall.step, if_neg h1, if_neg h2]
    rfl
  have e3 : S.step 0 ⟨some 0, [[]]⟩ .openRead = (.reading 0 [], ⟨some 0, [[]]⟩) := rfl
  have e4 : S.step 0 ⟨some 0, [[]]⟩ (.reading 0 []) = (.unlinking, ⟨some 0, [[]]⟩) := by
    have : S.step 0 ⟨some 0, [[]]⟩ (.reading 0 []) = (S.unpickle [], ⟨some 0, [[]]⟩) := rfl
    rw [this]
    unfold SharedCall.unpickle
    rw [hempty]
  have e5 : S.step 0 ⟨some 0, [[]]⟩ .unlinking = (.building, ⟨none, [[]]⟩) := rfl
  have e6 : S.step 0 ⟨none, [[]]⟩ .openRead = (.finished (.error .fileNotFoundError), ⟨none, [[]]⟩) := rfl
  simp [CacheSystem.run, CacheSystem.initial, CacheSystem.step, List.replicate, e0, e1, e2, e3, e4, e5, e6]

/-- It cannot happen if there is a complete cache file from the beginning: then all processes get a reader from it, and
the cache file stays as it is. -/
theorem C84_complete_cache (S : SharedCall Key) (d : List String) (hu : UsesCache S d)
    (hp : ∀ p, Leaves S p → Pickles S p) (L : Level) (hB : S.o.B = [L]) (hstart : S.o.B.AfterStart)
    (horder : S.o.B.OrderSafe) (p : Pickle) (hl : Leaves S p) (n : Nat) (es : List CacheEvent) :
    let after := (CacheSystem.mk ⟨some 0, [S.dumps p]⟩ (List.replicate n .start)).run S es
    after.files = ⟨some 0, [S.dumps p]⟩ ∧
    ∀ (q : Nat) (x : Res OpenResult), after.processes[q]? = some (.finished x) → ∃ y z,
      (S.o.run S.P { files := S.files, cache := fun _ => none }).1 = .ok y ∧ x = .ok z ∧
      SameAnswers y.reader z.reader ∧ z.file = some S.o.path ∧ z.progress = [1] := by
  intro after
  have hd := (S.leaves_iff hu p).1 hl
  obtain ⟨y, r, h1, h2, h3, h4⟩ := S.loaded_same hu L hB hstart horder hd
  have hx : S.unpickle (S.dumps p) = .finished (.ok ⟨r, some p.file_name, [1]⟩) := by
    unfold SharedCall.unpickle
    rw [(hp p hl).loads]
    simp only [h3]
  have hw : S.Warm (S.dumps p) (.ok ⟨r, some p.file_name, [1]⟩) after := by
    refine S.warm_run hd.1 hx es ⟨rfl, fun q ph hq => .inl ?_⟩
    simp only [List.getElem?_replicate] at hq
    split at hq
    · injection hq with hq
      exact hq.symm
    · cases hq
  refine ⟨hw.files, fun q x hq => ?_⟩
  rcases hw.processes q _ hq with h | h | ⟨got, h, _⟩ | h | h
  · cases h
  · cases h
  · cases h
  · injection h with h
    exact ⟨y, _, by rw [S.run_built hu hd.1, h1], h, sameAnswers_of_same h4, by rw [h2], rfl⟩
  · cases h

/-- No process waits for another one: after so many operations of its own a process that is not killed has finished. -/
theorem C84_finishes (S : SharedCall Key) (d : List String) (hu : UsesCache S d) (hempty : S.loads [] = .unloadable)
    (hp : ∀ p, Leaves S p → Pickles S p) (F : Nat) (hF : ∀ p, Leaves S p → (S.dumps p).length ≤ F)
    (n : Nat) (es : List CacheEvent) (q : Nat) (hq : q < n) (hk : .kill q ∉ es) (ht : 2 * F + 6 ≤ turns q es) :
    ∃ x, ((CacheSystem.initial n).run S es).processes[q]? = some (.finished x) := by
  have hd := dumped_pickles hu hp
  have hfull : S.full.length ≤ F := by
    by_cases h : ∃ p, S.Dumped p
    · obtain ⟨p, hpd⟩ := h
      rw [S.full_dumped hpd]
      exact hF p ((S.leaves_iff hu p).2 hpd)
    · rw [S.full_nil h]
      exact Nat.zero_le _
  obtain ⟨ph, h1, h2, h3⟩ := S.work_run hempty hd q es hk (S.systemOk_initial n) (ph := .start)
    (by simp [CacheSystem.initial, hq]) (by simp)
  simp only [SharedCall.work] at h3
  cases ph with
  | finished x => exact ⟨x, h1⟩
  | killed => exact absurd rfl h2
  | _ => simp only at h3; omega

/-- If no process is killed, then in the end there is a complete cache file, the one that a single process leaves. -/
theorem C84_cache_left (S : SharedCall Key) (d : List String) (hu : UsesCache S d) (hempty : S.loads [] = .unloadable)
    (hp : ∀ p, Leaves S p → Pickles S p) (p : Pickle) (hl : Leaves S p) (n : Nat) (hn : 1 ≤ n) (es : List CacheEvent)
    (hk : ∀ q, .kill q ∉ es)
    (hx : ∀ q, q < n → ∃ x, ((CacheSystem.initial n).run S es).processes[q]? = some (.finished x)) :
    ∃ i, ((CacheSystem.initial n).run S es).files.entry = some i ∧
      ((CacheSystem.initial n).run S es).files.content i = S.dumps p := by
  have hd := dumped_pickles hu hp
  have hdp := (S.leaves_iff hu p).1 hl
  have hok := S.systemOk_run hempty hd es (S.systemOk_initial n)
  have hc := S.converges_run hempty hd hdp es hk (S.systemOk_initial n) (S.converges_initial n)
  have hlen : ∀ (es : List CacheEvent) (c : CacheSystem), (c.run S es).processes.length = c.processes.length := by
    intro es
    induction es with
    | nil => intro c; rfl
    | cons ev es ih =>
      intro c
      show ((c.step S ev).run S es).processes.length = _
      rw [ih]
      cases ev with
      | step p n =>
        simp only [CacheSystem.step]
        cases c.processes[p]? with
        | none => rfl
        | some ph => simp
      | kill p =>
        simp only [CacheSystem.step]
        cases c.processes[p]? with
        | none => rfl
        | some ph => cases ph <;> simp
  have hl' := hlen es (.initial n)
  generalize (CacheSystem.initial n).run S es = c at *
  have hfin : ∀ (q : Nat) (ph : CachePhase), c.processes[q]? = some ph → ∃ x, ph = .finished x := by
    intro q ph hq
    have hlt := (List.getElem?_eq_some_iff.1 hq).1
    rw [hl'] at hlt
    obtain ⟨x, hx⟩ := hx q (by simpa [CacheSystem.initial] using hlt)
    rw [hq] at hx
    injection hx with hx
    exact ⟨x, hx⟩
  cases he : c.files.entry with
  | none =>
    exfalso
    rcases hc.entry he with h | ⟨q, h⟩
    · obtain ⟨x, hx0⟩ := hx 0 (by omega)
      have := h 0 _ hx0
      cases this
    · obtain ⟨x, hx⟩ := hfin q _ h
      cases hx
  | some i =>
    refine ⟨i, rfl, ?_⟩
    have ht := hok.files.torn i
    rw [← S.full_dumped hdp]
    apply List.ext_getElem?
    intro k
    by_cases hk : k < S.full.length
    · rcases hc.bytes i k (hok.files.ok i he) hk with h | ⟨q, pos, bytes, result, h, _⟩
      · exact h
      · obtain ⟨x, hx⟩ := hfin q _ h
        cases hx
    · have := ht.1
      rw [List.getElem?_eq_none (by omega), List.getElem?_eq_none (by omega)]

/-- Pickling for the example: the pickle is two bytes long, and only these two bytes can be loaded. -/
def exampleShared (data : Bytes) : SharedCall Bytes where
  P := examplePlatform
  o := openAt pathA fmtBinaryReelHeader none
  files := filesA data
  data := data
  dumps _ := [128, 3]
  loads x := if x = [128, 3] then
      ((World.after examplePlatform (filesA data) [.openFile (openAt pathA fmtBinaryReelHeader none)]).cache
        (["home", ".segpy"], (openAt pathA fmtBinaryReelHeader none).fed examplePlatform data)).getD .unloadable
    else .unloadable

private theorem exampleShared_loads (data x : Bytes) : (exampleShared data).loads x = if x = [128, 3] then
      ((World.after examplePlatform (filesA data) [.openFile (openAt pathA fmtBinaryReelHeader none)]).cache
        (["home", ".segpy"], (openAt pathA fmtBinaryReelHeader none).fed examplePlatform data)).getD .unloadable
    else .unloadable := rfl

-- the hypotheses are met by the call for the example file
example : ∃ p, UsesCache (exampleShared sampleFile.data) ["home", ".segpy"] ∧
    (exampleShared sampleFile.data).loads [] = .unloadable ∧ Leaves (exampleShared sampleFile.data) p ∧
    (∀ p, Leaves (exampleShared sampleFile.data) p → Pickles (exampleShared sampleFile.data) p) ∧
    (∃ L, fmtBinaryReelHeader = [L]) ∧ fmtBinaryReelHeader.AfterStart ∧ fmtBinaryReelHeader.OrderSafe := by
  obtain ⟨r, progress, s', p, r', b, h1, h2, h3, _⟩ := dumpedNone
  have ho := opened h1 h2
  generalize sampleFile.data = data at *
  have hrun : (OpenCall.run examplePlatform (openAt pathA fmtBinaryReelHeader none)
      { files := filesA data, cache := fun _ => none }).2 = _ := ho
  have hempty : (exampleShared data).loads [] = .unloadable := by
    rw [exampleShared_loads, if_neg (by simp)]
  refine ⟨p, ⟨show filesA data pathA = some data from if_pos rfl, rfl, rfl⟩, hempty,
    ⟨(["home", ".segpy"], (openAt pathA fmtBinaryReelHeader none).fed examplePlatform data), ?_⟩, ?_, ⟨_, rfl⟩, by decide +kernel,
    by decide +kernel⟩
  · show (OpenCall.run examplePlatform (openAt pathA fmtBinaryReelHeader none)
      { files := filesA data, cache := fun _ => none }).2.cache
        (["home", ".segpy"], (openAt pathA fmtBinaryReelHeader none).fed examplePlatform data) = some (.reader p)
    rw [hrun]
    exact if_pos rfl
  · rintro p' ⟨c, hc⟩
    have hc' : (OpenCall.run examplePlatform (openAt pathA fmtBinaryReelHeader none)
      { files := filesA data, cache := fun _ => none }).2.cache c = some (.reader p') := hc
    rw [hrun] at hc'
    simp only at hc'
    split at hc'
    · injection hc' with hc'
      injection hc' with hc'
      subst hc'
      refine ⟨?_, fun x _ hx => by rw [exampleShared_loads, if_neg (show ¬ x = [128, 3] from hx)]⟩
      show (exampleShared data).loads [128, 3] = _
      rw [exampleShared_loads, if_pos rfl, ho]
      simp
    · cases hc'

end Segpy.Props
