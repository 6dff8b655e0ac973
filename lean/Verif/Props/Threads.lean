import Verif.Model.Threads
import Verif.Lemmas.Memo
import Verif.Lemmas.ExampleFile
import Verif.Props.Reader

/-! # Properties of readers used by several threads, or sharing a file: C82 -/

namespace Segpy.Props

open Segpy.Spec Segpy.FileM

private theorem run_step {α : Type} (p : FileProg α) (s : FileH) : (p.step s).1.run (p.step s).2 = p.run s := by
  cases p with
  | done x => rfl
  | seek pos next =>
    cases hs : FileM.seek pos s with
    | mk x s' => cases x <;> simp only [FileProg.step, FileProg.run, hs]
  | read n next =>
    cases hs : FileM.read n s with
    | mk x s' => cases x <;> simp only [FileProg.step, FileProg.run, hs]

private theorem step_file {α : Type} (p : FileProg α) (s : FileH) : ∃ k, (p.step s).2 = { s with pos := k } := by
  cases p with
  | done x => exact ⟨s.pos, rfl⟩
  | seek pos next =>
    obtain ⟨k, hk⟩ := reads_seek pos s
    refine ⟨k, ?_⟩
    cases hs : FileM.seek pos s with
    | mk x s' => rw [hs] at hk; cases x <;> simp only [FileProg.step, hs] <;> exact hk
  | read n next =>
    obtain ⟨k, hk⟩ := reads_read n s
    refine ⟨k, ?_⟩
    cases hs : FileM.read n s with
    | mk x s' => rw [hs] at hk; cases x <;> simp only [FileProg.step, hs] <;> exact hk

/-- The split into operations is the same function as the call. -/
theorem C82_split_samples (r : Reader) (native : Endian) (i : Int) (start stop : Option Int) (s : FileH) :
    (r.samplesProg native i start stop).run s = r.traceSamples native i start stop s := by
  rw [traceSamples_eq]
  unfold Reader.samplesProg
  cases r.locateSamples i start stop with
  | error err => rfl
  | ok x =>
    obtain ⟨pos, t, n⟩ := x
    simp only [FileProg.run]
    unfold readBinaryValues
    rw [bind_apply]
    rcases FileM.seek pos s with ⟨_ | _, s'⟩
    · rfl
    · simp only
      rw [bind_apply]
      rcases FileM.read ((t.size : Int) * n) s' with ⟨_ | buf, s2⟩
      · rfl
      · simp only
        split
        · rfl
        · rw [bind_apply, lift_apply]
          by_cases ht : t = .ibm
          · simp only [if_pos ht]
            cases unpackIbmFloats buf n with
            | error err => rfl
            | ok values =>
              simp only [bind, Except.bind]
              split <;> rfl
          · simp only [if_neg ht]
            cases unpackValues native buf t r.endian with
            | error err => rfl
            | ok values =>
              simp only [bind, Except.bind]
              split <;> rfl

theorem C82_split_header (r : Reader) (i : Int) (packer : Option HeaderPacker) (s : FileH) :
    (r.headerProg i packer).run s = r.traceHeader i packer s := by
  rw [traceHeader_eq]
  unfold Reader.headerProg
  cases r.numTraces with
  | error err => rfl
  | ok n =>
    simp only [bind, Except.bind]
    by_cases hi : ¬ (0 ≤ i ∧ i < n)
    · simp only [if_pos hi]; rfl
    · simp only [if_neg hi]
      cases r.trace_offset_catalog.get i with
      | error err => rfl
      | ok pos =>
        simp only [FileProg.run]
        unfold readTraceHeader
        rw [bind_apply]
        rcases FileM.seek pos s with ⟨_ | _, s'⟩
        · rfl
        · simp only
          rw [bind_apply]
          rcases FileM.read TRACE_HEADER_NUM_BYTES s' with ⟨_ | buf, s2⟩
          · rfl
          · simp only
            cases (packer.getD r.trace_header_packer).unpack buf <;> rfl

/-! ## Threads with files of their own -/

/-- The answers of the call the thread is about, given that the file does not move in between. -/
private def pending (t : Thread) (s : FileH) : List (Res Answer) :=
  match t.samples, t.header with
  | some p, _ => [(p.run s).1.map .samples]
  | none, some p => [(p.run s).1.map .header]
  | none, none => []

private structure Right (native : Endian) (r0 : Reader) (s0 : FileH) (calls : List Call) (t : Thread) (s : FileH) :
    Prop where
  file : ∃ k, s = { s0 with pos := k }
  reader : ∀ c s', (t.reader.call native c s').1 = (r0.call native c s').1
  one : t.samples = none ∨ t.header = none
  answers : t.answers ++ pending t s ++ t.upcoming.map (fun c => (r0.call native c s0).1) =
    calls.map fun c => (r0.call native c s0).1

private theorem right_step {native : Endian} {r0 : Reader} {s0 : FileH} {calls : List Call} {t : Thread} {s : FileH}
    (h : Right native r0 s0 calls t s) : Right native r0 s0 calls (t.step native s).1 (t.step native s).2 := by
  obtain ⟨⟨k, rfl⟩, hr, hone, ha⟩ := h
  obtain ⟨r, upcoming, samples, header, answers⟩ := t
  have answer : ∀ c, (r.call native c { s0 with pos := k }).1 = (r0.call native c s0).1 := by
    intro c
    rw [hr, answer_pos]
  have prog {α : Type} (p : FileProg α) : ∃ k', (p.step { s0 with pos := k }).2 = { s0 with pos := k' } :=
    step_file p { s0 with pos := k }
  cases samples with
  | some p =>
    have hh : header = none := by
      rcases hone with h | h
      · cases h
      · exact h
    subst hh
    cases p with
    | done x =>
      refine ⟨⟨k, rfl⟩, hr, Or.inl rfl, ?_⟩
      simp only [Thread.step, pending, FileProg.run] at ha ⊢
      rw [← ha]
      simp
    | seek pos next =>
      refine ⟨prog _, hr, Or.inr rfl, ?_⟩
      simp only [Thread.step, pending] at ha ⊢
      rw [run_step]
      exact ha
    | read n next =>
      refine ⟨prog _, hr, Or.inr rfl, ?_⟩
      simp only [Thread.step, pending] at ha ⊢
      rw [run_step]
      exact ha
  | none =>
    cases header with
    | some p =>
      cases p with
      | done x =>
        refine ⟨⟨k, rfl⟩, hr, Or.inl rfl, ?_⟩
        simp only [Thread.step, pending, FileProg.run] at ha ⊢
        rw [← ha]
        simp
      | seek pos next =>
        refine ⟨prog _, hr, Or.inl rfl, ?_⟩
        simp only [Thread.step, pending] at ha ⊢
        rw [run_step]
        exact ha
      | read n next =>
        refine ⟨prog _, hr, Or.inl rfl, ?_⟩
        simp only [Thread.step, pending] at ha ⊢
        rw [run_step]
        exact ha
    | none =>
      cases upcoming with
      | nil => exact ⟨⟨k, rfl⟩, hr, Or.inl rfl, ha⟩
      | cons c rest =>
        have other : ∀ t', t' = ({
              reader := (r.call native c { s0 with pos := k }).2.1
              upcoming := rest
              answers := answers ++ [(r.call native c { s0 with pos := k }).1] } : Thread) →
            Right native r0 s0 calls t' (r.call native c { s0 with pos := k }).2.2 := by
          rintro t' rfl
          obtain ⟨k', hk'⟩ := call_file r native c { s0 with pos := k }
          refine ⟨⟨k', hk'⟩, ?_, Or.inl rfl, ?_⟩
          · intro c' s'
            rw [step_answer]
            exact hr c' s'
          · simp only [pending] at ha ⊢
            rw [answer, ← ha]
            simp
        cases c
        case traceSamples i start stop =>
          refine ⟨⟨k, rfl⟩, hr, Or.inr rfl, ?_⟩
          simp only [Thread.step, pending] at ha ⊢
          rw [C82_split_samples]
          have := answer (.traceSamples i start stop)
          rw [← ha, List.map_cons, ← this]
          simp [Reader.call]
        case traceHeader i packer =>
          refine ⟨⟨k, rfl⟩, hr, Or.inl rfl, ?_⟩
          simp only [Thread.step, pending] at ha ⊢
          rw [C82_split_header]
          have := answer (.traceHeader i packer)
          rw [← ha, List.map_cons, ← this]
          simp [Reader.call]
        all_goals exact other _ rfl

/-- The program ends after at most so many operations. -/
private inductive Within {α : Type} : Nat → FileProg α → Prop
  | done (n : Nat) (x : Res α) : Within n (.done x)
  | seek {n : Nat} {pos : Int} {next : FileProg α} (h : Within n next) : Within (n + 1) (.seek pos next)
  | read {n : Nat} {k : Int} {next : Bytes → FileProg α} (h : ∀ buf, Within n (next buf)) : Within (n + 1) (.read k next)

private theorem within_step {α : Type} {n : Nat} {p : FileProg α} (h : Within (n + 1) p) (s : FileH) :
    Within n (p.step s).1 := by
  cases h with
  | done _ x => exact .done n x
  | @seek _ pos next h =>
    cases hs : FileM.seek pos s with
    | mk x s' => cases x <;> simp only [FileProg.step, hs] <;> first | exact h | exact .done _ _
  | @read _ k next h =>
    cases hs : FileM.read k s with
    | mk x s' => cases x <;> simp only [FileProg.step, hs] <;> first | exact h _ | exact .done _ _

private def Budget (b : Nat) (t : Thread) : Prop :=
  (t.samples = none ∧ t.header = none ∧ 4 * t.upcoming.length ≤ b) ∨
  (∃ p n, t.samples = some p ∧ t.header = none ∧ Within n p ∧ n + 1 + 4 * t.upcoming.length ≤ b) ∨
  (∃ p n, t.samples = none ∧ t.header = some p ∧ Within n p ∧ n + 1 + 4 * t.upcoming.length ≤ b)

private theorem samplesProg_within (r : Reader) (native : Endian) (i : Int) (start stop : Option Int) :
    Within 2 (r.samplesProg native i start stop) := by
  unfold Reader.samplesProg
  split
  · exact .done _ _
  · exact .seek (.read fun _ => .done _ _)

private theorem headerProg_within (r : Reader) (i : Int) (packer : Option HeaderPacker) :
    Within 2 (r.headerProg i packer) := by
  unfold Reader.headerProg
  split
  · exact .done _ _
  · exact .seek (.read fun _ => .done _ _)

private theorem budget_step {native : Endian} {b : Nat} {t : Thread} (h : Budget (b + 1) t) (s : FileH) :
    Budget b (t.step native s).1 := by
  obtain ⟨r, upcoming, samples, header, answers⟩ := t
  rcases h with ⟨h1, h2, h3⟩ | ⟨p, n, h1, h2, h3, h4⟩ | ⟨p, n, h1, h2, h3, h4⟩
  · simp only at h1 h2 h3
    subst h1 h2
    cases upcoming with
    | nil => exact Or.inl ⟨rfl, rfl, by simp [Thread.step]⟩
    | cons c rest =>
      rw [List.length_cons] at h3
      cases c
      case traceSamples i start stop =>
        exact Or.inr (Or.inl ⟨_, 2, rfl, rfl, samplesProg_within _ _ _ _ _, by simp only [Thread.step]; omega⟩)
      case traceHeader i packer =>
        exact Or.inr (Or.inr ⟨_, 2, rfl, rfl, headerProg_within _ _ _, by simp only [Thread.step]; omega⟩)
      all_goals exact Or.inl ⟨rfl, rfl, by simp only [Thread.step]; omega⟩
  · simp only at h1 h2 h4
    subst h1 h2
    cases p with
    | done x => exact Or.inl ⟨rfl, rfl, by simp only [Thread.step]; omega⟩
    | seek pos next =>
      obtain ⟨n, rfl⟩ : ∃ m, n = m + 1 := by cases h3; exact ⟨_, rfl⟩
      exact Or.inr (Or.inl ⟨_, n, rfl, rfl, within_step h3 s, by simp only [Thread.step]; omega⟩)
    | read k next =>
      obtain ⟨n, rfl⟩ : ∃ m, n = m + 1 := by cases h3; exact ⟨_, rfl⟩
      exact Or.inr (Or.inl ⟨_, n, rfl, rfl, within_step h3 s, by simp only [Thread.step]; omega⟩)
  · simp only at h1 h2 h4
    subst h1 h2
    cases p with
    | done x => exact Or.inl ⟨rfl, rfl, by simp only [Thread.step]; omega⟩
    | seek pos next =>
      obtain ⟨n, rfl⟩ : ∃ m, n = m + 1 := by cases h3; exact ⟨_, rfl⟩
      exact Or.inr (Or.inr ⟨_, n, rfl, rfl, within_step h3 s, by simp only [Thread.step]; omega⟩)
    | read k next =>
      obtain ⟨n, rfl⟩ : ∃ m, n = m + 1 := by cases h3; exact ⟨_, rfl⟩
      exact Or.inr (Or.inr ⟨_, n, rfl, rfl, within_step h3 s, by simp only [Thread.step]; omega⟩)

private theorem budget_mono {b b' : Nat} {t : Thread} (h : Budget b t) (hb : b ≤ b') : Budget b' t := by
  rcases h with ⟨h1, h2, h3⟩ | ⟨p, n, h1, h2, h3, h4⟩ | ⟨p, n, h1, h2, h3, h4⟩
  · exact Or.inl ⟨h1, h2, by omega⟩
  · exact Or.inr (Or.inl ⟨p, n, h1, h2, h3, by omega⟩)
  · exact Or.inr (Or.inr ⟨p, n, h1, h2, h3, by omega⟩)

private theorem budget_finished {t : Thread} (h : Budget 0 t) : t.finished = true := by
  rcases h with ⟨h1, h2, h3⟩ | ⟨p, n, h1, h2, h3, h4⟩ | ⟨p, n, h1, h2, h3, h4⟩
  · have : t.upcoming = [] := List.length_eq_zero_iff.mp (by omega)
    simp [Thread.finished, h1, h2, this]
  · omega
  · omega

/-- Any number of threads, each calling a reader that has a file object of its own, in every schedule of their operations
on the files: the answers a thread has got so far are those the same calls give to a program that is alone, in the same
order; when it has finished, all of them; and it has finished once it has been given four steps for each call. -/
theorem C82_own_files (native : Endian) (readers : Nat → Reader) (files : Nat → FileH) (calls : Nat → List Call)
    (schedule : List Nat) (i : Nat) :
    let t := (OwnFiles.run native schedule fun j => ({ reader := readers j, upcoming := calls j }, files j)) i
    t.1.answers <+: (calls i).map (fun c => ((readers i).call native c (files i)).1) ∧
    (t.1.finished → t.1.answers = (calls i).map fun c => ((readers i).call native c (files i)).1) ∧
    (4 * (calls i).length ≤ schedule.count i → t.1.finished) ∧
    t.2.data = (files i).data := by
  have key : ∀ (schedule : List Nat) (w : OwnFiles) (b : Nat),
      Right native (readers i) (files i) (calls i) (w i).1 (w i).2 → Budget b (w i).1 →
      Right native (readers i) (files i) (calls i) ((OwnFiles.run native schedule w) i).1
        ((OwnFiles.run native schedule w) i).2 ∧
      Budget (b - schedule.count i) ((OwnFiles.run native schedule w) i).1 := by
    intro schedule
    induction schedule with
    | nil => intro w b h hb; exact ⟨h, by simpa [OwnFiles.run] using hb⟩
    | cons j schedule ih =>
      intro w b h hb
      unfold OwnFiles.run
      by_cases hj : i = j
      · subst hj
        have hb' : Budget (b - 1) ((w i).1.step native (w i).2).1 := budget_step (budget_mono hb (by omega)) _
        obtain ⟨g1, g2⟩ := ih (fun j => if j = i then (w i).1.step native (w i).2 else w j) (b - 1)
          (by simp only [if_true]; exact right_step h) (by simp only [if_true]; exact hb')
        refine ⟨g1, ?_⟩
        rw [List.count_cons_self, show b - (schedule.count i + 1) = b - 1 - schedule.count i by omega]
        exact g2
      · obtain ⟨g1, g2⟩ := ih (fun k => if k = j then (w j).1.step native (w j).2 else w k) b
          (by simp only [if_neg hj]; exact h) (by simp only [if_neg hj]; exact hb)
        refine ⟨g1, ?_⟩
        rw [List.count_cons_of_ne (Ne.symm hj)]
        exact g2
  intro t
  obtain ⟨g1, g2⟩ := key schedule (fun j => ({ reader := readers j, upcoming := calls j }, files j)) (4 * (calls i).length)
    ⟨⟨(files i).pos, rfl⟩, fun _ _ => rfl, Or.inl rfl, by simp [pending]⟩ (Or.inl ⟨rfl, rfl, Nat.le_refl _⟩)
  obtain ⟨⟨k, hk⟩, -, -, ha⟩ := g1
  refine ⟨?_, ?_, ?_, ?_⟩
  · rw [← ha, List.append_assoc]
    exact List.prefix_append _ _
  · intro hf
    simp only [Thread.finished, Bool.and_eq_true, Option.isNone_iff_eq_none, List.isEmpty_iff] at hf
    obtain ⟨⟨f1, f2⟩, f3⟩ := hf
    rw [← ha]
    show t.1.answers = t.1.answers ++ pending t.1 t.2 ++ t.1.upcoming.map _
    simp [pending, f1, f2, f3]
  · intro hc
    rw [show 4 * (calls i).length - schedule.count i = 0 by omega] at g2
    exact budget_finished g2
  · show ((OwnFiles.run native schedule _) i).2.data = _
    rw [hk]

/-! ## Readers that share a file -/

/-- Readers that share a file object, called one after the other in any order: every call answers what it would have
answered at first on its own. -/
theorem C82_shared_calls (native : Endian) (readers : Nat → Reader) (s : FileH) (calls : List (Nat × Call)) :
    sharedCalls native calls readers s = calls.map fun x => ((readers x.1).call native x.2 s).1 := by
  have key : ∀ (calls : List (Nat × Call)) (rs : Nat → Reader) (k : Nat),
      (∀ i c s', ((rs i).call native c s').1 = ((readers i).call native c s').1) →
      sharedCalls native calls rs { s with pos := k } = calls.map fun x => ((readers x.1).call native x.2 s).1 := by
    intro calls
    induction calls with
    | nil => intro rs k _; rfl
    | cons x calls ih =>
      intro rs k h
      obtain ⟨i, c⟩ := x
      obtain ⟨k', hk'⟩ := call_file (rs i) native c { s with pos := k }
      unfold sharedCalls
      simp only
      rw [hk', ih, h, answer_pos, List.map_cons]
      intro j c' s'
      split
      · rename_i hj
        subst hj
        rw [step_answer]
        exact h j c' s'
      · exact h j c' s'
  exact key calls readers s.pos fun _ _ _ => rfl

/-- Threads that use one reader, and so one file object, without a lock: a schedule in which a thread that asks for the
samples of a trace is given numbers that are not samples of the trace, without an exception. -/
theorem C82_shared_file_fails : ∃ (r : Reader) (s : FileH) (progress : List ℚ) (s' : FileH) (schedule : List Nat),
    createReader (some .ebcdic) fmtBinaryReelHeader fmtTraceHeaderRev1 .big none s = (.ok (r, progress), s') ∧
    (r.call .big (.traceSamples 0 none none) s).1 = .ok (.samples [.int 7, .int (-1)]) ∧
    ((SharedFile.run .big schedule
      { threads := fun i => { reader := r, upcoming := if i = 0 then [.traceSamples 0 none none] else [.traceHeader 0 none] }
        file := s }).threads 0).answers = [.ok (.samples [.int 0, .int 0])] := by
  obtain ⟨r, progress, s', h⟩ := sampleFile_ok none (by simp)
  refine ⟨r, sampleFile, progress, s', [0, 0, 1, 1, 0, 0], h, ?_⟩
  have key : ((createReader (some .ebcdic) fmtBinaryReelHeader fmtTraceHeaderRev1 .big none sampleFile).1.map fun x =>
      ((x.1.call .big (.traceSamples 0 none none) sampleFile).1, ((SharedFile.run .big [0, 0, 1, 1, 0, 0]
      { threads := fun i => { reader := x.1, upcoming := if i = 0 then [.traceSamples 0 none none] else [.traceHeader 0 none] }
        file := sampleFile }).threads 0).answers)) =
      .ok (.ok (.samples [.int 7, .int (-1)]), [.ok (.samples [.int 0, .int 0])]) := by
    decide +kernel
  rw [h] at key
  simp only [Except.map, Except.ok.injEq, Prod.mk.injEq] at key
  exact key

-- two threads on files of their own, in the same schedule: both get what they asked for
example : ((createReader (some .ebcdic) fmtBinaryReelHeader fmtTraceHeaderRev1 .big none sampleFile).1.map fun x =>
    let w := OwnFiles.run .big [0, 0, 1, 1, 0, 0, 1, 1] fun i => ({
        reader := x.1
        upcoming := if i = 0 then [.traceSamples 0 none none] else [.traceSamples 2 none none] }, sampleFile)
    ((w 0).1.answers, (w 1).1.answers, (w 1).1.finished, (w 0).2.pos)) =
    .ok ([.ok (.samples [.int 7, .int (-1)])], [.ok (.samples [.int 256])], true, 3844) := by
  decide +kernel

-- two readers sharing the file, called in turn
example : ((createReader (some .ebcdic) fmtBinaryReelHeader fmtTraceHeaderRev1 .big none sampleFile).1.map fun x =>
    sharedCalls .big [(0, .traceSamples 0 none none), (1, .maxNumTraceSamples), (1, .traceSamples 2 none none)]
      (fun _ => x.1) sampleFile) =
    .ok [.ok (.samples [.int 7, .int (-1)]), .ok (.int 2), .ok (.samples [.int 256])] := by
  decide +kernel

end Segpy.Props
