import Verif.Spec.Progress
import Verif.Lemmas.Reader
import Verif.Lemmas.Writer

namespace Segpy

open FileM

theorem Callback.firstRaise_append (cb : Callback) (past l m : List ℚ) :
    cb.firstRaise past (l ++ m) = (cb.firstRaise past l).or (cb.firstRaise (past ++ l) m) := by
  induction l generalizing past with
  | nil => simp [firstRaise]
  | cons x rest ih =>
    simp only [List.cons_append, firstRaise]
    cases cb.raises (past ++ [x]) with
    | some err => simp
    | none => simp [ih]

theorem Callback.firstRaise_some {cb : Callback} {past l : List ℚ} {err : Err} (h : cb.firstRaise past l = some err) :
    ∃ k : Nat, k < l.length ∧ cb.raises (past ++ l.take (k + 1)) = some err ∧
      ∀ j < k, cb.raises (past ++ l.take (j + 1)) = none := by
  induction l generalizing past with
  | nil => simp [firstRaise] at h
  | cons x rest ih =>
    simp only [firstRaise] at h
    cases hx : cb.raises (past ++ [x]) with
    | some err' =>
      rw [hx] at h
      exact ⟨0, by simp, by simpa [hx] using h, by simp⟩
    | none =>
      rw [hx] at h
      obtain ⟨k, hk, hr, hn⟩ := ih h
      refine ⟨k + 1, by simpa using hk, by simpa using hr, fun j hj => ?_⟩
      cases j with
      | zero => simpa using hx
      | succ j => simpa using hn j (by omega)

/-- How a computation with a callback behaves, compared with the same one without it: `past` are the reports before, and
`prog` gives those after. -/
def Follows {α : Type} (cb : Callback) (past : List ℚ) (data : Bytes) (prog : α → List ℚ)
    (withCb plain : Res α × FileH) : Prop :=
  withCb.2.data = data ∧
    match plain.1 with
    | .ok a => ∃ new : List ℚ, prog a = past ++ new ∧ withCb.1 = orRaise (cb.firstRaise past new) a
    | .error err => withCb.1 = .error err ∨ ∃ (reports : List ℚ) (err : Err), cb.raises reports = some err ∧
        withCb.1 = .error err

theorem Callback.call_ok {cb : Callback} {reports : List ℚ} (h : cb.raises reports = none) (s : FileH) :
    cb.call reports s = (.ok (), { s with pos := cb.moves reports s.pos }) := by
  unfold Callback.call; rw [h]

theorem Callback.call_error {cb : Callback} {reports : List ℚ} {err : Err} (h : cb.raises reports = some err) (s : FileH) :
    cb.call reports s = (.error err, { s with pos := cb.moves reports s.pos }) := by
  unfold Callback.call; rw [h]

/-- Calling the callback first. -/
theorem Follows.call {α : Type} {cb : Callback} {past : List ℚ} {x : ℚ} {data : Bytes} {prog : α → List ℚ}
    {m : Unit → FileM α} {plain : Res α × FileH}
    (h : ∀ t : FileH, t.data = data → Follows cb (past ++ [x]) data prog (m () t) plain) (s : FileH)
    (hs : s.data = data) : Follows cb past data prog ((cb.call (past ++ [x]) >>= m) s) plain := by
  have hc := h { s with pos := cb.moves (past ++ [x]) s.pos } hs
  cases hr : cb.raises (past ++ [x]) with
  | none =>
    rw [bind_ok (Callback.call_ok hr s)]
    refine ⟨hc.1, ?_⟩
    have h2 := hc.2
    cases hp : plain.1 with
    | ok a =>
      rw [hp] at h2
      obtain ⟨new, hn, hw⟩ := h2
      refine ⟨x :: new, by simpa using hn, ?_⟩
      rw [hw]
      unfold Callback.firstRaise
      rw [hr]
      cases new <;> rfl
    | error err => rw [hp] at h2; exact h2
  | some err =>
    rw [bind_error (Callback.call_error hr s)]
    refine ⟨hs, ?_⟩
    have h2 := hc.2
    cases hp : plain.1 with
    | ok a =>
      rw [hp] at h2
      obtain ⟨new, hn, hw⟩ := h2
      refine ⟨x :: new, by simpa using hn, ?_⟩
      unfold Callback.firstRaise
      rw [hr]
      rfl
    | error err => exact .inr ⟨_, _, hr, rfl⟩

theorem addTrace_progress {scan scan' : Scan} {p : HeaderPacker} {bps n : Nat} {pos pos' : Int} {data : Bytes}
    (h : scan.addTrace p bps n pos data = .ok (scan', pos')) : scan'.progress = scan.progress := by
  unfold Scan.addTrace at h
  simp only [bind, Except.bind, pure, Except.pure] at h
  repeat' split at h
  all_goals first | contradiction | (injection h with h; injection h with h1 h2; rw [← h1])

theorem catalogLoop_follows (cb : Callback) (p : HeaderPacker) (bps length : Nat) (fuel n : Nat) (pos : Int) (scan : Scan)
    (s s' : FileH) (hs : s'.data = s.data) :
    Follows cb scan.progress s.data Scan.progress (catalogLoopWith cb p bps length fuel n pos scan s')
      (catalogLoop p bps length fuel n pos scan s) := by
  induction fuel generalizing n pos scan s s' with
  | zero => exact ⟨hs, .inl rfl⟩
  | succ fuel ih =>
    unfold catalogLoopWith catalogLoop
    rw [bind_apply, bind_apply, lift_apply, lift_apply]
    cases hx : progressAt pos length with
    | error err => exact ⟨hs, .inl rfl⟩
    | ok x =>
      refine Follows.call (fun t ht => ?_) s' hs
      by_cases hp : pos < 0
      · have e1 : ∀ u : FileH, FileM.seek pos u = (.error .valueError, u) := fun u => by
          unfold FileM.seek; rw [if_pos hp]
        dsimp only
        rw [bind_error (e1 t), bind_error (e1 s)]
        exact ⟨ht, .inl rfl⟩
      · obtain ⟨m, rfl⟩ := Int.eq_ofNat_of_zero_le (Int.not_lt.mp hp)
        dsimp only
        rw [bind_ok (seek_apply m t), bind_ok (seek_apply m s), ht, bind_ok (read_apply _ _), bind_ok (read_apply _ _)]
        dsimp only
        split
        · exact ⟨rfl, [], by simp, rfl⟩
        · rw [bind_apply, bind_apply, lift_apply, lift_apply]
          cases ha : Scan.addTrace p bps n (m : Int) ((s.data.drop m).take TRACE_HEADER_NUM_BYTES)
              { scan with progress := scan.progress ++ [x] } with
          | error err => exact ⟨rfl, .inl rfl⟩
          | ok q =>
            obtain ⟨scan', pos'⟩ := q
            have hpr := addTrace_progress ha
            have := fun (u u' : FileH) (h : u'.data = u.data) => ih (n + 1) pos' scan' u u' h
            rw [hpr] at this
            exact this ⟨s.data, m + ((s.data.drop m).take TRACE_HEADER_NUM_BYTES).length, s.limit⟩
              ⟨s.data, m + ((s.data.drop m).take TRACE_HEADER_NUM_BYTES).length, t.limit⟩ rfl

theorem create_follows (cb : Callback) (scan : Scan) (s s' : FileH) (hs : s'.data = s.data) :
    Follows cb scan.progress s.data Catalogs.progress (scan.createWith cb s') (FileM.lift scan.create s) := by
  unfold Scan.createWith Scan.create
  refine Follows.call (fun t ht => ?_) s' hs
  rw [bind_apply, lift_apply, lift_apply]
  cases h1 : createCatalogInt scan.offsets with
  | error err => exact ⟨ht, .inl rfl⟩
  | ok c1 =>
  refine Follows.call (fun t ht => ?_) t ht
  rw [bind_apply, lift_apply]
  cases h2 : createCatalogInt scan.lengths with
  | error err => exact ⟨ht, .inl rfl⟩
  | ok c2 =>
  refine Follows.call (fun t ht => ?_) t ht
  rw [bind_apply, lift_apply]
  cases h3 : createCatalogInt scan.cdps with
  | error err => exact ⟨ht, .inl rfl⟩
  | ok c3 =>
  refine Follows.call (fun t ht => ?_) t ht
  rw [bind_apply, lift_apply]
  cases h4 : createCatalogPair scan.lines with
  | error err => exact ⟨ht, .inl rfl⟩
  | ok c4 =>
  refine Follows.call (fun t ht => ?_) t ht
  refine ⟨ht, [], by simp, ?_⟩
  show Except.ok _ = Except.ok _
  simp

/-- One computation after another. -/
theorem Follows.bind {α β : Type} {cb : Callback} {past : List ℚ} {data : Bytes} {prog : α → List ℚ} {prog' : β → List ℚ}
    {m m' : FileM α} {f f' : α → FileM β} {s s' : FileH} (h : Follows cb past data prog (m' s') (m s))
    (hm : (m s).2.data = data)
    (hf : ∀ (a : α) (t t' : FileH), t.data = data → t'.data = data → Follows cb (prog a) data prog' (f' a t') (f a t)) :
    Follows cb past data prog' ((m' >>= f') s') ((m >>= f) s) := by
  obtain ⟨h1, h2⟩ := h
  rw [bind_apply, bind_apply]
  revert h1 h2 hm
  generalize m' s' = q'
  generalize m s = q
  obtain ⟨r', t'⟩ := q'
  obtain ⟨r, t⟩ := q
  intro hm h1 h2
  cases r with
  | error err =>
    dsimp only at h2 ⊢
    rcases h2 with h2 | ⟨reports, err', hr, h2⟩
    · subst h2; exact ⟨h1, .inl rfl⟩
    · subst h2; exact ⟨h1, .inr ⟨_, _, hr, rfl⟩⟩
  | ok a =>
    obtain ⟨new, hn, hw⟩ := h2
    dsimp only at hw h1 hm ⊢
    have hfa := hf a t t' hm h1
    cases hr : cb.firstRaise past new with
    | none =>
      rw [hr] at hw
      subst hw
      refine ⟨hfa.1, ?_⟩
      dsimp only [orRaise]
      have h3 := hfa.2
      cases hp : (f a t).1 with
      | error err => rw [hp] at h3; exact h3
      | ok b =>
        rw [hp] at h3
        obtain ⟨new', hn', hw'⟩ := h3
        refine ⟨new ++ new', by rw [hn', hn, List.append_assoc], ?_⟩
        rw [hw', Callback.firstRaise_append, hr, hn]
        rfl
    | some err =>
      rw [hr] at hw
      subst hw
      refine ⟨h1, ?_⟩
      dsimp only [orRaise]
      have h3 := hfa.2
      cases hp : (f a t).1 with
      | error err' =>
        obtain ⟨k, -, hk, -⟩ := Callback.firstRaise_some hr
        exact .inr ⟨_, _, hk, rfl⟩
      | ok b =>
        rw [hp] at h3
        obtain ⟨new', hn', hw'⟩ := h3
        refine ⟨new ++ new', by rw [hn', hn, List.append_assoc], ?_⟩
        rw [Callback.firstRaise_append, hr]
        rfl

/-- The same computation first, without the callback. -/
theorem Follows.same {α β : Type} {cb : Callback} {past : List ℚ} {data : Bytes} {prog : β → List ℚ}
    {m : FileM α} {f f' : α → FileM β} {s : FileH} (hs : s.data = data) (hm : Reads m)
    (hf : ∀ (a : α) (t : FileH), t.data = data → Follows cb past data prog (f' a t) (f a t)) :
    Follows cb past data prog ((m >>= f') s) ((m >>= f) s) := by
  obtain ⟨k, hk⟩ := hm s
  rw [bind_apply, bind_apply]
  revert hk
  generalize m s = q
  obtain ⟨r, t⟩ := q
  intro hk
  dsimp only at hk
  subst hk
  cases r with
  | error err => exact ⟨hs, .inl rfl⟩
  | ok a => exact hf a _ hs

theorem Follows.lift {α β : Type} {cb : Callback} {data : Bytes} {past : List ℚ} {prog : β → List ℚ}
    {r : Res α} {f f' : α → FileM β} {s s' : FileH} (hs : s'.data = data)
    (hf : ∀ a : α, Follows cb past data prog (f' a s') (f a s)) :
    Follows cb past data prog ((FileM.lift r >>= f') s') ((FileM.lift r >>= f) s) := by
  rw [bind_apply, bind_apply, lift_apply, lift_apply]
  cases r with
  | error err => exact ⟨hs, .inl rfl⟩
  | ok a => exact hf a

theorem reads_fileLength : Reads fileLength := fun s => ⟨s.pos, rfl⟩

theorem catalogTraces_follows (cb : Callback) (bps : Nat) (T : Format) (e : Endian) (s : FileH) :
    Follows cb [] s.data Catalogs.progress (catalogTracesWith cb bps T e s) (catalogTraces bps T e s) := by
  unfold catalogTracesWith catalogTraces catalogTracesFuel
  refine Follows.same rfl (reads_lift _) fun S t ht => ?_
  refine Follows.same ht (reads_lift _) fun p t ht => ?_
  refine Follows.same ht reads_fileLength fun length t ht => ?_
  refine Follows.same ht reads_tell fun pos t ht => ?_
  have hl := catalogLoop_follows cb p bps length (s.data.length + 1) 0 pos {} t t rfl
  rw [ht] at hl
  refine Follows.bind hl ?_ fun scan u u' hu hu' => ?_
  · obtain ⟨k, hk⟩ := reads_loop p bps length (s.data.length + 1) 0 pos {} t
    rw [hk]; exact ht
  · have := create_follows cb scan u u' (hu'.trans hu.symm)
    rw [hu] at this
    exact this

theorem makeReader_follows (cb : Callback) (encoding : Option Encoding) (B T : Format) (e : Endian)
    (dimensionality : Option Int) (s : FileH) :
    Follows cb [] s.data Prod.snd (makeReaderWith cb encoding B T e dimensionality s)
      (makeReader encoding B T e dimensionality s) := by
  unfold makeReaderWith makeReader
  refine Follows.same rfl (by cases encoding <;> first | exact reads_pure _ | exact reads_guess) fun enc t ht => ?_
  refine Follows.same ht (reads_textual _) fun textual t ht => ?_
  refine Follows.same ht (reads_binary _ _) fun binary t ht => ?_
  refine Follows.same ht (reads_extendedOf _ _) fun extended t ht => ?_
  refine Follows.same ht (reads_lift _) fun bps t ht => ?_
  have hl := catalogTraces_follows cb bps T e t
  rw [ht] at hl
  refine Follows.bind hl ?_ fun catalogs u u' hu hu' => ?_
  · obtain ⟨k, hk⟩ := reads_catalogTraces bps T e t
    rw [hk]; exact ht
  · refine Follows.lift hu' fun reader => ?_
    exact ⟨hu', [], by simp, rfl⟩

theorem createReader_follows (cb : Callback) (encoding : Option Encoding) (B T : Format) (e : Endian)
    (dimensionality : Option Int) (s : FileH) :
    Follows cb [] s.data Prod.snd (createReaderWith cb encoding B T e dimensionality s)
      (createReader encoding B T e dimensionality s) := by
  unfold createReaderWith createReader
  refine Follows.same rfl reads_fileLength fun length t ht => ?_
  split
  · exact ⟨ht, .inl rfl⟩
  split
  · exact ⟨ht, .inl rfl⟩
  have hl := makeReader_follows cb encoding B T e dimensionality t
  rw [ht] at hl
  refine Follows.bind hl ?_ fun q u u' hu hu' => ?_
  · obtain ⟨k, hk⟩ := reads_makeReader encoding B T e dimensionality t
    rw [hk]; exact ht
  · obtain ⟨r, progress⟩ := q
    refine Follows.call (fun v hv => ?_) u' hu'
    exact ⟨hv, [], by simp, rfl⟩

end Segpy
