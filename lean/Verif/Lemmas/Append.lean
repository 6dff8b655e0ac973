import Verif.Lemmas.Update
import Verif.Lemmas.Growing
import Verif.Lemmas.Writer
import Verif.Model.Append
import Verif.Spec.Append

/-! # Lemmas on adding traces -/

namespace Segpy

open Spec FileM

/-- The traces to be added and their bytes. -/
theorem appendable_written {T : Format} {e : Endian} {t : SegYType} {p : HeaderPacker} (hR : Regular T e 240)
    (hp : makeHeaderPacker T e = .ok p) (new : List (Header × List PyNum)) (h : ∀ x ∈ new, Appendable T t x) :
    ∃ ts : List Written, ts.map (fun x => (x.header, x.samples)) = new ∧ ∀ x ∈ ts, x.Ok T e t p := by
  induction new with
  | nil => exact ⟨[], rfl, by simp⟩
  | cons x new ih =>
    obtain ⟨ts, e1, e2⟩ := ih fun y hy => h y (List.mem_cons_of_mem _ hy)
    have hx := h x List.mem_cons_self
    obtain ⟨hb, g1, g2, g3⟩ := pack_regular hR hp hx.format hx.valid
    obtain ⟨sb, k1, k2, k3⟩ := sampleBytes_fits (e := e) hx.fits
    refine ⟨⟨x.1, x.2, hb, sb⟩ :: ts, by simp [e1], ?_⟩
    intro y hy
    rcases List.mem_cons.mp hy with rfl | hy
    · exact ⟨g1, g2, g3, hx.num_samples, k1, k2, k3⟩
    · exact e2 y hy

theorem writeNewTraces_appends {p : HeaderPacker} {T : Format} {e : Endian} {t : SegYType} (ts : List Written)
    (hok : ∀ x ∈ ts, x.Ok T e t p) :
    ∀ n, Appends n (writeNewTraces p t e (ts.map fun x => (x.header, x.samples))) () (body ts) := by
  induction ts with
  | nil => intro n; exact Appends.pure n _
  | cons x ts ih =>
    intro n
    have ho := hok x List.mem_cons_self
    have hw : Appends n (writeTraceHeader x.header p) () x.headerBytes :=
      Appends.lift_bind ho.pack (Appends.write _ x.headerBytes)
    have hws : ∀ n, Appends n (writeTraceSamples x.samples t e) () x.sampleBytes := fun n =>
      Appends.lift_bind ho.stored (Appends.write _ x.sampleBytes)
    rw [List.map_cons, writeNewTraces, body_cons, List.append_assoc]
    exact hw.bind ((hws _).bind (ih (fun y hy => hok y (List.mem_cons_of_mem _ hy)) _))

theorem appendTraces_eq (p : HeaderPacker) (t : SegYType) (e : Endian) (new : List (Header × List PyNum)) (s : FileH) :
    appendTraces p t e new s = writeNewTraces p t e new { s with pos := s.data.length } := by
  unfold appendTraces
  rw [bind_ok (show fileLength s = (.ok s.data.length, s) from rfl), bind_ok (seek_apply _ _)]

/-- The bytes before a new trace. -/
theorem bytesBefore_body {T : Format} {e : Endian} {t : SegYType} {p : HeaderPacker} {ts : List Written}
    (hok : ∀ x ∈ ts, x.Ok T e t p) (j : Nat) :
    bytesBefore t (ts.map fun x => (x.header, x.samples)) j = (body (ts.take j)).length := by
  induction ts generalizing j with
  | nil => simp [bytesBefore, traceStart, body]
  | cons x ts ih =>
    cases j with
    | zero => simp [bytesBefore, traceStart, body]
    | succ j =>
      have hx := hok x List.mem_cons_self
      have := ih (fun y hy => hok y (List.mem_cons_of_mem _ hy)) j
      simp only [bytesBefore, traceStart, Nat.zero_add, List.map_cons, List.take_succ_cons, List.sum_cons] at this ⊢
      rw [this, body_cons]
      simp only [List.length_append, hx.header_length, hx.samples_length]

/-- The bytes of a new trace in the file. -/
theorem written_at {T : Format} {e : Endian} {t : SegYType} {p : HeaderPacker} {ts : List Written}
    (hok : ∀ x ∈ ts, x.Ok T e t p) (pre : Bytes) (k j : Nat) (hj : j < ts.length)
    (hk : pre.length + (body (ts.take j)).length + 240 ≤ k) :
    headerBytes ((pre ++ body ts).take k) (pre.length + (body (ts.take j)).length) = ts[j].headerBytes ∧
    (pre.length + (body (ts.take (j + 1))).length ≤ k →
      (((pre ++ body ts).take k).drop (pre.length + (body (ts.take j)).length + 240)).take ts[j].sampleBytes.length =
        ts[j].sampleBytes) ∧
    (body (ts.take (j + 1))).length = (body (ts.take j)).length + 240 + ts[j].samples.length * t.size := by
  have hx := hok _ (List.getElem_mem hj)
  have hsplit : pre ++ body ts = (pre ++ body (ts.take j)) ++ (ts[j].headerBytes ++ (ts[j].sampleBytes ++
      body (ts.drop (j + 1)))) := by
    have : ts = ts.take j ++ ts[j] :: ts.drop (j + 1) := by
      rw [List.getElem_cons_drop, List.take_append_drop]
    conv_lhs => rw [this]
    rw [body_append, body_cons]
    simp only [List.append_assoc]
  have hp : (pre ++ body (ts.take j)).length = pre.length + (body (ts.take j)).length := List.length_append
  have hnext : (body (ts.take (j + 1))).length = (body (ts.take j)).length + 240 + ts[j].samples.length * t.size := by
    rw [List.take_succ_eq_append_getElem hj, body_append, body_cons]
    simp only [List.length_append, hx.header_length, hx.samples_length]
    simp only [body, List.flatMap_nil, List.length_nil]
    omega
  refine ⟨?_, ?_, hnext⟩
  · rw [hsplit, ← hp]
    exact header_at hx.header_length (by rw [hp]; exact hk)
  · intro hend
    have hp' : ((pre ++ body (ts.take j)) ++ ts[j].headerBytes).length = pre.length + (body (ts.take j)).length + 240 := by
      rw [List.length_append, hp, hx.header_length]
    rw [hnext, ← hx.samples_length] at hend
    rw [hsplit, ← hp', ← List.append_assoc (pre ++ body (ts.take j)), List.drop_take, List.drop_left, List.take_take,
      Nat.min_eq_left (by omega), List.take_left]

/-! ## Chains -/

theorem chain_grow {T : Format} {e : Endian} {data : Bytes} {bps pos stop : Nat} {starts : List Nat}
    (h : TraceChain T e data bps pos starts stop) (extra : Bytes) :
    TraceChain T e (data ++ extra) bps pos starts stop := by
  induction h with
  | nil p => exact .nil p
  | cons hc hi _ ih =>
    refine .cons (by rw [List.length_append]; omega) ((indexable_grow hc extra).mpr hi) ?_
    rw [samplesAt_grow hc]
    exact ih

theorem chain_append {T : Format} {e : Endian} {data : Bytes} {bps pos mid stop : Nat} {starts starts' : List Nat}
    (h : TraceChain T e data bps pos starts mid) (h' : TraceChain T e data bps mid starts' stop) :
    TraceChain T e data bps pos (starts ++ starts') stop := by
  induction h with
  | nil p => exact h'
  | cons hc hi _ ih => exact .cons hc hi (ih h')

theorem chain_last {T : Format} {e : Endian} {data : Bytes} {bps pos stop : Nat} {starts : List Nat}
    (h : TraceChain T e data bps pos starts stop) {q : Nat} (hq : starts.getLast? = some q) :
    stop = q + 240 + samplesAt T e data q * bps := by
  induction h with
  | nil p => simp at hq
  | @cons p l stop hc hi hr ih =>
    cases l with
    | nil =>
      simp only [List.getLast?_singleton, Option.some.injEq] at hq
      subst hq
      cases hr
      rfl
    | cons a l =>
      rw [List.getLast?_cons_cons] at hq
      exact ih hq

/-! ## Readers of a file and of a longer one -/

variable {starts starts2 : List Nat} {n n2 : Nat → Nat} {t : SegYType} {e : Endian} {p : HeaderPacker} {r q : Reader}

theorem Finds.samples_at (hr : Finds starts n t e p r) (native : Endian) (i : Nat)
    (hi : i < starts.length) (start stop : Option Int) (s : FileH) :
    (r.traceSamples native i start stop s).1 =
      (if ¬ (0 ≤ stop.getD (n i) ∧ stop.getD (n i) ≤ n i) then .error .valueError
       else if ¬ (0 ≤ start.getD 0 ∧ start.getD 0 ≤ stop.getD (n i)) then .error .valueError
       else (readBinaryValues native ((starts[i] : Int) + 240 + start.getD 0 * t.size) t
        (stop.getD (n i) - start.getD 0) e s).1) := by
  rw [traceSamples_eq, hr.locate i hi, hr.endian]
  by_cases h1 : ¬ (0 ≤ stop.getD (n i) ∧ stop.getD (n i) ≤ n i)
  · rw [if_pos h1, if_pos h1]
  rw [if_neg h1, if_neg h1]
  by_cases h2 : ¬ (0 ≤ start.getD 0 ∧ start.getD 0 ≤ stop.getD (n i))
  · rw [if_pos h2, if_pos h2]
  rw [if_neg h2, if_neg h2]

theorem Finds.samples_longer (hr : Finds starts n t e p r) (hq : Finds starts2 n2 t e p q) (native : Endian) (i : Nat)
    (hi : i < starts.length) (hi2 : i < starts2.length) (hs : starts2[i] = starts[i]) (hn : n2 i = n i)
    (start stop : Option Int) (s s' : FileH)
    (h : (s'.data.drop (starts[i] + 240)).take (n i * t.size) = (s.data.drop (starts[i] + 240)).take (n i * t.size)) :
    (q.traceSamples native i start stop s').1 = (r.traceSamples native i start stop s).1 := by
  rw [← hr.samples_same hr native i hi start stop s s' h, hr.samples_at native i hi, hq.samples_at native i hi2, hs, hn]

end Segpy
