import Verif.Spec.Scan
import Verif.Model.Scan
import Verif.Lemmas.File
import Verif.Props.Packer
import Verif.Props.Catalog
import Verif.Lemmas.Float32

/-! # Lemmas about cataloguing -/

namespace Segpy

open Spec

namespace Spec

theorem TraceChain.length_le {T : Format} {e : Endian} {data : Bytes} {bps pos stop : Nat} {starts : List Nat}
    (h : TraceChain T e data bps pos starts stop) : starts ≠ [] → pos + 240 * starts.length ≤ data.length := by
  induction h with
  | nil => intro h; exact absurd rfl h
  | @cons pos starts stop hc _ hr ih =>
    intro _
    cases starts with
    | nil => simpa using hc
    | cons s l =>
      have := ih (by simp)
      generalize samplesAt T e data pos * bps = k at this
      simp only [List.length_cons] at this ⊢
      omega

theorem TraceChain.le_stop {T : Format} {e : Endian} {data : Bytes} {bps pos stop : Nat} {starts : List Nat}
    (h : TraceChain T e data bps pos starts stop) : pos ≤ stop ∧ ∀ s ∈ starts, pos ≤ s ∧ s + 240 ≤ stop ∧
      s + 240 ≤ data.length ∧ s + 240 + samplesAt T e data s * bps ≤ stop := by
  induction h with
  | nil => simp
  | @cons pos starts stop hc _ hr ih =>
    obtain ⟨h1, h2⟩ := ih
    generalize hk : samplesAt T e data pos * bps = k at h1 h2
    refine ⟨by omega, ?_⟩
    intro s hs
    rcases List.mem_cons.mp hs with rfl | hs
    · rw [hk]; exact ⟨by omega, by omega, hc, by omega⟩
    · have := h2 s hs
      exact ⟨by omega, this.2.1, this.2.2.1, this.2.2.2⟩

/-- Every file has a chain that ends for lack of room or at a header that cannot be indexed. -/
theorem chain_exists (T : Format) (e : Endian) (data : Bytes) (bps : Nat) (pos : Nat) :
    ∃ starts stop, TraceChain T e data bps pos starts stop ∧
      (data.length < stop + 240 ∨ (stop + 240 ≤ data.length ∧ ¬ Indexable T e data stop)) := by
  by_cases hc : pos + 240 ≤ data.length
  · by_cases hi : Indexable T e data pos
    · obtain ⟨starts, stop, h1, h2⟩ := chain_exists T e data bps (pos + 240 + samplesAt T e data pos * bps)
      exact ⟨pos :: starts, stop, .cons hc hi h1, h2⟩
    · exact ⟨[], pos, .nil pos, Or.inr ⟨hc, hi⟩⟩
  · exact ⟨[], pos, .nil pos, Or.inl (by omega)⟩
termination_by data.length - pos
decreasing_by
  generalize samplesAt T e data pos * bps = k
  omega

theorem chain_unique {T : Format} {e : Endian} {data : Bytes} {bps pos : Nat} {s1 s2 : List Nat} {q1 q2 : Nat}
    (h1 : TraceChain T e data bps pos s1 q1) (h2 : TraceChain T e data bps pos s2 q2)
    (e1 : data.length < q1 + 240 ∨ (q1 + 240 ≤ data.length ∧ ¬ Indexable T e data q1))
    (e2 : data.length < q2 + 240 ∨ (q2 + 240 ≤ data.length ∧ ¬ Indexable T e data q2)) : s1 = s2 ∧ q1 = q2 := by
  induction h1 generalizing s2 with
  | nil p =>
    cases h2 with
    | nil => exact ⟨rfl, rfl⟩
    | cons hc hi _ =>
      rcases e1 with e1 | ⟨_, e1⟩
      · omega
      · exact absurd hi e1
  | cons hc hi _ ih =>
    cases h2 with
    | nil =>
      rcases e2 with e2 | ⟨_, e2⟩
      · omega
      · exact absurd hi e2
    | cons hc' hi' hr' =>
      obtain ⟨h, h'⟩ := ih hr' e1
      exact ⟨by rw [h], h'⟩

theorem CatalogLayout.attr {T : Format} {e : Endian} (h : CatalogLayout T e) {name : String}
    (hn : name ∈ ["file_sequence_num", "ensemble_num", "num_samples", "inline_number", "crossline_number"]) :
    ∃ f, T.attr name = some f := Format.attr_of_mem (h.present name hn)

theorem Cataloguable.samples_nonneg {T : Format} {e : Endian} (h : Cataloguable T e) {data : Bytes} {pos : Nat}
    (hi : Indexable T e data pos) : 0 ≤ fieldAt T e data pos "num_samples" := by
  obtain ⟨f, hf⟩ := h.attr (name := "num_samples") (by simp)
  exact h.nonnegative f hf _ (hi "num_samples" (by simp) f hf)

/-- The packer of the cataloguing sub-format. -/
theorem CatalogLayout.packer {T : Format} {e : Endian} (h : CatalogLayout T e) :
    ∃ S q, T.subFormat "CatalogSubFormat" catalogFieldNames = .ok S ∧ makeHeaderPacker S e = .ok q ∧
      ∀ (data : Bytes) (pos : Nat), pos + 240 ≤ data.length →
        (Indexable T e data pos → ∃ hd, q.unpack (headerBytes data pos) = .ok hd ∧
          ∀ n ∈ catalogFieldNames, hd.get n = .ok (fieldAt T e data pos n)) ∧
        (¬ Indexable T e data pos → q.unpack (headerBytes data pos) = .error .valueError) := by
  obtain ⟨p, hp⟩ := h.packs
  have hS : ∃ S, T.subFormat "CatalogSubFormat" catalogFieldNames = .ok S :=
    ⟨_, subFormat_eq h.defaults _ _ h.present (by decide)⟩
  obtain ⟨S, hS⟩ := hS
  obtain ⟨q, hq, hu⟩ := Props.C30_sub_unpack_partial T S e p "CatalogSubFormat" catalogFieldNames hp h.afterStart
    h.defaults 240 h.length h.oneLayout h.present (by decide) (by decide) h.ordered hS
  refine ⟨S, q, hS, hq, ?_⟩
  intro data pos hpos
  have hl : (headerBytes data pos).length = 240 := by
    unfold headerBytes; rw [List.length_take, List.length_drop]; omega
  have hfa : ∀ n f, T.attr n = some f →
      fieldAt T e data pos n = storedInt e f.value_type.segy (T.fieldBytes f (headerBytes data pos)) := by
    intro n f hf; unfold fieldAt; rw [hf]
  rcases hu (headerBytes data pos) with ⟨hd, h1, _, h3⟩ | ⟨h1, h2⟩
  · refine ⟨fun _ => ⟨hd, h1, ?_⟩, fun hn => absurd ?_ hn⟩
    · intro n hn
      obtain ⟨f, hf⟩ := h.attr hn
      rw [(h3 n hn f hf).2, hfa n f hf]
    · intro n hn f hf
      rw [hfa n f hf]; exact (h3 n hn f hf).1
  · refine ⟨fun hi => ?_, fun _ => h1⟩
    exfalso
    rcases h2 with h2 | ⟨n, hn, f, hf, h2⟩
    · rw [hl] at h2; exact h2 rfl
    · have := hi n hn f hf
      rw [hfa n f hf] at this
      exact h2 this

end Spec

/-- The scan after the traces at `starts`, numbered from `n`, have been added. -/
def Scan.after (T : Format) (e : Endian) (data : Bytes) (n : Nat) (starts : List Nat) (stop : Nat) (scan : Scan) : Scan :=
  { offsets := scan.offsets ++ (starts.zipIdx n).map fun x => ((x.2 : Int), (x.1 : Int))
    lengths := scan.lengths ++ (starts.zipIdx n).map fun x => ((x.2 : Int), fieldAt T e data x.1 "num_samples")
    lines := scan.lines ++ (starts.zipIdx n).map fun x =>
      ((fieldAt T e data x.1 "inline_number", fieldAt T e data x.1 "crossline_number"), (x.2 : Int))
    cdps := scan.cdps ++ (starts.zipIdx n).map fun x => (fieldAt T e data x.1 "ensemble_num", (x.2 : Int))
    progress := scan.progress ++
      (starts ++ [stop]).map fun (p : Nat) => round64 (round64 (3 / 4 * round64 (p : Int)) / round64 data.length) }

theorem progressAt_ok {length : Nat} (h : length ≠ 0) (p : Nat) :
    progressAt p length = .ok (round64 (round64 (3 / 4 * round64 (p : Int)) / round64 length)) := by
  unfold progressAt; rw [if_neg h]

/-- The properties of the cataloguing packer that the loop relies on. -/
def PackerReads (q : HeaderPacker) (T : Format) (e : Endian) : Prop :=
  ∀ (data : Bytes) (pos : Nat), pos + 240 ≤ data.length →
    (Indexable T e data pos → ∃ hd, q.unpack (headerBytes data pos) = .ok hd ∧
      ∀ n ∈ catalogFieldNames, hd.get n = .ok (fieldAt T e data pos n)) ∧
    (¬ Indexable T e data pos → q.unpack (headerBytes data pos) = .error .valueError)

/-- One iteration that finds no room for a header. -/
theorem catalogLoop_end (q : HeaderPacker) (bps : Nat) (s : FileH) (h0 : s.data.length ≠ 0) (fuel n pos : Nat)
    (scan : Scan) (hend : s.data.length < pos + 240) :
    catalogLoop q bps s.data.length (fuel + 1) n pos scan s =
      (.ok { scan with progress := scan.progress ++
        [round64 (round64 (3 / 4 * round64 (pos : Int)) / round64 s.data.length)] }, { s with pos := pos + (headerBytes s.data pos).length }) := by
  unfold catalogLoop
  rw [progressAt_ok h0]
  simp only [FileM.bind_apply, FileM.lift_apply, FileM.seek_apply, FileM.read_apply]
  rw [if_pos (by rw [List.length_take, List.length_drop]; unfold TRACE_HEADER_NUM_BYTES; omega)]
  rfl

/-- One iteration that finds a header that cannot be indexed. -/
theorem catalogLoop_bad (q : HeaderPacker) (T : Format) (e : Endian) (hq : PackerReads q T e) (bps : Nat) (s : FileH)
    (h0 : s.data.length ≠ 0) (fuel n pos : Nat) (scan : Scan) (hpos : pos + 240 ≤ s.data.length)
    (hbad : ¬ Indexable T e s.data pos) :
    catalogLoop q bps s.data.length (fuel + 1) n pos scan s =
      (.error .valueError, { s with pos := pos + (headerBytes s.data pos).length }) := by
  unfold catalogLoop
  rw [progressAt_ok h0]
  simp only [FileM.bind_apply, FileM.lift_apply, FileM.seek_apply, FileM.read_apply]
  rw [if_neg (by rw [List.length_take, List.length_drop]; unfold TRACE_HEADER_NUM_BYTES; omega)]
  have hu := (hq s.data pos hpos).2 hbad
  unfold headerBytes at hu
  unfold Scan.addTrace
  simp only [TRACE_HEADER_NUM_BYTES, hu, bind, Except.bind]
  rfl

/-- One iteration that finds an indexable header. -/
theorem catalogLoop_step (q : HeaderPacker) (T : Format) (e : Endian) (hq : PackerReads q T e) (bps : Nat) (s : FileH)
    (h0 : s.data.length ≠ 0) (fuel n pos : Nat) (scan : Scan) (hpos : pos + 240 ≤ s.data.length)
    (hi : Indexable T e s.data pos) :
    catalogLoop q bps s.data.length (fuel + 1) n pos scan s =
      catalogLoop q bps s.data.length fuel (n + 1)
        ((pos : Int) + 240 + fieldAt T e s.data pos "num_samples" * bps)
        { offsets := scan.offsets ++ [((n : Int), (pos : Int))]
          lengths := scan.lengths ++ [((n : Int), fieldAt T e s.data pos "num_samples")]
          lines := scan.lines ++ [((fieldAt T e s.data pos "inline_number", fieldAt T e s.data pos "crossline_number"),
            (n : Int))]
          cdps := scan.cdps ++ [(fieldAt T e s.data pos "ensemble_num", (n : Int))]
          progress := scan.progress ++
            [round64 (round64 (3 / 4 * round64 (pos : Int)) / round64 s.data.length)] }
        { s with pos := pos + (headerBytes s.data pos).length } := by
  obtain ⟨hd, hu, hg⟩ := (hq s.data pos hpos).1 hi
  conv => enter [1]; unfold catalogLoop
  rw [progressAt_ok h0]
  simp only [FileM.bind_apply, FileM.lift_apply, FileM.seek_apply, FileM.read_apply]
  rw [if_neg (by rw [List.length_take, List.length_drop]; unfold TRACE_HEADER_NUM_BYTES; omega)]
  unfold headerBytes at hu
  unfold Scan.addTrace
  simp only [TRACE_HEADER_NUM_BYTES, hu, bind, Except.bind, pure, Except.pure,
    hg "num_samples" (by decide), hg "inline_number" (by decide), hg "crossline_number" (by decide),
    hg "ensemble_num" (by decide)]
  rfl

theorem catalogLoop_ok {q : HeaderPacker} {T : Format} {e : Endian} (hq : PackerReads q T e) (hT : Cataloguable T e)
    {bps : Nat} {data : Bytes} (h0 : data.length ≠ 0) {pos stop : Nat} {starts : List Nat}
    (hc : TraceChain T e data bps pos starts stop) :
    ∀ (s : FileH), s.data = data → ∀ (fuel n : Nat) (scan : Scan), starts.length < fuel →
    (data.length < stop + 240 →
      catalogLoop q bps data.length fuel n pos scan s = (.ok (scan.after T e data n starts stop),
        { s with pos := stop + (headerBytes data stop).length })) ∧
    (stop + 240 ≤ data.length → ¬ Indexable T e data stop →
      catalogLoop q bps data.length fuel n pos scan s =
        (.error .valueError, { s with pos := stop + (headerBytes data stop).length })) := by
  induction hc with
  | nil p =>
    intro s hs fuel n scan hf
    subst hs
    obtain ⟨fuel, rfl⟩ : ∃ f, fuel = f + 1 := ⟨fuel - 1, by simp at hf; omega⟩
    refine ⟨fun hend => ?_, fun hp hb => catalogLoop_bad q T e hq bps s h0 fuel n p scan hp hb⟩
    rw [catalogLoop_end q bps s h0 fuel n p scan hend]
    unfold Scan.after
    simp
  | @cons p starts stop hp hi _ ih =>
    intro s hs fuel n scan hf
    subst hs
    obtain ⟨fuel, rfl⟩ : ∃ f, fuel = f + 1 := ⟨fuel - 1, by omega⟩
    rw [catalogLoop_step q T e hq bps s h0 fuel n p scan hp hi]
    have hnn := hT.samples_nonneg hi
    have hpos : ((p : Int) + 240 + fieldAt T e s.data p "num_samples" * bps) =
        ((p + 240 + samplesAt T e s.data p * bps : Nat) : Int) := by
      unfold samplesAt
      push_cast
      rw [Int.toNat_of_nonneg hnn]
    rw [hpos]
    obtain ⟨i1, i2⟩ := ih { s with pos := p + (headerBytes s.data p).length } rfl fuel (n + 1) _ (by rw [List.length_cons] at hf; omega)
    constructor
    · intro hend
      rw [i1 hend]
      unfold Scan.after
      simp [List.zipIdx_cons]
    · intro h1 h2
      exact i2 h1 h2

/-- `catalog_traces` once its packer is known. -/
theorem catalogTracesFuel_eq {T S : Format} {e : Endian} {q : HeaderPacker}
    (hS : T.subFormat "CatalogSubFormat" catalogFieldNames = .ok S) (hq : makeHeaderPacker S e = .ok q) (fuel bps : Nat)
    (s : FileH) :
    catalogTracesFuel fuel bps T e s =
      (do let scan ← catalogLoop q bps s.data.length fuel 0 s.pos {}; FileM.lift scan.create) s := by
  unfold catalogTracesFuel
  simp only [FileM.bind_apply, FileM.lift_apply, hS, hq, fileLength, FileM.tell_apply]

theorem zipIdx_keys {α : Type} (f : Nat → α) (l : List Nat) (n : Nat) :
    ((l.zipIdx n).map fun x => (f x.1, (x.2 : Int))).map Prod.fst = l.map f := by
  induction l generalizing n with
  | nil => rfl
  | cons a l ih => rw [List.zipIdx_cons, List.map_cons, List.map_cons, ih]; rfl

theorem zipIdx_numbers_nodup (f : Nat → Int) (l : List Nat) :
    ((l.zipIdx.map fun x => ((x.2 : Int), f x.1)).map Prod.fst).Nodup := by
  have h : (l.zipIdx.map fun x => ((x.2 : Int), f x.1)).map Prod.fst = (l.zipIdx.map Prod.snd).map Nat.cast := by
    rw [List.map_map, List.map_map]; rfl
  rw [h, List.zipIdx_map_snd]
  exact (List.nodup_range' (step := 1)).map Nat.cast_injective

/-- What `create` makes of the traces found. -/
theorem Scan.create_after (T : Format) (e : Endian) (data : Bytes) {starts : List Nat} (hne : starts ≠ []) (stop : Nat) :
    ∃ c, (Scan.after T e data 0 starts stop {}).create = .ok c ∧
      Indexes T e data starts c.trace_offset c.trace_length c.cdp c.line ∧
      c.progress = ((starts ++ [stop]).map fun (p : Nat) =>
        round64 (round64 (3 / 4 * round64 (p : Int)) / round64 data.length)) ++ [3 / 4, 15 / 16, 9 / 8, 21 / 16, 1] := by
  have hz : starts.zipIdx ≠ [] := by simpa using hne
  unfold Scan.create Scan.after
  simp only [List.nil_append]
  obtain ⟨c1, h1, r1⟩ := Props.C21_refines (starts.zipIdx.map fun x => ((x.2 : Int), (x.1 : Int)))
    (by simpa using hne) (zipIdx_numbers_nodup _ _)
  obtain ⟨c2, h2, r2⟩ := Props.C21_refines
    (starts.zipIdx.map fun x => ((x.2 : Int), fieldAt T e data x.1 "num_samples")) (by simpa using hne)
    (zipIdx_numbers_nodup (fun p => fieldAt T e data p "num_samples") _)
  have k3 := zipIdx_keys (fun p => fieldAt T e data p "ensemble_num") starts 0
  have k4 := zipIdx_keys (fun p => (fieldAt T e data p "inline_number", fieldAt T e data p "crossline_number")) starts 0
  have h3 : ∃ o, createCatalogInt (starts.zipIdx.map fun x => (fieldAt T e data x.1 "ensemble_num", (x.2 : Int))) = .ok o ∧
      ((starts.map fun p => fieldAt T e data p "ensemble_num").Nodup →
        ∃ c, o = some c ∧ Refines1 (toNumber starts fun p => fieldAt T e data p "ensemble_num") c) ∧
      (¬ (starts.map fun p => fieldAt T e data p "ensemble_num").Nodup → o = none) := by
    by_cases hn : (starts.map fun p => fieldAt T e data p "ensemble_num").Nodup
    · obtain ⟨c, hc, r⟩ := Props.C21_refines
        (starts.zipIdx.map fun x => (fieldAt T e data x.1 "ensemble_num", (x.2 : Int))) (by simpa using hne)
        (by rw [k3]; exact hn)
      exact ⟨some c, hc, fun _ => ⟨c, rfl, r⟩, fun h => absurd hn h⟩
    · exact ⟨none, (Props.C23_duplicates_int _ (by simpa using hne)).mpr (by rw [k3]; exact hn), fun h => absurd h hn,
        fun _ => rfl⟩
  have h4 : ∃ o, createCatalogPair (starts.zipIdx.map fun x =>
        ((fieldAt T e data x.1 "inline_number", fieldAt T e data x.1 "crossline_number"), (x.2 : Int))) = .ok o ∧
      ((starts.map fun p => (fieldAt T e data p "inline_number", fieldAt T e data p "crossline_number")).Nodup →
        ∃ c, o = some c ∧ Refines2
          (toNumber starts fun p => (fieldAt T e data p "inline_number", fieldAt T e data p "crossline_number")) c) ∧
      (¬ (starts.map fun p => (fieldAt T e data p "inline_number", fieldAt T e data p "crossline_number")).Nodup →
        o = none) := by
    by_cases hn : (starts.map fun p => (fieldAt T e data p "inline_number", fieldAt T e data p "crossline_number")).Nodup
    · obtain ⟨c, hc, r⟩ := Props.C22_refines
        (starts.zipIdx.map fun x =>
          ((fieldAt T e data x.1 "inline_number", fieldAt T e data x.1 "crossline_number"), (x.2 : Int)))
        (by simpa using hne) (by rw [k4]; exact hn)
      exact ⟨some c, hc, fun _ => ⟨c, rfl, r⟩, fun h => absurd hn h⟩
    · exact ⟨none, (Props.C23_duplicates_pair _ (by simpa using hne)).mpr (by rw [k4]; exact hn), fun h => absurd h hn,
        fun _ => rfl⟩
  obtain ⟨o3, h3, a3, b3⟩ := h3
  obtain ⟨o4, h4, a4, b4⟩ := h4
  simp only [h1, h2, h3, h4, bind, Except.bind, pure, Except.pure]
  refine ⟨_, rfl, ⟨⟨c1, rfl, r1⟩, ⟨c2, rfl, r2⟩, a3, b3, a4, b4⟩, ?_⟩
  norm_num

end Segpy
