import Verif.Lemmas.Header

/-!
# Lemmas about header packers
-/

namespace Segpy

instance : Inhabited Field := ⟨⟨"", ⟨"", .int16, 0, 0, none⟩, 0, 0⟩⟩

/-- The first field of a group. -/
def repOf (q : Int × List Field) : Field := q.2.headD default

/-- The places of the groups in the packed header. -/
def natSlots (d : List (Int × List Field)) : List Slot :=
  d.map fun q => (q.1.toNat, (repOf q).value_type.segy.code)

theorem groupSlots_eq {s : Int} {d : List (Int × List Field)} (h : Groups s d) :
    (groupSlots d).map (fun t => (t.1.toNat, t.2)) = natSlots d := by
  have : ∀ d : List (Int × List Field), (∀ q ∈ d, ∃ f rest, q.2 = f :: rest) →
      (groupSlots d).map (fun t => (t.1.toNat, t.2)) = natSlots d := by
    intro d
    induction d with
    | nil => intro _; rfl
    | cons q d ih =>
      intro h
      obtain ⟨f, rest, hq⟩ := h q (by simp)
      have := ih fun q hq => h q (List.mem_cons_of_mem _ hq)
      simp only [groupSlots, natSlots, List.filterMap_cons, hq, List.head?_cons, Option.map_some, List.map_cons,
        repOf, List.headD_cons] at this ⊢
      rw [this]
  apply this
  intro q hq
  obtain ⟨f, rest, h1, _⟩ := h.2 q hq
  exact ⟨f, rest, h1⟩

theorem Groups.rep_mem {s : Int} {d : List (Int × List Field)} (h : Groups s d) {q : Int × List Field}
    (hq : q ∈ d) : repOf q ∈ q.2 ∧ (repOf q).offset - s = q.1 ∧
      ∀ g ∈ q.2, g.offset - s = q.1 ∧ g.value_type = (repOf q).value_type := by
  obtain ⟨f, rest, h1, h2⟩ := h.2 q hq
  have : repOf q = f := by unfold repOf; rw [h1]; rfl
  rw [this]
  have hm : f ∈ q.2 := by rw [h1]; simp
  exact ⟨hm, (h2 f hm).1, h2⟩

theorem Groups.tail {s : Int} {q : Int × List Field} {d : List (Int × List Field)} (h : Groups s (q :: d)) :
    Groups s d := by
  refine ⟨?_, fun p hp => h.2 p (List.mem_cons_of_mem _ hp)⟩
  have := h.1
  rw [List.map_cons] at this
  exact (List.pairwise_cons.1 this).2

theorem laid_groups {s : Int} (n : Nat) (d : List (Int × List Field)) (idx : Nat) (h : Groups s d)
    (hc : ∀ f ∈ d.flatMap Prod.snd, ∀ g ∈ d.flatMap Prod.snd, f.Disjoint g ∨ f.Coincident g)
    (h0 : ∀ q ∈ d, (idx : Int) ≤ q.1) (hi : idx ≤ n)
    (hn : ∀ f ∈ d.flatMap Prod.snd, f.offset - s + f.value_type.size ≤ n) :
    Laid n idx (natSlots d) := by
  induction d generalizing idx with
  | nil => exact hi
  | cons q d ih =>
    have hq0 := h0 q (by simp)
    obtain ⟨hm, ho, _⟩ := h.rep_mem (q := q) (by simp)
    have hmf : repOf q ∈ (q :: d).flatMap Prod.snd := List.mem_flatMap.2 ⟨q, by simp, hm⟩
    refine ⟨?_, (repOf q).value_type.segy.size_pos, ?_⟩
    · simp only; omega
    · have hsz : (repOf q).value_type.segy.code.size = (repOf q).value_type.size := rfl
      apply ih
      · exact h.tail
      · intro f hf g hg
        exact hc f (by rw [List.flatMap_cons]; exact List.mem_append_right _ hf) g
          (by rw [List.flatMap_cons]; exact List.mem_append_right _ hg)
      · intro p hp
        obtain ⟨pm, po, _⟩ := h.tail.rep_mem hp
        have hlt : q.1 < p.1 := by
          have := h.1
          rw [List.map_cons] at this
          exact (List.pairwise_cons.1 this).1 p.1 (List.mem_map_of_mem hp)
        have hpf : repOf p ∈ (q :: d).flatMap Prod.snd :=
          List.mem_flatMap.2 ⟨p, List.mem_cons_of_mem _ hp, pm⟩
        simp only [hsz]
        rcases hc _ hmf _ hpf with (h1 | h1) | h1
        · omega
        · have := (repOf p).value_type.size_pos
          omega
        · have := h1.1
          omega
      · simp only [hsz]
        have := hn _ hmf
        omega
      · intro f hf
        exact hn f (by rw [List.flatMap_cons]; exact List.mem_append_right _ hf)

/-- What is known about the packer of a format. -/
structure PackerOf (F : Format) (e : Endian) (p : HeaderPacker) (d : List (Int × List Field)) (n : Nat) : Prop where
  groups : Groups F.startOffset d
  flat : d.flatMap Prod.snd = F.sortedFields
  format : p.format = F
  struct : p.structure_ = ⟨e, layout n 0 (natSlots d)⟩
  alloc : p.allocations = d.map fun q => q.2.map Field.name
  bij : p.bijective = d.all fun q => decide (q.2.length = 1)
  laid : Laid n 0 (natSlots d)
  length : F.packedLength n
  fits : ∀ f ∈ F.fields, f.offset - F.startOffset + f.value_type.size ≤ n
  nonneg : ∀ q ∈ d, 0 ≤ q.1

theorem makeHeaderPacker_isOk (F : Format) (e : Endian) :
    (∃ p, makeHeaderPacker F e = .ok p) ↔ Accepts F F.startOffset F.lengthInBytes := by
  constructor
  · rintro ⟨p, hp⟩
    unfold makeHeaderPacker at hp
    simp only [bind, Except.bind] at hp
    cases hc : compileStruct F F.startOffset F.lengthInBytes e with
    | error err => rw [hc] at hp; simp at hp
    | ok r => exact accepts_of_ok hc
  · intro h
    obtain ⟨d, last, hg, hf, hl, hc⟩ := compileStruct_ok e h
    unfold makeHeaderPacker
    rw [hc]
    simp only [bind, Except.bind]
    have := parse_formatChunks (F.lengthInBytes.getD (last.offset - F.startOffset + last.value_type.size)) d 0
    cases e <;> (simp only [Endian.char, Struct.parse, bind, Except.bind]; rw [this]; exact ⟨_, rfl⟩)

theorem makeHeaderPacker_spec {F : Format} {e : Endian} {p : HeaderPacker} (h : makeHeaderPacker F e = .ok p)
    (ha : F.AfterStart) : ∃ d n, PackerOf F e p d n := by
  have hacc := (makeHeaderPacker_isOk F e).1 ⟨p, h⟩
  obtain ⟨d, last, hg, hf, hl, hc⟩ := compileStruct_ok e hacc
  have hlm : last ∈ F.fields := Format.mem_sortedFields.1 (List.mem_of_getLast? hl)
  have hflat : ∀ f, f ∈ d.flatMap Prod.snd ↔ f ∈ F.fields := by
    intro f; rw [hf]; exact Format.mem_sortedFields
  have hnonneg : ∀ q ∈ d, 0 ≤ q.1 := by
    intro q hq
    obtain ⟨hm, ho, _⟩ := hg.rep_mem hq
    have := ha _ ((hflat _).1 (List.mem_flatMap.2 ⟨q, hq, hm⟩))
    omega
  have hlast : ∀ f ∈ F.fields, f.offset - F.startOffset + f.value_type.size
      ≤ last.offset - F.startOffset + last.value_type.size := by
    intro f hfm
    have hle : f.offset ≤ last.offset := by
      have hfs := Format.mem_sortedFields.2 hfm
      obtain ⟨i, hi, rfl⟩ := List.mem_iff_getElem.1 hfs
      rw [List.getLast?_eq_getElem?] at hl
      have hlt : F.sortedFields.length - 1 < F.sortedFields.length := by omega
      rw [List.getElem?_eq_getElem hlt, Option.some.injEq] at hl
      rcases Nat.lt_or_ge i (F.sortedFields.length - 1) with h1 | h1
      · rw [← hl]
        exact (List.pairwise_iff_getElem.1 F.sortedFields_pairwise) i _ hi hlt h1
      · rw [← hl]
        apply le_of_eq
        congr 2
        omega
    rcases hacc.compatible f hfm last hlm with (h1 | h1) | h1
    · have := last.value_type.size_pos
      omega
    · have := f.value_type.size_pos
      have := last.value_type.size_pos
      omega
    · have h2 := h1.2
      rw [h1.1, h1.2]
  have hpos : 0 ≤ last.offset - F.startOffset := by have := ha last hlm; omega
  obtain ⟨n, hn⟩ : ∃ n : Nat,
      F.lengthInBytes.getD (last.offset - F.startOffset + last.value_type.size) = (n : Int) := by
    cases hL : F.lengthInBytes with
    | none => exact ⟨(last.offset - F.startOffset + last.value_type.size).toNat, by
        simp only [Option.getD_none]; omega⟩
    | some m => exact ⟨m.toNat, by have := hacc.length m hL; simp only [Option.getD_some]; omega⟩
  have hfits : ∀ f ∈ F.fields, f.offset - F.startOffset + f.value_type.size ≤ n := by
    intro f hfm
    cases hL : F.lengthInBytes with
    | none =>
      rw [hL] at hn
      simp only [Option.getD_none] at hn
      rw [← hn]
      exact hlast f hfm
    | some m =>
      rw [hL] at hn
      simp only [Option.getD_some] at hn
      rw [← hn]
      exact hacc.fits m hL f hfm
  refine ⟨d, n, ?_⟩
  unfold makeHeaderPacker at h
  rw [hc] at h
  simp only [bind, Except.bind] at h
  have hparse := parse_formatChunks (n : Int) d 0
  have hraw := rawLayout_eq n (groupSlots d) 0 (by
    intro t ht
    unfold groupSlots at ht
    obtain ⟨q, hq, hq2⟩ := List.mem_filterMap.1 ht
    obtain ⟨f, _, rfl⟩ := Option.map_eq_some_iff.1 hq2
    exact hnonneg q hq)
  rw [groupSlots_eq hg] at hraw
  rw [show ((0 : Nat) : Int) = 0 from rfl] at hraw
  rw [hraw] at hparse
  rw [hn] at h
  have hfin : p = ⟨F, ⟨e, layout n 0 (natSlots d)⟩, d.map fun q => q.2.map Field.name,
      (d.map fun q => q.2.map Field.name).all fun names => names.length = 1⟩ := by
    cases e <;>
      (simp only [Endian.char, Struct.parse, bind, Except.bind] at h
       rw [hparse] at h
       simp only [pure, Except.pure, Except.ok.injEq] at h
       exact h.symm)
  subst hfin
  refine ⟨hg, hf, rfl, rfl, rfl, ?_, ?_, ?_, hfits, hnonneg⟩
  · simp [List.all_map, Function.comp_def]
  · apply laid_groups n d 0 hg
    · intro f hf1 g hg1
      exact hacc.compatible f ((hflat f).1 hf1) g ((hflat g).1 hg1)
    · simpa using hnonneg
    · omega
    · intro f hf1
      exact hfits f ((hflat f).1 hf1)
  · unfold Format.packedLength
    cases hL : F.lengthInBytes with
    | none =>
      rw [hL] at hn
      simp only [Option.getD_none] at hn
      exact ⟨hfits, last, hlm, hn⟩
    | some m =>
      rw [hL] at hn
      simp only [Option.getD_some] at hn
      exact hn.symm

/-! ## Packing -/

/-- The value of a field of a header, if it has it. -/
def Header.val (h : Header) (n : String) : Int :=
  match h.get n with
  | .ok v => v
  | .error _ => 0

theorem Header.get_val {h : Header} {n : String} {f : Field} (hf : h.format.attr n = some f) :
    h.get n = .ok (h.val n) := by
  obtain ⟨v, hv⟩ := Header.get_of_attr hf
  unfold Header.val
  rw [hv]

theorem Format.attr_of_prefix {F G : Format} (hp : F.isPrefixOf G = true) {n : String} {f : Field}
    (hf : F.attr n = some f) : ∃ g, G.attr n = some g := by
  apply Format.attr_of_mem
  have := Format.mem_names_of_attr hf
  obtain ⟨t, rfl⟩ := List.isPrefixOf_iff_prefix.1 hp
  unfold Format.orderedFieldNames at *
  rw [List.flatMap_append]
  exact List.mem_append_left _ this

theorem mapM_ok {α β : Type} (f : α → Res β) (g : α → β) (l : List α) (h : ∀ a ∈ l, f a = .ok (g a)) :
    l.mapM f = .ok (l.map g) := by
  induction l with
  | nil => rfl
  | cons a l ih =>
    rw [List.mapM_cons, h a (by simp), ih fun b hb => h b (List.mem_cons_of_mem _ hb)]
    rfl

section
variable {F : Format} {e : Endian} {p : HeaderPacker} {d : List (Int × List Field)} {n : Nat}

theorem PackerOf.mem_flat (P : PackerOf F e p d n) (f : Field) :
    f ∈ F.fields ↔ ∃ q ∈ d, f ∈ q.2 := by
  rw [← Format.mem_sortedFields, ← P.flat, List.mem_flatMap]

/-- The values a packer reads from a header. -/
def groupValues (d : List (Int × List Field)) (h : Header) : List Int := d.map fun q => h.val (repOf q).name

open Classical in
theorem PackerOf.pack_eq (P : PackerOf F e p d n) {h : Header} (hp : F.isPrefixOf h.format = true) :
    p.pack h = if ∀ q ∈ d, ∀ f ∈ q.2, ∀ g ∈ q.2, h.val f.name = h.val g.name
      then packItems e (layout n 0 (natSlots d)) (groupValues d h) else .error .valueError := by
  have hget : ∀ q ∈ d, ∀ f ∈ q.2, h.get f.name = .ok (h.val f.name) := by
    intro q hq f hf
    have := Format.mem_fields.1 ((P.mem_flat f).2 ⟨q, hq, hf⟩)
    obtain ⟨g, hg⟩ := Format.attr_of_prefix hp this
    exact Header.get_val hg
  have hfirst : p.allocations.mapM (HeaderPacker.firstValue h) = .ok (groupValues d h) := by
    rw [P.alloc, List.mapM_map]
    apply mapM_ok
    intro q hq
    obtain ⟨hm, _, _⟩ := P.groups.rep_mem hq
    obtain ⟨f, rest, hq2, _⟩ := P.groups.2 q hq
    have : repOf q = f := by unfold repOf; rw [hq2]; rfl
    unfold HeaderPacker.firstValue
    simp only [Function.comp, hq2, List.map_cons]
    have hg0 : pyGet (f.name :: rest.map Field.name) 0 = .ok f.name := pyGet_zero _ (by simp)
    rw [hg0, this]
    exact hget q hq f (by rw [hq2]; simp)
  unfold HeaderPacker.pack
  rw [P.format, if_neg (by simp [hp]), hfirst, P.struct]
  have hvals : (p.allocations.mapM fun names => names.mapM h.get)
      = .ok (d.map fun q => q.2.map fun f => h.val f.name) := by
    rw [P.alloc, List.mapM_map]
    apply mapM_ok
    intro q hq
    simp only [Function.comp]
    rw [List.mapM_map]
    apply mapM_ok
    intro f hf
    exact hget q hq f hf
  rw [hvals]
  simp only [bind, Except.bind, Struct.pack]
  by_cases hb : p.bijective = true
  · rw [if_neg (by simp [hb]), if_pos]
    · intro q hq f hf g hg
      rw [P.bij, List.all_eq_true] at hb
      have := hb q hq
      rw [decide_eq_true_eq] at this
      obtain ⟨a, ha⟩ := List.length_eq_one_iff.1 this
      rw [ha, List.mem_singleton] at hf hg
      rw [hf, hg]
  · rw [if_pos hb]
    by_cases hall : ∀ q ∈ d, ∀ f ∈ q.2, ∀ g ∈ q.2, h.val f.name = h.val g.name
    · rw [if_pos hall, if_neg]
      rw [List.any_eq_true]
      rintro ⟨vs, hvs, hne⟩
      obtain ⟨q, hq, rfl⟩ := List.mem_map.1 hvs
      rw [decide_eq_true_eq] at hne
      apply hne
      rw [allEqual_iff]
      intro x hx y hy
      obtain ⟨f, hf, rfl⟩ := List.mem_map.1 hx
      obtain ⟨g, hg, rfl⟩ := List.mem_map.1 hy
      exact hall q hq f hf g hg
    · rw [if_neg hall, if_pos]
      rw [List.any_eq_true]
      push Not at hall
      obtain ⟨q, hq, f, hf, g, hg, hfg⟩ := hall
      refine ⟨_, List.mem_map_of_mem hq, ?_⟩
      rw [decide_eq_true_eq, allEqual_iff]
      intro hc
      exact hfg (hc _ (List.mem_map_of_mem hf) _ (List.mem_map_of_mem hg))

theorem PackerOf.storable_iff (P : PackerOf F e p d n) (h : Header)
    (hall : ∀ q ∈ d, ∀ f ∈ q.2, ∀ g ∈ q.2, h.val f.name = h.val g.name) :
    List.Forall₂ (fun s v => s.2.lo ≤ v ∧ v ≤ s.2.hi) (natSlots d) (groupValues d h) ↔
      ∀ f ∈ F.fields, f.value_type.segy.Storable (h.val f.name) := by
  unfold natSlots groupValues
  rw [List.forall₂_map_left_iff, List.forall₂_map_right_iff, List.forall₂_same]
  constructor
  · intro h1 f hf
    obtain ⟨q, hq, hfq⟩ := (P.mem_flat f).1 hf
    obtain ⟨hm, _, hty⟩ := P.groups.rep_mem hq
    rw [hall q hq f hfq _ hm, (hty f hfq).2, IntType.storable_iff]
    exact h1 q hq
  · intro h1 q hq
    obtain ⟨hm, _, _⟩ := P.groups.rep_mem hq
    have := h1 _ ((P.mem_flat _).2 ⟨q, hq, hm⟩)
    rwa [IntType.storable_iff] at this

theorem PackerOf.coincident_iff (P : PackerOf F e p d n) (h : Header) :
    (∀ q ∈ d, ∀ f ∈ q.2, ∀ g ∈ q.2, h.val f.name = h.val g.name) ↔
      ∀ f ∈ F.fields, ∀ g ∈ F.fields, f.offset = g.offset → h.val f.name = h.val g.name := by
  constructor
  · intro h1 f hf g hg hfg
    obtain ⟨q, hq, hfq⟩ := (P.mem_flat f).1 hf
    obtain ⟨r, hr, hgr⟩ := (P.mem_flat g).1 hg
    obtain ⟨_, _, hty⟩ := P.groups.rep_mem hq
    obtain ⟨_, _, hty'⟩ := P.groups.rep_mem hr
    have e1 := (hty f hfq).1
    have e2 := (hty' g hgr).1
    have hnd : (d.map Prod.fst).Nodup := P.groups.1.imp fun h => ne_of_lt h
    have : q = r := List.inj_on_of_nodup_map hnd hq hr (by omega)
    subst this
    exact h1 q hq f hfq g hgr
  · intro h1 q hq f hf g hg
    obtain ⟨_, _, hty⟩ := P.groups.rep_mem hq
    have e1 := (hty f hf).1
    have e2 := (hty g hg).1
    exact h1 f ((P.mem_flat f).2 ⟨q, hq, hf⟩) g ((P.mem_flat g).2 ⟨q, hq, hg⟩) (by omega)

theorem PackerOf.slots_length (h : Header) : (natSlots d).length = (groupValues d h).length := by
  simp [natSlots, groupValues]

/-- What a successful `pack` tells about the header and the bytes. -/
theorem PackerOf.pack_ok (P : PackerOf F e p d n) {h : Header} (hp : F.isPrefixOf h.format = true) {bs : Bytes}
    (hb : p.pack h = .ok bs) :
    (∀ f ∈ F.fields, ∀ g ∈ F.fields, f.offset = g.offset → h.val f.name = h.val g.name) ∧
    (∀ f ∈ F.fields, f.value_type.segy.Storable (h.val f.name)) ∧
    bs = layoutBytes e n 0 (natSlots d) (groupValues d h) := by
  classical
  rw [P.pack_eq hp] at hb
  split at hb
  · rename_i hall
    by_cases hst : List.Forall₂ (fun s v => s.2.lo ≤ v ∧ v ≤ s.2.hi) (natSlots d) (groupValues d h)
    · rw [packItems_layout e n 0 _ _ hst] at hb
      refine ⟨(P.coincident_iff h).1 hall, (P.storable_iff h hall).1 hst, ?_⟩
      injection hb with hb
      exact hb.symm
    · rw [packItems_layout_error e n 0 _ _ (PackerOf.slots_length h) hst] at hb
      simp at hb
  · simp at hb

theorem PackerOf.pack_of (P : PackerOf F e p d n) {h : Header} (hp : F.isPrefixOf h.format = true)
    (h1 : ∀ f ∈ F.fields, ∀ g ∈ F.fields, f.offset = g.offset → h.val f.name = h.val g.name)
    (h2 : ∀ f ∈ F.fields, f.value_type.segy.Storable (h.val f.name)) :
    p.pack h = .ok (layoutBytes e n 0 (natSlots d) (groupValues d h)) := by
  classical
  have hall := (P.coincident_iff h).2 h1
  rw [P.pack_eq hp, if_pos hall]
  exact packItems_layout e n 0 _ _ ((P.storable_iff h hall).2 h2)

/-- The bytes of a field in a packed header. -/
theorem PackerOf.field_bytes (P : PackerOf F e p d n) {h : Header}
    (h1 : ∀ f ∈ F.fields, ∀ g ∈ F.fields, f.offset = g.offset → h.val f.name = h.val g.name)
    (f : Field) (hf : f ∈ F.fields) :
    F.fieldBytes f (layoutBytes e n 0 (natSlots d) (groupValues d h))
      = encodeInt e f.value_type.size (h.val f.name) := by
  obtain ⟨q, hq, hfq⟩ := (P.mem_flat f).1 hf
  obtain ⟨hm, _, hty⟩ := P.groups.rep_mem hq
  have hsl := layoutBytes_slot (e := e) P.laid (PackerOf.slots_length h)
  unfold natSlots groupValues at hsl
  rw [List.forall₂_map_left_iff, List.forall₂_map_right_iff, List.forall₂_same] at hsl
  have := hsl q hq
  unfold Format.fieldBytes slice
  have e1 := (hty f hfq)
  have hall := (P.coincident_iff h).2 h1
  rw [hall q hq f hfq _ hm, e1.1, e1.2]
  exact this

theorem PackerOf.gap_bytes (P : PackerOf F e p d n) {h : Header} (k : Nat) (hk : k < n) (hg : F.Gap k) :
    (layoutBytes e n 0 (natSlots d) (groupValues d h))[k]? = some 0 := by
  have := layoutBytes_gap (e := e) P.laid (PackerOf.slots_length h) k (by omega) hk (by
    intro s hs
    obtain ⟨q, hq, rfl⟩ := List.mem_map.1 hs
    obtain ⟨hm, ho, _⟩ := P.groups.rep_mem hq
    have := hg _ ((P.mem_flat _).2 ⟨q, hq, hm⟩)
    have h0 := P.nonneg q hq
    simp only [IntType.code, ValueType.size] at *
    omega)
  simpa using this

theorem PackerOf.bytes_length (P : PackerOf F e p d n) (h : Header) :
    (layoutBytes e n 0 (natSlots d) (groupValues d h)).length = n := by
  simpa using layoutBytes_length (e := e) P.laid (PackerOf.slots_length h)

/-! ## Unpacking -/

/-- The value of a field in a buffer. -/
def Format.rawValue (F : Format) (e : Endian) (bs : Bytes) (f : Field) : Int :=
  decodeInt e f.value_type.segy.code.signed (F.fieldBytes f bs)

theorem PackerOf.struct_unpack (P : PackerOf F e p d n) (bs : Bytes) :
    p.structure_.unpack bs = if bs.length = n then
      .ok (d.map fun q => F.rawValue e bs (repOf q)) else .error .structError := by
  rw [P.struct]
  unfold Struct.unpack Struct.size
  simp only
  rw [layout_size P.laid, Nat.sub_zero, unpackItems_layout e n 0 _ _ P.laid]
  congr 2
  unfold natSlots
  rw [List.map_map]
  apply List.map_congr_left
  intro q hq
  obtain ⟨_, ho, _⟩ := P.groups.rep_mem hq
  unfold Format.rawValue Format.fieldBytes slice
  simp only [Function.comp, Nat.sub_zero, ho]
  rfl

/-- Fields at the same offset read the same value. -/
theorem PackerOf.rawValue_group (P : PackerOf F e p d n) (bs : Bytes) {q : Int × List Field} (hq : q ∈ d)
    {f : Field} (hf : f ∈ q.2) : F.rawValue e bs f = F.rawValue e bs (repOf q) := by
  obtain ⟨_, ho, hty⟩ := P.groups.rep_mem hq
  unfold Format.rawValue Format.fieldBytes
  rw [(hty f hf).2]
  congr 3
  have := (hty f hf).1
  omega

/-- With one field per place, the offsets are strictly increasing. -/
theorem PackerOf.sorted_lt (P : PackerOf F e p d n) (hb : p.bijective = true) :
    d.map repOf = F.sortedFields ∧ F.sortedFields.Pairwise (fun f g => f.offset < g.offset) := by
  rw [P.bij, List.all_eq_true] at hb
  have h1 : ∀ q ∈ d, q.2 = [repOf q] := by
    intro q hq
    have := hb q hq
    rw [decide_eq_true_eq] at this
    obtain ⟨a, ha⟩ := List.length_eq_one_iff.1 this
    unfold repOf
    rw [ha]
    rfl
  have h2 : d.map repOf = F.sortedFields := by
    rw [← P.flat]
    clear P hb
    induction d with
    | nil => rfl
    | cons q d ih =>
      rw [List.map_cons, List.flatMap_cons, ← ih fun r hr => h1 r (List.mem_cons_of_mem _ hr)]
      conv_rhs => rw [h1 q (by simp)]
      rfl
  refine ⟨h2, ?_⟩
  rw [← h2, List.pairwise_map]
  have := P.groups.1
  rw [List.pairwise_map] at this
  refine this.imp_of_mem ?_
  intro a b ha hb hab
  have e1 := (P.groups.rep_mem ha).2.1
  have e2 := (P.groups.rep_mem hb).2.1
  omega

/-- Fields are determined by their names. -/
theorem Format.field_of_name {F : Format} {f g : Field} (hf : f ∈ F.fields) (hg : g ∈ F.fields)
    (h : f.name = g.name) : f = g := by
  have h1 := Format.mem_fields.1 hf
  have h2 := Format.mem_fields.1 hg
  rw [h, h2] at h1
  injection h1 with h1
  exact h1.symm

/-- Unpacking: it succeeds exactly when the buffer has the right length and the type of every field admits
the value found there; then every field has that value. -/
theorem PackerOf.unpack_spec (P : PackerOf F e p d n) (hos : F.OrderSafe) (bs : Bytes) :
    if bs.length = n ∧ ∀ f ∈ F.fields, f.value_type.Admits (F.rawValue e bs f)
    then ∃ h, p.unpack bs = .ok h ∧ h.format = F ∧ ∀ f ∈ F.fields, h.get f.name = .ok (F.rawValue e bs f)
    else p.unpack bs = .error .valueError := by
  classical
  have ho : p.bijective = true → F.InOrder := by
    intro hbij
    rcases hos with ho | ho
    · exact ho
    · exfalso
      obtain ⟨_, hlt⟩ := P.sorted_lt hbij
      have hnd : (F.sortedFields.map Field.offset).Nodup := by
        rw [List.nodup_iff_pairwise_ne, List.pairwise_map]
        exact hlt.imp fun h => ne_of_lt h
      exact ho ((F.sortedFields_perm.map _).nodup_iff.1 hnd)
  unfold HeaderPacker.unpack
  rw [P.struct_unpack]
  by_cases hl : bs.length = n
  swap
  · rw [if_neg hl, if_neg (fun h => hl h.1)]
  rw [if_pos hl]
  simp only [hl, true_and]
  -- the assignments made by the constructor
  obtain ⟨kvs, hk1, hk2, hk3⟩ : ∃ kvs : List (String × Int),
      p.unpackValues (d.map fun q => F.rawValue e bs (repOf q)) = (⟨F, []⟩ : Header).setAll kvs ∧
      (∀ k v, (k, v) ∈ kvs → ∃ f ∈ F.fields, f.name = k ∧ v = F.rawValue e bs f) ∧
      (∀ f ∈ F.fields, lastValue kvs f.name = some (F.rawValue e bs f)) := by
    unfold HeaderPacker.unpackValues
    by_cases hb : p.bijective = true
    · rw [if_pos hb, P.format]
      obtain ⟨h2, hlt⟩ := P.sorted_lt hb
      rw [Format.sortedFields_eq (ho hb)] at h2 hlt
      have hzip : List.zip F.orderedFieldNames (d.map fun q => F.rawValue e bs (repOf q))
          = F.fields.map fun f => (f.name, F.rawValue e bs f) := by
        rw [← Format.names_fields, ← h2]
        simp only [List.map_map]
        exact List.zip_map' ..
      refine ⟨F.fields.map fun f => (f.name, F.rawValue e bs f), ?_, ?_, ?_⟩
      · unfold Header.make
        rw [hzip]
        cases Header.setAll ⟨F, []⟩ (F.fields.map fun f => (f.name, F.rawValue e bs f)) <;> rfl
      · intro k v hkv
        obtain ⟨f, hf, he⟩ := List.mem_map.1 hkv
        refine ⟨f, hf, congrArg Prod.fst he, (congrArg Prod.snd he).symm⟩
      · intro f hf
        apply lastValue_of_mem_nodup
        · rw [List.map_map]
          rw [List.nodup_iff_pairwise_ne, List.pairwise_map]
          refine hlt.imp_of_mem ?_
          intro a b ha hb hab hn
          have := Format.field_of_name ha hb hn
          subst this
          omega
        · exact List.mem_map.2 ⟨f, hf, rfl⟩
    · rw [if_neg hb, P.format, P.alloc]
      set raw := (List.zip (d.map fun q => q.2.map Field.name) (d.map fun q => F.rawValue e bs (repOf q))).flatMap
        fun q => q.1.map fun n => (n, q.2) with hraw
      have hraw2 : raw = d.flatMap fun q => q.2.map fun f => (f.name, F.rawValue e bs f) := by
        rw [hraw, List.zip_map']
        rw [List.flatMap_map]
        apply List.flatMap_congr
        intro q hq
        simp only [List.map_map]
        apply List.map_congr_left
        intro f hf
        simp only [Function.comp]
        rw [P.rawValue_group bs hq hf]
      have hmem : ∀ k v, (k, v) ∈ raw → ∃ f ∈ F.fields, f.name = k ∧ v = F.rawValue e bs f := by
        intro k v hkv
        rw [hraw2] at hkv
        obtain ⟨q, hq, hkv⟩ := List.mem_flatMap.1 hkv
        obtain ⟨f, hf, he⟩ := List.mem_map.1 hkv
        exact ⟨f, (P.mem_flat f).2 ⟨q, hq, hf⟩, congrArg Prod.fst he, (congrArg Prod.snd he).symm⟩
      refine ⟨odictOf raw, ?_, ?_, ?_⟩
      · unfold Header.make
        simp only [List.zip_nil_right, Header.setAll, bind, Except.bind]
        apply Header.setKeywords_eq
        rintro ⟨k, v⟩ hkv
        obtain ⟨f, hf, rfl, _⟩ := hmem k v (lastValue_mem (mem_odictOf hkv))
        exact ⟨f, Format.mem_fields.1 hf⟩
      · intro k v hkv
        exact hmem k v (lastValue_mem (mem_odictOf hkv))
      · intro f hf
        rw [lastValue_odictOf]
        obtain ⟨q, hq, hfq⟩ := (P.mem_flat f).1 hf
        have hs : (lastValue raw f.name).isSome := lastValue_isSome.2 (by
          rw [hraw2, List.map_flatMap]
          refine List.mem_flatMap.2 ⟨q, hq, ?_⟩
          rw [List.map_map]
          exact List.mem_map.2 ⟨f, hfq, rfl⟩)
        obtain ⟨w, hw⟩ := Option.isSome_iff_exists.1 hs
        obtain ⟨g, hg, hgn, hwv⟩ := hmem _ _ (lastValue_mem hw)
        rw [hw, hwv, Format.field_of_name hg hf hgn]
  rw [hk1]
  have hspec := Header.setAll_spec kvs ⟨F, []⟩
  have hiff : (∀ q ∈ kvs, ∀ f, F.attr q.1 = some f → f.value_type.Admits q.2) ↔
      ∀ f ∈ F.fields, f.value_type.Admits (F.rawValue e bs f) := by
    constructor
    · intro h f hf
      exact h (f.name, F.rawValue e bs f) (lastValue_mem (hk3 f hf)) f (Format.mem_fields.1 hf)
    · rintro h ⟨k, v⟩ hq g hg
      obtain ⟨f, hf, rfl, rfl⟩ := hk2 k v hq
      rw [Format.mem_fields.1 hf] at hg
      injection hg with hg
      subst hg
      exact h f hf
  split
  · rename_i hall
    rw [if_pos (hiff.2 hall)] at hspec
    obtain ⟨h', e1, e2, e3⟩ := hspec
    refine ⟨h', e1, e2, fun f hf => ?_⟩
    rw [e3 f.name f (Format.mem_fields.1 hf), hk3 f hf]
  · rename_i hall
    rw [if_neg fun h => hall (hiff.1 h)] at hspec
    exact hspec

end

end Segpy
