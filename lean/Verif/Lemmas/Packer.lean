import Verif.Spec.Packer
import Verif.Lemmas.Struct
import Verif.Lemmas.Catalog2

/-!
# Lemmas about header formats and `compile_struct`
-/

namespace Segpy

/-! ## Types -/

/-- The `struct` code of an integer type. -/
def IntType.code (t : IntType) : IntCode := ⟨t.size, t.signed⟩

theorem structCode_ctype (t : IntType) : structCode t.ctype = some t.code := by cases t <;> decide

theorem ctype_ne_x (t : IntType) : t.ctype ≠ 'x' := by cases t <;> decide

theorem IntType.size_pos (t : IntType) : 1 ≤ t.size := by cases t <;> decide

theorem IntType.storable_iff (t : IntType) (v : Int) : t.Storable v ↔ t.code.lo ≤ v ∧ v ≤ t.code.hi := by
  cases t <;>
    simp [IntType.Storable, IntType.code, IntCode.lo, IntCode.hi, IntType.signed, IntType.size, IntType.ctypeToSize,
      IntType.ctype]

theorem bigEndianNat_eq (bs : Bytes) : bigEndianNat bs = leNat bs.reverse := by
  have key : ∀ (bs : Bytes) (acc : Nat),
      bs.foldl (fun acc b => 256 * acc + b.toNat) acc = leNat bs.reverse + 256 ^ bs.length * acc := by
    intro bs
    induction bs with
    | nil => intro acc; simp [leNat]
    | cons b bs ih =>
      intro acc
      have app : ∀ (l : Bytes) (b : UInt8), leNat (l ++ [b]) = leNat l + 256 ^ l.length * b.toNat := by
        intro l b
        induction l with
        | nil => simp [leNat]
        | cons a l ih => simp only [List.cons_append, leNat, ih, List.length_cons, pow_succ]; ring
      rw [List.foldl_cons, ih, List.reverse_cons, app, List.length_reverse, List.length_cons, pow_succ]
      ring
  rw [bigEndianNat, key]
  simp

theorem bytesNat_eq (e : Endian) (bs : Bytes) : bytesNat e bs = leNat (e.order bs) := by
  cases e <;> simp [bytesNat, Endian.order, bigEndianNat_eq]

theorem represents_encodeInt (e : Endian) (n : Nat) (v : Int) : Represents e (encodeInt e n v) v := by
  unfold Represents
  have hq : (2 : Int) ^ (8 * n) = 256 ^ n := by exact_mod_cast (pow256 n).symm
  rw [bytesNat_eq, encodeInt_length, encodeInt, Endian.order_order, leNat_leBytes, hq]
  have h0 := Int.emod_nonneg v (b := 256 ^ n) (by positivity)
  have hlt := Int.emod_lt_of_pos v (b := 256 ^ n) (by positivity)
  rw [Nat.mod_eq_of_lt, Int.toNat_of_nonneg h0]
  zify
  rw [Int.toNat_of_nonneg h0]
  exact hlt

theorem storedInt_eq (e : Endian) (t : IntType) (bs : Bytes) :
    storedInt e t bs = decodeInt e t.code.signed bs := by
  unfold storedInt decodeInt
  rw [bytesNat_eq]
  simp only [IntType.code]
  congr 2
  norm_cast

theorem ValueType.call_eq (t : ValueType) (v : Int) :
    t.call v = if t.Admits v then .ok v else .error .valueError := by
  unfold ValueType.call ValueType.Admits
  split <;> simp_all

/-! ## Names and fields -/

theorem Format.attr_name {F : Format} {n : String} {f : Field} (h : F.attr n = some f) : f.name = n := by
  unfold Format.attr at h
  obtain ⟨L, _, hL⟩ := List.exists_of_findSome?_eq_some h
  simpa using List.find?_some hL

theorem Format.attr_of_mem {F : Format} {n : String} (h : n ∈ F.orderedFieldNames) :
    ∃ f, F.attr n = some f := by
  unfold Format.orderedFieldNames at h
  obtain ⟨L, hL, hn⟩ := List.mem_flatMap.1 h
  obtain ⟨f, hf, rfl⟩ := List.mem_map.1 hn
  have : (F.attr f.name).isSome := by
    unfold Format.attr
    rw [List.findSome?_isSome_iff]
    refine ⟨L, List.mem_reverse.2 hL, ?_⟩
    rw [List.find?_isSome]
    exact ⟨f, hf, by simp⟩
  exact Option.isSome_iff_exists.1 this

theorem Format.mem_names_of_attr {F : Format} {n : String} {f : Field} (h : F.attr n = some f) :
    n ∈ F.orderedFieldNames := by
  have hn := Format.attr_name h
  unfold Format.attr at h
  obtain ⟨L, hL, h'⟩ := List.exists_of_findSome?_eq_some h
  have hf := List.mem_of_find?_eq_some h'
  exact List.mem_flatMap.2 ⟨L, List.mem_reverse.1 hL, List.mem_map.2 ⟨f, hf, hn⟩⟩

theorem Format.names_fields (F : Format) : F.fields.map Field.name = F.orderedFieldNames := by
  unfold Format.fields
  have : ∀ l : List String, (∀ n ∈ l, n ∈ F.orderedFieldNames) →
      (l.filterMap F.attr).map Field.name = l := by
    intro l
    induction l with
    | nil => simp
    | cons n l ih =>
      intro h
      obtain ⟨f, hf⟩ := Format.attr_of_mem (h n (by simp))
      rw [List.filterMap_cons, hf]
      simp only [List.map_cons, Format.attr_name hf]
      rw [ih fun m hm => h m (List.mem_cons_of_mem _ hm)]
  exact this _ fun n hn => hn

theorem Format.mem_fields {F : Format} {f : Field} :
    f ∈ F.fields ↔ F.attr f.name = some f := by
  unfold Format.fields
  rw [List.mem_filterMap]
  constructor
  · rintro ⟨n, _, h⟩
    rw [Format.attr_name h]; exact h
  · intro h
    exact ⟨f.name, Format.mem_names_of_attr h, h⟩

theorem Format.mapM_attr (F : Format) :
    F.orderedFieldNames.mapM F.getField = .ok F.fields := by
  unfold Format.fields
  have : ∀ l : List String, (∀ n ∈ l, n ∈ F.orderedFieldNames) →
      l.mapM F.getField = .ok (l.filterMap F.attr) := by
    intro l
    induction l with
    | nil => intro _; rfl
    | cons n l ih =>
      intro h
      obtain ⟨f, hf⟩ := Format.attr_of_mem (h n (by simp))
      rw [List.mapM_cons, ih fun m hm => h m (List.mem_cons_of_mem _ hm), List.filterMap_cons, hf,
        Format.getField, hf]
      rfl
  exact this _ fun n hn => hn

/-! ## Grouping by offset -/

/-- What `offset_to_fields` holds: groups in increasing order of offset, each of fields at that offset and of
one type. -/
def Groups (s : Int) (d : List (Int × List Field)) : Prop :=
  (d.map Prod.fst).Pairwise (· < ·) ∧
  ∀ p ∈ d, ∃ f rest, p.2 = f :: rest ∧ ∀ g ∈ p.2, g.offset - s = p.1 ∧ g.value_type = f.value_type

theorem odictGet_append_last {ν : Type} (d : List (Int × ν)) (k : Int) (v : ν) (h : ∀ p ∈ d, p.1 ≠ k) :
    odictGet (d ++ [(k, v)]) k = .ok v := by
  induction d with
  | nil => simp [odictGet]
  | cons p d ih =>
    rw [List.cons_append, odictGet, if_neg (h p (by simp)), ih fun q hq => h q (List.mem_cons_of_mem _ hq)]

theorem odictSet_append_last {ν : Type} (d : List (Int × ν)) (k : Int) (v w : ν) (h : ∀ p ∈ d, p.1 ≠ k) :
    odictSet (d ++ [(k, v)]) k w = d ++ [(k, w)] := by
  induction d with
  | nil => simp [odictSet]
  | cons p d ih =>
    rw [List.cons_append, odictSet, if_neg (h p (by simp)), ih fun q hq => h q (List.mem_cons_of_mem _ hq)]
    rfl

theorem odictSet_fresh {κ ν : Type} [DecidableEq κ] (d : List (κ × ν)) (k : κ) (w : ν) (h : ∀ p ∈ d, p.1 ≠ k) :
    odictSet d k w = d ++ [(k, w)] := by
  induction d with
  | nil => simp [odictSet]
  | cons p d ih =>
    rw [odictSet, if_neg (h p (by simp)), ih fun q hq => h q (List.mem_cons_of_mem _ hq)]
    rfl

theorem odictGet_fresh {κ ν : Type} [DecidableEq κ] (d : List (κ × ν)) (k : κ) (h : ∀ p ∈ d, p.1 ≠ k) :
    odictGet d k = .error .keyError := by
  induction d with
  | nil => rfl
  | cons p d ih =>
    rw [odictGet, if_neg (h p (by simp)), ih fun q hq => h q (List.mem_cons_of_mem _ hq)]

/-- The loop on fields in order of offset: it fails with `TypeError` exactly when two fields at the same offset
differ in type, and otherwise groups the fields. -/
theorem offsetToFields_spec (s : Int) (fs : List Field) :
    ∀ d, Groups s d → fs.Pairwise (fun f g => f.offset ≤ g.offset) →
      (∀ p ∈ d, ∀ f ∈ fs, p.1 ≤ f.offset - s) →
      if ∀ f ∈ d.flatMap Prod.snd ++ fs, ∀ g ∈ d.flatMap Prod.snd ++ fs, f.offset = g.offset →
          f.value_type = g.value_type
      then ∃ d', offsetToFields s d fs = .ok d' ∧ Groups s d' ∧
        d'.flatMap Prod.snd = d.flatMap Prod.snd ++ fs
      else offsetToFields s d fs = .error .typeError := by
  classical
  induction fs with
  | nil =>
    intro d hd _ _
    rw [if_pos]
    · exact ⟨d, rfl, hd, by simp⟩
    · intro f hf g hg hfg
      rw [List.append_nil, List.mem_flatMap] at hf hg
      obtain ⟨p, hp, hf⟩ := hf
      obtain ⟨q, hq, hg⟩ := hg
      obtain ⟨f0, _, _, h1⟩ := hd.2 p hp
      obtain ⟨g0, _, _, h2⟩ := hd.2 q hq
      have e1 := (h1 f hf).1
      have e2 := (h2 g hg).1
      have hpq : p.1 = q.1 := by omega
      have : p = q := by
        have hnd : (d.map Prod.fst).Nodup := hd.1.imp fun h => ne_of_lt h
        exact List.inj_on_of_nodup_map hnd hp hq hpq
      subst this
      have := (h1 f hf).2
      rw [this, (h1 g hg).2]
  | cons f fs ih =>
    intro d hd hs hle
    have hs' := (List.pairwise_cons.1 hs)
    by_cases hk : ∀ p ∈ d, p.1 ≠ f.offset - s
    · -- a new offset
      have hstep : offsetToFields s d (f :: fs) = offsetToFields s (d ++ [(f.offset - s, [f])]) fs := by
        rw [offsetToFields]
        simp only [odictGet_fresh d _ hk, odictSet_fresh d _ _ hk]
      have hd1 : Groups s (d ++ [(f.offset - s, [f])]) := by
        refine ⟨?_, ?_⟩
        · rw [List.map_append, List.pairwise_append]
          refine ⟨hd.1, by simp, ?_⟩
          intro a ha b hb
          obtain ⟨p, hp, rfl⟩ := List.mem_map.1 ha
          simp only [List.map_cons, List.map_nil, List.mem_singleton] at hb
          subst hb
          have := hle p hp f (by simp)
          have := hk p hp
          omega
        · intro p hp
          rcases List.mem_append.1 hp with hp | hp
          · exact hd.2 p hp
          · simp only [List.mem_singleton] at hp
            subst hp
            exact ⟨f, [], rfl, by simp⟩
      have hfl : (d ++ [(f.offset - s, [f])]).flatMap Prod.snd ++ fs = d.flatMap Prod.snd ++ f :: fs := by
        simp
      have := ih (d ++ [(f.offset - s, [f])]) hd1 hs'.2 (by
        intro p hp g hg
        rcases List.mem_append.1 hp with hp | hp
        · exact hle p hp g (List.mem_cons_of_mem _ hg)
        · simp only [List.mem_singleton] at hp
          subst hp
          have := hs'.1 g hg
          simp only
          omega)
      rw [hfl, ← hstep] at this
      exact this
    · -- the offset of the last group
      push Not at hk
      obtain ⟨p, hp, hpk⟩ := hk
      obtain ⟨d0, d1, rfl⟩ := List.append_of_mem hp
      have hd1nil : d1 = [] := by
        rcases d1 with _ | ⟨q, d1⟩
        · rfl
        · exfalso
          have h1 := hd.1
          rw [List.map_append, List.map_cons, List.map_cons] at h1
          have h2 := (List.pairwise_cons.1 (List.pairwise_append.1 h1).2.1).1 q.1 (by simp)
          have := hle q (by simp) f (by simp)
          omega
      subst hd1nil
      have hne : ∀ q ∈ d0, q.1 ≠ f.offset - s := by
        intro q hq
        have h1 := hd.1
        rw [List.map_append, List.pairwise_append] at h1
        have := h1.2.2 q.1 (List.mem_map_of_mem hq) p.1 (by simp)
        omega
      obtain ⟨k, l⟩ := p
      simp only at hpk
      subst hpk
      obtain ⟨f0, rest, hl, hall⟩ := hd.2 (f.offset - s, l) (by simp)
      simp only at hl hall
      subst hl
      by_cases hty : f0.value_type = f.value_type
      · have hstep : offsetToFields s (d0 ++ [(f.offset - s, f0 :: rest)]) (f :: fs)
            = offsetToFields s (d0 ++ [(f.offset - s, f0 :: rest ++ [f])]) fs := by
          rw [offsetToFields]
          simp only [odictGet_append_last d0 _ _ hne, odictSet_append_last d0 _ _ _ hne, ne_eq, hty,
            not_true_eq_false, if_false]
        have hd1 : Groups s (d0 ++ [(f.offset - s, f0 :: rest ++ [f])]) := by
          refine ⟨?_, ?_⟩
          · have h1 := hd.1
            simpa using h1
          · intro p hp
            rcases List.mem_append.1 hp with hp | hp
            · exact hd.2 p (List.mem_append_left _ hp)
            · simp only [List.mem_singleton] at hp
              subst hp
              refine ⟨f0, rest ++ [f], rfl, ?_⟩
              intro g hg
              rcases List.mem_append.1 hg with hg | hg
              · exact hall g hg
              · simp only [List.mem_singleton] at hg
                subst hg
                exact ⟨rfl, hty.symm⟩
        have hfl : (d0 ++ [(f.offset - s, f0 :: rest ++ [f])]).flatMap Prod.snd ++ fs
            = (d0 ++ [(f.offset - s, f0 :: rest)]).flatMap Prod.snd ++ f :: fs := by
          simp
        have := ih (d0 ++ [(f.offset - s, f0 :: rest ++ [f])]) hd1 hs'.2 (by
          intro p hp g hg
          rcases List.mem_append.1 hp with hp | hp
          · exact hle p (List.mem_append_left _ hp) g (List.mem_cons_of_mem _ hg)
          · simp only [List.mem_singleton] at hp
            subst hp
            have := hs'.1 g hg
            simp only
            omega)
        rw [hfl, ← hstep] at this
        exact this
      · rw [if_neg]
        · rw [offsetToFields]
          simp only [odictGet_append_last d0 _ _ hne, ne_eq, hty, not_false_eq_true, if_true]
        · intro hcon
          refine hty (hcon f0 ?_ f ?_ ?_)
          · simp
          · simp
          · have := (hall f0 (by simp)).1
            omega

/-! ## The format string -/

/-- The layout a format string describes, with gaps possibly negative (then they are dropped). -/
def rawLayout (L : Int) : Int → List (Int × IntCode) → List FmtItem
  | idx, [] => List.replicate (L - idx).toNat .pad
  | idx, s :: rest => List.replicate (s.1 - idx).toNat .pad ++ .int s.2 :: rawLayout L (s.1 + s.2.size) rest

/-- The places of the groups. -/
def groupSlots (d : List (Int × List Field)) : List (Int × IntCode) :=
  d.filterMap fun p => p.2.head?.map fun f => (p.1, f.value_type.segy.code)

theorem parse_formatChunks (L : Int) (d : List (Int × List Field)) (idx : Int) :
    parseItems (formatChunks
      (complementaryLoop L idx (d.filterMap fun p =>
        p.2.head?.map fun f => (⟨p.1, p.1 + f.value_type.size⟩ : Interval)))
      (d.filterMap fun p => p.2.head?)) = .ok (rawLayout L idx (groupSlots d)) := by
  induction d generalizing idx with
  | nil =>
    simp only [List.filterMap_nil, complementaryLoop, formatChunks, groupSlots, rawLayout]
    exact (parseItems_pads _ [] [] rfl).trans (by simp)
  | cons p d ih =>
    obtain ⟨k, l⟩ := p
    cases l with
    | nil => exact ih idx
    | cons f rest =>
      have h := ih (k + f.value_type.size)
      simp only [groupSlots, List.filterMap_cons, List.head?_cons, Option.map_some, complementaryLoop, formatChunks,
        rawLayout] at h ⊢
      apply parseItems_pads
      rw [parseItems, if_neg (ctype_ne_x _), structCode_ctype]
      simp only
      rw [h]
      rfl

theorem rawLayout_eq (L : Nat) (slots : List (Int × IntCode)) (idx : Nat)
    (h : ∀ s ∈ slots, 0 ≤ s.1) :
    rawLayout L idx slots = layout L idx (slots.map fun s => (s.1.toNat, s.2)) := by
  induction slots generalizing idx with
  | nil => simp only [rawLayout, List.map_nil, layout]; congr 1; omega
  | cons s rest ih =>
    have h0 := h s (by simp)
    simp only [rawLayout, List.map_cons, layout]
    have e1 : (s.1 - (idx : Int)).toNat = s.1.toNat - idx := by omega
    have e2 : s.1 + (s.2.size : Int) = ((s.1.toNat + s.2.size : Nat) : Int) := by omega
    rw [e1, e2, ih _ fun t ht => h t (List.mem_cons_of_mem _ ht)]

/-! ## compile_struct -/

/-- Follows without sharing bytes, or at the same place with the same size. -/
def Field.Before (f g : Field) : Prop := f.span = g.span ∨ f.offset + f.value_type.size ≤ g.offset

theorem ValueType.size_pos (t : ValueType) : 1 ≤ t.size := t.segy.size_pos

instance : IsTrans Field Field.Before where
  trans := by
    intro a b c h1 h2
    have := b.value_type.size_pos
    unfold Field.Before Field.span at *
    simp only [Interval.mk.injEq] at *
    omega

theorem overlap_iff (f g : Field) (h : f.offset ≤ g.offset) :
    intervalsPartiallyOverlap f.span g.span = true ↔ ¬ f.Before g := by
  unfold intervalsPartiallyOverlap Field.Before
  by_cases he : f.span = g.span
  · simp [he]
  · rw [if_neg he, if_pos (by simpa [Field.span] using h)]
    rw [decide_eq_true_eq]
    constructor
    · rintro h1 (h2 | h2)
      · exact he h2
      · simp only [Field.span] at h1; omega
    · intro h1
      push Not at h1
      have := h1.2
      simp only [Field.span]; omega

/-- What `compile_struct` accepts. -/
structure Accepts (F : Format) (s : Int) (L : Option Int) : Prop where
  start : 0 ≤ s
  length : ∀ n, L = some n → 1 ≤ n
  nonempty : F.fields ≠ []
  compatible : ∀ f ∈ F.fields, ∀ g ∈ F.fields, f.Disjoint g ∨ f.Coincident g
  fits : ∀ n, L = some n → ∀ f ∈ F.fields, f.offset - s + f.value_type.size ≤ n

/-- The fields in order of offset. -/
def Format.sortedFields (F : Format) : List Field := pySortedBy Field.offset F.fields

theorem Format.sortedFields_perm (F : Format) : F.sortedFields.Perm F.fields := pySortedBy_perm _ _

theorem Format.sortedFields_pairwise (F : Format) :
    F.sortedFields.Pairwise fun f g => f.offset ≤ g.offset := pySortedBy_pairwise _ _

theorem Format.mem_sortedFields {F : Format} {f : Field} : f ∈ F.sortedFields ↔ f ∈ F.fields :=
  F.sortedFields_perm.mem_iff

theorem Format.sortedFields_eq {F : Format} (h : F.InOrder) : F.sortedFields = F.fields := by
  unfold Format.sortedFields pySortedBy
  exact List.Pairwise.insertionSort_eq h

/-- The body of `compile_struct` after the argument checks. -/
theorem compileStruct_eq (F : Format) (s : Int) (L : Option Int) (e : Endian) (hs : 0 ≤ s)
    (hL : ∀ n, L = some n → 1 ≤ n) :
    compileStruct F s L e =
      match F.sortedFields.getLast? with
      | none => .error .typeError
      | some last =>
        if (F.sortedFields.zip F.sortedFields.tail).any fun p => intervalsPartiallyOverlap p.1.span p.2.span then
          .error .valueError
        else if L.getD (last.offset - s + last.value_type.size) - (last.offset - s + last.value_type.size) < 0 then
          .error .valueError
        else
          match offsetToFields s [] F.sortedFields with
          | .error err => .error err
          | .ok d =>
            match complementaryIntervals (d.filterMap fun p =>
                p.2.head?.map fun f => (⟨p.1, p.1 + f.value_type.size⟩ : Interval)) (some 0)
                (some (L.getD (last.offset - s + last.value_type.size))) with
            | .error err => .error err
            | .ok gaps => .ok (e.char :: formatChunks gaps (d.filterMap fun p => p.2.head?),
                d.map fun p => p.2.map Field.name) := by
  unfold compileStruct
  rw [if_neg (by omega), if_neg (by
    cases L with
    | none => simp
    | some n => simpa using hL n rfl)]
  rw [Format.mapM_attr]
  simp only [bind, Except.bind, pure, Except.pure]
  change (match F.sortedFields.getLast? with | none => _ | some last_field => _) = _
  cases hl : F.sortedFields.getLast? with
  | none => rfl
  | some last =>
    simp only
    have hps : (if (pySortedBy Field.offset F.fields).length > 1 then pairwise (pySortedBy Field.offset F.fields)
        else Except.ok []) = Except.ok (F.sortedFields.zip F.sortedFields.tail) := by
      change (if F.sortedFields.length > 1 then pairwise F.sortedFields else Except.ok []) = _
      rcases h : F.sortedFields with _ | ⟨a, _ | ⟨b, t⟩⟩
      · rw [h] at hl; simp at hl
      · simp
      · simp [pairwise]
    rw [hps, show pySortedBy Field.offset F.fields = F.sortedFields from rfl]
    simp only
    cases offsetToFields s [] F.sortedFields with
    | error err => rfl
    | ok d =>
      simp only
      generalize complementaryIntervals _ _ _ = r
      cases r <;> rfl

/-- `compile_struct` on an accepted format. -/
theorem compileStruct_ok {F : Format} {s : Int} {L : Option Int} (e : Endian) (h : Accepts F s L) :
    ∃ (d : List (Int × List Field)) (last : Field), Groups s d ∧ d.flatMap Prod.snd = F.sortedFields ∧
      F.sortedFields.getLast? = some last ∧
      compileStruct F s L e = .ok (e.char :: formatChunks
        (complementaryLoop (L.getD (last.offset - s + last.value_type.size)) 0 (d.filterMap fun p =>
          p.2.head?.map fun f => (⟨p.1, p.1 + f.value_type.size⟩ : Interval)))
        (d.filterMap fun p => p.2.head?), d.map fun p => p.2.map Field.name) := by
  have hne : F.sortedFields ≠ [] := fun h0 => h.nonempty (by
    have := F.sortedFields_perm
    rw [h0] at this
    exact this.symm.eq_nil)
  obtain ⟨last, hl⟩ : ∃ last, F.sortedFields.getLast? = some last := by
    rw [List.getLast?_eq_some_getLast hne]; exact ⟨_, rfl⟩
  have hcon := offsetToFields_spec s F.sortedFields [] ⟨by simp, by simp⟩ F.sortedFields_pairwise (by simp)
  rw [if_pos (by
    intro f hf g hg hfg
    simp only [List.flatMap_nil, List.nil_append, Format.mem_sortedFields] at hf hg
    rcases h.compatible f hf g hg with hd | hc
    · have h1 := f.value_type.size_pos
      have h2 := g.value_type.size_pos
      unfold Field.Disjoint at hd
      omega
    · exact hc.2)] at hcon
  obtain ⟨d, hd, hg, hf⟩ := hcon
  simp only [List.flatMap_nil, List.nil_append] at hf
  refine ⟨d, last, hg, hf, hl, ?_⟩
  rw [compileStruct_eq F s L e h.start h.length, hl]
  simp only
  rw [if_neg, if_neg, hd]
  · simp only
    have hspans : (d.filterMap fun p =>
          p.2.head?.map fun f => (⟨p.1, p.1 + f.value_type.size⟩ : Interval)) ≠ [] := by
      rcases d with _ | ⟨p, d⟩
      · simp at hf; exact absurd hf hne
      · obtain ⟨f, rest, hp, _⟩ := hg.2 p (by simp)
        simp [hp]
    generalize hs : (d.filterMap fun p =>
          p.2.head?.map fun f => (⟨p.1, p.1 + f.value_type.size⟩ : Interval)) = spans at *
    cases spans with
    | nil => exact absurd rfl hspans
    | cons a t => rfl
  · cases L with
    | none => simp
    | some n =>
      have := h.fits n rfl last (Format.mem_sortedFields.1 (List.mem_of_getLast? hl))
      simp only [Option.getD_some]
      omega
  · rw [List.any_eq_true]
    rintro ⟨⟨f, g⟩, hp, ho⟩
    obtain ⟨i, hi, he⟩ := List.mem_iff_getElem.1 hp
    rw [List.getElem_zip] at he
    have hi1 : i + 1 < F.sortedFields.length := by
      simp at hi; omega
    have hf' : F.sortedFields[i] = f := (Prod.mk.injEq _ _ _ _ ▸ he).1
    have hg' : F.sortedFields[i + 1] = g := by
      have := (Prod.mk.injEq _ _ _ _ ▸ he).2
      rw [List.getElem_tail] at this
      exact this
    have hle := (List.pairwise_iff_getElem.1 F.sortedFields_pairwise) i (i + 1) (by omega) hi1 (by omega)
    rw [hf', hg'] at hle
    rw [overlap_iff f g hle] at ho
    apply ho
    have hfm : f ∈ F.fields := Format.mem_sortedFields.1 (hf' ▸ List.getElem_mem _)
    have hgm : g ∈ F.fields := Format.mem_sortedFields.1 (hg' ▸ List.getElem_mem _)
    unfold Field.Before Field.span
    rcases h.compatible f hfm g hgm with (h1 | h1) | ⟨h1, h2⟩
    · exact Or.inr h1
    · have := f.value_type.size_pos
      have := g.value_type.size_pos
      omega
    · left; rw [h1, h2]

/-- What `compile_struct` returns without raising is for an accepted format. -/
theorem accepts_of_ok {F : Format} {s : Int} {L : Option Int} {e : Endian} {r : PyStr × List (List String)}
    (h : compileStruct F s L e = .ok r) : Accepts F s L := by
  have hs : 0 ≤ s := by
    by_contra hc
    unfold compileStruct at h
    rw [if_pos (by omega)] at h
    exact absurd h (by simp)
  have hL : ∀ n, L = some n → 1 ≤ n := by
    rintro n rfl
    by_contra hc
    unfold compileStruct at h
    rw [if_neg (by omega), if_pos (by simp; omega)] at h
    exact absurd h (by simp)
  rw [compileStruct_eq F s L e hs hL] at h
  cases hl : F.sortedFields.getLast? with
  | none => rw [hl] at h; simp at h
  | some last =>
    rw [hl] at h
    simp only at h
    split at h
    · simp at h
    rename_i hno
    split at h
    · simp at h
    rename_i hpad
    have hcon := offsetToFields_spec s F.sortedFields [] ⟨by simp, by simp⟩ F.sortedFields_pairwise (by simp)
    split at hcon
    case isFalse => rw [hcon] at h; simp at h
    rename_i htype
    simp only [List.flatMap_nil, List.nil_append] at htype
    have hchain : F.sortedFields.IsChain Field.Before := by
      rw [List.isChain_iff_getElem]
      intro i hi
      by_contra hb
      apply hno
      rw [List.any_eq_true]
      refine ⟨(F.sortedFields[i], F.sortedFields[i + 1]), ?_, ?_⟩
      · rw [List.mem_iff_getElem]
        refine ⟨i, by simp; omega, ?_⟩
        rw [List.getElem_zip, List.getElem_tail]
      · rw [overlap_iff]
        · exact hb
        · exact (List.pairwise_iff_getElem.1 F.sortedFields_pairwise) i (i + 1) (by omega) hi (by omega)
    have hbefore : F.sortedFields.Pairwise Field.Before := List.isChain_iff_pairwise.1 hchain
    have hpair : ∀ f ∈ F.sortedFields, ∀ g ∈ F.sortedFields, f.Before g ∨ g.Before f := by
      intro f hf g hg
      obtain ⟨i, hi, rfl⟩ := List.mem_iff_getElem.1 hf
      obtain ⟨j, hj, rfl⟩ := List.mem_iff_getElem.1 hg
      rcases Nat.lt_trichotomy i j with hij | hij | hij
      · exact Or.inl ((List.pairwise_iff_getElem.1 hbefore) i j hi hj hij)
      · subst hij; exact Or.inl (Or.inl rfl)
      · exact Or.inr ((List.pairwise_iff_getElem.1 hbefore) j i hj hi hij)
    refine ⟨hs, hL, ?_, ?_, ?_⟩
    · intro h0
      have := F.sortedFields_perm
      rw [h0] at this
      rw [this.eq_nil] at hl
      simp at hl
    · intro f hf g hg
      have hf := Format.mem_sortedFields.2 hf
      have hg := Format.mem_sortedFields.2 hg
      rcases hpair f hf g hg with (h1 | h1) | (h1 | h1)
      · right
        have : f.offset = g.offset := congrArg Interval.start h1
        exact ⟨this, htype f hf g hg this⟩
      · exact Or.inl (Or.inl h1)
      · right
        have : f.offset = g.offset := (congrArg Interval.start h1).symm
        exact ⟨this, htype f hf g hg this⟩
      · exact Or.inl (Or.inr h1)
    · rintro n rfl f hf
      simp only [Option.getD_some] at hpad
      have hf := Format.mem_sortedFields.2 hf
      have hend : f.offset + f.value_type.size ≤ last.offset + last.value_type.size := by
        have hlm := List.mem_of_getLast? hl
        have hfl : f = last ∨ f.Before last := by
          obtain ⟨i, hi, rfl⟩ := List.mem_iff_getElem.1 hf
          rw [List.getLast?_eq_getElem?] at hl
          have hlt : F.sortedFields.length - 1 < F.sortedFields.length := by omega
          rw [List.getElem?_eq_getElem hlt, Option.some.injEq] at hl
          rcases Nat.lt_or_ge i (F.sortedFields.length - 1) with h1 | h1
          · right
            rw [← hl]
            exact (List.pairwise_iff_getElem.1 hbefore) i _ hi hlt h1
          · left
            rw [← hl]
            congr 1
            omega
        rcases hfl with rfl | hb | hb
        · exact le_refl _
        · exact le_of_eq (congrArg Interval.stop hb)
        · have := last.value_type.size_pos
          omega
      omega

end Segpy
