import Verif.Lemmas.Samples
import Verif.Spec.Samples
import Verif.Props.IbmFloat

/-!
# C42: numeric samples survive packing and unpacking

`native` is the byte order of the machine; the results do not depend on it.
-/

namespace Segpy.Props

open Spec IBMFloat

private theorem exists_right {α β} {R : α → β → Prop} {l : List α} {r : List β} (h : List.Forall₂ R l r) {a : α}
    (ha : a ∈ l) : ∃ b ∈ r, R a b := by
  induction h with
  | nil => simp at ha
  | @cons x y l r hxy _ ih =>
    rcases List.mem_cons.mp ha with rfl | ha
    · exact ⟨y, List.mem_cons_self, hxy⟩
    · obtain ⟨b, hb, h⟩ := ih ha; exact ⟨b, List.mem_cons_of_mem _ hb, h⟩

private theorem exists_left {α β} {R : α → β → Prop} {l : List α} {r : List β} (h : List.Forall₂ R l r) {b : β}
    (hb : b ∈ r) : ∃ a ∈ l, R a b := by
  obtain ⟨a, ha, h⟩ := exists_right (List.Forall₂.flip h) hb
  exact ⟨a, ha, h⟩

private theorem code_of (t : IntType) : ∃ c, structCode t.ctype = some c ∧ c.size = intSize t ∧ c.lo = intLo t ∧
    c.hi = intHi t ∧ t.size = intSize t ∧ 1 ≤ c.size := by
  cases t <;> exact ⟨_, rfl, by decide +kernel⟩

private theorem packInt_ok_iff (e : Endian) (t : IntType) (v : PyNum) (b : Bytes) :
    packInt e t v = .ok b ↔ ∃ n, v = .int n ∧ intLo t ≤ n ∧ n ≤ intHi t ∧ b = encodeInt e (intSize t) n := by
  obtain ⟨c, h1, h2, h3, h4, _, _⟩ := code_of t
  unfold packInt
  cases v with
  | float f => simp
  | ibm x => simp
  | int n =>
    simp only [h1, h3, h4, h2]
    split
    · rename_i h
      constructor
      · intro hb; cases hb; exact ⟨n, rfl, h.1, h.2, rfl⟩
      · rintro ⟨m, hm, _, _, rfl⟩; cases hm; rfl
    · rename_i h
      constructor
      · intro hb; cases hb
      · rintro ⟨m, hm, g1, g2, rfl⟩; cases hm; exact absurd ⟨g1, g2⟩ h

private theorem packValues_int (e : Endian) (t : IntType) (vs : List PyNum) :
    packValues vs (.int t) e = (do let items ← vs.mapM (packInt e t); return items.flatten) := rfl

/-- Integer samples can be packed exactly when each is an int in the range of the type. -/
theorem C42_int_accepts (e : Endian) (t : IntType) (vs : List PyNum) :
    (∃ buf, packValues vs (.int t) e = .ok buf) ↔ ∀ v ∈ vs, ∃ n, v = .int n ∧ intLo t ≤ n ∧ n ≤ intHi t := by
  rw [packValues_int]
  constructor
  · rintro ⟨buf, h⟩ v hv
    obtain ⟨items, h, _⟩ := mapM_eq_flatten h
    rw [mapM_ok_iff] at h
    obtain ⟨b, _, hb⟩ := exists_right h hv
    obtain ⟨n, h1, h2, h3, _⟩ := (packInt_ok_iff e t v b).mp hb
    exact ⟨n, h1, h2, h3⟩
  · intro h
    have : vs.mapM (packInt e t) = .ok (vs.map fun v => match v with | .int n => encodeInt e (intSize t) n | _ => []) := by
      apply mapM_ok_of_forall
      intro v hv
      obtain ⟨n, rfl, h2, h3⟩ := h v hv
      exact (packInt_ok_iff e t _ _).mpr ⟨n, rfl, h2, h3, rfl⟩
    rw [this]
    exact ⟨_, rfl⟩

/-- Anything else raises `struct.error`. -/
theorem C42_int_error (e : Endian) (t : IntType) (vs : List PyNum) (err : Err)
    (h : packValues vs (.int t) e = .error err) : err = .structError := by
  rw [packValues_int] at h
  cases hm : vs.mapM (packInt e t) with
  | ok items => rw [hm] at h; cases h
  | error e' =>
    rw [hm] at h
    cases h
    obtain ⟨v, _, hv⟩ := mapM_error hm
    obtain ⟨c, h1, _⟩ := code_of t
    unfold packInt at hv
    rw [h1] at hv
    cases v with
    | int n => simp only at hv; split at hv <;> cases hv; rfl
    | float f => cases hv; rfl
    | ibm x => cases hv; rfl

/-- Packed integer samples are stored one after the other, each in two's complement in the given byte order, and are
read back unchanged on any machine. -/
theorem C42_int_round_trip (native e : Endian) (t : IntType) (vs : List PyNum) (buf : Bytes)
    (h : packValues vs (.int t) e = .ok buf) :
    buf.length = vs.length * intSize t ∧ unpackValues native buf (.int t) e = .ok vs ∧
      ∀ i n, vs[i]? = some (.int n) → (buf.drop (i * intSize t)).take (intSize t) = encodeInt e (intSize t) n := by
  rw [packValues_int] at h
  obtain ⟨items, h', rfl⟩ := mapM_eq_flatten h
  replace h := h'
  clear h'
  obtain ⟨c, h1, h2, h3, h4, h5, h6⟩ := code_of t
  have hlen := mapM_ok_length h
  rw [mapM_ok_iff] at h
  have hsz : ∀ i ∈ items, i.length = intSize t := by
    intro i hi
    obtain ⟨v, _, hv⟩ := exists_left h hi
    obtain ⟨n, _, _, _, rfl⟩ := (packInt_ok_iff e t v i).mp hv
    exact encodeInt_length _ _ _
  refine ⟨?_, ?_, ?_⟩
  · rw [flatten_length_const _ _ hsz, hlen]
  · rw [unpackValues_flatten native e (.int t) items (by rw [SegYType.size, h5, ← h2]; exact h6)
      (by rw [SegYType.size, h5]; exact hsz)]
    congr 1
    clear hlen hsz
    induction h with
    | nil => rfl
    | @cons v b vs items hv _ ih =>
      rw [List.map_cons, ih]
      congr 1
      obtain ⟨n, rfl, g1, g2, rfl⟩ := (packInt_ok_iff e t v b).mp hv
      unfold arrayItem
      simp only [h1, Option.elim]
      rw [decodeInt_swap, ← h2, decodeInt_encodeInt e c h6 n (by rw [h3]; exact g1) (by rw [h4]; exact g2)]
  · intro i n hi
    clear hlen
    induction h generalizing i with
    | nil => simp at hi
    | @cons v b vs items hv _ ih =>
      have hb := hsz b List.mem_cons_self
      cases i with
      | zero =>
        simp only [List.getElem?_cons_zero, Option.some.injEq] at hi
        subst hi
        obtain ⟨m, hm, _, _, rfl⟩ := (packInt_ok_iff e t _ b).mp hv
        cases hm
        rw [Nat.zero_mul, List.drop_zero, List.flatten_cons]
        exact List.take_left' (encodeInt_length _ _ _)
      | succ i =>
        rw [List.getElem?_cons_succ] at hi
        rw [List.flatten_cons, Nat.succ_mul, Nat.add_comm]
        rw [← List.drop_drop, List.drop_left' hb]
        exact ih (fun j hj => hsz j (List.mem_cons_of_mem _ hj)) i hi

/-- Every buffer of whole items is the packing of what it unpacks to. -/
theorem C42_int_unpack (native e : Endian) (t : IntType) (buf : Bytes) (h : buf.length % intSize t = 0) :
    ∃ vs, unpackValues native buf (.int t) e = .ok vs ∧ vs.length = buf.length / intSize t ∧
      packValues vs (.int t) e = .ok buf := by
  obtain ⟨c, h1, h2, h3, h4, h5, h6⟩ := code_of t
  have hdiv : buf.length = buf.length / intSize t * intSize t := by
    have := Nat.div_add_mod buf.length (intSize t); rw [h, Nat.add_zero, Nat.mul_comm] at this; exact this.symm
  have hitems := itemsOf_item (intSize t) (buf.length / intSize t) buf (le_of_eq hdiv.symm)
  have hjoin := itemsOf_join (intSize t) (buf.length / intSize t) buf hdiv
  have hl := itemsOf_length (intSize t) (buf.length / intSize t) buf
  generalize itemsOf (intSize t) (buf.length / intSize t) buf = items at hitems hjoin hl
  have hu := unpackValues_flatten native e (.int t) items (by rw [SegYType.size, h5, ← h2]; exact h6)
      (by rw [SegYType.size, h5]; exact hitems)
  rw [hjoin] at hu
  refine ⟨_, hu, by rw [List.length_map, hl], ?_⟩
  rw [packValues_int]
  have : (items.map fun i => arrayItem native (.int t) (if e ≠ native then i.reverse else i)).mapM (packInt e t) =
      .ok items := by
    rw [mapM_ok_iff]
    clear hu hjoin hl
    induction items with
    | nil => exact .nil
    | cons i is ih =>
      refine .cons ?_ (ih fun j hj => hitems j (List.mem_cons_of_mem _ hj))
      have hi := hitems i List.mem_cons_self
      unfold arrayItem
      simp only [h1, Option.elim]
      rw [decodeInt_swap, packInt_ok_iff]
      have hr := decodeInt_range e c h6 i (by rw [hi, h2])
      rw [h3, h4] at hr
      refine ⟨_, rfl, hr.1, hr.2, ?_⟩
      have := encodeInt_decodeInt e c.signed i
      rw [hi] at this
      exact this.symm
  rw [this, ← hjoin]
  rfl

/-- A buffer that does not hold a whole number of items is rejected. -/
theorem C42_unpack_rejects (native e : Endian) (t : SegYType) (buf : Bytes) (h : buf.length % t.size ≠ 0) :
    unpackValues native buf t e = .error .valueError := by
  unfold unpackValues; rw [if_pos h]

/-- The sample formats are numbered as the standard has it; other numbers are refused with `KeyError`. -/
theorem C42_format_codes (code : Int) :
    (∀ t, dataSampleFormatToSegYType code = .ok t ↔ formatCode t = some code) ∧
    ((∀ t, formatCode t ≠ some code) → dataSampleFormatToSegYType code = .error .keyError) := by
  have key : ∀ t, dataSampleFormatToSegYType code = .ok t ↔ formatCode t = some code := by
    intro t
    unfold dataSampleFormatToSegYType
    constructor
    · intro h
      split_ifs at h with h1 h2 h3 h4 h5 <;> cases h <;> simp [formatCode, *]
    · intro h
      cases t with
      | int t => cases t <;> simp only [formatCode, Option.some.injEq, reduceCtorEq] at h <;> subst h <;> rfl
      | float32 => simp only [formatCode, Option.some.injEq] at h; subst h; rfl
      | ibm => simp only [formatCode, Option.some.injEq] at h; subst h; rfl
  refine ⟨key, ?_⟩
  intro h
  cases hd : dataSampleFormatToSegYType code with
  | ok t => exact absurd ((key t).mp hd) (h t)
  | error err =>
    unfold dataSampleFormatToSegYType at hd
    split_ifs at hd
    cases hd
    rfl

example : dataSampleFormatToSegYType 2 = .ok (.int .int32) := ((C42_format_codes 2).1 _).mpr rfl
example : dataSampleFormatToSegYType 4 = .error .keyError := (C42_format_codes 4).2 (by
  intro t; cases t with
  | int t => cases t <;> decide
  | float32 => decide
  | ibm => decide)

/-! ## binary32 -/

private theorem pf_float (e : Endian) (f : PyFloat) :
    packFloat32 e (.float f) = (do return e.order (leBytes 4 (← float32Bits f))) := rfl

theorem bits_ok (f : PyFloat) (h : Fits32 f) :
    ∃ bits, float32Bits f = .ok bits ∧ bits < 2 ^ 32 ∧ StoredAs32 f (float32OfBits bits) := by
  cases f with
  | nan => exact ⟨_, rfl, by norm_num, (by decide +kernel : float32OfBits 0x7fc00000 = .nan)⟩
  | inf s =>
    refine ⟨_, rfl, by cases s <;> norm_num, ?_⟩
    show float32OfBits ((if s then 2 ^ 31 else 0) + 0x7f800000) = .inf s
    cases s <;> decide +kernel
  | negZero => exact ⟨_, rfl, by norm_num, (by decide +kernel : float32OfBits (2 ^ 31) = .negZero)⟩
  | fin q =>
    have hb : |round32 q| < (2 : ℚ) ^ (128 : ℤ) := by
      rw [← not_le, round32_overflow, not_le]; exact h
    obtain ⟨bits, h1, h2, h3⟩ := float32_round_trip q hb
    refine ⟨bits, h1, h2, round32 q, ⟨⟨roundTo_representable (by norm_num) _ _, hb⟩, ?_, ?_⟩, ?_, ?_⟩
    · intro w hw
      exact roundTo_nearest (by norm_num) q hw.1
    · intro w hw hne htie
      by_cases hq : q = 0
      · subst hq
        rw [round32_zero, sub_zero, sub_zero, abs_zero, abs_eq_zero] at htie
        exact absurd (by rw [htie, round32_zero]) hne
      have hev := roundTo_tie (p := 24) (by norm_num) (emin := -149) hq hw.1 hne htie
      have heq := roundTo_eq 24 (-149) hq
      have hle := roundInt_abs_le 24 (-149) hq
      have hge := scaled_ge 24 (-149) hq
      have hlo : (-149 : ℤ) ≤ quantum 24 (-149) q := le_max_right _ _
      set u := quantum 24 (-149) q
      set k := roundHalfEven (q / 2 ^ u) with hk
      have hlow : u = -149 ∨ 2 ^ 23 ≤ |k| := by
        by_cases hu : -149 < u
        · right
          have := hge hu
          rw [show ((24 : ℕ) : ℤ) - 1 = ((23 : ℕ) : ℤ) by norm_num, zpow_natCast] at this
          rw [le_abs] at this ⊢
          rcases this with h | h
          · left; exact le_roundHalfEven _ _ (by push_cast; exact h)
          · right
            have := roundHalfEven_le (q / 2 ^ u) (-2 ^ 23) (by push_cast; linarith)
            rw [← hk] at this
            omega
        · left; omega
      obtain ⟨m, hm⟩ : ∃ m, k = 2 * m := ⟨k / 2, by omega⟩
      rcases lt_or_eq_of_le hle with hlt | heq24
      · exact ⟨m, u, by rw [← hm]; exact heq, by rw [← hm]; exact hlt, hlo, by rw [← hm]; exact hlow⟩
      · -- carried into the next binade
        rcases abs_eq (by positivity : (0 : ℤ) ≤ 2 ^ 24) |>.mp heq24 with h24 | h24
        · refine ⟨2 ^ 22, u + 1, ?_, by norm_num, by omega, Or.inr (by norm_num)⟩
          show roundTo 24 (-149) q = _
          rw [heq, h24, zpow_add_one₀ (by norm_num)]; push_cast; ring
        · refine ⟨-2 ^ 22, u + 1, ?_, by norm_num, by omega, Or.inr (by norm_num)⟩
          show roundTo 24 (-149) q = _
          rw [heq, h24, zpow_add_one₀ (by norm_num)]; push_cast; ring
    · intro h0; rw [h3, if_neg h0]
    · intro h0
      rw [h3, if_pos h0]
      unfold PyFloat.zero
      by_cases hq : q < 0 <;> simp [hq]

theorem bits_overflow (f : PyFloat) (h : ¬ Fits32 f) : float32Bits f = .error .overflowError := by
  cases f with
  | fin q =>
    unfold float32Bits
    simp only
    rw [if_pos]
    rw [round32_overflow]
    exact not_lt.mp h
  | _ => exact absurd trivial h

/-- Floats can be packed as binary32 exactly when none overflows; otherwise `OverflowError` is raised. -/
theorem C42_float32_accepts (e : Endian) (fs : List PyFloat) :
    ((∃ buf, packValues (fs.map .float) .float32 e = .ok buf) ↔ ∀ f ∈ fs, Fits32 f) ∧
    ((∃ f ∈ fs, ¬ Fits32 f) → packValues (fs.map .float) .float32 e = .error .overflowError) := by
  have hdef : packValues (fs.map .float) .float32 e =
      (do let items ← (fs.map PyNum.float).mapM (packFloat32 e); return items.flatten) := rfl
  have hneg : (∃ f ∈ fs, ¬ Fits32 f) → packValues (fs.map .float) .float32 e = .error .overflowError := by
    rintro ⟨f, hf, hn⟩
    rw [hdef]
    have hr : (packFloat32 e (.float f)).raised = true := by
      rw [pf_float, bits_overflow f hn]; rfl
    have hr2 := mapM_raises (List.mem_map.mpr ⟨f, hf, rfl⟩ : PyNum.float f ∈ fs.map .float) hr
    cases hm : (fs.map PyNum.float).mapM (packFloat32 e) with
    | ok items => rw [hm] at hr2; cases hr2
    | error e' =>
      obtain ⟨v, hv, he⟩ := mapM_error hm
      obtain ⟨g, _, rfl⟩ := List.mem_map.mp hv
      rw [pf_float] at he
      by_cases hg : Fits32 g
      · obtain ⟨bits, hb, _⟩ := bits_ok g hg
        rw [hb] at he; cases he
      · rw [bits_overflow g hg] at he; cases he; rfl
  refine ⟨⟨?_, ?_⟩, hneg⟩
  · rintro ⟨buf, h⟩ f hf
    by_contra hn
    rw [hneg ⟨f, hf, hn⟩] at h
    cases h
  · intro h
    rw [hdef]
    cases hm : (fs.map PyNum.float).mapM (packFloat32 e) with
    | ok items => exact ⟨_, rfl⟩
    | error e' =>
      obtain ⟨v, hv, he⟩ := mapM_error hm
      obtain ⟨g, hg, rfl⟩ := List.mem_map.mp hv
      obtain ⟨bits, hb, _⟩ := bits_ok g (h g hg)
      rw [pf_float, hb] at he; cases he

/-- Packed floats occupy four bytes each and are read back as the nearest binary32 numbers. -/
theorem C42_float32_round_trip (native e : Endian) (fs : List PyFloat) (buf : Bytes)
    (h : packValues (fs.map .float) .float32 e = .ok buf) :
    buf.length = fs.length * 4 ∧
    ∃ gs, unpackValues native buf .float32 e = .ok (gs.map .float) ∧ List.Forall₂ StoredAs32 fs gs := by
  have hfits := ((C42_float32_accepts e fs).1).mp ⟨buf, h⟩
  have hdef : packValues (fs.map .float) .float32 e =
      (do let items ← (fs.map PyNum.float).mapM (packFloat32 e); return items.flatten) := rfl
  rw [hdef] at h
  obtain ⟨items, h', rfl⟩ := mapM_eq_flatten h
  replace h := h'
  clear h'
  have hlen := mapM_ok_length h
  rw [List.length_map] at hlen
  rw [mapM_ok_iff, List.forall₂_map_left_iff] at h
  have hsz : ∀ i ∈ items, i.length = 4 := by
    intro i hi
    obtain ⟨f, hf, hv⟩ := exists_left h hi
    obtain ⟨bits, hb, _⟩ := bits_ok f (hfits f hf)
    rw [pf_float, hb] at hv
    cases hv
    rw [Endian.order_length, leBytes_length]
  refine ⟨by rw [flatten_length_const _ _ hsz, hlen], ?_⟩
  have hu := unpackValues_flatten native e .float32 items (by decide) hsz
  refine ⟨items.map fun i => float32OfBits (leNat (e.order i)), ?_, ?_⟩
  · rw [hu, List.map_map]
    congr 1
    apply List.map_congr_left
    intro i _
    unfold arrayItem
    simp only [swap_order, Function.comp]
  · clear hu hlen hsz hdef
    rw [List.forall₂_map_right_iff]
    induction h with
    | nil => exact .nil
    | @cons f i fs items hv _ ih =>
      refine .cons ?_ (ih fun g hg => hfits g (List.mem_cons_of_mem _ hg))
      obtain ⟨bits, hb, hlt, hst⟩ := bits_ok f (hfits f List.mem_cons_self)
      rw [pf_float, hb] at hv
      cases hv
      rw [Endian.order_order, leNat_leBytes, Nat.mod_eq_of_lt (by norm_num; exact hlt)]
      exact hst

private theorem ofRat_ne_negZero {n : Int} (h : PyFloat.ofRat n = .negZero) : False := by
  unfold PyFloat.ofRat at h
  simp only at h
  split_ifs at h with h1 h2
  obtain ⟨h3, h4⟩ := h2
  have hn : (n : ℚ) ≤ -1 := by
    have : n < 0 := by exact_mod_cast h4
    have : n ≤ -1 := by omega
    exact_mod_cast this
  have h5 : round64 (-1) = -1 := by decide +kernel
  have h6 := roundTo_mono (p := 53) (by norm_num) (-1074) hn
  have h7 : round64 (n : ℚ) ≤ round64 (-1) := h6
  rw [h3, h5] at h7
  norm_num at h7

/-- Other numbers are packed as binary32 like the floats they are converted to. -/
theorem C42_float32_converts (e : Endian) (vs : List PyNum) (fs : List PyFloat) (h : List.Forall₂ FloatOf vs fs) :
    packValues vs .float32 e = packValues (fs.map .float) .float32 e := by
  have key : ∀ v f, FloatOf v f → packFloat32 e v = packFloat32 e (.float f) := by
    intro v f hv
    cases v with
    | int n =>
      obtain ⟨h1, rfl⟩ := hv
      have h2 : PyFloat.ofInt n = .ok (.fin (round64 n)) := by
        unfold PyFloat.ofInt
        cases hr : PyFloat.ofRat n with
        | inf _ =>
          exfalso
          unfold PyFloat.ofRat at hr
          simp only at hr
          rw [if_neg (not_le.mpr h1)] at hr
          split_ifs at hr
        | nan => unfold PyFloat.ofRat at hr; simp only at hr; split_ifs at hr
        | negZero => exact absurd hr ofRat_ne_negZero
        | fin q =>
          unfold PyFloat.ofRat at hr
          simp only at hr
          rw [if_neg (not_le.mpr h1)] at hr
          split_ifs at hr
          cases hr
          rfl
      simp only [packFloat32, h2]
    | float g => rw [show f = g from hv]
    | ibm x =>
      have : f = .fin x.value := hv
      subst this
      show (do
        let bits ← float32Bits x.toFloat
        return e.order (leBytes 4 bits) : Res Bytes) = _
      rw [IBMFloat.toFloat_eq]
      rfl
  have hm : vs.mapM (packFloat32 e) = (fs.map PyNum.float).mapM (packFloat32 e) := by
    induction h with
    | nil => rfl
    | cons h1 _ ih => rw [List.map_cons, List.mapM_cons, List.mapM_cons, key _ _ h1, ih]
  show (do let items ← vs.mapM (packFloat32 e); return items.flatten) =
    (do let items ← (fs.map PyNum.float).mapM (packFloat32 e); return items.flatten)
  rw [hm]

/-- An integer too great for a float is refused with `struct.error`. -/
theorem C42_float32_huge (e : Endian) (n : Int) (h : (2 : ℚ) ^ (1024 : Int) ≤ |round64 n|) :
    packValues [.int n] .float32 e = .error .structError := by
  have h2 : PyFloat.ofInt n = .error .overflowError := by
    unfold PyFloat.ofInt PyFloat.ofRat
    simp only
    rw [if_pos h]
  have h3 : packFloat32 e (.int n) = .error .structError := by
    simp only [packFloat32, h2]
    rfl
  show (do let items ← [PyNum.int n].mapM (packFloat32 e); return items.flatten) = _
  rw [List.mapM_cons, h3]
  rfl

-- an integer, a float and an IBM float
example : packValues [.int 3, .float (.fin (5 / 2)), .ibm ⟨0xC1, 0x28, 0, 0⟩] .float32 .big =
    packValues ([PyFloat.fin 3, .fin (5 / 2), .fin (-5 / 2)].map .float) .float32 .big :=
  C42_float32_converts .big _ _ (.cons ⟨by decide +kernel, by decide +kernel⟩ (.cons rfl
    (.cons (by show PyFloat.fin (-5 / 2) = .fin (IBMFloat.value _); decide +kernel) .nil)))

example : packValues [.int (2 ^ 1024)] .float32 .big = .error .structError :=
  C42_float32_huge .big _ (by decide +kernel)

/-- A float that binary32 can represent is read back unchanged. -/
theorem C42_float32_exact (native e : Endian) (qs : List ℚ) (h : ∀ q ∈ qs, IsFloat32 q) :
    ∃ buf, packValues (qs.map fun q => .float (.fin q)) .float32 e = .ok buf ∧
      unpackValues native buf .float32 e = .ok (qs.map fun q => .float (.fin q)) := by
  have e0 : qs.map (fun q => PyNum.float (.fin q)) = (qs.map PyFloat.fin).map PyNum.float := by rw [List.map_map]; rfl
  have hfit : ∀ f ∈ qs.map PyFloat.fin, Fits32 f := by
    intro f hf
    obtain ⟨q, hq, rfl⟩ := List.mem_map.mp hf
    show |q| < _
    rw [← not_le, ← round32_overflow, round32, roundTo_of_representable (h q hq).1, not_le]
    exact (h q hq).2
  obtain ⟨buf, hb⟩ := ((C42_float32_accepts e _).1).mpr hfit
  obtain ⟨_, gs, hu, hall⟩ := C42_float32_round_trip native e _ buf hb
  refine ⟨buf, by rw [e0]; exact hb, ?_⟩
  rw [hu, e0]
  congr 2
  clear hu hb hfit e0
  rename_i hl0
  clear hl0
  induction qs generalizing gs with
  | nil => cases hall; rfl
  | cons q qs ih =>
    rw [List.map_cons] at hall
    cases hall with
    | @cons _ g _ gs hg hrest =>
      rw [List.map_cons, ih (fun q' hq' => h q' (List.mem_cons_of_mem _ hq')) gs hrest]
      congr 1
      obtain ⟨r, hr, h1, h2⟩ := hg
      have hqr : r = q := by
        have := hr.nearest q (h q List.mem_cons_self)
        rw [sub_self, abs_zero] at this
        have := abs_nonpos_iff.mp this
        linarith
      subst hqr
      by_cases h0 : r = 0
      · rw [h2 h0, h0]; simp
      · exact h1 h0

/-- Reading any four bytes as binary32 gives the number the format defines, an infinity or a NaN. -/
theorem C42_float32_decodes (native e : Endian) (item : Bytes) (hl : item.length = 4) :
    ∃ f, unpackValues native item .float32 e = .ok [.float f] ∧
      (if leNat (e.order item) / 2 ^ 23 % 2 ^ 8 = 255 then
        f = if leNat (e.order item) % 2 ^ 23 = 0 then .inf (decide (2 ^ 31 ≤ leNat (e.order item))) else .nan
       else f.isFinite = true ∧ f.val = float32Value (leNat (e.order item)) ∧
        f.signbit = decide (2 ^ 31 ≤ leNat (e.order item))) := by
  have hu := unpackValues_flatten native e .float32 [item] (by decide) (by simpa [SegYType.size] using hl)
  rw [List.flatten_cons, List.flatten_nil, List.append_nil] at hu
  have hlt := leNat_lt (e.order item)
  rw [Endian.order_length, hl] at hlt
  refine ⟨float32OfBits (leNat (e.order item)), ?_, ?_⟩
  · rw [hu, List.map_cons, List.map_nil]
    unfold arrayItem
    simp only [swap_order]
  · generalize leNat (e.order item) = n at hlt
    have hn : n < 2 ^ 32 := by norm_num at hlt ⊢; exact hlt
    have hsign : decide (n / 2 ^ 31 % 2 = 1) = decide (2 ^ 31 ≤ n) := by
      rw [decide_eq_decide]; omega
    unfold float32OfBits float32Value
    simp only [hsign]
    have h256 : (256 : ℕ) = 2 ^ 8 := by norm_num
    rw [h256]
    by_cases h255 : n / 2 ^ 23 % 2 ^ 8 = 255
    · rw [if_pos h255, if_pos h255]
    · rw [if_neg h255, if_neg h255]
      have e1 : (if n < 2 ^ 31 then (1 : ℚ) else -1) = if (decide (2 ^ 31 ≤ n)) = true then -1 else 1 := by
        by_cases hh : n < 2 ^ 31
        · rw [if_pos hh, if_neg (by simpa using hh)]
        · rw [if_neg hh, if_pos (by simpa using hh)]
      rw [e1]
      generalize decide (2 ^ 31 ≤ n) = neg
      have ev : (if n / 2 ^ 23 % 2 ^ 8 = 0 then ((n % 2 ^ 23 : ℕ) : ℚ) * (2 : ℚ) ^ (-149 : ℤ)
            else ((2 ^ 23 + n % 2 ^ 23 : ℕ) : ℚ) * (2 : ℚ) ^ (((n / 2 ^ 23 % 2 ^ 8 : ℕ) : ℤ) - 150)) =
          (if n / 2 ^ 23 % 2 ^ 8 = 0 then ((n % 2 ^ 23 : ℕ) : ℚ) / 2 ^ 23 * (2 : ℚ) ^ (-126 : ℤ)
            else (1 + ((n % 2 ^ 23 : ℕ) : ℚ) / 2 ^ 23) * (2 : ℚ) ^ (((n / 2 ^ 23 % 2 ^ 8 : ℕ) : ℤ) - 127)) := by
        have h23 : (2 : ℚ) ^ (23 : ℕ) = 2 ^ (23 : ℤ) := by norm_cast
        split
        · rw [show (-126 : ℤ) = -149 + 23 by norm_num, zpow_add₀ (by norm_num), ← h23]
          field_simp
        · rw [show ((n / 2 ^ 23 % 2 ^ 8 : ℕ) : ℤ) - 127 = (((n / 2 ^ 23 % 2 ^ 8 : ℕ) : ℤ) - 150) + 23 by ring,
            zpow_add₀ (by norm_num), ← h23]
          push_cast
          field_simp
          norm_num
      rw [ev]
      have hnn : 0 ≤ (if n / 2 ^ 23 % 2 ^ 8 = 0 then ((n % 2 ^ 23 : ℕ) : ℚ) / 2 ^ 23 * (2 : ℚ) ^ (-126 : ℤ)
            else (1 + ((n % 2 ^ 23 : ℕ) : ℚ) / 2 ^ 23) * (2 : ℚ) ^ (((n / 2 ^ 23 % 2 ^ 8 : ℕ) : ℤ) - 127)) := by
        split <;> positivity
      generalize (if n / 2 ^ 23 % 2 ^ 8 = 0 then ((n % 2 ^ 23 : ℕ) : ℚ) / 2 ^ 23 * (2 : ℚ) ^ (-126 : ℤ)
            else (1 + ((n % 2 ^ 23 : ℕ) : ℚ) / 2 ^ 23) * (2 : ℚ) ^ (((n / 2 ^ 23 % 2 ^ 8 : ℕ) : ℤ) - 127)) = v at hnn
      by_cases h0 : v = 0
      · subst h0
        cases neg <;> simp [PyFloat.zero, PyFloat.isFinite, PyFloat.val, PyFloat.signbit]
      · have hv : 0 < v := lt_of_le_of_ne hnn (Ne.symm h0)
        rw [if_neg h0]
        cases neg
        · simp [PyFloat.isFinite, PyFloat.val, PyFloat.signbit, hnn]
        · simp [PyFloat.isFinite, PyFloat.val, PyFloat.signbit, hv]

/-! ## IBM floats -/

private theorem ibmFromReal_spec (v : PyNum) :
    (FitsIbm v → ∃ x, ibmFromReal v = .ok x ∧ StoredAsIbm v x) ∧ (¬ FitsIbm v → (ibmFromReal v).raised = true) := by
  cases v with
  | ibm x => exact ⟨fun _ => ⟨x, rfl, rfl⟩, fun h => absurd trivial h⟩
  | float f =>
    have hout := C04_outcomes f
    cases f with
    | nan => exact ⟨fun h => absurd h id, fun _ => rfl⟩
    | inf s => exact ⟨fun h => absurd h id, fun _ => rfl⟩
    | negZero => exact ⟨fun _ => ⟨zero, rfl, zero_value⟩, fun h => absurd trivial h⟩
    | fin q =>
      obtain ⟨h1, h2, h3⟩ := hout.2.2.2 q rfl
      constructor
      · intro h
        have hok : ∃ x, IBMFloat.fromFloat (.fin q) = .ok x := by
          cases hx : IBMFloat.fromFloat (.fin q) with
          | ok x => exact ⟨x, rfl⟩
          | error err =>
            exfalso
            by_cases hq : q = 0
            · subst hq; cases hx
            · unfold IBMFloat.fromFloat at hx
              rw [ieee2ibm_fin hq] at hx
              rcases h with h | ⟨ha, hb⟩
              · exact hq h
              · rw [if_neg (not_lt.mpr hb), if_neg (not_lt.mpr ha)] at hx
                cases hx
        obtain ⟨x, hx⟩ := hok
        exact ⟨x, hx, C03_truncates q x hx⟩
      · intro h
        have hq : q ≠ 0 := fun h0 => h (Or.inl h0)
        show (IBMFloat.fromFloat (.fin q)).raised = true
        by_cases hb : ibmMax < |q|
        · rw [h1.mpr hb]; rfl
        · have : |q| < ibmTiny := by
            by_contra hc
            exact h (Or.inr ⟨not_lt.mp hc, not_lt.mp hb⟩)
          rw [h2.mpr ⟨hq, this⟩]; rfl
  | int n =>
    by_cases hn : n = 0
    · subst hn
      refine ⟨fun _ => ⟨zero, rfl, ?_⟩, fun h => absurd ?_ h⟩
      · show IsTruncation (round64 ((0 : ℤ) : ℚ)) _
        rw [Int.cast_zero, round64_zero, zero_value, ← zero_value]
        exact isTruncation_self zero
      · show |((0 : ℤ) : ℚ)| ≤ ibmMax
        rw [Int.cast_zero, abs_zero]; unfold ibmMax; norm_num
    · have hmin : MIN_IBM_FLOAT = -ibmMax := by unfold MIN_IBM_FLOAT; rw [maxIbm_eq]
      constructor
      · intro h
        have h' : |(n : ℚ)| ≤ ibmMax := h
        have hle := abs_le.mp h'
        -- the rounded integer stays within the limits and is not tiny
        have repmax : Representable 53 (-1074) ibmMax := by
          refine ⟨2 ^ 24 - 1, 228, ?_, by norm_num, by norm_num⟩
          unfold ibmMax
          rw [show (228 : ℤ) = ((228 : ℕ) : ℤ) by norm_num, zpow_natCast]
          norm_num
        have repone : Representable 53 (-1074) 1 := ⟨1, 0, by simp, by norm_num, by norm_num⟩
        have hn1 : (1 : ℚ) ≤ |(n : ℚ)| := by
          have := Int.one_le_abs hn; exact_mod_cast this
        have key : ∀ m : ℚ, 1 ≤ m → m ≤ ibmMax → 1 ≤ round64 m ∧ round64 m ≤ ibmMax := by
          intro m g1 g2
          have a := roundTo_nearest (p := 53) (by norm_num) (emin := -1074) m repmax
          have b := roundTo_nearest (p := 53) (by norm_num) (emin := -1074) m repone
          rw [abs_of_nonneg (by linarith : 0 ≤ ibmMax - m)] at a
          rw [abs_of_nonpos (by linarith : 1 - m ≤ 0)] at b
          have a' := (abs_le.mp a).2
          have b' := (abs_le.mp b).1
          unfold round64
          constructor <;> linarith
        have hr : 1 ≤ |round64 (n : ℚ)| ∧ |round64 (n : ℚ)| ≤ ibmMax := by
          rcases le_or_gt 0 (n : ℚ) with hs | hs
          · rw [abs_of_nonneg hs] at hn1 h'
            have := key n hn1 h'
            rw [abs_of_nonneg (by linarith)]
            exact this
          · rw [abs_of_neg hs] at hn1 h'
            have := key (-n) hn1 h'
            rw [round64, roundTo_neg] at this
            have hneg : roundTo 53 (-1074) (n : ℚ) ≤ 0 := by linarith [this.1]
            rw [round64, abs_of_nonpos hneg]
            exact this
        have hne : round64 (n : ℚ) ≠ 0 := by
          intro h0; rw [h0, abs_zero] at hr; linarith [hr.1]
        have htiny : ibmTiny ≤ |round64 (n : ℚ)| := le_trans (by unfold ibmTiny; norm_num) hr.1
        have hcore : ieee2ibmCore (round64 (n : ℚ)) = .ok (conv (round64 (n : ℚ))) := by
          have h1 := ieee2ibm_fin hne
          rw [if_neg (not_lt.mpr hr.2), if_neg (not_lt.mpr htiny)] at h1
          unfold ieee2ibm at h1
          simp only at h1
          rw [if_neg hne, hmin, maxIbm_eq, if_neg (not_lt.mpr (abs_le.mp hr.2).1),
            if_neg (not_lt.mpr (abs_le.mp hr.2).2)] at h1
          exact h1
        refine ⟨conv (round64 (n : ℚ)), ?_, conv_isTruncation hne hr.2 htiny⟩
        unfold ibmFromReal
        simp only
        rw [if_neg hn, hmin, maxIbm_eq, if_neg (not_lt.mpr hle.1), if_neg (not_lt.mpr hle.2)]
        exact hcore
      · intro h
        have h' : ¬ |(n : ℚ)| ≤ ibmMax := h
        rw [abs_le, not_and_or, not_le, not_le] at h'
        unfold ibmFromReal
        simp only
        rw [if_neg hn, hmin, maxIbm_eq]
        split
        · rfl
        · rename_i hh
          rw [if_pos]
          · rfl
          · rcases h' with h' | h'
            · exact absurd h' hh
            · exact h'

/-- Numbers can be packed as IBM floats exactly when each is representable in range. -/
theorem C42_ibm_accepts (vs : List PyNum) : (∃ buf, packIbmFloats vs = .ok buf) ↔ ∀ v ∈ vs, FitsIbm v := by
  unfold packIbmFloats
  constructor
  · rintro ⟨buf, h⟩ v hv
    by_contra hn
    obtain ⟨items, h, _⟩ := mapM_eq_flatten h
    have hr := (ibmFromReal_spec v).2 hn
    have : ((do return (← ibmFromReal v).toBytes : Res Bytes)).raised = true := by
      cases hx : ibmFromReal v with
      | ok x => rw [hx] at hr; cases hr
      | error e => rfl
    have hr2 := mapM_raises (f := fun v => do return (← ibmFromReal v).toBytes) hv this
    rw [h] at hr2
    cases hr2
  · intro h
    cases hm : vs.mapM (fun v => do return (← ibmFromReal v).toBytes) with
    | ok items => exact ⟨_, rfl⟩
    | error e =>
      exfalso
      obtain ⟨v, hv, he⟩ := mapM_error hm
      obtain ⟨x, hx, _⟩ := (ibmFromReal_spec v).1 (h v hv)
      rw [hx] at he
      cases he

/-- Packed IBM floats occupy four bytes each; reading them back gives IBM floats with the stored bytes unchanged, the
value of a float truncated to IBM precision. -/
theorem C42_ibm_round_trip (vs : List PyNum) (buf : Bytes) (h : packIbmFloats vs = .ok buf) :
    buf.length = vs.length * 4 ∧
    ∃ xs : List IBMFloat, unpackIbmFloats buf vs.length = .ok (xs.map .ibm) ∧ List.Forall₂ StoredAsIbm vs xs ∧
      buf = (xs.map IBMFloat.toBytes).flatten := by
  have hfits := (C42_ibm_accepts vs).mp ⟨buf, h⟩
  unfold packIbmFloats at h
  obtain ⟨items, h', rfl⟩ := mapM_eq_flatten h
  replace h := h'
  clear h'
  rw [mapM_ok_iff] at h
  have key : ∃ xs : List IBMFloat, items = xs.map IBMFloat.toBytes ∧ List.Forall₂ StoredAsIbm vs xs := by
    induction h with
    | nil => exact ⟨[], rfl, .nil⟩
    | @cons v b vs items hv _ ih =>
      obtain ⟨xs, h1, h2⟩ := ih fun w hw => hfits w (List.mem_cons_of_mem _ hw)
      obtain ⟨x, hx, hst⟩ := (ibmFromReal_spec v).1 (hfits v List.mem_cons_self)
      rw [hx] at hv
      cases hv
      exact ⟨x :: xs, by rw [h1]; rfl, .cons hst h2⟩
  obtain ⟨xs, rfl, hst⟩ := key
  have hsz : ∀ i ∈ xs.map IBMFloat.toBytes, i.length = 4 := by
    intro i hi; obtain ⟨x, _, rfl⟩ := List.mem_map.mp hi; rfl
  have hlen : xs.length = vs.length := hst.length_eq.symm
  refine ⟨by rw [flatten_length_const _ _ hsz, List.length_map, hlen], xs, ?_, hst, rfl⟩
  unfold unpackIbmFloats
  have hit := itemsOf_flatten 4 _ hsz []
  rw [List.append_nil, List.length_map, hlen] at hit
  rw [Int.toNat_natCast, hit]
  have : (xs.map IBMFloat.toBytes).mapM IBMFloat.fromBytes = .ok xs := by
    rw [mapM_ok_iff, List.forall₂_map_left_iff]
    exact List.forall₂_same.mpr fun x _ => rfl
  rw [this]
  rfl

/-- In particular IBM floats survive bit for bit. -/
theorem C42_ibm_exact (xs : List IBMFloat) :
    ∃ buf, packIbmFloats (xs.map .ibm) = .ok buf ∧ unpackIbmFloats buf xs.length = .ok (xs.map .ibm) := by
  obtain ⟨buf, hb⟩ := (C42_ibm_accepts (xs.map .ibm)).mpr (by
    intro v hv; obtain ⟨x, _, rfl⟩ := List.mem_map.mp hv; exact trivial)
  obtain ⟨hl, ys, hu, hst, hf⟩ := C42_ibm_round_trip _ buf hb
  refine ⟨buf, hb, ?_⟩
  rw [List.length_map] at hu
  rw [hu]
  congr 1
  rw [List.forall₂_map_left_iff] at hst
  clear hu hb hl hf
  induction hst with
  | nil => rfl
  | cons h _ ih => rw [List.map_cons, List.map_cons, ih]; cases h; rfl

/-! ## Through a file -/

/-- The bytes of stored samples, and what they are read back as, for any sample format. -/
theorem C42_stored (native e : Endian) (t : SegYType) (vs : List PyNum) (buf : Bytes)
    (h : sampleBytes vs t e = .ok buf) (hf : t = .float32 → ∀ v ∈ vs, ∃ f, v = .float f) :
    buf.length = vs.length * t.size ∧
    ∃ ws, (if t = .ibm then unpackIbmFloats buf vs.length else unpackValues native buf t e) = .ok ws ∧
      List.Forall₂ (StoredAs t) vs ws := by
  unfold sampleBytes at h
  cases t with
  | int t =>
    rw [if_neg (by simp)] at h
    obtain ⟨h1, h2, _⟩ := C42_int_round_trip native e t vs buf h
    obtain ⟨c, _, _, _, _, h5, _⟩ := code_of t
    refine ⟨by rw [SegYType.size, h5]; exact h1, vs, by rw [if_neg (by simp)]; exact h2, ?_⟩
    exact List.forall₂_same.mpr fun v _ => rfl
  | float32 =>
    rw [if_neg (by simp)] at h
    have hex : ∃ fs : List PyFloat, vs = fs.map .float := by
      clear h
      induction vs with
      | nil => exact ⟨[], rfl⟩
      | cons v vs ih =>
        obtain ⟨f, rfl⟩ := hf rfl v List.mem_cons_self
        obtain ⟨fs, rfl⟩ := ih fun _ w hw => hf rfl w (List.mem_cons_of_mem _ hw)
        exact ⟨f :: fs, rfl⟩
    obtain ⟨fs, rfl⟩ := hex
    obtain ⟨h1, gs, h2, h3⟩ := C42_float32_round_trip native e fs buf h
    refine ⟨by rw [List.length_map]; exact h1, gs.map .float, by rw [if_neg (by simp)]; exact h2, ?_⟩
    rw [List.forall₂_map_left_iff, List.forall₂_map_right_iff]
    exact h3.imp fun f g hfg => ⟨f, g, rfl, rfl, hfg⟩
  | ibm =>
    rw [if_pos rfl] at h
    obtain ⟨h1, xs, h2, h3, _⟩ := C42_ibm_round_trip vs buf h
    refine ⟨h1, xs.map .ibm, by rw [if_pos rfl]; exact h2, ?_⟩
    rw [List.forall₂_map_right_iff]
    exact h3.imp fun v x hx => ⟨x, rfl, hx⟩

/-- Samples present in a file are read from their position, leaving the file positioned after them. -/
theorem C42_read_back (native e : Endian) (t : SegYType) (vs : List PyNum) (buf : Bytes) (s : FileH) (pos : Nat)
    (h : sampleBytes vs t e = .ok buf) (hf : t = .float32 → ∀ v ∈ vs, ∃ f, v = .float f)
    (hat : (s.data.drop pos).take buf.length = buf) :
    ∃ ws, readBinaryValues native pos t vs.length e s = (.ok ws, { s with pos := pos + buf.length }) ∧
      List.Forall₂ (StoredAs t) vs ws := by
  obtain ⟨hb, ws, hun, hst⟩ := C42_stored native e t vs buf h hf
  refine ⟨ws, ?_, hst⟩
  have hlen := hst.length_eq
  unfold readBinaryValues
  have hbs : ((t.size : Int) * (vs.length : Int)) = (buf.length : Nat) := by
    rw [hb]; push_cast; ring
  simp only [hbs]
  rw [FileM.bind_ok (FileM.seek_apply pos s), FileM.bind_apply, FileM.read_apply]
  simp only [hat]
  rw [if_neg (by omega), FileM.bind_apply, FileM.lift_apply, hun]
  simp only
  rw [if_neg (by rw [hlen]; simp)]
  rfl

/-- Samples written at the file position and read from it are the stored samples. -/
theorem C42_write_read (native e : Endian) (t : SegYType) (vs : List PyNum) (s s' : FileH) (hlim : s.limit = none)
    (h : writeTraceSamples vs t e s = (.ok (), s')) (hf : t = .float32 → ∀ v ∈ vs, ∃ f, v = .float f) :
    ∃ ws, (readBinaryValues native s.pos t vs.length e s').1 = .ok ws ∧ List.Forall₂ (StoredAs t) vs ws := by
  unfold writeTraceSamples at h
  rw [FileM.bind_apply, FileM.lift_apply] at h
  cases hb : sampleBytes vs t e with
  | error err => rw [hb] at h; cases h
  | ok buf =>
    rw [hb] at h
    simp only at h
    rw [FileM.write_apply hlim, Prod.mk.injEq] at h
    obtain ⟨_, rfl⟩ := h
    obtain ⟨ws, hr, hst⟩ := C42_read_back native e t vs buf
      { s with data := FileM.overwrite s.data s.pos buf, pos := s.pos + buf.length } s.pos hb hf
      (FileM.overwrite_drop _ _ _)
    exact ⟨ws, by rw [hr], hst⟩

/-- A file too short raises `EOFError`. -/
theorem C42_read_short (native e : Endian) (t : SegYType) (n pos : Nat) (s : FileH)
    (h : s.data.length < pos + n * t.size) (hn : 0 < n * t.size) :
    (readBinaryValues native pos t n e s).1 = .error .eofError := by
  unfold readBinaryValues
  have hbs : ((t.size : Int) * (n : Int)) = ((n * t.size : Nat) : Int) := by push_cast; ring
  simp only [hbs]
  rw [FileM.bind_ok (FileM.seek_apply pos s), FileM.bind_apply, FileM.read_apply]
  simp only
  rw [if_pos]
  · rfl
  · rw [List.length_take, List.length_drop]; omega

example : packValues [.int (-2), .int 300] (.int .int16) .big = .ok [0xff, 0xfe, 0x01, 0x2c] := by decide +kernel
example : unpackValues .little [0xff, 0xfe, 0x01, 0x2c] (.int .int16) .big = .ok [.int (-2), .int 300] := by
  decide +kernel
example : packValues [.float (.fin (-118625 / 1000))] .float32 .big = .ok [0xc2, 0xed, 0x40, 0x00] := by decide +kernel
example : IsFloat32 (-118625 / 1000) :=
  ⟨⟨-949, -3, by norm_num, by norm_num, by norm_num⟩, by norm_num⟩
example : packIbmFloats [.float (.fin (-118625 / 1000)), .int 1] = .ok [0xc2, 0x76, 0xa0, 0, 0x41, 0x10, 0, 0] := by
  decide +kernel

end Segpy.Props
