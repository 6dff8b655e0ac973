import Verif.Lemmas.Template
import Verif.Lemmas.Float
import Verif.Lemmas.IbmFloat3
import Verif.Model.Encoding

/-!
# Properties C37 and C41: guessing the encoding, formatting and parsing standard textual headers
-/

namespace Segpy.Props
open Segpy.Spec

/-! ## C37 encoding guess -/

private theorem common_table : ∀ b : Fin 256,
    (UInt8.ofNat b.val ∈ commonChars .ebcdic ↔ isCommonByte .ebcdic (UInt8.ofNat b.val) = true) ∧
    (UInt8.ofNat b.val ∈ commonChars .ascii ↔ isCommonByte .ascii (UInt8.ofNat b.val) = true) := by decide +kernel

private theorem common_iff (b : UInt8) :
    (b ∈ commonChars .ebcdic ↔ isCommonByte .ebcdic b = true) ∧
    (b ∈ commonChars .ascii ↔ isCommonByte .ascii b = true) := by
  have := common_table ⟨b.toNat, b.toNat_lt⟩
  simpa using this

private theorem counts_eq (bs : Bytes) : ∀ e a z n, guessCounts bs (e, a, z, n) =
    (e + commonCount .ebcdic bs, a + commonCount .ascii bs, z + bs.countP (· == 0), n + bs.length) := by
  induction bs with
  | nil => intro e a z n; rfl
  | cons b bs ih =>
    intro e a z n
    rw [guessCounts, ih]
    unfold commonCount
    simp only [List.countP_cons, List.length_cons, (common_iff b).1, (common_iff b).2, beq_iff_eq]
    refine Prod.ext ?_ (Prod.ext ?_ (Prod.ext ?_ ?_)) <;> simp only <;> omega

/-- A quotient of counts compares with one half and with one as the exact quotient does. -/
private theorem quot_lt_pow {n d : Nat} (hd : 0 < d) (hd2 : d ≤ 2 ^ 52) (k : ℤ) (hk : k = 0 ∨ k = -1)
    (h : (n : ℚ) / d < (2 : ℚ) ^ k) : round64 ((n : ℚ) / d) < (2 : ℚ) ^ k := by
  have hdq : (0 : ℚ) < d := by exact_mod_cast hd
  by_cases hn : n = 0
  · subst hn
    have h0 : round64 0 = 0 := by simp [round64, roundTo]
    simp only [Nat.cast_zero, zero_div, h0]
    exact two_zpow_pos k
  have hnq : (0 : ℚ) < n := by exact_mod_cast Nat.pos_of_ne_zero hn
  have hq : (0 : ℚ) < (n : ℚ) / d := div_pos hnq hdq
  have hclose := roundTo_close 53 (-1074) hq.ne'
  have hfe := frexpExp_spec hq.ne'
  rw [abs_of_pos hq] at hfe
  have hek : frexpExp ((n : ℚ) / d) ≤ k := by
    have := two_zpow_lt.mp (lt_of_le_of_lt hfe.1 h)
    omega
  -- the distance from the exact quotient to the bound is at least 2^(k-52)
  have hgap : (n : ℚ) / d ≤ (2 : ℚ) ^ k - (2 : ℚ) ^ (k - 52) := by
    have hd3 : (d : ℚ) ≤ 2 ^ (52 : ℕ) := by exact_mod_cast hd2
    rw [div_lt_iff₀ hdq] at h
    rw [div_le_iff₀ hdq]
    rcases hk with rfl | rfl
    · have h' : n < d := by
        have : (n : ℚ) < d := by simpa using h
        exact_mod_cast this
      have h'' : (n : ℚ) ≤ d - 1 := by
        have : (n : ℚ) + 1 ≤ d := by exact_mod_cast h'
        linarith
      have e : (2 : ℚ) ^ ((0 : ℤ) - 52) = 1 / 2 ^ (52 : ℕ) := by norm_num [zpow_neg, zpow_ofNat]
      rw [e, zpow_zero, sub_mul, one_mul]
      have : 1 / (2 : ℚ) ^ (52 : ℕ) * d ≤ 1 := by
        rw [div_mul_eq_mul_div, one_mul, div_le_one (by positivity)]; exact hd3
      linarith
    · have h' : 2 * n < d := by
        have : (2 : ℚ) * n < d := by
          have h2 : (2 : ℚ) ^ (-1 : ℤ) * d = d / 2 := by rw [zpow_neg_one]; ring
          rw [h2] at h; linarith
        exact_mod_cast this
      have h'' : (2 : ℚ) * n ≤ d - 1 := by
        have : (2 : ℚ) * n + 1 ≤ d := by exact_mod_cast h'
        linarith
      have e : (2 : ℚ) ^ ((-1 : ℤ) - 52) = 1 / 2 / 2 ^ (52 : ℕ) := by
        rw [zpow_sub₀ (by norm_num), zpow_neg_one, one_div]; norm_num
      rw [e, zpow_neg_one, sub_mul]
      have : 1 / (2 : ℚ) / 2 ^ (52 : ℕ) * d ≤ 1 / 2 := by
        rw [div_mul_eq_mul_div, div_le_iff₀ (by positivity)]; linarith
      linarith
  have hmax : max (frexpExp ((n : ℚ) / d) - (53 : ℕ)) (-1074) ≤ k - 53 := by
    rcases hk with rfl | rfl <;> omega
  have herr := (abs_le.mp hclose).2
  have hpow : (2 : ℚ) ^ (max (frexpExp ((n : ℚ) / d) - (53 : ℕ)) (-1074)) ≤ (2 : ℚ) ^ (k - 53) := two_zpow_le.mpr hmax
  have hlast : (2 : ℚ) ^ (k - 53) < (2 : ℚ) ^ (k - 52) := two_zpow_lt.mpr (by omega)
  have hp2 := two_zpow_pos (k - 53)
  show roundTo 53 (-1074) _ < _
  linarith

private theorem quot_ge_pow {q : ℚ} {k : ℤ} (hk : -1000 ≤ k) (h : (2 : ℚ) ^ k ≤ q) : (2 : ℚ) ^ k ≤ round64 q := by
  have hq : (0 : ℚ) < q := lt_of_lt_of_le (two_zpow_pos k) h
  have hfe := frexpExp_spec hq.ne'
  rw [abs_of_pos hq] at hfe
  have hek : k < frexpExp q := two_zpow_lt.mp (lt_of_le_of_lt h hfe.2)
  unfold round64 roundTo
  rw [if_neg hq.ne']
  simp only
  generalize hu : max (frexpExp q - (53 : ℕ)) (-1074) = u
  have hue : u ≤ frexpExp q - 1 := by omega
  obtain ⟨m, hm⟩ : ∃ m : ℕ, (m : ℤ) = frexpExp q - 1 - u := ⟨(frexpExp q - 1 - u).toNat, by omega⟩
  have hx : ((2 ^ m : ℤ) : ℚ) ≤ q / (2 : ℚ) ^ u := by
    rw [le_div_iff₀ (two_zpow_pos u)]
    have : ((2 ^ m : ℤ) : ℚ) * (2 : ℚ) ^ u = (2 : ℚ) ^ (frexpExp q - 1) := by
      push_cast
      rw [← zpow_natCast, ← zpow_add₀ (by norm_num), hm]
      congr 1; omega
    rw [this]; exact hfe.1
  have hfl : (2 ^ m : ℤ) ≤ (q / (2 : ℚ) ^ u).floor := Int.le_floor.mpr hx
  have hr : (2 ^ m : ℤ) ≤ roundHalfEven (q / (2 : ℚ) ^ u) := by
    unfold roundHalfEven
    simp only
    split_ifs <;> omega
  have hr' : ((2 ^ m : ℤ) : ℚ) ≤ (roundHalfEven (q / (2 : ℚ) ^ u) : ℚ) := by exact_mod_cast hr
  calc (2 : ℚ) ^ k ≤ (2 : ℚ) ^ (frexpExp q - 1) := two_zpow_le.mpr (by omega)
    _ = ((2 ^ m : ℤ) : ℚ) * (2 : ℚ) ^ u := by
      push_cast
      rw [← zpow_natCast, ← zpow_add₀ (by norm_num), hm]
      congr 1; omega
    _ ≤ _ := mul_le_mul_of_nonneg_right hr' (two_zpow_pos u).le

private theorem quot_lt_iff {n d : Nat} (hd : 0 < d) (hd2 : d ≤ 2 ^ 52) (k : ℤ) (hk : k = 0 ∨ k = -1) :
    round64 ((n : ℚ) / d) < (2 : ℚ) ^ k ↔ (n : ℚ) / d < (2 : ℚ) ^ k := by
  constructor
  · intro h
    by_contra hc
    push Not at hc
    exact absurd (quot_ge_pow (by rcases hk with rfl | rfl <;> omega) hc) (not_le.mpr h)
  · exact quot_lt_pow hd hd2 k hk

private theorem intTrueDiv_val {n d : Nat} (hd : 0 < d) (hnd : n ≤ d) :
    (intTrueDiv n d = .fin (round64 ((n : ℚ) / d))) ∨ (intTrueDiv n d = .negZero ∧ round64 ((n : ℚ) / d) = 0) := by
  apply ofRat_finite
  have hdq : (0 : ℚ) < d := by exact_mod_cast hd
  have h0 : (0 : ℚ) ≤ (n : ℚ) / d := by positivity
  rw [abs_of_nonneg h0, div_lt_iff₀ hdq]
  have : (n : ℚ) ≤ d := by exact_mod_cast hnd
  have h1 : (1 : ℚ) < (2 : ℚ) ^ (1000 : ℤ) := by
    rw [show (1 : ℚ) = (2 : ℚ) ^ (0 : ℤ) by simp]; exact two_zpow_lt.mpr (by omega)
  generalize (2 : ℚ) ^ (1000 : ℤ) = B at h1
  nlinarith

private theorem lt_half {n d : Nat} (hd : 0 < d) (hd2 : d ≤ 2 ^ 52) (hnd : n ≤ d) :
    (intTrueDiv n d).lt (.fin (1 / 2)) = decide (2 * n < d) ∧
    (PyFloat.fin (1 / 2)).le (intTrueDiv n d) = !decide (2 * n < d) := by
  have hdq : (0 : ℚ) < d := by exact_mod_cast hd
  have hiff := quot_lt_iff (n := n) hd hd2 (-1) (Or.inr rfl)
  have e : (n : ℚ) / d < (2 : ℚ) ^ (-1 : ℤ) ↔ 2 * n < d := by
    rw [zpow_neg_one, div_lt_iff₀ hdq, inv_mul_eq_div, lt_div_iff₀ (by norm_num)]
    constructor
    · intro h; have : ((2 * n : ℕ) : ℚ) < d := by push_cast; linarith
      exact_mod_cast this
    · intro h; have : ((2 * n : ℕ) : ℚ) < d := by exact_mod_cast h
      push_cast at this; linarith
  rw [e] at hiff
  have e2 : (2 : ℚ) ^ (-1 : ℤ) = 1 / 2 := by norm_num
  rw [e2] at hiff
  have main : ∀ x : PyFloat, (x = .fin (round64 ((n : ℚ) / d)) ∨ (x = .negZero ∧ round64 ((n : ℚ) / d) = 0)) →
      x.lt (.fin (1 / 2)) = decide (round64 ((n : ℚ) / d) < 1 / 2) ∧
      (PyFloat.fin (1 / 2)).le x = decide (¬ round64 ((n : ℚ) / d) < 1 / 2) := by
    intro x hx
    generalize round64 ((n : ℚ) / d) = r at hx
    rcases hx with rfl | ⟨rfl, rfl⟩
    · refine ⟨rfl, ?_⟩
      have h1 : (PyFloat.fin (1 / 2)).lt (.fin r) = decide (1 / 2 < r) := rfl
      have h2 : (PyFloat.fin (1 / 2)).eq (.fin r) = decide (1 / 2 = r) := rfl
      rw [PyFloat.le, h1, h2, ← Bool.decide_or, decide_eq_decide, not_lt, le_iff_lt_or_eq]
    · exact ⟨rfl, by decide +kernel⟩
  obtain ⟨m1, m2⟩ := main _ (intTrueDiv_val hd hnd)
  rw [m1, m2]
  refine ⟨by rw [decide_eq_decide]; exact hiff, ?_⟩
  rw [← decide_not, decide_eq_decide, not_iff_not]; exact hiff

private theorem eq_one {n d : Nat} (hd : 0 < d) (hd2 : d ≤ 2 ^ 52) (hnd : n ≤ d) :
    (intTrueDiv n d).eq (.fin 1) = decide (n = d) := by
  have hdq : (0 : ℚ) < d := by exact_mod_cast hd
  by_cases h : n = d
  · subst h
    have h1 : (n : ℚ) / n = 1 := div_self hdq.ne'
    have : intTrueDiv n n = .fin 1 := by
      unfold intTrueDiv
      rw [h1]
      decide +kernel
    rw [this]
    simp [PyFloat.eq, PyFloat.val]
  · have hlt : (n : ℚ) / d < (2 : ℚ) ^ (0 : ℤ) := by
      rw [zpow_zero, div_lt_one hdq]
      exact_mod_cast lt_of_le_of_ne hnd h
    have hr := (quot_lt_iff (n := n) hd hd2 0 (Or.inl rfl)).mpr hlt
    rw [zpow_zero] at hr
    rw [decide_eq_false h]
    rcases intTrueDiv_val hd hnd with hx | ⟨hx, _⟩
    · rw [hx]
      have h2 : (PyFloat.fin (round64 ((n : ℚ) / d))).eq (.fin 1) = decide (round64 ((n : ℚ) / d) = 1) := rfl
      rw [h2]
      exact decide_eq_false hr.ne
    · rw [hx]; decide +kernel

/-- The guess, with the default threshold: nothing for an empty buffer; ASCII if all bytes are zero; otherwise the
encoding under which at least half of the bytes are common characters, if the other encoding has fewer than half; nothing
if both or neither do.  (The code divides counts as floats, so the statement is for buffers up to 2^52 bytes.) -/
theorem C37_guess (bs : Bytes) (hlen : bs.length ≤ 2 ^ 52) :
    guessEncoding bs (.fin (1 / 2)) =
      if bs = [] then none
      else if ∀ b ∈ bs, b = 0 then some .ascii
      else if 2 * commonCount .ebcdic bs < bs.length ∧ bs.length ≤ 2 * commonCount .ascii bs then some .ascii
      else if 2 * commonCount .ascii bs < bs.length ∧ bs.length ≤ 2 * commonCount .ebcdic bs then some .ebcdic
      else none := by
  unfold guessEncoding
  rw [counts_eq]
  simp only [Nat.zero_add]
  by_cases hnil : bs = []
  · subst hnil; rfl
  rw [if_neg (by simpa using hnil), if_neg hnil]
  have hpos : 0 < bs.length := List.length_pos_of_ne_nil hnil
  have hz : bs.countP (· == 0) ≤ bs.length := List.countP_le_length
  have he : commonCount .ebcdic bs ≤ bs.length := List.countP_le_length
  have ha : commonCount .ascii bs ≤ bs.length := List.countP_le_length
  rw [eq_one hpos hlen hz, (lt_half hpos hlen he).1, (lt_half hpos hlen ha).1, (lt_half hpos hlen he).2,
    (lt_half hpos hlen ha).2]
  have hzero : (bs.countP (· == 0) = bs.length) ↔ ∀ b ∈ bs, b = 0 := by
    rw [List.countP_eq_length]; simp
  by_cases hall : ∀ b ∈ bs, b = 0
  · rw [if_pos (by simpa using hzero.mpr hall), if_pos hall]
  · rw [if_neg (by simpa using fun h => hall (hzero.mp h)), if_neg hall]
    congr 1
    · simp
    · congr 1
      simp [and_comm]

/-- In particular the answer is always one of the two supported encodings or none. -/
theorem C37_supported (bs : Bytes) (t : PyFloat) : guessEncoding bs t ≠ some .other := by
  unfold guessEncoding
  intro h
  simp only at h
  split_ifs at h <;> cases h

/-- A text of common characters only, encoded in either encoding, is recognised as such, unless half or more of its
bytes are also codes of common characters in the other encoding. -/
theorem C37_recognises (enc : Encoding) (henc : enc ≠ .other) (s : PyStr) (hs : s ≠ []) (hl : s.length ≤ 2 ^ 52)
    (hc : ∀ c ∈ s, isCommonChar c = true) (bs : Bytes) (h : encode enc s = .ok bs)
    (hother : 2 * commonCount (if enc = .ascii then .ebcdic else .ascii) bs < bs.length) :
    guessEncoding bs (.fin (1 / 2)) = some enc := by
  have hlen := encode_length h
  have hdec := (mapM_ok_iff _ _ _).mp (decode_encode h)
  have hall : ∀ b ∈ bs, isCommonByte enc b = true := by
    clear hother hlen h
    intro b hb
    induction hdec with
    | nil => cases hb
    | @cons b' c' bs' s' h1 _ ih =>
      rcases List.mem_cons.mp hb with rfl | hb
      · unfold isCommonByte; rw [h1]; exact hc _ (by simp)
      · cases s' with
        | nil => rename_i hf; cases hf; cases hb
        | cons x xs =>
          exact ih (by simp) (by simp at hl ⊢; omega) (fun c hc' => hc c (List.mem_cons_of_mem _ hc')) hb
  have hcount : commonCount enc bs = bs.length := by
    unfold commonCount; rw [List.countP_eq_length]; exact hall
  have hne : bs ≠ [] := by intro h0; rw [h0] at hlen; exact hs (List.eq_nil_of_length_eq_zero hlen.symm)
  have hpos : 0 < bs.length := List.length_pos_of_ne_nil hne
  rw [C37_guess bs (by omega), if_neg hne, if_neg]
  · cases enc with
    | other => exact absurd rfl henc
    | ascii =>
      simp only [if_true] at hother
      rw [if_pos ⟨hother, by omega⟩]
    | ebcdic =>
      have hother' : 2 * commonCount .ascii bs < bs.length := hother
      rw [if_neg (by omega), if_pos ⟨hother', by omega⟩]
  · intro h0
    obtain ⟨b, hb⟩ := List.exists_mem_of_ne_nil _ hne
    have h1 := hall b hb
    rw [h0 b hb] at h1
    cases enc with
    | other => exact absurd rfl henc
    | ascii => exact absurd h1 (by decide +kernel)
    | ebcdic => exact absurd h1 (by decide +kernel)

example : guessEncoding [0xC3, 0x40, 0xF1, 0x40] (.fin (1 / 2)) = some .ebcdic := by decide +kernel
example : guessEncoding [67, 32, 49, 32] (.fin (1 / 2)) = some .ascii := by decide +kernel
example : guessEncoding [0x7A, 0x6D] (.fin (1 / 2)) = none := by decide +kernel
example : guessEncoding [0, 0] (.fin (1 / 2)) = some .ascii := by decide +kernel

/-! ## C41 standard textual headers -/

private theorem lookup_eq_find (kw : Kwargs) (f : PyStr) :
    kw.lookup f = (kw.find? fun p => p.1 == f).map Prod.snd := by
  induction kw with
  | nil => rfl
  | cons p kw ih =>
    obtain ⟨k, v⟩ := p
    by_cases h : k = f
    · subst h; simp
    · have h' : (f == k) = false := by simpa using fun hh : f = k => h hh.symm
      rw [List.lookup_cons, h', List.find?_cons_of_neg (by simpa using h)]
      exact ih

private theorem any_iff_lookup (kw : Kwargs) (f : PyStr) :
    (kw.any fun p => p.1 == f) = (kw.lookup f).isSome := by
  rw [lookup_eq_find]
  cases h : kw.find? (fun p => p.1 == f) with
  | none =>
    rw [List.find?_eq_none] at h
    simp only [Option.map_none, Option.isSome_none, List.any_eq_false]
    intro p hp; simpa using h p hp
  | some p =>
    simp only [Option.map_some, Option.isSome_some, List.any_eq_true]
    exact ⟨p, List.mem_of_find?_eq_some h, by simpa using List.find?_some h⟩

private theorem endMarker_eq {revision : Int} (h : revision = 0 ∨ revision = 256) :
    endMarker revision = .ok (defaultEndMarker revision) := by
  rcases h with rfl | rfl <;> decide +kernel

private theorem value_setdefault (kw : Kwargs) (revision : Int) (f : PyStr) :
    Kwargs.value (kw.setdefault "end_marker".toList (defaultEndMarker revision)) f = givenValue revision kw f := by
  unfold Kwargs.value Kwargs.pop Kwargs.setdefault givenValue
  simp only
  rw [any_iff_lookup]
  by_cases hsome : (kw.lookup "end_marker".toList).isSome = true
  · rw [if_pos hsome, ← lookup_eq_find]
    cases hl : kw.lookup f with
    | some v => rfl
    | none =>
      have : f ≠ "end_marker".toList := by
        rintro rfl
        rw [hl] at hsome; cases hsome
      simp only [if_neg this, Option.getD_none]
  · rw [if_neg hsome, List.find?_append]
    cases hl : kw.lookup f with
    | some v =>
      rw [lookup_eq_find] at hl
      cases hf : kw.find? (fun p => p.1 == f) with
      | none => rw [hf] at hl; cases hl
      | some p =>
        rw [hf] at hl
        simp only [Option.map_some, Option.some.injEq] at hl
        simp [hl]
    | none =>
      rw [lookup_eq_find] at hl
      have hf : kw.find? (fun p => p.1 == f) = none := by
        cases hf : kw.find? (fun p => p.1 == f) with
        | none => rfl
        | some p => rw [hf] at hl; cases hl
      rw [hf]
      by_cases hfe : f = "end_marker".toList
      · subst hfe; simp
      · rw [if_neg hfe]
        have : ("end_marker".toList == f) = false := by simpa using fun hh : "end_marker".toList = f => hfe hh.symm
        rw [List.find?_cons_of_neg (by rw [this]; simp)]
        simp

/-- The field of a placeholder. -/
private def fieldOf (n : PyStr) : PyStr := (templateFieldName n).toOption.getD []

private theorem fieldOf_ok : ∀ t ∈ templateTriples, templateFieldName t.1 = .ok (fieldOf t.1) := by
  intro t ht
  obtain ⟨p, _, _, h⟩ := names_table.2.2.2.1 t ht
  unfold fieldOf
  rw [h]; rfl

private theorem fields_nodup : (templateTriples.map fun t => fieldOf t.1).Nodup := by
  have hnames := names_table
  -- distinct placeholder names stand for distinct fields
  have hinj : ∀ t ∈ templateTriples, ∀ t' ∈ templateTriples, fieldOf t.1 = fieldOf t'.1 → t.1 = t'.1 := by
    intro t ht t' ht' heq
    obtain ⟨p, hp, hpn, h⟩ := hnames.2.2.2.1 t ht
    obtain ⟨p', hp', hpn', h'⟩ := hnames.2.2.2.1 t' ht'
    have e1 : fieldOf t.1 = p.2.toList := by unfold fieldOf; rw [h]; rfl
    have e2 : fieldOf t'.1 = p'.2.toList := by unfold fieldOf; rw [h']; rfl
    have : p = p' := List.inj_on_of_nodup_map hnames.2.1 hp hp' (by rw [← e1, ← e2, heq])
    rw [← hpn, ← hpn', this]
  have := hnames.2.2.1
  have hmap : templateTriples.map (fun t => fieldOf t.1) = (templateTriples.map Prod.fst).map fieldOf := by
    rw [List.map_map]; rfl
  rw [hmap]
  refine List.Nodup.map_on ?_ this
  intro x hx y hy hxy
  obtain ⟨t, ht, rfl⟩ := List.mem_map.mp hx
  obtain ⟨t', ht', rfl⟩ := List.mem_map.mp hy
  exact hinj t ht t' ht' hxy

private theorem isField_iff (f : PyStr) : f ∈ (templateTriples.map fun t => fieldOf t.1) ↔ IsField f := by
  constructor
  · intro h
    obtain ⟨t, ht, rfl⟩ := List.mem_map.mp h
    obtain ⟨p, hp, _, h⟩ := names_table.2.2.2.1 t ht
    refine ⟨p, hp, ?_⟩
    unfold fieldOf; rw [h]; rfl
  · rintro ⟨p, hp, rfl⟩
    obtain ⟨t, ht, _, h⟩ := names_table.2.2.2.2 p hp
    refine List.mem_map.mpr ⟨t, ht, ?_⟩
    unfold fieldOf; rw [h]; rfl

private theorem standsFor_fieldOf {n f : PyStr} {a b : Nat} (ht : (n, a, b) ∈ templateTriples) (h : NamesField n f) :
    fieldOf n = f := by
  obtain ⟨p, hp, h1, h2⟩ := h
  obtain ⟨p', hp', hpn, h'⟩ := names_table.2.2.2.1 _ ht
  have : p = p' := List.inj_on_of_nodup_map names_table.1 hp hp' (by rw [h1, hpn])
  subst this
  unfold fieldOf; rw [h', ← h2]; rfl

private theorem triples_in : orderedIn TEMPLATE.length 0 templateTriples := by
  rw [template_length]; exact orderedIn_of 0 _ triples_ordered

private theorem triples_ne : ∃ t rest, templateTriples = t :: rest := by
  cases h : templateTriples with
  | nil =>
    exfalso
    have := names_table.2.2.2.2 ("client", "client") (by decide +kernel)
    obtain ⟨t, ht, _⟩ := this
    rw [h] at ht; cases ht
  | cons t rest => exact ⟨t, rest, rfl⟩

/-- The result of formatting, as the woven template. -/
private theorem format_eq (revision : Int) (hr : revision = 0 ∨ revision = 256) (args : Kwargs) :
    ∃ chunks, formatStandardTextualHeader revision args =
      (if (args.filter fun p => !((templateTriples.map fun t => fieldOf t.1).contains p.1)).length > 0
        then .error .typeError else batched (List.flatten chunks) CARD_LENGTH none) ∧
      chunks.flatten = weave TEMPLATE (fun n => givenValue revision args (fieldOf n)) 0 templateTriples := by
  obtain ⟨t0, rest0, ht0⟩ := triples_ne
  obtain ⟨chunks, h1, h2⟩ := formatLoop_eq TEMPLATE fieldOf templateTriples 0
    (args.setdefault "end_marker".toList (defaultEndMarker revision)) triples_in fieldOf_ok fields_nodup
  refine ⟨chunks, ?_, ?_⟩
  · unfold formatStandardTextualHeader formatTemplate
    simp only [endMarker_eq hr, bind, Except.bind, parse_eq, List.map_map]
    have hci : complementaryIntervals (templateTriples.map (Prod.snd ∘ fun t => (t.1, (⟨t.2.1, t.2.2⟩ : Interval))))
        (some 0) (some (TEMPLATE.length : Int)) =
        .ok (complementaryLoop TEMPLATE.length 0 (templateTriples.map fun t => (⟨t.2.1, t.2.2⟩ : Interval))) := by
      have : templateTriples.map (Prod.snd ∘ fun t => (t.1, (⟨t.2.1, t.2.2⟩ : Interval))) =
          templateTriples.map fun t => (⟨t.2.1, t.2.2⟩ : Interval) := rfl
      rw [this]
      rw [ht0]
      rfl
    rw [hci]
    simp only
    have h1' := h1
    simp only [Nat.cast_zero] at h1'
    rw [h1']
    simp only
    have hrem : (Kwargs.setdefault args "end_marker".toList (defaultEndMarker revision)).filter
          (fun p => !((templateTriples.map fun t => fieldOf t.1).contains p.1)) =
        args.filter fun p => !((templateTriples.map fun t => fieldOf t.1).contains p.1) := by
      unfold Kwargs.setdefault
      split
      · rfl
      · rw [List.filter_append]
        have : (List.contains (templateTriples.map fun t => fieldOf t.1) "end_marker".toList) = true := by
          rw [List.contains_iff_mem, isField_iff]
          exact ⟨("end_marker", "end_marker"), by decide +kernel, rfl⟩
        rw [List.filter_cons_of_neg (by simpa using this)]
        simp
    rw [hrem]
  · rw [h2]
    congr 1
    funext n
    exact value_setdefault args revision (fieldOf n)

private theorem fit_eq (s : PyStr) (w : Nat) : ljust (s.take w) w ' ' = fitted s w := by
  unfold ljust fitted
  rw [List.length_take]
  congr 2; omega

/-- Formatting with known fields gives forty lines of eighty characters in which each placeholder of the template is
replaced by the text given for its field, cut or padded to the placeholder's width, and everything else is as in the
template. -/
theorem C41_format (revision : Int) (hr : revision = 0 ∨ revision = 256) (args : List (PyStr × PyStr))
    (hargs : ∀ p ∈ args, IsField p.1) :
    ∃ lines, formatStandardTextualHeader revision args = .ok lines ∧ lines.length = 40 ∧ (∀ l ∈ lines, l.length = 80) ∧
      (∀ name field a b, IsPlaceholder name a b → NamesField name field →
        (lines.flatten.drop a).take (b - a) = fitted (givenValue revision args field) (b - a)) ∧
      (∀ i, (∀ name a b, IsPlaceholder name a b → i < a ∨ b ≤ i) → lines.flatten[i]? = TEMPLATE[i]?) := by
  obtain ⟨chunks, h1, h2⟩ := format_eq revision hr args
  have hlen : chunks.flatten.length = 40 * 80 := by
    rw [h2, weave_length _ _ triples_in, template_length]
  obtain ⟨b1, b2, b3⟩ := batchedLoop_exact 80 (by omega) none 40 _ hlen
  have hnone : ¬ (args.filter fun p => !((templateTriples.map fun t => fieldOf t.1).contains p.1)).length > 0 := by
    rw [gt_iff_lt, List.length_pos_iff, not_not, List.filter_eq_nil_iff]
    intro p hp
    have := (isField_iff p.1).mpr (hargs p hp)
    simpa using this
  rw [if_neg hnone] at h1
  refine ⟨batchedLoop 80 none [] chunks.flatten, ?_, b1, b2, ?_, ?_⟩
  · rw [h1]
    unfold batched
    rw [if_neg (by decide)]
    rfl
  · intro name field a b hph hst
    have hmem := placeholder_found hph
    have := weave_field TEMPLATE (fun n => givenValue revision args (fieldOf n)) triples_in _ hmem
    simp only [Nat.sub_zero] at this
    rw [b3, h2, this, standsFor_fieldOf hmem hst, fit_eq]
  · intro i hout
    have := weave_background TEMPLATE (fun n => givenValue revision args (fieldOf n)) triples_in i (Nat.zero_le _)
      (fun t ht => hout t.1 t.2.1 t.2.2 (found_placeholder ht))
    rw [b3, h2, ← this, Nat.sub_zero]

/-- An argument that is not the name of a field raises `TypeError`. -/
theorem C41_unknown_field (revision : Int) (hr : revision = 0 ∨ revision = 256) (args : List (PyStr × PyStr))
    (hargs : ∃ p ∈ args, ¬ IsField p.1) : formatStandardTextualHeader revision args = .error .typeError := by
  obtain ⟨chunks, h1, _⟩ := format_eq revision hr args
  rw [h1, if_pos]
  obtain ⟨p, hp, hn⟩ := hargs
  rw [gt_iff_lt, List.length_pos_iff]
  intro h0
  rw [List.filter_eq_nil_iff] at h0
  have := h0 p hp
  rw [Bool.not_eq_true, Bool.not_eq_false', List.contains_iff_mem, isField_iff] at this
  exact hn this

/-- An unknown revision raises `KeyError`. -/
theorem C41_unknown_revision (revision : Int) (hr : ¬ (revision = 0 ∨ revision = 256)) (args : List (PyStr × PyStr)) :
    formatStandardTextualHeader revision args = .error .keyError := by
  push Not at hr
  unfold formatStandardTextualHeader formatTemplate endMarker
  rw [if_neg hr.1, if_neg hr.2]
  rfl

/-- Parsing any forty lines of eighty characters gives exactly one entry for each field: the stripped text of its
placeholder's interval. -/
theorem C41_parse (lines : List PyStr) (h40 : lines.length = 40) (h80 : ∀ l ∈ lines, l.length = 80) :
    ∃ fields, parseStandardTextualHeader lines = .ok fields ∧ (fields.map Prod.fst).Nodup ∧
      (∀ f, f ∈ fields.map Prod.fst ↔ IsField f) ∧
      (∀ name field a b, IsPlaceholder name a b → NamesField name field →
        (field, strip ((lines.flatten.drop a).take (b - a))) ∈ fields) := by
  have hp := parseLoop_eq lines.flatten fieldOf templateTriples [] fieldOf_ok (by simpa using fields_nodup)
  rw [List.nil_append] at hp
  refine ⟨templateTriples.map fun t => (fieldOf t.1, strip ((lines.flatten.drop t.2.1).take (t.2.2 - t.2.1))),
    ?_, ?_, ?_, ?_⟩
  · unfold parseStandardTextualHeader
    rw [if_neg (by rw [h40]; decide), if_neg, parse_eq]
    · exact hp
    · rw [List.any_eq_true]
      rintro ⟨l, hl, hne⟩
      rw [h80 l hl] at hne
      exact absurd hne (by decide)
  · rw [List.map_map]; exact fields_nodup
  · intro f
    rw [List.map_map]; exact isField_iff f
  · intro name field a b hph hst
    have hmem := placeholder_found hph
    refine List.mem_map.mpr ⟨_, hmem, ?_⟩
    rw [standsFor_fieldOf hmem hst]

/-- A header that is not forty lines of eighty characters is rejected with `ValueError`. -/
theorem C41_parse_rejects (lines : List PyStr) (h : lines.length ≠ 40 ∨ ∃ l ∈ lines, l.length ≠ 80) :
    parseStandardTextualHeader lines = .error .valueError := by
  unfold parseStandardTextualHeader
  by_cases h40 : lines.length = 40
  · rw [if_neg (by rw [h40]; decide), if_pos]
    rcases h with h | ⟨l, hl, hne⟩
    · exact absurd h40 h
    · rw [List.any_eq_true]
      exact ⟨l, hl, by simpa [CARD_LENGTH] using hne⟩
  · rw [if_pos (by simpa [CARDS_PER_HEADER] using h40)]

/-- Parsing a formatted header gives back each field's text, cut to the width of its placeholder and stripped. -/
theorem C41_round_trip (revision : Int) (hr : revision = 0 ∨ revision = 256) (args : List (PyStr × PyStr))
    (hargs : ∀ p ∈ args, IsField p.1) :
    ∃ lines fields, formatStandardTextualHeader revision args = .ok lines ∧
      parseStandardTextualHeader lines = .ok fields ∧ (fields.map Prod.fst).Nodup ∧
      ∀ name field a b, IsPlaceholder name a b → NamesField name field →
        (field, strip ((givenValue revision args field).take (b - a))) ∈ fields := by
  obtain ⟨lines, h1, h40, h80, h2, _⟩ := C41_format revision hr args hargs
  obtain ⟨fields, g1, g2, _, g3⟩ := C41_parse lines h40 h80
  refine ⟨lines, fields, h1, g1, g2, ?_⟩
  intro name field a b hph hst
  have := g3 name field a b hph hst
  rw [h2 name field a b hph hst] at this
  unfold fitted at this
  rw [strip_blanks] at this
  exact this

/-- Every field of the table has a placeholder in the template, so the statements above speak about all of them. -/
theorem C41_every_field_has_a_placeholder (field : PyStr) (h : IsField field) :
    ∃ name a b, IsPlaceholder name a b ∧ NamesField name field ∧ a + 2 ≤ b ∧ b ≤ 3200 := by
  obtain ⟨p, hp, rfl⟩ := h
  obtain ⟨t, ht, hn, _⟩ := names_table.2.2.2.2 p hp
  have hph := found_placeholder (name := t.1) (a := t.2.1) (b := t.2.2) ht
  have hb := orderedIn_bounds triples_in t ht
  rw [template_length] at hb
  refine ⟨t.1, t.2.1, t.2.2, hph, ⟨p, hp, hn, rfl⟩, ?_, hb.2.2⟩
  obtain ⟨i, j, rest, _, h, _⟩ := hph
  omega

example : IsPlaceholder "client".toList 11 33 :=
  ⟨1, 13, TEMPLATE.drop 33, by decide +kernel, by decide, by decide⟩
example : IsField "crew_number".toList := ⟨("crew", "crew_number"), by decide +kernel, by decide +kernel⟩

end Segpy.Props
