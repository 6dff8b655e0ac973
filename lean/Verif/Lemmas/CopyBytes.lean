import Verif.Spec.CopyBytes
import Verif.Lemmas.CustomFormats
import Verif.Props.Reel

/-! # Lemmas about the bytes of a copy -/

namespace Segpy

open Segpy.Spec Segpy.FileM

/-! ## Samples that stand for the same number -/

theorem bytesNat_inj {e : Endian} {a b : Bytes} (hl : a.length = b.length) (h : bytesNat e a = bytesNat e b) : a = b := by
  rw [bytesNat_eq, bytesNat_eq] at h
  have := congrArg (leBytes a.length) h
  rw [← e.order_length a, leBytes_leNat, e.order_length a, hl, ← e.order_length b, leBytes_leNat] at this
  rw [← e.order_order a, this, e.order_order]

theorem bytesNat_lt (e : Endian) (a : Bytes) : bytesNat e a < 256 ^ a.length := by
  rw [bytesNat_eq, ← e.order_length a]; exact leNat_lt _

/-- The magnitude of a binary32 number as a multiple of the least one. -/
private def units (m : Nat) : Nat :=
  if m / 2 ^ 23 = 0 then m % 2 ^ 23 else (2 ^ 23 + m % 2 ^ 23) * 2 ^ (m / 2 ^ 23 - 1)

private theorem units_inj {m n : Nat} (h : units m = units n) : m = n := by
  have hm := Nat.div_add_mod m (2 ^ 23)
  have hn := Nat.div_add_mod n (2 ^ 23)
  have fm := Nat.mod_lt m (show 0 < 2 ^ 23 by norm_num)
  have fn := Nat.mod_lt n (show 0 < 2 ^ 23 by norm_num)
  unfold units at h
  generalize m / 2 ^ 23 = E at *
  generalize n / 2 ^ 23 = E' at *
  generalize m % 2 ^ 23 = F at *
  generalize n % 2 ^ 23 = F' at *
  have key : ∀ {E E' F F' : Nat}, F < 2 ^ 23 → F' < 2 ^ 23 → 1 ≤ E → E < E' →
      (2 ^ 23 + F) * 2 ^ (E - 1) < (2 ^ 23 + F') * 2 ^ (E' - 1) := by
    intro E E' F F' hF _ h1 h2
    obtain ⟨d, rfl⟩ : ∃ d, E' = E + 1 + d := ⟨E' - (E + 1), by omega⟩
    have e1 : E + 1 + d - 1 = (E - 1) + (d + 1) := by omega
    rw [e1, pow_add, pow_succ]
    have hp : 0 < 2 ^ (E - 1) := by positivity
    have hd : 1 ≤ 2 ^ d := Nat.one_le_two_pow
    calc (2 ^ 23 + F) * 2 ^ (E - 1) < (2 ^ 23 + 2 ^ 23) * 2 ^ (E - 1) :=
          Nat.mul_lt_mul_of_pos_right (by omega) hp
      _ = 2 ^ 23 * (2 ^ (E - 1) * (1 * 2)) := by ring
      _ ≤ (2 ^ 23 + F') * (2 ^ (E - 1) * (2 ^ d * 2)) := by gcongr; omega
  have low : ∀ {E F F' : Nat}, F < 2 ^ 23 → F < (2 ^ 23 + F') * 2 ^ E := by
    intro E F F' hF
    have : 1 ≤ 2 ^ E := Nat.one_le_two_pow
    calc F < 2 ^ 23 + F' := by omega
      _ = (2 ^ 23 + F') * 1 := by ring
      _ ≤ _ := by gcongr
  by_cases h1 : E = 0 <;> by_cases h2 : E' = 0
  · simp only [h1, h2, if_true] at h; subst h1 h2; omega
  · simp only [h1, h2, if_true, if_false] at h
    have := low (E := E' - 1) (F' := F') fm; omega
  · simp only [h1, h2, if_true, if_false] at h
    have := low (E := E - 1) (F' := F) fn; omega
  · simp only [h1, h2, if_false] at h
    rcases Nat.lt_trichotomy E E' with hlt | rfl | hlt
    · have := key fm fn (by omega) hlt; omega
    · have := Nat.eq_of_mul_eq_mul_right (by positivity) h; omega
    · have := key fn fm (by omega) hlt; omega

private theorem float32Value_units (n : Nat) :
    float32Value n = (if n < 2 ^ 31 then 1 else -1) * ((units (n % 2 ^ 31) : ℚ) * 2 ^ (-149 : Int)) := by
  have e1 : n % 2 ^ 31 / 2 ^ 23 = n / 2 ^ 23 % 2 ^ 8 := by omega
  have e2 : n % 2 ^ 31 % 2 ^ 23 = n % 2 ^ 23 := by omega
  unfold float32Value units
  simp only [e1, e2]
  congr 1
  by_cases h : n / 2 ^ 23 % 2 ^ 8 = 0
  · simp only [h, if_true]
    rw [show (-126 : Int) = -149 + 23 by norm_num, zpow_add₀ (by norm_num)]
    norm_num
    ring
  · simp only [h, if_false]
    generalize n / 2 ^ 23 % 2 ^ 8 = E at *
    obtain ⟨d, rfl⟩ : ∃ d, E = d + 1 := ⟨E - 1, by omega⟩
    push_cast
    rw [show ((d : Int) + 1 - 127) = d + (-149) + 23 by ring, zpow_add₀ (by norm_num), zpow_add₀ (by norm_num), zpow_natCast]
    norm_num
    ring

theorem float32Value_inj {m n : Nat} (hm : m < 2 ^ 32) (hn : n < 2 ^ 32) (hv : float32Value m = float32Value n)
    (hs : (2 ^ 31 ≤ m) ↔ (2 ^ 31 ≤ n)) : m = n := by
  rw [float32Value_units m, float32Value_units n] at hv
  have hs' : (m < 2 ^ 31) ↔ (n < 2 ^ 31) := by omega
  have h2 : (2 : ℚ) ^ (-149 : Int) ≠ 0 := by positivity
  have hu : units (m % 2 ^ 31) = units (n % 2 ^ 31) := by
    by_cases h : m < 2 ^ 31
    · rw [if_pos h, if_pos (hs'.mp h)] at hv
      simpa [h2] using hv
    · rw [if_neg h, if_neg (mt hs'.mpr h)] at hv
      simpa [h2] using hv
  have := units_inj hu
  omega

/-- Only samples that are not numbers are the same number in different bytes. -/
theorem standsFor_inj {e : Endian} {t : SegYType} {a b : Bytes} {v : PyNum} (ha : a.length = t.size)
    (hb : b.length = t.size) (h1 : StandsFor e t a v) (h2 : StandsFor e t b v) :
    a = b ∨ (t = .float32 ∧ NotANumber e a ∧ NotANumber e b) := by
  cases t with
  | int t =>
    left
    have h1 : v = .int _ := h1
    have h2 : v = .int _ := h2
    rw [h1] at h2
    exact storedInt_inj ha hb (PyNum.int.inj h2)
  | ibm =>
    left
    obtain ⟨a1, a2, a3, a4, rfl, rfl⟩ := h1
    obtain ⟨b1, b2, b3, b4, rfl, h⟩ := h2
    injection h with h
    injection h with h1 h2 h3 h4
    rw [h1, h2, h3, h4]
  | float32 =>
    have la := bytesNat_lt e a
    have lb := bytesNat_lt e b
    rw [ha] at la
    rw [hb] at lb
    have h4 : (256 : Nat) ^ SegYType.float32.size = 2 ^ 32 := by rfl
    rw [h4] at la lb
    obtain ⟨f, rfl, h1⟩ := h1
    obtain ⟨g, hg, h2⟩ := h2
    obtain rfl := PyNum.float.inj hg
    have hfin : ∀ x : Bytes, bytesNat e x / 2 ^ 23 % 2 ^ 8 = 255 →
        (f = if bytesNat e x % 2 ^ 23 = 0 then .inf (decide (2 ^ 31 ≤ bytesNat e x)) else .nan) → f.isFinite = false := by
      intro x _ hx
      rw [hx]
      split <;> rfl
    by_cases ca : bytesNat e a / 2 ^ 23 % 2 ^ 8 = 255 <;> by_cases cb : bytesNat e b / 2 ^ 23 % 2 ^ 8 = 255
    · rw [if_pos ca] at h1
      rw [if_pos cb] at h2
      rw [h1] at h2
      by_cases za : bytesNat e a % 2 ^ 23 = 0 <;> by_cases zb : bytesNat e b % 2 ^ 23 = 0
      · rw [if_pos za, if_pos zb] at h2
        injection h2 with h2
        have h2 := decide_eq_decide.mp h2
        exact Or.inl (bytesNat_inj (e := e) (ha.trans hb.symm) (by omega))
      · rw [if_pos za, if_neg zb] at h2; cases h2
      · rw [if_neg za, if_pos zb] at h2; cases h2
      · exact Or.inr ⟨rfl, ⟨ca, za⟩, cb, zb⟩
    · rw [if_pos ca] at h1
      rw [if_neg cb] at h2
      rw [hfin a ca h1] at h2
      exact absurd h2.1 (by decide)
    · rw [if_neg ca] at h1
      rw [if_pos cb] at h2
      rw [hfin b cb h2] at h1
      exact absurd h1.1 (by decide)
    · rw [if_neg ca] at h1
      rw [if_neg cb] at h2
      have hv := h1.2.1.symm.trans h2.2.1
      have hs := decide_eq_decide.mp (h1.2.2.symm.trans h2.2.2)
      exact Or.inl (bytesNat_inj (ha.trans hb.symm) (float32Value_inj la lb hv hs))

/-! ## The parts of the copy -/

theorem samples_stored {T : Format} {e : Endian} {s : FileH} {t : SegYType} {starts : List Nat} {r : Reader}
    (hr : Readable T e s t starts r) {native : Endian} {i : Nat} (hi : i < starts.length) {pos : Nat} {vs : List PyNum}
    (h : (r.traceSamples native i none none { s with pos := pos }).1 = .ok vs) :
    fieldAt T e s.data starts[i] "num_samples" = (vs.length : Int) ∧ samplesAt T e s.data starts[i] = vs.length ∧
      (vs = [] ∨ starts[i] + 240 + vs.length * t.size ≤ s.data.length) ∧
      SamplesStored e t s.data (starts[i] + 240) vs := by
  have hlen := (Props.C45_subrange r native i _ vs h).1
  rw [hr.describes.num_trace_samples i hi] at hlen
  have hlen' := Except.ok.inj hlen
  obtain ⟨f1, f2⟩ := hr.reads native i hi 0 vs.length pos (Nat.zero_le _) (by rw [hlen'])
  have hall := traceSamples_all r native i _ (hr.describes.num_trace_samples i hi) { s with pos := pos }
  rw [hlen'] at hall
  have hall' : (r.traceSamples native i (some ((0 : Nat) : Int)) (some (vs.length : Int)) { s with pos := pos }).1 =
      .ok vs := by
    rw [← h, hall]; rfl
  refine ⟨hlen', by unfold samplesAt; rw [hlen']; rfl, ?_⟩
  by_cases hz : vs.length = 0
  · have : vs = [] := List.eq_nil_of_length_eq_zero hz
    subst this
    exact ⟨Or.inl rfl, fun k hk => by simp at hk⟩
  by_cases hfit : starts[i] + 240 + vs.length * t.size ≤ s.data.length
  · obtain ⟨l, l1, l2, l3⟩ := f2 (Or.inr hfit)
    rw [hall'] at l1
    cases l1
    exact ⟨Or.inr hfit, by simpa using l3⟩
  · have := f1 (by omega) (by omega)
    rw [hall'] at this
    cases this

theorem sampleItem_length {t : SegYType} {data : Bytes} {q n j : Nat} (h : q + 240 + n * t.size ≤ data.length)
    (hj : j < n) : (sampleItem t data q j).length = t.size := by
  unfold sampleItem
  rw [List.length_take, List.length_drop]
  have : (j + 1) * t.size ≤ n * t.size := Nat.mul_le_mul_right _ (by omega)
  rw [Nat.succ_mul] at this
  omega

/-- Where the traces are written. -/
theorem Image.header_byte {d : Dataset} {enc : Encoding} {T : Format} {e : Endian} {t : SegYType} {hs : List Header}
    {vss : List (List PyNum)} (I : Image d enc T e t hs vss) {i : Nat} (hi : i < I.ts.length) {k : Nat} (hk : k < 240) :
    I.full[traceStart (firstTrace d) t vss i + k]? = I.ts[i].headerBytes[k]? := by
  have hl := (I.ok _ (List.getElem_mem hi)).header_length
  have hsplit : I.full = (I.head ++ body (I.ts.take i)) ++ (I.ts[i].headerBytes ++ (I.ts[i].sampleBytes ++
      body (I.ts.drop (i + 1)))) := by
    unfold Image.full
    rw [← List.append_assoc I.ts[i].headerBytes, ← body_cons, List.append_assoc, ← body_append,
      ← List.drop_eq_getElem_cons hi, List.take_append_drop]
  rw [I.start, hsplit, List.getElem?_append_right (by rw [List.length_append]; omega), List.length_append,
    Nat.add_sub_cancel_left, List.getElem?_append_left (by omega)]

theorem Image.binary_byte {d : Dataset} {enc : Encoding} {T : Format} {e : Endian} {t : SegYType} {hs : List Header}
    {vss : List (List PyNum)} (I : Image d enc T e t hs vss) {k : Nat} (hk : k < 400) :
    I.full[3200 + k]? = I.bin[k]? := by
  have h1 := I.text_length
  have h2 := I.bin_length
  unfold Image.full Image.head
  rw [List.append_assoc, List.append_assoc, List.getElem?_append_right (by omega), h1, Nat.add_sub_cancel_left,
    List.getElem?_append_left (by omega)]

theorem Image.binary_gap {d : Dataset} {enc : Encoding} {T : Format} {e : Endian} {t : SegYType} {hs : List Header}
    {vss : List (List PyNum)} (I : Image d enc T e t hs vss) (hB : d.binary_reel_header.format.AfterStart) {k : Nat}
    (hk : k < 400) (hg : d.binary_reel_header.format.Gap k) : I.bin[k]? = some 0 := by
  have h := (I.write_bin 0).free { data := [], pos := 0 } rfl rfl rfl
  unfold writeBinaryReelHeader at h
  obtain ⟨p, s1, h1, h2⟩ := bind_eq_ok h
  clear h
  obtain ⟨hp, rfl⟩ := lift_eq_ok h1
  obtain ⟨bs, s2, h3, h4⟩ := bind_eq_ok h2
  clear h2
  obtain ⟨hb, rfl⟩ := lift_eq_ok h3
  rw [(Appends.write 0 bs).free _ rfl rfl rfl] at h4
  have : bs = I.bin := by
    have := congrArg (fun x => x.2.data) h4
    simpa using this
  subst this
  exact (Props.C27_layout _ e p _ _ hp hB ⟨[], by simp⟩ hb).2.2 k (by rw [I.bin_length]; exact hk) hg

theorem page_bytes {enc : Encoding} {a b : Bytes} {pos : Nat} {page : List PyStr} (ha : PageAt enc a pos page)
    (hb : PageAt enc b pos page) {k : Nat} (hk : k < 3200) : a[pos + k]? = b[pos + k]? := by
  have := Except.ok.inj (ha.2.2.symm.trans hb.2.2)
  have := congrArg (fun x => x[k]?) this
  simpa only [List.getElem?_take_of_lt hk, List.getElem?_drop] using this

end Segpy
