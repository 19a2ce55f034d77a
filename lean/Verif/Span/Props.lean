import Verif.Span.Lemmas

/-!
# Properties C31 to C33 of span identifiers
-/

namespace Verif.Span

open Verif.Py

/-- Keys made of a 128-bit trace id and a 64-bit span id. -/
def SpanKey.Valid (k : SpanKey) : Prop := k.trace < 2 ^ 128 ∧ 0 ≤ k.span.value ∧ k.span.value < 2 ^ 64

/-- The key used in the examples. -/
def sampleKey : SpanKey := ⟨0x0123456789abcdef00000000deadbeef, ⟨0xfedcba9876543210⟩⟩

theorem sampleKey_valid : sampleKey.Valid := by unfold SpanKey.Valid sampleKey; decide

/-! ### helpers -/

theorem ofHex_hexPad {n : Nat} (h : n < 2 ^ 64) : SpanId.ofHex (hexPad 16 n) = .ok ⟨n⟩ := by
  unfold SpanId.ofHex
  rw [if_neg (by simp [length_hexPad]), pyInt16_hex (fun c hc => hexPad_isHex hc) (by
    intro e; have := length_hexPad 16 n; rw [e] at this; simp at this)]
  simp only
  rw [hexText_hexPad 16 n (by rw [show (16 : Nat) ^ 16 = 2 ^ 64 by decide]; exact h)]

theorem uuidText_filter (n : Nat) : (uuidText n).filter (fun c => c ≠ '-') = hexPad 32 n := by
  have hd : ∀ s : List Char, (∀ c ∈ s, c ∈ hexPad 32 n) → s.filter (fun c => c ≠ '-') = s := by
    intro s hs
    rw [List.filter_eq_self]
    intro c hc
    have := (hexPad_isHex (hs c hc)).ne.2.2.2.1
    simp [this]
  unfold uuidText
  simp only [List.filter_append, List.filter_cons, ne_eq, not_true_eq_false, decide_false, Bool.false_eq_true, if_false]
  rw [hd _ (fun c hc => List.mem_of_mem_take hc), hd _ (fun c hc => List.mem_of_mem_drop (List.mem_of_mem_take hc)),
    hd _ (fun c hc => List.mem_of_mem_drop (List.mem_of_mem_take hc)),
    hd _ (fun c hc => List.mem_of_mem_drop (List.mem_of_mem_take hc)), hd _ (fun c hc => List.mem_of_mem_drop hc)]
  generalize hexPad 32 n = h
  have e1 : h.drop 20 = (h.drop 16).drop 4 := by rw [List.drop_drop]
  have e2 : h.drop 16 = (h.drop 12).drop 4 := by rw [List.drop_drop]
  have e3 : h.drop 12 = (h.drop 8).drop 4 := by rw [List.drop_drop]
  rw [e1, List.append_assoc, List.append_assoc, List.append_assoc, List.take_append_drop, e2, List.take_append_drop, e3,
    List.take_append_drop, List.take_append_drop]

theorem mem_uuidText {n : Nat} {c : Char} (h : c ∈ uuidText n) : c = '-' ∨ IsHex c := by
  unfold uuidText at h
  simp only [List.mem_append, List.mem_cons] at h
  rcases h with (((h | rfl | h) | rfl | h) | rfl | h) | rfl | h
  · exact .inr (hexPad_isHex (List.mem_of_mem_take h))
  · exact .inl rfl
  · exact .inr (hexPad_isHex (List.mem_of_mem_drop (List.mem_of_mem_take h)))
  · exact .inl rfl
  · exact .inr (hexPad_isHex (List.mem_of_mem_drop (List.mem_of_mem_take h)))
  · exact .inl rfl
  · exact .inr (hexPad_isHex (List.mem_of_mem_drop (List.mem_of_mem_take h)))
  · exact .inl rfl
  · exact .inr (hexPad_isHex (List.mem_of_mem_drop h))

theorem uuidOfHex_text {n : Nat} (h : n < 2 ^ 128) : uuidOfHex (uuidText n) = .ok n := by
  have hu : 'u' ∉ uuidText n := by
    intro hm
    rcases mem_uuidText hm with e | e
    · exact absurd e (by decide)
    · exact absurd e (by decide)
  have hb : ∀ c ∈ uuidText n, c ≠ '{' ∧ c ≠ '}' := by
    intro c hc
    rcases mem_uuidText hc with rfl | e
    · decide
    · exact ⟨e.ne.2.2.2.2.2.2.2.1, e.ne.2.2.2.2.2.2.2.2.1⟩
  unfold uuidOfHex
  simp only [removeAll_none (pat := ['u', 'r', 'n', ':']) rfl hu, removeAll_none (pat := ['u', 'u', 'i', 'd', ':']) rfl hu,
    stripBraces_noop hb, uuidText_filter]
  rw [if_neg (by simp [length_hexPad]), pyInt16_hex (fun c hc => hexPad_isHex hc) (by
    intro e; have := length_hexPad 32 n; rw [e] at this; simp at this)]
  simp only
  rw [hexText_hexPad 32 n (by rw [show (16 : Nat) ^ 32 = 2 ^ 128 by decide]; exact h)]
  rw [if_pos ⟨by omega, by exact_mod_cast h⟩]
  rfl

theorem findColon_text (k : SpanKey) : SpanKey.findColon k.text = some (uuidText k.trace).length := by
  unfold SpanKey.findColon SpanKey.text
  rw [List.findIdx?_append]
  have : (uuidText k.trace).findIdx? (fun c => decide (c = ':')) = none := by
    rw [List.findIdx?_eq_none_iff]
    intro c hc
    rcases mem_uuidText hc with rfl | e
    · decide
    · simp [e.ne.2.2.2.2.2.1]
  rw [this]
  simp [List.findIdx?_cons]

theorem natAbs_lt {v : Int} (h0 : 0 ≤ v) (h1 : v < 2 ^ 64) : v.natAbs < 2 ^ 64 := by omega

/-! ### C31 -/

/-- **C31.** The text of a span key parses to that key. -/
theorem C31_text_round_trip (k : SpanKey) (h : k.Valid) : SpanKey.ofHex k.text = .ok k := by
  obtain ⟨ht, h0, h1⟩ := h
  unfold SpanKey.ofHex
  rw [findColon_text]
  simp only
  have e1 : k.text.take (uuidText k.trace).length = uuidText k.trace := by
    unfold SpanKey.text; rw [List.take_left']; rfl
  have e2 : k.text.drop ((uuidText k.trace).length + 1) = k.span.hex := by
    unfold SpanKey.text
    rw [← List.drop_drop, List.drop_left']
    · rfl
    · rfl
  rw [e1, e2, uuidOfHex_text ht]
  have e3 : SpanId.ofHex k.span.hex = .ok k.span := by
    unfold SpanId.hex
    rw [if_neg (by omega), ofHex_hexPad (natAbs_lt h0 h1)]
    have : ((k.span.value.natAbs : Nat) : Int) = k.span.value := by omega
    rw [this]
  rw [e3]
  rfl

/-- **C31.** Different keys have different texts. -/
theorem C31_text_injective (a b : SpanKey) (ha : a.Valid) (hb : b.Valid) (h : a.text = b.text) : a = b := by
  have h1 := C31_text_round_trip a ha
  rw [h, C31_text_round_trip b hb] at h1
  exact (Except.ok.inj h1).symm

example : sampleKey.Valid ∧ String.ofList sampleKey.text = "01234567-89ab-cdef-0000-0000deadbeef:fedcba9876543210" :=
  ⟨sampleKey_valid, by decide⟩

/-! ### C32 -/

/-- **C32.** The byte form of a key has 24 bytes and rebuilds the key. -/
theorem C32_bytes_round_trip (k : SpanKey) (h : k.Valid) :
    ∃ b, k.bytes = .ok b ∧ b.length = 24 ∧ SpanKey.ofBytes b = .ok k := by
  obtain ⟨ht, h0, h1⟩ := h
  have hb : k.span.bytes = .ok (bytesPad 8 k.span.value.natAbs) := by
    unfold SpanId.bytes; rw [if_pos ⟨h0, h1⟩]
  refine ⟨bytesPad 16 k.trace ++ bytesPad 8 k.span.value.natAbs, by unfold SpanKey.bytes; rw [hb]; rfl,
    by simp [length_bytesPad], ?_⟩
  unfold SpanKey.ofBytes
  rw [List.take_left' (length_bytesPad _ _), List.drop_left' (length_bytesPad _ _)]
  unfold uuidOfBytes SpanId.ofBytes
  rw [if_neg (by simp [length_bytesPad]), if_neg (by simp [length_bytesPad]),
    fromBytesBE_bytesPad 16 _ (by rw [show (256 : Nat) ^ 16 = 2 ^ 128 by decide]; exact ht),
    fromBytesBE_bytesPad 8 _ (by rw [show (256 : Nat) ^ 8 = 2 ^ 64 by decide]; exact natAbs_lt h0 h1)]
  have : ((k.span.value.natAbs : Nat) : Int) = k.span.value := by omega
  rw [this]
  rfl

/-- **C32.** Every string of 24 bytes is the byte form of the valid key built from it, and no other
string of bytes builds a key. -/
theorem C32_from_bytes (d : List Byte) :
    (d.length = 24 → ∃ k, SpanKey.ofBytes d = .ok k ∧ k.Valid ∧ k.bytes = .ok d) ∧
      (d.length ≠ 24 → SpanKey.ofBytes d = .error .valueError) := by
  constructor
  · intro hd
    have l1 : (d.take 16).length = 16 := by simp [hd]
    have l2 : (d.drop 16).length = 8 := by simp [hd]
    have b1 := fromBytesBE_lt (d.take 16)
    have b2 := fromBytesBE_lt (d.drop 16)
    rw [l1, show (256 : Nat) ^ 16 = 2 ^ 128 by decide] at b1
    rw [l2, show (256 : Nat) ^ 8 = 2 ^ 64 by decide] at b2
    have hs : SpanId.bytes ⟨(fromBytesBE (d.drop 16) : Int)⟩ = .ok (d.drop 16) := by
      unfold SpanId.bytes
      rw [if_pos ⟨by simp, Int.ofNat_lt.mpr b2⟩]
      have := bytesPad_fromBytesBE (d.drop 16)
      rw [l2] at this
      simp only [Int.natAbs_natCast]
      rw [this]
    refine ⟨⟨fromBytesBE (d.take 16), ⟨(fromBytesBE (d.drop 16) : Int)⟩⟩, ?_, ⟨b1, by simp, Int.ofNat_lt.mpr b2⟩, ?_⟩
    · unfold SpanKey.ofBytes uuidOfBytes SpanId.ofBytes
      rw [if_neg (by omega), if_neg (by omega)]
      rfl
    · unfold SpanKey.bytes
      simp only
      rw [hs]
      have := bytesPad_fromBytesBE (d.take 16)
      rw [l1] at this
      show Except.ok (bytesPad 16 _ ++ d.drop 16) = _
      rw [this, List.take_append_drop]
  · intro hd
    unfold SpanKey.ofBytes uuidOfBytes SpanId.ofBytes
    by_cases h1 : (d.take 16).length = 16
    · have h2 : (d.drop 16).length ≠ 8 := by simp at h1 ⊢; omega
      rw [if_neg (by omega), if_pos h2]
      rfl
    · rw [if_pos h1]
      rfl

/-- **C32.** Comparing two keys never fails and says whether they are the same key; the same holds for
their byte forms. -/
theorem C32_equality (a b : SpanKey) (ha : a.Valid) (hb : b.Valid) :
    a.eq b = .ok (decide (a = b)) ∧ (a.bytes = b.bytes ↔ a = b) ∧ a.eqText b.text = .ok (decide (a = b)) := by
  obtain ⟨x, hx, _, rx⟩ := C32_bytes_round_trip a ha
  obtain ⟨y, hy, _, ry⟩ := C32_bytes_round_trip b hb
  have key : x = y ↔ a = b := by
    constructor
    · rintro rfl; rw [rx] at ry; exact Except.ok.inj ry
    · rintro rfl; rw [hx] at hy; exact Except.ok.inj hy
  refine ⟨?_, ?_, ?_⟩
  · unfold SpanKey.eq; rw [hx, hy]; show Except.ok (decide (x = y)) = _; simp only [key]
  · rw [hx, hy, Except.ok.injEq, key]
  · unfold SpanKey.eqText; rw [C31_text_round_trip b hb, hx]
    show (do let y ← b.bytes; return decide (x = y) : Except PyErr Bool) = _
    rw [hy]; show Except.ok (decide (x = y)) = _; simp only [key]

example : sampleKey.Valid ∧ (∃ b, sampleKey.bytes = .ok b ∧ b.length = 24 ∧ b.head? = some 1) :=
  ⟨sampleKey_valid, _, rfl, by decide, by decide⟩

/-! ### C33 -/

theorem digit_lower_ascii : ∀ n < 128, IsHex (Char.ofNat n) → Nat.digitChar (hv (Char.ofNat n)) = (Char.ofNat n).toLower := by
  decide

theorem digit_lower {c : Char} (h : IsHex c) : Nat.digitChar (hv c) = c.toLower := by
  have hc := h.cases
  have e : Char.ofNat c.toNat = c := Char.ofNat_toNat c
  have := digit_lower_ascii c.toNat (by omega)
  rw [e] at this
  exact this h

theorem hexPad_hexText (s : List Char) (h : ∀ c ∈ s, IsHex c) : hexPad s.length (hexText s) = s.map Char.toLower := by
  induction s using List.reverseRecOn with
  | nil => rfl
  | append_singleton s c ih =>
    have hc := h c (by simp)
    have hv16 := hv_lt c
    rw [hexText_snoc, List.length_append, List.length_singleton, hexPad]
    have e1 : (hexText s * 16 + hv c) / 16 = hexText s := by omega
    have e2 : (hexText s * 16 + hv c) % 16 = hv c := by omega
    rw [e1, e2, ih (fun x hx => h x (by simp [hx])), digit_lower hc]
    simp

/-- **C33**, part that holds: a text of sixteen hexadecimal digits is accepted, denotes a 64-bit number,
and is written back in lower case. Missing: other accepted texts (see `C33_span_ids_refuted`). -/
theorem C33_span_ids_partial (s : List Char) (hl : s.length = 16) (h : ∀ c ∈ s, IsHex c) :
    ∃ i, SpanId.ofHex s = .ok i ∧ 0 ≤ i.value ∧ i.value < 2 ^ 64 ∧ i.hex = s.map Char.toLower := by
  refine ⟨⟨hexText s⟩, ?_, by simp, ?_, ?_⟩
  · unfold SpanId.ofHex
    rw [if_neg (by omega), pyInt16_hex h (by intro e; rw [e] at hl; simp at hl)]
  · have := hexText_lt s
    rw [hl, show (16 : Nat) ^ 16 = 2 ^ 64 by decide] at this
    exact Int.ofNat_lt.mpr this
  · unfold SpanId.hex
    rw [if_neg (by simp)]
    have := hexPad_hexText s h
    rw [hl] at this
    simpa using this

example : "FEDCBA9876543210".toList.length = 16 ∧ ∀ c ∈ "FEDCBA9876543210".toList, IsHex c := by decide

/-- Accepted text: whatever `int` accepts, the value has at most as many digits as the text has
characters. -/
theorem scan_lt : ∀ (s : List Char) (prev : Bool) (acc n v m : Nat) (rest : List Char),
    scan s prev acc n = some (v, m, rest) → v < (acc + 1) * 16 ^ s.length := by
  intro s
  induction s with
  | nil =>
    intro prev acc n v m rest h
    simp only [scan] at h
    split at h
    · cases h
    · simp only [Option.some.injEq, Prod.mk.injEq] at h; simp; omega
  | cons c s ih =>
    intro prev acc n v m rest h
    have hpos : 0 < 16 ^ s.length := Nat.pow_pos (by decide)
    rw [scan] at h
    split at h
    · split at h
      · cases h
      · have := ih _ _ _ _ _ _ h
        rw [List.length_cons, Nat.pow_succ]
        calc v < (acc + 1) * 16 ^ s.length := this
          _ ≤ (acc + 1) * (16 ^ s.length * 16) := Nat.mul_le_mul_left _ (by omega)
    · split at h
      · rename_i d hd
        have h16 := isHex_lt hd
        have := ih _ _ _ _ _ _ h
        rw [List.length_cons, Nat.pow_succ]
        calc v < (acc * 16 + d + 1) * 16 ^ s.length := this
          _ ≤ ((acc + 1) * 16) * 16 ^ s.length := Nat.mul_le_mul_right _ (by omega)
          _ = (acc + 1) * (16 ^ s.length * 16) := by rw [Nat.mul_assoc, Nat.mul_comm 16]
      · split at h
        · cases h
        · simp only [Option.some.injEq, Prod.mk.injEq] at h
          rw [← h.1, List.length_cons, Nat.pow_succ]
          calc acc < acc + 1 := by omega
            _ ≤ (acc + 1) * (16 ^ s.length * 16) := Nat.le_mul_of_pos_right _ (by omega)

theorem skipPrefix_length (s : List Char) : (skipPrefix s).length ≤ s.length := by
  unfold skipPrefix; split <;> simp <;> omega

theorem parseMag_lt {s : List Char} {v : Nat} (h : parseMag s = some v) : v < 16 ^ s.length := by
  unfold parseMag at h
  simp only at h
  split at h
  · cases h
  split at h
  · cases h
  · rename_i v' n rest hs
    split at h
    · cases h
    split at h
    · simp only [Option.some.injEq] at h
      subst h
      have := scan_lt _ _ _ _ _ _ _ hs
      simp only [Nat.zero_add, Nat.one_mul] at this
      exact Nat.lt_of_lt_of_le this (Nat.pow_le_pow_right (by decide) (skipPrefix_length s))
    · cases h

theorem signed_some {neg : Bool} {o : Option Nat} {v : Int} (h : signed neg o = some v) :
    ∃ n, o = some n ∧ v = if neg then -(n : Int) else (n : Int) := by
  cases o with
  | none => cases h
  | some n => refine ⟨n, rfl, ?_⟩; unfold signed at h; cases neg <;> simpa using h.symm

theorem pyInt16_bound {s : List Char} {v : Int} (h : pyInt16 s = some v) :
    (v < 0 → v.natAbs < 16 ^ (s.length - 1)) ∧ v.natAbs < 16 ^ s.length := by
  have hl : (s.dropWhile isSpace).length ≤ s.length := (List.dropWhile_sublist _).length_le
  unfold pyInt16 at h
  split at h
  all_goals
    rename_i r hr
    obtain ⟨n, hn, e⟩ := signed_some h
    have hb := parseMag_lt hn
    simp only [Bool.false_eq_true, if_false, if_true] at e
    subst e
  · rw [hr, List.length_cons] at hl
    have b1 : 16 ^ r.length ≤ 16 ^ (s.length - 1) := Nat.pow_le_pow_right (by decide) (by omega)
    have b2 : 16 ^ r.length ≤ 16 ^ s.length := Nat.pow_le_pow_right (by decide) (by omega)
    constructor <;> intros <;> simp <;> omega
  · rw [hr, List.length_cons] at hl
    have b2 : 16 ^ r.length ≤ 16 ^ s.length := Nat.pow_le_pow_right (by decide) (by omega)
    constructor
    · intro h0; omega
    · simp; omega
  · have b2 : 16 ^ (s.dropWhile isSpace).length ≤ 16 ^ s.length := Nat.pow_le_pow_right (by decide) (by omega)
    constructor
    · intro h0; omega
    · simp; omega

/-- **C33**, for every text: an accepted span id lies strictly between -2^60 and 2^64, and its own text
form is accepted again as the same id. So the only ids outside 0..2^64-1 are negative ones. -/
theorem C33_accepted_partial (s : List Char) (i : SpanId) (h : SpanId.ofHex s = .ok i) :
    -(2 : Int) ^ 60 < i.value ∧ i.value < 2 ^ 64 ∧ i.hex.length = 16 ∧ SpanId.ofHex i.hex = .ok i := by
  unfold SpanId.ofHex at h
  split at h
  · cases h
  rename_i hl
  have hl : s.length = 16 := by simpa using hl
  split at h
  · cases h
  rename_i v hv
  simp only [Except.ok.injEq] at h
  subst h
  obtain ⟨b1, b2⟩ := pyInt16_bound hv
  rw [hl, show (16 : Nat) ^ 16 = 2 ^ 64 by decide] at b2
  rw [hl, show (16 : Nat) ^ (16 - 1) = 2 ^ 60 by decide] at b1
  by_cases h0 : v < 0
  · have hb := b1 h0
    have hhex : SpanId.hex ⟨v⟩ = '-' :: hexPad 15 v.natAbs := by unfold SpanId.hex; rw [if_pos h0]
    refine ⟨by show -(2 : Int) ^ 60 < v; omega, by show v < 2 ^ 64; omega, by rw [hhex]; simp [length_hexPad], ?_⟩
    rw [hhex]
    unfold SpanId.ofHex
    rw [if_neg (by simp [length_hexPad])]
    have hp : pyInt16 ('-' :: hexPad 15 v.natAbs) = some v := by
      unfold pyInt16
      rw [List.dropWhile_cons_of_neg (by decide)]
      simp only
      rw [parseMag_hex (fun c hc => hexPad_isHex hc) (by
        intro e; have := length_hexPad 15 v.natAbs; rw [e] at this; simp at this),
        hexText_hexPad 15 _ (by rw [show (16 : Nat) ^ 15 = 2 ^ 60 by decide]; exact hb)]
      simp only [signed, if_true, Option.some.injEq]
      omega
    rw [hp]
  · have hhex : SpanId.hex ⟨v⟩ = hexPad 16 v.natAbs := by unfold SpanId.hex; rw [if_neg h0]
    refine ⟨by show -(2 : Int) ^ 60 < v; omega, by show v < 2 ^ 64; omega, by rw [hhex]; simp [length_hexPad], ?_⟩
    rw [hhex, ofHex_hexPad b2]
    have : ((v.natAbs : Nat) : Int) = v := by omega
    rw [this]

example : SpanId.ofHex "-000000000000005".toList = .ok ⟨-5⟩ := by rfl

/-- **C33 is false of the code.** A sign is accepted, giving a negative id; so are prefixes, underscores
and white space, giving ids whose text differs from what was read. -/
theorem C33_span_ids_refuted :
    SpanId.ofHex "-000000000000001".toList = .ok ⟨-1⟩ ∧
      (∃ i, SpanId.ofHex "0x_0_0_0_0_0_00f".toList = .ok i ∧ i.hex = "000000000000000f".toList) ∧
      (∃ i, SpanId.ofHex "  +12   \t\n\r     ".toList = .ok i ∧ i.hex = "0000000000000012".toList) :=
  ⟨rfl, ⟨_, rfl, by decide⟩, ⟨_, rfl, by decide⟩⟩

/-- **C33**, from integers: exactly the integers of 64 bits are accepted, unchanged; and anything but an
identifier, an integer, bytes or text is refused. -/
theorem C33_from_int (v : Int) :
    SpanId.validate (.int v) = (if 0 ≤ v ∧ v ≤ 18446744073709551615 then .ok ⟨v⟩ else .error .valueError) ∧
      SpanId.validate .other = .error .valueError := by
  refine ⟨?_, rfl⟩
  have e : (2 : Int) ^ 64 = 18446744073709551616 := by decide
  show SpanId.ofInt v = _
  unfold SpanId.ofInt
  rw [e]
  by_cases h : 0 ≤ v ∧ v ≤ 18446744073709551615
  · rw [if_pos h, if_pos (by omega)]
  · rw [if_neg h, if_neg (by omega)]

example : SpanId.validate (.int 18446744073709551615) = .ok ⟨18446744073709551615⟩ ∧
    SpanId.validate (.int 18446744073709551616) = .error .valueError := by
  constructor <;> rfl

/-- **C33**, consequence: a key with a negative span id parses, prints and parses again, but has no byte
form, so it can be neither compared nor queued. -/
theorem C33_negative_has_no_bytes (k : SpanKey) (h : k.span.value < 0) (b : SpanKey) :
    k.bytes = .error .overflowError ∧ k.eq b = .error .overflowError := by
  have : k.span.bytes = .error .overflowError := by
    unfold SpanId.bytes; rw [if_neg (by omega)]
  have hk : k.bytes = .error .overflowError := by unfold SpanKey.bytes; rw [this]; rfl
  exact ⟨hk, by unfold SpanKey.eq; rw [hk]; rfl⟩

example : ∃ k, SpanKey.ofHex "01234567-89ab-cdef-0000-0000deadbeef:-000000000000001".toList = .ok k ∧ k.span.value < 0 :=
  ⟨⟨0x0123456789abcdef00000000deadbeef, ⟨-1⟩⟩, by rfl, by decide⟩

end Verif.Span
