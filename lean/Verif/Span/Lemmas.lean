import Mathlib.Data.List.Induction
import Verif.Span.Model

/-! Digits and bytes. -/

namespace Verif.Span

open Verif.Py

theorem length_hexPad (w n : Nat) : (hexPad w n).length = w := by
  induction w generalizing n with
  | zero => rfl
  | succ w ih => simp [hexPad, ih]

theorem length_bytesPad (w n : Nat) : (bytesPad w n).length = w := by
  induction w generalizing n with
  | zero => rfl
  | succ w ih => simp [bytesPad, ih]

theorem hexVal_digitChar : ∀ d < 16, hexVal (Nat.digitChar d) = some d := by decide

theorem digitChar_ne : ∀ d < 16, Nat.digitChar d ≠ '_' ∧ Nat.digitChar d ≠ 'x' ∧ Nat.digitChar d ≠ 'X' ∧
    Nat.digitChar d ≠ '-' ∧ Nat.digitChar d ≠ '+' ∧ Nat.digitChar d ≠ ':' ∧ Nat.digitChar d ≠ 'u' ∧
    Nat.digitChar d ≠ '{' ∧ Nat.digitChar d ≠ '}' ∧ isSpace (Nat.digitChar d) = false := by decide

/-- The value denoted by a list of digits. -/
def digitsVal (ds : List Nat) : Nat := ds.foldl (fun a d => a * 16 + d) 0

/-- Characters that are hexadecimal digits. -/
def IsHex (c : Char) : Prop := (hexVal c).isSome

instance (c : Char) : Decidable (IsHex c) := inferInstanceAs (Decidable ((hexVal c).isSome = true))

theorem mem_hexPad {w n : Nat} {c : Char} (h : c ∈ hexPad w n) : ∃ d < 16, c = Nat.digitChar d := by
  induction w generalizing n with
  | zero => simp [hexPad] at h
  | succ w ih =>
    simp only [hexPad, List.mem_append, List.mem_singleton] at h
    rcases h with h | h
    · exact ih h
    · exact ⟨n % 16, Nat.mod_lt _ (by decide), h⟩

theorem isHex_lt {c : Char} {d : Nat} (h : hexVal c = some d) : d < 16 := by
  unfold hexVal at h
  split at h
  · simp only [Option.some.injEq] at h; omega
  split at h
  · simp only [Option.some.injEq] at h; omega
  split at h
  · simp only [Option.some.injEq] at h; omega
  · cases h

theorem toNat_ne {c : Char} {a : Char} (h : c.toNat ≠ a.toNat) : c ≠ a := fun e => h (by rw [e])

theorem IsHex.cases {c : Char} (h : IsHex c) :
    (48 ≤ c.toNat ∧ c.toNat ≤ 57) ∨ (97 ≤ c.toNat ∧ c.toNat ≤ 102) ∨ (65 ≤ c.toNat ∧ c.toNat ≤ 70) := by
  unfold IsHex hexVal at h
  split at h
  · left; assumption
  split at h
  · right; left; assumption
  split at h
  · right; right; assumption
  · simp at h

theorem IsHex.ne {c : Char} (h : IsHex c) : c ≠ '_' ∧ c ≠ 'x' ∧ c ≠ 'X' ∧ c ≠ '-' ∧ c ≠ '+' ∧ c ≠ ':' ∧ c ≠ 'u' ∧
    c ≠ '{' ∧ c ≠ '}' ∧ isSpace c = false := by
  have hc := h.cases
  have e1 : ('_' : Char).toNat = 95 := rfl
  have e2 : ('x' : Char).toNat = 120 := rfl
  have e3 : ('X' : Char).toNat = 88 := rfl
  have e4 : ('-' : Char).toNat = 45 := rfl
  have e5 : ('+' : Char).toNat = 43 := rfl
  have e6 : (':' : Char).toNat = 58 := rfl
  have e7 : ('u' : Char).toNat = 117 := rfl
  have e8 : ('{' : Char).toNat = 123 := rfl
  have e9 : ('}' : Char).toNat = 125 := rfl
  refine ⟨toNat_ne ?_, toNat_ne ?_, toNat_ne ?_, toNat_ne ?_, toNat_ne ?_, toNat_ne ?_, toNat_ne ?_, toNat_ne ?_, toNat_ne ?_, ?_⟩
  · rw [e1]; omega
  · rw [e2]; omega
  · rw [e3]; omega
  · rw [e4]; omega
  · rw [e5]; omega
  · rw [e6]; omega
  · rw [e7]; omega
  · rw [e8]; omega
  · rw [e9]; omega
  · simp only [isSpace, Bool.or_eq_false_iff, decide_eq_false_iff_not, Bool.and_eq_false_iff]
    omega

theorem isHex_digitChar {d : Nat} (h : d < 16) : IsHex (Nat.digitChar d) := by
  unfold IsHex; rw [hexVal_digitChar d h]; rfl

theorem hexPad_isHex {w n : Nat} {c : Char} (h : c ∈ hexPad w n) : IsHex c := by
  obtain ⟨d, hd, rfl⟩ := mem_hexPad h; exact isHex_digitChar hd

/-- The digit value of a character known to be a digit. -/
def hv (c : Char) : Nat := (hexVal c).getD 0

theorem hexVal_hv {c : Char} (h : IsHex c) : hexVal c = some (hv c) := by
  unfold hv
  cases e : hexVal c with
  | none => rw [IsHex, e] at h; simp at h
  | some d => rfl

theorem scan_hex : ∀ (s rest : List Char) (acc n : Nat) (prev : Bool), (∀ c ∈ s, IsHex c) → s ≠ [] →
    scan (s ++ rest) prev acc n = scan rest false (s.foldl (fun a c => a * 16 + hv c) acc) (n + s.length) := by
  intro s
  induction s with
  | nil => intro rest acc n prev _ h; exact absurd rfl h
  | cons c s ih =>
    intro rest acc n prev h _
    have hc := h c (by simp)
    have hs : ∀ x ∈ s, IsHex x := fun x hx => h x (by simp [hx])
    rw [List.cons_append, scan, if_neg hc.ne.1, hexVal_hv hc]
    simp only
    cases hs0 : s with
    | nil => simp
    | cons c' s' =>
      rw [← hs0, ih rest _ _ false hs (by rw [hs0]; simp)]
      simp only [List.foldl_cons, List.length_cons]
      congr 1
      omega

theorem skipPrefix_hex {s : List Char} (h : ∀ c ∈ s, IsHex c) : skipPrefix s = s := by
  match s, h with
  | [], _ => rfl
  | [a], _ => simp [skipPrefix]
  | a :: b :: cs, h =>
    have hb := (h b (by simp)).ne
    unfold skipPrefix
    split <;> simp_all

/-- The value of a text of hexadecimal digits. -/
def hexText (s : List Char) : Nat := s.foldl (fun a c => a * 16 + hv c) 0

theorem parseMag_hex {s : List Char} (h : ∀ c ∈ s, IsHex c) (hne : s ≠ []) : parseMag s = some (hexText s) := by
  unfold parseMag
  rw [skipPrefix_hex h]
  simp only
  have hhead : s.head? ≠ some '_' := by
    intro e
    have := List.mem_of_mem_head? e
    exact (h _ this).ne.1 rfl
  rw [if_neg hhead]
  have := scan_hex s [] 0 0 false h hne
  rw [List.append_nil] at this
  rw [this]
  have hl : s.length ≠ 0 := by simpa using hne
  simp [scan, hl, hexText]

theorem dropWhile_hex {s : List Char} (h : ∀ c ∈ s, IsHex c) : s.dropWhile isSpace = s := by
  cases s with
  | nil => rfl
  | cons a s => rw [List.dropWhile_cons_of_neg]; rw [(h a (by simp)).ne.2.2.2.2.2.2.2.2.2]; simp

theorem pyInt16_hex {s : List Char} (h : ∀ c ∈ s, IsHex c) (hne : s ≠ []) : pyInt16 s = some (hexText s : Int) := by
  unfold pyInt16
  rw [dropWhile_hex h]
  match s, h, hne with
  | a :: s, h, _ =>
    have ha := (h a (by simp)).ne
    split
    · rename_i e; simp only [List.cons.injEq] at e; exact absurd e.1 ha.2.2.2.1
    · rename_i e; simp only [List.cons.injEq] at e; exact absurd e.1 ha.2.2.2.2.1
    · rw [parseMag_hex h (by simp)]; rfl

theorem hv_digitChar {d : Nat} (h : d < 16) : hv (Nat.digitChar d) = d := by
  unfold hv; rw [hexVal_digitChar d h]; rfl

theorem hexText_snoc (s : List Char) (c : Char) : hexText (s ++ [c]) = hexText s * 16 + hv c := by
  simp [hexText]

theorem hexText_hexPad : ∀ (w n : Nat), n < 16 ^ w → hexText (hexPad w n) = n := by
  intro w
  induction w with
  | zero => intro n h; simp at h; subst h; rfl
  | succ w ih =>
    intro n h
    have h1 : n / 16 < 16 ^ w := by rw [Nat.div_lt_iff_lt_mul (by decide)]; rw [Nat.pow_succ] at h; omega
    rw [hexPad, hexText_snoc, ih _ h1, hv_digitChar (Nat.mod_lt _ (by decide))]
    omega

theorem hv_lt (c : Char) : hv c < 16 := by
  unfold hv
  cases e : hexVal c with
  | none => decide
  | some d => exact isHex_lt e

theorem hexText_lt (s : List Char) : hexText s < 16 ^ s.length := by
  induction s using List.reverseRecOn with
  | nil => decide
  | append_singleton s c ih =>
    rw [hexText_snoc, List.length_append, List.length_singleton, Nat.pow_succ]
    have := hv_lt c
    omega

/-! ### bytes -/

theorem fromBytesBE_snoc (b : List Byte) (x : Byte) : fromBytesBE (b ++ [x]) = fromBytesBE b * 256 + x.val := by
  simp [fromBytesBE]

theorem fromBytesBE_bytesPad : ∀ (w n : Nat), n < 256 ^ w → fromBytesBE (bytesPad w n) = n := by
  intro w
  induction w with
  | zero => intro n h; simp at h; subst h; rfl
  | succ w ih =>
    intro n h
    have h1 : n / 256 < 256 ^ w := by rw [Nat.div_lt_iff_lt_mul (by decide)]; rw [Nat.pow_succ] at h; omega
    rw [bytesPad, fromBytesBE_snoc, ih _ h1]
    simp [Fin.ofNat]
    omega

theorem fromBytesBE_lt (b : List Byte) : fromBytesBE b < 256 ^ b.length := by
  induction b using List.reverseRecOn with
  | nil => decide
  | append_singleton b x ih =>
    rw [fromBytesBE_snoc, List.length_append, List.length_singleton, Nat.pow_succ]
    have := x.isLt
    omega

theorem bytesPad_fromBytesBE (b : List Byte) : bytesPad b.length (fromBytesBE b) = b := by
  induction b using List.reverseRecOn with
  | nil => rfl
  | append_singleton b x ih =>
    rw [fromBytesBE_snoc, List.length_append, List.length_singleton, bytesPad]
    have hx := x.isLt
    have e1 : (fromBytesBE b * 256 + x.val) / 256 = fromBytesBE b := by omega
    have e2 : (fromBytesBE b * 256 + x.val) % 256 = x.val := by omega
    rw [e1, e2, ih]
    congr 1
    simp

/-! ### texts that contain nothing special -/

theorem removeAll_none {pat : List Char} {s : List Char} (hp : pat.head? = some 'u') (h : 'u' ∉ s) :
    ∀ fuel, removeAll pat fuel s = s := by
  intro fuel
  induction fuel generalizing s with
  | zero => cases s <;> rfl
  | succ fuel ih =>
    cases s with
    | nil => rfl
    | cons c cs =>
      have hc : c ≠ 'u' := fun e => h (by simp [e])
      have hnp : pat.isPrefixOf (c :: cs) = false := by
        cases pat with
        | nil => simp at hp
        | cons a pat =>
          simp only [List.head?_cons, Option.some.injEq] at hp
          subst hp
          simp [List.isPrefixOf, Ne.symm hc]
      rw [removeAll, hnp]
      simp only [Bool.false_eq_true, if_false]
      rw [ih (fun hm => h (by simp [hm]))]

theorem dropWhile_noop {p : Char → Bool} {s : List Char} (h : ∀ c ∈ s, p c = false) : s.dropWhile p = s := by
  cases s with
  | nil => rfl
  | cons a s => rw [List.dropWhile_cons_of_neg]; rw [h a (by simp)]; simp

theorem stripBraces_noop {s : List Char} (h : ∀ c ∈ s, c ≠ '{' ∧ c ≠ '}') : stripBraces s = s := by
  unfold stripBraces
  rw [dropWhile_noop (s := s) (by intro c hc; simp [h c hc]), dropWhile_noop (by intro c hc; simp at hc; simp [h c hc]),
    List.reverse_reverse]

end Verif.Span
