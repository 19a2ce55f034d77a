import Verif.Wire.Spec
import Verif.Py.DictLemmas

namespace Verif.Wire

open Verif.Py Verif.Wire.Spec

/-! ### Texts -/

theorem hexVal_hexDigit : ∀ n < 16, hexVal (hexDigit n) = some n := by decide +kernel

theorem hex4_control (n : Nat) (h : n < 32) : hex4 '0' '0' (hexDigit (n / 16)) (hexDigit n) = some n := by
  have h0 : hexVal '0' = some 0 := by decide +kernel
  have h1 := hexVal_hexDigit (n / 16) (by omega)
  have h2 := hexVal_hexDigit (n % 16) (by omega)
  have h3 : hexDigit n = hexDigit (n % 16) := by unfold hexDigit; rw [Nat.mod_mod]
  rw [h3]
  unfold hex4
  rw [h0, h1, h2]
  simp only [Option.some.injEq]
  omega

theorem scanStr_quote (r : Str) : scanStr ('"' :: r) = .ok ([], r) := by
  unfold scanStr
  rw [if_pos rfl]

theorem scanStr_simple {e ch : Char} (r : Str) (he : e ≠ 'u') (hs : simple e = some ch) :
    scanStr ('\\' :: e :: r) = consChar ch (scanStr r) := by
  conv_lhs => unfold scanStr
  simp only [if_neg (show ¬ '\\' = '"' by decide), if_true, if_neg he, hs]

theorem scanStr_unicode {a b c d : Char} {u : Nat} (r : Str) (hu : hex4 a b c d = some u) (h : u < 0xd800) :
    scanStr ('\\' :: 'u' :: a :: b :: c :: d :: r) = consChar (Char.ofNat u) (scanStr r) := by
  conv_lhs => unfold scanStr
  simp only [if_neg (show ¬ '\\' = '"' by decide), if_true, hu]
  rw [if_neg (by omega), if_neg (by omega)]

theorem scanStr_escape (c : Char) (r : Str) : scanStr (escape c ++ r) = consChar c (scanStr r) := by
  unfold escape
  split
  · next h => subst h; exact scanStr_simple r (by decide) (by decide)
  split
  · next h => subst h; exact scanStr_simple r (by decide) (by decide)
  split
  · next h => subst h; exact scanStr_simple r (by decide) (by decide)
  split
  · next h => subst h; exact scanStr_simple r (by decide) (by decide)
  split
  · next h => subst h; exact scanStr_simple r (by decide) (by decide)
  split
  · next h => subst h; exact scanStr_simple r (by decide) (by decide)
  split
  · next h => subst h; exact scanStr_simple r (by decide) (by decide)
  split
  · next h =>
    have h4 := hex4_control c.toNat h
    have := scanStr_unicode r h4 (by omega)
    rw [Char.ofNat_toNat] at this
    exact this
  · next h1 h2 _ _ _ _ _ h8 =>
    simp only [List.singleton_append]
    conv_lhs => unfold scanStr
    rw [if_neg h1, if_neg h2, if_neg h8]

theorem scanStr_chars (s : Str) (r : Str) : scanStr (s.flatMap escape ++ '"' :: r) = .ok (s, r) := by
  induction s with
  | nil => exact scanStr_quote r
  | cons c s ih =>
    rw [List.flatMap_cons, List.append_assoc, scanStr_escape, ih]
    rfl

theorem scanStr_text (s : String) (r : Str) : scanStr (s.toList.flatMap escape ++ ['"'] ++ r) = .ok (s.toList, r) := by
  rw [List.append_assoc]
  exact scanStr_chars _ _

/-! ### Numbers -/

/-- What may follow a number. -/
def Ends (r : Str) : Prop := ∀ c, r.head? = some c → c.isDigit = false ∧ c ≠ '.' ∧ c ≠ 'e' ∧ c ≠ 'E'

theorem takeWhile_digits {ds r : Str} (hd : ∀ c ∈ ds, c.isDigit = true) (hr : ∀ c, r.head? = some c → c.isDigit = false) :
    (ds ++ r).takeWhile Char.isDigit = ds ∧ (ds ++ r).dropWhile Char.isDigit = r := by
  induction ds with
  | nil =>
    cases r with
    | nil => exact ⟨rfl, rfl⟩
    | cons c r => simp [hr c rfl]
  | cons d ds ih =>
    have h1 := hd d (.head _)
    obtain ⟨h2, h3⟩ := ih fun c hc => hd c (.tail _ hc)
    exact ⟨by simp only [List.cons_append, List.takeWhile_cons, h1, if_true, h2], by simp only [List.cons_append, List.dropWhile_cons, h1, if_true, h3]⟩

theorem whole_digits {ip r : Str} (h : ip = ['0'] ∨ (ip ≠ [] ∧ ip.head? ≠ some '0' ∧ ∀ c ∈ ip, c.isDigit = true))
    (hr : ∀ c, r.head? = some c → c.isDigit = false) : whole (ip ++ r) = some (ip, r) := by
  rcases h with rfl | ⟨h1, h2, h3⟩
  · rfl
  · cases ip with
    | nil => exact absurd rfl h1
    | cons d ds =>
      obtain ⟨e1, e2⟩ := takeWhile_digits h3 hr
      have hd := h3 d (.head _)
      have : d ≠ '0' := fun h => h2 (by rw [h]; rfl)
      simp only [List.cons_append] at e1 e2 ⊢
      unfold whole
      simp only
      rw [if_neg this, if_pos hd, e1, e2]

theorem fraction_none {r : Str} (h : r.head? ≠ some '.') : fraction r = ([], r) := by
  unfold fraction
  split
  · next c d r => rw [if_neg]; rintro ⟨rfl, -⟩; exact h rfl
  · rfl

theorem fraction_some {ds r : Str} (hne : ds ≠ []) (hd : ∀ c ∈ ds, c.isDigit = true) (hr : ∀ c, r.head? = some c → c.isDigit = false) :
    fraction ('.' :: (ds ++ r)) = ('.' :: ds, r) := by
  cases ds with
  | nil => exact absurd rfl hne
  | cons d ds =>
    obtain ⟨e1, e2⟩ := takeWhile_digits hd hr
    simp only [List.cons_append] at e1 e2 ⊢
    unfold fraction
    simp only
    rw [if_pos ⟨trivial, hd d (.head _)⟩, e1, e2]

theorem exponent_none {r : Str} (h : r.head? ≠ some 'e') (h' : r.head? ≠ some 'E') : exponent r = ([], r) := by
  unfold exponent
  split
  · next c d r =>
    rw [if_neg]
    rintro (rfl | rfl)
    · exact h rfl
    · exact h' rfl
  · rfl

theorem exponent_some {e : Char} {s ds r : Str} (he : e = 'e' ∨ e = 'E') (hs : s = [] ∨ s = ['-'] ∨ s = ['+']) (hne : ds ≠ [])
    (hd : ∀ c ∈ ds, c.isDigit = true) (hr : ∀ c, r.head? = some c → c.isDigit = false) :
    exponent (e :: (s ++ ds ++ r)) = (e :: (s ++ ds), r) := by
  cases ds with
  | nil => exact absurd rfl hne
  | cons d ds =>
    obtain ⟨e1, e2⟩ := takeWhile_digits hd hr
    have hdd := hd d (.head _)
    simp only [List.cons_append] at e1 e2
    rcases hs with rfl | rfl | rfl
    · simp only [List.nil_append, List.cons_append]
      unfold exponent
      simp only [if_pos he, hdd, if_true, e1, e2]
    · simp only [List.cons_append, List.nil_append]
      unfold exponent
      simp only [if_pos he, hdd, if_true, e1, e2, show ('-' : Char).isDigit = false from rfl]
      rfl
    · simp only [List.cons_append, List.nil_append]
      unfold exponent
      simp only [if_pos he, hdd, if_true, e1, e2, show ('+' : Char).isDigit = false from rfl]
      rfl

theorem toDigits_whole (n : Nat) :
    Nat.toDigits 10 n = ['0'] ∨ (Nat.toDigits 10 n ≠ [] ∧ (Nat.toDigits 10 n).head? ≠ some '0' ∧ ∀ c ∈ Nat.toDigits 10 n, c.isDigit = true) := by
  by_cases h0 : n = 0
  · subst h0; left; decide
  · right
    refine ⟨Nat.toDigits_ne_nil, ?_, Str.digit_ofNat n⟩
    induction n using Nat.strongRecOn with
    | _ n ih =>
      by_cases hn : n < 10
      · rw [Nat.toDigits_of_lt_base hn]
        have : ∀ m < 10, m ≠ 0 → [Nat.digitChar m].head? ≠ some '0' := by decide
        exact this n hn h0
      · rw [Nat.toDigits_of_base_le (by omega) (by omega)]
        have h1 := ih (n / 10) (by omega) (by omega)
        rw [List.head?_append]
        cases h : (Nat.toDigits 10 (n / 10)).head? with
        | none => exact absurd (List.head?_eq_none_iff.1 h) Nat.toDigits_ne_nil
        | some c => rw [h] at h1; simpa using h1

theorem unsigned_int (F : Floats) (neg : Bool) (n : Nat) (hn : (Nat.toDigits 10 n).length ≤ 4300) {r : Str} (hr : Ends r) :
    unsigned F neg (Nat.toDigits 10 n ++ r) = some (.ok (.int (if neg then -(n : Int) else n), r)) := by
  unfold unsigned
  rw [whole_digits (toDigits_whole n) fun c hc => (hr c hc).1]
  simp only
  rw [fraction_none fun h => (hr _ h).2.1 rfl]
  simp only
  rw [exponent_none (fun h => (hr _ h).2.2.1 rfl) (fun h => (hr _ h).2.2.2 rfl)]
  simp only [and_self, if_true]
  unfold intOf
  rw [if_neg (by omega), Nat.ofDigitChars_toDigits (by omega) (by omega)]

theorem scanNumber_neg (F : Floats) {r : Str} {x} (h : unsigned F true r = some x) : scanNumber F ('-' :: r) = x := by
  rw [scanNumber, if_pos rfl, h, Option.getD_some]

theorem scanNumber_pos (F : Floats) {c : Char} {r : Str} {x} (hc : c ≠ '-') (h : unsigned F false (c :: r) = some x) :
    scanNumber F (c :: r) = x := by
  rw [scanNumber, if_neg hc, h, Option.getD_some]

theorem scanNumber_int (F : Floats) (i : Int) (hi : (Nat.toDigits 10 i.natAbs).length ≤ 4300) {r : Str} (hr : Ends r) :
    scanNumber F (writeInt i ++ r) = .ok (.int i, r) := by
  have hd : ∀ n, ∃ d ds, Nat.toDigits 10 n = d :: ds ∧ d.isDigit = true := by
    intro n
    obtain ⟨d, ds, h⟩ := List.exists_cons_of_ne_nil (Nat.toDigits_ne_nil (n := n) (b := 10))
    exact ⟨d, ds, h, Str.digit_ofNat n d (by unfold Str.ofNat; rw [h]; exact .head _)⟩
  cases i with
  | ofNat n =>
    have h := unsigned_int F false n hi hr
    obtain ⟨d, ds, e, hdd⟩ := hd n
    rw [show writeInt (.ofNat n) = Nat.toDigits 10 n from rfl]
    rw [e] at h ⊢
    rw [List.cons_append] at h ⊢
    rw [scanNumber_pos F (by rintro rfl; exact absurd hdd (by decide)) h]
    rfl
  | negSucc n =>
    have h := unsigned_int F true (n + 1) hi hr
    rw [show writeInt (.negSucc n) = '-' :: Nat.toDigits 10 (n + 1) from rfl, List.cons_append]
    rw [scanNumber_neg F h]
    rfl

theorem scanNumber_float (F : Floats) {t : Str} (ht : FloatText t) {r : Str} (hr : Ends r) :
    scanNumber F (t ++ r) = .ok (.float (F.parse t), r) := by
  obtain ⟨sign, ip, fr, ex, rfl, hs, hip, hfr, hex, hne⟩ := ht
  have hex0 : ∀ c, (ex ++ r).head? = some c → c.isDigit = false ∧ c ≠ '.' := by
    intro c hc
    rcases hex with rfl | ⟨e, s, ds, rfl, he, -, -, -⟩
    · exact ⟨(hr c hc).1, (hr c hc).2.1⟩
    · simp only [List.cons_append, List.head?_cons, Option.some.injEq] at hc
      subst hc
      rcases he with rfl | rfl <;> decide
  have hfr0 : ∀ c, (fr ++ (ex ++ r)).head? = some c → c.isDigit = false := by
    intro c hc
    rcases hfr with rfl | ⟨ds, rfl, -, -⟩
    · exact (hex0 c hc).1
    · simp only [List.cons_append, List.head?_cons, Option.some.injEq] at hc
      subst hc; decide
  have h1 : whole (ip ++ (fr ++ (ex ++ r))) = some (ip, fr ++ (ex ++ r)) := whole_digits hip hfr0
  have h2 : fraction (fr ++ (ex ++ r)) = (fr, ex ++ r) := by
    rcases hfr with rfl | ⟨ds, rfl, hd1, hd2⟩
    · exact fraction_none fun h => (hex0 _ h).2 rfl
    · rw [List.cons_append]; exact fraction_some hd1 hd2 fun c hc => (hex0 c hc).1
  have h3 : exponent (ex ++ r) = (ex, r) := by
    rcases hex with rfl | ⟨e, s, ds, rfl, he, hs, hd1, hd2⟩
    · exact exponent_none (fun h => (hr _ h).2.2.1 rfl) (fun h => (hr _ h).2.2.2 rfl)
    · rw [List.cons_append]; exact exponent_some he hs hd1 hd2 fun c hc => (hr c hc).1
  have hu : ∀ neg, unsigned F neg (ip ++ (fr ++ (ex ++ r))) = some (.ok (.float (F.parse ((if neg then ['-'] else []) ++ ip ++ fr ++ ex)), r)) := by
    intro neg
    unfold unsigned
    rw [h1]
    simp only [h2, h3]
    rw [if_neg]
    rintro ⟨e1, e2⟩
    rcases hne with h | h
    · exact h e1
    · exact h e2
  rcases hs with rfl | rfl
  · have hd : ∃ d ds, ip = d :: ds ∧ d ≠ '-' := by
      rcases hip with rfl | ⟨h, -, h'⟩
      · exact ⟨'0', [], rfl, by decide⟩
      · obtain ⟨d, ds, e⟩ := List.exists_cons_of_ne_nil h
        refine ⟨d, ds, e, ?_⟩
        rintro rfl
        have := h' '-' (by rw [e]; exact .head _)
        exact absurd this (by decide)
    have := hu false
    obtain ⟨d, ds, rfl, hdd⟩ := hd
    rw [List.cons_append] at this
    have e : [] ++ d :: ds ++ fr ++ ex ++ r = d :: (ds ++ (fr ++ (ex ++ r))) := by simp only [List.nil_append, List.cons_append, List.append_assoc]
    rw [e, scanNumber_pos F hdd this]
    rfl
  · have := hu true
    have e : ['-'] ++ ip ++ fr ++ ex ++ r = '-' :: (ip ++ (fr ++ (ex ++ r))) := by simp only [List.nil_append, List.cons_append, List.append_assoc]
    rw [e, scanNumber_neg F this]
    rfl

/-! ### Dictionaries -/

theorem dictOf_nodup (fs : List (String × Json)) (h : (fs.map Prod.fst).Nodup) : dictOf fs = fs := by
  have key : ∀ (fs d : List (String × Json)), ((d ++ fs).map Prod.fst).Nodup → fs.foldl (fun d x => Dict.set d x.1 x.2) d = d ++ fs := by
    intro fs
    induction fs with
    | nil => intro d _; simp
    | cons x fs ih =>
      intro d hd
      have hx : Dict.set d x.1 x.2 = d ++ [x] := by
        have : x.1 ∉ d.map Prod.fst := by
          simp only [List.map_append, List.map_cons, List.nodup_append] at hd
          intro hm
          exact hd.2.2 _ hm _ (.head _) rfl
        clear hd ih
        induction d with
        | nil => rfl
        | cons y d ih =>
          simp only [List.map_cons, List.mem_cons, not_or] at this
          simp only [Dict.set, if_neg (Ne.symm this.1), List.cons_append]
          exact congrArg _ (ih this.2)
      simp only [List.foldl_cons, hx]
      rw [ih _ (by simpa using hd)]
      simp
  exact (key fs [] (by simpa using h)).trans (List.nil_append _)

/-! ### Values -/

theorem skip_of {c : Char} {r : Str} (h : isWs c = false) : skip (c :: r) = c :: r := by
  unfold skip; rw [List.dropWhile_cons, h]; rfl

theorem writeStr_append (s : String) (r : Str) : writeStr s ++ r = '"' :: (s.toList.flatMap escape ++ ['"'] ++ r) := by
  unfold writeStr; rw [List.cons_append]

theorem Ends.ofHead {c : Char} {r : Str} (h : c.isDigit = false ∧ c ≠ '.' ∧ c ≠ 'e' ∧ c ≠ 'E') : Ends (c :: r) := by
  intro d hd
  rw [List.head?_cons, Option.some.injEq] at hd
  exact hd ▸ h

/-- The first character of a number. -/
theorem number_head {t : Str} (h : FloatText t ∨ ∃ i, t = writeInt i) : ∃ c r, t = c :: r ∧ (c = '-' ∨ c.isDigit = true) := by
  have hint : ∀ n, ∃ c r, Nat.toDigits 10 n = c :: r ∧ c.isDigit = true := by
    intro n
    obtain ⟨d, ds, h⟩ := List.exists_cons_of_ne_nil (Nat.toDigits_ne_nil (n := n) (b := 10))
    exact ⟨d, ds, h, Str.digit_ofNat n d (by unfold Str.ofNat; rw [h]; exact .head _)⟩
  rcases h with ⟨sign, ip, fr, ex, rfl, hs, hip, -⟩ | ⟨i, rfl⟩
  · rcases hs with rfl | rfl
    · rcases hip with rfl | ⟨h1, -, h2⟩
      · exact ⟨'0', _, rfl, .inr (by decide)⟩
      · obtain ⟨d, ds, rfl⟩ := List.exists_cons_of_ne_nil h1
        exact ⟨d, _, rfl, .inr (h2 d (.head _))⟩
    · exact ⟨'-', _, rfl, .inl rfl⟩
  · cases i with
    | ofNat n => obtain ⟨c, r, h, h'⟩ := hint n; exact ⟨c, r, h, .inr h'⟩
    | negSucc n => exact ⟨'-', _, rfl, .inl rfl⟩

theorem scan_number (F : Floats) (n : Nat) {c : Char} {r : Str} (h : c = '-' ∨ c.isDigit = true) :
    scan F (n + 1) (c :: r) = scanNumber F (c :: r) := by
  have hne : c ≠ '"' ∧ c ≠ '{' ∧ c ≠ '[' ∧ c ≠ 'n' ∧ c ≠ 't' ∧ c ≠ 'f' := by
    rcases h with rfl | h
    · decide
    · refine ⟨?_, ?_, ?_, ?_, ?_, ?_⟩ <;> (rintro rfl; exact absurd h (by decide))
  obtain ⟨h1, h2, h3, h4, h5, h6⟩ := hne
  have p : ∀ (x : Char) (l : Str), c ≠ x → List.isPrefixOf (x :: l) (c :: r) = false := by
    intro x l hx
    simp [List.isPrefixOf, Ne.symm hx]
  rw [scan, if_neg h1, if_neg h2, if_neg h3, if_neg, if_neg, if_neg]
  · rw [show "false".toList = 'f' :: "alse".toList by rfl, p _ _ h6]; simp
  · rw [show "true".toList = 't' :: "rue".toList by rfl, p _ _ h5]; simp
  · rw [show "null".toList = 'n' :: "ull".toList by rfl, p _ _ h4]; simp

theorem not_ws_number {c : Char} (h : c = '-' ∨ c.isDigit = true) : isWs c = false ∧ c ≠ ']' := by
  rcases h with rfl | h
  · decide
  · constructor
    · unfold isWs
      have : c ≠ ' ' ∧ c ≠ '\t' ∧ c ≠ '\n' ∧ c ≠ '\r' := by
        refine ⟨?_, ?_, ?_, ?_⟩ <;> (rintro rfl; exact absurd h (by decide))
      simp [this]
    · rintro rfl; exact absurd h (by decide)

/-- The first character of a value. -/
theorem write_head (F : Floats) (j : Json) (hj : Sendable F j) : ∃ c r, write F j = c :: r ∧ isWs c = false ∧ c ≠ ']' := by
  cases j with
  | null => exact ⟨'n', _, rfl, by decide, by decide⟩
  | bool b => cases b; exacts [⟨'f', _, rfl, by decide, by decide⟩, ⟨'t', _, rfl, by decide, by decide⟩]
  | int i =>
    obtain ⟨c, r, h, h'⟩ := number_head (.inr ⟨i, rfl⟩)
    exact ⟨c, r, by rw [write, h], not_ws_number h'⟩
  | float x =>
    rw [Sendable] at hj
    obtain ⟨t, h1, h2, -⟩ := hj
    obtain ⟨c, r, h, h'⟩ := number_head (.inl h2)
    exact ⟨c, r, by rw [write, h1, Option.getD_some, h], not_ws_number h'⟩
  | str s => exact ⟨'"', _, by rw [write, writeStr], by decide, by decide⟩
  | arr l => exact ⟨'[', _, by rw [write], by decide, by decide⟩
  | obj l => exact ⟨'{', _, by rw [write], by decide, by decide⟩

mutual

theorem scan_write (F : Floats) : ∀ (j : Json) (_ : Sendable F j) (n : Nat) (r : Str), (write F j).length < n → Ends r →
    scan F n (write F j ++ r) = .ok (j, r)
  | .null, _, 0, _, h, _ => absurd h (by omega)
  | .null, _, n + 1, r, _, _ => by
    rw [write, show "null".toList ++ r = 'n' :: 'u' :: 'l' :: 'l' :: r from rfl, scan]
    rw [if_neg (by decide), if_neg (by decide), if_neg (by decide), if_pos (by rfl)]
    rfl
  | .bool b, _, 0, _, h, _ => absurd h (by omega)
  | .bool true, _, n + 1, r, _, _ => by
    rw [write, show "true".toList ++ r = 't' :: 'r' :: 'u' :: 'e' :: r from rfl, scan]
    rw [if_neg (by decide), if_neg (by decide), if_neg (by decide), if_neg (by simp), if_pos (by rfl)]
    rfl
  | .bool false, _, n + 1, r, _, _ => by
    rw [write, show "false".toList ++ r = 'f' :: 'a' :: 'l' :: 's' :: 'e' :: r from rfl, scan]
    rw [if_neg (by decide), if_neg (by decide), if_neg (by decide), if_neg (by simp), if_neg (by simp), if_pos (by rfl)]
    rfl
  | .int i, _, 0, _, h, _ => absurd h (by omega)
  | .int i, hj, n + 1, r, _, hr => by
    rw [Sendable] at hj
    rw [write]
    obtain ⟨c, t, h, h'⟩ := number_head (.inr ⟨i, rfl⟩)
    have := scanNumber_int F i hj hr
    rw [h, List.cons_append] at this ⊢
    rw [scan_number F n h', this]
  | .float x, _, 0, _, h, _ => absurd h (by omega)
  | .float x, hj, n + 1, r, _, hr => by
    rw [Sendable] at hj
    obtain ⟨t, h1, h2, h3⟩ := hj
    rw [write, h1, Option.getD_some]
    obtain ⟨c, t', h, h'⟩ := number_head (.inl h2)
    have := scanNumber_float F h2 hr
    rw [h3] at this
    rw [h, List.cons_append] at this ⊢
    rw [scan_number F n h', this]
  | .str s, _, 0, _, h, _ => absurd h (by omega)
  | .str s, _, n + 1, r, _, _ => by
    rw [write, writeStr_append, scan, if_pos rfl, scanStr_text]
    simp only [String.ofList_toList]
  | .arr l, _, 0, _, h, _ => absurd h (by omega)
  | .arr [], _, n + 1, r, _, _ => by
    rw [write, show '[' :: (writeItems F [] ++ [']']) ++ r = '[' :: ']' :: r by rw [writeItems]; rfl, scan]
    rw [if_neg (by decide), if_neg (by decide), if_pos rfl, skip_of (by decide)]
    rfl
  | .arr (v :: vs), hj, n + 1, r, hn, hr => by
    rw [Sendable] at hj
    rw [write] at hn ⊢
    have ih := scanItems_write F v vs hj n r (by simp only [List.length_cons, List.length_append] at hn; omega)
    have hv : Sendable F v := by rw [SendableItems] at hj; exact hj.1
    have hh : ∃ c t, writeItems F (v :: vs) = c :: t ∧ isWs c = false ∧ c ≠ ']' := by
      obtain ⟨c, t, h, h'⟩ := write_head F v hv
      cases vs with
      | nil => exact ⟨c, t, by rw [writeItems, h], h'⟩
      | cons v' vs => exact ⟨c, _, by rw [writeItems, h]; rfl, h'⟩
    obtain ⟨c, t, h1, h2, h3⟩ := hh
    rw [h1] at ih ⊢
    simp only [List.cons_append, List.append_assoc, List.nil_append] at ih ⊢
    rw [scan, if_neg (by decide), if_neg (by decide), if_pos rfl, skip_of h2]
    simp only
    rw [if_neg h3, ih]
  | .obj l, _, 0, _, h, _ => absurd h (by omega)
  | .obj [], _, n + 1, r, _, _ => by
    rw [write, show '{' :: (writeFields F [] ++ ['}']) ++ r = '{' :: '}' :: r by rw [writeFields]; rfl, scan]
    rw [if_neg (by decide), if_pos rfl, skip_of (by decide)]
    rfl
  | .obj ((k, v) :: fs), hj, n + 1, r, hn, hr => by
    rw [Sendable] at hj
    rw [write] at hn ⊢
    have ih := scanFields_write F k v fs hj.2 n r (by simp only [List.length_cons, List.length_append] at hn; omega)
    have hh : ∃ t, writeFields F ((k, v) :: fs) = '"' :: t := by
      cases fs with
      | nil => exact ⟨_, by rw [writeFields, writeStr]; rfl⟩
      | cons x xs => exact ⟨_, by rw [writeFields, writeStr]; rfl⟩
    obtain ⟨t, h1⟩ := hh
    have ih' := ih t h1
    rw [h1]
    simp only [List.cons_append, List.append_assoc, List.nil_append] at ih' ⊢
    rw [scan, if_neg (by decide), if_pos rfl, skip_of (by decide)]
    simp only
    rw [if_neg (by decide), if_pos trivial, ih']
    simp only [dictOf_nodup _ hj.1]

theorem scanItems_write (F : Floats) : ∀ (v : Json) (vs : List Json) (_ : SendableItems F (v :: vs)) (n : Nat) (r : Str),
    (writeItems F (v :: vs)).length + 1 < n → scanItems F n (writeItems F (v :: vs) ++ ']' :: r) = .ok (v :: vs, r)
  | _, _, _, 0, _, h => absurd h (by omega)
  | v, [], hj, n + 1, r, hn => by
    rw [SendableItems] at hj
    rw [writeItems] at hn ⊢
    rw [scanItems, scan_write F v hj.1 n _ (by omega) (.ofHead (by decide))]
    simp only
    rw [skip_of (by decide)]
    rfl
  | v, v' :: vs, hj, n + 1, r, hn => by
    rw [SendableItems] at hj
    rw [writeItems] at hn ⊢
    simp only [List.length_append, List.length_cons] at hn
    rw [List.append_assoc, List.cons_append]
    rw [scanItems, scan_write F v hj.1 n _ (by omega) (.ofHead (by decide))]
    have ih := scanItems_write F v' vs hj.2 n r (by omega)
    have hh : ∃ c t, writeItems F (v' :: vs) = c :: t ∧ isWs c = false := by
      have hv : Sendable F v' := by have := hj.2; rw [SendableItems] at this; exact this.1
      obtain ⟨c, t, h, h', -⟩ := write_head F v' hv
      cases vs with
      | nil => exact ⟨c, t, by rw [writeItems, h], h'⟩
      | cons v'' vs => exact ⟨c, _, by rw [writeItems, h]; rfl, h'⟩
    obtain ⟨c, t, h1, h2⟩ := hh
    rw [h1, List.cons_append] at ih
    simp only
    rw [skip_of (by decide)]
    simp only
    rw [if_neg (by decide), if_pos trivial, h1, List.cons_append, skip_of h2, ih]

theorem scanFields_write (F : Floats) : ∀ (k : String) (v : Json) (fs : List (String × Json)) (_ : SendableFields F ((k, v) :: fs)) (n : Nat)
    (r : Str), (writeFields F ((k, v) :: fs)).length + 1 < n → ∀ t, writeFields F ((k, v) :: fs) = '"' :: t →
    scanFields F n (t ++ '}' :: r) = .ok ((k, v) :: fs, r)
  | _, _, _, _, 0, _, h => absurd h (by omega)
  | k, v, [], hj, n + 1, r, hn => by
    intro t ht
    rw [SendableFields] at hj
    rw [writeFields] at hn ht
    simp only [List.length_append, List.length_cons] at hn
    rw [writeStr_append] at ht
    obtain rfl := (List.cons.inj ht).2
    rw [scanFields, List.append_assoc, scanStr_text]
    simp only [List.cons_append]
    rw [skip_of (by decide)]
    simp only [if_true]
    obtain ⟨c, t, h1, h2, -⟩ := write_head F v hj.1
    have ih := scan_write F v hj.1 n ('}' :: r) (by omega) (.ofHead (by decide))
    rw [h1, List.cons_append] at ih ⊢
    rw [skip_of h2, ih]
    simp only
    rw [skip_of (by decide)]
    simp only [if_true, String.ofList_toList]
  | k, v, (k', v') :: fs, hj, n + 1, r, hn => by
    intro t ht
    rw [SendableFields] at hj
    rw [writeFields] at hn ht
    simp only [List.length_append, List.length_cons] at hn
    rw [writeStr_append] at ht
    obtain rfl := (List.cons.inj ht).2
    rw [scanFields, List.append_assoc, scanStr_text]
    simp only [List.cons_append, List.append_assoc]
    rw [skip_of (by decide)]
    simp only [if_true]
    obtain ⟨c, t, h1, h2, -⟩ := write_head F v hj.1
    have ih := scan_write F v hj.1 n (',' :: (writeFields F ((k', v') :: fs) ++ '}' :: r)) (by omega) (.ofHead (by decide))
    rw [h1, List.cons_append] at ih ⊢
    rw [skip_of h2, ih]
    simp only
    rw [skip_of (by decide)]
    simp only
    have hh : ∃ t, writeFields F ((k', v') :: fs) = '"' :: t := by
      cases fs with
      | nil => exact ⟨_, by rw [writeFields, writeStr]; rfl⟩
      | cons x xs => exact ⟨_, by rw [writeFields, writeStr]; rfl⟩
    obtain ⟨t', h3⟩ := hh
    have ih2 := scanFields_write F k' v' fs hj.2 n r (by omega) t' h3
    rw [if_neg (by decide), if_pos trivial, h3, List.cons_append, skip_of (by decide)]
    simp only [if_true]
    rw [ih2]
    simp only [String.ofList_toList]

end

end Verif.Wire
