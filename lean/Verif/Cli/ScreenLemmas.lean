import Verif.Cli.ScreenSpec
import Verif.Wire.Lemmas
import Verif.Wire.Bytes
import Mathlib.Data.List.TakeWhile

namespace Verif.Cli

open Verif.Py Verif.Wire Verif.Wire.Spec Verif.Cli.Spec

/-! ### Texts -/

theorem hexDigit_mod (n : Nat) : hexDigit n = hexDigit (n % 16) := by unfold hexDigit; rw [Nat.mod_mod]

theorem hex4_text (n : Nat) (h : n < 0x10000) :
    hex4 (hexDigit (n / 4096)) (hexDigit (n / 256)) (hexDigit (n / 16)) (hexDigit n) = some n := by
  have e : ∀ m, hexVal (hexDigit m) = some (m % 16) := fun m => by
    rw [hexDigit_mod]; exact hexVal_hexDigit _ (Nat.mod_lt _ (by omega))
  unfold hex4
  rw [e, e, e, e]
  simp only [Option.some.injEq]
  omega

theorem scanStr_low {a b c d : Char} {u : Nat} (r : Str) (hu : hex4 a b c d = some u) (h : u < 0xd800 ∨ 0xdfff < u) :
    scanStr ('\\' :: 'u' :: a :: b :: c :: d :: r) = consChar (Char.ofNat u) (scanStr r) := by
  conv_lhs => unfold scanStr
  simp only [if_neg (show ¬ '\\' = '"' by decide), if_true, hu]
  rw [if_neg (by omega), if_neg (by omega)]

theorem scanStr_pair {a b c d a' b' c' d' : Char} {u v : Nat} (r : Str) (hu : hex4 a b c d = some u) (hv : hex4 a' b' c' d' = some v)
    (h : 0xd800 ≤ u ∧ u ≤ 0xdbff) (h' : 0xdc00 ≤ v ∧ v ≤ 0xdfff) :
    scanStr ('\\' :: 'u' :: a :: b :: c :: d :: '\\' :: 'u' :: a' :: b' :: c' :: d' :: r) =
      consChar (Char.ofNat (0x10000 + ((u - 0xd800) * 1024 + (v - 0xdc00)))) (scanStr r) := by
  conv_lhs => unfold scanStr
  simp only [if_neg (show ¬ '\\' = '"' by decide), if_true, hu, hv, if_pos h, if_pos h', and_self]

theorem char_bounds (c : Char) : c.toNat < 0xd800 ∨ (0xdfff < c.toNat ∧ c.toNat < 0x110000) := by
  have := c.valid
  unfold UInt32.isValidChar Nat.isValidChar at this
  show c.val.toNat < _ ∨ (_ < c.val.toNat ∧ c.val.toNat < _)
  omega

theorem scanStr_escapeAscii (c : Char) (r : Str) : scanStr (escapeAscii c ++ r) = consChar c (scanStr r) := by
  unfold escapeAscii
  split
  · next h => subst h; exact scanStr_simple r (by decide) (by decide)
  split
  · next h => subst h; exact scanStr_simple r (by decide) (by decide)
  split
  · next h => subst h; exact scanStr_simple r (by decide) (by decide)
  split
  · next h => subst h; exact scanStr_simple r (by decide) (by decide)
  split
  · next h => subst h; exact scanStr_simple r (by decide) (by decide)
  split
  · next h => subst h; exact scanStr_simple r (by decide) (by decide)
  split
  · next h => subst h; exact scanStr_simple r (by decide) (by decide)
  split
  · next h1 h2 _ _ _ _ _ h8 =>
    simp only [List.singleton_append]
    conv_lhs => unfold scanStr
    rw [if_neg h2, if_neg h1, if_neg (by omega)]
  split
  · next h =>
    have hb := char_bounds c
    have := scanStr_low r (hex4_text c.toNat h) (by omega)
    rw [Char.ofNat_toNat] at this
    exact this
  · next h =>
    have hb := char_bounds c
    have := scanStr_pair r (hex4_text (0xd800 + (c.toNat - 0x10000) / 1024) (by omega)) (hex4_text (0xdc00 + (c.toNat - 0x10000) % 1024) (by omega))
      (by omega) (by omega)
    rw [show 0x10000 + ((0xd800 + (c.toNat - 0x10000) / 1024 - 0xd800) * 1024 + (0xdc00 + (c.toNat - 0x10000) % 1024 - 0xdc00)) = c.toNat by omega,
      Char.ofNat_toNat] at this
    exact this

/-- How a style has to write texts. -/
def EscOk (S : Style) : Prop := ∀ c r, scanStr (S.esc c ++ r) = consChar c (scanStr r)

theorem scanStr_quoted {S : Style} (hS : EscOk S) (s : Str) (r : Str) : scanStr (s.flatMap S.esc ++ '"' :: r) = .ok (s, r) := by
  induction s with
  | nil => exact scanStr_quote r
  | cons c s ih =>
    rw [List.flatMap_cons, List.append_assoc, hS, ih]
    rfl

theorem quoted_append (S : Style) (s : String) (r : Str) : quoted S s ++ r = '"' :: (s.toList.flatMap S.esc ++ '"' :: r) := by
  unfold quoted; simp

/-! ### Blanks -/

theorem skip_newline (l : Nat) (r : Str) : skip (newline l ++ r) = skip r := by
  unfold newline skip
  rw [List.cons_append, List.dropWhile_cons, if_pos (by decide)]
  generalize 4 * l = n
  induction n with
  | zero => rfl
  | succ n ih => rw [List.replicate_succ, List.cons_append, List.dropWhile_cons, if_pos (by decide), ih]

theorem ends_newline (l : Nat) (r : Str) : Ends (newline l ++ r) := by
  unfold newline; exact .ofHead (by decide)

/-! ### Values -/

/-- How a style has to write floats. -/
structure FloatOk (F : Floats) (S : Style) (fl : String → Prop) : Prop where
  head : ∀ r, fl r → ∃ c t, S.float r = c :: t ∧ isWs c = false ∧ c ≠ ']'
  scan : ∀ r, fl r → ∀ rest, Ends rest → ∀ n, scan F (n + 1) (S.float r ++ rest) = .ok (.float r, rest)

theorem pretty_head {F : Floats} {S : Style} {fl : String → Prop} (hf : FloatOk F S fl) (l : Nat) (j : Json) (hj : Fine fl j) :
    ∃ c r, pretty S l j = c :: r ∧ isWs c = false ∧ c ≠ ']' := by
  cases j with
  | null => exact ⟨'n', _, by rw [pretty]; rfl, by decide, by decide⟩
  | bool b => cases b; exacts [⟨'f', _, by rw [pretty]; rfl, by decide, by decide⟩, ⟨'t', _, by rw [pretty]; rfl, by decide, by decide⟩]
  | int i =>
    obtain ⟨c, r, h, h'⟩ := number_head (.inr ⟨i, rfl⟩)
    exact ⟨c, r, by rw [pretty, h], not_ws_number h'⟩
  | float x =>
    rw [Fine] at hj
    obtain ⟨c, t, h, h'⟩ := hf.head x hj
    exact ⟨c, t, by rw [pretty, h], h'⟩
  | str s => exact ⟨'"', _, by rw [pretty, quoted], by decide, by decide⟩
  | arr a => cases a; exacts [⟨'[', _, by rw [pretty]; rfl, by decide, by decide⟩, ⟨'[', _, by rw [pretty], by decide, by decide⟩]
  | obj a => cases a; exacts [⟨'{', _, by rw [pretty]; rfl, by decide, by decide⟩, ⟨'{', _, by rw [pretty], by decide, by decide⟩]

theorem prettyItems_head {F : Floats} {S : Style} {fl : String → Prop} (hf : FloatOk F S fl) (l : Nat) (v : Json) (vs : List Json)
    (hj : FineItems fl (v :: vs)) : ∃ c r, prettyItems S l (v :: vs) = c :: r ∧ isWs c = false ∧ c ≠ ']' := by
  rw [FineItems] at hj
  obtain ⟨c, t, h, h'⟩ := pretty_head hf l v hj.1
  cases vs with
  | nil => exact ⟨c, t, by rw [prettyItems, h], h'⟩
  | cons v' vs => exact ⟨c, _, by rw [prettyItems, h]; rfl, h'⟩

theorem prettyFields_head (S : Style) (l : Nat) (k : String) (v : Json) (fs : List (String × Json)) :
    ∃ t, prettyFields S l ((k, v) :: fs) = '"' :: t := by
  cases fs with
  | nil => exact ⟨_, by rw [prettyFields, quoted]; rfl⟩
  | cons x xs => exact ⟨_, by rw [prettyFields, quoted]; rfl⟩

mutual

theorem scan_pretty {F : Floats} {S : Style} {fl : String → Prop} (hS : EscOk S) (hf : FloatOk F S fl) : ∀ (j : Json) (_ : Fine fl j) (l n : Nat)
    (r : Str), (pretty S l j).length < n → Ends r → scan F n (pretty S l j ++ r) = .ok (j, r)
  | .null, _, _, 0, _, h, _ => absurd h (by omega)
  | .null, _, l, n + 1, r, _, _ => by
    rw [pretty, show "null".toList ++ r = 'n' :: 'u' :: 'l' :: 'l' :: r from rfl, scan]
    rw [if_neg (by decide), if_neg (by decide), if_neg (by decide), if_pos (by rfl)]
    rfl
  | .bool b, _, _, 0, _, h, _ => absurd h (by omega)
  | .bool true, _, l, n + 1, r, _, _ => by
    rw [pretty, show "true".toList ++ r = 't' :: 'r' :: 'u' :: 'e' :: r from rfl, scan]
    rw [if_neg (by decide), if_neg (by decide), if_neg (by decide), if_neg (by simp), if_pos (by rfl)]
    rfl
  | .bool false, _, l, n + 1, r, _, _ => by
    rw [pretty, show "false".toList ++ r = 'f' :: 'a' :: 'l' :: 's' :: 'e' :: r from rfl, scan]
    rw [if_neg (by decide), if_neg (by decide), if_neg (by decide), if_neg (by simp), if_neg (by simp), if_pos (by rfl)]
    rfl
  | .int i, _, _, 0, _, h, _ => absurd h (by omega)
  | .int i, hj, l, n + 1, r, _, hr => by
    rw [Fine] at hj
    rw [pretty]
    obtain ⟨c, t, h, h'⟩ := number_head (.inr ⟨i, rfl⟩)
    have := scanNumber_int F i hj hr
    rw [h, List.cons_append] at this ⊢
    rw [scan_number F n h', this]
  | .float x, _, _, 0, _, h, _ => absurd h (by omega)
  | .float x, hj, l, n + 1, r, _, hr => by
    rw [Fine] at hj
    rw [pretty]
    exact hf.scan x hj r hr n
  | .str s, _, _, 0, _, h, _ => absurd h (by omega)
  | .str s, _, l, n + 1, r, _, _ => by
    rw [pretty, quoted_append, scan, if_pos rfl, scanStr_quoted hS]
    simp only [String.ofList_toList]
  | .arr _, _, _, 0, _, h, _ => absurd h (by omega)
  | .arr [], _, l, n + 1, r, _, _ => by
    rw [pretty, show "[]".toList ++ r = '[' :: ']' :: r from rfl, scan]
    rw [if_neg (by decide), if_neg (by decide), if_pos rfl, skip_of (by decide)]
    rfl
  | .arr (v :: vs), hj, l, n + 1, r, hn, hr => by
    rw [Fine] at hj
    rw [pretty] at hn ⊢
    simp only [List.length_cons, List.length_append] at hn
    have ih := scanItems_pretty hS hf v vs hj (l + 1) l n r (by omega)
    obtain ⟨c, t, h1, h2, h3⟩ := prettyItems_head hf (l + 1) v vs hj
    rw [h1] at ih ⊢
    simp only [List.cons_append, List.append_assoc, List.nil_append] at ih ⊢
    rw [scan, if_neg (by decide), if_neg (by decide), if_pos rfl, skip_newline, skip_of h2]
    simp only
    rw [if_neg h3, ih]
  | .obj _, _, _, 0, _, h, _ => absurd h (by omega)
  | .obj [], _, l, n + 1, r, _, _ => by
    rw [pretty, show "{}".toList ++ r = '{' :: '}' :: r from rfl, scan]
    rw [if_neg (by decide), if_pos rfl, skip_of (by decide)]
    rfl
  | .obj ((k, v) :: fs), hj, l, n + 1, r, hn, hr => by
    rw [Fine] at hj
    rw [pretty] at hn ⊢
    simp only [List.length_cons, List.length_append] at hn
    have ih := scanFields_pretty hS hf k v fs hj.2 (l + 1) l n r (by omega)
    obtain ⟨t, h1⟩ := prettyFields_head S (l + 1) k v fs
    have ih' := ih t h1
    rw [h1]
    simp only [List.cons_append, List.append_assoc, List.nil_append] at ih' ⊢
    rw [scan, if_neg (by decide), if_pos rfl, skip_newline, skip_of (by decide)]
    simp only
    rw [if_neg (by decide), if_pos trivial, ih']
    simp only [dictOf_nodup _ hj.1]
termination_by structural _ _ _ n => n

theorem scanItems_pretty {F : Floats} {S : Style} {fl : String → Prop} (hS : EscOk S) (hf : FloatOk F S fl) : ∀ (v : Json) (vs : List Json)
    (_ : FineItems fl (v :: vs)) (l m n : Nat) (r : Str), (prettyItems S l (v :: vs)).length + 1 < n →
    scanItems F n (prettyItems S l (v :: vs) ++ (newline m ++ ']' :: r)) = .ok (v :: vs, r)
  | _, _, _, _, _, 0, _, h => absurd h (by omega)
  | v, [], hj, l, m, n + 1, r, hn => by
    rw [FineItems] at hj
    rw [prettyItems] at hn ⊢
    rw [scanItems, scan_pretty hS hf v hj.1 l n _ (by omega) (ends_newline _ _)]
    simp only
    rw [skip_newline, skip_of (by decide)]
    rfl
  | v, v' :: vs, hj, l, m, n + 1, r, hn => by
    rw [FineItems] at hj
    rw [prettyItems] at hn ⊢
    simp only [List.length_append, List.length_cons] at hn
    rw [List.append_assoc, List.cons_append]
    rw [scanItems, scan_pretty hS hf v hj.1 l n _ (by omega) (.ofHead (by decide))]
    have ih := scanItems_pretty hS hf v' vs hj.2 l m n r (by omega)
    obtain ⟨c, t, h1, h2, -⟩ := prettyItems_head hf l v' vs hj.2
    rw [h1, List.cons_append] at ih
    simp only
    rw [skip_of (by decide)]
    simp only
    rw [if_neg (by decide), if_pos trivial, List.append_assoc, skip_newline, h1, List.cons_append, skip_of h2, ih]
termination_by structural _ _ _ _ _ n => n

theorem scanFields_pretty {F : Floats} {S : Style} {fl : String → Prop} (hS : EscOk S) (hf : FloatOk F S fl) : ∀ (k : String) (v : Json)
    (fs : List (String × Json)) (_ : FineFields fl ((k, v) :: fs)) (l m n : Nat) (r : Str), (prettyFields S l ((k, v) :: fs)).length + 1 < n →
    ∀ t, prettyFields S l ((k, v) :: fs) = '"' :: t → scanFields F n (t ++ (newline m ++ '}' :: r)) = .ok ((k, v) :: fs, r)
  | _, _, _, _, _, _, 0, _, h => absurd h (by omega)
  | k, v, [], hj, l, m, n + 1, r, hn => by
    intro t ht
    rw [FineFields] at hj
    rw [prettyFields] at hn ht
    simp only [List.length_append, List.length_cons] at hn
    rw [quoted_append] at ht
    obtain rfl := (List.cons.inj ht).2
    rw [scanFields, List.append_assoc, List.cons_append, scanStr_quoted hS]
    simp only [List.cons_append]
    rw [skip_of (by decide)]
    simp only [if_true]
    obtain ⟨c, t, h1, h2, -⟩ := pretty_head hf l v hj.1
    have ih := scan_pretty hS hf v hj.1 l n (newline m ++ '}' :: r) (by omega) (ends_newline _ _)
    have hsk : ∀ x : Str, skip (' ' :: x) = skip x := fun x => by unfold skip; rw [List.dropWhile_cons, if_pos (by decide)]
    rw [h1, List.cons_append] at ih ⊢
    rw [hsk, skip_of h2, ih]
    simp only
    rw [skip_newline, skip_of (by decide)]
    simp only [if_true, String.ofList_toList]
  | k, v, (k', v') :: fs, hj, l, m, n + 1, r, hn => by
    intro t ht
    rw [FineFields] at hj
    rw [prettyFields] at hn ht
    simp only [List.length_append, List.length_cons] at hn
    rw [quoted_append] at ht
    obtain rfl := (List.cons.inj ht).2
    rw [scanFields, List.append_assoc, List.cons_append, scanStr_quoted hS]
    simp only [List.cons_append, List.append_assoc]
    rw [skip_of (by decide)]
    simp only [if_true]
    obtain ⟨c, t, h1, h2, -⟩ := pretty_head hf l v hj.1
    have ih := scan_pretty hS hf v hj.1 l n (',' :: (newline l ++ (prettyFields S l ((k', v') :: fs) ++ (newline m ++ '}' :: r)))) (by omega)
      (.ofHead (by decide))
    have hsk : ∀ x : Str, skip (' ' :: x) = skip x := fun x => by unfold skip; rw [List.dropWhile_cons, if_pos (by decide)]
    rw [h1, List.cons_append] at ih ⊢
    rw [hsk, skip_of h2, ih]
    simp only
    rw [skip_of (by decide)]
    simp only
    obtain ⟨t', h3⟩ := prettyFields_head S l k' v' fs
    have ih2 := scanFields_pretty hS hf k' v' fs hj.2 l m n r (by omega) t' h3
    rw [if_neg (by decide), if_pos trivial, skip_newline, h3, List.cons_append, skip_of (by decide)]
    simp only [if_true]
    rw [ih2]
    simp only [String.ofList_toList]
termination_by structural _ _ _ _ _ _ n => n

end

/-! ### The two writers -/

theorem ascii_esc (fl : String → Str) : EscOk ⟨escapeAscii, fl⟩ := scanStr_escapeAscii

theorem model_esc (fl : String → Str) : EscOk ⟨escape, fl⟩ := scanStr_escape

theorem scan_constant (P : Floats) (n : Nat) (r : Str) :
    scan P (n + 1) ("NaN".toList ++ r) = .ok (.float "nan", r) ∧ scan P (n + 1) ("Infinity".toList ++ r) = .ok (.float "inf", r) ∧
    scan P (n + 1) ("-Infinity".toList ++ r) = .ok (.float "-inf", r) := by
  refine ⟨?_, ?_, ?_⟩
  · rw [show "NaN".toList ++ r = 'N' :: 'a' :: 'N' :: r from rfl, scan]
    rw [if_neg (by decide), if_neg (by decide), if_neg (by decide), if_neg (by simp), if_neg (by simp), if_neg (by simp)]
    rfl
  · rw [show "Infinity".toList ++ r = 'I' :: 'n' :: 'f' :: 'i' :: 'n' :: 'i' :: 't' :: 'y' :: r from rfl, scan]
    rw [if_neg (by decide), if_neg (by decide), if_neg (by decide), if_neg (by simp), if_neg (by simp), if_neg (by simp)]
    rfl
  · rw [show "-Infinity".toList ++ r = '-' :: 'I' :: 'n' :: 'f' :: 'i' :: 'n' :: 'i' :: 't' :: 'y' :: r from rfl, scan]
    rw [if_neg (by decide), if_neg (by decide), if_neg (by decide), if_neg (by simp), if_neg (by simp), if_neg (by simp)]
    rfl

theorem ascii_float (P : Floats) : FloatOk P ⟨escapeAscii, floatText P⟩ (FloatFine P) := by
  constructor
  · rintro r (⟨t, h1, h2, -⟩ | ⟨h1, h2⟩)
    · obtain ⟨c, t', h, h'⟩ := number_head (.inl h2)
      exact ⟨c, t', by simp only [floatText, h1, h], not_ws_number h'⟩
    · rcases h2 with rfl | rfl | rfl
      · exact ⟨'N', _, by simp only [floatText, h1]; rfl, by decide, by decide⟩
      · exact ⟨'I', _, by simp only [floatText, h1]; rfl, by decide, by decide⟩
      · exact ⟨'-', _, by simp only [floatText, h1]; rfl, by decide, by decide⟩
  · rintro r (⟨t, h1, h2, h3⟩ | ⟨h1, h2⟩) rest hr n
    · obtain ⟨c, t', h, h'⟩ := number_head (.inl h2)
      have := scanNumber_float P h2 hr
      simp only [floatText, h1]
      rw [h3] at this
      rw [h, List.cons_append] at this ⊢
      rw [scan_number P n h', this]
    · obtain ⟨e1, e2, e3⟩ := scan_constant P n rest
      rcases h2 with rfl | rfl | rfl
      · simp only [floatText, h1]; exact e1
      · simp only [floatText, h1]; exact e2
      · simp only [floatText, h1]; exact e3

theorem no_float (P : Floats) (S : Style) : FloatOk P S fun _ => False := ⟨fun _ h => h.elim, fun _ h => h.elim⟩

theorem scan_dumps (P : Floats) (j : Json) (hj : Printable P j) (n : Nat) (r : Str) (hn : (dumps P j).length < n) (hr : Ends r) :
    scan P n (dumps P j ++ r) = .ok (j, r) := scan_pretty (ascii_esc _) (ascii_float P) j hj 0 n r hn hr

theorem scan_dumpModel (P : Floats) (j : Json) (hj : Fine (fun _ => False) j) (n : Nat) (r : Str) (hn : (dumpModel P j).length < n) (hr : Ends r) :
    scan P n (dumpModel P j ++ r) = .ok (j, r) := scan_pretty (model_esc _) (no_float P _) j hj 0 n r hn hr

/-- A text that begins with a value and goes on with blanks reads as the value. -/
theorem loads_of_scan {P : Floats} {s t : Str} {j : Json} (hs : ∃ c r, s = c :: r ∧ isWs c = false ∧ c ≠ '﻿')
    (h : ∀ n r, s.length < n → Ends r → scan P n (s ++ r) = .ok (j, r)) (ht : ∀ c ∈ t, isWs c = true) : loads P (s ++ t) = .ok j := by
  obtain ⟨c, r, e, h1, h2⟩ := hs
  have hsk : skip t = [] := by unfold skip; exact List.dropWhile_eq_nil_iff.mpr ht
  have hend : Ends t := by
    intro x hx
    cases t with
    | nil => cases hx
    | cons y t =>
      rw [List.head?_cons, Option.some.injEq] at hx
      subst hx
      have := ht y (.head _)
      unfold isWs at this
      simp only [Bool.or_eq_true, decide_eq_true_eq] at this
      rcases this with ((rfl | rfl) | rfl) | rfl <;> decide
  unfold loads
  rw [if_neg (by rw [e]; simpa using h2), show skip (s ++ t) = s ++ t by rw [e, List.cons_append, skip_of h1],
    h _ _ (by rw [List.length_append]; omega) hend]
  simp only
  rw [if_pos hsk]

theorem head_not_bom {c : Char} (h : c = '-' ∨ c.isDigit = true) : c ≠ '﻿' := by
  rcases h with rfl | h
  · decide
  · rintro rfl; exact absurd h (by decide)

theorem number_not_bom {t : Str} (h : FloatText t ∨ ∃ i, t = writeInt i) : ∃ c r, t = c :: r ∧ c ≠ '﻿' := by
  obtain ⟨c, r, e, h'⟩ := number_head h
  exact ⟨c, r, e, head_not_bom h'⟩

/-! ### Lines -/

theorem split_newline (a b : Str) : Str.split '\n' (a ++ '\n' :: b) = Str.split '\n' a ++ Str.split '\n' b := by
  induction a with
  | nil => simp [Str.split]
  | cons x xs ih =>
    by_cases h : x = '\n'
    · subst h; simp [Str.split, ih]
    · simp only [List.cons_append, Str.split, if_neg h, ih]
      cases hs : Str.split '\n' xs with
      | nil => exact absurd hs (by cases xs with | nil => simp [Str.split] | cons y ys => unfold Str.split; split <;> [simp; (split <;> simp)])
      | cons w ws => rfl

theorem split_ne (s : Str) : Str.split '\n' s ≠ [] := by
  cases s with
  | nil => simp [Str.split]
  | cons x xs => unfold Str.split; split <;> [simp; (split <;> simp)]

/-- Joining the lines again. -/
def unlines : List Str → Str
  | [] => []
  | [x] => x
  | x :: y :: rest => x ++ '\n' :: unlines (y :: rest)

theorem unlines_split (s : Str) : unlines (Str.split '\n' s) = s := by
  induction s with
  | nil => rfl
  | cons x xs ih =>
    unfold Str.split
    split
    · next h =>
      subst h
      cases hs : Str.split '\n' xs with
      | nil => exact absurd hs (split_ne xs)
      | cons w ws => rw [hs] at ih; simp only [unlines, List.nil_append, ih]
    · cases hs : Str.split '\n' xs with
      | nil => exact absurd hs (split_ne xs)
      | cons w ws =>
        rw [hs] at ih
        cases ws with
        | nil => simp only [unlines] at ih ⊢; rw [ih]
        | cons w' ws => simp only [unlines] at ih ⊢; rw [List.cons_append, ih]

theorem split_inj {a b : Str} (h : Str.split '\n' a = Str.split '\n' b) : a = b := by
  rw [← unlines_split a, h, unlines_split]

/-- Every line feed is followed by a blank or a closing bracket. -/
def Tame (s : Str) : Prop := ∀ a b, s = a ++ '\n' :: b → ∃ c t, b = c :: t ∧ (c = ' ' ∨ c = ']' ∨ c = '}')

theorem Tame.of_free {s : Str} (h : '\n' ∉ s) : Tame s := by
  intro a b e
  exact absurd (by rw [e]; simp) h

theorem Tame.append {s t : Str} (hs : Tame s) (ht : Tame t) : Tame (s ++ t) := by
  intro a b e
  rcases List.append_eq_append_iff.1 e with ⟨x, rfl, h⟩ | ⟨x, h1, h2⟩
  · exact ht x b h
  · cases x with
    | nil =>
      rw [List.nil_append] at h2
      exact ht [] b (by rw [List.nil_append]; exact h2.symm)
    | cons y x =>
      obtain ⟨rfl, rfl⟩ := List.cons.inj h2
      obtain ⟨c, t', rfl, hc⟩ := hs a x h1
      exact ⟨c, t' ++ t, rfl, hc⟩

theorem Tame.cons {c : Char} {s : Str} (hc : c ≠ '\n') (hs : Tame s) : Tame (c :: s) :=
  Tame.append (s := [c]) (.of_free (by simpa using Ne.symm hc)) hs

theorem replicate_free (n : Nat) : '\n' ∉ List.replicate n ' ' := by
  rw [List.mem_replicate]; rintro ⟨-, h⟩; exact absurd h (by decide)

theorem tame_newline (l : Nat) : Tame (newline (l + 1)) := by
  intro a b e
  unfold newline at e
  cases a with
  | nil =>
    rw [List.nil_append] at e
    obtain ⟨-, rfl⟩ := List.cons.inj e
    exact ⟨' ', List.replicate (4 * l + 3) ' ', by rw [show 4 * (l + 1) = 4 * l + 3 + 1 by omega, List.replicate_succ], .inl rfl⟩
  | cons x a =>
    obtain ⟨-, h⟩ := List.cons.inj e
    exact absurd (by rw [h]; simp) (replicate_free (4 * (l + 1)))

theorem tame_close (l : Nat) (c : Char) (hc : c = ']' ∨ c = '}') : Tame (newline l ++ [c]) := by
  cases l with
  | succ l => exact (tame_newline l).append (.of_free (by rcases hc with rfl | rfl <;> simp))
  | zero =>
    intro a b e
    unfold newline at e
    simp only [Nat.mul_zero, List.replicate_zero, List.cons_append, List.nil_append] at e
    cases a with
    | nil =>
      rw [List.nil_append] at e
      obtain ⟨-, rfl⟩ := List.cons.inj e
      exact ⟨c, [], rfl, .inr hc⟩
    | cons x a =>
      obtain ⟨-, h⟩ := List.cons.inj e
      cases a with
      | nil => obtain ⟨rfl, -⟩ := List.cons.inj h; rcases hc with hc | hc <;> exact absurd hc (by decide)
      | cons y a => simp at h

/-- A style whose texts contain no line feed. -/
structure Flat (S : Style) (fl : String → Prop) : Prop where
  esc : ∀ c, '\n' ∉ S.esc c
  float : ∀ r, fl r → '\n' ∉ S.float r

theorem quoted_free {S : Style} {fl : String → Prop} (hS : Flat S fl) (s : String) : '\n' ∉ quoted S s := by
  unfold quoted
  simp only [List.mem_cons, List.mem_append, List.mem_flatMap, List.not_mem_nil, or_false, not_or, not_exists, not_and]
  exact ⟨by decide, fun c _ => hS.esc c, by decide⟩

theorem ofNat_free (n : Nat) : '\n' ∉ Str.ofNat n := fun h => absurd (Str.digit_ofNat n _ h) (by decide)

theorem writeInt_free (i : Int) : '\n' ∉ writeInt i := by
  cases i with
  | ofNat n => exact ofNat_free n
  | negSucc n =>
    unfold writeInt
    rw [List.mem_cons, not_or]
    exact ⟨by decide, ofNat_free _⟩

mutual

theorem tame_pretty {S : Style} {fl : String → Prop} (hS : Flat S fl) : ∀ (j : Json), Fine fl j → ∀ l, Tame (pretty S l j)
  | .null, _, l => by rw [pretty]; exact .of_free (by decide)
  | .bool true, _, l => by rw [pretty]; exact .of_free (by decide)
  | .bool false, _, l => by rw [pretty]; exact .of_free (by decide)
  | .int i, _, l => by rw [pretty]; exact .of_free (writeInt_free i)
  | .float r, h, l => by rw [pretty]; rw [Fine] at h; exact .of_free (hS.float r h)
  | .str s, _, l => by rw [pretty]; exact .of_free (quoted_free hS s)
  | .arr [], _, l => by rw [pretty]; exact .of_free (by decide)
  | .arr (v :: vs), h, l => by
    rw [pretty]; rw [Fine] at h
    exact .cons (by decide) ((tame_newline l).append ((tame_prettyItems hS (v :: vs) h l).append (tame_close l _ (.inl rfl))))
  | .obj [], _, l => by rw [pretty]; exact .of_free (by decide)
  | .obj ((k, v) :: fs), h, l => by
    rw [pretty]; rw [Fine] at h
    exact .cons (by decide) ((tame_newline l).append ((tame_prettyFields hS ((k, v) :: fs) h.2 l).append (tame_close l _ (.inr rfl))))

theorem tame_prettyItems {S : Style} {fl : String → Prop} (hS : Flat S fl) : ∀ (vs : List Json), FineItems fl vs → ∀ l,
    Tame (prettyItems S (l + 1) vs)
  | [], _, l => by rw [prettyItems]; exact .of_free (by simp)
  | [v], h, l => by rw [prettyItems]; rw [FineItems] at h; exact tame_pretty hS v h.1 _
  | v :: v' :: vs, h, l => by
    rw [prettyItems]; rw [FineItems] at h
    exact (tame_pretty hS v h.1 _).append (.cons (by decide) ((tame_newline l).append (tame_prettyItems hS (v' :: vs) h.2 l)))

theorem tame_prettyFields {S : Style} {fl : String → Prop} (hS : Flat S fl) : ∀ (fs : List (String × Json)), FineFields fl fs → ∀ l,
    Tame (prettyFields S (l + 1) fs)
  | [], _, l => by rw [prettyFields]; exact .of_free (by simp)
  | [(k, v)], h, l => by
    rw [prettyFields]; rw [FineFields] at h
    exact (Tame.of_free (quoted_free hS k)).append (.cons (by decide) (.cons (by decide) (tame_pretty hS v h.1 _)))
  | (k, v) :: x :: xs, h, l => by
    rw [prettyFields]; rw [FineFields] at h
    exact (Tame.of_free (quoted_free hS k)).append (.cons (by decide) (.cons (by decide) ((tame_pretty hS v h.1 _).append
      (.cons (by decide) ((tame_newline l).append (tame_prettyFields hS (x :: xs) h.2 l))))))

end

/-! ### Which characters are written -/

section Chars

variable {p : Char → Prop} {S : Style} {fl : String → Prop}

theorem all_quoted (hq : p '"') (he : ∀ c, ∀ x ∈ S.esc c, p x) (s : String) : ∀ x ∈ quoted S s, p x := by
  intro x hx
  unfold quoted at hx
  rcases List.mem_cons.1 hx with rfl | hx
  · exact hq
  rcases List.mem_append.1 hx with hx | hx
  · obtain ⟨c, -, hc⟩ := List.mem_flatMap.1 hx
    exact he c x hc
  · rw [List.mem_singleton.1 hx]; exact hq

theorem all_newline (hn : p '\n') (hb : p ' ') (l : Nat) : ∀ x ∈ newline l, p x := by
  intro x hx
  rcases List.mem_cons.1 hx with rfl | hx
  · exact hn
  · rw [(List.mem_replicate.1 hx).2]; exact hb

theorem all_append {a b : Str} (ha : ∀ x ∈ a, p x) (hb : ∀ x ∈ b, p x) : ∀ x ∈ a ++ b, p x :=
  fun x hx => (List.mem_append.1 hx).elim (ha x) (hb x)

theorem all_cons {c : Char} {b : Str} (hc : p c) (hb : ∀ x ∈ b, p x) : ∀ x ∈ c :: b, p x := fun x hx => by
  rcases List.mem_cons.1 hx with rfl | hx
  · exact hc
  · exact hb x hx

theorem all_nil : ∀ x ∈ ([] : Str), p x := fun _ h => absurd h (by simp)

mutual

theorem all_pretty (hp : ∀ c : Char, (c = '\n' ∨ (32 ≤ c.toNat ∧ c.toNat ≤ 126)) → p c) (he : ∀ c, ∀ x ∈ S.esc c, p x)
    (hf : ∀ r, fl r → ∀ x ∈ S.float r, p x) : ∀ (j : Json), Fine fl j → ∀ l, ∀ x ∈ pretty S l j, p x
  | .null, _, l => by rw [pretty]; intro x hx; exact hp x (.inr (by revert x; decide))
  | .bool true, _, l => by rw [pretty]; intro x hx; exact hp x (.inr (by revert x; decide))
  | .bool false, _, l => by rw [pretty]; intro x hx; exact hp x (.inr (by revert x; decide))
  | .int i, _, l => by
    rw [pretty]
    have hd : ∀ n, ∀ x ∈ Str.ofNat n, p x := fun n x hx => by
      have := Str.digit_ofNat n x hx
      simp only [Char.isDigit, Bool.and_eq_true, decide_eq_true_eq] at this
      refine hp x (.inr ⟨?_, ?_⟩)
      · have : (48 : UInt32) ≤ x.val := this.1
        have := UInt32.le_iff_toNat_le.1 this
        exact Nat.le_trans (by decide) this
      · have : x.val ≤ (57 : UInt32) := this.2
        have := UInt32.le_iff_toNat_le.1 this
        exact Nat.le_trans this (by decide)
    cases i with
    | ofNat n => exact hd n
    | negSucc n => exact all_cons (hp _ (.inr (by decide))) (hd _)
  | .float r, h, l => by rw [pretty]; rw [Fine] at h; exact hf r h
  | .str s, _, l => by rw [pretty]; exact all_quoted (hp _ (.inr (by decide))) he s
  | .arr [], _, l => by rw [pretty]; intro x hx; exact hp x (.inr (by revert x; decide))
  | .arr (v :: vs), h, l => by
    rw [pretty]; rw [Fine] at h
    exact all_cons (hp _ (.inr (by decide))) (all_append (all_newline (hp _ (.inl rfl)) (hp _ (.inr (by decide))) _)
      (all_append (all_prettyItems hp he hf (v :: vs) h (l + 1)) (all_append (all_newline (hp _ (.inl rfl)) (hp _ (.inr (by decide))) _)
        (all_cons (hp _ (.inr (by decide))) all_nil))))
  | .obj [], _, l => by rw [pretty]; intro x hx; exact hp x (.inr (by revert x; decide))
  | .obj ((k, v) :: fs), h, l => by
    rw [pretty]; rw [Fine] at h
    exact all_cons (hp _ (.inr (by decide))) (all_append (all_newline (hp _ (.inl rfl)) (hp _ (.inr (by decide))) _)
      (all_append (all_prettyFields hp he hf ((k, v) :: fs) h.2 (l + 1)) (all_append (all_newline (hp _ (.inl rfl)) (hp _ (.inr (by decide))) _)
        (all_cons (hp _ (.inr (by decide))) all_nil))))

theorem all_prettyItems (hp : ∀ c : Char, (c = '\n' ∨ (32 ≤ c.toNat ∧ c.toNat ≤ 126)) → p c) (he : ∀ c, ∀ x ∈ S.esc c, p x)
    (hf : ∀ r, fl r → ∀ x ∈ S.float r, p x) : ∀ (vs : List Json), FineItems fl vs → ∀ l, ∀ x ∈ prettyItems S l vs, p x
  | [], _, l => by rw [prettyItems]; exact all_nil
  | [v], h, l => by rw [prettyItems]; rw [FineItems] at h; exact all_pretty hp he hf v h.1 l
  | v :: v' :: vs, h, l => by
    rw [prettyItems]; rw [FineItems] at h
    exact all_append (all_pretty hp he hf v h.1 l) (all_cons (hp _ (.inr (by decide)))
      (all_append (all_newline (hp _ (.inl rfl)) (hp _ (.inr (by decide))) _) (all_prettyItems hp he hf (v' :: vs) h.2 l)))

theorem all_prettyFields (hp : ∀ c : Char, (c = '\n' ∨ (32 ≤ c.toNat ∧ c.toNat ≤ 126)) → p c) (he : ∀ c, ∀ x ∈ S.esc c, p x)
    (hf : ∀ r, fl r → ∀ x ∈ S.float r, p x) : ∀ (fs : List (String × Json)), FineFields fl fs → ∀ l, ∀ x ∈ prettyFields S l fs, p x
  | [], _, l => by rw [prettyFields]; exact all_nil
  | [(k, v)], h, l => by
    rw [prettyFields]; rw [FineFields] at h
    exact all_append (all_quoted (hp _ (.inr (by decide))) he k) (all_cons (hp _ (.inr (by decide))) (all_cons (hp _ (.inr (by decide)))
      (all_pretty hp he hf v h.1 l)))
  | (k, v) :: x :: xs, h, l => by
    rw [prettyFields]; rw [FineFields] at h
    exact all_append (all_quoted (hp _ (.inr (by decide))) he k) (all_cons (hp _ (.inr (by decide))) (all_cons (hp _ (.inr (by decide)))
      (all_append (all_pretty hp he hf v h.1 l) (all_cons (hp _ (.inr (by decide)))
        (all_append (all_newline (hp _ (.inl rfl)) (hp _ (.inr (by decide))) _) (all_prettyFields hp he hf (x :: xs) h.2 l))))))

end

end Chars

theorem digit_plain {c : Char} (h : c.isDigit = true) : 32 ≤ c.toNat ∧ c.toNat ≤ 126 := by
  simp only [Char.isDigit, Bool.and_eq_true, decide_eq_true_eq] at h
  constructor
  · have : (48 : UInt32) ≤ c.val := h.1
    exact Nat.le_trans (by decide) (UInt32.le_iff_toNat_le.1 this)
  · have : c.val ≤ (57 : UInt32) := h.2
    exact Nat.le_trans (UInt32.le_iff_toNat_le.1 this) (by decide)

theorem hexDigit_plain (n : Nat) : 32 ≤ (hexDigit n).toNat ∧ (hexDigit n).toNat ≤ 126 := by
  rw [hexDigit_mod]
  have : n % 16 < 16 := Nat.mod_lt _ (by decide)
  generalize n % 16 = m at this ⊢
  revert m
  decide

theorem escapeAscii_plain (c : Char) : ∀ x ∈ escapeAscii c, 32 ≤ x.toNat ∧ x.toNat ≤ 126 := by
  intro x hx
  have h4 : ∀ n, ∀ x ∈ hex4Text n, 32 ≤ x.toNat ∧ x.toNat ≤ 126 := by
    intro n x hx
    unfold hex4Text at hx
    simp only [List.mem_cons, List.not_mem_nil, or_false] at hx
    rcases hx with rfl | rfl | rfl | rfl <;> exact hexDigit_plain _
  unfold escapeAscii at hx
  repeat' split at hx
  all_goals try (simp only [List.mem_cons, List.not_mem_nil, or_false] at hx; rcases hx with rfl | rfl <;> decide)
  · next h => rw [List.mem_singleton.1 hx]; exact h
  · rcases List.mem_cons.1 hx with rfl | hx
    · decide
    rcases List.mem_cons.1 hx with rfl | hx
    · decide
    exact h4 _ x hx
  · rcases List.mem_cons.1 hx with rfl | hx
    · decide
    rcases List.mem_cons.1 hx with rfl | hx
    · decide
    rcases List.mem_append.1 hx with hx | hx
    · exact h4 _ x hx
    rcases List.mem_cons.1 hx with rfl | hx
    · decide
    rcases List.mem_cons.1 hx with rfl | hx
    · decide
    exact h4 _ x hx

theorem floatText_plain {t : Str} (h : FloatText t) : ∀ c ∈ t, 32 ≤ c.toNat ∧ c.toNat ≤ 126 := by
  obtain ⟨sign, ip, fr, ex, rfl, hs, hip, hfr, hex, -⟩ := h
  refine all_append (all_append (all_append ?_ ?_) ?_) ?_
  · rcases hs with rfl | rfl
    · exact all_nil
    · decide
  · rcases hip with rfl | ⟨-, -, h⟩
    · decide
    · exact fun c hc => digit_plain (h c hc)
  · rcases hfr with rfl | ⟨ds, rfl, -, h⟩
    · exact all_nil
    · exact all_cons (by decide) fun c hc => digit_plain (h c hc)
  · rcases hex with rfl | ⟨e, s, ds, rfl, he, hs, -, h⟩
    · exact all_nil
    · refine all_cons (by rcases he with rfl | rfl <;> decide) (all_append ?_ fun c hc => digit_plain (h c hc))
      rcases hs with rfl | rfl | rfl
      · exact all_nil
      · decide
      · decide

theorem floatFine_plain {P : Floats} {r : String} (h : FloatFine P r) : ∀ c ∈ floatText P r, 32 ≤ c.toNat ∧ c.toNat ≤ 126 := by
  rcases h with ⟨t, h1, h2, -⟩ | ⟨h1, h2⟩
  · simp only [floatText, h1]; exact floatText_plain h2
  · rcases h2 with rfl | rfl | rfl <;> simp only [floatText, h1] <;> decide

theorem dumps_plain (P : Floats) (j : Json) (hj : Printable P j) : ∀ c ∈ dumps P j, c = '\n' ∨ (32 ≤ c.toNat ∧ c.toNat ≤ 126) :=
  all_pretty (fun _ h => h) (fun c x hx => .inr (escapeAscii_plain c x hx)) (fun _ hr x hx => .inr (floatFine_plain hr x hx)) j hj 0

theorem plain_free {s : Str} (h : ∀ c ∈ s, 32 ≤ c.toNat ∧ c.toNat ≤ 126) : '\n' ∉ s := fun hm => absurd (h _ hm).1 (by decide)

theorem ascii_flat (P : Floats) : Flat ⟨escapeAscii, floatText P⟩ (FloatFine P) :=
  ⟨fun c => plain_free (escapeAscii_plain c), fun _ h => plain_free (floatFine_plain h)⟩

theorem escape_free (c : Char) : '\n' ∉ escape c := fun h => absurd (escape_printable c _ h) (by decide)

theorem model_flat (f : String → Str) : Flat ⟨escape, f⟩ fun _ => False := ⟨escape_free, fun _ h => h.elim⟩

/-! ### Lines of values -/

theorem split_parts (s : Str) : ∃ w ws, Str.split '\n' s = w :: ws ∧ (∃ b, s = w ++ b) ∧ ∀ v ∈ ws, ∃ a b, s = a ++ '\n' :: (v ++ b) := by
  induction s with
  | nil => exact ⟨[], [], rfl, ⟨[], rfl⟩, fun _ h => absurd h (by simp)⟩
  | cons x xs ih =>
    obtain ⟨w, ws, e, ⟨b, hb⟩, h⟩ := ih
    by_cases hx : x = '\n'
    · subst hx
      refine ⟨[], w :: ws, by rw [Str.split, if_pos rfl, e], ⟨'\n' :: xs, rfl⟩, ?_⟩
      intro v hv
      rcases List.mem_cons.1 hv with rfl | hv
      · exact ⟨[], b, by rw [hb]; rfl⟩
      · obtain ⟨a, b, h⟩ := h v hv
        exact ⟨'\n' :: a, b, by rw [h]; rfl⟩
    · refine ⟨x :: w, ws, by rw [Str.split, if_neg hx, e], ⟨b, by rw [hb]; rfl⟩, ?_⟩
      intro v hv
      obtain ⟨a, b, h⟩ := h v hv
      exact ⟨x :: a, b, by rw [h]; rfl⟩

theorem rule_dash : rule '-' = '-' :: '-' :: List.replicate 78 '-' := rfl

theorem scan_dashes (P : Floats) (n : Nat) (r : Str) (j : Json) (r' : Str) : scan P (n + 1) ('-' :: '-' :: r) ≠ .ok (j, r') := by
  rw [scan, if_neg (by decide), if_neg (by decide), if_neg (by decide), if_neg (by simp), if_neg (by simp), if_neg (by simp)]
  have hu : unsigned P true ('-' :: r) = none := by
    unfold unsigned
    rw [show whole ('-' :: r) = none by rw [whole, if_neg (by decide), if_neg (by decide)]]
  rw [scanNumber, if_pos rfl, hu, Option.getD_none, scanConstant]
  rw [if_neg (by simp), if_neg (by simp), if_neg (by simp)]
  exact fun h => by cases h

theorem lines_value {P : Floats} {s : Str} {j : Json} (ht : Tame s) (h : scan P (s.length + 1) (s ++ []) = .ok (j, [])) :
    rule '-' ∉ Str.split '\n' s := by
  intro hm
  obtain ⟨w, ws, e, ⟨b, hb⟩, hws⟩ := split_parts s
  rw [e] at hm
  rcases List.mem_cons.1 hm with h1 | h1
  · rw [← h1, rule_dash] at hb
    rw [List.append_nil] at h
    have : scan P (s.length + 1) ('-' :: '-' :: (List.replicate 78 '-' ++ b)) = .ok (j, []) := by rw [← h]; congr 1; exact hb.symm
    exact scan_dashes P _ _ _ _ this
  · obtain ⟨a, b, hab⟩ := hws _ h1
    obtain ⟨c, t, h2, h3⟩ := ht _ _ hab
    rw [rule_dash] at h2
    have : c = '-' := (List.cons.inj h2).1.symm
    subst this
    rcases h3 with h3 | h3 | h3 <;> exact absurd h3 (by decide)

theorem ends_nil : Ends [] := fun _ h => by cases h

theorem lines_dumps (P : Floats) (j : Json) (hj : Printable P j) : rule '-' ∉ Str.split '\n' (dumps P j) :=
  lines_value (tame_pretty (ascii_flat P) j hj 0) (scan_dumps P j hj _ [] (by omega) ends_nil)

theorem lines_dumpModel (P : Floats) (j : Json) (hj : Fine (fun _ => False) j) : rule '-' ∉ Str.split '\n' (dumpModel P j) :=
  lines_value (tame_pretty (model_flat _) j hj 0) (scan_dumpModel P j hj _ [] (by omega) ends_nil)

theorem once {α : Type} {x : α} {a b c d : List α} (h : a ++ x :: b = c ++ x :: d) (hc : x ∉ c) (hd : x ∉ d) : a = c ∧ b = d := by
  rcases List.append_eq_append_iff.1 h with ⟨z, h1, h2⟩ | ⟨z, h1, h2⟩
  · cases z with
    | nil => simp at h1 h2; exact ⟨h1.symm, h2⟩
    | cons y z =>
      obtain ⟨rfl, -⟩ := List.cons.inj h2
      exact absurd (by rw [h1]; simp) hc
  · cases z with
    | nil => simp at h1 h2; exact ⟨h1, h2.symm⟩
    | cons y z =>
      obtain ⟨-, h2⟩ := List.cons.inj h2
      exact absurd (by rw [h2]; simp) hd

/-! ### The parts of the screen -/

theorem fine_keys (fl : String → Prop) (ks : List String) : FineItems fl (ks.map .str) := by
  induction ks with
  | nil => simp [FineItems]
  | cons k ks ih => rw [List.map_cons, FineItems]; exact ⟨by simp [Fine], ih⟩

theorem fine_data (fl : String → Prop) {d : QueueData} (h : Sized d) : Fine fl d.json := by
  cases d with
  | endpoint r a b p e =>
    simp only [QueueData.json, sizesJson, Fine, FineFields]
    refine ⟨?_, trivial, trivial, trivial, ⟨?_, h.1, h.2, trivial⟩, trivial⟩
    · show List.Nodup ["route_key", "receiving_paused", "processing_paused", "database_sizes"]
      decide
    · show List.Nodup ["pending", "error"]
      decide
  | sender r a p e =>
    simp only [QueueData.json, sizesJson, Fine, FineFields]
    refine ⟨?_, trivial, trivial, ⟨?_, h.1, h.2, trivial⟩, trivial⟩
    · show List.Nodup ["route_key", "send_process_paused", "database_sizes"]
      decide
    · show List.Nodup ["pending", "error"]
      decide
  | keys ks => rw [QueueData.json, Fine]; exact fine_keys fl ks

theorem readKeys_map (ks : List String) : readKeys (ks.map .str) = some ks := by
  induction ks with
  | nil => rfl
  | cons k ks ih => rw [List.map_cons, readKeys, ih]; rfl

theorem read_json (d : QueueData) : readQueueData d.json = some (some d) := by
  cases d with
  | endpoint r a b p e => rfl
  | sender r a p e => rfl
  | keys ks => rw [QueueData.json, readQueueData, readKeys_map]; rfl

theorem json_inj {d d' : QueueData} (h : d.json = d'.json) : d = d' := by
  have := read_json d
  rw [h, read_json] at this
  exact (Option.some.inj (Option.some.inj this)).symm

theorem truthy_iff (j : Json) : Json.truthy j = false ↔ Nothing j := by
  unfold Nothing
  cases j with
  | null => simp [Json.truthy]
  | bool b => cases b <;> simp [Json.truthy]
  | int i => simp [Json.truthy]
  | float r =>
    simp only [Json.truthy, Bool.and_eq_false_iff, decide_eq_false_iff_not, not_not, reduceCtorEq, Json.float.injEq, false_or, or_false]
  | str s => simp [Json.truthy]
  | arr l => cases l <;> simp [Json.truthy]
  | obj l => cases l <;> simp [Json.truthy]

/-- The data of a queue as it is printed, with its heading. -/
def QueueData.heading : QueueData → String
  | .keys _ => "First 10 error span-keys:"
  | _ => "Queue information:"

theorem heading_cases (d : QueueData) : d.heading = "First 10 error span-keys:" ∨ d.heading = "Queue information:" := by
  cases d <;> simp [QueueData.heading]

def QueueData.shown (P : Floats) : QueueData → Str
  | .keys ks => dumps P (QueueData.json (.keys ks))
  | d => dumpModel P d.json

theorem queuePart_some (P : Floats) (d : QueueData) : queuePart P (some d) = d.heading.toList ++ '\n' :: (d.shown P ++ ['\n']) := by
  cases d <;> simp [queuePart, printed, QueueData.heading, QueueData.shown]

theorem requestPart_some (P : Floats) {d : Json} (h : Json.truthy d = true) :
    requestPart P d = rule '-' ++ '\n' :: ("Request information:".toList ++ '\n' :: (dumps P d ++ ['\n'])) := by
  rw [requestPart, if_pos h]; simp [printed]

theorem requestPart_none (P : Floats) {d : Json} (h : Json.truthy d = false) : requestPart P d = [] := by
  rw [requestPart, if_neg (by rw [h]; decide)]

theorem scan_shown (P : Floats) {d : QueueData} (h : Sized d) (n : Nat) (r : Str) (hn : (d.shown P).length < n) (hr : Ends r) :
    scan P n (d.shown P ++ r) = .ok (d.json, r) := by
  cases d with
  | keys ks => exact scan_dumps P _ (fine_data _ h) n r hn hr
  | endpoint r a b p e => exact scan_dumpModel P _ (fine_data _ h) n _ hn hr
  | sender r a p e => exact scan_dumpModel P _ (fine_data _ h) n _ hn hr

theorem lines_shown (P : Floats) {d : QueueData} (h : Sized d) : rule '-' ∉ Str.split '\n' (d.shown P) := by
  cases d with
  | keys ks => exact lines_dumps P _ (fine_data _ h)
  | endpoint r a b p e => exact lines_dumpModel P _ (fine_data _ h)
  | sender r a p e => exact lines_dumpModel P _ (fine_data _ h)

/-- What follows the line under the message. -/
def below (P : Floats) (r : Shown) : Str := queuePart P r.queueData ++ (requestPart P r.requestData ++ printed (rule '='))

theorem screen_eq (P : Floats) (r : Shown) :
    screen P r = rule '=' ++ '\n' :: (r.message.toList ++ '\n' :: (rule '-' ++ '\n' :: below P r)) := by
  unfold screen below printed
  simp only [List.append_assoc, List.cons_append, List.nil_append]

theorem split_end : Str.split '\n' (printed (rule '=')) = [rule '=', []] := by decide +kernel

theorem split_dash (s : Str) : Str.split '\n' (rule '-' ++ '\n' :: s) = rule '-' :: Str.split '\n' s := by
  rw [split_newline, show Str.split '\n' (rule '-') = [rule '-'] by decide +kernel]; rfl

theorem split_request (s : Str) : Str.split '\n' ("Request information:".toList ++ '\n' :: s) = "Request information:".toList :: Str.split '\n' s := by
  rw [split_newline, show Str.split '\n' "Request information:".toList = ["Request information:".toList] by decide +kernel]; rfl

theorem split_heading (d : QueueData) (s : Str) : Str.split '\n' (d.heading.toList ++ '\n' :: s) = d.heading.toList :: Str.split '\n' s := by
  rw [split_newline]
  rcases heading_cases d with h | h <;> rw [h]
  · rw [show Str.split '\n' "First 10 error span-keys:".toList = ["First 10 error span-keys:".toList] by decide +kernel]; rfl
  · rw [show Str.split '\n' "Queue information:".toList = ["Queue information:".toList] by decide +kernel]; rfl

/-- The part about the queue as lines. -/
theorem lines_queue (P : Floats) (r : Shown) (hq : ∀ d, r.queueData = some d → Sized d) (s : Str) :
    ∃ A, Str.split '\n' (queuePart P r.queueData ++ s) = A ++ Str.split '\n' s ∧ rule '-' ∉ A ∧ A.head? ≠ some "Request information:".toList := by
  cases hd : r.queueData with
  | none => exact ⟨[], rfl, by simp, by simp⟩
  | some d =>
    refine ⟨d.heading.toList :: Str.split '\n' (d.shown P), ?_, ?_, ?_⟩
    · rw [queuePart_some, List.append_assoc, List.cons_append, List.append_assoc, split_heading, List.singleton_append, split_newline]
      rfl
    · rw [List.mem_cons, not_or]
      exact ⟨by rcases heading_cases d with h | h <;> rw [h] <;> decide +kernel, lines_shown P (hq d hd)⟩
    · rw [List.head?_cons]
      rcases heading_cases d with h | h <;> rw [h] <;> decide +kernel

/-- After a line of dashes below comes the heading of the request. -/
theorem below_dashes (P : Floats) (r : Shown) (hq : ∀ d, r.queueData = some d → Sized d) (hr : Printable P r.requestData) {Z W : List Str}
    (h : Str.split '\n' (below P r) = Z ++ rule '-' :: W) : W.head? = some "Request information:".toList := by
  obtain ⟨A, hA, hA1, -⟩ := lines_queue P r hq (requestPart P r.requestData ++ printed (rule '='))
  unfold below at h
  rw [hA] at h
  cases ht : Json.truthy r.requestData with
  | false =>
    rw [requestPart_none P ht, List.nil_append, split_end] at h
    have hm : rule '-' ∈ A ++ [rule '=', []] := by rw [h]; simp
    rcases List.mem_append.1 hm with hm | hm
    · exact absurd hm hA1
    · exact absurd hm (by decide +kernel)
  | true =>
    rw [requestPart_some P ht, List.append_assoc, List.cons_append, split_dash, List.append_assoc, List.cons_append, split_request,
      List.append_assoc, List.singleton_append, split_newline, split_end] at h
    obtain ⟨-, rfl⟩ := once h.symm hA1 (by
      rw [List.mem_cons, not_or, List.mem_append, not_or]
      exact ⟨by decide +kernel, lines_dumps P _ hr, by decide +kernel⟩)
    rfl

theorem below_head (P : Floats) (r : Shown) (hq : ∀ d, r.queueData = some d → Sized d) :
    (Str.split '\n' (below P r)).head? ≠ some "Request information:".toList := by
  obtain ⟨A, hA, -, hA2⟩ := lines_queue P r hq (requestPart P r.requestData ++ printed (rule '='))
  unfold below
  rw [hA]
  cases A with
  | cons x A => simpa using hA2
  | nil =>
    rw [List.nil_append]
    cases ht : Json.truthy r.requestData with
    | false => rw [requestPart_none P ht, List.nil_append, split_end]; decide +kernel
    | true =>
      rw [requestPart_some P ht, List.append_assoc, List.cons_append, split_dash, List.head?_cons]
      decide +kernel

theorem request_inj (P : Floats) {d d' : Json} (hd : Printable P d) (hd' : Printable P d')
    (h : requestPart P d ++ printed (rule '=') = requestPart P d' ++ printed (rule '=')) : d = d' ∨ (Nothing d ∧ Nothing d') := by
  cases ht : Json.truthy d with
  | false =>
    cases ht' : Json.truthy d' with
    | false => exact .inr ⟨(truthy_iff d).1 ht, (truthy_iff d').1 ht'⟩
    | true =>
      rw [requestPart_none P ht, requestPart_some P ht'] at h
      exact absurd (congrArg List.head? h) (by simp [rule, printed, List.replicate_succ])
  | true =>
    cases ht' : Json.truthy d' with
    | false =>
      rw [requestPart_none P ht', requestPart_some P ht] at h
      exact absurd (congrArg List.head? h) (by simp [rule, printed, List.replicate_succ])
    | true =>
      rw [requestPart_some P ht, requestPart_some P ht'] at h
      simp only [List.append_assoc, List.cons_append, List.append_cancel_left_eq, List.cons.injEq, true_and, List.nil_append] at h
      have e1 := scan_dumps P d hd ((dumps P d).length + (dumps P d').length + 1) ('\n' :: printed (rule '=')) (by omega) (.ofHead (by decide))
      have e2 := scan_dumps P d' hd' ((dumps P d).length + (dumps P d').length + 1) ('\n' :: printed (rule '=')) (by omega) (.ofHead (by decide))
      rw [h, e2] at e1
      exact .inl (Prod.mk.inj (Except.ok.inj e1)).1.symm

theorem below_inj (P : Floats) {r r' : Shown} (hq : ∀ d, r.queueData = some d → Sized d) (hq' : ∀ d, r'.queueData = some d → Sized d)
    (h1 : Printable P r.requestData) (h2 : Printable P r'.requestData) (h : below P r = below P r') :
    r.queueData = r'.queueData ∧ (r.requestData = r'.requestData ∨ (Nothing r.requestData ∧ Nothing r'.requestData)) := by
  have hrest : ∀ d : Json, ∃ c t, requestPart P d ++ printed (rule '=') = c :: t ∧ (c = '-' ∨ c = '=') := by
    intro d
    cases ht : Json.truthy d with
    | false => exact ⟨'=', _, by rw [requestPart_none P ht]; rfl, .inr rfl⟩
    | true => exact ⟨'-', _, by rw [requestPart_some P ht]; rfl, .inl rfl⟩
  have hhead : ∀ (d : QueueData) (s : Str), ∃ c t, queuePart P (some d) ++ s = c :: t ∧ (c = 'F' ∨ c = 'Q') := by
    intro d s
    rw [queuePart_some]
    rcases heading_cases d with h | h <;> rw [h, List.append_assoc]
    · exact ⟨'F', _, by rw [show "First 10 error span-keys:".toList = 'F' :: "irst 10 error span-keys:".toList from by decide +kernel]; rfl, .inl rfl⟩
    · exact ⟨'Q', _, by rw [show "Queue information:".toList = 'Q' :: "ueue information:".toList from by decide +kernel]; rfl, .inr rfl⟩
  unfold below at h
  cases hd : r.queueData with
  | none =>
    cases hd' : r'.queueData with
    | none =>
      rw [hd, hd'] at h
      exact ⟨rfl, request_inj P h1 h2 h⟩
    | some d' =>
      rw [hd, hd'] at h
      obtain ⟨c, t, e, hc⟩ := hrest r.requestData
      obtain ⟨c', t', e', hc'⟩ := hhead d' (requestPart P r'.requestData ++ printed (rule '='))
      rw [e', show queuePart P none = [] from rfl, List.nil_append, e] at h
      have := (List.cons.inj h).1
      subst this
      rcases hc with rfl | rfl <;> rcases hc' with hc' | hc' <;> exact absurd hc' (by decide)
  | some d =>
    cases hd' : r'.queueData with
    | none =>
      rw [hd, hd'] at h
      obtain ⟨c, t, e, hc⟩ := hrest r'.requestData
      obtain ⟨c', t', e', hc'⟩ := hhead d (requestPart P r.requestData ++ printed (rule '='))
      rw [e', show queuePart P none = [] from rfl, List.nil_append, e] at h
      have := (List.cons.inj h).1
      subst this
      rcases hc with rfl | rfl <;> rcases hc' with hc' | hc' <;> exact absurd hc' (by decide)
    | some d' =>
      rw [hd, hd', queuePart_some, queuePart_some] at h
      have hh : d.heading = d'.heading := by
        cases d <;> cases d' <;> first | rfl | exact absurd (congrArg List.head? h) (by simp [QueueData.heading])
      rw [hh] at h
      simp only [List.append_assoc, List.cons_append, List.append_cancel_left_eq, List.cons.injEq, true_and, List.nil_append] at h
      have e1 := scan_shown P (hq d hd) ((d.shown P).length + (d'.shown P).length + 1)
        ('\n' :: (requestPart P r.requestData ++ printed (rule '='))) (by omega) (.ofHead (by decide))
      have e2 := scan_shown P (hq' d' hd') ((d.shown P).length + (d'.shown P).length + 1)
        ('\n' :: (requestPart P r'.requestData ++ printed (rule '='))) (by omega) (.ofHead (by decide))
      rw [h, e2] at e1
      obtain ⟨e3, e4⟩ := Prod.mk.inj (Except.ok.inj e1)
      exact ⟨by rw [json_inj e3], request_inj P h1 h2 (List.cons.inj e4).2.symm⟩

end Verif.Cli
