import Verif.Grammar.Lemmas
import Mathlib.Tactic.IntervalCases

namespace Verif.Grammar

open Verif.Py Verif.Wire Verif.Wire.Spec Verif.Grammar.Spec

/-! ### What is read is a text -/

theorem hex_of_hexVal {c : Char} {n : Nat} (h : hexVal c = some n) : Hex c n := by
  have ofNat : c = Char.ofNat c.toNat := (Char.ofNat_toNat c).symm
  unfold hexVal at h
  have le : ∀ a b : Char, a ≤ b ↔ a.toNat ≤ b.toNat := fun a b => Iff.rfl
  split at h
  · rename_i hc
    obtain ⟨h1, h2⟩ := hc
    rw [le] at h1 h2
    have e1 : '0'.toNat = 48 := rfl
    have e2 : '9'.toNat = 57 := rfl
    rw [e1] at h1
    rw [e2] at h2
    cases h
    left
    generalize c.toNat = m at *
    subst ofNat
    interval_cases m <;> rfl
  · split at h
    · rename_i _ hc
      obtain ⟨h1, h2⟩ := hc
      rw [le] at h1 h2
      have e1 : 'a'.toNat = 97 := rfl
      have e2 : 'f'.toNat = 102 := rfl
      rw [e1] at h1
      rw [e2] at h2
      cases h
      left
      generalize c.toNat = m at *
      subst ofNat
      interval_cases m <;> rfl
    · split at h
      · rename_i _ _ hc
        obtain ⟨h1, h2⟩ := hc
        rw [le] at h1 h2
        have e1 : 'A'.toNat = 65 := rfl
        have e2 : 'F'.toNat = 70 := rfl
        rw [e1] at h1
        rw [e2] at h2
        cases h
        right
        generalize c.toNat = m at *
        subst ofNat
        interval_cases m <;> rfl
      · cases h

theorem unit_of_hex4 {a b c d : Char} {u : Nat} (h : hex4 a b c d = some u) : Unit ['\\', 'u', a, b, c, d] u := by
  unfold hex4 at h
  cases ha : hexVal a with
  | none => rw [ha] at h; cases h
  | some x =>
    cases hb : hexVal b with
    | none => rw [ha, hb] at h; cases h
    | some y =>
      cases hc : hexVal c with
      | none => rw [ha, hb, hc] at h; cases h
      | some z =>
        cases hd : hexVal d with
        | none => rw [ha, hb, hc, hd] at h; cases h
        | some w =>
          rw [ha, hb, hc, hd] at h
          cases h
          exact ⟨a, b, c, d, x, y, z, w, rfl, hex_of_hexVal ha, hex_of_hexVal hb, hex_of_hexVal hc, hex_of_hexVal hd, by omega⟩

theorem spelled_simple {e ch : Char} (h : simple e = some ch) : Spelled ch ['\\', e] := by
  unfold simple at h
  repeat' split at h
  all_goals first
    | (rename_i he; subst he; cases h; first | exact .quote | exact .backslash | exact .slash | exact .backspace | exact .formFeed | exact .lineFeed | exact .carriageReturn | exact .tab)
    | cases h

theorem consChar_ok {c : Char} {x : Except Bad (Str × Str)} {s r : Str} (h : consChar c x = .ok (s, r)) : ∃ s', x = .ok (s', r) ∧ s = c :: s' := by
  cases x with
  | error e => cases h
  | ok p =>
    obtain ⟨s', r'⟩ := p
    cases h
    exact ⟨s', rfl, rfl⟩

theorem toNat_ofNat {n : Nat} (h : n < 0xd800 ∨ (0xdfff < n ∧ n < 0x110000)) : (Char.ofNat n).toNat = n := by
  have hv : n.isValidChar := by
    unfold Nat.isValidChar
    omega
  unfold Char.ofNat
  rw [dif_pos hv]
  rfl

theorem scanStr_sound : ∀ (n : Nat) (t s r : Str), t.length ≤ n → scanStr t = .ok (s, r) → ∃ u, t = u ++ '"' :: r ∧ Spelling s u
  | _, [], _, _, _, h => by unfold scanStr at h; cases h
  | 0, _ :: _, _, _, hn, _ => absurd hn (by simp)
  | n + 1, c :: t, s, r, hn, h => by
    have hn' : t.length ≤ n := by simpa using hn
    have step : ∀ {ch : Char} {e rest : Str}, Spelled ch e → c :: t = e ++ rest → rest.length ≤ n → consChar ch (scanStr rest) = .ok (s, r) →
        ∃ u, c :: t = u ++ '"' :: r ∧ Spelling s u := by
      intro ch e rest he hct hl h
      obtain ⟨s', hs, rfl⟩ := consChar_ok h
      obtain ⟨u, hu, hsp⟩ := scanStr_sound n rest s' r hl hs
      exact ⟨e ++ u, by rw [hct, hu, List.append_assoc], .cons he hsp⟩
    unfold scanStr at h
    split at h
    · rename_i hc
      subst hc
      cases h
      exact ⟨[], rfl, .nil⟩
    · rename_i hq
      split at h
      · rename_i hc
        subst hc
        cases t with
        | nil => cases h
        | cons e r1 =>
          simp only [List.length_cons] at hn'
          simp only at h
          split at h
          · rename_i he
            subst he
            split at h
            · rename_i a b c d r2
              simp only [List.length_cons] at hn'
              cases hx : hex4 a b c d with
              | none => rw [hx] at h; cases h
              | some u =>
                rw [hx] at h
                simp only at h
                have hu := unit_of_hex4 hx
                obtain ⟨_, _, _, _, _, _, hlt⟩ := hex4_unit hu
                split at h
                · rename_i hsur
                  split at h
                  · rename_i x y a' b' c' d' r3
                    simp only [List.length_cons] at hn'
                    split at h
                    · rename_i hxy
                      obtain ⟨rfl, rfl⟩ := hxy
                      cases hx' : hex4 a' b' c' d' with
                      | none => rw [hx'] at h; cases h
                      | some v =>
                        rw [hx'] at h
                        simp only at h
                        have hv := unit_of_hex4 hx'
                        split at h
                        · rename_i hlow
                          refine step (.pair hu hv ⟨hsur.1, by omega⟩ ⟨hlow.1, by omega⟩ ?_) rfl (by omega) h
                          rw [toNat_ofNat (by omega)]
                          omega
                        · cases h
                    · cases h
                  · cases h
                · rename_i hsur
                  split at h
                  · cases h
                  · rename_i hlow
                    refine step (.unit (t := ['\\', 'u', a, b, c, d]) ?_) rfl (by omega) h
                    rw [toNat_ofNat (by omega)]
                    exact hu
            · cases h
          · cases hs : simple e with
            | none => rw [hs] at h; cases h
            | some ch =>
              rw [hs] at h
              exact step (spelled_simple hs) rfl (by omega) h
      · rename_i hb
        split at h
        · cases h
        · rename_i hctl
          exact step (.raw hq hb (by omega)) rfl hn' h

/-! ### Numbers -/

/-- Digits without leading zeros. -/
def Whole (ip : Str) : Prop := ip = ['0'] ∨ (ip ≠ [] ∧ ip.head? ≠ some '0' ∧ ∀ c ∈ ip, c.isDigit = true)

theorem takeWhile_digit (s : Str) : ∀ c ∈ s.takeWhile Char.isDigit, c.isDigit = true := by
  induction s with
  | nil => intro c hc; cases hc
  | cons d s ih =>
    intro c hc
    rw [List.takeWhile_cons] at hc
    split at hc
    · rename_i hd
      rcases List.mem_cons.1 hc with rfl | hc
      · exact hd
      · exact ih c hc
    · cases hc

theorem whole_sound {s ip r : Str} (h : whole s = some (ip, r)) : s = ip ++ r ∧ Whole ip := by
  cases s with
  | nil => cases h
  | cons d t =>
    simp only [whole] at h
    split at h
    · rename_i hd
      subst hd
      simp only [Option.some.injEq, Prod.mk.injEq] at h
      obtain ⟨rfl, rfl⟩ := h
      exact ⟨rfl, .inl rfl⟩
    · rename_i hd
      split at h
      · rename_i hdig
        simp only [Option.some.injEq, Prod.mk.injEq] at h
        obtain ⟨rfl, rfl⟩ := h
        refine ⟨(List.takeWhile_append_dropWhile).symm, .inr ⟨?_, ?_, takeWhile_digit _⟩⟩
        · rw [List.takeWhile_cons_of_pos hdig]
          simp
        · rw [List.takeWhile_cons_of_pos hdig]
          simpa using hd
      · cases h

theorem fraction_sound {s fr r : Str} (h : fraction s = (fr, r)) : s = fr ++ r ∧
    (fr = [] ∨ ∃ ds, fr = '.' :: ds ∧ ds ≠ [] ∧ ∀ c ∈ ds, c.isDigit = true) := by
  unfold fraction at h
  split at h
  · rename_i c d t
    split at h
    · rename_i hc
      obtain ⟨rfl, hd⟩ := hc
      simp only [Prod.mk.injEq] at h
      obtain ⟨rfl, rfl⟩ := h
      refine ⟨?_, .inr ⟨_, rfl, ?_, takeWhile_digit _⟩⟩
      · rw [List.cons_append, List.takeWhile_append_dropWhile]
      · rw [List.takeWhile_cons_of_pos hd]
        simp
    · cases h
      exact ⟨rfl, .inl rfl⟩
  · cases h
    exact ⟨rfl, .inl rfl⟩

theorem exponent_sound {s ex r : Str} (h : exponent s = (ex, r)) : s = ex ++ r ∧
    (ex = [] ∨ ∃ e sg ds, ex = e :: (sg ++ ds) ∧ (e = 'e' ∨ e = 'E') ∧ (sg = [] ∨ sg = ['-'] ∨ sg = ['+']) ∧ ds ≠ [] ∧ ∀ c ∈ ds, c.isDigit = true) := by
  unfold exponent at h
  split at h
  · rename_i c d t
    split at h
    · rename_i hc
      split at h
      · rename_i hd
        simp only [Prod.mk.injEq] at h
        obtain ⟨rfl, rfl⟩ := h
        refine ⟨?_, .inr ⟨c, [], (d :: t).takeWhile Char.isDigit, rfl, hc, .inl rfl, ?_, takeWhile_digit _⟩⟩
        · rw [List.cons_append, List.takeWhile_append_dropWhile]
        · rw [List.takeWhile_cons_of_pos hd]
          simp
      · split at h
        · rename_i hd
          split at h
          · rename_i f t'
            split at h
            · rename_i hf
              simp only [Prod.mk.injEq] at h
              obtain ⟨rfl, rfl⟩ := h
              refine ⟨?_, .inr ⟨c, [d], (f :: t').takeWhile Char.isDigit, rfl, hc, ?_, ?_, takeWhile_digit _⟩⟩
              · rw [List.cons_append, List.cons_append, List.takeWhile_append_dropWhile]
              · rcases hd with rfl | rfl
                · exact .inr (.inl rfl)
                · exact .inr (.inr rfl)
              · rw [List.takeWhile_cons_of_pos hf]
                simp
            · cases h
              exact ⟨rfl, .inl rfl⟩
          · cases h
            exact ⟨rfl, .inl rfl⟩
        · cases h
          exact ⟨rfl, .inl rfl⟩
    · cases h
      exact ⟨rfl, .inl rfl⟩
  · cases h
    exact ⟨rfl, .inl rfl⟩

theorem digitChar_of {c : Char} (h : c.isDigit = true) : ∃ d < 10, c = Nat.digitChar d ∧ c.toNat - '0'.toNat = d := by
  unfold Char.isDigit at h
  simp only [Bool.and_eq_true, decide_eq_true_eq] at h
  obtain ⟨h1, h2⟩ := h
  have h1' : 48 ≤ c.toNat := h1
  have h2' : c.toNat ≤ 57 := h2
  refine ⟨c.toNat - 48, by omega, ?_, rfl⟩
  have ofNat : c = Char.ofNat c.toNat := (Char.ofNat_toNat c).symm
  generalize c.toNat = m at *
  subst ofNat
  clear h1 h2
  interval_cases m <;> rfl

theorem toDigits_whole_digits (ip : Str) : (∀ c ∈ ip, c.isDigit = true) → ∀ n : Nat, 0 < n →
    Nat.toDigits 10 (Nat.ofDigitChars 10 ip n) = Nat.toDigits 10 n ++ ip := by
  induction ip with
  | nil => intro _ n _; simp
  | cons c ip ih =>
    intro h n hn
    obtain ⟨d, hd, rfl, hv⟩ := digitChar_of (h c List.mem_cons_self)
    rw [Nat.ofDigitChars_cons_digitChar_of_lt_ten hd, ih (fun c hc => h c (List.mem_cons_of_mem _ hc)) _ (by omega),
      ← Nat.toDigits_append_toDigits (by omega) hn hd, Nat.toDigits_of_lt_base hd, List.append_assoc]
    rfl

theorem toDigits_of_whole {ip : Str} (h : Whole ip) : Nat.toDigits 10 (Nat.ofDigitChars 10 ip 0) = ip := by
  rcases h with rfl | ⟨hne, h0, hd⟩
  · rfl
  · cases ip with
    | nil => exact absurd rfl hne
    | cons c ip =>
      obtain ⟨d, hlt, rfl, hv⟩ := digitChar_of (hd c List.mem_cons_self)
      have hpos : 0 < d := by
        rcases Nat.eq_zero_or_pos d with rfl | h
        · exact absurd rfl h0
        · exact h
      rw [Nat.ofDigitChars_cons_digitChar_of_lt_ten hlt, toDigits_whole_digits ip (fun c hc => hd c (List.mem_cons_of_mem _ hc)) _ (by omega),
        Nat.mul_zero, Nat.zero_add, Nat.toDigits_of_lt_base hlt]
      rfl

theorem unsigned_sound {F : Floats} {neg : Bool} {s r : Str} {j : Json} (h : unsigned F neg s = some (.ok (j, r))) :
    ∃ t, s = t ++ r ∧ Text true F j ((if neg then ['-'] else []) ++ t) := by
  unfold unsigned at h
  cases hw : whole s with
  | none => rw [hw] at h; cases h
  | some p =>
    obtain ⟨ip, r0⟩ := p
    rw [hw] at h
    simp only at h
    obtain ⟨e1, hip⟩ := whole_sound hw
    cases hf : fraction r0 with
    | mk fr r1 =>
      obtain ⟨e2, hfr⟩ := fraction_sound hf
      cases he : exponent r1 with
      | mk ex r2 =>
        obtain ⟨e3, hex⟩ := exponent_sound he
        simp only [hf, he] at h
        split at h
        · rename_i hnil
          obtain ⟨rfl, rfl⟩ := hnil
          cases hi : intOf neg ip with
          | error e => rw [hi] at h; cases h
          | ok i =>
            rw [hi] at h
            simp only [Option.some.injEq, Except.ok.injEq, Prod.mk.injEq] at h
            obtain ⟨rfl, rfl⟩ := h
            refine ⟨ip, by rw [e1, e2, e3]; rfl, ?_⟩
            unfold intOf at hi
            split at hi
            · cases hi
            · rename_i hlen
              have hd := toDigits_of_whole hip
              have hlen' : (Nat.toDigits 10 (Nat.ofDigitChars 10 ip 0)).length ≤ 4300 := by rw [hd]; omega
              cases neg with
              | true =>
                cases hi
                have := Text.minus (lax := true) (F := F) _ hlen'
                rw [hd] at this
                exact this
              | false =>
                cases hi
                have := Text.int (lax := true) (F := F) _ hlen'
                rw [hd] at this
                exact this
        · rename_i hnil
          simp only [Option.some.injEq, Except.ok.injEq, Prod.mk.injEq] at h
          obtain ⟨rfl, rfl⟩ := h
          refine ⟨ip ++ fr ++ ex, by rw [e1, e2, e3]; simp only [List.append_assoc], ?_⟩
          have e4 : (if neg = true then ['-'] else []) ++ (ip ++ fr ++ ex) = (if neg = true then ['-'] else []) ++ ip ++ fr ++ ex := by
            simp only [List.append_assoc]
          rw [e4]
          refine .float ⟨_, ip, fr, ex, rfl, ?_, hip, hfr, hex, ?_⟩
          · cases neg
            · exact .inl rfl
            · exact .inr rfl
          · by_cases h1 : fr = []
            · exact .inr fun h2 => hnil ⟨h1, h2⟩
            · exact .inl h1

theorem prefix_drop {p s : Str} (h : p.isPrefixOf s = true) : s = p ++ s.drop p.length := by
  rw [List.isPrefixOf_iff_prefix] at h
  exact (List.prefix_iff_eq_append.1 h).symm

theorem scanConstant_sound {F : Floats} {s r : Str} {j : Json} (h : scanConstant s = .ok (j, r)) : ∃ t, s = t ++ r ∧ Text true F j t := by
  unfold scanConstant at h
  split at h
  · rename_i hp
    simp only [Except.ok.injEq, Prod.mk.injEq] at h
    obtain ⟨rfl, rfl⟩ := h
    exact ⟨_, prefix_drop hp, .nan rfl⟩
  · split at h
    · rename_i hp
      simp only [Except.ok.injEq, Prod.mk.injEq] at h
      obtain ⟨rfl, rfl⟩ := h
      exact ⟨_, prefix_drop hp, .infinity rfl⟩
    · split at h
      · rename_i hp
        simp only [Except.ok.injEq, Prod.mk.injEq] at h
        obtain ⟨rfl, rfl⟩ := h
        exact ⟨_, prefix_drop hp, .minusInfinity rfl⟩
      · cases h

theorem scanNumber_sound {F : Floats} {s r : Str} {j : Json} (h : scanNumber F s = .ok (j, r)) : ∃ t, s = t ++ r ∧ Text true F j t := by
  cases s with
  | nil => cases h
  | cons c s =>
    simp only [scanNumber] at h
    split at h
    · rename_i hc
      subst hc
      cases hu : unsigned F true s with
      | none => rw [hu] at h; exact scanConstant_sound h
      | some x =>
        rw [hu] at h
        simp only [Option.getD_some] at h
        subst h
        obtain ⟨t, rfl, ht⟩ := unsigned_sound hu
        exact ⟨'-' :: t, rfl, ht⟩
    · cases hu : unsigned F false (c :: s) with
      | none => rw [hu] at h; exact scanConstant_sound h
      | some x =>
        rw [hu] at h
        simp only [Option.getD_some] at h
        subst h
        obtain ⟨t, e, ht⟩ := unsigned_sound hu
        exact ⟨t, e, ht⟩

/-! ### Values -/

theorem skip_sound (s : Str) : ∃ b, s = b ++ skip s ∧ Blank b := by
  refine ⟨s.takeWhile isWs, (List.takeWhile_append_dropWhile).symm, ?_⟩
  induction s with
  | nil => intro c hc; cases hc
  | cons d s ih =>
    intro c hc
    rw [List.takeWhile_cons] at hc
    split at hc
    · rename_i hd
      rcases List.mem_cons.1 hc with rfl | hc
      · unfold isWs at hd
        simpa [or_assoc] using hd
      · exact ih c hc
    · cases hc

theorem scan_sound (F : Floats) (n : Nat) :
    (∀ s j r, scan F n s = .ok (j, r) → ∃ t, s = t ++ r ∧ Text true F j t) ∧
    (∀ s vs r, scanItems F n s = .ok (vs, r) → ∃ u, s = u ++ ']' :: r ∧ Items true F vs u) ∧
    (∀ s fs r, scanFields F n s = .ok (fs, r) → ∃ u, s = u ++ '}' :: r ∧ Fields true F fs u) := by
  induction n with
  | zero =>
    refine ⟨fun s j r h => ?_, fun s j r h => ?_, fun s j r h => ?_⟩
    · rw [scan] at h; cases h
    · rw [scanItems] at h; cases h
    · rw [scanFields] at h; cases h
  | succ n ih =>
    obtain ⟨ih1, ih2, ih3⟩ := ih
    refine ⟨?_, ?_, ?_⟩
    · intro s j r h
      cases s with
      | nil => rw [scan] at h; cases h
      | cons c s =>
        rw [scan] at h
        split at h
        · rename_i hc
          subst hc
          cases hs : scanStr s with
          | error e => rw [hs] at h; cases h
          | ok p =>
            obtain ⟨x, r'⟩ := p
            rw [hs] at h
            simp only [Except.ok.injEq, Prod.mk.injEq] at h
            obtain ⟨rfl, rfl⟩ := h
            obtain ⟨u, rfl, hu⟩ := scanStr_sound _ _ _ _ (le_refl _) hs
            refine ⟨'"' :: (u ++ ['"']), by simp, .str ?_⟩
            rwa [String.toList_ofList]
        · split at h
          · rename_i _ hc
            subst hc
            obtain ⟨b, hb, hbl⟩ := skip_sound s
            cases hk : skip s with
            | nil => rw [hk] at h; cases h
            | cons d s' =>
              rw [hk] at h hb
              simp only at h
              split at h
              · rename_i hd
                subst hd
                simp only [Except.ok.injEq, Prod.mk.injEq] at h
                obtain ⟨rfl, rfl⟩ := h
                exact ⟨'{' :: (b ++ ['}']), by rw [hb]; simp, .noFields hbl⟩
              · split at h
                · rename_i _ hd
                  subst hd
                  cases hf : scanFields F n s' with
                  | error e => rw [hf] at h; cases h
                  | ok p =>
                    obtain ⟨fs, r'⟩ := p
                    rw [hf] at h
                    simp only [Except.ok.injEq, Prod.mk.injEq] at h
                    obtain ⟨rfl, rfl⟩ := h
                    obtain ⟨u, rfl, hu⟩ := ih3 _ _ _ hf
                    rw [dictOf_lastWins]
                    exact ⟨'{' :: (b ++ ('"' :: (u ++ ['}']))), by rw [hb]; simp, .repeated rfl hbl hu⟩
                · cases h
          · split at h
            · rename_i _ _ hc
              subst hc
              obtain ⟨b, hb, hbl⟩ := skip_sound s
              cases hk : skip s with
              | nil => rw [hk] at h; cases h
              | cons d s' =>
                rw [hk] at h hb
                simp only at h
                split at h
                · rename_i hd
                  subst hd
                  simp only [Except.ok.injEq, Prod.mk.injEq] at h
                  obtain ⟨rfl, rfl⟩ := h
                  exact ⟨'[' :: (b ++ [']']), by rw [hb]; simp, .empty hbl⟩
                · cases hf : scanItems F n (d :: s') with
                  | error e => rw [hf] at h; cases h
                  | ok p =>
                    obtain ⟨vs, r'⟩ := p
                    rw [hf] at h
                    simp only [Except.ok.injEq, Prod.mk.injEq] at h
                    obtain ⟨rfl, rfl⟩ := h
                    obtain ⟨u, e, hu⟩ := ih2 _ _ _ hf
                    exact ⟨'[' :: (b ++ (u ++ [']'])), by rw [hb, e]; simp, .arr hbl hu⟩
            · split at h
              · rename_i hp
                simp only [Except.ok.injEq, Prod.mk.injEq] at h
                obtain ⟨rfl, rfl⟩ := h
                exact ⟨_, prefix_drop hp, .null⟩
              · split at h
                · rename_i hp
                  simp only [Except.ok.injEq, Prod.mk.injEq] at h
                  obtain ⟨rfl, rfl⟩ := h
                  exact ⟨_, prefix_drop hp, .true⟩
                · split at h
                  · rename_i hp
                    simp only [Except.ok.injEq, Prod.mk.injEq] at h
                    obtain ⟨rfl, rfl⟩ := h
                    exact ⟨_, prefix_drop hp, .false⟩
                  · exact scanNumber_sound h
    · intro s vs r h
      rw [scanItems] at h
      cases hs : scan F n s with
      | error e => rw [hs] at h; cases h
      | ok p =>
        obtain ⟨v, r1⟩ := p
        rw [hs] at h
        simp only at h
        obtain ⟨t, rfl, ht⟩ := ih1 _ _ _ hs
        obtain ⟨b, hb, hbl⟩ := skip_sound r1
        cases hk : skip r1 with
        | nil => rw [hk] at h; cases h
        | cons d r2 =>
          rw [hk] at h hb
          simp only at h
          split at h
          · rename_i hd
            subst hd
            simp only [Except.ok.injEq, Prod.mk.injEq] at h
            obtain ⟨rfl, rfl⟩ := h
            exact ⟨t ++ b, by rw [hb, List.append_assoc], .one ht hbl⟩
          · split at h
            · rename_i _ hd
              subst hd
              obtain ⟨b', hb', hbl'⟩ := skip_sound r2
              cases hi : scanItems F n (skip r2) with
              | error e => rw [hi] at h; cases h
              | ok p =>
                obtain ⟨vs', r3⟩ := p
                rw [hi] at h
                simp only [Except.ok.injEq, Prod.mk.injEq] at h
                obtain ⟨rfl, rfl⟩ := h
                obtain ⟨u, e, hu⟩ := ih2 _ _ _ hi
                rw [e] at hb'
                exact ⟨t ++ (b ++ ',' :: (b' ++ u)), by rw [hb, hb']; simp, .more ht hbl hbl' hu⟩
            · cases h
    · intro s fs r h
      rw [scanFields] at h
      cases hs : scanStr s with
      | error e => rw [hs] at h; cases h
      | ok p =>
        obtain ⟨k, r1⟩ := p
        rw [hs] at h
        simp only at h
        obtain ⟨sp, rfl, hsp⟩ := scanStr_sound _ _ _ _ (le_refl _) hs
        have hsp' : Spelling (String.ofList k).toList sp := by rwa [String.toList_ofList]
        obtain ⟨b, hb, hbl⟩ := skip_sound r1
        cases hk : skip r1 with
        | nil => rw [hk] at h; cases h
        | cons d r2 =>
          rw [hk] at h hb
          simp only at h
          split at h
          · rename_i hd
            subst hd
            obtain ⟨b', hb', hbl'⟩ := skip_sound r2
            cases hv : scan F n (skip r2) with
            | error e => rw [hv] at h; cases h
            | ok p =>
              obtain ⟨v, r3⟩ := p
              rw [hv] at h
              simp only at h
              obtain ⟨t, e, ht⟩ := ih1 _ _ _ hv
              rw [e] at hb'
              obtain ⟨b'', hb'', hbl''⟩ := skip_sound r3
              cases hk' : skip r3 with
              | nil => rw [hk'] at h; cases h
              | cons d' r4 =>
                rw [hk'] at h hb''
                simp only at h
                split at h
                · rename_i hd
                  subst hd
                  simp only [Except.ok.injEq, Prod.mk.injEq] at h
                  obtain ⟨rfl, rfl⟩ := h
                  exact ⟨_, by rw [hb, hb', hb'']; simp, .one hsp' hbl hbl' ht hbl''⟩
                · split at h
                  · rename_i _ hd
                    subst hd
                    obtain ⟨b3, hb3, hbl3⟩ := skip_sound r4
                    cases hk3 : skip r4 with
                    | nil => rw [hk3] at h; cases h
                    | cons d'' r5 =>
                      rw [hk3] at h hb3
                      simp only at h
                      split at h
                      · rename_i hd
                        subst hd
                        cases hf : scanFields F n r5 with
                        | error e => rw [hf] at h; cases h
                        | ok p =>
                          obtain ⟨ps, r6⟩ := p
                          rw [hf] at h
                          simp only [Except.ok.injEq, Prod.mk.injEq] at h
                          obtain ⟨rfl, rfl⟩ := h
                          obtain ⟨u, e5, hu⟩ := ih3 _ _ _ hf
                          exact ⟨_, by rw [hb, hb', hb'', hb3, e5]; simp, .more hsp' hbl hbl' ht hbl'' hbl3 hu⟩
                      · cases h
                  · cases h
          · cases h

theorem loads_sound {F : Floats} {s : Str} {j : Json} (h : loads F s = .ok j) :
    ∃ b t b', s = b ++ (t ++ b') ∧ Blank b ∧ Blank b' ∧ Text true F j t := by
  unfold loads at h
  split at h
  · cases h
  · obtain ⟨b, hb, hbl⟩ := skip_sound s
    cases hs : scan F (s.length + 1) (skip s) with
    | error e => rw [hs] at h; cases h
    | ok p =>
      obtain ⟨v, r⟩ := p
      rw [hs] at h
      simp only at h
      split at h
      · rename_i hr
        simp only [Except.ok.injEq] at h
        subst h
        obtain ⟨t, e, ht⟩ := (scan_sound F _).1 _ _ _ hs
        obtain ⟨b', hb', hbl'⟩ := skip_sound r
        rw [hr, List.append_nil] at hb'
        subst hb'
        rw [e] at hb
        exact ⟨b, t, r, hb, hbl, hbl', ht⟩
      · cases h

end Verif.Grammar
