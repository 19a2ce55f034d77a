import Verif.Grammar.Spec

namespace Verif.Grammar

open Verif.Py Verif.Wire Verif.Wire.Spec Verif.Grammar.Spec

theorem hexVal_hex {c : Char} {n : Nat} (h : Hex c n) : hexVal c = some n ∧ n < 16 := by
  have key : ∀ l : List Char, l.length = 16 → (∀ i : Fin 16, (l[i.val]?).bind hexVal = some i.val) → l[n]? = some c → hexVal c = some n ∧ n < 16 := by
    intro l hl hi hc
    obtain ⟨hlt, -⟩ := List.getElem?_eq_some_iff.1 hc
    have := hi ⟨n, by omega⟩
    simp only [hc, Option.bind_some] at this
    exact ⟨this, by omega⟩
  rcases h with h | h
  · exact key _ (by decide +kernel) (by decide +kernel) h
  · exact key _ (by decide +kernel) (by decide +kernel) h

theorem hex4_unit {t : Str} {u : Nat} (h : Unit t u) : ∃ a b c d, t = ['\\', 'u', a, b, c, d] ∧ hex4 a b c d = some u ∧ u < 0x10000 := by
  obtain ⟨a, b, c, d, x, y, z, w, rfl, ha, hb, hc, hd, rfl⟩ := h
  obtain ⟨ha, _⟩ := hexVal_hex ha
  obtain ⟨hb, _⟩ := hexVal_hex hb
  obtain ⟨hc, _⟩ := hexVal_hex hc
  obtain ⟨hd, _⟩ := hexVal_hex hd
  refine ⟨a, b, c, d, rfl, ?_, by omega⟩
  unfold hex4
  rw [ha, hb, hc, hd]
  simp only [Option.some.injEq]
  omega

theorem scanStr_unit {a b c d : Char} {u : Nat} (r : Str) (hu : hex4 a b c d = some u) (h : ¬ (0xd800 ≤ u ∧ u < 0xe000)) :
    scanStr ('\\' :: 'u' :: a :: b :: c :: d :: r) = consChar (Char.ofNat u) (scanStr r) := by
  conv_lhs => unfold scanStr
  simp only [if_neg (show ¬ '\\' = '"' by decide), if_true, hu]
  rw [if_neg (by omega), if_neg (by omega)]

theorem scanStr_pair {a b c d a' b' c' d' : Char} {u v : Nat} (r : Str) (hu : hex4 a b c d = some u) (hv : hex4 a' b' c' d' = some v)
    (h : 0xd800 ≤ u ∧ u < 0xdc00) (h' : 0xdc00 ≤ v ∧ v < 0xe000) :
    scanStr ('\\' :: 'u' :: a :: b :: c :: d :: '\\' :: 'u' :: a' :: b' :: c' :: d' :: r) =
      consChar (Char.ofNat (0x10000 + ((u - 0xd800) * 1024 + (v - 0xdc00)))) (scanStr r) := by
  conv_lhs => unfold scanStr
  simp only [if_neg (show ¬ '\\' = '"' by decide), if_true, hu]
  rw [if_pos (by omega)]
  simp only [and_self, if_true, hv]
  rw [if_pos (by omega)]

theorem toNat_valid (c : Char) : ¬ (0xd800 ≤ c.toNat ∧ c.toNat < 0xe000) := by
  have := c.valid
  unfold Char.toNat
  have h : c.val.toNat < 0xd800 ∨ (0xdfff < c.val.toNat ∧ c.val.toNat < 0x110000) := this
  omega

theorem scanStr_spelled {c : Char} {t : Str} (h : Spelled c t) (r : Str) : scanStr (t ++ r) = consChar c (scanStr r) := by
  cases h with
  | raw h h' h'' =>
    simp only [List.singleton_append]
    conv_lhs => unfold scanStr
    rw [if_neg h, if_neg h', if_neg (by omega)]
  | quote => exact scanStr_simple r (by decide) (by decide)
  | backslash => exact scanStr_simple r (by decide) (by decide)
  | slash => exact scanStr_simple r (by decide) (by decide)
  | backspace => exact scanStr_simple r (by decide) (by decide)
  | formFeed => exact scanStr_simple r (by decide) (by decide)
  | lineFeed => exact scanStr_simple r (by decide) (by decide)
  | carriageReturn => exact scanStr_simple r (by decide) (by decide)
  | tab => exact scanStr_simple r (by decide) (by decide)
  | unit h =>
    obtain ⟨a, b, d, e, rfl, hu, -⟩ := hex4_unit h
    have := scanStr_unit r hu (toNat_valid c)
    rw [Char.ofNat_toNat] at this
    exact this
  | pair h h' hu hv hc =>
    obtain ⟨a, b, d, e, rfl, h1, -⟩ := hex4_unit h
    obtain ⟨a', b', d', e', rfl, h2, -⟩ := hex4_unit h'
    have := scanStr_pair r h1 h2 hu hv
    rw [← Nat.add_assoc, ← hc, Char.ofNat_toNat] at this
    exact this

theorem scanStr_spelling {s u : Str} (h : Spelling s u) (r : Str) : scanStr (u ++ '"' :: r) = .ok (s, r) := by
  induction h with
  | nil => exact scanStr_quote r
  | cons h _ ih =>
    rw [List.append_assoc, scanStr_spelled h, ih]
    rfl

/-! ### Values -/

theorem lookup_set (d : List (String × Json)) (k k' : String) (v : Json) : (Dict.set d k v).lookup k' = if k' = k then some v else d.lookup k' := by
  induction d with
  | nil =>
    simp only [Dict.set, List.lookup_cons, List.lookup_nil]
    by_cases h : k' = k
    · simp [h]
    · rw [beq_eq_false_iff_ne.2 h, if_neg h]
  | cons x d ih =>
    obtain ⟨x, y⟩ := x
    simp only [Dict.set]
    split
    · rename_i h
      subst h
      simp only [List.lookup_cons]
      by_cases h : k' = x
      · simp [h]
      · rw [beq_eq_false_iff_ne.2 h, if_neg h]
    · rename_i h
      simp only [List.lookup_cons, ih]
      by_cases h1 : k' = x
      · subst h1
        simp [h]
      · rw [beq_eq_false_iff_ne.2 h1]

theorem fst_set (d : List (String × Json)) (k : String) (v : Json) :
    (Dict.set d k v).map Prod.fst = if k ∈ d.map Prod.fst then d.map Prod.fst else d.map Prod.fst ++ [k] := by
  induction d with
  | nil => simp [Dict.set]
  | cons x d ih =>
    obtain ⟨x, y⟩ := x
    simp only [Dict.set]
    split
    · rename_i h
      simp [h]
    · rename_i h
      simp only [List.map_cons, ih, List.mem_cons]
      have : k ≠ x := Ne.symm h
      by_cases hm : k ∈ d.map Prod.fst
      · simp [hm]
      · rw [if_neg hm, if_neg (by simpa [this] using hm)]
        rfl

theorem eq_of_lookup (d : List (String × Json)) (hn : (d.map Prod.fst).Nodup) : d = (d.map Prod.fst).map fun k => (k, (d.lookup k).getD .null) := by
  induction d with
  | nil => rfl
  | cons x d ih =>
    obtain ⟨x, y⟩ := x
    simp only [List.map_cons, List.nodup_cons] at hn ⊢
    simp only [List.lookup_cons, beq_self_eq_true, Option.getD_some]
    congr 1
    conv_lhs => rw [ih hn.2]
    refine List.map_congr_left fun k hk => ?_
    have : (k == x) = false := by
      rw [beq_eq_false_iff_ne]
      rintro rfl
      exact hn.1 hk
    rw [this]

theorem dictOf_lastWins (fs : List (String × Json)) : dictOf fs = lastWins fs := by
  have h : (dictOf fs).map Prod.fst = (fs.map Prod.fst).reverse.dedup.reverse ∧ ∀ k, (dictOf fs).lookup k = fs.reverse.lookup k := by
    induction fs using List.reverseRecOn with
    | nil => exact ⟨rfl, fun _ => rfl⟩
    | append_singleton fs x ih =>
      have e : dictOf (fs ++ [x]) = Dict.set (dictOf fs) x.1 x.2 := by
        unfold dictOf
        rw [List.foldl_append]
        rfl
      rw [e]
      refine ⟨?_, fun k => ?_⟩
      · rw [fst_set, ih.1]
        simp only [List.map_append, List.map_cons, List.map_nil, List.reverse_append, List.reverse_cons, List.reverse_nil, List.nil_append,
          List.singleton_append]
        by_cases hm : x.1 ∈ (fs.map Prod.fst).reverse
        · rw [List.dedup_cons_of_mem hm, if_pos (by simpa using hm)]
        · rw [List.dedup_cons_of_notMem hm, if_neg (by simpa using hm), List.reverse_cons]
      · rw [lookup_set, ih.2, List.reverse_append]
        obtain ⟨a, b⟩ := x
        simp only [List.reverse_cons, List.reverse_nil, List.nil_append, List.singleton_append, List.lookup_cons]
        by_cases hk : k = a
        · simp [hk]
        · rw [beq_eq_false_iff_ne.2 hk, if_neg hk]
  have hn : ((dictOf fs).map Prod.fst).Nodup := by
    rw [h.1, List.nodup_reverse]
    exact List.nodup_dedup _
  conv_lhs => rw [eq_of_lookup _ hn]
  unfold lastWins
  rw [h.1]
  exact List.map_congr_left fun k _ => by rw [h.2]

theorem skip_blank {b : Str} (h : Blank b) {c : Char} {r : Str} (hc : isWs c = false) : skip (b ++ c :: r) = c :: r := by
  induction b with
  | nil => exact skip_of hc
  | cons x b ih =>
    have hx := blank_ws h x List.mem_cons_self
    unfold skip
    rw [List.cons_append, List.dropWhile_cons, hx]
    exact ih (fun c hc => h c (List.mem_cons_of_mem _ hc))

theorem ends_blank {b : Str} (h : Blank b) {c : Char} {r : Str} (hc : c.isDigit = false ∧ c ≠ '.' ∧ c ≠ 'e' ∧ c ≠ 'E') : Ends (b ++ c :: r) := by
  cases b with
  | nil => exact .ofHead hc
  | cons x b =>
    refine .ofHead ?_
    have := h x List.mem_cons_self
    rcases this with rfl | rfl | rfl | rfl <;> decide

theorem digits_head (n : Nat) : ∃ c r, Nat.toDigits 10 n = c :: r ∧ c.isDigit = true := by
  obtain ⟨d, ds, h⟩ := List.exists_cons_of_ne_nil (Nat.toDigits_ne_nil (n := n) (b := 10))
  exact ⟨d, ds, h, Str.digit_ofNat n d (by unfold Str.ofNat; rw [h]; exact .head _)⟩

theorem text_head {lax : Bool} {F : Floats} {j : Json} {t : Str} (h : Text lax F j t) : ∃ c r, t = c :: r ∧ isWs c = false ∧ c ≠ ']' := by
  cases h with
  | null => exact ⟨_, _, rfl, by decide, by decide⟩
  | true => exact ⟨_, _, rfl, by decide, by decide⟩
  | false => exact ⟨_, _, rfl, by decide, by decide⟩
  | int n _ =>
    obtain ⟨c, r, h, hd⟩ := digits_head n
    exact ⟨c, r, h, not_ws_number (.inr hd)⟩
  | minus n _ => exact ⟨_, _, rfl, by decide, by decide⟩
  | float h =>
    obtain ⟨c, r, h, hd⟩ := number_head (.inl h)
    exact ⟨c, r, h, not_ws_number hd⟩
  | str _ => exact ⟨_, _, rfl, by decide, by decide⟩
  | empty _ => exact ⟨_, _, rfl, by decide, by decide⟩
  | arr _ _ => exact ⟨_, _, rfl, by decide, by decide⟩
  | noFields _ => exact ⟨_, _, rfl, by decide, by decide⟩
  | obj _ _ _ => exact ⟨_, _, rfl, by decide, by decide⟩
  | nan _ => exact ⟨_, _, rfl, by decide, by decide⟩
  | infinity _ => exact ⟨_, _, rfl, by decide, by decide⟩
  | minusInfinity _ => exact ⟨_, _, rfl, by decide, by decide⟩
  | repeated _ _ _ => exact ⟨_, _, rfl, by decide, by decide⟩

theorem items_head {lax : Bool} {F : Floats} {vs : List Json} {u : Str} (h : Items lax F vs u) : ∃ c r, u = c :: r ∧ isWs c = false ∧ c ≠ ']' := by
  cases h with
  | one h _ =>
    obtain ⟨c, r, rfl, h1⟩ := text_head h
    exact ⟨c, _, rfl, h1⟩
  | more h _ _ _ =>
    obtain ⟨c, r, rfl, h1⟩ := text_head h
    exact ⟨c, _, rfl, h1⟩

theorem skip_text {lax : Bool} {F : Floats} {j : Json} {t b : Str} (hb : Blank b) (h : Text lax F j t) (r : Str) : skip (b ++ (t ++ r)) = t ++ r := by
  obtain ⟨c, t', rfl, hc, -⟩ := text_head h
  exact skip_blank hb hc

theorem scan_all (lax : Bool) (F : Floats) (n : Nat) :
    (∀ j t, Text lax F j t → ∀ r, t.length < n → Ends r → scan F n (t ++ r) = .ok (j, r)) ∧
    (∀ vs u, Items lax F vs u → ∀ r, u.length + 1 < n → scanItems F n (u ++ ']' :: r) = .ok (vs, r)) ∧
    (∀ fs u, Fields lax F fs u → ∀ r, u.length + 1 < n → scanFields F n (u ++ '}' :: r) = .ok (fs, r)) := by
  induction n with
  | zero => exact ⟨fun _ _ _ _ h => absurd h (by omega), fun _ _ _ _ h => absurd h (by omega), fun _ _ _ _ h => absurd h (by omega)⟩
  | succ n ih =>
    obtain ⟨ih1, ih2, ih3⟩ := ih
    refine ⟨?_, ?_, ?_⟩
    · intro j t h r hn hr
      cases h with
      | null =>
        simp only [List.cons_append, List.nil_append]
        rw [scan, if_neg (by decide), if_neg (by decide), if_neg (by decide), if_pos (by rfl)]
        rfl
      | true =>
        simp only [List.cons_append, List.nil_append]
        rw [scan, if_neg (by decide), if_neg (by decide), if_neg (by decide), if_neg (by simp), if_pos (by rfl)]
        rfl
      | false =>
        simp only [List.cons_append, List.nil_append]
        rw [scan, if_neg (by decide), if_neg (by decide), if_neg (by decide), if_neg (by simp), if_neg (by simp), if_pos (by rfl)]
        rfl
      | int m hm =>
        have h := unsigned_int F false m hm hr
        obtain ⟨d, ds, e, hd⟩ := digits_head m
        rw [e, List.cons_append] at h ⊢
        rw [scan_number F n (.inr hd), scanNumber_pos F (by rintro rfl; exact absurd hd (by decide)) h]
        rfl
      | minus m hm =>
        have h := unsigned_int F true m hm hr
        rw [List.cons_append, scan_number F n (.inl rfl), scanNumber_neg F h]
        rfl
      | float ht =>
        obtain ⟨c, t', h, h'⟩ := number_head (.inl ht)
        have := scanNumber_float F ht hr
        rw [h, List.cons_append] at this
        rw [h, List.cons_append, scan_number F n h', this]
      | str hs =>
        rw [List.cons_append, List.append_assoc, scan, if_pos rfl, List.singleton_append, scanStr_spelling hs]
        simp only [String.ofList_toList]
      | empty hb =>
        rw [List.cons_append, List.append_assoc, scan, if_neg (by decide), if_neg (by decide), if_pos rfl, List.singleton_append,
          skip_blank hb (by decide)]
        rfl
      | noFields hb =>
        rw [List.cons_append, List.append_assoc, scan, if_neg (by decide), if_pos rfl, List.singleton_append, skip_blank hb (by decide)]
        rfl
      | arr hb hi =>
        rename_i b u vs
        have := ih2 vs u hi r (by simp only [List.length_cons, List.length_append, List.length_nil] at hn; omega)
        obtain ⟨c, u', rfl, hc, hc'⟩ := items_head hi
        simp only [List.cons_append, List.append_assoc, List.nil_append] at this ⊢
        rw [scan, if_neg (by decide), if_neg (by decide), if_pos rfl, skip_blank hb hc]
        simp only
        rw [if_neg hc', this]
      | obj hb hf hnd =>
        rename_i b u fs
        have := ih3 fs u hf r (by simp only [List.length_cons, List.length_append, List.length_nil] at hn; omega)
        simp only [List.cons_append, List.append_assoc, List.nil_append] at this ⊢
        rw [scan, if_neg (by decide), if_pos rfl, skip_blank hb (by decide)]
        simp only
        rw [if_neg (by decide), if_pos trivial, this]
        simp only [dictOf_nodup _ hnd]
      | nan _ =>
        simp only [List.cons_append, List.nil_append]
        rw [scan, if_neg (by decide), if_neg (by decide), if_neg (by decide), if_neg (by simp), if_neg (by simp), if_neg (by simp)]
        rfl
      | infinity _ =>
        simp only [List.cons_append, List.nil_append]
        rw [scan, if_neg (by decide), if_neg (by decide), if_neg (by decide), if_neg (by simp), if_neg (by simp), if_neg (by simp)]
        rfl
      | minusInfinity _ =>
        simp only [List.cons_append, List.nil_append]
        rw [scan, if_neg (by decide), if_neg (by decide), if_neg (by decide), if_neg (by simp), if_neg (by simp), if_neg (by simp)]
        rfl
      | repeated _ hb hf =>
        rename_i b u fs _
        have := ih3 fs u hf r (by simp only [List.length_cons, List.length_append, List.length_nil] at hn; omega)
        simp only [List.cons_append, List.append_assoc, List.nil_append] at this ⊢
        rw [scan, if_neg (by decide), if_pos rfl, skip_blank hb (by decide)]
        simp only
        rw [if_neg (by decide), if_pos trivial, this]
        simp only [dictOf_lastWins]
    · intro vs u h r hn
      cases h with
      | one h hb =>
        rename_i v t b
        simp only [List.length_append] at hn
        rw [List.append_assoc, scanItems, ih1 v t h _ (by omega) (ends_blank hb (by decide))]
        simp only
        rw [skip_blank hb (by decide)]
        rfl
      | more h hb hb' h' =>
        rename_i v vs t b b' u
        simp only [List.length_append, List.length_cons] at hn
        simp only [List.append_assoc, List.cons_append]
        rw [scanItems, ih1 v t h _ (by omega) (ends_blank hb (by decide))]
        simp only
        rw [skip_blank hb (by decide)]
        simp only
        have := ih2 vs u h' r (by omega)
        obtain ⟨c, u', rfl, hc, hc'⟩ := items_head h'
        simp only [List.cons_append] at this ⊢
        rw [if_neg (by decide), if_pos trivial, skip_blank hb' hc, this]
    · intro fs u h r hn
      cases h with
      | one hs hb hb' h hb'' =>
        rename_i k v s t b b' b''
        simp only [List.length_append, List.length_cons] at hn
        simp only [List.append_assoc, List.cons_append]
        rw [scanFields, scanStr_spelling hs]
        simp only
        rw [skip_blank hb (by decide)]
        simp only [if_true]
        rw [skip_text hb' h, ih1 v t h _ (by omega) (ends_blank hb'' (by decide))]
        simp only
        rw [skip_blank hb'' (by decide)]
        simp only [if_true, String.ofList_toList]
      | more hs hb hb' h hb'' hb3 h' =>
        rename_i k v fs s t b b' b'' b3 u
        simp only [List.length_append, List.length_cons] at hn
        simp only [List.append_assoc, List.cons_append]
        rw [scanFields, scanStr_spelling hs]
        simp only
        rw [skip_blank hb (by decide)]
        simp only [if_true]
        rw [skip_text hb' h, ih1 v t h _ (by omega) (ends_blank hb'' (by decide))]
        simp only
        rw [skip_blank hb'' (by decide)]
        simp only
        rw [if_neg (by decide), if_pos trivial, skip_blank hb3 (by decide)]
        simp only [if_true]
        rw [ih3 fs u h' r (by omega)]
        simp only [String.ofList_toList]

theorem loads_text {lax : Bool} {F : Floats} {j : Json} {t : Str} (h : Text lax F j t) {b b' : Str} (hb : Blank b) (hb' : Blank b') :
    loads F (b ++ (t ++ b')) = .ok j := by
  have hs := skip_text hb h b'
  have hsc := (scan_all lax F ((b ++ (t ++ b')).length + 1)).1 j t h b' (by simp only [List.length_append]; omega) (ends_ws (blank_ws hb'))
  have hbom : (b ++ (t ++ b')).head? ≠ some '\ufeff' := by
    intro hh
    cases b with
    | nil =>
      cases h with
      | int n _ =>
        obtain ⟨c, r, e, hd⟩ := digits_head n
        rw [e] at hh
        simp only [List.nil_append, List.cons_append, List.head?_cons, Option.some.injEq] at hh
        subst hh
        exact absurd hd (by decide)
      | float h =>
        obtain ⟨c, r, e, hd⟩ := number_head (.inl h)
        rw [e] at hh
        simp only [List.nil_append, List.cons_append, List.head?_cons, Option.some.injEq] at hh
        subst hh
        exact absurd hd (by decide)
      | _ => simp at hh
    | cons x b =>
      simp only [List.cons_append, List.head?_cons, Option.some.injEq] at hh
      subst hh
      have := hb _ List.mem_cons_self
      revert this
      decide
  unfold loads
  rw [if_neg hbom, hs, hsc]
  simp only
  have : skip b' = [] := by
    unfold skip
    exact dropWhile_all (blank_ws hb')
  rw [if_pos this]

end Verif.Grammar
