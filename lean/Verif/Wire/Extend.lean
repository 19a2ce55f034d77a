import Verif.Wire.Bytes

/-!
# Reading a text that goes on

A value that ends before the end of the text is read the same way when more text follows.
-/

namespace Verif.Wire

open Verif.Py Verif.Stream Verif.Wire.Spec

theorem dropWhile_ext {p : Char → Bool} : ∀ {s : Str} (t : Str), s.dropWhile p ≠ [] →
    (s ++ t).dropWhile p = s.dropWhile p ++ t ∧ (s ++ t).takeWhile p = s.takeWhile p
  | [], _, h => absurd rfl h
  | c :: s, t, h => by
    rw [List.cons_append, List.dropWhile_cons, List.dropWhile_cons, List.takeWhile_cons, List.takeWhile_cons]
    rw [List.dropWhile_cons] at h
    cases hp : p c with
    | false => simp
    | true =>
      rw [hp] at h
      simp only [if_true] at h ⊢
      obtain ⟨h1, h2⟩ := dropWhile_ext t h
      exact ⟨h1, by rw [h2]⟩

theorem skip_ext {s r : Str} {c : Char} (h : skip s = c :: r) (t : Str) : skip (s ++ t) = c :: (r ++ t) := by
  unfold skip at h ⊢
  rw [(dropWhile_ext t (by rw [h]; exact List.cons_ne_nil _ _)).1, h, List.cons_append]

theorem consChar_ok {c : Char} {x : Except Bad (Str × Str)} {v r : Str} (h : consChar c x = .ok (v, r)) : ∃ v', x = .ok (v', r) ∧ v = c :: v' := by
  unfold consChar at h
  split at h
  · cases h; exact ⟨_, rfl, rfl⟩
  · cases h

theorem scanStr_ext (n : Nat) : ∀ {s v r : Str} (t : Str), s.length ≤ n → scanStr s = .ok (v, r) → scanStr (s ++ t) = .ok (v, r ++ t) := by
  induction n with
  | zero =>
    intro s v r t hl h
    have : s = [] := List.eq_nil_of_length_eq_zero (by omega)
    subst this
    unfold scanStr at h; cases h
  | succ n ih =>
    intro s v r t hl h
    have rec' : ∀ {c : Char} {s' v r : Str}, s'.length ≤ n → consChar c (scanStr s') = .ok (v, r) → consChar c (scanStr (s' ++ t)) = .ok (v, r ++ t) := by
      intro c s' v r hl h
      obtain ⟨v', h1, rfl⟩ := consChar_ok h
      rw [ih t hl h1]; rfl
    unfold scanStr at h
    split at h
    · cases h
    next c s =>
    rw [List.cons_append]
    conv_lhs => unfold scanStr
    simp only [List.length_cons] at hl
    split at h
    · next hc => cases h; rw [if_pos hc]
    next hc =>
    rw [if_neg hc]
    split at h
    · next hb =>
      rw [if_pos hb]
      split at h
      · cases h
      next e r1 =>
      simp only [List.length_cons] at hl
      simp only [List.cons_append]
      split at h
      · next hu =>
        rw [if_pos hu]
        split at h
        · next a b c d r2 =>
          simp only [List.length_cons] at hl
          simp only [List.cons_append]
          split at h
          · cases h
          next u h4 =>
          split at h
          · next hs =>
            rw [if_pos hs]
            split at h
            · next x y a b c d r3 =>
              simp only [List.length_cons] at hl
              simp only [List.cons_append]
              split at h
              · next hxy =>
                rw [if_pos hxy]
                split at h
                · cases h
                next v h5 =>
                split at h
                · next hlow =>
                  rw [if_pos hlow]
                  exact rec' (by omega) h
                · cases h
              · cases h
            · cases h
          · next hs =>
            rw [if_neg hs]
            split at h
            · cases h
            · next hs2 =>
              rw [if_neg hs2]
              exact rec' (by omega) h
        · cases h
      · next hu =>
        rw [if_neg hu]
        split at h
        · cases h
        next ch hch =>
        exact rec' (by omega) h
    · next hb =>
      rw [if_neg hb]
      split at h
      · cases h
      · next hlt =>
        rw [if_neg hlt]
        exact rec' (by omega) h

/-- A value ends here, whatever follows. -/
def Stop (r : Str) : Prop := r ≠ [] ∧ Ends r

theorem Stop.cons {c : Char} {r : Str} (h : c.isDigit = false ∧ c ≠ '.' ∧ c ≠ 'e' ∧ c ≠ 'E') : Stop (c :: r) := ⟨List.cons_ne_nil _ _, .ofHead h⟩

theorem Stop.skip {r r' : Str} {c : Char} (h : skip r = c :: r') (hc : c.isDigit = false ∧ c ≠ '.' ∧ c ≠ 'e' ∧ c ≠ 'E') : Stop r := by
  cases r with
  | nil => cases h
  | cons d r =>
    by_cases hd : isWs d = true
    · refine .cons ?_
      unfold isWs at hd
      simp only [Bool.or_eq_true, decide_eq_true_iff] at hd
      rcases hd with ((rfl | rfl) | rfl) | rfl <;> decide
    · rw [skip_of (by simpa using hd)] at h
      cases h
      exact .cons hc

theorem whole_ext {s ds r : Str} (h : whole s = some (ds, r)) (hr : r ≠ []) (t : Str) : whole (s ++ t) = some (ds, r ++ t) := by
  cases s with
  | nil => cases h
  | cons d s =>
    unfold whole at h
    rw [List.cons_append]
    unfold whole
    simp only at h ⊢
    split at h
    · next hd => cases h; rw [if_pos hd]
    · next hd =>
      rw [if_neg hd]
      split at h
      · next hdd =>
        rw [if_pos hdd]
        simp only [Option.some.injEq, Prod.mk.injEq] at h
        obtain ⟨rfl, rfl⟩ := h
        obtain ⟨h1, h2⟩ := dropWhile_ext t hr
        rw [← List.cons_append, h1, h2]
      · cases h

theorem fraction_ext {s fr r : Str} (h : fraction s = (fr, r)) (hr : r ≠ []) (hdot : r.head? ≠ some '.') (t : Str) :
    fraction (s ++ t) = (fr, r ++ t) := by
  rcases s with _ | ⟨c, _ | ⟨d, s⟩⟩
  · cases h; exact absurd rfl hr
  · have : fraction [c] = ([], [c]) := rfl
    rw [this] at h
    cases h
    exact fraction_none (by rw [List.cons_append]; simpa using hdot)
  · unfold fraction at h
    rw [List.cons_append, List.cons_append]
    unfold fraction
    simp only at h ⊢
    split at h
    · next hc =>
      rw [if_pos hc]
      simp only [Prod.mk.injEq] at h
      obtain ⟨rfl, rfl⟩ := h
      obtain ⟨h1, h2⟩ := dropWhile_ext t hr
      rw [← List.cons_append, h1, h2]
    · next hc =>
      rw [if_neg hc]
      cases h; rfl

theorem exponent_ext {s ex r : Str} (h : exponent s = (ex, r)) (hr : Stop r) (t : Str) : exponent (s ++ t) = (ex, r ++ t) := by
  have same : r = s → ex = [] → exponent (s ++ t) = (ex, r ++ t) := by
    rintro rfl rfl
    refine exponent_none ?_ ?_
    · cases r with
      | nil => exact absurd rfl hr.1
      | cons c r => intro hc; exact (hr.2 c rfl).2.2.1 (by simpa using hc)
    · cases r with
      | nil => exact absurd rfl hr.1
      | cons c r => intro hc; exact (hr.2 c rfl).2.2.2 (by simpa using hc)
  rcases s with _ | ⟨c, _ | ⟨d, s⟩⟩
  · cases h; exact absurd rfl hr.1
  · have : exponent [c] = ([], [c]) := rfl
    rw [this] at h
    cases h
    exact same rfl rfl
  · unfold exponent at h
    simp only at h
    split at h
    · next hc =>
      split at h
      · next hd =>
        simp only [Prod.mk.injEq] at h
        obtain ⟨rfl, rfl⟩ := h
        obtain ⟨h1, h2⟩ := dropWhile_ext t hr.1
        rw [List.cons_append, List.cons_append]
        unfold exponent
        simp only [if_pos hc, hd, if_true]
        rw [← List.cons_append, h1, h2]
      · next hd =>
        split at h
        · next hs =>
          split at h
          · next f s' =>
            split at h
            · next hf =>
              simp only [Prod.mk.injEq] at h
              obtain ⟨rfl, rfl⟩ := h
              obtain ⟨h1, h2⟩ := dropWhile_ext t hr.1
              rw [List.cons_append, List.cons_append, List.cons_append]
              unfold exponent
              simp only [if_pos hc, if_neg hd, if_pos hs, hf, if_true]
              rw [← List.cons_append, h1, h2]
            · cases h; exact same rfl rfl
          · cases h; exact same rfl rfl
        · cases h; exact same rfl rfl
    · cases h; exact same rfl rfl

theorem fraction_rest {s fr r : Str} (h : fraction s = (fr, r)) : s = fr ++ r := by
  unfold fraction at h
  split at h
  · split at h
    · cases h; rw [List.cons_append, List.takeWhile_append_dropWhile]
    · cases h; rfl
  · cases h; rfl

theorem exponent_rest {s ex r : Str} (h : exponent s = (ex, r)) : s = ex ++ r := by
  unfold exponent at h
  split at h
  · split at h
    · split at h
      · cases h; rw [List.cons_append, List.takeWhile_append_dropWhile]
      · split at h
        · split at h
          · split at h
            · cases h; rw [List.cons_append, List.cons_append, List.takeWhile_append_dropWhile]
            · cases h; rfl
          · cases h; rfl
        · cases h; rfl
    · cases h; rfl
  · cases h; rfl

theorem unsigned_ext (F : Floats) (neg : Bool) {s r : Str} {j : Json} (h : unsigned F neg s = some (.ok (j, r))) (hr : Stop r) (t : Str) :
    unsigned F neg (s ++ t) = some (.ok (j, r ++ t)) := by
  unfold unsigned at h
  split at h
  · cases h
  next ds r0 hw =>
  generalize hf : fraction r0 = f at h
  obtain ⟨fr, r1⟩ := f
  simp only at h
  generalize he : exponent r1 = e at h
  obtain ⟨ex, r2⟩ := e
  simp only at h
  have hr2 : r = r2 := by
    split at h
    · split at h
      · cases h; rfl
      · cases h
    · cases h; rfl
  subst hr2
  have e1 := exponent_rest he
  have f1 := fraction_rest hf
  have hr1 : r1 ≠ [] := by rw [e1]; intro hn; exact hr.1 (List.append_eq_nil_iff.1 hn).2
  have hr0 : r0 ≠ [] := by rw [f1]; intro hn; exact hr1 (List.append_eq_nil_iff.1 hn).2
  have hdot : r1.head? ≠ some '.' := by
    intro hd
    cases r1 with
    | nil => exact hr1 rfl
    | cons c r1 =>
      simp only [List.head?_cons, Option.some.injEq] at hd
      subst hd
      rw [exponent_none (by simp) (by simp)] at he
      cases he
      exact (hr.2 _ rfl).2.1 rfl
  unfold unsigned
  rw [whole_ext hw hr0]
  simp only
  rw [fraction_ext hf hr1 hdot]
  simp only
  rw [exponent_ext he hr]
  simp only
  split at h
  · next hc =>
    rw [if_pos hc]
    split at h
    · next i hi => cases h; rfl
    · cases h
  · next hc =>
    rw [if_neg hc]
    cases h; rfl

theorem prefix_ext {p s : Str} (h : p.isPrefixOf s = true) (t : Str) : p.isPrefixOf (s ++ t) = true ∧ (s ++ t).drop p.length = s.drop p.length ++ t := by
  rw [List.isPrefixOf_iff_prefix] at h ⊢
  refine ⟨h.trans (List.prefix_append _ _), ?_⟩
  rw [List.drop_append_of_le_length h.length_le]

theorem scanConstant_ext {s r : Str} {j : Json} (h : scanConstant s = .ok (j, r)) (t : Str) :
    scanConstant (s ++ t) = .ok (j, r ++ t) ∧ ∃ c s', s = c :: s' ∧ ((c = 'N' ∨ c = 'I') ∨ (c = '-' ∧ s'.head? = some 'I')) := by
  have headOf : ∀ {c : Char} {p s : Str}, (c :: p).isPrefixOf s = true → ∃ s', s = c :: s' := by
    intro c p s h
    rw [List.isPrefixOf_iff_prefix] at h
    obtain ⟨u, rfl⟩ := h
    exact ⟨_, rfl⟩
  have other : ∀ {c d : Char} {p s : Str}, c ≠ d → (c :: p).isPrefixOf (d :: s) = false := by
    intro c d p s hcd
    simp [List.isPrefixOf, hcd]
  unfold scanConstant at h ⊢
  split at h
  · next hp =>
    cases h
    obtain ⟨h1, h2⟩ := prefix_ext hp t
    rw [if_pos h1]
    obtain ⟨s', rfl⟩ := headOf (c := 'N') (p := "aN".toList) hp
    exact ⟨by rw [show (3 : Nat) = "NaN".toList.length from rfl, h2], _, _, rfl, .inl (.inl rfl)⟩
  · split at h
    · next hp =>
      cases h
      obtain ⟨h1, h2⟩ := prefix_ext hp t
      obtain ⟨s', rfl⟩ := headOf (c := 'I') (p := "nfinity".toList) hp
      rw [if_neg (by rw [List.cons_append, show "NaN".toList = 'N' :: "aN".toList from rfl, other (by decide)]; decide), if_pos h1]
      exact ⟨by rw [show (8 : Nat) = "Infinity".toList.length from rfl, h2], _, _, rfl, .inl (.inr rfl)⟩
    · split at h
      · next hp =>
        cases h
        obtain ⟨h1, h2⟩ := prefix_ext hp t
        obtain ⟨s', rfl⟩ := headOf (c := '-') (p := "Infinity".toList) hp
        have hI : ∃ s'', s' = 'I' :: s'' := by
          rw [List.isPrefixOf_iff_prefix] at hp
          obtain ⟨u, hu⟩ := hp
          rw [show "-Infinity".toList = '-' :: 'I' :: "nfinity".toList from rfl, List.cons_append, List.cons_append] at hu
          exact ⟨_, (List.cons.inj hu).2.symm⟩
        obtain ⟨s'', rfl⟩ := hI
        rw [if_neg (by rw [List.cons_append, show "NaN".toList = 'N' :: "aN".toList from rfl, other (by decide)]; decide),
          if_neg (by rw [List.cons_append, show "Infinity".toList = 'I' :: "nfinity".toList from rfl, other (by decide)]; decide), if_pos h1]
        exact ⟨by rw [show (9 : Nat) = "-Infinity".toList.length from rfl, h2], _, _, rfl, .inr ⟨rfl, rfl⟩⟩
      · cases h

theorem unsigned_none (F : Floats) (neg : Bool) {c : Char} {s : Str} (h : c.isDigit = false) : unsigned F neg (c :: s) = none := by
  unfold unsigned
  rw [whole, if_neg (by rintro rfl; exact absurd h (by decide)), if_neg (by rw [h]; decide)]

theorem scanNumber_ext (F : Floats) {s r : Str} {j : Json} (h : scanNumber F s = .ok (j, r)) (hr : Stop r) (t : Str) :
    scanNumber F (s ++ t) = .ok (j, r ++ t) ∧ ∃ c s', s = c :: s' ∧ c ≠ 'n' ∧ c ≠ 't' ∧ c ≠ 'f' := by
  cases s with
  | nil => cases h
  | cons c s =>
    rw [scanNumber] at h
    rw [List.cons_append, scanNumber]
    split at h
    · next hc =>
      rw [if_pos hc]
      refine ⟨?_, c, s, rfl, by subst hc; decide⟩
      cases hu : unsigned F true s with
      | some x =>
        rw [hu, Option.getD_some] at h
        subst h
        rw [unsigned_ext F true hu hr, Option.getD_some]
      | none =>
        rw [hu, Option.getD_none] at h
        obtain ⟨h1, c', s', h2, h3⟩ := scanConstant_ext h t
        cases h2
        subst hc
        rcases h3 with h3 | ⟨-, h3⟩
        · rcases h3 with h3 | h3 <;> cases h3
        · cases s with
          | nil => cases h3
          | cons d s =>
            simp only [List.head?_cons, Option.some.injEq] at h3
            subst h3
            rw [List.cons_append, unsigned_none F true (by decide), Option.getD_none]
            exact h1
    · next hc =>
      rw [if_neg hc]
      cases hu : unsigned F false (c :: s) with
      | some x =>
        rw [hu, Option.getD_some] at h
        subst h
        rw [← List.cons_append, unsigned_ext F false hu hr, Option.getD_some]
        refine ⟨rfl, c, s, rfl, ?_⟩
        have hd : c.isDigit = true := by
          cases hd : c.isDigit with
          | true => rfl
          | false => rw [unsigned_none F false hd] at hu; cases hu
        refine ⟨?_, ?_, ?_⟩ <;> (rintro rfl; exact absurd hd (by decide))
      | none =>
        rw [hu, Option.getD_none] at h
        obtain ⟨h1, c', s', h2, h3⟩ := scanConstant_ext h t
        cases h2
        rcases h3 with h3 | ⟨h3, -⟩
        · have hd : c.isDigit = false ∧ c ≠ 'n' ∧ c ≠ 't' ∧ c ≠ 'f' := by rcases h3 with rfl | rfl <;> decide
          rw [unsigned_none F false hd.1, Option.getD_none]
          exact ⟨h1, c, s, rfl, hd.2⟩
        · exact absurd h3 hc

theorem scan_ext (F : Floats) (n : Nat) :
    (∀ {s r : Str} {j : Json} (t : Str), scan F n s = .ok (j, r) → (Stop r ∨ s.head? = some '{') → scan F n (s ++ t) = .ok (j, r ++ t)) ∧
    (∀ {s r : Str} {js : List Json} (t : Str), scanItems F n s = .ok (js, r) → scanItems F n (s ++ t) = .ok (js, r ++ t)) ∧
    (∀ {s r : Str} {fs : List (String × Json)} (t : Str), scanFields F n s = .ok (fs, r) → scanFields F n (s ++ t) = .ok (fs, r ++ t)) := by
  induction n with
  | zero =>
    refine ⟨?_, ?_, ?_⟩
    · intro s r j t h; rw [scan] at h; cases h
    · intro s r j t h; rw [scanItems] at h; cases h
    · intro s r j t h; rw [scanFields] at h; cases h
  | succ n ih =>
    obtain ⟨ih1, ih2, ih3⟩ := ih
    refine ⟨?_, ?_, ?_⟩
    · intro s r j t h hr
      cases s with
      | nil => rw [scan] at h; cases h
      | cons c s =>
      rw [scan] at h
      rw [List.cons_append, scan]
      split at h
      · next hc =>
        rw [if_pos hc]
        split at h
        · next v r' hs => cases h; rw [scanStr_ext _ t (Nat.le_refl _) hs]
        · cases h
      next hq =>
      rw [if_neg hq]
      split at h
      · next hc =>
        rw [if_pos hc]
        split at h
        · cases h
        next c' r' hsk =>
        rw [skip_ext hsk]
        simp only
        split at h
        · next h1 => cases h; rw [if_pos h1]
        next h1 =>
        rw [if_neg h1]
        split at h
        · next h2 =>
          rw [if_pos h2]
          split at h
          · next ps r'' hf => cases h; rw [ih3 t hf]
          · cases h
        · cases h
      next hb =>
      rw [if_neg hb]
      split at h
      · next hc =>
        rw [if_pos hc]
        split at h
        · cases h
        next d r' hsk =>
        rw [skip_ext hsk]
        simp only
        split at h
        · next h1 => cases h; rw [if_pos h1]
        next h1 =>
        rw [if_neg h1]
        split at h
        · next vs r'' hf => cases h; rw [← List.cons_append, ih2 t hf]
        · cases h
      next hl =>
      rw [if_neg hl]
      replace hr : Stop r := by
        rcases hr with hr | hr
        · exact hr
        · simp only [List.head?_cons, Option.some.injEq] at hr; exact absurd hr hb
      have headOf : ∀ {x : Char} {p : Str}, (x :: p).isPrefixOf (c :: s) = true → c = x := by
        intro x p h
        rw [List.isPrefixOf_iff_prefix] at h
        obtain ⟨u, hu⟩ := h
        exact (List.cons.inj hu).1.symm
      have no : ∀ {x : Char} {p s : Str}, c ≠ x → ¬ (x :: p).isPrefixOf (c :: s) = true := by
        intro x p s h
        simp [List.isPrefixOf, Ne.symm h]
      split at h
      · next hp =>
        cases h
        obtain ⟨h1, h2⟩ := prefix_ext hp t
        rw [List.cons_append] at h1 h2
        rw [if_pos h1, show (4 : Nat) = "null".toList.length from rfl, h2]
      next hp1 =>
      split at h
      · next hp =>
        cases h
        obtain ⟨h1, h2⟩ := prefix_ext hp t
        rw [List.cons_append] at h1 h2
        have hc := headOf (x := 't') (p := "rue".toList) hp
        rw [if_neg (show ¬ "null".toList.isPrefixOf (c :: (s ++ t)) = true from no (x := 'n') (p := "ull".toList) (by rw [hc]; decide)), if_pos h1, show (4 : Nat) = "true".toList.length from rfl, h2]
      next hp2 =>
      split at h
      · next hp =>
        cases h
        obtain ⟨h1, h2⟩ := prefix_ext hp t
        rw [List.cons_append] at h1 h2
        have hc := headOf (x := 'f') (p := "alse".toList) hp
        rw [if_neg (show ¬ "null".toList.isPrefixOf (c :: (s ++ t)) = true from no (x := 'n') (p := "ull".toList) (by rw [hc]; decide)), if_neg (show ¬ "true".toList.isPrefixOf (c :: (s ++ t)) = true from no (x := 't') (p := "rue".toList) (by rw [hc]; decide)), if_pos h1,
          show (5 : Nat) = "false".toList.length from rfl, h2]
      next hp3 =>
      obtain ⟨h1, c', s', h2, h3⟩ := scanNumber_ext F h hr t
      cases h2
      rw [if_neg (show ¬ "null".toList.isPrefixOf (c :: (s ++ t)) = true from no (x := 'n') (p := "ull".toList) h3.1), if_neg (show ¬ "true".toList.isPrefixOf (c :: (s ++ t)) = true from no (x := 't') (p := "rue".toList) h3.2.1), if_neg (show ¬ "false".toList.isPrefixOf (c :: (s ++ t)) = true from no (x := 'f') (p := "alse".toList) h3.2.2)]
      rw [List.cons_append] at h1
      exact h1
    · intro s r js t h
      rw [scanItems] at h ⊢
      split at h
      · cases h
      next v r1 hv =>
      split at h
      · cases h
      next c r2 hsk =>
      have hstop : c = ']' ∨ c = ',' := by
        split at h
        · next hc => exact .inl hc
        · split at h
          · next hc => exact .inr hc
          · cases h
      rw [ih1 t hv (.inl (.skip hsk (by rcases hstop with rfl | rfl <;> decide)))]
      simp only
      rw [skip_ext hsk]
      simp only
      split at h
      · next hc => cases h; rw [if_pos hc]
      next hc =>
      rw [if_neg hc]
      split at h
      · next hc =>
        rw [if_pos hc]
        split at h
        · next vs r3 hi =>
          cases h
          have hne : skip r2 ≠ [] := by
            intro hn
            rw [hn] at hi
            cases n with
            | zero => rw [scanItems] at hi; cases hi
            | succ n =>
              rw [scanItems] at hi
              cases n with
              | zero => rw [scan] at hi; cases hi
              | succ n => rw [scan] at hi; cases hi
          rw [show skip (r2 ++ t) = skip r2 ++ t from (dropWhile_ext t hne).1, ih2 t hi]
        · cases h
      · cases h
    · intro s r fs t h
      rw [scanFields] at h ⊢
      split at h
      · cases h
      next k r1 hk =>
      rw [scanStr_ext _ t (Nat.le_refl _) hk]
      simp only
      split at h
      · cases h
      next c r2 hsk =>
      rw [skip_ext hsk]
      simp only
      split at h
      · next hc =>
        rw [if_pos hc]
        split at h
        · cases h
        next v r3 hv =>
        split at h
        · cases h
        next c2 r4 hsk2 =>
        have hstop : c2 = '}' ∨ c2 = ',' := by
          split at h
          · next hc => exact .inl hc
          · split at h
            · next hc => exact .inr hc
            · cases h
        have hne : skip r2 ≠ [] := by
          intro hn
          rw [hn] at hv
          cases n with
          | zero => rw [scan] at hv; cases hv
          | succ n => rw [scan] at hv; cases hv
        rw [show skip (r2 ++ t) = skip r2 ++ t from (dropWhile_ext t hne).1, ih1 t hv (.inl (.skip hsk2 (by rcases hstop with rfl | rfl <;> decide)))]
        simp only
        rw [skip_ext hsk2]
        simp only
        split at h
        · next hc => cases h; rw [if_pos hc]
        next hc2 =>
        rw [if_neg hc2]
        split at h
        · next hc3 =>
          rw [if_pos hc3]
          split at h
          · cases h
          next c4 r5 hsk3 =>
          rw [skip_ext hsk3]
          simp only
          split at h
          · next hc5 =>
            rw [if_pos hc5]
            split at h
            · next ps r6 hf => cases h; rw [ih3 t hf]
            · cases h
          · cases h
        · cases h
      · cases h

/-- More fuel changes nothing. -/
theorem scan_mono (F : Floats) (n : Nat) :
    (∀ {s : Str} {x}, scan F n s = .ok x → scan F (n + 1) s = .ok x) ∧
    (∀ {s : Str} {x}, scanItems F n s = .ok x → scanItems F (n + 1) s = .ok x) ∧
    (∀ {s : Str} {x}, scanFields F n s = .ok x → scanFields F (n + 1) s = .ok x) := by
  induction n with
  | zero =>
    refine ⟨?_, ?_, ?_⟩
    · intro s x h; rw [scan] at h; cases h
    · intro s x h; rw [scanItems] at h; cases h
    · intro s x h; rw [scanFields] at h; cases h
  | succ n ih =>
    obtain ⟨ih1, ih2, ih3⟩ := ih
    refine ⟨?_, ?_, ?_⟩
    · intro s x h
      cases s with
      | nil => rw [scan] at h; cases h
      | cons c s =>
      rw [scan] at h ⊢
      split at h
      · next hc => rw [if_pos hc]; exact h
      next hq =>
      rw [if_neg hq]
      split at h
      · next hc =>
        rw [if_pos hc]
        split at h
        · cases h
        next c' r' hsk =>
        split at h
        · next h1 => rw [if_pos h1]; exact h
        next h1 =>
        rw [if_neg h1]
        split at h
        · next h2 =>
          rw [if_pos h2]
          split at h
          · next ps r'' hf => rw [ih3 hf]; exact h
          · cases h
        · cases h
      next hb =>
      rw [if_neg hb]
      split at h
      · next hc =>
        rw [if_pos hc]
        split at h
        · cases h
        next d r' hsk =>
        split at h
        · next h1 => rw [if_pos h1]; exact h
        next h1 =>
        rw [if_neg h1]
        split at h
        · next vs r'' hf => rw [ih2 hf]; exact h
        · cases h
      next hl =>
      rw [if_neg hl]
      exact h
    · intro s x h
      rw [scanItems] at h ⊢
      split at h
      · cases h
      next v r1 hv =>
      rw [ih1 hv]
      simp only
      split at h
      · cases h
      next c r2 hsk =>
      split at h
      · next hc => rw [if_pos hc]; exact h
      next hc =>
      rw [if_neg hc]
      split at h
      · next hc =>
        rw [if_pos hc]
        split at h
        · next vs r3 hi => rw [ih2 hi]; exact h
        · cases h
      · cases h
    · intro s x h
      rw [scanFields] at h ⊢
      split at h
      · cases h
      next k r1 hk =>
      split at h
      · cases h
      next c r2 hsk =>
      split at h
      · next hc =>
        rw [if_pos hc]
        split at h
        · cases h
        next v r3 hv =>
        rw [ih1 hv]
        simp only
        split at h
        · cases h
        next c2 r4 hsk2 =>
        split at h
        · next hc => rw [if_pos hc]; exact h
        next hc2 =>
        rw [if_neg hc2]
        split at h
        · next hc3 =>
          rw [if_pos hc3]
          split at h
          · cases h
          next c4 r5 hsk3 =>
          split at h
          · next hc5 =>
            rw [if_pos hc5]
            split at h
            · next ps r6 hf => rw [ih3 hf]; exact h
            · cases h
          · cases h
        · cases h
      · cases h

theorem scan_le (F : Floats) {n m : Nat} (h : n ≤ m) {s : Str} {x} (hs : scan F n s = .ok x) : scan F m s = .ok x := by
  induction m with
  | zero => rw [show n = 0 by omega] at hs; exact hs
  | succ m ih =>
    by_cases hn : n = m + 1
    · subst hn; exact hs
    · exact (scan_mono F m).1 (ih (by omega))

/-- A dictionary's text that is cut short is not readable. -/
theorem loads_cut (F : Floats) (fs : List (String × Json)) (hj : Sendable F (.obj fs)) {p q : Str} (hp : write F (.obj fs) = p ++ q) (hq : q ≠ []) :
    ∃ e, loads F p = .error e := by
  cases h : loads F p with
  | error e => exact ⟨e, rfl⟩
  | ok j =>
    exfalso
    unfold loads at h
    split at h
    · cases h
    split at h
    · cases h
    next j' r hs =>
    cases p with
    | nil => rw [show skip [] = [] from rfl, scan] at hs; cases hs
    | cons c p =>
      have hc : c = '{' := by rw [write, List.cons_append] at hp; exact (List.cons.inj hp).1.symm
      subst hc
      rw [skip_of (by decide)] at hs
      have h1 := (scan_ext F _).1 q hs (.inr rfl)
      have h2 := scan_write F (.obj fs) hj (('{' :: p).length + 1 + (write F (.obj fs)).length) [] (by omega) (by intro c hc; cases hc)
      have h3 := scan_le F (Nat.le_add_right _ (write F (.obj fs)).length) h1
      rw [← hp] at h3
      rw [List.append_nil, h3] at h2
      injection h2 with h2
      injection h2 with h2 h4
      exact hq (List.append_eq_nil_iff.1 h4).2

/-- Nothing but blanks may follow. -/
theorem loads_more (F : Floats) (fs : List (String × Json)) (hj : Sendable F (.obj fs)) (t : Str) (ht : ∃ c ∈ t, isWs c = false) :
    loads F (write F (.obj fs) ++ t) = .error .decode := by
  have h2 := scan_write F (.obj fs) hj ((write F (.obj fs) ++ t).length + 1) [] (by rw [List.length_append]; omega) (by intro c hc; cases hc)
  rw [List.append_nil] at h2
  have h1 := (scan_ext F _).1 t h2 (.inr (by rw [write]; rfl))
  unfold loads
  have hw : write F (.obj fs) = '{' :: (writeFields F fs ++ ['}']) := by rw [write]
  have hs : skip (write F (.obj fs) ++ t) = write F (.obj fs) ++ t := by rw [hw, List.cons_append]; exact skip_of (by decide)
  rw [if_neg (by rw [hw]; simp), hs, h1]
  simp only
  rw [if_neg]
  intro hn
  obtain ⟨c, hc, hw⟩ := ht
  rw [List.nil_append] at hn
  have : ∀ t : Str, skip t = [] → ∀ c ∈ t, isWs c = true := by
    intro t
    unfold skip
    induction t with
    | nil => intro _ c hc; cases hc
    | cons d t ih =>
      intro h c hc
      rw [List.dropWhile_cons] at h
      cases hd : isWs d with
      | false => rw [hd] at h; cases h
      | true =>
        rw [hd, if_pos rfl] at h
        rcases List.mem_cons.1 hc with rfl | hc
        · exact hd
        · exact ih h c hc
  rw [this t hn c hc] at hw
  cases hw

/-- Bytes that are a text and begin another text begin it character by character. -/
theorem encode_prefix : ∀ (a b : Str) (z : Bytes), a.flatMap String.utf8EncodeChar ++ z = b.flatMap String.utf8EncodeChar → ∃ q, b = a ++ q
  | [], b, _, _ => ⟨b, rfl⟩
  | c :: a, [], z, h => by
    rw [List.flatMap_cons, List.flatMap_nil, List.append_assoc, List.append_eq_nil_iff] at h
    exact absurd h.1 String.utf8EncodeChar_ne_nil
  | c :: a, d :: b, z, h => by
    rw [List.flatMap_cons, List.flatMap_cons, List.append_assoc] at h
    have hcd : c = d := by
      have h1 := ByteArray.utf8DecodeChar?_utf8EncodeChar_append (b := (a.flatMap String.utf8EncodeChar ++ z).toByteArray) (c := c)
      have h2 := ByteArray.utf8DecodeChar?_utf8EncodeChar_append (b := (b.flatMap String.utf8EncodeChar).toByteArray) (c := d)
      rw [← List.toByteArray_append] at h1 h2
      rw [h, h2] at h1
      exact (Option.some.inj h1).symm
    subst hcd
    obtain ⟨q, rfl⟩ := encode_prefix a b z (List.append_cancel_left h)
    exact ⟨q, rfl⟩

end Verif.Wire
