import Verif.Address.Url
import Verif.Address.UrlSpec
import Mathlib.Data.List.TakeWhile
import Mathlib.Tactic.Tauto

/-! C91: what is accepted as a URL. -/

namespace Verif.Address

open Verif.Py Spec

theorem letter_iff (c : Char) : (isAscii c && c.isAlpha) = true ↔ Letter c := by
  have h1 : c.isUpper = true ↔ 'A' ≤ c ∧ c ≤ 'Z' := by
    simp only [Char.isUpper, Bool.and_eq_true, decide_eq_true_eq]; exact Iff.rfl
  have h2 : c.isLower = true ↔ 'a' ≤ c ∧ c ≤ 'z' := by
    simp only [Char.isLower, Bool.and_eq_true, decide_eq_true_eq]; exact Iff.rfl
  have h3 : Letter c → c.toNat < 128 := by
    rintro (⟨_, h⟩ | ⟨_, h⟩)
    · exact Nat.lt_of_le_of_lt (show c.toNat ≤ 122 from h) (by decide)
    · exact Nat.lt_of_le_of_lt (show c.toNat ≤ 90 from h) (by decide)
  simp only [isAscii, Char.isAlpha, Bool.and_eq_true, Bool.or_eq_true, decide_eq_true_eq, h1, h2]
  constructor
  · rintro ⟨-, h | h⟩
    · exact .inr h
    · exact .inl h
  · intro h
    exact ⟨h3 h, h.symm⟩

theorem schemeChar_iff (c : Char) : isSchemeChar c = true ↔ Letter c ∨ ('0' ≤ c ∧ c ≤ '9') ∨ c = '+' ∨ c = '-' ∨ c = '.' := by
  have hd : c.isDigit = true ↔ '0' ≤ c ∧ c ≤ '9' := by
    simp only [Char.isDigit, Bool.and_eq_true, decide_eq_true_eq]; exact Iff.rfl
  have h3 : ('0' ≤ c ∧ c ≤ '9') → c.toNat < 128 := fun h => Nat.lt_of_le_of_lt (show c.toNat ≤ 57 from h.2) (by decide)
  have hl := letter_iff c
  simp only [isAscii, Bool.and_eq_true, decide_eq_true_eq] at hl
  simp only [isSchemeChar, isAscii, Bool.and_eq_true, Bool.or_eq_true, decide_eq_true_eq, hd]
  constructor
  · rintro ⟨h, (((h1 | h1) | h1) | h1) | h1⟩
    · exact .inl (hl.1 ⟨h, h1⟩)
    · exact .inr (.inl h1)
    · exact .inr (.inr (.inl h1))
    · exact .inr (.inr (.inr (.inl h1)))
    · exact .inr (.inr (.inr (.inr h1)))
  · rintro (h | h | rfl | rfl | rfl)
    · exact ⟨(hl.2 h).1, .inl (.inl (.inl (.inl (hl.2 h).2)))⟩
    · exact ⟨h3 h, .inl (.inl (.inl (.inr h)))⟩
    · decide
    · decide
    · decide

theorem scheme_no_colon {s : Str} (h : Scheme s) : ∀ x ∈ s, x ≠ ':' := by
  obtain ⟨c, cs, rfl, h1, h2⟩ := h
  have key : ∀ x, (Letter x ∨ ('0' ≤ x ∧ x ≤ '9') ∨ x = '+' ∨ x = '-' ∨ x = '.') → x ≠ ':' := by
    rintro x hx rfl
    exact absurd ((schemeChar_iff ':').2 hx) (by decide)
  intro x hx
  rcases List.mem_cons.1 hx with rfl | hx
  · exact key _ (.inl h1)
  · exact key _ (h2 x hx)

theorem takeWhile_stop {p : Char → Bool} {a : Str} {c : Char} {b : Str} (ha : ∀ x ∈ a, p x = true) (hc : p c = false) :
    (a ++ c :: b).takeWhile p = a := by
  induction a with
  | nil => simp [hc]
  | cons x a ih =>
    rw [List.cons_append, List.takeWhile_cons, if_pos (ha x (.head _)), ih (fun y hy => ha y (.tail _ hy))]

/-- A scheme is found exactly if there is one before the first colon. -/
theorem splitScheme_iff (t x r : Str) (hx : x ≠ []) :
    splitScheme t = (x, r) ↔ ∃ scheme, Scheme scheme ∧ t = scheme ++ ':' :: r ∧ x = Str.lower scheme := by
  constructor
  · intro h
    unfold splitScheme at h
    simp only at h
    split at h
    · next hc =>
      simp only [Bool.and_eq_true, List.contains_iff_mem, ne_eq, decide_not, Bool.not_eq_true', decide_eq_false_iff_not] at hc
      obtain ⟨hmem, hb⟩ := hc
      cases t with
      | nil => cases hmem
      | cons c cs =>
        simp only at h
        split at h
        · next hl =>
          split at h
          · next hall =>
            simp only [Prod.mk.injEq] at h
            obtain ⟨h1, h2⟩ := h
            have hsplit : (c :: cs) = (c :: cs).takeWhile (· ≠ ':') ++ ':' :: r := by
              have e := List.takeWhile_append_dropWhile (p := fun x : Char => decide (x ≠ ':')) (l := c :: cs)
              have hd : (c :: cs).dropWhile (· ≠ ':') = ':' :: r := by
                cases hdw : (c :: cs).dropWhile (fun x : Char => decide (x ≠ ':')) with
                | nil =>
                  exfalso
                  rw [List.dropWhile_eq_nil_iff] at hdw
                  have := hdw ':' hmem
                  simp at this
                | cons y ys =>
                  have hy : y = ':' := by
                    have := List.head_dropWhile_not (fun x : Char => decide (x ≠ ':')) (l := c :: cs) (by rw [hdw]; simp)
                    simp only [hdw, List.head_cons] at this
                    simpa using this
                  subst hy
                  rw [hdw] at e
                  have key : ∀ (a b l : Str) (z : Char), a ++ z :: b = l → l.drop (a.length + 1) = b := by
                    rintro a b l z rfl
                    rw [List.drop_append]
                    simp
                  rw [key _ _ _ _ e] at h2
                  rw [h2]
              rw [hd] at e
              exact e.symm
            refine ⟨(c :: cs).takeWhile (· ≠ ':'), ?_, hsplit, h1.symm⟩
            have hcne : c ≠ ':' := by
              rintro rfl
              simp at hb
            have htw : (c :: cs).takeWhile (· ≠ ':') = c :: cs.takeWhile (· ≠ ':') := by
              rw [List.takeWhile_cons, if_pos (by simpa using hcne)]
            refine ⟨c, cs.takeWhile (· ≠ ':'), htw, (letter_iff c).1 hl, ?_⟩
            intro y hy
            rw [htw] at hall
            exact (schemeChar_iff y).1 (List.all_eq_true.1 hall y (.tail _ hy))
          · simp only [Prod.mk.injEq] at h; exact absurd h.1.symm hx
        · simp only [Prod.mk.injEq] at h; exact absurd h.1.symm hx
    · simp only [Prod.mk.injEq] at h; exact absurd h.1.symm hx
  · rintro ⟨scheme, hs, rfl, rfl⟩
    have hnc := scheme_no_colon hs
    have htw : (scheme ++ ':' :: r).takeWhile (· ≠ ':') = scheme :=
      takeWhile_stop (fun x hx => by simpa using hnc x hx) (by simp)
    obtain ⟨c, cs, rfl, h1, h2⟩ := hs
    unfold splitScheme
    simp only [htw]
    rw [if_pos (by simp)]
    simp only [List.cons_append]
    rw [if_pos ((letter_iff c).2 h1), if_pos]
    · simp
    · rw [List.all_eq_true]
      intro y hy
      rw [schemeChar_iff]
      rcases List.mem_cons.1 hy with rfl | hy
      · exact .inl h1
      · exact h2 y hy

/-- **C91, every text.** What is accepted, in general: after leaving out control characters and spaces at the beginning, and tabs, line
feeds and carriage returns everywhere, there is a scheme, "://" and an authority; brackets come in pairs around an acceptable host, and
characters beyond ASCII are acceptable. -/
theorem C91_general (u : UrlBeyond) (s : Str) : isUrl u s = true ↔
    ∃ scheme authority rest, (s.dropWhile (fun c => c.toNat ≤ 32)).filter (fun c => ¬ (c = '\t' ∨ c = '\r' ∨ c = '\n')) =
        scheme ++ "://".toList ++ authority ++ rest ∧
      Scheme scheme ∧ authority ≠ [] ∧ (∀ c ∈ authority, ¬ Ends c) ∧ (rest = [] ∨ ∃ c cs, rest = c :: cs ∧ Ends c) ∧
      ('[' ∈ authority ↔ ']' ∈ authority) ∧
      ('[' ∈ authority → u.bracketed (((authority.dropWhile (· ≠ '[')).drop 1).takeWhile (· ≠ ']')) = true) ∧
      ((∃ c ∈ authority, 128 ≤ c.toNat) → u.normal authority = true) := by
  have hclean : (s.dropWhile (fun c => c.toNat ≤ 32)).filter (fun c => ¬ (c = '\t' ∨ c = '\r' ∨ c = '\n')) = cleanUrl s := by
    unfold cleanUrl isControlOrSpace isUnsafe
    congr 1
    funext c
    rw [Bool.eq_iff_iff]
    simp only [not_or, decide_eq_true_eq, Bool.not_eq_true', Bool.or_eq_false_iff, decide_eq_false_iff_not]
    tauto
  rw [hclean]
  have hends : ∀ c : Char, (!(decide (c = '/') || decide (c = '?') || decide (c = '#'))) = true ↔ ¬ Ends c := by
    intro c
    simp only [Ends, Bool.not_eq_true', Bool.or_eq_false_iff, decide_eq_false_iff_not, not_or]
    tauto
  have hsl : "://".toList = [':', '/', '/'] := by decide +kernel
  have hss : "//".toList = ['/', '/'] := by decide +kernel
  constructor
  · intro h
    unfold isUrl at h
    cases hp : urlparse u s with
    | error e => rw [hp] at h; simp at h
    | ok x =>
      obtain ⟨scheme', netloc⟩ := x
      rw [hp] at h
      simp only [ne_eq, Bool.and_eq_true, decide_not, Bool.not_eq_true', decide_eq_false_iff_not] at h
      unfold urlparse at hp
      rcases hsp : splitScheme (cleanUrl s) with ⟨x, r⟩
      simp only [hsp] at hp
      split at hp
      · next ht =>
        split at hp
        · simp at hp
        next hbr =>
        split at hp
        · simp at hp
        next hbh =>
        split at hp
        · simp at hp
        next hno =>
        simp only [Except.ok.injEq, Prod.mk.injEq] at hp
        obtain ⟨rfl, rfl⟩ := hp
        obtain ⟨scheme, h1, h2, h3⟩ := (splitScheme_iff _ _ _ h.1).1 hsp
        have hr : r = '/' :: '/' :: (netlocOf r ++ (r.drop 2).dropWhile fun c => !(c = '/' || c = '?' || c = '#')) := by
          unfold netlocOf
          rw [List.takeWhile_append_dropWhile]
          have := List.take_append_drop 2 r
          rw [ht, hss] at this
          exact this.symm
        refine ⟨scheme, netlocOf r, (r.drop 2).dropWhile fun c => !(c = '/' || c = '?' || c = '#'), ?_, h1, h.2, ?_, ?_, ?_, ?_, ?_⟩
        · rw [h2, hsl]
          conv => lhs; rw [hr]
          simp
        · intro c hc
          exact (hends c).1 (List.mem_takeWhile_imp (p := fun c : Char => !(decide (c = '/') || decide (c = '?') || decide (c = '#'))) hc)
        · cases hd : (r.drop 2).dropWhile (fun c => !(decide (c = '/') || decide (c = '?') || decide (c = '#'))) with
          | nil => exact .inl rfl
          | cons c cs =>
            refine .inr ⟨c, cs, rfl, ?_⟩
            have := List.head_dropWhile_not (fun c : Char => !(decide (c = '/') || decide (c = '?') || decide (c = '#'))) (l := r.drop 2)
              (by rw [hd]; simp)
            simp only [hd, List.head_cons] at this
            by_contra hc
            rw [(hends c).2 hc] at this
            simp at this
        · simp only [List.contains_iff_mem, Bool.or_eq_true, Bool.and_eq_true, Bool.not_eq_true'] at hbr
          rw [not_or] at hbr
          constructor
          · intro hm
            by_contra hm'
            exact hbr.1 ⟨hm, by rw [Bool.eq_false_iff, ne_eq, List.contains_iff_mem]; exact hm'⟩
          · intro hm
            by_contra hm'
            exact hbr.2 ⟨hm, by rw [Bool.eq_false_iff, ne_eq, List.contains_iff_mem]; exact hm'⟩
        · intro hm
          simp only [List.contains_iff_mem, Bool.or_eq_true, Bool.and_eq_true, Bool.not_eq_true'] at hbr hbh
          have hm' : ']' ∈ netlocOf r := by
            by_contra hm'
            exact hbr (.inl ⟨hm, by rw [Bool.eq_false_iff, ne_eq, List.contains_iff_mem]; exact hm'⟩)
          by_contra hb
          rw [Bool.not_eq_true] at hb
          exact hbh ⟨⟨hm, hm'⟩, hb⟩
        · rintro ⟨c, hc, hge⟩
          by_contra hb
          rw [Bool.not_eq_true] at hb
          apply hno
          simp only [Bool.and_eq_true, Bool.not_eq_true', Bool.or_eq_false_iff, decide_eq_false_iff_not]
          refine ⟨⟨h.2, ?_⟩, hb⟩
          rw [Bool.eq_false_iff, ne_eq, List.all_eq_true]
          intro hall
          have := hall c hc
          simp only [isAscii, decide_eq_true_eq] at this
          omega
      · simp only [Except.ok.injEq, Prod.mk.injEq] at hp
        exact absurd hp.2.symm h.2
  · rintro ⟨scheme, authority, rest, h1, h2, h3, h4, h5, h6, h7, h8⟩
    have hsp : splitScheme (cleanUrl s) = (Str.lower scheme, '/' :: '/' :: (authority ++ rest)) := by
      have hne : Str.lower scheme ≠ [] := by
        obtain ⟨c, cs, rfl, _⟩ := h2
        simp [Str.lower]
      rw [splitScheme_iff _ _ _ hne]
      exact ⟨scheme, h2, by rw [h1, hsl]; simp, rfl⟩
    have hnet : netlocOf ('/' :: '/' :: (authority ++ rest)) = authority := by
      unfold netlocOf
      simp only [List.drop_succ_cons, List.drop_zero]
      rcases h5 with rfl | ⟨c, cs, rfl, hc⟩
      · rw [List.append_nil, List.takeWhile_eq_self_iff]
        exact fun x hx => (hends x).2 (h4 x hx)
      · refine takeWhile_stop (fun x hx => (hends x).2 (h4 x hx)) ?_
        rw [Bool.eq_false_iff]
        intro hh
        exact (hends c).1 hh hc
    have hp : urlparse u s = .ok (Str.lower scheme, authority) := by
      unfold urlparse
      simp only [hsp, hnet]
      rw [if_pos (by rw [hss]; rfl), if_neg, if_neg, if_neg]
      · simp only [Bool.and_eq_true, Bool.not_eq_true', Bool.or_eq_false_iff, decide_eq_false_iff_not]
        rintro ⟨⟨_, ha⟩, hn⟩
        rw [Bool.eq_false_iff, ne_eq, List.all_eq_true] at ha
        rw [not_forall] at ha
        obtain ⟨c, hc⟩ := ha
        rw [Classical.not_imp] at hc
        have hge : 128 ≤ c.toNat := by
          have := hc.2
          simp only [isAscii, decide_eq_true_eq] at this
          omega
        rw [h8 ⟨c, hc.1, hge⟩] at hn
        simp at hn
      · simp only [List.contains_iff_mem, Bool.and_eq_true, Bool.not_eq_true']
        rintro ⟨⟨hm, _⟩, hb⟩
        have := h7 hm
        unfold bracketedHost at hb
        rw [hb] at this
        simp at this
      · simp only [List.contains_iff_mem, Bool.or_eq_true, Bool.and_eq_true, Bool.not_eq_true', Bool.eq_false_iff, ne_eq]
        rintro (⟨ha, hb⟩ | ⟨ha, hb⟩)
        · exact hb (h6.1 ha)
        · exact hb (h6.2 ha)
    unfold isUrl
    rw [hp]
    obtain ⟨c, cs, rfl, _⟩ := h2
    simp [Str.lower, h3]

/-- **C91.** A text of visible ASCII characters without brackets is accepted exactly if it is a scheme, "://", an authority and,
possibly, more. -/
theorem C91_simple_partial (u : UrlBeyond) (s : Str) (hs : Simple s) : isUrl u s = true ↔ Url s := by
  rw [C91_general]
  have hclean : (s.dropWhile (fun c => c.toNat ≤ 32)).filter (fun c => ¬ (c = '\t' ∨ c = '\r' ∨ c = '\n')) = s := by
    have h1 : s.dropWhile (fun c => decide (c.toNat ≤ 32)) = s := by
      cases s with
      | nil => rfl
      | cons c cs =>
        have := (hs c (.head _)).1
        rw [List.dropWhile_cons, if_neg (by simp only [decide_eq_true_eq]; omega)]
    rw [h1, List.filter_eq_self]
    intro c hc
    have := (hs c hc).1
    simp only [decide_eq_true_eq]
    rintro (rfl | rfl | rfl) <;> exact absurd this (by decide)
  rw [hclean]
  constructor
  · rintro ⟨scheme, authority, rest, h1, h2, h3, h4, h5, -⟩
    exact ⟨scheme, authority, rest, h1, h2, h3, h4, h5⟩
  · rintro ⟨scheme, authority, rest, h1, h2, h3, h4, h5⟩
    have ha : ∀ c ∈ authority, c ∈ s := fun c hc => by rw [h1]; simp [hc]
    have hb : '[' ∉ authority := fun h => (hs _ (ha _ h)).2.2.1 rfl
    have hb' : ']' ∉ authority := fun h => (hs _ (ha _ h)).2.2.2 rfl
    refine ⟨scheme, authority, rest, h1, h2, h3, h4, h5, ⟨fun h => absurd h hb, fun h => absurd h hb'⟩, fun h => absurd h hb, ?_⟩
    rintro ⟨c, hc, hge⟩
    have := (hs c (ha c hc)).2.1
    omega

/-- Nothing in brackets and nothing beyond ASCII is accepted, for examples. -/
def exNone : UrlBeyond := { bracketed := fun _ => false, normal := fun _ => false }

example : isUrl exNone "http://localhost:8086".toList = true ∧ isUrl exNone "localhost:8086".toList = false ∧
    isUrl exNone "http:///path".toList = false ∧ isUrl exNone "1http://x".toList = false ∧ isUrl exNone "h+2.x-y://x?q#f".toList = true ∧
    isUrl exNone "http://[::1]:8086".toList = false := by decide +kernel

example : Simple "http://localhost:8086".toList := by
  unfold Simple; decide +kernel

/-- Texts with spaces and line feeds in them are accepted though they are no URLs, and so is a URL whose authority names no host, or no port
that exists. -/
theorem C91_refuted (u : UrlBeyond) :
    (isUrl u " \nht\ntp://x".toList = true ∧ ¬ Url " \nht\ntp://x".toList) ∧ isUrl u "http://a b".toList = true ∧
    isUrl u "http://:99999".toList = true ∧ isUrl u "http://@".toList = true := by
  refine ⟨⟨by rfl, ?_⟩, by rfl, by rfl, by rfl⟩
  rintro ⟨scheme, authority, rest, h, ⟨c, cs, rfl, hl, _⟩, _⟩
  have h2 : " \nht\ntp://x".toList.head? = some ' ' := by decide +kernel
  rw [h] at h2
  simp only [List.cons_append, List.head?_cons, Option.some.injEq] at h2
  subst h2
  exact absurd ((letter_iff ' ').2 hl) (by decide)

end Verif.Address
