import Verif.Grammar.Lemmas

namespace Verif.Grammar

open Verif.Py Verif.Wire Verif.Wire.Spec Verif.Grammar.Spec Verif.Span

theorem spanHex {c : Char} {n : Nat} (h : Hex c n) : Span.hexVal c = some n := by
  have key : ∀ l : List Char, l.length = 16 → (∀ i : Fin 16, (l[i.val]?).bind Span.hexVal = some i.val) → l[n]? = some c → Span.hexVal c = some n := by
    intro l hl hi hc
    obtain ⟨hlt, -⟩ := List.getElem?_eq_some_iff.1 hc
    have := hi ⟨n, by omega⟩
    simp only [hc, Option.bind_some] at this
    exact this
  rcases h with h | h
  · exact key _ (by decide +kernel) (by decide +kernel) h
  · exact key _ (by decide +kernel) (by decide +kernel) h

theorem digits_hex {ds : Str} {n : Nat} (h : Digits ds n) : (∀ c ∈ ds, IsHex c) ∧ hexText ds = n ∧ n < 16 ^ ds.length := by
  obtain ⟨xs, hf, rfl⟩ := h
  have h1 : ∀ c ∈ ds, IsHex c := by
    intro c hc
    induction hf with
    | nil => cases hc
    | cons hx _ ih =>
      rcases List.mem_cons.1 hc with rfl | hc
      · unfold IsHex; rw [spanHex hx]; rfl
      · exact ih hc
  have h2 : ∀ acc, ds.foldl (fun a c => a * 16 + hv c) acc = xs.foldl (fun a x => a * 16 + x) acc := by
    clear h1
    induction hf with
    | nil => intro acc; rfl
    | cons hx _ ih =>
      intro acc
      rw [List.foldl_cons, List.foldl_cons, ih]
      congr 2
      unfold hv
      rw [spanHex hx]
      rfl
  have h3 : ∀ acc, xs.foldl (fun a x => a * 16 + x) acc < (acc + 1) * 16 ^ ds.length := by
    clear h1 h2
    induction hf with
    | nil => intro acc; simp
    | cons hx _ ih =>
      rename_i c x cs xs _
      intro acc
      rw [List.foldl_cons]
      have hlt := (hexVal_hex hx).2
      refine Nat.lt_of_lt_of_le (ih _) ?_
      rw [List.length_cons, Nat.pow_succ, Nat.mul_comm (16 ^ cs.length), ← Nat.mul_assoc]
      exact Nat.mul_le_mul_right _ (by omega)
  refine ⟨h1, h2 0, ?_⟩
  have := h3 0
  simpa using this

theorem uuid_trace {t : Str} {n : Nat} (h : TraceText t n) : uuidOfHex t = .ok n := by
  obtain ⟨a, b, c, d, e, rfl, ha, hb, hc, hd, he, hn⟩ := h
  obtain ⟨h1, h2, h3⟩ := digits_hex hn
  have hm : ∀ x ∈ a ++ '-' :: (b ++ '-' :: (c ++ '-' :: (d ++ '-' :: e))), x = '-' ∨ IsHex x := by
    intro x hx
    have hx' : x = '-' ∨ x ∈ a ++ b ++ c ++ d ++ e := by
      simp only [List.mem_append, List.mem_cons] at hx ⊢
      tauto
    exact hx'.imp id (h1 x)
  have hu : 'u' ∉ a ++ '-' :: (b ++ '-' :: (c ++ '-' :: (d ++ '-' :: e))) := by
    intro hx
    rcases hm _ hx with e | e
    · exact absurd e (by decide)
    · exact absurd e (by decide)
  have hbr : ∀ x ∈ a ++ '-' :: (b ++ '-' :: (c ++ '-' :: (d ++ '-' :: e))), x ≠ '{' ∧ x ≠ '}' := by
    intro x hx
    rcases hm x hx with rfl | e
    · decide
    · exact ⟨e.ne.2.2.2.2.2.2.2.1, e.ne.2.2.2.2.2.2.2.2.1⟩
  have hkeep : ∀ l : Str, (∀ x ∈ l, IsHex x) → l.filter (fun c => c ≠ '-') = l := by
    intro l hl
    rw [List.filter_eq_self]
    intro x hx
    simp [(hl x hx).ne.2.2.2.1]
  have hfilter : (a ++ '-' :: (b ++ '-' :: (c ++ '-' :: (d ++ '-' :: e)))).filter (fun c => c ≠ '-') = a ++ b ++ c ++ d ++ e := by
    have m : ∀ l : Str, (∀ x ∈ l, x ∈ a ++ b ++ c ++ d ++ e) → ∀ x ∈ l, IsHex x := fun l hl x hx => h1 x (hl x hx)
    have ka := hkeep a (m a (by intro x hx; simp only [List.mem_append]; tauto))
    have kb := hkeep b (m b (by intro x hx; simp only [List.mem_append]; tauto))
    have kc := hkeep c (m c (by intro x hx; simp only [List.mem_append]; tauto))
    have kd := hkeep d (m d (by intro x hx; simp only [List.mem_append]; tauto))
    have ke := hkeep e (m e (by intro x hx; simp only [List.mem_append]; tauto))
    have hcons : ∀ l : Str, ('-' :: l).filter (fun c => c ≠ '-') = l.filter (fun c => c ≠ '-') := fun l => by simp
    simp only [List.filter_append, hcons, ka, kb, kc, kd, ke, List.append_assoc]
  have hlen : (a ++ b ++ c ++ d ++ e).length = 32 := by simp only [List.length_append]; omega
  unfold uuidOfHex
  simp only [removeAll_none (pat := ['u', 'r', 'n', ':']) rfl hu, removeAll_none (pat := ['u', 'u', 'i', 'd', ':']) rfl hu,
    stripBraces_noop hbr, hfilter]
  rw [if_neg (by rw [hlen]; decide), pyInt16_hex h1 (by intro h0; rw [h0] at hlen; simp at hlen)]
  simp only
  rw [h2]
  rw [hlen] at h3
  rw [if_pos ⟨by omega, by rw [show (16 : Nat) ^ 32 = 2 ^ 128 by decide] at h3; exact_mod_cast h3⟩]
  rfl

theorem spanId_digits {s : Str} {n : Nat} (hl : s.length = 16) (h : Digits s n) : SpanId.ofHex s = .ok ⟨n⟩ := by
  obtain ⟨h1, h2, h3⟩ := digits_hex h
  unfold SpanId.ofHex
  rw [if_neg (by simp [hl]), pyInt16_hex h1 (by intro h0; rw [h0] at hl; simp at hl)]
  simp only [h2]

theorem spanOf_keyIn {j : Json} {k : SpanKey} (h : KeyIn j k) : spanOf j = some k := by
  obtain ⟨fs, rfl, ⟨t, ht, htt⟩, h⟩ := h
  rcases h with ⟨s, n, hs, hl, hd, hv⟩ | ⟨hs, h0, h1⟩
  · unfold spanOf
    simp only [ht, hs, uuid_trace htt, spanId_digits hl hd]
    rw [← hv]
  · unfold spanOf
    simp only [ht, hs, uuid_trace htt, SpanId.ofInt, if_pos (And.intro h0 h1)]

end Verif.Grammar
