import Verif.Wiring.Spec
import Verif.Py.DictLemmas
import Mathlib.Data.List.Nodup
import Mathlib.Data.List.Induction
import Mathlib.Data.Nat.Find
import Mathlib.Tactic.Common

/-!
# Lemmas on declarations
-/

namespace Verif.Wiring

open Verif.Py

theorem declareAll_append (s : St) (ds es : List Decl) : declareAll s (ds ++ es) = declareAll (declareAll s ds) es := by
  induction ds generalizing s with
  | nil => rfl
  | cons d ds ih => exact ih _

/-- What the tables have after the declarations `ds`. -/
structure Tables (ds : List Decl) (s : St) : Prop where
  made : s.made = ds.map fun d => (d, 0)
  nodup : (Dict.keys s.table).Nodup
  snodup : (Dict.keys s.senders).Nodup
  table : ∀ r i, s.table.get? r = some i ↔ FirstFor ds r i
  handlers : ∀ r i, s.handlers.get? r = some i ↔ ds[i]? = some (.bufferedEndpoint r) ∧ FirstFor ds r i
  senders : ∀ r i, s.senders.get? r = some i ↔ LastFor ds r i

theorem firstFor_lt {ds : List Decl} {r i} (h : FirstFor ds r i) : i < ds.length := by
  rcases Nat.lt_or_ge i ds.length with h1 | h1
  · exact h1
  · have := h.1
    rw [List.getElem?_eq_none h1] at this
    cases this

theorem lastFor_lt {ds : List Decl} {r i} (h : LastFor ds r i) : i < ds.length := by
  rcases Nat.lt_or_ge i ds.length with h1 | h1
  · exact h1
  · have := h.1
    rw [List.getElem?_eq_none h1] at this
    cases this

theorem get_snoc (ds : List Decl) (d : Decl) (i : Nat) : (ds ++ [d])[i]? = if i < ds.length then ds[i]? else if i = ds.length then some d else none := by
  split
  · rename_i h; rw [List.getElem?_append_left h]
  · rename_i h
    split
    · rename_i e; subst e; simp
    · rw [List.getElem?_eq_none]; simp; omega

/-- The first endpoint of a longer list. -/
theorem firstFor_snoc (ds : List Decl) (d : Decl) (r : String) (i : Nat) :
    FirstFor (ds ++ [d]) r i ↔ FirstFor ds r i ∨ (i = ds.length ∧ d.routed = some r ∧ ∀ j, ¬ FirstFor ds r j) := by
  constructor
  · rintro ⟨h1, h2⟩
    rcases Nat.lt_trichotomy i ds.length with h | h | h
    · left
      rw [List.getElem?_append_left h] at h1
      refine ⟨h1, fun j hj => ?_⟩
      have := h2 j hj
      rwa [List.getElem?_append_left (by omega)] at this
    · right
      subst h
      refine ⟨rfl, by simpa using h1, fun j hj => ?_⟩
      have := h2 j (firstFor_lt hj)
      rw [List.getElem?_append_left (firstFor_lt hj)] at this
      exact this hj.1
    · rw [List.getElem?_eq_none (by simp; omega)] at h1
      cases h1
  · rintro (h | ⟨rfl, h1, h2⟩)
    · have := firstFor_lt h
      refine ⟨by rw [List.getElem?_append_left this]; exact h.1, fun j hj => ?_⟩
      rw [List.getElem?_append_left (by omega)]
      exact h.2 j hj
    · refine ⟨by simpa using h1, fun j hj h3 => ?_⟩
      rw [List.getElem?_append_left hj] at h3
      -- the least such index is a first one
      have : ∃ n, n < ds.length ∧ (ds[n]?.bind Decl.routed) = some r := ⟨j, hj, h3⟩
      classical
      have hm := Nat.find_spec this
      refine h2 (Nat.find this) ⟨hm.2, fun k hk h4 => Nat.find_min this hk ⟨by omega, h4⟩⟩

theorem lastFor_snoc (ds : List Decl) (d : Decl) (r : String) (i : Nat) :
    LastFor (ds ++ [d]) r i ↔ if d = .bufferedSender r then i = ds.length else LastFor ds r i := by
  constructor
  · rintro ⟨h1, h2⟩
    split
    · rename_i e
      rcases Nat.lt_trichotomy i ds.length with h | h | h
      · exact absurd (by simp [e]) (h2 ds.length h)
      · exact h
      · rw [List.getElem?_eq_none (by simp; omega)] at h1
        cases h1
    · rename_i e
      rcases Nat.lt_trichotomy i ds.length with h | h | h
      · rw [List.getElem?_append_left h] at h1
        refine ⟨h1, fun j hj h3 => ?_⟩
        have hl : j < ds.length := by
          rcases Nat.lt_or_ge j ds.length with h4 | h4
          · exact h4
          · rw [List.getElem?_eq_none h4] at h3; cases h3
        exact h2 j hj (by rw [List.getElem?_append_left hl, h3])
      · subst h
        simp only [List.getElem?_concat_length, Option.some.injEq] at h1
        exact absurd h1 e
      · rw [List.getElem?_eq_none (by simp; omega)] at h1
        cases h1
  · intro h
    split at h
    · rename_i e
      subst h
      refine ⟨by simp [e], fun j hj h3 => ?_⟩
      rw [List.getElem?_eq_none (by simp; omega)] at h3
      cases h3
    · rename_i e
      have hl := lastFor_lt h
      refine ⟨by rw [List.getElem?_append_left hl]; exact h.1, fun j hj h3 => ?_⟩
      rw [get_snoc] at h3
      split at h3
      · exact h.2 j hj h3
      · split at h3
        · exact e (Option.some.inj h3)
        · cases h3

theorem tables_all (ds : List Decl) : Tables ds (declareAll {} ds) := by
  induction ds using List.reverseRecOn with
  | nil =>
    refine ⟨rfl, by simp [declareAll, Dict.keys], by simp [declareAll, Dict.keys], ?_, ?_, ?_⟩
    · intro r i; simp [declareAll, Dict.get?, FirstFor]
    · intro r i; simp [declareAll, Dict.get?]
    · intro r i; simp [declareAll, Dict.get?, LastFor]
  | append_singleton ds d ih =>
    rw [declareAll_append]
    generalize declareAll {} ds = s at ih
    have hlen : s.made.length = ds.length := by rw [ih.made]; simp
    have hhas : ∀ r, s.table.has r = true ↔ ∃ j, FirstFor ds r j := by
      intro r
      unfold Dict.has
      rw [Option.isSome_iff_exists]
      exact exists_congr fun j => ih.table r j
    have htab : ∀ r0, d.routed = some r0 → s.table.has r0 = false → ∀ r i, (s.table.set r0 s.made.length).get? r = some i ↔ FirstFor (ds ++ [d]) r i := by
      intro r0 hd hh r i
      rw [firstFor_snoc, Dict.get?_set, hlen]
      have hno : ∀ j, ¬ FirstFor ds r0 j := fun j hj => by
        have := (hhas r0).mpr ⟨j, hj⟩
        rw [hh] at this
        cases this
      by_cases e : r0 = r
      · subst e
        simp only [if_true, Option.some.injEq, hd, true_and]
        constructor
        · rintro rfl; exact .inr ⟨rfl, hno⟩
        · rintro (h | ⟨h, _⟩)
          · exact absurd h (hno i)
          · exact h.symm
      · have e' : ¬ d.routed = some r := by rw [hd]; simpa using e
        simp only [e, if_false, ih.table r i, e', false_and, and_false, or_false]
    have hold : ∀ r0, d.routed = some r0 → s.table.has r0 = true → ∀ r i, s.table.get? r = some i ↔ FirstFor (ds ++ [d]) r i := by
      intro r0 hd hh r i
      obtain ⟨j0, hj0⟩ := (hhas r0).mp hh
      rw [firstFor_snoc, ih.table r i]
      constructor
      · exact .inl
      · rintro (h | ⟨_, h1, h2⟩)
        · exact h
        · rw [hd] at h1
          cases h1
          exact absurd hj0 (h2 j0)
    have hsen : (∀ r, d ≠ .bufferedSender r) → ∀ r i, s.senders.get? r = some i ↔ LastFor (ds ++ [d]) r i := by
      intro hd r i
      rw [lastFor_snoc, if_neg (hd r), ih.senders r i]
    have hmade : s.made ++ [(d, 0)] = (ds ++ [d]).map fun d => (d, 0) := by rw [ih.made]; simp
    have keep : ∀ {r i}, FirstFor ds r i → (ds ++ [d])[i]? = ds[i]? := fun h => List.getElem?_append_left (firstFor_lt h)
    simp only [declareAll]
    cases d with
    | endpoint r0 =>
      simp only [declare, register]
      have hh' : ∀ r i, s.handlers.get? r = some i ↔ (ds ++ [.endpoint r0])[i]? = some (.bufferedEndpoint r) ∧ FirstFor (ds ++ [.endpoint r0]) r i := by
        intro r i
        rw [ih.handlers r i, firstFor_snoc]
        constructor
        · rintro ⟨h1, h2⟩; exact ⟨by rw [keep h2]; exact h1, .inl h2⟩
        · rintro ⟨h1, h2 | ⟨rfl, _⟩⟩
          · exact ⟨by rw [← keep h2]; exact h1, h2⟩
          · simp at h1
      cases hh : s.table.has r0 with
      | true => simp only [if_true]; exact ⟨hmade, ih.nodup, ih.snodup, hold r0 rfl hh, hh', hsen (by simp)⟩
      | false => simp only [Bool.false_eq_true, if_false]; exact ⟨hmade, Dict.nodup_keys_set _ _ _ ih.nodup, ih.snodup, htab r0 rfl hh, hh', hsen (by simp)⟩
    | bufferedEndpoint r0 =>
      simp only [declare, register]
      cases hh : s.table.has r0 with
      | true =>
        have hh' : ∀ r i, s.handlers.get? r = some i ↔ (ds ++ [.bufferedEndpoint r0])[i]? = some (.bufferedEndpoint r) ∧ FirstFor (ds ++ [.bufferedEndpoint r0]) r i := by
          intro r i
          rw [ih.handlers r i, ← hold r0 rfl hh r i, ih.table r i]
          constructor
          · rintro ⟨h1, h2⟩; exact ⟨by rw [keep h2]; exact h1, h2⟩
          · rintro ⟨h1, h2⟩; exact ⟨by rw [← keep h2]; exact h1, h2⟩
        simp only [if_true]
        exact ⟨hmade, ih.nodup, ih.snodup, hold r0 rfl hh, hh', hsen (by simp)⟩
      | false =>
        simp only [Bool.false_eq_true, if_false]
        refine ⟨hmade, Dict.nodup_keys_set _ _ _ ih.nodup, ih.snodup, htab r0 rfl hh, ?_, hsen (by simp)⟩
        intro r i
        simp only
        rw [← htab r0 rfl hh r i, Dict.get?_set, Dict.get?_set, hlen]
        by_cases e : r0 = r
        · subst e
          simp only [if_true, Option.some.injEq]
          constructor
          · rintro rfl; exact ⟨by simp, rfl⟩
          · exact fun h => h.2
        · simp only [e, if_false]
          rw [ih.handlers r i, ih.table r i]
          constructor
          · rintro ⟨h1, h2⟩; exact ⟨by rw [keep h2]; exact h1, h2⟩
          · rintro ⟨h1, h2⟩; exact ⟨by rw [← keep h2]; exact h1, h2⟩
    | bufferedSender r0 =>
      simp only [declare]
      refine ⟨hmade, ih.nodup, Dict.nodup_keys_set _ _ _ ih.snodup, ?_, ?_, ?_⟩
      · intro r i
        simp only
        rw [firstFor_snoc, ih.table r i]
        simp [Decl.routed]
      · intro r i
        simp only
        rw [ih.handlers r i, firstFor_snoc]
        constructor
        · rintro ⟨h1, h2⟩; exact ⟨by rw [keep h2]; exact h1, .inl h2⟩
        · rintro ⟨h1, h2 | ⟨rfl, _⟩⟩
          · exact ⟨by rw [← keep h2]; exact h1, h2⟩
          · simp at h1
      · intro r i
        simp only
        rw [lastFor_snoc, Dict.get?_set, hlen]
        by_cases e : r0 = r
        · subst e
          simp [eq_comm]
        · have : ¬ (Decl.bufferedSender r0 = .bufferedSender r) := by simpa using e
          simp only [e, this, if_false, ih.senders r i]

/-! ## Opening -/

theorem setup_all (l : List Nat) (s : St) (i : Nat) :
    (l.foldl setup s).made[i]? = (s.made[i]?).map fun x => (x.1, x.2 + l.count i) := by
  induction l generalizing s with
  | nil => simp
  | cons a l ih =>
    simp only [List.foldl_cons]
    rw [ih]
    simp only [setup, List.getElem?_modify, List.count_cons]
    by_cases e : a = i
    · subst e
      cases s.made[a]? <;> simp; omega
    · simp [e]

theorem setup_tables (l : List Nat) (s : St) :
    (l.foldl setup s).table = s.table ∧ (l.foldl setup s).handlers = s.handlers ∧ (l.foldl setup s).senders = s.senders := by
  induction l generalizing s with
  | nil => exact ⟨rfl, rfl, rfl⟩
  | cons a l ih => exact ih _

open Classical in
/-- Every value of a dictionary whose values determine their keys stands there once. -/
theorem values_count {d : Dict String Nat} (hn : (Dict.keys d).Nodup) (f : Nat → Option String) (hf : ∀ k v, d.get? k = some v → f v = some k)
    (i : Nat) : (d.map Prod.snd).count i = if ∃ k, d.get? k = some i then 1 else 0 := by
  have nd : (d.map Prod.snd).Nodup := by
    have hd : ∀ x ∈ d, f x.2 = some x.1 := fun x hx => hf x.1 x.2 (Dict.get?_of_mem d x.1 x.2 hn hx)
    clear hf
    induction d with
    | nil => simp
    | cons x d ih =>
      simp only [Dict.keys, List.map_cons, List.nodup_cons, List.mem_cons, forall_eq_or_imp] at hn hd ⊢
      refine ⟨fun hm => ?_, ih hn.2 hd.2⟩
      obtain ⟨y, hy, he⟩ := List.mem_map.mp hm
      have h1 := hd.2 y hy
      rw [he, hd.1] at h1
      exact hn.1 (List.mem_map.mpr ⟨y, hy, (Option.some.inj h1).symm⟩)
  split
  · rename_i h
    obtain ⟨k, hk⟩ := h
    exact (List.nodup_iff_count_eq_one.mp nd) _ (List.mem_map.mpr ⟨(k, i), Dict.get?_mem d k i hk, rfl⟩)
  · rename_i h
    refine List.count_eq_zero.mpr fun hm => h ?_
    obtain ⟨x, hx, rfl⟩ := List.mem_map.mp hm
    exact ⟨x.1, Dict.get?_of_mem d x.1 x.2 hn hx⟩

open Classical in
theorem opened (ds : List Decl) (i : Nat) :
    (start (declareAll {} ds)).made[i]? = (ds[i]?).map fun d => (d, if Ready ds i then 1 else 0) := by
  have ht := tables_all ds
  generalize declareAll {} ds = s at ht
  unfold start
  rw [setup_all, ht.made]
  simp only [List.getElem?_map, Option.map_map]
  cases hd : ds[i]? with
  | none => rfl
  | some d =>
    simp only [Option.map_some, Function.comp, Nat.zero_add, List.count_append, getHandlers, getSenders, Option.some.injEq, Prod.mk.injEq, true_and]
    have hb : isBufferedEndpoint s i = true ↔ ∃ r, ds[i]? = some (.bufferedEndpoint r) := by
      unfold isBufferedEndpoint
      rw [ht.made, List.getElem?_map, hd]
      simp only [Option.map_some]
      cases d <;> simp
    have h1 : (List.filter (isBufferedEndpoint s) (s.table.map Prod.snd)).count i =
        if ∃ r, ds[i]? = some (.bufferedEndpoint r) ∧ FirstFor ds r i then 1 else 0 := by
      cases hq : isBufferedEndpoint s i with
      | true =>
        rw [List.count_filter hq, values_count ht.nodup (fun i => ds[i]?.bind Decl.routed) (fun k v h => ((ht.table k v).mp h).1)]
        obtain ⟨r, hr⟩ := hb.mp hq
        congr 1
        apply propext
        constructor
        · rintro ⟨k, hk⟩
          have h2 := (ht.table k i).mp hk
          have h3 := h2.1
          rw [hr] at h3
          simp only [Option.bind_some, Decl.routed, Option.some.injEq] at h3
          subst h3
          exact ⟨r, hr, h2⟩
        · rintro ⟨r, _, h⟩
          exact ⟨r, (ht.table r i).mpr h⟩
      | false =>
        have hno : ¬ ∃ r, ds[i]? = some (.bufferedEndpoint r) ∧ FirstFor ds r i := by
          rintro ⟨r, h, _⟩
          rw [hb.mpr ⟨r, h⟩] at hq
          cases hq
        rw [if_neg hno]
        exact List.count_eq_zero.mpr fun hm => by
          rw [List.mem_filter, hq] at hm
          cases hm.2
    have h2 : (s.senders.map Prod.snd).count i = if ∃ r, LastFor ds r i then 1 else 0 := by
      rw [values_count ht.snodup (fun i => match ds[i]? with | some (.bufferedSender r) => some r | _ => none)
        (fun k v h => by simp only [((ht.senders k v).mp h).1])]
      congr 1
      apply propext
      exact exists_congr fun r => ht.senders r i
    rw [h1, h2]
    by_cases ha : ∃ r, ds[i]? = some (.bufferedEndpoint r) ∧ FirstFor ds r i
    · have hb2 : ¬ ∃ r, LastFor ds r i := by
        rintro ⟨r, h, _⟩
        obtain ⟨r', h', _⟩ := ha
        rw [h] at h'
        cases h'
      rw [if_pos ha, if_neg hb2, if_pos (.inl ha)]
    · by_cases hl : ∃ r, LastFor ds r i
      · rw [if_neg ha, if_pos hl, if_pos (.inr hl)]
      · rw [if_neg ha, if_neg hl, if_neg (by rintro (h | h); exact ha h; exact hl h)]

end Verif.Wiring
