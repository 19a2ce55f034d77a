import Verif.Lru.Inv
import Verif.Lru.Ring

/-!
# C27–C30: the cache's contents, size and order

`After max t s`: some history `t` of calls on a new `LRUCache(max)` ended in `s`; every history of every
length is covered, also those in which calls raised. `stored k t` is the value last stored under `k` and not
removed since.
-/

namespace Verif.Lru

open Verif.Py

variable {K V : Type} [DecidableEq K]

/-! ## C27 -/

/-- `peek`, `get`, `[]` and `pop_item` answer a miss or the value last stored. The full claim also covers
`pop()`, for which it is false: `C27_pop_refuted`. -/
theorem C27_lookups_never_wrong_partial {max : Int} {t : List (Entry K V)} {s : Cache K V} (h : After max t s) (k : K) :
    ((peek k s).1 = .ok none ∧ (getDefault k s).1 = .ok none ∧ (popItem k s).1 = .ok none ∧ (getItem k s).1 = .error .keyError) ∨
    ∃ v, stored k t = some v ∧ (peek k s).1 = .ok (some (some v)) ∧ (getDefault k s).1 = .ok (some (some v)) ∧
      (popItem k s).1 = .ok (some (some v)) ∧ (getItem k s).1 = .ok (some v) := by
  obtain ⟨hs, hp⟩ := inv_after h
  have e := sees_eq hp k
  unfold sees at e
  rw [e]
  cases hk : s.dict.get? k with
  | none => left; rw [getDefault_miss hk, popItem_miss hk, getItem_miss hk]; exact ⟨rfl, rfl, rfl, rfl⟩
  | some n =>
    right
    obtain ⟨v, h1, h2⟩ := hp.value k n hk
    obtain ⟨_, e1, _⟩ := getDefault_hit hs hk
    obtain ⟨_, e2, _⟩ := popItem_hit hs hp.nodup hk
    obtain ⟨_, e3, _⟩ := getItem_hit hs hk
    rw [e1, e2, e3, h1]
    exact ⟨v, h2, by simp [h2], rfl, rfl, rfl⟩

/-- A store that did not raise is visible at once. -/
theorem C27_store_visible {max : Int} {t : List (Entry K V)} {s : Cache K V} (h : After max t s) (k : K) (v : V)
    (ok : (call s (.set k v)).1 = .ok .unit) : sees (call s (.set k v)).2 k = .ok (some (some v)) := by
  have hi := inv_after (.call (.set k v) h)
  rw [sees_eq hi.points]
  have hi0 := inv_after h
  have hmem : ∃ n, (call s (.set k v)).2.dict.get? k = some n := by
    rw [call_set] at ok ⊢
    cases hk : s.dict.get? k with
    | some c =>
      obtain ⟨s', e1, _, e3, _⟩ := setItem_existing hi0.shape hi0.points k v hk
      rw [e1]; exact ⟨c, by rw [e3, hk]⟩
    | none =>
      by_cases hl : (s.dict.length : Int) < s.max
      · obtain ⟨s', e1, _, e3, _⟩ := setItem_room hi0.shape k v hk hl
        rw [e1]; exact ⟨s.size, by rw [e3, Dict.get?_set]; simp⟩
      · rw [setItem_full k v hk hl] at ok ⊢
        rcases replace_ok hi0.shape hi0.points.nodup k v hk with ⟨e, e1⟩ | ⟨s', c, d, e1, _, _, e4, _⟩
        · rw [e1] at ok; cases ok
        · rw [e1]; exact ⟨c, by rw [e4, Dict.get?_set]; simp⟩
  obtain ⟨n, hn⟩ := hmem
  simp [hn, stored]

/-- Looking up changes no entry. -/
theorem C27_lookup_keeps {max : Int} {t : List (Entry K V)} {s : Cache K V} (h : After max t s) (k k' : K) :
    sees (call s (.get k)).2 k' = sees s k' ∧ sees (call s (.getItem k)).2 k' = sees s k' := by
  have hi := inv_after h
  constructor
  · rw [sees_eq (inv_after (.call (.get k) h)).points, sees_eq hi.points, call_get]
    cases hk : s.dict.get? k with
    | none => rw [getDefault_miss hk]; rfl
    | some c => obtain ⟨s', e1, e2, _⟩ := getDefault_hit hi.shape hk; rw [e1]; dsimp only; rw [e2.dict]; rfl
  · rw [sees_eq (inv_after (.call (.getItem k) h)).points, sees_eq hi.points, call_getItem]
    cases hk : s.dict.get? k with
    | none => rw [getItem_miss hk]; rfl
    | some c => obtain ⟨s', e1, e2, _⟩ := getItem_hit hi.shape hk; rw [e1]; dsimp only; rw [e2.dict]; rfl

/-- Storing under a key that is there, or while there is room, succeeds and changes no other entry. -/
theorem C27_store_keeps {max : Int} {t : List (Entry K V)} {s : Cache K V} (h : After max t s) (k : K) (v : V)
    (hr : sees s k ≠ .ok none ∨ (len s : Int) < s.max) :
    (call s (.set k v)).1 = .ok .unit ∧ ∀ k', k' ≠ k → sees (call s (.set k v)).2 k' = sees s k' := by
  have hi := inv_after h
  have hi' := inv_after (.call (.set k v) h)
  have key : (call s (.set k v)).1 = .ok .unit ∧ ∀ k', k' ≠ k → (call s (.set k v)).2.dict.get? k' = s.dict.get? k' := by
    rw [call_set]
    cases hk : s.dict.get? k with
    | some c =>
      obtain ⟨s', e1, _, e3, _⟩ := setItem_existing hi.shape hi.points k v hk
      rw [e1]; exact ⟨rfl, fun _ _ => by rw [e3]⟩
    | none =>
      have hl : (s.dict.length : Int) < s.max := by
        rcases hr with hr | hr
        · rw [sees_eq hi.points, hk] at hr; exact absurd rfl hr
        · exact hr
      obtain ⟨s', e1, _, e3, _⟩ := setItem_room hi.shape k v hk hl
      rw [e1]; exact ⟨rfl, fun k' hne => by rw [e3, Dict.get?_set, if_neg (Ne.symm hne)]⟩
  refine ⟨key.1, fun k' hne => ?_⟩
  rw [sees_eq hi'.points, sees_eq hi.points, key.2 k' hne]
  simp [stored, Ne.symm hne]

/-- Storing under a new key into a full cache loses at most one other entry. -/
theorem C27_store_loses_one {max : Int} {t : List (Entry K V)} {s : Cache K V} (h : After max t s) (k : K) (v : V) :
    (∀ k', k' ≠ k → sees (call s (.set k v)).2 k' = sees s k') ∨
    ∃ k0, sees (call s (.set k v)).2 k0 = .ok none ∧
      ∀ k', k' ≠ k → k' ≠ k0 → sees (call s (.set k v)).2 k' = sees s k' := by
  have hi := inv_after h
  have hi' := inv_after (.call (.set k v) h)
  by_cases hr : sees s k ≠ .ok none ∨ (len s : Int) < s.max
  · exact .inl (C27_store_keeps h k v hr).2
  · have hk : s.dict.get? k = none := by
      cases hk : s.dict.get? k with
      | none => rfl
      | some c =>
        exfalso; apply hr; left
        rw [sees_eq hi.points, hk]; simp
    have hl : ¬ (s.dict.length : Int) < s.max := fun c => hr (.inr c)
    have key : (∀ k', k' ≠ k → (call s (.set k v)).2.dict.get? k' = s.dict.get? k') ∨
        ∃ k0, (call s (.set k v)).2.dict.get? k0 = none ∧
          ∀ k', k' ≠ k → k' ≠ k0 → (call s (.set k v)).2.dict.get? k' = s.dict.get? k' := by
      rw [call_set, setItem_full k v hk hl]
      rcases replace_ok hi.shape hi.points.nodup k v hk with ⟨e, e1⟩ | ⟨s', c, d, e1, _, _, e4, _, _, e7⟩
      · rw [e1]; exact .inl fun _ _ => rfl
      · rw [e1]; dsimp only; rw [e4]
        rcases e7 with ⟨_, rfl⟩ | ⟨k0, _, _, a3, rfl⟩
        · exact .inl fun k' hne => by rw [Dict.get?_set, if_neg (Ne.symm hne)]
        · right
          have hne0 : k ≠ k0 := by rintro rfl; exact (Dict.get?_eq_none_iff _ _).mp hk a3
          refine ⟨k0, by rw [Dict.get?_set, if_neg hne0, Dict.get?_erase _ _ _ hi.points.nodup]; simp, fun k' h1 h2 => ?_⟩
          rw [Dict.get?_set, if_neg (Ne.symm h1), Dict.get?_erase _ _ _ hi.points.nodup, if_neg (Ne.symm h2)]
    rcases key with key | ⟨k0, h0, key⟩
    · left; intro k' hne
      rw [sees_eq hi'.points, sees_eq hi.points, key k' hne]; simp [stored, Ne.symm hne]
    · right
      refine ⟨k0, by rw [sees_eq hi'.points, h0]; rfl, fun k' h1 h2 => ?_⟩
      rw [sees_eq hi'.points, sees_eq hi.points, key k' h1 h2]; simp [stored, Ne.symm h1]

/-- `pop_item`, `del` and `clear` never raise; they remove exactly what they name. -/
theorem C27_removal_exact {max : Int} {t : List (Entry K V)} {s : Cache K V} (h : After max t s) (k k' : K) :
    (∃ o, (call s (.popItem k)).1 = .ok o) ∧ (call s (.del k)).1 = .ok .unit ∧ (call s .clear).1 = .ok .unit ∧
    sees (call s (.popItem k)).2 k' = (if k = k' then .ok none else sees s k') ∧
    sees (call s (.del k)).2 k' = (if k = k' then .ok none else sees s k') ∧
    sees (call s .clear).2 k' = .ok none := by
  have hi := inv_after h
  rw [sees_eq (inv_after (.call (.popItem k) h)).points, sees_eq (inv_after (.call (.del k) h)).points,
    sees_eq (inv_after (.call .clear h)).points, sees_eq hi.points, call_popItem, call_del, call_clear]
  obtain ⟨s1, e1, _, e3, _⟩ := clear_ok hi.shape
  rw [e1]
  cases hk : s.dict.get? k with
  | none =>
    rw [popItem_miss hk, delItem_miss hk]
    refine ⟨⟨_, rfl⟩, rfl, rfl, ?_, ?_, by simp [e3, Dict.get?]⟩
    all_goals
      by_cases e : k = k'
      · subst e; simp [hk]
      · simp [stored, e]
  | some c =>
    obtain ⟨s', a1, _, a3, _⟩ := popItem_hit hi.shape hi.points.nodup hk
    obtain ⟨s2, b1, _, b3, _⟩ := delItem_hit hi.shape hi.points.nodup hk
    rw [a1, b1]
    refine ⟨⟨_, rfl⟩, rfl, rfl, ?_, ?_, by simp [e3, Dict.get?]⟩
    · dsimp only; rw [a3, Dict.get?_erase _ _ _ hi.points.nodup]
      by_cases e : k = k'
      · subst e; simp
      · simp [stored, e]
    · dsimp only; rw [b3, Dict.get?_erase _ _ _ hi.points.nodup]
      by_cases e : k = k'
      · subst e; simp
      · simp [stored, e]

/-- `pop` of an empty cache gives `None`; otherwise it either removes the one key it gives back, or raises
`KeyError` and removes nothing. -/
theorem C27_pop_removes {max : Int} {t : List (Entry K V)} {s : Cache K V} (h : After max t s) :
    (len s = 0 ∧ (call s .pop).1 = .ok (.entry none)) ∨
    (0 < len s ∧ (call s .pop).1 = .error .keyError ∧ ∀ k, sees (call s .pop).2 k = sees s k) ∨
    ∃ k v, sees s k ≠ .ok none ∧ (call s .pop).1 = .ok (.entry (some (some k, v))) ∧
      sees (call s .pop).2 k = .ok none ∧ ∀ k', k' ≠ k → sees (call s .pop).2 k' = sees s k' := by
  have hi := inv_after h
  have hi' := inv_after (.call .pop h)
  by_cases hl : 0 < s.dict.length
  · right
    obtain ⟨s', c, e1, e2, e3, e4, e5⟩ := pop_ok hi.shape hi.points.nodup hl hi.points.key
    have es : (call s .pop).2 = s' := by rw [call_pop]; exact e1
    rcases e5 with ⟨a1, a2, a3⟩ | ⟨k, a1, a2, a3, a4⟩
    · left
      have er : (call s .pop).1 = .error .keyError := by rw [call_pop]; simp [a1, Except.map]
      refine ⟨hl, er, fun k => ?_⟩
      rw [sees_eq hi'.points, sees_eq hi.points, es, a2, er]
      rfl
    · right
      have er : (call s .pop).1 = .ok (.entry (some (some k, (s.heap c).value))) := by rw [call_pop]; simp [a3, Except.map]
      refine ⟨k, (s.heap c).value, ?_, er, ?_, fun k' hne => ?_⟩
      · rw [sees_eq hi.points]
        cases hk : s.dict.get? k with
        | none => exact absurd a2 ((Dict.get?_eq_none_iff _ _).mp hk)
        | some n => simp
      · rw [sees_eq hi'.points, es, a4, Dict.get?_erase _ _ _ hi.points.nodup]; simp
      · rw [sees_eq hi'.points, sees_eq hi.points, es, a4, er, Dict.get?_erase _ _ _ hi.points.nodup, if_neg (Ne.symm hne)]
        simp [stored, Ne.symm hne]
  · left
    rw [call_pop, pop_empty hl]
    exact ⟨by unfold len; omega, rfl⟩

/-- `get` never raises, `[]` raises only `KeyError` and only for a miss. -/
theorem C27_get_never_raises {max : Int} {t : List (Entry K V)} {s : Cache K V} (h : After max t s) (k : K) :
    (∃ o, (call s (.get k)).1 = .ok o) ∧ (∀ e, (call s (.getItem k)).1 = .error e → e = .keyError ∧ sees s k = .ok none) := by
  have hi := inv_after h
  rw [call_get, call_getItem, sees_eq hi.points]
  cases hk : s.dict.get? k with
  | none => rw [getDefault_miss hk, getItem_miss hk]; exact ⟨⟨_, rfl⟩, fun e he => by cases he; exact ⟨rfl, rfl⟩⟩
  | some c =>
    obtain ⟨_, e1, _⟩ := getDefault_hit hi.shape hk
    obtain ⟨_, e2, _⟩ := getItem_hit hi.shape hk
    rw [e1, e2]; exact ⟨⟨_, rfl⟩, fun e he => by cases he⟩

/-- `len` counts the keys that are found. -/
theorem C27_len_counts {max : Int} {t : List (Entry K V)} {s : Cache K V} (h : After max t s) :
    ∃ ks : List K, ks.Nodup ∧ ks.length = len s ∧ ∀ k, k ∈ ks ↔ sees s k ≠ .ok none := by
  have hi := inv_after h
  refine ⟨s.dict.keys, hi.points.nodup, by simp [Dict.keys, len], fun k => ?_⟩
  rw [sees_eq hi.points]
  cases hk : s.dict.get? k with
  | none => simp [(Dict.get?_eq_none_iff _ _).mp hk]
  | some n => simp [mem_of_get? hk]

/-- A history, for the examples: run the calls on a new cache. -/
def history (max : Int) : List (Op K V) → List (Entry K V) × Cache K V
  | os => os.foldl (fun r o => ((o, (call r.2 o).1) :: r.1, (call r.2 o).2)) ([], Cache.new max)

theorem after_history (max : Int) (os : List (Op K V)) : After max (history max os).1 (history max os).2 := by
  unfold history
  have : ∀ (r : List (Entry K V) × Cache K V), After max r.1 r.2 →
      After max (os.foldl (fun r o => ((o, (call r.2 o).1) :: r.1, (call r.2 o).2)) r).1
        (os.foldl (fun r o => ((o, (call r.2 o).1) :: r.1, (call r.2 o).2)) r).2 := by
    induction os with
    | nil => intro r h; exact h
    | cons o os ih => intro r h; exact ih _ (.call o h)
  exact this _ .new

/-- Values are found, overwritten, evicted and removed. -/
example : let h := history 2 [.set 1 "a", .set 2 "b", .set 1 "c", .get 2, .set 3 "d", .popItem (2 : Nat)]
    sees h.2 3 = .ok (some (some "d")) ∧ stored 3 h.1 = some "d" ∧ sees h.2 1 = .ok none ∧ sees h.2 2 = .ok none := by
  intro h; exact ⟨rfl, rfl, rfl, rfl⟩

/-- `pop()` gives back a value that had been overwritten: 3 was last stored as 226. -/
theorem C27_pop_refuted : ∃ (t : List (Entry Nat Nat)) (s : Cache Nat Nat), After 4 t s ∧ stored 3 t = some 226 ∧
    (call s .pop).1 = .ok (.entry (some (some 3, some 217))) := by
  refine ⟨_, _, after_history 4 [.set 3 101, .set 1 102, .set 4 103, .set 3 105, .get 4, .set 0 107, .set 1 109, .set 4 110,
    .clear, .set 4 214, .set 2 215, .set 3 217, .set 0 220, .set 1 222, .get 4, .pop, .set 3 226, .set 4 227, .get 0, .pop, .pop], ?_⟩
  exact ⟨rfl, rfl⟩

/-! ## C28 -/

/-- Never more than `max_size` entries, plus the number of entries removed by `pop`, `pop_item`, `del` and
`clear` so far. The full claim, without the second summand, is false: `C28_capacity_refuted`. -/
theorem C28_capacity_partial (max : Int) (os : List (Op K V)) :
    len (run (Cache.new max) os).2 ≤ max.toNat + removals (Cache.new max) os := by
  have h := potential_run (max := max) os 0 (t := []) (.new) rfl (by simp [spare, Cache.new]) (by simp [spare, Cache.new, len])
  omega

/-- Without removals the limit holds. -/
theorem C28_capacity_keeping (max : Int) (os : List (Op K V)) (h : ∀ o ∈ os, Keeping o) :
    len (run (Cache.new max) os).2 ≤ max.toNat := by
  have h1 := C28_capacity_partial max os
  have h2 : ∀ (os : List (Op K V)) (s : Cache K V), (∀ o ∈ os, Keeping o) → removals s os = 0 := by
    intro os
    induction os with
    | nil => intro _ _; rfl
    | cons o os ih =>
      intro s h
      rw [removals_cons, ih _ fun o ho => h o (List.mem_cons_of_mem _ ho)]
      have := h o (by simp)
      cases o <;> first | rfl | cases this
  rw [h2 os _ h] at h1
  exact h1

/-- Five stores in a cache of three. -/
example : len (run (Cache.new 3) [.set 1 "a", .set 2 "b", .set 3 "c", .get 2, .set 4 "d", .set (5 : Nat) "e"]).2 = 3 := by decide

/-- One removed entry is enough to get over the limit, and `clear` too. -/
theorem C28_capacity_refuted :
    len (run (Cache.new 2) [.set 1 (), .set 2 (), .popItem 1, .set 3 (), .set (4 : Nat) ()]).2 = 3 ∧
    len (run (Cache.new 2) [.set 1 (), .set 2 (), .clear, .set 3 (), .set 4 (), .set (5 : Nat) ()]).2 = 3 := by decide

/-! ## C29, C30 -/

/-- As long as nothing is removed and the key stored first is not used again before the cache is full, every
call answers as the ideal least-recently-used cache does. The full claim has no such condition and is false:
`C29_eviction_refuted`. -/
theorem C29_least_recently_used_partial (max : Nat) (h2 : 2 ≤ max) (os : List (Op K V)) (h : Calm max [] none os) :
    (run (Cache.new max) os).1 = (Ideal.run max [] os).1 :=
  (Same.run os (same_new max h2) h).1

/-- In that case a store of a new key into the full cache makes exactly the least recently used key unfindable. -/
theorem C29_evicts_last_partial (max : Nat) (h2 : 2 ≤ max) (os : List (Op K V)) (k : K) (v : V) (h : Calm max [] none (os ++ [.set k v]))
    (hk : Ideal.find (Ideal.run max [] os).2 k = none) (hfull : (Ideal.run max [] os).2.length = max) :
    ∃ k0 v0 l, (Ideal.run max [] os).2 = l ++ [(k0, v0)] ∧
      (items (run (Cache.new max) (os ++ [.set k v])).2).1 = .ok (((k, v) :: l).map fun e => (some e.1, some e.2)) := by
  have hz : (Ideal.run max [] os).2 ≠ [] := by intro e; rw [e] at hfull; simp at hfull; omega
  refine ⟨((Ideal.run max [] os).2.getLast hz).1, ((Ideal.run max [] os).2.getLast hz).2, (Ideal.run max [] os).2.dropLast, (List.dropLast_concat_getLast hz).symm, ?_⟩
  obtain ⟨_, f, hs⟩ := Same.run (os ++ [.set k v]) (same_new max h2) h
  rw [hs.items]
  have app : ∀ (os : List (Op K V)) (l : Ideal K V) (o : Op K V), (Ideal.run max l (os ++ [o])).2 = (Ideal.call max (Ideal.run max l os).2 o).2 := by
    intro os
    induction os with
    | nil => intro l o; rfl
    | cons a os ih => intro l o; exact ih _ o
  rw [app]
  simp [Ideal.call, Ideal.set, hk, hfull]

/-- Eviction of the least recently used key of three, after uses. -/
example : Calm 3 [] none [Op.set 1 "a", .set 2 "b", .set 3 "c", .get 1, .get 2, .set 4 "d", .getItem 3, .set 1 "e", .set (4 : Nat) "f"] ∧
    (Ideal.run 3 [] [Op.set 1 "a", .set 2 "b", .set 3 "c", .get 1, .get 2, .set 4 "d", .getItem 3, .set 1 "e", .set (4 : Nat) "f"]) =
      ([.ok .unit, .ok .unit, .ok .unit, .ok (.found (some (some "a"))), .ok (.found (some (some "b"))), .ok .unit,
        .error .keyError, .ok .unit, .ok .unit], [(4, "f"), (1, "e"), (2, "b")]) := by
  refine ⟨?_, rfl⟩
  simp [Calm, Keeping, Op.key?, firstKey, Ideal.call, Ideal.set, Ideal.use, Ideal.find, Ideal.without]

/-- Under the same condition, `pop()` called repeatedly gives back the entries most recently used first. -/
theorem C29_pop_order_partial (max : Nat) (h2 : 2 ≤ max) (os : List (Op K V)) (h : Calm max [] none os) (m : Nat)
    (hm : m ≤ len (run (Cache.new max) os).2) :
    (run (run (Cache.new max) os).2 (List.replicate m Op.pop)).1 =
      ((Ideal.run max [] os).2.take m).map fun e => .ok (.entry (some (some e.1, some e.2))) := by
  obtain ⟨_, f, hs⟩ := Same.run os (same_new max h2) h
  rw [hs.len] at hm
  obtain ⟨z, hr, hz, _⟩ := hs
  rw [← hz] at hm ⊢
  rw [hr.left.drain m (by simpa using hm)]
  simp [List.map_take, Function.comp_def]

/-- Using the key stored first before the cache is full makes a later store evict the wrong key: 1 was used
after 2, yet 1 is gone and 2 is kept. -/
theorem C29_eviction_refuted : let s := (run (Cache.new 3) [.set 1 (), .set 2 (), .get 1, .set 3 (), .set (4 : Nat) ()]).2
    sees s 1 = .ok none ∧ sees s 2 = .ok (some (some ())) := by
  intro s; exact ⟨rfl, rfl⟩

/-- A cache of one, or of none, cannot replace its entry at all. -/
theorem C29_small_refuted : (run (Cache.new 1) [.set 1 (), .set (2 : Nat) ()]).1 = [.ok .unit, .error .attributeError] ∧
    (run (Cache.new 0) [.set (1 : Nat) ()]).1 = [.error .attributeError] := ⟨rfl, rfl⟩

/-- Under the same condition iteration yields every entry once, most recently used first. The full claim has
no condition and is false: `C30_iteration_refuted`. -/
theorem C30_iteration_partial (max : Nat) (h2 : 2 ≤ max) (os : List (Op K V)) (h : Calm max [] none os) :
    (items (run (Cache.new max) os).2).1 = .ok ((Ideal.run max [] os).2.map fun e => (some e.1, some e.2)) ∧
    len (run (Cache.new max) os).2 = (Ideal.run max [] os).2.length := by
  obtain ⟨_, f, hs⟩ := Same.run os (same_new max h2) h
  exact ⟨hs.items, hs.len⟩

/-- The ideal cache lists each key once. -/
theorem C30_ideal_keys_once (max : Nat) (os : List (Op K V)) : ((Ideal.run max [] os).2.map (·.1)).Nodup := by
  have wo : ∀ (l : Ideal K V) (k : K), (l.map (·.1)).Nodup → k ∉ (Ideal.without l k).map (·.1) ∧ ((Ideal.without l k).map (·.1)).Nodup := by
    intro l k h
    refine ⟨?_, List.Nodup.sublist (List.Sublist.map _ List.filter_sublist) h⟩
    intro hm
    obtain ⟨e, he, rfl⟩ := List.mem_map.mp hm
    simp [Ideal.without] at he
  have fn : ∀ (l : Ideal K V) (k : K), Ideal.find l k = none → k ∉ l.map (·.1) := by
    intro l k
    induction l with
    | nil => simp
    | cons e l ih =>
      obtain ⟨k', v⟩ := e
      simp only [Ideal.find]
      split
      · simp
      · rename_i hne
        intro h; simp only [List.map_cons, List.mem_cons, not_or]
        exact ⟨Ne.symm hne, ih h⟩
  have use : ∀ (l : Ideal K V) (k : K), (l.map (·.1)).Nodup → ((Ideal.use l k).map (·.1)).Nodup := by
    intro l k h
    unfold Ideal.use
    split
    · simp only [List.map_cons, List.nodup_cons]; exact wo l k h
    · exact h
  have step : ∀ (l : Ideal K V) (o : Op K V), (l.map (·.1)).Nodup → ((Ideal.call max l o).2.map (·.1)).Nodup := by
    intro l o h
    cases o with
    | set k v =>
      simp only [Ideal.call, Ideal.set]
      split
      · simp only [List.map_cons, List.nodup_cons]; exact wo l k h
      · rename_i hf
        have := fn l k hf
        split
        · simp only [List.map_cons, List.nodup_cons]; exact ⟨this, h⟩
        · simp only [List.map_cons, List.nodup_cons]
          refine ⟨fun hm => this ?_, List.Nodup.sublist (List.Sublist.map _ (List.dropLast_sublist l)) h⟩
          exact (List.Sublist.map _ (List.dropLast_sublist l)).subset hm
    | getItem k => simp only [Ideal.call]; split; exact use l k h; exact h
    | get k => exact use l k h
    | popItem k => exact h
    | pop => exact h
    | del k => exact h
    | clear => exact h
  have : ∀ (os : List (Op K V)) (l : Ideal K V), (l.map (·.1)).Nodup → ((Ideal.run max l os).2.map (·.1)).Nodup := by
    intro os
    induction os with
    | nil => intro l h; exact h
    | cons o os ih => intro l h; exact ih _ (step l o h)
  exact this os [] (by simp)

/-- With the first key used early, iteration yields an entry twice and another not at all. -/
theorem C30_iteration_refuted :
    (items (run (Cache.new 3) [.set 1 (), .set 2 (), .get 1, .set (3 : Nat) ()]).2).1 =
      .ok [(some 3, some ()), (some 1, some ()), (some 3, some ())] ∧
    len (run (Cache.new 3) [.set 1 (), .set 2 (), .get 1, .set (3 : Nat) ()]).2 = 3 := ⟨rfl, rfl⟩

end Verif.Lru
