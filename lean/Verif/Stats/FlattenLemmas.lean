import Verif.Stats.Flatten
import Verif.Stats.FlattenSpec
import Verif.Stats.NeverRaises
import Mathlib.Data.List.Nodup

/-! Helper lemmas for C85. -/

namespace Verif.Stats

open Verif.Py Verif.Stats.Spec

/-! ### Keys -/

theorem joined_append (w : String) (ws : List String) (k : String) :
    joined ((w :: ws) ++ [k]) = joined (w :: ws) ++ "." ++ k := by
  induction ws generalizing w with
  | nil => rfl
  | cons a ws ih =>
    have := ih a
    simp only [List.cons_append] at this ⊢
    simp only [joined, this, String.append_assoc]

theorem joined_ne_empty {w : String} (h : w ≠ "") (ws : List String) : joined (w :: ws) ≠ "" := by
  cases ws with
  | nil => exact h
  | cons a ws =>
    intro e
    have := congrArg String.toList e
    simp [joined] at this

theorem newKey_dotted (p : List String) (k : String) : newKey (dotted p) k = dotted (p ++ [k]) := by
  induction p with
  | nil =>
    by_cases hk : k = "" <;> simp [newKey, dotted, joined, hk]
  | cons a p ih =>
    by_cases ha : a = ""
    · have e : ∀ q, dotted (a :: q) = dotted q := by intro q; simp [dotted, ha]
      rw [List.cons_append, e, e, ih]
    · have e : ∀ q, dotted (a :: q) = joined (a :: q) := by intro q; simp [dotted, ha]
      rw [List.cons_append, e, e, newKey, if_pos (joined_ne_empty ha p)]
      exact (joined_append a p k).symm

/-! ### Updating -/

theorem lastUnder_append (k : String) (a b : List (String × Stat)) :
    lastUnder k (a ++ b) = (lastUnder k b).or (lastUnder k a) := by
  induction a with
  | nil => simp [lastUnder]
  | cons x a ih =>
    obtain ⟨k', v⟩ := x
    simp only [List.cons_append, lastUnder, ih]
    cases lastUnder k b with
    | some _ => rfl
    | none => rfl

theorem get?_updateWith (l : List (String × Stat)) : ∀ (ret : Dict String Stat) (k : String),
    Dict.get? (updateWith ret l) k = (lastUnder k l).or (Dict.get? ret k) := by
  induction l with
  | nil => intro ret k; simp [updateWith, lastUnder]
  | cons x l ih =>
    intro ret k
    obtain ⟨k', v⟩ := x
    simp only [updateWith, ih, lastUnder, Dict.get?_set]
    cases lastUnder k l with
    | some _ => rfl
    | none => by_cases h : k' = k <;> simp [h]

theorem nodup_updateWith (l : List (String × Stat)) : ∀ (ret : Dict String Stat), (Dict.keys ret).Nodup →
    (Dict.keys (updateWith ret l)).Nodup := by
  induction l with
  | nil => intro ret h; exact h
  | cons x l ih => intro ret h; exact ih _ (Dict.nodup_keys_set _ _ _ h)

theorem lastUnder_nodup (l : List (String × Stat)) (k : String) (h : (Dict.keys l).Nodup) : lastUnder k l = Dict.get? l k := by
  induction l with
  | nil => rfl
  | cons x l ih =>
    obtain ⟨k', v⟩ := x
    simp only [Dict.keys, List.map_cons, List.nodup_cons] at h
    have ih := ih h.2
    simp only [lastUnder, Dict.get?, ih]
    by_cases e : k' = k
    · subst e
      have : Dict.get? l k' = none := (Dict.get?_eq_none_iff _ _).2 h.1
      simp [this]
    · simp only [e, if_false]
      cases Dict.get? l k <;> rfl

mutual

theorem nodup_flattenItems (cur : String) : ∀ (d : List (String × Stat)) (ret : Dict String Stat), (Dict.keys ret).Nodup →
    (Dict.keys (flattenItems cur d ret)).Nodup
  | [], ret, h => by simpa [flattenItems] using h
  | (k, v) :: rest, ret, h => by
    simp only [flattenItems]
    exact nodup_flattenItems cur rest _ (nodup_flattenValue _ v ret h)

theorem nodup_flattenValue (key : String) : ∀ (v : Stat) (ret : Dict String Stat), (Dict.keys ret).Nodup →
    (Dict.keys (flattenValue key v ret)).Nodup
  | .node d, ret, h => by simp only [flattenValue]; exact nodup_updateWith _ _ h
  | .num q, ret, h => by simp only [flattenValue]; exact Dict.nodup_keys_set _ _ _ h
  | .text q, ret, h => by simp only [flattenValue]; exact Dict.nodup_keys_set _ _ _ h

end

/-! ### The total description -/

/-- The values below a place, with their keys. -/
def keyed (l : List (List String × Stat)) : List (String × Stat) := l.map fun x => (dotted x.1, x.2)

mutual

theorem get?_flattenItems : ∀ (d : List (String × Stat)) (p : List String) (ret : Dict String Stat) (k : String),
    Dict.get? (flattenItems (dotted p) d ret) k = (lastUnder k (keyed (valuesIn p d))).or (Dict.get? ret k)
  | [], p, ret, k => by simp [flattenItems, valuesIn, keyed, lastUnder]
  | (a, v) :: rest, p, ret, k => by
    simp only [flattenItems, valuesIn]
    rw [get?_flattenItems rest p, newKey_dotted, get?_flattenValue v (p ++ [a])]
    simp only [keyed, List.map_append, lastUnder_append]
    cases lastUnder k (List.map (fun x => (dotted x.1, x.2)) (valuesIn p rest)) <;> rfl

theorem get?_flattenValue : ∀ (v : Stat) (p : List String) (ret : Dict String Stat) (k : String),
    Dict.get? (flattenValue (dotted p) v ret) k = (lastUnder k (keyed (valuesOf p v))).or (Dict.get? ret k)
  | .node d, p, ret, k => by
    simp only [flattenValue, valuesOf]
    rw [get?_updateWith, lastUnder_nodup _ _ (nodup_flattenItems _ d [] (by simp [Dict.keys])), get?_flattenItems d p [] k]
    simp [Dict.get?]
  | .num q, p, ret, k => by
    simp only [flattenValue, valuesOf, Dict.get?_set, keyed, List.map_cons, List.map_nil, lastUnder]
    by_cases h : dotted p = k <;> simp [h]
  | .text q, p, ret, k => by
    simp only [flattenValue, valuesOf, Dict.get?_set, keyed, List.map_cons, List.map_nil, lastUnder]
    by_cases h : dotted p = k <;> simp [h]

end

/-! ### Stores as the keeper writes them -/

mutual

/-- Dictionaries with distinct keys that have no dots in them. -/
def Stat.plain : Stat → Prop
  | .node d => plainStore d
  | _ => True

/-- As `Stat.plain`. -/
def plainStore : List (String × Stat) → Prop
  | [] => True
  | (k, v) :: rest => split k = [k] ∧ k ∉ rest.map Prod.fst ∧ v.plain ∧ plainStore rest

end

theorem plain_get {d : Store} {k : String} {v : Stat} (h : plainStore d) (hg : Dict.get? d k = some v) :
    v.plain ∧ split k = [k] := by
  induction d with
  | nil => simp [Dict.get?] at hg
  | cons x d ih =>
    obtain ⟨a, w⟩ := x
    simp only [plainStore] at h
    simp only [Dict.get?] at hg
    by_cases e : a = k
    · subst e
      simp only [if_true, Option.some.injEq] at hg
      subst hg
      exact ⟨h.2.2.1, h.1⟩
    · simp only [e, if_false] at hg
      exact ih h.2.2.2 hg

theorem plain_nodup {d : Store} (h : plainStore d) : (Dict.keys d).Nodup := by
  induction d with
  | nil => simp [Dict.keys]
  | cons x d ih =>
    obtain ⟨a, w⟩ := x
    simp only [plainStore] at h
    simp only [Dict.keys, List.map_cons, List.nodup_cons]
    exact ⟨h.2.1, ih h.2.2.2⟩

theorem plain_set {d : Store} {k : String} {v : Stat} (h : plainStore d) (hk : split k = [k]) (hv : v.plain) :
    plainStore (Dict.set d k v) := by
  induction d with
  | nil => simp [Dict.set, plainStore, hk, hv]
  | cons x d ih =>
    obtain ⟨a, w⟩ := x
    simp only [plainStore] at h
    simp only [Dict.set]
    by_cases e : a = k
    · subst e
      simp only [if_true, plainStore]
      exact ⟨h.1, h.2.1, hv, h.2.2.2⟩
    · simp only [e, if_false, plainStore]
      refine ⟨h.1, ?_, h.2.2.1, ih h.2.2.2⟩
      intro hm
      have : a ∈ Dict.keys (Dict.set d k v) := hm
      rw [← Dict.has_iff, Dict.has, Dict.get?_set, if_neg (fun e' => e e'.symm)] at this
      exact h.2.1 ((Dict.has_iff d a).1 this)

theorem plain_deepSet : ∀ (ks : List String) (d d' : Store) (v : Stat), plainStore d → (∀ k ∈ ks, split k = [k]) → v.plain →
    deepSet d ks v = .ok d' → plainStore d'
  | [], _, _, _, _, _, _, h => by simp [deepSet] at h
  | [k], d, d', v, hd, hk, hv, h => by
    simp only [deepSet, Except.ok.injEq] at h
    subst h
    exact plain_set hd (hk k (by simp)) hv
  | k :: k' :: ks, d, d', v, hd, hk, hv, h => by
    have hk1 := hk k (by simp)
    have hk2 : ∀ a ∈ k' :: ks, split a = [a] := fun a ha => hk a (List.mem_cons_of_mem _ ha)
    simp only [deepSet] at h
    cases hg : Dict.get? d k with
    | none =>
      simp only [hg] at h
      cases hs : deepSet [] (k' :: ks) v with
      | error e => simp [hs] at h
      | ok c =>
        simp only [hs, Except.ok.injEq] at h
        subst h
        exact plain_set hd hk1 (plain_deepSet (k' :: ks) [] c v (by simp [plainStore]) hk2 hv hs)
    | some x =>
      cases x with
      | num q => simp [hg] at h
      | text q => simp [hg] at h
      | node c =>
        simp only [hg] at h
        cases hs : deepSet c (k' :: ks) v with
        | error e => simp [hs] at h
        | ok c' =>
          simp only [hs, Except.ok.injEq] at h
          subst h
          have hc : plainStore c := (plain_get hd hg).1
          exact plain_set hd hk1 (plain_deepSet (k' :: ks) c c' v hc hk2 hv hs)

theorem splitChars_no_dot (s : List Char) (h : '.' ∉ s) : splitChars s = [s] := by
  induction s with
  | nil => rfl
  | cons c s ih =>
    simp only [List.mem_cons, not_or] at h
    simp only [splitChars, ih h.2]
    rw [if_neg (fun e => h.1 e.symm)]

theorem splitChars_parts (s : List Char) : ∀ w ∈ splitChars s, '.' ∉ w := by
  induction s with
  | nil => simp [splitChars]
  | cons c s ih =>
    have hne := splitChars_ne_nil s
    unfold splitChars
    split
    · intro w hw
      rcases List.mem_cons.1 hw with rfl | hw
      · simp
      · exact ih w hw
    · next hc =>
      cases h : splitChars s with
      | nil => exact absurd h hne
      | cons a as =>
        rw [h] at ih
        intro w hw
        rcases List.mem_cons.1 hw with rfl | hw
        · have := ih a (by simp)
          simp only [List.mem_cons, not_or]
          exact ⟨fun e => hc e.symm, this⟩
        · exact ih w (List.mem_cons_of_mem _ hw)

theorem split_parts (s : String) : ∀ k ∈ split s, split k = [k] := by
  intro k hk
  obtain ⟨w, hw, rfl⟩ := List.mem_map.1 hk
  simp [split, splitChars_no_dot w (splitChars_parts _ w hw)]

theorem plain_setValue {d d' : Store} {k : String} {v : ℚ} (h : plainStore d) (hs : setValue d k v = .ok d') : plainStore d' :=
  plain_deepSet _ _ _ _ h (split_parts k) (by simp [Stat.plain]) hs

theorem plain_increment {d d' : Store} {k : String} {v : ℚ} (h : plainStore d) (hs : incrementValue d k v = .ok d') :
    plainStore d' := by
  unfold incrementValue at hs
  cases hg : deepGet d (split k) with
  | none => simp only [hg] at hs; exact plain_deepSet _ _ _ _ h (split_parts k) (by simp [Stat.plain]) hs
  | some x =>
    cases x with
    | num q => simp only [hg] at hs; exact plain_deepSet _ _ _ _ h (split_parts k) (by simp [Stat.plain]) hs
    | text q => simp [hg] at hs
    | node q => simp [hg] at hs

theorem plain_setAll (es : List (String × ℚ)) : ∀ {d : Store}, plainStore d → plainStore (setAll d es).2 := by
  induction es with
  | nil => intro d h; exact h
  | cons x es ih =>
    intro d h
    obtain ⟨k, v⟩ := x
    simp only [setAll]
    cases hs : setValue d k v with
    | ok d' => exact ih (plain_setValue h hs)
    | error e => exact h

mutual

theorem plain_resetStat : ∀ (v : Stat), v.plain → v.reset.plain
  | .node d, h => by simp only [Stat.reset, Stat.plain] at h ⊢; exact plain_reset d h
  | .num _, _ => by simp [Stat.reset, Stat.plain]
  | .text _, _ => by simp [Stat.reset, Stat.plain]

theorem plain_reset : ∀ (d : List (String × Stat)), plainStore d → plainStore (resetStore d)
  | [], _ => by simp [resetStore, plainStore]
  | (k, v) :: rest, h => by
    simp only [plainStore] at h
    simp only [resetStore, plainStore]
    refine ⟨h.1, ?_, plain_resetStat v h.2.2.1, plain_reset rest h.2.2.2⟩
    have e : ∀ (l : List (String × Stat)), (resetStore l).map Prod.fst = l.map Prod.fst := by
      intro l
      induction l with
      | nil => rfl
      | cons x l ih => obtain ⟨a, b⟩ := x; simp [resetStore, ih]
    rw [e]
    exact h.2.1

end

theorem plain_stamp {s : Keeper} (h : plainStore s.current) (now : ℚ) : plainStore (stamp s now) := by
  have hs : ∀ k ∈ ["timestamp", "uptime", "gather_period", "application", "name", "instance"], split k = [k] := by decide +kernel
  unfold stamp
  refine plain_set (plain_set (plain_set (plain_set h (hs _ (by simp)) ?_) (hs _ (by simp)) ?_) (hs _ (by simp)) ?_) (hs _ (by simp)) ?_
  · simp [Stat.plain]
  · simp [Stat.plain]
  · simp [Stat.plain]
  · simp [Stat.plain, plainStore, hs "name" (by simp), hs "instance" (by simp)]

theorem plain_update {s : Keeper} (h : plainStore s.current) (now : ℚ) (sizes : String → ℚ) :
    plainStore (update s now sizes).2.current := by
  simp only [update]
  exact plain_setAll _ (plain_stamp h now)

theorem plain_step {s : Keeper} (h : plainStore s.current) (e : Ev) : plainStore (step s e).2.current := by
  cases e with
  | track r =>
    simp only [step]
    cases hi : incrementValue s.current ("endpoint_data." ++ r ++ ".call_count") 0 with
    | ok d => exact plain_increment h hi
    | error e => exact h
  | call r x =>
    simp only [step]
    cases hi : incrementValue s.current ("endpoint_data." ++ r ++ ".call_count") 1 with
    | ok d =>
      simp only
      cases Dict.get? s.durations r <;> exact plain_increment h hi
    | error e => exact h
  | set k v =>
    simp only [step]
    cases hi : setValue s.current k v with
    | ok d => exact plain_setValue h hi
    | error e => exact h
  | increment k v =>
    simp only [step]
    cases hi : incrementValue s.current k v with
    | ok d => exact plain_increment h hi
    | error e => exact h
  | addQueue k => exact h
  | read now sizes =>
    have := plain_update h now sizes
    simp only [step]
    cases hu : update s now sizes with
    | mk r s' => rw [hu] at this; cases r <;> exact this
  | gather now sizes =>
    have := plain_update h now sizes
    simp only [step]
    cases hu : update s now sizes with
    | mk r s' =>
      rw [hu] at this
      cases r with
      | error e => exact this
      | ok _ => exact plain_reset _ this
  | setLength n => exact h

theorem plain_run (es : List Ev) : ∀ {s : Keeper}, plainStore s.current → plainStore (run s es).current := by
  induction es with
  | nil => intro s h; exact h
  | cons e es ih => intro s h; exact ih (plain_step h e)

theorem plain_deepGet : ∀ (p : List String) (d : Store) (v : Stat), plainStore d → deepGet d p = some v → v.plain
  | [], d, v, h, hg => by
    simp only [deepGet, Option.some.injEq] at hg
    subst hg
    exact h
  | k :: ks, d, v, h, hg => by
    simp only [deepGet] at hg
    cases hd : Dict.get? d k with
    | none => simp [hd] at hg
    | some x =>
      have hx := (plain_get h hd).1
      cases x with
      | node c => simp only [hd] at hg; exact plain_deepGet ks c v hx hg
      | num q =>
        simp only [hd] at hg
        split at hg
        · simp only [Option.some.injEq] at hg; subst hg; simp [Stat.plain]
        · simp at hg
      | text q =>
        simp only [hd] at hg
        split at hg
        · simp only [Option.some.injEq] at hg; subst hg; simp [Stat.plain]
        · simp at hg

/-! ### The values of such a store -/

mutual

theorem valuesIn_parts : ∀ (d : List (String × Stat)) (pre : List String), plainStore d →
    ∀ x ∈ valuesIn pre d, ∃ a v q, Dict.get? d a = some v ∧ x.1 = pre ++ a :: q ∧ (∀ k ∈ a :: q, split k = [k]) ∧
      deepGet d (a :: q) = some x.2
  | [], pre, _, x, hx => by simp [valuesIn] at hx
  | (k, v) :: rest, pre, h, x, hx => by
    simp only [plainStore] at h
    simp only [valuesIn, List.mem_append] at hx
    rcases hx with hx | hx
    · obtain ⟨q, e, hq, hg⟩ := valuesOf_parts v (pre ++ [k]) h.2.2.1 x hx
      refine ⟨k, v, q, by simp [Dict.get?], by simp [e], ?_, ?_⟩
      · intro a ha
        rcases List.mem_cons.1 ha with rfl | ha
        · exact h.1
        · exact hq a ha
      · simp only [deepGet, Dict.get?, if_true]
        cases v with
        | node c => simpa [below] using hg
        | num c => simpa [below] using hg
        | text c => simpa [below] using hg
    · obtain ⟨a, w, q, hg, e, hq, hd⟩ := valuesIn_parts rest pre h.2.2.2 x hx
      have hak : ¬ k = a := by
        intro e'
        subst e'
        have : Dict.get? rest k = none := (Dict.get?_eq_none_iff _ _).2 h.2.1
        simp [this] at hg
      refine ⟨a, w, q, by simp [Dict.get?, hak, hg], e, hq, ?_⟩
      simp only [deepGet, Dict.get?, hak, if_false] at hd ⊢
      exact hd

theorem valuesOf_parts : ∀ (v : Stat) (pre : List String), v.plain →
    ∀ x ∈ valuesOf pre v, ∃ q, x.1 = pre ++ q ∧ (∀ k ∈ q, split k = [k]) ∧ below v q = some x.2
  | .node d, pre, h, x, hx => by
    simp only [valuesOf] at hx
    simp only [Stat.plain] at h
    obtain ⟨a, w, q, _, e, hq, hd⟩ := valuesIn_parts d pre h x hx
    exact ⟨a :: q, e, hq, by simpa [below] using hd⟩
  | .num c, pre, _, x, hx => by
    simp only [valuesOf, List.mem_singleton] at hx
    subst hx
    exact ⟨[], by simp, by simp, by simp [below]⟩
  | .text c, pre, _, x, hx => by
    simp only [valuesOf, List.mem_singleton] at hx
    subst hx
    exact ⟨[], by simp, by simp, by simp [below]⟩

end

theorem split_joined : ∀ (p : List String), p ≠ [] → (∀ k ∈ p, split k = [k]) → split (joined p) = p
  | [], h, _ => absurd rfl h
  | [w], _, h => h w (by simp)
  | w :: w' :: ws, _, h => by
    simp only [joined]
    rw [split_dot, h w (by simp), split_joined (w' :: ws) (by simp) (fun k hk => h k (List.mem_cons_of_mem _ hk))]
    rfl

mutual

theorem mem_valuesIn : ∀ (d : List (String × Stat)) (pre p : List String) (v : Stat), IsValue v → deepGet d p = some v →
    (pre ++ p, v) ∈ valuesIn pre d
  | d, pre, [], v, hv, hg => by
    simp only [deepGet, Option.some.injEq] at hg
    subst hg
    exact absurd hv (by simp [IsValue])
  | [], pre, a :: q, v, hv, hg => by simp [deepGet, Dict.get?] at hg
  | (k, w) :: rest, pre, a :: q, v, hv, hg => by
    simp only [valuesIn, List.mem_append]
    by_cases e : k = a
    · subst e
      left
      have := mem_valuesOf w (pre ++ [k]) q v hv (by
        simp only [deepGet, Dict.get?, if_true] at hg
        cases w with
        | node c => simpa [below] using hg
        | num c => simpa [below] using hg
        | text c => simpa [below] using hg)
      simpa using this
    · right
      exact mem_valuesIn rest pre (a :: q) v hv (by
        simp only [deepGet, Dict.get?, e, if_false] at hg ⊢
        exact hg)

theorem mem_valuesOf : ∀ (w : Stat) (pre p : List String) (v : Stat), IsValue v → below w p = some v → (pre ++ p, v) ∈ valuesOf pre w
  | .node d, pre, p, v, hv, hg => by
    simp only [below] at hg
    simp only [valuesOf]
    exact mem_valuesIn d pre p v hv hg
  | .num c, pre, p, v, hv, hg => by
    simp only [below] at hg
    split at hg
    · next e => simp only [Option.some.injEq] at hg; subst e hg; simp [valuesOf]
    · simp at hg
  | .text c, pre, p, v, hv, hg => by
    simp only [below] at hg
    split at hg
    · next e => simp only [Option.some.injEq] at hg; subst e hg; simp [valuesOf]
    · simp at hg

end

mutual

theorem valuesIn_isValue : ∀ (d : List (String × Stat)) (pre : List String), ∀ x ∈ valuesIn pre d, IsValue x.2
  | [], pre, x, hx => by simp [valuesIn] at hx
  | (k, w) :: rest, pre, x, hx => by
    simp only [valuesIn, List.mem_append] at hx
    rcases hx with hx | hx
    · exact valuesOf_isValue w _ x hx
    · exact valuesIn_isValue rest _ x hx

theorem valuesOf_isValue : ∀ (w : Stat) (pre : List String), ∀ x ∈ valuesOf pre w, IsValue x.2
  | .node d, pre, x, hx => by simp only [valuesOf] at hx; exact valuesIn_isValue d pre x hx
  | .num c, pre, x, hx => by simp only [valuesOf, List.mem_singleton] at hx; subst hx; simp [IsValue]
  | .text c, pre, x, hx => by simp only [valuesOf, List.mem_singleton] at hx; subst hx; simp [IsValue]

end

theorem lastUnder_mem {k : String} {l : List (String × Stat)} {v : Stat} (h : lastUnder k l = some v) : (k, v) ∈ l := by
  induction l with
  | nil => simp [lastUnder] at h
  | cons x l ih =>
    obtain ⟨a, w⟩ := x
    simp only [lastUnder] at h
    cases hl : lastUnder k l with
    | some u =>
      simp only [hl, Option.some_or, Option.some.injEq] at h
      subst h
      exact List.mem_cons_of_mem _ (ih hl)
    | none =>
      simp only [hl, Option.none_or] at h
      by_cases e : a = k
      · simp only [e, if_true, Option.some.injEq] at h; subst e h; simp
      · simp [e] at h

theorem lastUnder_isSome {k : String} {l : List (String × Stat)} {v : Stat} (h : (k, v) ∈ l) : ∃ w, lastUnder k l = some w := by
  induction l with
  | nil => simp at h
  | cons x l ih =>
    obtain ⟨a, w⟩ := x
    simp only [lastUnder]
    cases hl : lastUnder k l with
    | some u => exact ⟨u, rfl⟩
    | none =>
      rcases List.mem_cons.1 h with e | h
      · injection e with e1 e2
        exact ⟨w, by simp [e1]⟩
      · obtain ⟨w, hw⟩ := ih h; rw [hl] at hw; simp at hw

theorem mem_keyed {k : String} {v : Stat} {l : List (List String × Stat)} : (k, v) ∈ keyed l ↔ ∃ p, (p, v) ∈ l ∧ dotted p = k := by
  simp only [keyed, List.mem_map, Prod.mk.injEq, Prod.exists]
  constructor
  · rintro ⟨p, w, hm, e, rfl⟩; exact ⟨p, hm, e⟩
  · rintro ⟨p, hm, e⟩; exact ⟨p, v, hm, e, rfl⟩

theorem get?_flatten (d : Store) (k : String) : Dict.get? (flatten d) k = lastUnder k (keyed (valuesIn [] d)) := by
  have := get?_flattenItems d [] [] k
  simp only [Dict.get?, Option.or_none] at this
  exact this

/-- In a store as the keeper writes it, without an empty segment at the beginning. -/
theorem flatten_plain {d : Store} (h : plainStore d) (hne : Dict.get? d "" = none) (k : String) (v : Stat) :
    Dict.get? (flatten d) k = some v ↔ IsValue v ∧ deepGet d (split k) = some v := by
  have key : ∀ x ∈ valuesIn [] d, IsValue x.2 ∧ split (dotted x.1) = x.1 ∧ deepGet d x.1 = some x.2 := by
    intro x hx
    obtain ⟨a, w, q, hg, e, hq, hd⟩ := valuesIn_parts d [] h x hx
    simp only [List.nil_append] at e
    have ha : a ≠ "" := by rintro rfl; rw [hne] at hg; simp at hg
    refine ⟨valuesIn_isValue d [] x hx, ?_, by rw [e]; exact hd⟩
    rw [e]
    simp only [dotted, List.dropWhile, ha, decide_false]
    exact split_joined (a :: q) (by simp) hq
  rw [get?_flatten]
  constructor
  · intro hl
    obtain ⟨p, hp, e⟩ := mem_keyed.1 (lastUnder_mem hl)
    obtain ⟨h1, h2, h3⟩ := key _ hp
    rw [e] at h2
    exact ⟨h1, by rw [h2]; exact h3⟩
  · rintro ⟨hv, hd⟩
    have hm := mem_valuesIn d [] (split k) v hv hd
    simp only [List.nil_append] at hm
    have e : dotted (split k) = k := split_injective (key _ hm).2.1
    obtain ⟨w, hw⟩ := lastUnder_isSome (mem_keyed.2 ⟨_, hm, e⟩)
    obtain ⟨p, hp, e'⟩ := mem_keyed.1 (lastUnder_mem hw)
    obtain ⟨_, h2, h3⟩ := key _ hp
    rw [e'] at h2
    simp only at h2 h3
    rw [← h2, hd] at h3
    rw [hw]
    exact h3.symm

/-! ### No endpoint with an empty first segment -/

/-- Nothing stands at the place of a route that begins with a dot. -/
def NoBlank (d : Store) : Prop := deepGet d ["endpoint_data", ""] = none

theorem noBlank_deepSet {d d' : Store} {ks : List String} {v : ℚ} (h : NoBlank d) (hk : ¬ ["endpoint_data", ""] <+: ks)
    (hs : deepSet d ks (.num v) = .ok d') : NoBlank d' := by
  have w := deepSet_written ks d d' _ hs
  unfold NoBlank
  by_cases h1 : ks <+: ["endpoint_data", ""]
  · obtain ⟨t, ht⟩ := h1
    cases t with
    | nil => exact absurd (by rw [← ht]; simp) hk
    | cons a t => rw [← ht]; exact deepGet_append_leaf ks d' _ w.same (by simp) a t
  · rw [w.other _ h1 hk]; exact h

theorem noBlank_setAll (es : List (String × ℚ)) : ∀ {d : Store}, NoBlank d → (∀ x ∈ es, ¬ ["endpoint_data", ""] <+: split x.1) →
    NoBlank (setAll d es).2 := by
  induction es with
  | nil => intro d h _; exact h
  | cons x es ih =>
    intro d h hx
    obtain ⟨k, v⟩ := x
    simp only [setAll]
    cases hs : setValue d k v with
    | ok d' => exact ih (noBlank_deepSet h (hx _ List.mem_cons_self) hs) (fun y hy => hx y (List.mem_cons_of_mem _ hy))
    | error e => exact h

theorem noBlank_set {d : Store} {k : String} {v : Stat} (h : NoBlank d) (hk : k ≠ "endpoint_data") : NoBlank (Dict.set d k v) := by
  unfold NoBlank
  rw [deepGet_set, if_neg hk]
  exact h

theorem noBlank_stamp {s : Keeper} (h : NoBlank s.current) (now : ℚ) : NoBlank (stamp s now) := by
  unfold stamp
  exact noBlank_set (noBlank_set (noBlank_set (noBlank_set h (by decide)) (by decide)) (by decide)) (by decide)

/-- What holds of a keeper whose routes do not begin with dots. -/
structure Blankless (s : Keeper) : Prop where
  store : NoBlank s.current
  durations : ∀ x ∈ s.durations, (split x.1).head? ≠ some ""
  queues : ∀ k ∈ s.queues, (split k).head? ≠ some "endpoint_data"

theorem blank_route {r f : String} (h : (split r).head? ≠ some "") : ¬ ["endpoint_data", ""] <+: "endpoint_data" :: (split r ++ [f]) := by
  intro hp
  rw [List.cons_prefix_cons] at hp
  cases hr : split r with
  | nil => exact absurd hr (split_ne_nil r)
  | cons a q =>
    rw [hr, List.cons_append, List.cons_prefix_cons] at hp
    rw [hr] at h
    exact h (by simp [← hp.2.1])

theorem blank_apart {k : String} (h : (split k).head? ≠ some "endpoint_data") : ¬ ["endpoint_data", ""] <+: split k := by
  intro hp
  cases hr : split k with
  | nil => exact absurd hr (split_ne_nil k)
  | cons a q =>
    rw [hr, List.cons_prefix_cons] at hp
    rw [hr] at h
    exact h (by simp [← hp.1])

theorem noBlank_increment {d d' : Store} {k : String} {v : ℚ} (h : NoBlank d) (hk : ¬ ["endpoint_data", ""] <+: split k)
    (hs : incrementValue d k v = .ok d') : NoBlank d' := by
  unfold incrementValue at hs
  cases hg : deepGet d (split k) with
  | none => simp only [hg] at hs; exact noBlank_deepSet h hk hs
  | some x =>
    cases x with
    | num q => simp only [hg] at hs; exact noBlank_deepSet h hk hs
    | text q => simp [hg] at hs
    | node q => simp [hg] at hs

theorem blankless_update {s : Keeper} (h : Blankless s) (now : ℚ) (sizes : String → ℚ) : Blankless (update s now sizes).2 := by
  refine ⟨?_, h.durations, h.queues⟩
  simp only [update]
  refine noBlank_setAll _ (noBlank_stamp h.store now) ?_
  intro x hx
  rcases List.mem_append.1 hx with hx | hx
  · obtain ⟨r, l, hm, h2⟩ := mem_entries (k := x.1) (v := x.2) hx
    rcases h2 with ⟨e, _⟩ | ⟨e, _⟩
    · rw [e, split_p95]; exact blank_route (h.durations _ hm)
    · rw [e, split_p99]; exact blank_route (h.durations _ hm)
  · obtain ⟨k, hk, rfl⟩ := List.mem_map.1 hx
    exact blank_apart (h.queues k hk)

theorem blankless_step {s : Keeper} (h : Blankless s) (e : Ev) (ha : Apart e) (hr : ∀ r ∈ routes [e], (split r).head? ≠ some "") :
    Blankless (step s e).2 := by
  have hset : ∀ (r : String) (l : List ℚ), (split r).head? ≠ some "" → ∀ x ∈ Dict.set s.durations r l, (split x.1).head? ≠ some "" := by
    intro r l hr x hx
    rcases mem_set hx with e | ⟨y, hy, e⟩
    · rw [e]; exact hr
    · rw [← e]; exact h.durations y hy
  cases e with
  | track r =>
    have hr := hr r (by simp [routes])
    simp only [step]
    cases hi : incrementValue s.current ("endpoint_data." ++ r ++ ".call_count") 0 with
    | ok d => exact ⟨noBlank_increment h.store (by rw [split_count]; exact blank_route hr) hi, hset r [] hr, h.queues⟩
    | error e => exact h
  | call r x =>
    have hr := hr r (by simp [routes])
    simp only [step]
    cases hi : incrementValue s.current ("endpoint_data." ++ r ++ ".call_count") 1 with
    | ok d =>
      have hd := noBlank_increment h.store (by rw [split_count]; exact blank_route hr) hi
      simp only
      cases Dict.get? s.durations r with
      | none => exact ⟨hd, h.durations, h.queues⟩
      | some ds => exact ⟨hd, hset r _ hr, h.queues⟩
    | error e => exact h
  | set k v =>
    simp only [step]
    cases hi : setValue s.current k v with
    | ok d => exact ⟨noBlank_deepSet h.store (blank_apart ha) hi, h.durations, h.queues⟩
    | error e => exact h
  | increment k v =>
    simp only [step]
    cases hi : incrementValue s.current k v with
    | ok d => exact ⟨noBlank_increment h.store (blank_apart ha) hi, h.durations, h.queues⟩
    | error e => exact h
  | addQueue k =>
    refine ⟨h.store, h.durations, ?_⟩
    simp only [step]
    intro k' hk'
    split at hk'
    · exact h.queues k' hk'
    · rcases List.mem_append.1 hk' with hk' | hk'
      · exact h.queues k' hk'
      · rw [List.mem_singleton.1 hk']; exact ha
  | read now sizes =>
    have := blankless_update h now sizes
    simp only [step]
    cases hu : update s now sizes with
    | mk r s' => rw [hu] at this; cases r <;> exact this
  | gather now sizes =>
    have := blankless_update h now sizes
    simp only [step]
    cases hu : update s now sizes with
    | mk r s' =>
      rw [hu] at this
      cases r with
      | error e => exact this
      | ok _ =>
        refine ⟨?_, ?_, this.queues⟩
        · have h1 := this.store
          simp only [NoBlank] at h1 ⊢
          rw [deepGet_reset, h1]
          rfl
        · intro x hx
          obtain ⟨y, hy, rfl⟩ := List.mem_map.1 hx
          exact this.durations y hy
  | setLength n => exact ⟨h.store, h.durations, h.queues⟩

theorem blankless_run (es : List Ev) : ∀ {s : Keeper}, Blankless s → (∀ e ∈ es, Apart e) → (∀ r ∈ routes es, (split r).head? ≠ some "") →
    Blankless (run s es) := by
  induction es with
  | nil => intro s h _ _; exact h
  | cons e es ih =>
    intro s h ha hr
    rw [routes_cons] at hr
    exact ih (blankless_step h e (ha e (by simp)) (fun r hr' => hr r (List.mem_append_left _ hr')))
      (fun e' he' => ha e' (List.mem_cons_of_mem _ he')) (fun r hr' => hr r (List.mem_append_right _ hr'))

/-- What a report says is what the keeper held after bringing it up to date. -/
theorem report_update {s : Keeper} {e : Ev} {now : ℚ} {sizes : String → ℚ} (he : e = .read now sizes ∨ e = .gather now sizes) {d : Store}
    (hd : (step s e).1 = .ok (some d)) : (update s now sizes).2.current = d := by
  rcases he with rfl | rfl <;> simp only [step] at hd <;>
  · rcases hx : update s now sizes with ⟨res, s'⟩
    rw [hx] at hd
    cases res with
    | error e => simp at hd
    | ok u => simpa using hd

theorem deepGet_append_node : ∀ (p q : List String) (d c : Store), deepGet d p = some (.node c) → deepGet d (p ++ q) = deepGet c q
  | [], q, d, c, h => by simp only [deepGet, Option.some.injEq, Stat.node.injEq] at h; subst h; rfl
  | k :: ks, q, d, c, h => by
    simp only [deepGet, List.cons_append] at h ⊢
    cases hg : Dict.get? d k with
    | none => simp [hg] at h
    | some x =>
      cases x with
      | node c' => simp only [hg] at h ⊢; exact deepGet_append_node ks q c' c h
      | num q => simp only [hg] at h; split at h <;> simp at h
      | text q => simp only [hg] at h; split at h <;> simp at h

end Verif.Stats
