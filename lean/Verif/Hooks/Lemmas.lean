import Verif.Hooks.Spec
import Verif.Py.DictLemmas
import Mathlib.Data.List.Nodup

/-!
# Lemmas about storing metadata and running hooks
-/

namespace Verif.Hooks

open Verif.Py

/-! ### Storing -/

mutual

theorem stored_plain : ∀ (v w : Val), v.stored = some w → Plain w
  | .none, w, h => by simp only [Val.stored, Option.some.injEq] at h; subst h; exact .none
  | .bool b, w, h => by simp only [Val.stored, Option.some.injEq] at h; subst h; exact .bool b
  | .int i, w, h => by simp only [Val.stored, Option.some.injEq] at h; subst h; exact .int i
  | .float r, w, h => by simp only [Val.stored, Option.some.injEq] at h; subst h; exact .float r
  | .str s, w, h => by simp only [Val.stored, Option.some.injEq] at h; subst h; exact .str s
  | .list items, w, h => by
    simp only [Val.stored, Option.map_eq_some_iff] at h
    obtain ⟨ws, h1, rfl⟩ := h
    exact .list ws (storedList_plain items ws h1)
  | .tuple items, w, h => by
    simp only [Val.stored, Option.map_eq_some_iff] at h
    obtain ⟨ws, h1, rfl⟩ := h
    exact .list ws (storedList_plain items ws h1)
  | .dict fields, w, h => by
    simp only [Val.stored, Option.map_eq_some_iff] at h
    obtain ⟨ws, h1, rfl⟩ := h
    obtain ⟨h2, h3, h4⟩ := storedFields_plain fields [] ws (by simp) (by simp) (by simp) h1
    exact .dict ws h2 h3 h4
  | .object _, w, h => by simp [Val.stored] at h

theorem storedList_plain : ∀ (vs ws : List Val), storedList vs = some ws → ∀ w ∈ ws, Plain w
  | [], ws, h => by simp only [storedList, Option.some.injEq] at h; subst h; simp
  | v :: vs, ws, h => by
    simp only [storedList] at h
    cases h1 : v.stored with
    | none => rw [h1] at h; cases h
    | some w =>
      cases h2 : storedList vs with
      | none => rw [h1, h2] at h; cases h
      | some ws' =>
        rw [h1, h2] at h
        simp only [Option.some.injEq] at h; subst h
        intro x hx
        rcases List.mem_cons.1 hx with rfl | hx
        · exact stored_plain v _ h1
        · exact storedList_plain vs ws' h2 x hx

theorem storedFields_plain : ∀ (fs acc out : List (Key × Val)), (∀ f ∈ acc, ∃ s, f.1 = .str s) →
    (acc.map Prod.fst).Nodup → (∀ f ∈ acc, Plain f.2) → storedFields fs acc = some out →
    (∀ f ∈ out, ∃ s, f.1 = .str s) ∧ (out.map Prod.fst).Nodup ∧ ∀ f ∈ out, Plain f.2
  | [], acc, out, ha, hb, hc, h => by
    simp only [storedFields, Option.some.injEq] at h; subst h; exact ⟨ha, hb, hc⟩
  | (k, v) :: rest, acc, out, ha, hb, hc, h => by
    simp only [storedFields] at h
    cases h1 : v.stored with
    | none => rw [h1] at h; cases h
    | some w =>
      rw [h1] at h
      have hmem : ∀ f ∈ Dict.set acc (.str k.text) w, f = (.str k.text, w) ∨ f ∈ acc := by
        intro f hf
        clear h ha hb hc
        induction acc with
        | nil => simp only [Dict.set, List.mem_singleton] at hf; exact .inl hf
        | cons a acc ih =>
          obtain ⟨a1, a2⟩ := a
          simp only [Dict.set] at hf
          by_cases he : a1 = .str k.text
          · simp only [he, if_true] at hf
            rcases List.mem_cons.1 hf with rfl | hf
            · exact .inl rfl
            · exact .inr (List.mem_cons_of_mem _ hf)
          · simp only [he, if_false] at hf
            rcases List.mem_cons.1 hf with rfl | hf
            · exact .inr (List.mem_cons_self ..)
            · rcases ih hf with h | h
              · exact .inl h
              · exact .inr (List.mem_cons_of_mem _ h)
      refine storedFields_plain rest _ out ?_ ?_ ?_ h
      · intro f hf
        rcases hmem f hf with rfl | hf
        · exact ⟨k.text, rfl⟩
        · exact ha f hf
      · exact Dict.nodup_keys_set acc _ _ hb
      · intro f hf
        rcases hmem f hf with rfl | hf
        · exact stored_plain v w h1
        · exact hc f hf

end

theorem storedList_id : ∀ (vs : List Val), (∀ v ∈ vs, v.stored = some v) → storedList vs = some vs
  | [], _ => rfl
  | v :: vs, h => by
    simp only [storedList, h v (List.mem_cons_self ..), storedList_id vs fun x hx => h x (List.mem_cons_of_mem _ hx)]

theorem storedFields_id : ∀ (fs acc : List (Key × Val)), (∀ f ∈ fs, ∃ s, f.1 = .str s) →
    ((acc ++ fs).map Prod.fst).Nodup → (∀ f ∈ fs, f.2.stored = some f.2) → storedFields fs acc = some (acc ++ fs)
  | [], acc, _, _, _ => by simp [storedFields]
  | (k, v) :: rest, acc, hs, hn, hv => by
    obtain ⟨s, rfl⟩ : ∃ s, k = .str s := hs (k, v) (List.mem_cons_self ..)
    have h1 : v.stored = some v := hv (.str s, v) (List.mem_cons_self ..)
    have hnot : (.str s : Key) ∉ Dict.keys acc := by
      intro hmem
      rw [List.map_append, List.nodup_append] at hn
      exact hn.2.2 _ hmem _ (List.mem_cons_self ..) rfl
    simp only [storedFields, h1, Key.text, Dict.set_of_not_mem acc _ v hnot]
    rw [storedFields_id rest (acc ++ [(Key.str s, v)]) (fun f hf => hs f (List.mem_cons_of_mem _ hf))
      (by simpa using hn) fun f hf => hv f (List.mem_cons_of_mem _ hf)]
    simp

theorem plain_stored {v : Val} (h : Plain v) : v.stored = some v := by
  induction h with
  | none => rfl
  | bool => rfl
  | int => rfl
  | float => rfl
  | str => rfl
  | list items _ ih => simp only [Val.stored, storedList_id items ih, Option.map_some]
  | dict fields hk hn _ ih =>
    simp only [Val.stored, storedFields_id fields [] hk (by simpa using hn) ih, Option.map_some, List.nil_append]

/-- What was stored once is stored unchanged. -/
theorem storedFields_again {fs out : List (Key × Val)} (h : storedFields fs [] = some out) : storedFields out [] = some out := by
  obtain ⟨h1, h2, h3⟩ := storedFields_plain fs [] out (by simp) (by simp) (by simp) h
  simpa using storedFields_id out [] h1 (by simpa using h2) fun f hf => plain_stored (h3 f hf)

/-! ### Merging -/

theorem mem_set {d : Meta} {k : Key} {v : Val} (hn : (Dict.keys d).Nodup) (k' : Key) (v' : Val) :
    (k', v') ∈ Dict.set d k v ↔ if k' = k then v' = v else (k', v') ∈ d := by
  have hn' := Dict.nodup_keys_set d k v hn
  have h1 : (k', v') ∈ Dict.set d k v ↔ Dict.get? (Dict.set d k v) k' = some v' :=
    ⟨Dict.get?_of_mem _ _ _ hn', Dict.get?_mem _ _ _⟩
  have h2 : (k', v') ∈ d ↔ Dict.get? d k' = some v' := ⟨Dict.get?_of_mem _ _ _ hn, Dict.get?_mem _ _ _⟩
  rw [h1, h2, Dict.get?_set]
  by_cases h : k = k'
  · subst h; simp [eq_comm]
  · have h' : ¬ k' = k := fun e => h e.symm
    simp [h, h']

theorem mem_update : ∀ (r d : Meta), (Dict.keys d).Nodup → (Dict.keys r).Nodup → ∀ (k : Key) (v : Val),
    (Dict.keys (update d r)).Nodup ∧ ((k, v) ∈ update d r ↔ (k, v) ∈ r ∨ ((∀ v', (k, v') ∉ r) ∧ (k, v) ∈ d))
  | [], d, hd, _, k, v => by simp [update, hd]
  | (k0, v0) :: rest, d, hd, hr, k, v => by
    have hr' : k0 ∉ Dict.keys rest ∧ (Dict.keys rest).Nodup := by simpa [Dict.keys] using hr
    obtain ⟨h1, h2⟩ := mem_update rest (Dict.set d k0 v0) (Dict.nodup_keys_set d k0 v0 hd) hr'.2 k v
    have hout : ∀ v', (k0, v') ∉ rest := fun v' hm => hr'.1 (List.mem_map_of_mem (f := Prod.fst) hm)
    refine ⟨h1, ?_⟩
    rw [update, h2, mem_set hd]
    by_cases hk : k = k0
    · subst hk
      simp only [if_true, List.mem_cons, Prod.mk.injEq, true_and]
      constructor
      · rintro (h | ⟨_, h⟩)
        · exact .inl (.inr h)
        · exact .inl (.inl h)
      · rintro ((h | h) | ⟨h, _⟩)
        · exact .inr ⟨hout, h⟩
        · exact .inl h
        · exact absurd rfl (not_or.1 (h v0)).1
    · simp only [hk, if_false, List.mem_cons, Prod.mk.injEq, false_and, false_or]

variable {K D J E : Type}

/-- Merging the results of the hooks, none of which raises. -/
theorem collect_merged (key : K) (dto : D) : ∀ (hooks : List (Hook K D E)) (rs : List (Option Meta)) (i : Nat) (md : Meta),
    hooks.map (fun h => h.beforePush key dto) = rs.map (fun r => (.ok r, dto)) → (∀ r, some r ∈ rs → (Dict.keys r).Nodup) →
    (Dict.keys md).Nodup →
    ∃ out, collect key hooks i dto md = (.ok out, dto, (List.range' i hooks.length).map fun j => .push j key dto) ∧
      (Dict.keys out).Nodup ∧
      ∀ k v, (k, v) ∈ out ↔ LastSays rs k v ∨ ((∀ r, some r ∈ rs → ∀ v', (k, v') ∉ r) ∧ (k, v) ∈ md)
  | [], [], i, md, _, _, hm => ⟨md, rfl, hm, fun k v => by simp [LastSays]⟩
  | [], _ :: _, _, _, h, _, _ => by simp at h
  | _ :: _, [], _, _, h, _, _ => by simp at h
  | h :: hs, r :: rs, i, md, he, hr, hm => by
    simp only [List.map_cons, List.cons.injEq] at he
    obtain ⟨he1, he2⟩ := he
    have hr' : ∀ r, some r ∈ rs → (Dict.keys r).Nodup := fun r hx => hr r (List.mem_cons_of_mem _ hx)
    cases r with
    | none =>
      obtain ⟨out, h1, h2, h3⟩ := collect_merged key dto hs rs (i + 1) md he2 hr' hm
      refine ⟨out, ?_, h2, ?_⟩
      · simp only [collect, he1, h1, List.length_cons, List.range'_succ, List.map_cons]
      · intro k v
        rw [h3]
        have hl : LastSays (none :: rs) k v ↔ LastSays rs k v := by
          constructor
          · rintro ⟨pre, r, post, hc, hx⟩
            cases pre with
            | nil => simp at hc
            | cons p pre => simp only [List.cons_append, List.cons.injEq] at hc; exact ⟨pre, r, post, hc.2, hx⟩
          · rintro ⟨pre, r, post, rfl, hx⟩
            exact ⟨none :: pre, r, post, rfl, hx⟩
        rw [hl]
        simp
    | some r =>
      have hrn : (Dict.keys r).Nodup := hr r (List.mem_cons_self ..)
      obtain ⟨out, h1, h2, h3⟩ := collect_merged key dto hs rs (i + 1) (update md r) he2 hr'
        (mem_update r md hm hrn (.str "") .none).1
      refine ⟨out, ?_, h2, ?_⟩
      · simp only [collect, he1, h1, List.length_cons, List.range'_succ, List.map_cons]
      · intro k v
        rw [h3, (mem_update r md hm hrn k v).2]
        have hl : LastSays (some r :: rs) k v ↔ LastSays rs k v ∨ ((∀ r', some r' ∈ rs → ∀ v', (k, v') ∉ r') ∧ (k, v) ∈ r) := by
          constructor
          · rintro ⟨pre, r', post, hc, hx, hy⟩
            cases pre with
            | nil =>
              simp only [List.nil_append, List.cons.injEq, Option.some.injEq] at hc
              obtain ⟨rfl, rfl⟩ := hc
              exact .inr ⟨hy, hx⟩
            | cons p pre =>
              simp only [List.cons_append, List.cons.injEq] at hc
              exact .inl ⟨pre, r', post, hc.2, hx, hy⟩
          · rintro (⟨pre, r', post, rfl, hx⟩ | ⟨hx, hy⟩)
            · exact ⟨some r :: pre, r', post, rfl, hx⟩
            · exact ⟨[], r, rs, rfl, hy, hx⟩
        rw [hl]
        constructor
        · rintro (h | ⟨h, h' | ⟨h', h''⟩⟩)
          · exact .inl (.inl h)
          · exact .inl (.inr ⟨h, h'⟩)
          · refine .inr ⟨?_, h''⟩
            intro r' hr' v'
            rcases List.mem_cons.1 hr' with e | e
            · cases e; exact h' v'
            · exact h r' e v'
        · rintro ((h | ⟨h, h'⟩) | ⟨h, h'⟩)
          · exact .inl h
          · exact .inr ⟨h, .inl h'⟩
          · exact .inr ⟨fun r' hr' => h r' (List.mem_cons_of_mem _ hr'), .inr ⟨h r (List.mem_cons_self ..), h'⟩⟩

/-! ### Calls -/

theorem getElem?_cons_drop {α : Type} {all : List α} {i : Nat} {h : α} {hs : List α} (hd : all.drop i = h :: hs) :
    all[i]? = some h ∧ all.drop (i + 1) = hs := by
  constructor
  · have := congrArg (·[0]?) hd
    simpa using this
  · have := congrArg (List.drop 1) hd
    simpa using this

/-- A run of hooks: either all were called and returned, or the calls stop with the one that raised. -/
theorem runBefore_calls (all : List (Hook K D E)) (handler : K → D → Except E Bool × D) (key : K) (n : Nat) :
    ∀ (hs : List (Hook K D E)) (i : Nat) (d : D) (md : Meta), all.drop i = hs →
    ((runBefore key n hs i d md).1 = .ok () ∧
      (runBefore key n hs i d md).2.2.2.map Call.who = (List.range' i hs.length).map (.before · n) ∧
      ∀ c ∈ (runBefore key n hs i d md).2.2.2, ¬ c.Raises all handler) ∨
    (∃ e, (runBefore key n hs i d md).1 = .error e) ∧
      (runBefore key n hs i d md).2.2.2.map Call.who <+: (List.range' i hs.length).map (.before · n) ∧
      StopsWith all handler (runBefore key n hs i d md).2.2.2
  | [], i, d, md, _ => .inl ⟨rfl, rfl, by simp [runBefore]⟩
  | h :: hs, i, d, md, hd => by
    obtain ⟨h1, h2⟩ := getElem?_cons_drop hd
    rcases hb : h.beforeProcess key d md n with ⟨res, d', md'⟩
    cases res with
    | error e =>
      refine .inr ⟨⟨e, by simp only [runBefore, hb]⟩, ?_, [], .before i key d md n, ?_, by simp, h, e, h1, by rw [hb]⟩
      · simp only [runBefore, hb, List.length_cons, List.range'_succ, List.map_cons, List.map_nil, Call.who]
        exact ⟨_, rfl⟩
      · simp only [runBefore, hb, List.nil_append]
    | ok u =>
      have hnot : ¬ (Call.before i key d md n).Raises all handler := by
        rintro ⟨h', e, h3, h4⟩
        rw [h1] at h3; cases h3
        rw [hb] at h4; cases h4
      rcases runBefore_calls all handler key n hs (i + 1) d' md' h2 with ⟨g1, g2, g3⟩ | ⟨⟨e, g1⟩, g2, pre, c, g3, g4, g5⟩
      · refine .inl ⟨by simp only [runBefore, hb, g1], ?_, ?_⟩
        · simp only [runBefore, hb, List.map_cons, g2, List.length_cons, List.range'_succ, Call.who]
        · simp only [runBefore, hb]
          intro c hc
          rcases List.mem_cons.1 hc with rfl | hc
          · exact hnot
          · exact g3 c hc
      · refine .inr ⟨⟨e, by simp only [runBefore, hb, g1]⟩, ?_, .before i key d md n :: pre, c, ?_, ?_, g5⟩
        · simp only [runBefore, hb, List.map_cons, List.length_cons, List.range'_succ, Call.who]
          exact List.prefix_cons_inj _ |>.2 g2
        · simp only [runBefore, hb, g3, List.cons_append]
        · intro x hx
          rcases List.mem_cons.1 hx with rfl | hx
          · exact hnot
          · exact g4 x hx

/-- The same for the hooks after the handler. -/
theorem runAfter_calls (all : List (Hook K D E)) (handler : K → D → Except E Bool × D) (key : K) (b : Bool) :
    ∀ (hs : List (Hook K D E)) (i : Nat) (d : D) (md : Meta), all.drop i = hs →
    ((runAfter key b hs i d md).1 = .ok () ∧
      (runAfter key b hs i d md).2.2.2.map Call.who = (List.range' i hs.length).map (.after · b) ∧
      ∀ c ∈ (runAfter key b hs i d md).2.2.2, ¬ c.Raises all handler) ∨
    (∃ e, (runAfter key b hs i d md).1 = .error e) ∧
      (runAfter key b hs i d md).2.2.2.map Call.who <+: (List.range' i hs.length).map (.after · b) ∧
      StopsWith all handler (runAfter key b hs i d md).2.2.2
  | [], i, d, md, _ => .inl ⟨rfl, rfl, by simp [runAfter]⟩
  | h :: hs, i, d, md, hd => by
    obtain ⟨h1, h2⟩ := getElem?_cons_drop hd
    rcases hb : h.afterProcess key d md b with ⟨res, d', md'⟩
    cases res with
    | error e =>
      refine .inr ⟨⟨e, by simp only [runAfter, hb]⟩, ?_, [], .after i key d md b, ?_, by simp, h, e, h1, by rw [hb]⟩
      · simp only [runAfter, hb, List.length_cons, List.range'_succ, List.map_cons, List.map_nil, Call.who]
        exact ⟨_, rfl⟩
      · simp only [runAfter, hb, List.nil_append]
    | ok u =>
      have hnot : ¬ (Call.after i key d md b).Raises all handler := by
        rintro ⟨h', e, h3, h4⟩
        rw [h1] at h3; cases h3
        rw [hb] at h4; cases h4
      rcases runAfter_calls all handler key b hs (i + 1) d' md' h2 with ⟨g1, g2, g3⟩ | ⟨⟨e, g1⟩, g2, pre, c, g3, g4, g5⟩
      · refine .inl ⟨by simp only [runAfter, hb, g1], ?_, ?_⟩
        · simp only [runAfter, hb, List.map_cons, g2, List.length_cons, List.range'_succ, Call.who]
        · simp only [runAfter, hb]
          intro c hc
          rcases List.mem_cons.1 hc with rfl | hc
          · exact hnot
          · exact g3 c hc
      · refine .inr ⟨⟨e, by simp only [runAfter, hb, g1]⟩, ?_, .after i key d md b :: pre, c, ?_, ?_, g5⟩
        · simp only [runAfter, hb, List.map_cons, List.length_cons, List.range'_succ, Call.who]
          exact List.prefix_cons_inj _ |>.2 g2
        · simp only [runAfter, hb, g3, List.cons_append]
        · intro x hx
          rcases List.mem_cons.1 hx with rfl | hx
          · exact hnot
          · exact g4 x hx

/-- The same for the hooks at push time. -/
theorem collect_calls (all : List (Hook K D E)) (handler : K → D → Except E Bool × D) (key : K) :
    ∀ (hs : List (Hook K D E)) (i : Nat) (d : D) (md : Meta), all.drop i = hs →
    ((∃ m, (collect key hs i d md).1 = .ok m) ∧
      (collect key hs i d md).2.2.map Call.who = (List.range' i hs.length).map .push ∧
      ∀ c ∈ (collect key hs i d md).2.2, ¬ c.Raises all handler) ∨
    (∃ e, (collect key hs i d md).1 = .error e) ∧
      (collect key hs i d md).2.2.map Call.who <+: (List.range' i hs.length).map .push ∧
      StopsWith all handler (collect key hs i d md).2.2
  | [], i, d, md, _ => .inl ⟨⟨md, rfl⟩, rfl, by simp [collect]⟩
  | h :: hs, i, d, md, hd => by
    obtain ⟨h1, h2⟩ := getElem?_cons_drop hd
    rcases hb : h.beforePush key d with ⟨res, d'⟩
    cases res with
    | error e =>
      refine .inr ⟨⟨e, by simp only [collect, hb]⟩, ?_, [], .push i key d, ?_, by simp, h, e, h1, by rw [hb]⟩
      · simp only [collect, hb, List.length_cons, List.range'_succ, List.map_cons, List.map_nil, Call.who]
        exact ⟨_, rfl⟩
      · simp only [collect, hb, List.nil_append]
    | ok r =>
      have hnot : ¬ (Call.push i key d).Raises all handler := by
        rintro ⟨h', e, h3, h4⟩
        rw [h1] at h3; cases h3
        rw [hb] at h4; cases h4
      obtain ⟨md', hc⟩ : ∃ md', collect key (h :: hs) i d md =
          ((collect key hs (i + 1) d' md').1, (collect key hs (i + 1) d' md').2.1, .push i key d :: (collect key hs (i + 1) d' md').2.2) := by
        cases r with
        | none => exact ⟨md, by simp only [collect, hb]⟩
        | some r => exact ⟨update md r, by simp only [collect, hb]⟩
      rw [hc]
      rcases collect_calls all handler key hs (i + 1) d' md' h2 with ⟨⟨m, g1⟩, g2, g3⟩ | ⟨⟨e, g1⟩, g2, pre, c, g3, g4, g5⟩
      · refine .inl ⟨⟨m, g1⟩, ?_, ?_⟩
        · simp only [List.map_cons, g2, List.length_cons, List.range'_succ, Call.who]
        · intro c hc
          rcases List.mem_cons.1 hc with rfl | hc
          · exact hnot
          · exact g3 c hc
      · refine .inr ⟨⟨e, g1⟩, ?_, .push i key d :: pre, c, ?_, ?_, g5⟩
        · simp only [List.map_cons, List.length_cons, List.range'_succ, Call.who]
          exact List.prefix_cons_inj _ |>.2 g2
        · simp only [g3, List.cons_append]
        · intro x hx
          rcases List.mem_cons.1 hx with rfl | hx
          · exact hnot
          · exact g4 x hx

/-! ### Hooks that change nothing -/

theorem runBefore_reads (key : K) (n : Nat) (d : D) (md : Meta) : ∀ (hs : List (Hook K D E)) (i : Nat), (∀ h ∈ hs, h.Reads) →
    (runBefore key n hs i d md).2.1 = d ∧ (runBefore key n hs i d md).2.2.1 = md ∧
    ∀ c ∈ (runBefore key n hs i d md).2.2.2, c.Shows key d md
  | [], i, _ => by simp [runBefore]
  | h :: hs, i, hr => by
    have h1 := (hr h (List.mem_cons_self ..)).before key d md n
    rcases hb : h.beforeProcess key d md n with ⟨res, d', md'⟩
    rw [hb] at h1
    simp only [Prod.mk.injEq] at h1
    obtain ⟨rfl, rfl⟩ := h1
    obtain ⟨g1, g2, g3⟩ := runBefore_reads key n d' md' hs (i + 1) fun x hx => hr x (List.mem_cons_of_mem _ hx)
    cases res with
    | error e => simp [runBefore, hb, Call.Shows]
    | ok u =>
      simp only [runBefore, hb]
      refine ⟨g1, g2, ?_⟩
      intro c hc
      rcases List.mem_cons.1 hc with rfl | hc
      · exact ⟨rfl, rfl, rfl⟩
      · exact g3 c hc

theorem runAfter_reads (key : K) (b : Bool) (d : D) (md : Meta) : ∀ (hs : List (Hook K D E)) (i : Nat), (∀ h ∈ hs, h.Reads) →
    (runAfter key b hs i d md).2.1 = d ∧ (runAfter key b hs i d md).2.2.1 = md ∧
    ∀ c ∈ (runAfter key b hs i d md).2.2.2, c.Shows key d md
  | [], i, _ => by simp [runAfter]
  | h :: hs, i, hr => by
    have h1 := (hr h (List.mem_cons_self ..)).after key d md b
    rcases hb : h.afterProcess key d md b with ⟨res, d', md'⟩
    rw [hb] at h1
    simp only [Prod.mk.injEq] at h1
    obtain ⟨rfl, rfl⟩ := h1
    obtain ⟨g1, g2, g3⟩ := runAfter_reads key b d' md' hs (i + 1) fun x hx => hr x (List.mem_cons_of_mem _ hx)
    cases res with
    | error e => simp [runAfter, hb, Call.Shows]
    | ok u =>
      simp only [runAfter, hb]
      refine ⟨g1, g2, ?_⟩
      intro c hc
      rcases List.mem_cons.1 hc with rfl | hc
      · exact ⟨rfl, rfl, rfl⟩
      · exact g3 c hc

/-- The place of a message with key `key` whose payload reads as `d` and whose stored metadata is `md`. -/
def Holds (cfg : Cfg D J) (key : K) (d : D) (md : Meta) : Place K J → Prop
  | .pending e => e.key = key ∧ cfg.build e.data = some d ∧ e.md = md
  | .failed e => e.key = key ∧ cfg.build e.data = some d ∧ e.md = md
  | _ => True

theorem entry_holds {cfg : Cfg D J} {key : K} {d : D} {md : Meta} (hm : storedFields md [] = some md)
    (hd : ∀ j, cfg.dump d = some j → cfg.build j = some d) (n : Nat) (e : Entry K J) (h : entry cfg key d n md = some e) :
    e.key = key ∧ cfg.build e.data = some d ∧ e.md = md := by
  unfold entry at h
  rw [hm] at h
  cases hj : cfg.dump d with
  | none => rw [hj] at h; cases h
  | some j =>
    rw [hj] at h
    simp only [Option.some.injEq] at h
    subst h
    exact ⟨rfl, hd j hj, rfl⟩

theorem step_reads {cfg : Cfg D J} {key : K} {d : D} {md : Meta} (hm : storedFields md [] = some md)
    (hd : ∀ j, cfg.dump d = some j → cfg.build j = some d) {p : Place K J} (hp : Holds cfg key d md p)
    {ev : Event K D E} (hev : ev.Reads) :
    Holds cfg key d md (step cfg p ev).1 ∧ ∀ c ∈ (step cfg p ev).2, c.Shows key d md := by
  have hsame : ∀ q : Place K J, Holds cfg key d md q → Holds cfg key d md q ∧ ∀ c ∈ ([] : List (Call K D)), c.Shows key d md :=
    fun q hq => ⟨hq, by simp⟩
  cases p with
  | pending e =>
    cases ev with
    | reprocess => exact hsame _ hp
    | attempt hooks handler =>
      obtain ⟨hr, hh⟩ := hev
      obtain ⟨rfl, hb, rfl⟩ := hp
      simp only [step, attempt, hb]
      obtain ⟨g1, g2, g3⟩ := runBefore_reads e.key e.retries d e.md hooks 0 hr
      rcases hx : runBefore e.key e.retries hooks 0 d e.md with ⟨r1, d1, md1, c1⟩
      rw [hx] at g1 g2 g3
      simp only at g1 g2 g3
      subst g1; subst g2
      cases r1 with
      | error x => exact ⟨trivial, g3⟩
      | ok u =>
        have hh1 := hh e.key d1
        rcases hy : handler e.key d1 with ⟨r2, d2⟩
        rw [hy] at hh1
        simp only at hh1
        subst hh1
        have hcalls : ∀ c2 : List (Call K D), (∀ c ∈ c2, c.Shows e.key d2 e.md) →
            ∀ c ∈ c1 ++ .handler e.key d2 :: c2, c.Shows e.key d2 e.md := by
          intro c2 hc2 c hc
          rcases List.mem_append.1 hc with hc | hc
          · exact g3 c hc
          · rcases List.mem_cons.1 hc with rfl | hc
            · exact ⟨rfl, rfl⟩
            · exact hc2 c hc
        simp only [hx, hy]
        cases r2 with
        | error x => exact ⟨trivial, hcalls [] (by simp)⟩
        | ok success =>
          obtain ⟨f1, f2, f3⟩ := runAfter_reads e.key success d2 e.md hooks 0 hr
          rcases hz : runAfter e.key success hooks 0 d2 e.md with ⟨r3, d3, md3, c3⟩
          rw [hz] at f1 f2 f3
          simp only at f1 f2 f3
          subst f1; subst f2
          simp only [hz]
          cases r3 with
          | error x => exact ⟨trivial, hcalls c3 f3⟩
          | ok u =>
            cases success with
            | true => exact ⟨trivial, hcalls c3 f3⟩
            | false =>
              simp only [Bool.false_eq_true, if_false]
              cases hen : entry cfg e.key d3 (e.retries + 1) e.md with
              | none => split <;> exact ⟨trivial, hcalls c3 f3⟩
              | some e' =>
                have := entry_holds hm hd _ _ hen
                split <;> exact ⟨this, hcalls c3 f3⟩
  | failed e =>
    cases ev with
    | attempt hooks handler => exact hsame _ hp
    | reprocess =>
      obtain ⟨h1, h2, h3⟩ := hp
      simp only [step]
      rw [h3, hm]
      exact hsame _ ⟨h1, h2, rfl⟩
  | done => exact hsame _ hp
  | lost => exact hsame _ hp
  | refused => exact hsame _ hp

theorem run_reads {cfg : Cfg D J} {key : K} {d : D} {md : Meta} (hm : storedFields md [] = some md)
    (hd : ∀ j, cfg.dump d = some j → cfg.build j = some d) : ∀ (evs : List (Event K D E)) (p : Place K J), Holds cfg key d md p →
    (∀ ev ∈ evs, ev.Reads) → Holds cfg key d md (run cfg p evs).1 ∧ ∀ calls ∈ (run cfg p evs).2, ∀ c ∈ calls, c.Shows key d md
  | [], p, hp, _ => ⟨hp, by simp [run]⟩
  | ev :: evs, p, hp, hr => by
    obtain ⟨h1, h2⟩ := step_reads hm hd hp (hr ev (List.mem_cons_self ..))
    obtain ⟨h3, h4⟩ := run_reads hm hd evs _ h1 fun x hx => hr x (List.mem_cons_of_mem _ hx)
    simp only [run]
    refine ⟨h3, ?_⟩
    intro calls hc
    rcases List.mem_cons.1 hc with rfl | hc
    · exact h2
    · exact h4 calls hc

end Verif.Hooks
