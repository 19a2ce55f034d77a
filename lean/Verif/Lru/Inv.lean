import Verif.Lru.Lemmas

/-!
# What each call does
-/

namespace Verif.Lru

open Verif.Py

variable {K V : Type} [DecidableEq K]

theorem setItem_existing {s : Cache K V} (hs : Shape s) {f} (hp : Points s f) (k : K) (v : V) {c : Nat} (hk : s.dict.get? k = some c) :
    ∃ s', setItem k v s = (.ok (), s') ∧ Shape s' ∧ s'.dict = s.dict ∧ s'.size = s.size ∧ Wrote s s' c (false, some k, some v) := by
  unfold setItem
  simp only [bind_eq, get_eq, hk, update_eq]
  obtain ⟨h1, w, h2, h3⟩ := hp.data k c hk
  have hd : (s.heap c).empty = false ∧ (s.heap c).key = some k := by
    simp only [Node.data, Prod.mk.injEq] at h2; exact ⟨h2.1, h2.2.1⟩
  have hs1 : Shape (s.upd c fun y => { y with value := some v }) := by
    cases hs with
    | none a1 a2 a3 => simp [a2, Dict.get?] at hk
    | single h a1 a2 a3 a4 a5 a6 =>
      exact .single h a1 a2 a3 a4 a5 fun x => by by_cases e : x = c <;> simp [Cache.upd, e, a6]
    | linked X h t a1 a2 a3 a4 a5 a6 a7 =>
      exact .linked X h t a1 a2 a3 a4 a5 a6 (a7.mark c (fun y => { y with value := some v }) fun _ => ⟨rfl, rfl⟩)
  obtain ⟨s', e1, e2, e3⟩ := front_ok hs1 (k := k) (c := c) hk
  refine ⟨s', e1, e3, e2.dict, e2.size, e2.max, ?_, fun x hx => ?_⟩
  · rw [e2.data]; simp [Cache.upd, Node.data, hd]
  · rw [e2.data]; simp [Cache.upd, hx]

theorem setItem_room {s : Cache K V} (hs : Shape s) (k : K) (v : V) (hk : s.dict.get? k = none) (hl : (s.dict.length : Int) < s.max) :
    ∃ s', setItem k v s = (.ok (), s') ∧ Shape s' ∧ s'.dict = s.dict.set k s.size ∧ s'.size = s.size + 1 ∧
      Wrote s s' s.size (false, some k, some v) := by
  obtain ⟨s', e, h⟩ := insert_ok hs k v hk
  refine ⟨s', ?_, h⟩
  unfold setItem
  simp only [bind_eq, get_eq, hk, if_pos hl]
  exact e

theorem setItem_full {s : Cache K V} (k : K) (v : V) (hk : s.dict.get? k = none) (hl : ¬ (s.dict.length : Int) < s.max) :
    setItem k v s = replaceLru k v s := by
  unfold setItem
  simp only [bind_eq, get_eq, hk, if_neg hl]

theorem getItem_hit {s : Cache K V} (hs : Shape s) {k : K} {c : Nat} (hk : s.dict.get? k = some c) :
    ∃ s', getItem k s = (.ok (s.heap c).value, s') ∧ SameData s s' ∧ Shape s' := by
  obtain ⟨s', e1, e2, e3⟩ := front_ok hs hk
  refine ⟨s', ?_, e2, e3⟩
  unfold getItem
  simp only [bind_eq, get_eq, hk, e1, node_eq, pure_eq]
  rw [show (s'.heap c).value = (s.heap c).value from congrArg (·.2.2) (e2.data c)]

theorem getItem_miss {s : Cache K V} {k : K} (hk : s.dict.get? k = none) : getItem k s = (.error .keyError, s) := by
  unfold getItem
  simp only [bind_eq, get_eq, hk, raise_eq]

theorem getDefault_hit {s : Cache K V} (hs : Shape s) {k : K} {c : Nat} (hk : s.dict.get? k = some c) :
    ∃ s', getDefault k s = (.ok (some (s.heap c).value), s') ∧ SameData s s' ∧ Shape s' := by
  obtain ⟨s', e1, e2, e3⟩ := getItem_hit hs hk
  refine ⟨s', ?_, e2, e3⟩
  unfold getDefault
  simp [bind_eq, get_eq, Dict.has, hk, e1, pure_eq]

theorem getDefault_miss {s : Cache K V} {k : K} (hk : s.dict.get? k = none) : getDefault k s = (.ok none, s) := by
  unfold getDefault
  simp [bind_eq, get_eq, Dict.has, hk, pure_eq]

theorem popItem_hit {s : Cache K V} (hs : Shape s) (hn : s.dict.keys.Nodup) {k : K} {c : Nat} (hk : s.dict.get? k = some c) :
    ∃ s', popItem k s = (.ok (some (s.heap c).value), s') ∧ Shape s' ∧ s'.dict = s.dict.erase k ∧
      s'.size = s.size ∧ Wrote s s' c (true, none, none) := by
  obtain ⟨s', e, h⟩ := remove_ok hs hn hk
  refine ⟨s', ?_, h⟩
  unfold popItem
  simp [bind_eq, get_eq, Dict.has, hk, dictPop_hit hk, e, pure_eq, node_eq]

theorem popItem_miss {s : Cache K V} {k : K} (hk : s.dict.get? k = none) : popItem k s = (.ok none, s) := by
  unfold popItem
  simp [bind_eq, get_eq, Dict.has, hk, pure_eq]

theorem delItem_hit {s : Cache K V} (hs : Shape s) (hn : s.dict.keys.Nodup) {k : K} {c : Nat} (hk : s.dict.get? k = some c) :
    ∃ s', delItem k s = (.ok (), s') ∧ Shape s' ∧ s'.dict = s.dict.erase k ∧
      s'.size = s.size ∧ Wrote s s' c (true, none, none) := by
  obtain ⟨s', e, h⟩ := remove_ok hs hn hk
  refine ⟨s', ?_, h⟩
  unfold delItem
  simp [bind_eq, get_eq, Dict.has, hk, dictPop_hit hk, e]

theorem delItem_miss {s : Cache K V} {k : K} (hk : s.dict.get? k = none) : delItem k s = (.ok (), s) := by
  unfold delItem
  simp [bind_eq, get_eq, Dict.has, hk, pure_eq]

theorem pop_empty {s : Cache K V} (h : ¬ 0 < s.dict.length) : pop s = (.ok none, s) := by
  unfold pop
  have : s.dict = [] := List.length_eq_zero_iff.mp (by omega)
  simp [bind_eq, get_eq, this, pure_eq, ite_eq]

omit [DecidableEq K] in
theorem map_state {A B : Type} (x : M K V A) (f : A → B) (s : Cache K V) :
    (do return f (← x) : M K V B) s = ((x s).1.map f, (x s).2) := by
  simp only [bind_eq]
  split <;> rename_i h <;> simp [h, pure_eq, Except.map]

theorem call_set (s : Cache K V) (k : K) (v : V) : call s (.set k v) = ((setItem k v s).1.map (fun _ => Out.unit), (setItem k v s).2) :=
  map_state (setItem k v) (fun _ => Out.unit) s

theorem call_getItem (s : Cache K V) (k : K) : call s (.getItem k) = ((getItem k s).1.map (Out.value), (getItem k s).2) :=
  map_state (getItem k) (Out.value) s

theorem call_get (s : Cache K V) (k : K) : call s (.get k) = ((getDefault k s).1.map (Out.found), (getDefault k s).2) :=
  map_state (getDefault k) (Out.found) s

theorem call_popItem (s : Cache K V) (k : K) : call s (.popItem k) = ((popItem k s).1.map (Out.found), (popItem k s).2) :=
  map_state (popItem k) (Out.found) s

theorem call_del (s : Cache K V) (k : K) : call s (.del k) = ((delItem k s).1.map (fun _ => Out.unit), (delItem k s).2) :=
  map_state (delItem k) (fun _ => Out.unit) s

theorem call_pop (s : Cache K V) : call s (.pop) = ((pop s).1.map (Out.entry), (pop s).2) :=
  map_state (pop) (Out.entry) s

theorem call_clear (s : Cache K V) : call s (.clear) = ((clear s).1.map (fun _ => Out.unit), (clear s).2) :=
  map_state (clear) (fun _ => Out.unit) s

/-- What holds in every state. -/
structure Inv (s : Cache K V) (f : K → Option V) : Prop where
  shape : Shape s
  points : Points s f

theorem inv_new (max : Int) : Inv (Cache.new max : Cache K V) fun _ => none :=
  ⟨.none rfl rfl fun _ => ⟨rfl, rfl⟩, by simp [Cache.new, Dict.keys], by simp [Cache.new, Dict.get?]⟩

/-- A removed key of the history. -/
theorem only_key {s : Cache K V} {f : K → Option V} (hp : Points s f) {k : K} {c : Nat} (h : (s.heap c).key = some k) :
    ∀ k', s.dict.get? k' = some c → k' = k := by
  intro k' e
  have := hp.key k' c e
  rw [h] at this
  exact (Option.some.inj this).symm

theorem inv_set {s : Cache K V} {f g : K → Option V} (h : Inv s f) (k : K) (v : V) (hg : ∀ k', k' ≠ k → g k' = f k') (hgk : g k = some v) :
    Inv (setItem k v s).2 g := by
  cases hk : s.dict.get? k with
  | some c =>
    obtain ⟨s', e1, e2, e3, e4, e5⟩ := setItem_existing h.shape h.points k v hk
    rw [e1]
    refine ⟨e2, ?_⟩
    have hd := h.points.data
    refine ⟨e3 ▸ h.points.nodup, fun k' n e => ?_⟩
    rw [e3] at e
    obtain ⟨h1, w, h2, h3⟩ := hd k' n e
    by_cases e' : n = c
    · subst e'
      have : k' = k := by
        have a := h.points.key k' n e
        have b := h.points.key k n hk
        rw [a] at b; exact Option.some.inj b
      subst this
      exact ⟨e4 ▸ h1, v, e5.here, hgk⟩
    · have hne : k' ≠ k := by rintro rfl; rw [hk] at e; exact e' (Option.some.inj e).symm
      exact ⟨e4 ▸ h1, w, by rw [e5.data n e', h2], by rw [hg _ hne, h3]⟩
  | none =>
    by_cases hl : (s.dict.length : Int) < s.max
    · obtain ⟨s', e1, e2, e3, e4, e5⟩ := setItem_room h.shape k v hk hl
      rw [e1]
      refine ⟨e2, Points.set h.points.nodup h.points.data e5 (by dsimp only; omega) (by dsimp only; omega) e3 ?_ hg hgk⟩
      intro k' e
      have := (h.points.data k' _ e).1
      omega
    · rw [setItem_full k v hk hl]
      have weak : Points s g := by
        refine ⟨h.points.nodup, fun k' n e => ?_⟩
        obtain ⟨h1, w, h2, h3⟩ := h.points.data k' n e
        have hne : k' ≠ k := by rintro rfl; rw [hk] at e; cases e
        exact ⟨h1, w, h2, by rw [hg _ hne, h3]⟩
      rcases replace_ok h.shape h.points.nodup k v hk with ⟨e, e1⟩ | ⟨s', c, d, e1, e2, e3, e4, e5, e6, e7⟩
      · rw [e1]; exact ⟨h.shape, weak⟩
      · rw [e1]
        refine ⟨e2, ?_⟩
        rcases e7 with ⟨a1, rfl⟩ | ⟨k0, a1, a2, a3, rfl⟩
        · refine Points.set h.points.nodup h.points.data e6 (by dsimp only; omega) (by dsimp only; omega) e4 ?_ hg hgk
          intro k' e
          obtain ⟨_, w, h2, _⟩ := h.points.data k' c e
          have : (s.heap c).empty = false := congrArg (·.1) h2
          rw [a1] at this; cases this
        · refine Points.set (Dict.nodup_keys_erase _ _ h.points.nodup) (s := s) ?_ e6 (by dsimp only; omega) (by dsimp only; omega) e4 ?_ hg hgk
          · intro k' n e
            rw [Dict.get?_erase _ _ _ h.points.nodup] at e
            split at e
            · cases e
            · exact h.points.data k' n e
          · intro k' e
            rw [Dict.get?_erase _ _ _ h.points.nodup] at e
            split at e
            · cases e
            · rename_i hne
              exact absurd (only_key h.points a2 k' e).symm hne

theorem inv_weaken {s : Cache K V} {f g : K → Option V} (h : Inv s f) (hg : ∀ k n, s.dict.get? k = some n → g k = f k) : Inv s g :=
  ⟨h.shape, h.points.nodup, fun k n e => by
    obtain ⟨h1, w, h2, h3⟩ := h.points.data k n e
    exact ⟨h1, w, h2, by rw [hg k n e, h3]⟩⟩

theorem inv_call {s : Cache K V} {t : List (Entry K V)} (h : Inv s fun k => stored k t) (o : Op K V) :
    Inv (call s o).2 fun k => stored k ((o, (call s o).1) :: t) := by
  cases o with
  | set k v =>
    rw [call_set]
    exact inv_set h k v (fun k' hk => by simp [stored, Ne.symm hk]) (by simp [stored])
  | getItem k =>
    rw [call_getItem]
    show Inv (getItem k s).2 fun k => stored k t
    cases hk : s.dict.get? k with
    | some c => obtain ⟨s', e1, e2, e3⟩ := getItem_hit h.shape hk; rw [e1]; exact ⟨e3, h.points.same e2⟩
    | none => rw [getItem_miss hk]; exact h
  | get k =>
    rw [call_get]
    show Inv (getDefault k s).2 fun k => stored k t
    cases hk : s.dict.get? k with
    | some c => obtain ⟨s', e1, e2, e3⟩ := getDefault_hit h.shape hk; rw [e1]; exact ⟨e3, h.points.same e2⟩
    | none => rw [getDefault_miss hk]; exact h
  | popItem k =>
    rw [call_popItem]
    show Inv (popItem k s).2 _
    cases hk : s.dict.get? k with
    | some c =>
      obtain ⟨s', e1, e2, e3, e4, e5⟩ := popItem_hit h.shape h.points.nodup hk
      rw [e1]
      refine ⟨e2, h.points.erase e5 e4 e3 (only_key h.points (h.points.key k c hk)) fun k' hk => ?_⟩
      simp [stored, Ne.symm hk]
    | none =>
      rw [popItem_miss hk]
      refine inv_weaken h fun k' n e => ?_
      have : k ≠ k' := by rintro rfl; rw [hk] at e; cases e
      simp [stored, this]
  | del k =>
    rw [call_del]
    show Inv (delItem k s).2 _
    cases hk : s.dict.get? k with
    | some c =>
      obtain ⟨s', e1, e2, e3, e4, e5⟩ := delItem_hit h.shape h.points.nodup hk
      rw [e1]
      refine ⟨e2, h.points.erase e5 e4 e3 (only_key h.points (h.points.key k c hk)) fun k' hk => ?_⟩
      simp [stored, Ne.symm hk]
    | none =>
      rw [delItem_miss hk]
      refine inv_weaken h fun k' n e => ?_
      have : k ≠ k' := by rintro rfl; rw [hk] at e; cases e
      simp [stored, this]
  | clear =>
    rw [call_clear]
    show Inv (clear s).2 _
    obtain ⟨s', e1, e2, e3, e4, e5⟩ := clear_ok h.shape
    rw [e1]
    exact ⟨e2, by rw [e3]; simp [Dict.keys], by rw [e3]; simp [Dict.get?]⟩
  | pop =>
    rw [call_pop]
    show Inv (pop s).2 _
    by_cases hl : 0 < s.dict.length
    · obtain ⟨s', c, e1, e2, e3, e4, e5⟩ := pop_ok h.shape h.points.nodup hl h.points.key
      rw [e1]
      rcases e5 with ⟨a1, a2, a3⟩ | ⟨k, a1, a2, a3, a4⟩
      · rw [a1]
        refine ⟨e2, a2 ▸ h.points.nodup, fun k n e => ?_⟩
        rw [a2] at e
        obtain ⟨h1, w, h2, h3⟩ := h.points.data k n e
        have : n ≠ c := by
          rintro rfl
          exact a3 k (h.points.key k n e) (mem_of_get? e)
        exact ⟨e3 ▸ h1, w, by rw [e4.data n this, h2], h3⟩
      · rw [a3]
        exact ⟨e2, h.points.erase e4 e3 a4 (only_key h.points a1) fun k' hk => by simp [Except.map, stored, Ne.symm hk]⟩
    · rw [pop_empty hl]; exact h

theorem inv_after {max : Int} {t : List (Entry K V)} {s : Cache K V} (h : After max t s) : Inv s fun k => stored k t := by
  induction h with
  | new => exact inv_new max
  | call o _ ih => exact inv_call ih o

theorem sees_eq {s : Cache K V} {f : K → Option V} (h : Points s f) (k : K) :
    sees s k = .ok ((s.dict.get? k).bind fun _ => some (f k)) := by
  unfold sees peek
  simp only [bind_eq, get_eq]
  cases hk : s.dict.get? k with
  | none => simp [pure_eq]
  | some n =>
    obtain ⟨v, h1, h2⟩ := h.value k n hk
    simp [pure_eq, node_eq, bind_eq, h1, h2]

/-- How many entries a call can remove on purpose. -/
def cost (s : Cache K V) : Op K V → Nat
  | .pop => 1
  | .popItem _ => 1
  | .del _ => 1
  | .clear => len s
  | _ => 0

/-- The limit never changes, and entries and empty nodes stay within it, up to the number of removals. -/
theorem potential_call {s : Cache K V} {f : K → Option V} (h : Inv s f) (o : Op K V) (R : Nat)
    (h1 : spare s ≤ R) (h2 : len s + spare s ≤ s.max.toNat + R) :
    (call s o).2.max = s.max ∧ spare (call s o).2 ≤ R + cost s o ∧
    len (call s o).2 + spare (call s o).2 ≤ s.max.toNat + (R + cost s o) := by
  have same : ∀ s' : Cache K V, SameData s s' → s'.max = s.max ∧ spare s' ≤ R + 0 ∧ len s' + spare s' ≤ s.max.toNat + (R + 0) := by
    intro s' d
    refine ⟨d.max, by rw [d.spare]; exact h1, ?_⟩
    rw [d.spare]; unfold len; rw [d.dict]; exact h2
  have wipes : ∀ (s' : Cache K V) c, Wrote s s' c (true, none, none) → s'.size = s.size → s'.dict.length ≤ s.dict.length →
      s'.max = s.max ∧ spare s' ≤ R + 1 ∧ len s' + spare s' ≤ s.max.toNat + (R + 1) := by
    intro s' c w hs hd
    have := w.spare_le hs
    refine ⟨w.max, by omega, ?_⟩
    unfold len at h2 ⊢; omega
  have nothing : s.max = s.max ∧ spare s ≤ R + 1 ∧ len s + spare s ≤ s.max.toNat + (R + 1) := ⟨rfl, by omega, by omega⟩
  cases o with
  | set k v =>
    rw [call_set]
    simp only [cost]
    cases hk : s.dict.get? k with
    | some c =>
      obtain ⟨s', e1, e2, e3, e4, e5⟩ := setItem_existing h.shape h.points k v hk
      rw [e1]
      have hne : (s.heap c).empty = false := by
        obtain ⟨_, w, a2, _⟩ := h.points.data k c hk
        exact congrArg (·.1) a2
      have := e5.spare_same e4 hne
      refine ⟨e5.max, by dsimp only; omega, ?_⟩
      unfold len at h2 ⊢; dsimp only; rw [e3]; omega
    | none =>
      have knm : k ∉ s.dict.keys := (Dict.get?_eq_none_iff _ _).mp hk
      by_cases hl : (s.dict.length : Int) < s.max
      · obtain ⟨s', e1, e2, e3, e4, e5⟩ := setItem_room h.shape k v hk hl
        rw [e1]
        have := e5.spare_new e4
        refine ⟨e5.max, by dsimp only; omega, ?_⟩
        unfold len at h2 ⊢; dsimp only; rw [e3, Dict.length_set, if_neg knm]; omega
      · rw [setItem_full k v hk hl]
        rcases replace_ok h.shape h.points.nodup k v hk with ⟨e, e1⟩ | ⟨s', c, d, e1, e2, e3, e4, e5, e6, e7⟩
        · rw [e1]; exact same s (.refl s)
        · rw [e1]
          rcases e7 with ⟨a1, rfl⟩ | ⟨k0, a1, a2, a3, rfl⟩
          · have := e6.spare_less e5 e3 a1
            refine ⟨e6.max, by dsimp only; omega, ?_⟩
            unfold len at h2 ⊢; dsimp only; rw [e4, Dict.length_set, if_neg knm]; omega
          · have := e6.spare_same e5 a1
            refine ⟨e6.max, by dsimp only; omega, ?_⟩
            have le := Dict.length_erase s.dict k0 a3
            unfold len at h2 ⊢; dsimp only; rw [e4, Dict.length_set]
            split <;> omega
  | getItem k =>
    rw [call_getItem]
    cases hk : s.dict.get? k with
    | some c => obtain ⟨s', e1, e2, e3⟩ := getItem_hit h.shape hk; rw [e1]; exact same s' e2
    | none => rw [getItem_miss hk]; exact same s (.refl s)
  | get k =>
    rw [call_get]
    cases hk : s.dict.get? k with
    | some c => obtain ⟨s', e1, e2, e3⟩ := getDefault_hit h.shape hk; rw [e1]; exact same s' e2
    | none => rw [getDefault_miss hk]; exact same s (.refl s)
  | popItem k =>
    rw [call_popItem]
    cases hk : s.dict.get? k with
    | some c =>
      obtain ⟨s', e1, e2, e3, e4, e5⟩ := popItem_hit h.shape h.points.nodup hk
      rw [e1]
      have := Dict.length_erase s.dict k (mem_of_get? hk)
      exact wipes s' c e5 e4 (by rw [e3]; omega)
    | none => rw [popItem_miss hk]; exact nothing
  | del k =>
    rw [call_del]
    cases hk : s.dict.get? k with
    | some c =>
      obtain ⟨s', e1, e2, e3, e4, e5⟩ := delItem_hit h.shape h.points.nodup hk
      rw [e1]
      have := Dict.length_erase s.dict k (mem_of_get? hk)
      exact wipes s' c e5 e4 (by rw [e3]; omega)
    | none => rw [delItem_miss hk]; exact nothing
  | clear =>
    rw [call_clear]
    obtain ⟨s', e1, e2, e3, e4, e5⟩ := clear_ok h.shape
    rw [e1]
    simp only [cost]
    refine ⟨e4, ?_, ?_⟩
    · unfold len; omega
    · unfold len at h2 ⊢; rw [e3]; simp; omega
  | pop =>
    rw [call_pop]
    by_cases hl : 0 < s.dict.length
    · obtain ⟨s', c, e1, e2, e3, e4, e5⟩ := pop_ok h.shape h.points.nodup hl h.points.key
      simp only [e1, cost]
      refine wipes s' c e4 e3 ?_
      rcases e5 with ⟨a1, a2, a3⟩ | ⟨k, a1, a2, a3, a4⟩
      · rw [a2]; exact Nat.le_refl _
      · have := Dict.length_erase s.dict k a2
        rw [a4]; omega
    · rw [pop_empty hl]; exact nothing

theorem removals_cons (s : Cache K V) (o : Op K V) (os : List (Op K V)) : removals s (o :: os) = cost s o + removals (call s o).2 os := by
  cases o <;> rfl

theorem potential_run {max : Int} (os : List (Op K V)) : ∀ {t : List (Entry K V)} {s : Cache K V} (R : Nat), After max t s →
    s.max = max → spare s ≤ R → len s + spare s ≤ max.toNat + R → len (run s os).2 ≤ max.toNat + (R + removals s os) := by
  induction os with
  | nil => intro t s R _ _ _ h; simp only [run, removals]; omega
  | cons o os ih =>
    intro t s R ha hm h1 h2
    obtain ⟨g1, g2, g3⟩ := potential_call (inv_after ha) o R h1 (by rw [hm]; exact h2)
    have := ih (R + cost s o) (.call o ha) (g1.trans hm) g2 (by rw [← hm]; exact g3)
    rw [removals_cons]
    show len (run (call s o).2 os).2 ≤ _
    omega

end Verif.Lru
