import Verif.Lru.Spec
import Verif.Py.DictLemmas

/-!
# The cache's references never lead to `None`, and its dictionary points to the right nodes
-/

namespace Verif.Lru

open Verif.Py

variable {K V : Type} [DecidableEq K]

theorem bind_eq {A B : Type} (x : M K V A) (f : A → M K V B) (s : Cache K V) :
    (x >>= f) s = match x s with
      | (.ok a, s') => f a s'
      | (.error e, s') => (.error e, s') := rfl

theorem pure_eq {A : Type} (a : A) (s : Cache K V) : (pure a : M K V A) s = (.ok a, s) := rfl

theorem get_eq (s : Cache K V) : (get : M K V _) s = (.ok s, s) := rfl
theorem modify_eq (f : Cache K V → Cache K V) (s : Cache K V) : (modify f) s = (.ok (), f s) := rfl
theorem node_eq (n : Nat) (s : Cache K V) : (node n : M K V _) s = (.ok (s.heap n), s) := rfl
theorem raise_eq {A : Type} (e : PyErr) (s : Cache K V) : (raise e : M K V A) s = (.error e, s) := rfl
theorem deref_some (n : Nat) (s : Cache K V) : (deref (some n) : M K V _) s = (.ok n, s) := rfl
theorem deref_none (s : Cache K V) : (deref none : M K V _) s = (.error .attributeError, s) := rfl
theorem setHead_eq (r : Option Nat) (s : Cache K V) : setHead r s = (.ok (), { s with head := r }) := rfl
theorem dictSet_eq (k : K) (n : Nat) (s : Cache K V) : dictSet k n s = (.ok (), { s with dict := s.dict.set k n }) := rfl
theorem ite_eq {A : Type} (p : Prop) [Decidable p] (x y : M K V A) (s : Cache K V) :
    (if p then x else y) s = if p then x s else y s := by split <;> rfl

/-- Assigning to node `n`. -/
def Cache.upd (s : Cache K V) (n : Nat) (f : Node K V → Node K V) : Cache K V :=
  { s with heap := fun m => if m = n then f (s.heap n) else s.heap m }

theorem update_eq (n : Nat) (f : Node K V → Node K V) (s : Cache K V) : update n f s = (.ok (), s.upd n f) := rfl
theorem setNext_some (n : Nat) (x : Option Nat) (s : Cache K V) :
    setNext (some n) x s = (.ok (), s.upd n fun y => { y with next := x }) := rfl
theorem setPrevious_some (n : Nat) (x : Option Nat) (s : Cache K V) :
    setPrevious (some n) x s = (.ok (), s.upd n fun y => { y with previous := x }) := rfl

theorem dictPop_hit {k : K} {n : Nat} {s : Cache K V} (h : s.dict.get? k = some n) :
    dictPop (some k) s = (.ok n, { s with dict := s.dict.erase k }) := by
  simp [dictPop, Dict.pop, h]

theorem dictPop_miss {k : K} {s : Cache K V} (h : s.dict.get? k = none) : dictPop (some k) s = (.error .keyError, s) := by
  simp [dictPop, Dict.pop, h]

/-- The part of a node that is not a reference. -/
def Node.data (y : Node K V) : Bool × Option K × Option V := (y.empty, y.key, y.value)

/-- From nodes in `X`, references lead to nodes in `X`. -/
def Closed (s : Cache K V) (X : Nat → Prop) : Prop :=
  ∀ x, X x → ∃ p n, (s.heap x).previous = some p ∧ (s.heap x).next = some n ∧ X p ∧ X n

theorem Closed.next {s : Cache K V} {X} (h : Closed s X) (m : Nat) {y} (hy : X y) :
    Closed (s.upd m fun z => { z with next := some y }) X := by
  intro x hx
  obtain ⟨p, n, h1, h2, h3, h4⟩ := h x hx
  by_cases e : x = m
  · subst e; exact ⟨p, y, by simp [Cache.upd, h1], by simp [Cache.upd], h3, hy⟩
  · exact ⟨p, n, by simp [Cache.upd, e, h1], by simp [Cache.upd, e, h2], h3, h4⟩

theorem Closed.previous {s : Cache K V} {X} (h : Closed s X) (m : Nat) {y} (hy : X y) :
    Closed (s.upd m fun z => { z with previous := some y }) X := by
  intro x hx
  obtain ⟨p, n, h1, h2, h3, h4⟩ := h x hx
  by_cases e : x = m
  · subst e; exact ⟨y, n, by simp [Cache.upd], by simp [Cache.upd, h2], hy, h4⟩
  · exact ⟨p, n, by simp [Cache.upd, e, h1], by simp [Cache.upd, e, h2], h3, h4⟩

theorem Closed.mark {s : Cache K V} {X} (h : Closed s X) (m : Nat) (f : Node K V → Node K V)
    (hf : ∀ y, (f y).previous = y.previous ∧ (f y).next = y.next) : Closed (s.upd m f) X := by
  intro x hx
  obtain ⟨p, n, h1, h2, h3, h4⟩ := h x hx
  by_cases e : x = m
  · subst e; exact ⟨p, n, by simp [Cache.upd, hf, h1], by simp [Cache.upd, hf, h2], h3, h4⟩
  · exact ⟨p, n, by simp [Cache.upd, e, h1], by simp [Cache.upd, e, h2], h3, h4⟩

/-- `s'` differs from `s` in references and `head` only. -/
structure SameData (s s' : Cache K V) : Prop where
  max : s'.max = s.max
  dict : s'.dict = s.dict
  tail : s'.tail = s.tail
  size : s'.size = s.size
  data : ∀ x, (s'.heap x).data = (s.heap x).data

theorem SameData.refl (s : Cache K V) : SameData s s := ⟨rfl, rfl, rfl, rfl, fun _ => rfl⟩

theorem SameData.trans {a b c : Cache K V} (h : SameData a b) (g : SameData b c) : SameData a c :=
  ⟨g.max.trans h.max, g.dict.trans h.dict, g.tail.trans h.tail, g.size.trans h.size, fun x => (g.data x).trans (h.data x)⟩

theorem sameData_upd (s : Cache K V) (n : Nat) (f : Node K V → Node K V) (hf : ∀ y, (f y).data = y.data) :
    SameData s (s.upd n f) :=
  ⟨rfl, rfl, rfl, rfl, fun x => by by_cases e : x = n <;> simp [Cache.upd, e, hf]⟩

theorem sameData_head (s : Cache K V) (r : Option Nat) : SameData s { s with head := r } := ⟨rfl, rfl, rfl, rfl, fun _ => rfl⟩

/-- `__list_move_to_end`, its references, in a linked cache. -/
theorem moveRefs_linked {s : Cache K V} {X} (h : Closed s X) {c hd : Nat} (hh : s.head = some hd) (hX : X hd) (hc : X c) :
    ∃ s' hd', moveRefs c s = (.ok (), s') ∧ SameData s s' ∧ Closed s' X ∧ s'.head = some hd' ∧ X hd' := by
  unfold moveRefs
  simp only [bind_eq, get_eq, ite_eq, node_eq, setHead_eq]
  by_cases e : s.head = some c
  · rw [if_pos e]
    obtain ⟨p, n, h1, h2, h3, h4⟩ := h c hc
    exact ⟨_, n, rfl, sameData_head s _, h, h2, h4⟩
  · rw [if_neg e]
    obtain ⟨p, n, h1, h2, h3, h4⟩ := h c hc
    rw [h1, h2]
    simp only [setNext_some]
    have C1 := h.next p h4
    generalize hs1 : (s.upd p fun y => { y with next := some n }) = s1 at C1 ⊢
    have D1 : SameData s s1 := by rw [← hs1]; exact sameData_upd _ _ _ fun _ => rfl
    have H1 : s1.head = some hd := by rw [← hs1]; exact hh
    obtain ⟨p1, n1, a1, a2, a3, a4⟩ := C1 c hc
    rw [a1, a2]
    simp only [setPrevious_some]
    have C2 := C1.previous n1 a3
    generalize hs2 : (s1.upd n1 fun y => { y with previous := some p1 }) = s2 at C2 ⊢
    have D2 : SameData s s2 := by rw [← hs2]; exact D1.trans (sameData_upd _ _ _ fun _ => rfl)
    have H2 : s2.head = some hd := by rw [← hs2]; exact H1
    rw [H2]
    simp only [deref_some, update_eq]
    obtain ⟨p2, n2, b1, b2, b3, b4⟩ := C2 hd hX
    rw [b1]
    have C3 := C2.previous c b3
    generalize hs3 : (s2.upd c fun y => { y with previous := some p2 }) = s3 at C3 ⊢
    have D3 : SameData s s3 := by rw [← hs3]; exact D2.trans (sameData_upd _ _ _ fun _ => rfl)
    have C4 := C3.next c hX
    have H3 : s3.head = some hd := by rw [← hs3]; exact H2
    generalize hs4 : (s3.upd c fun y => { y with next := some hd }) = s4 at C4 ⊢
    have D4 : SameData s s4 := by rw [← hs4]; exact D3.trans (sameData_upd _ _ _ fun _ => rfl)
    have H4 : s4.head = some hd := by rw [← hs4]; exact H3
    obtain ⟨p4, n4, d1, d2, d3, d4⟩ := C4 hd hX
    rw [d1]
    simp only [setNext_some, setPrevious_some]
    have C5 := C4.next p4 hc
    have C6 := C5.previous hd hc
    refine ⟨_, hd, rfl, ?_, C6, H4, hX⟩
    refine (D4.trans (sameData_upd _ p4 (fun y => { y with next := some c }) fun _ => rfl)).trans ?_
    exact sameData_upd _ _ _ fun _ => rfl

theorem mem_of_get? {d : Dict K Nat} {k : K} {n : Nat} (h : d.get? k = some n) : k ∈ d.keys :=
  List.mem_map.mpr ⟨_, Dict.get?_mem _ _ _ h, rfl⟩

/-! ### the invariant -/

/-- How the references of a cache look: nothing stored; one node that refers to nothing; a linked structure. -/
inductive Shape (s : Cache K V) : Prop where
  | none : s.head = none → s.dict = [] → (∀ x, (s.heap x).previous = none ∧ (s.heap x).next = none) → Shape s
  | single (h : Nat) : s.head = some h → s.tail = some h → h < s.size → s.dict.length ≤ 1 →
      (∀ k n, s.dict.get? k = some n → n = h) →
      (∀ x, (s.heap x).previous = none ∧ (s.heap x).next = none) → Shape s
  | linked (X : Nat → Prop) (h t : Nat) : s.head = some h → s.tail = some t → X h → X t →
      (∀ k n, s.dict.get? k = some n → X n) → (∀ x, X x → x < s.size) → Closed s X → Shape s

/-- The dictionary leads to nodes that carry that key and the value `f` gives for it. -/
structure Points (s : Cache K V) (f : K → Option V) : Prop where
  nodup : s.dict.keys.Nodup
  data : ∀ k n, s.dict.get? k = some n → n < s.size ∧ ∃ v, (s.heap n).data = (false, some k, some v) ∧ f k = some v

/-- Node data of `s'` is that of `s` except at `c`, where it is `d`. -/
structure Wrote (s s' : Cache K V) (c : Nat) (d : Bool × Option K × Option V) : Prop where
  max : s'.max = s.max
  here : (s'.heap c).data = d
  data : ∀ x, x ≠ c → (s'.heap x).data = (s.heap x).data

/-- Emptying a node. -/
abbrev wipe (s : Cache K V) (c : Nat) : Cache K V := s.upd c fun y => { y with empty := true, key := none, value := none }

theorem Closed.wipe {s : Cache K V} {X} (h : Closed s X) (c : Nat) : Closed (wipe s c) X := h.mark c _ fun _ => ⟨rfl, rfl⟩

theorem erase_unlinked {s : Cache K V} (k : K) {X : Nat → Prop} (hn : s.dict.keys.Nodup)
    (h : ∀ k n, s.dict.get? k = some n → X n) : ∀ k' n, (s.dict.erase k).get? k' = some n → X n := by
  intro k' n e
  rw [Dict.get?_erase _ _ _ hn] at e
  split at e
  · cases e
  · exact h _ _ e

theorem moveToEnd_eq (c : Nat) (s s' : Cache K V) (h : moveRefs c s = (.ok (), s')) : moveToEnd c true s = (.ok (), wipe s' c) := by
  unfold moveToEnd
  simp only [bind_eq, h]
  rfl

theorem moveToEnd_keep (c : Nat) (s : Cache K V) : moveToEnd c false s = moveRefs c s := by
  unfold moveToEnd
  simp only [bind_eq]
  split <;> simp_all [pure_eq]

/-- Removing an entry that is there. -/
theorem remove_ok {s : Cache K V} (hs : Shape s) (hn : s.dict.keys.Nodup) {k : K} {c : Nat} (hk : s.dict.get? k = some c) :
    ∃ s', moveToEnd c true { s with dict := s.dict.erase k } = (.ok (), s') ∧ Shape s' ∧ s'.dict = s.dict.erase k ∧
      s'.size = s.size ∧ Wrote s s' c (true, none, none) := by
  cases hs with
  | none h1 h2 h3 => simp [h2, Dict.get?] at hk
  | single h h1 h2 h3 h4 h5 h6 =>
    obtain rfl := h5 k c hk
    have e : moveRefs c { s with dict := s.dict.erase k } = (.ok (), { s with dict := s.dict.erase k, head := none }) := by
      unfold moveRefs
      simp only [bind_eq, get_eq, ite_eq, node_eq, setHead_eq, h1, if_true, (h6 c).2]
    refine ⟨_, moveToEnd_eq c _ _ e, ?_, rfl, rfl, rfl, by simp [Cache.upd, Node.data], fun x hx => by simp [Cache.upd, hx]⟩
    refine .none rfl ?_ ?_
    · have hm := mem_of_get? hk
      have := Dict.length_erase s.dict k hm
      exact List.length_eq_zero_iff.mp (show (s.dict.erase k).length = 0 by omega)
    · intro x; by_cases e : x = c <;> simp [Cache.upd, e, h6]
  | linked X h t h1 h2 h3 h4 h5 h6 h7 =>
    obtain ⟨s', hd', e1, e2, e3, e4, e5⟩ := moveRefs_linked (s := { s with dict := s.dict.erase k }) (X := X) h7 h1 h3 (h5 k c hk)
    refine ⟨_, moveToEnd_eq c _ _ e1, ?_, e2.dict, e2.size, e2.max, by simp [Cache.upd, Node.data], fun x hx => ?_⟩
    · refine .linked X hd' t e4 (e2.tail.trans h2) e5 h4 ?_ ?_ (e3.wipe c)
      · intro k' n; rw [show (wipe s' c).dict = s.dict.erase k from e2.dict]; exact erase_unlinked k hn h5 k' n
      · intro x hx; rw [show (wipe s' c).size = s.size from e2.size]; exact h6 x hx
    · simp [Cache.upd, hx]; exact e2.data x

/-- Using an entry that is there. -/
theorem front_ok {s : Cache K V} (hs : Shape s) {k : K} {c : Nat} (hk : s.dict.get? k = some c) :
    ∃ s', moveToFront c s = (.ok (), s') ∧ SameData s s' ∧ Shape s' := by
  unfold moveToFront
  simp only [bind_eq, get_eq, ite_eq, moveToEnd_keep, setHead_eq]
  by_cases hc : s.head = some c
  · simp only [hc, ne_eq, not_true, if_false]
    exact ⟨s, rfl, .refl s, hs⟩
  · simp only [ne_eq, hc, not_false_eq_true, if_true]
    cases hs with
    | none h1 h2 h3 => simp [h2, Dict.get?] at hk
    | single h h1 h2 h3 h4 h5 h6 => exact absurd ((h5 k c hk) ▸ h1) hc
    | linked X h t h1 h2 h3 h4 h5 h6 h7 =>
      obtain ⟨s', hd', e1, e2, e3, e4, e5⟩ := moveRefs_linked h7 h1 h3 (h5 k c hk)
      rw [e1]
      refine ⟨_, rfl, e2.trans (sameData_head _ _), ?_⟩
      refine .linked X c t rfl (e2.tail.trans h2) (h5 k c hk) h4 ?_ ?_ e3
      · intro k' n; rw [show ({ s' with head := some c } : Cache K V).dict = s.dict from e2.dict]; exact h5 k' n
      · intro x hx; rw [show ({ s' with head := some c } : Cache K V).size = s.size from e2.size]; exact h6 x hx

/-- Storing under a new key while there is room. -/
theorem insert_ok {s : Cache K V} (hs : Shape s) (k : K) (v : V) (hk : s.dict.get? k = none) :
    ∃ s', (do let c ← insert k v; setHead (some c) : M K V Unit) s = (.ok (), s') ∧ Shape s' ∧
      s'.dict = s.dict.set k s.size ∧ s'.size = s.size + 1 ∧ Wrote s s' s.size (false, some k, some v) := by
  unfold insert
  simp only [bind_eq, get_eq, ite_eq, modify_eq, update_eq, dictSet_eq, pure_eq, setHead_eq]
  cases hs with
  | none h1 h2 h3 =>
    simp only [h1, if_true]
    refine ⟨_, rfl, ?_, rfl, rfl, rfl, by simp [Node.data], fun x hx => by simp [hx]⟩
    refine .single s.size rfl rfl (Nat.lt_succ_self _) (by simp [h2, Dict.set]) ?_ ?_
    · intro k' n; simp only [Dict.get?_set, h2]
      split
      · intro e; exact (Option.some.inj e).symm
      · simp [Dict.get?]
    · intro x; by_cases e : x = s.size <;> simp [e, Node.new, h3]
  | single h h1 h2 h3 h4 h5 h6 =>
    simp only [h1, h2, reduceCtorEq, if_false, if_true, setPrevious_some, setNext_some]
    have hne : s.size ≠ h := by omega
    refine ⟨_, rfl, ?_, rfl, rfl, rfl, by simp [Node.data, Cache.upd, hne], ?_⟩
    · refine .linked (fun x => x = h ∨ x = s.size) s.size h rfl rfl (.inr rfl) (.inl rfl) ?_ ?_ ?_
      · intro k' n; simp only [Cache.upd, Dict.get?_set]
        split
        · intro e; exact .inr (Option.some.inj e).symm
        · intro e; exact .inl (h5 _ _ e)
      · rintro x (rfl | rfl) <;> simp [Cache.upd] <;> omega
      · rintro x (rfl | rfl)
        · exact ⟨s.size, s.size, by simp [Cache.upd], by simp [Cache.upd], .inr rfl, .inr rfl⟩
        · exact ⟨h, h, by simp [Cache.upd, hne], by simp [Cache.upd, hne], .inl rfl, .inl rfl⟩
    · intro x hx
      by_cases e : x = h <;> simp [Cache.upd, Node.data, hx, e, hne.symm]
  | linked X h t h1 h2 h3 h4 h5 h6 h7 =>
    have hneh : s.size ≠ h := by have := h6 h h3; omega
    have hnet : s.size ≠ t := by have := h6 t h4; omega
    have K0 : ∀ (d : Dict K Nat), d = s.dict.set k s.size → ∀ k' n, d.get? k' = some n → X n ∨ n = s.size := by
      intro d hd k' n; rw [hd, Dict.get?_set]
      split
      · intro e; exact .inr (Option.some.inj e).symm
      · intro e; exact .inl (h5 _ _ e)
    have K1 : ∀ x, X x ∨ x = s.size → x < s.size + 1 := by
      rintro x (hx | rfl)
      · have := h6 x hx; omega
      · omega
    simp only [h1, h2, reduceCtorEq, if_false]
    by_cases e : t = h
    · subst e
      simp only [if_true, setPrevious_some, setNext_some]
      refine ⟨_, rfl, ?_, rfl, rfl, rfl, by simp [Node.data, Cache.upd, hneh], ?_⟩
      · refine .linked (fun x => X x ∨ x = s.size) s.size t rfl rfl (.inr rfl) (.inl h4) (K0 _ rfl) K1 ?_
        rintro x (hx | rfl)
        · have hxs : x ≠ s.size := by have := h6 x hx; omega
          by_cases e : x = t
          · subst e; exact ⟨s.size, s.size, by simp [Cache.upd], by simp [Cache.upd], .inr rfl, .inr rfl⟩
          · obtain ⟨p, n, a1, a2, a3, a4⟩ := h7 x hx
            exact ⟨p, n, by simp [Cache.upd, e, hxs, a1], by simp [Cache.upd, e, hxs, a2], .inl a3, .inl a4⟩
        · exact ⟨t, t, by simp [Cache.upd, hneh], by simp [Cache.upd, hneh], .inl h3, .inl h3⟩
      · intro x hx
        by_cases e : x = t <;> simp [Cache.upd, Node.data, hx, e, hneh.symm]
    · have e' : ¬ (some t = some h) := fun c => e (Option.some.inj c)
      simp only [if_neg e', setPrevious_some, setNext_some]
      refine ⟨_, rfl, ?_, rfl, rfl, rfl, by simp [Node.data, Cache.upd, hneh, hnet], ?_⟩
      · refine .linked (fun x => X x ∨ x = s.size) s.size t rfl rfl (.inr rfl) (.inl h4) (K0 _ rfl) K1 ?_
        rintro x (hx | rfl)
        · have hxs : x ≠ s.size := by have := h6 x hx; omega
          obtain ⟨p, n, a1, a2, a3, a4⟩ := h7 x hx
          by_cases e1 : x = t
          · subst e1
            exact ⟨p, s.size, by simp [Cache.upd, hxs, a1, e], by simp [Cache.upd, e], .inl a3, .inr rfl⟩
          · by_cases e2 : x = h
            · subst e2
              exact ⟨s.size, n, by simp [Cache.upd], by simp [Cache.upd, e1, hxs, a2], .inr rfl, .inl a4⟩
            · exact ⟨p, n, by simp [Cache.upd, e1, e2, hxs, a1], by simp [Cache.upd, e1, e2, hxs, a2], .inl a3, .inl a4⟩
        · exact ⟨t, h, by simp [Cache.upd, hneh, hnet], by simp [Cache.upd, hneh, hnet], .inl h4, .inl h3⟩
      · intro x hx
        by_cases e1 : x = t
        · subst e1; simp [Cache.upd, Node.data, hx, e]
        · by_cases e2 : x = h <;> simp [Cache.upd, Node.data, hx, e1, e2, hneh.symm, Ne.symm e]

/-- Storing under a new key when full: an exception that changes nothing, or one node is used again. -/
theorem replace_ok {s : Cache K V} (hs : Shape s) (hn : s.dict.keys.Nodup) (k : K) (v : V) (hk : s.dict.get? k = none) :
    (∃ e, replaceLru k v s = (.error e, s)) ∨
    ∃ s' c d, replaceLru k v s = (.ok (), s') ∧ Shape s' ∧ c < s.size ∧ s'.dict = d.set k c ∧ s'.size = s.size ∧
      Wrote s s' c (false, some k, some v) ∧
      (((s.heap c).empty = true ∧ d = s.dict) ∨
       ∃ k0, (s.heap c).empty = false ∧ (s.heap c).key = some k0 ∧ k0 ∈ s.dict.keys ∧ d = s.dict.erase k0) := by
  unfold replaceLru
  simp only [bind_eq, get_eq, ite_eq, node_eq]
  cases hs with
  | none h1 h2 h3 => left; simp only [h1, deref_none]; exact ⟨_, rfl⟩
  | single h h1 h2 h3 h4 h5 h6 => left; simp only [h1, deref_some, (h6 h).1, deref_none]; exact ⟨_, rfl⟩
  | linked X h t h1 h2 h3 h4 h5 h6 h7 =>
    obtain ⟨p, n, a1, a2, a3, a4⟩ := h7 h h3
    simp only [h1, deref_some, a1]
    have shape : ∀ d : Dict K Nat, (∀ k' n, d.get? k' = some n → X n) →
        Shape { (({ s with dict := d }).upd p fun y => { y with empty := false, key := some k, value := some v }) with dict := d.set k p, head := some p } := by
      intro d hd
      refine .linked X p t rfl h2 a3 h4 ?_ h6 ?_
      · intro k' n; simp only [Dict.get?_set]
        split
        · intro e; exact (Option.some.inj e) ▸ a3
        · exact hd _ _
      · exact Closed.mark (s := s) h7 p (fun y => { y with empty := false, key := some k, value := some v }) fun _ => ⟨rfl, rfl⟩
    cases hp : (s.heap p).empty with
    | true =>
      simp only [Bool.not_true, Bool.false_eq_true, if_false, update_eq, dictSet_eq, setHead_eq]
      right
      exact ⟨_, p, s.dict, rfl, shape s.dict h5, h6 p a3, rfl, rfl, ⟨rfl, by simp [Cache.upd, Node.data], fun x hx => by simp [Cache.upd, hx]⟩, .inl ⟨hp, rfl⟩⟩
    | false =>
      simp only [Bool.not_false, if_true]
      cases hkey : (s.heap p).key with
      | none => left; exact ⟨_, rfl⟩
      | some k0 =>
        cases hget : s.dict.get? k0 with
        | none => left; simp only [dictPop_miss hget]; exact ⟨_, rfl⟩
        | some m =>
          simp only [dictPop_hit hget, update_eq, dictSet_eq, setHead_eq]
          right
          refine ⟨_, p, s.dict.erase k0, rfl, shape _ (erase_unlinked k0 hn h5), h6 p a3, rfl, rfl, ⟨rfl, by simp [Cache.upd, Node.data], fun x hx => by simp [Cache.upd, hx]⟩, .inr ⟨k0, hp, hkey, mem_of_get? hget, rfl⟩⟩

/-! ### counting empty nodes -/

/-- The number of nodes marked empty. -/
def spare (s : Cache K V) : Nat := (List.range s.size).countP fun n => (s.heap n).empty

theorem countP_same {p q : Nat → Bool} (n : Nat) (h : ∀ x < n, q x = p x) : (List.range n).countP q = (List.range n).countP p := by
  induction n with
  | zero => rfl
  | succ n ih =>
    rw [List.range_succ, List.countP_append, List.countP_append, ih fun x hx => h x (by omega)]
    simp [List.countP_cons, h n (by omega)]

theorem countP_le {p q : Nat → Bool} (c n : Nat) (h : ∀ x, x ≠ c → q x = p x) :
    (List.range n).countP q ≤ (List.range n).countP p + 1 := by
  induction n with
  | zero => simp
  | succ n ih =>
    by_cases e : n = c
    · subst e
      rw [List.range_succ, List.countP_append, List.countP_append, countP_same n fun x hx => h x (by omega)]
      simp only [List.countP_cons, List.countP_nil]
      split <;> split <;> omega
    · rw [List.range_succ, List.countP_append, List.countP_append]
      simp only [List.countP_cons, List.countP_nil, h n e]
      omega

theorem countP_less {p q : Nat → Bool} (c n : Nat) (hc : c < n) (h : ∀ x, x ≠ c → q x = p x) (hp : p c = true) (hq : q c = false) :
    (List.range n).countP q + 1 = (List.range n).countP p := by
  induction n with
  | zero => omega
  | succ n ih =>
    by_cases e : n = c
    · subst e
      rw [List.range_succ, List.countP_append, List.countP_append, countP_same n fun x hx => h x (by omega)]
      simp [hp, hq]
    · rw [List.range_succ, List.countP_append, List.countP_append]
      simp only [List.countP_cons, List.countP_nil, h n e]
      have := ih (by omega)
      omega

theorem empty_of_data {x y : Node K V} (h : x.data = y.data) : x.empty = y.empty := congrArg (·.1) h

theorem SameData.spare {s s' : Cache K V} (h : SameData s s') : spare s' = spare s := by
  unfold Lru.spare
  rw [h.size]
  exact countP_same _ fun x _ => empty_of_data (h.data x)

theorem Wrote.spare_le {s s' : Cache K V} {c d} (h : Wrote s s' c d) (hs : s'.size = s.size) : spare s' ≤ spare s + 1 := by
  unfold Lru.spare
  rw [hs]
  exact countP_le c _ fun x hx => empty_of_data (h.data x hx)

theorem Wrote.spare_less {s s' : Cache K V} {c k v} (h : Wrote s s' c (false, k, v)) (hs : s'.size = s.size) (hc : c < s.size)
    (he : (s.heap c).empty = true) : spare s' + 1 = spare s := by
  unfold Lru.spare
  rw [hs]
  exact countP_less c _ hc (fun x hx => empty_of_data (h.data x hx)) he (congrArg (·.1) h.here)

theorem Wrote.spare_same {s s' : Cache K V} {c k v} (h : Wrote s s' c (false, k, v)) (hs : s'.size = s.size)
    (he : (s.heap c).empty = false) : spare s' = spare s := by
  unfold Lru.spare
  rw [hs]
  refine countP_same _ fun x _ => ?_
  by_cases e : x = c
  · subst e; rw [he]; exact congrArg (·.1) h.here
  · exact empty_of_data (h.data x e)

theorem Wrote.spare_new {s s' : Cache K V} {k v} (h : Wrote s s' s.size (false, k, v)) (hs : s'.size = s.size + 1) :
    spare s' = spare s := by
  unfold Lru.spare
  rw [hs, List.range_succ, List.countP_append]
  have e : (s'.heap s.size).empty = false := congrArg (·.1) h.here
  simp only [List.countP_cons, List.countP_nil, e, Bool.false_eq_true, if_false, Nat.add_zero]
  exact countP_same _ fun x hx => empty_of_data (h.data x (by omega))

/-! ### `clear` and `pop` -/

theorem clearLoop_linked {X : Nat → Prop} (n : Nat) : ∀ {s : Cache K V} {c : Nat}, Closed s X → X c →
    ∃ s', clearLoop n (some c) s = (.ok (), s') ∧ Closed s' X ∧ s'.head = s.head ∧ s'.tail = s.tail ∧ s'.size = s.size ∧
      s'.max = s.max ∧ spare s' ≤ spare s + n := by
  induction n with
  | zero => intro s c h hc; exact ⟨s, rfl, h, rfl, rfl, rfl, rfl, Nat.le_refl _⟩
  | succ n ih =>
    intro s c h hc
    unfold clearLoop
    simp only [bind_eq, deref_some, update_eq, node_eq]
    have C := h.wipe c
    obtain ⟨p, m, a1, a2, a3, a4⟩ := C c hc
    rw [a2]
    obtain ⟨s', e, h1, h2, h3, h4, h5, h6⟩ := ih C a4
    refine ⟨s', e, h1, h2, h3, h4, h5, ?_⟩
    have w : Wrote s (wipe s c) c (true, none, none) := ⟨rfl, by simp [Cache.upd, Node.data], fun x hx => by simp [Cache.upd, hx]⟩
    have := w.spare_le rfl
    omega

theorem clear_ok {s : Cache K V} (hs : Shape s) :
    ∃ s', clear s = (.ok (), s') ∧ Shape s' ∧ s'.dict = [] ∧ s'.max = s.max ∧ spare s' ≤ spare s + s.dict.length := by
  unfold clear
  simp only [bind_eq, get_eq, modify_eq]
  cases hs with
  | none h1 h2 h3 =>
    rw [h2]
    exact ⟨{ s with dict := [] }, rfl, .none h1 rfl h3, rfl, rfl, Nat.le_add_right _ _⟩
  | single h h1 h2 h3 h4 h5 h6 =>
    match hd : s.dict with
    | [] =>
      exact ⟨{ s with dict := [] }, rfl, .single h h1 h2 h3 (by simp) (by simp [Dict.get?]) h6, rfl, rfl, Nat.le_add_right _ _⟩
    | [a] =>
      simp only [List.length_singleton, clearLoop, bind_eq, h1, deref_some, update_eq, node_eq, pure_eq]
      refine ⟨_, rfl, .single h h1 h2 h3 (by simp) (by simp [Dict.get?]) ?_, rfl, rfl, ?_⟩
      · intro x; by_cases e : x = h <;> simp [Cache.upd, e, h6]
      · have w : Wrote s (wipe s h) h (true, none, none) := ⟨rfl, by simp [Cache.upd, Node.data], fun x hx => by simp [Cache.upd, hx]⟩
        exact w.spare_le rfl
    | _ :: _ :: _ => rw [hd] at h4; simp at h4
  | linked X h t h1 h2 h3 h4 h5 h6 h7 =>
    obtain ⟨s', e, a1, a2, a3, a4, a5, a6⟩ := clearLoop_linked s.dict.length h7 h3
    rw [h1, e]
    refine ⟨_, rfl, .linked X h t (a2.trans h1) (a3.trans h2) h3 h4 (by simp [Dict.get?]) (fun x hx => ?_) a1, rfl, a5, a6⟩
    exact a4 ▸ h6 x hx

/-- `pop` of a cache that is not empty: the head is emptied; if the dictionary has its key, that entry goes
and is given back, otherwise `KeyError`. -/
theorem pop_ok {s : Cache K V} (hs : Shape s) (hn : s.dict.keys.Nodup) (hl : 0 < s.dict.length)
    (hp : ∀ k n, s.dict.get? k = some n → (s.heap n).key = some k) :
    ∃ s' c, (pop s).2 = s' ∧ Shape s' ∧ s'.size = s.size ∧ Wrote s s' c (true, none, none) ∧
      (((pop s).1 = .error .keyError ∧ s'.dict = s.dict ∧ ∀ k, (s.heap c).key = some k → k ∉ s.dict.keys) ∨
       ∃ k, (s.heap c).key = some k ∧ k ∈ s.dict.keys ∧ (pop s).1 = .ok (some (some k, (s.heap c).value)) ∧ s'.dict = s.dict.erase k) := by
  have hl' : ¬ s.dict.length < 1 := by omega
  have W : ∀ c (hd : Option Nat) (d : Dict K Nat), Wrote s { (wipe { s with head := hd } c) with dict := d } c (true, none, none) := fun c hd d =>
    ⟨rfl, by simp [Cache.upd, Node.data], fun x hx => by simp [Cache.upd, hx]⟩
  unfold pop
  simp only [bind_eq, get_eq, ite_eq, node_eq, if_neg hl', setHead_eq, update_eq, pure_eq]
  cases hs with
  | none h1 h2 h3 => simp [h2] at hl
  | single h h1 h2 h3 h4 h5 h6 =>
    obtain ⟨k, hk⟩ : ∃ k, s.dict.get? k = some h := by
      match hd : s.dict with
      | [] => simp [hd] at hl
      | (k, n) :: r =>
        refine ⟨k, ?_⟩
        have : s.dict.get? k = some n := by rw [hd]; simp [Dict.get?]
        rw [← hd, this, h5 _ _ this]
    simp only [h1, deref_some, hp _ _ hk]
    have hk' : (({ s with head := (s.heap h).next } : Cache K V).upd h fun y => { y with empty := true, key := none, value := none }).dict.get? k = some h := hk
    simp only [dictPop_hit hk']
    refine ⟨_, h, rfl, ?_, rfl, W h _ _, .inr ⟨k, hp _ _ hk, mem_of_get? hk, rfl, rfl⟩⟩
    refine .none (h6 h).2 ?_ ?_
    · have := Dict.length_erase s.dict k (mem_of_get? hk)
      exact List.length_eq_zero_iff.mp (show (s.dict.erase k).length = 0 by omega)
    · intro x; by_cases e : x = h <;> simp [Cache.upd, e, h6]
  | linked X h t h1 h2 h3 h4 h5 h6 h7 =>
    obtain ⟨p, n, a1, a2, a3, a4⟩ := h7 h h3
    simp only [h1, deref_some]
    have S : ∀ d : Dict K Nat, (∀ k n, d.get? k = some n → X n) → Shape { (wipe { s with head := (s.heap h).next } h) with dict := d } := by
      intro d hd
      exact .linked X n t a2 h2 a4 h4 hd h6 (Closed.wipe (s := s) h7 h)
    cases hkey : (s.heap h).key with
    | none =>
      refine ⟨_, h, rfl, S s.dict h5, rfl, W h (s.heap h).next s.dict, .inl ⟨rfl, rfl, ?_⟩⟩
      intro k e; rw [hkey] at e; cases e
    | some k =>
      cases hget : s.dict.get? k with
      | none =>
        have hk' : (({ s with head := (s.heap h).next } : Cache K V).upd h fun y => { y with empty := true, key := none, value := none }).dict.get? k = none := hget
        simp only [dictPop_miss hk']
        refine ⟨_, h, rfl, S s.dict h5, rfl, W h (s.heap h).next s.dict, .inl ⟨trivial, rfl, ?_⟩⟩
        intro k' e; rw [hkey] at e; cases e
        exact (Dict.get?_eq_none_iff _ _).mp hget
      | some m =>
        have hk' : (({ s with head := (s.heap h).next } : Cache K V).upd h fun y => { y with empty := true, key := none, value := none }).dict.get? k = some m := hget
        simp only [dictPop_hit hk']
        exact ⟨_, h, rfl, S _ (erase_unlinked k hn h5), rfl, W h _ _, .inr ⟨k, hkey, mem_of_get? hget, rfl, rfl⟩⟩

/-! ### the dictionary's pointers are kept -/

theorem Points.same {s s' : Cache K V} {f : K → Option V} (h : Points s f) (d : SameData s s') : Points s' f := by
  refine ⟨d.dict ▸ h.nodup, fun k n e => ?_⟩
  rw [d.dict] at e
  obtain ⟨h1, v, h2, h3⟩ := h.data k n e
  exact ⟨d.size ▸ h1, v, by rw [d.data, h2], h3⟩

/-- A node that no remaining entry leads to may be written. -/
theorem Points.erase {s s' : Cache K V} {f g : K → Option V} (h : Points s f) {c d} (w : Wrote s s' c d) (hs : s'.size = s.size)
    {k : K} (hd : s'.dict = s.dict.erase k) (hk : ∀ k', s.dict.get? k' = some c → k' = k) (hg : ∀ k', k' ≠ k → g k' = f k') : Points s' g := by
  refine ⟨hd ▸ Dict.nodup_keys_erase _ _ h.nodup, fun k' n e => ?_⟩
  rw [hd, Dict.get?_erase _ _ _ h.nodup] at e
  split at e
  · cases e
  · rename_i hne
    obtain ⟨h1, v, h2, h3⟩ := h.data k' n e
    have : n ≠ c := by rintro rfl; exact hne (hk k' e).symm
    exact ⟨hs ▸ h1, v, by rw [w.data n this, h2], by rw [hg _ (Ne.symm hne), h3]⟩

/-- One entry is added. -/
theorem Points.set {s s' : Cache K V} {f g : K → Option V} {d : Dict K Nat} (hn : d.keys.Nodup)
    (h : ∀ k n, d.get? k = some n → n < s.size ∧ ∃ v, (s.heap n).data = (false, some k, some v) ∧ f k = some v)
    {c : Nat} {k : K} {v : V} (w : Wrote s s' c (false, some k, some v)) (hs : s.size ≤ s'.size) (hc : c < s'.size)
    (hd : s'.dict = d.set k c) (hk : ∀ k', d.get? k' = some c → k' = k) (hg : ∀ k', k' ≠ k → g k' = f k') (hgk : g k = some v) :
    Points s' g := by
  refine ⟨hd ▸ Dict.nodup_keys_set _ _ _ hn, fun k' n e => ?_⟩
  rw [hd, Dict.get?_set] at e
  split at e
  · rename_i e'; cases e; subst e'
    exact ⟨hc, v, w.here, hgk⟩
  · rename_i hne
    obtain ⟨h1, v, h2, h3⟩ := h k' n e
    have : n ≠ c := by rintro rfl; exact hne (hk k' e).symm
    exact ⟨by omega, v, by rw [w.data n this, h2], by rw [hg _ (Ne.symm hne), h3]⟩

theorem Points.key {s : Cache K V} {f : K → Option V} (h : Points s f) (k : K) (n : Nat) (e : s.dict.get? k = some n) :
    (s.heap n).key = some k := by
  obtain ⟨_, v, h2, _⟩ := h.data k n e
  exact congrArg (·.2.1) h2

theorem Points.value {s : Cache K V} {f : K → Option V} (h : Points s f) (k : K) (n : Nat) (e : s.dict.get? k = some n) :
    ∃ v, (s.heap n).value = some v ∧ f k = some v := by
  obtain ⟨_, v, h2, h3⟩ := h.data k n e
  exact ⟨v, congrArg (·.2.2) h2, h3⟩

end Verif.Lru
