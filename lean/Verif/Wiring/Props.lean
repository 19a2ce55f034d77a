import Verif.Wiring.Lemmas

/-!
# C81: what is declared is opened

`Ready` says which of the declared components work after the start: the buffered endpoints that are the first for their route, and the buffered
senders that are the last for theirs. The theorem is exact, so that it has both the guarantee (when no two buffered senders have the same
route) and the failure (when two have).
-/

namespace Verif.Wiring

open Verif.Py

/-- C81: after any declarations and the start, every object has been set up once if it is ready, and never otherwise. -/
theorem C81_exact (ds : List Decl) (i : Nat) (d : Decl) (hd : ds[i]? = some d) :
    (Ready ds i → (start (declareAll {} ds)).made[i]? = some (d, 1) ∧ push (start (declareAll {} ds)) i = .ok ()) ∧
      (¬ Ready ds i → (start (declareAll {} ds)).made[i]? = some (d, 0) ∧ push (start (declareAll {} ds)) i = .error .attributeError) := by
  have h := opened ds i
  rw [hd] at h
  constructor
  · intro hr
    simp only [Option.map_some, if_pos hr] at h
    exact ⟨h, by simp only [push, h]⟩
  · intro hr
    simp only [Option.map_some, if_neg hr] at h
    exact ⟨h, by simp only [push, h]⟩

/-- C81, where it holds: if all buffered senders have routes of their own, then every buffered component whose decorator did not raise works
after the start. Missing for the full statement: buffered senders with a common route, see `C81_same_route_refuted`, and components that are
declared after the start, see `C81_late_refuted`. -/
theorem C81_opened_partial (ds : List Decl)
    (own : ∀ (i j : Nat) (r : String), ds[i]? = some (.bufferedSender r) → ds[j]? = some (.bufferedSender r) → i = j) (i : Nat) (d : Decl) (hd : ds[i]? = some d)
    (hb : ∀ r, d ≠ .endpoint r) (ok : (declare (declareAll {} (ds.take i)) d).1 = .ok ()) :
    push (start (declareAll {} ds)) i = .ok () := by
  refine ((C81_exact ds i d hd).1 ?_).2
  cases d with
  | endpoint r => exact absurd rfl (hb r)
  | bufferedSender r =>
    refine .inr ⟨r, hd, fun j hj h => ?_⟩
    have := own i j r hd h
    omega
  | bufferedEndpoint r =>
    refine .inl ⟨r, hd, by rw [hd]; rfl, fun j hj h => ?_⟩
    have ht := tables_all (ds.take i)
    generalize declareAll {} (ds.take i) = s at ht ok
    have hno : s.table.get? r = none := by
      cases hg : s.table.get? r with
      | none => rfl
      | some v =>
        have hh : s.table.has r = true := by simp [Dict.has, hg]
        simp only [declare, register, hh, if_true] at ok
        cases ok
    classical
    have ex : ∃ n, n < i ∧ (ds[n]?.bind Decl.routed) = some r := ⟨j, hj, h⟩
    have hm := Nat.find_spec ex
    have : FirstFor (ds.take i) r (Nat.find ex) := by
      refine ⟨by rw [List.getElem?_take_of_lt hm.1]; exact hm.2, fun k hk h4 => Nat.find_min ex hk ⟨by omega, ?_⟩⟩
      rwa [List.getElem?_take_of_lt (by omega)] at h4
    rw [(ht.table r _).mpr this] at hno
    cases hno

/-- Three components and a route that is declared twice: the second declaration raises, all others work. -/
example :
    let ds : List Decl := [.bufferedEndpoint "a", .bufferedSender "a", .endpoint "b", .bufferedEndpoint "b", .bufferedSender "c"]
    (ds.mapIdx fun i d => (declare (declareAll {} (ds.take i)) d).1.toOption.isSome) = [true, true, true, false, true] ∧
      ((start (declareAll {} ds)).made.map Prod.snd) = [1, 1, 0, 0, 1] := by decide +kernel

/-- C81: the decorator of an endpoint raises if, and only if, an endpoint with its route was declared before, and the decorator of a buffered
sender never raises. -/
theorem C81_raises (ds : List Decl) (d : Decl) :
    (declare (declareAll {} ds) d).1 = .error () ↔ ∃ r, d.routed = some r ∧ ∃ e ∈ ds, e.routed = some r := by
  have ht := tables_all ds
  generalize declareAll {} ds = s at ht
  have key : ∀ r, s.table.has r = true ↔ ∃ e ∈ ds, e.routed = some r := by
    intro r
    unfold Dict.has
    rw [Option.isSome_iff_exists]
    constructor
    · rintro ⟨j, hj⟩
      have h := ((ht.table r j).mp hj).1
      cases he : ds[j]? with
      | none => rw [he] at h; cases h
      | some e => rw [he] at h; exact ⟨e, List.mem_of_getElem? he, h⟩
    · rintro ⟨e, he, hr⟩
      obtain ⟨j, hj⟩ := List.getElem?_of_mem he
      classical
      have ex : ∃ n, (ds[n]?.bind Decl.routed) = some r := ⟨j, by rw [hj]; exact hr⟩
      exact ⟨Nat.find ex, (ht.table r _).mpr ⟨Nat.find_spec ex, fun k hk h4 => Nat.find_min ex hk h4⟩⟩
  cases d with
  | endpoint r =>
    have e : (∃ r', (Decl.endpoint r).routed = some r' ∧ ∃ e ∈ ds, e.routed = some r') ↔ s.table.has r = true := by
      rw [key r]
      exact ⟨fun ⟨r', h1, h2⟩ => by cases h1; exact h2, fun h => ⟨r, rfl, h⟩⟩
    rw [e]
    simp only [declare, register]
    cases s.table.has r <;> simp
  | bufferedEndpoint r =>
    have e : (∃ r', (Decl.bufferedEndpoint r).routed = some r' ∧ ∃ e ∈ ds, e.routed = some r') ↔ s.table.has r = true := by
      rw [key r]
      exact ⟨fun ⟨r', h1, h2⟩ => by cases h1; exact h2, fun h => ⟨r, rfl, h⟩⟩
    rw [e]
    simp only [declare, register]
    cases s.table.has r <;> simp
  | bufferedSender r => simp [declare, Decl.routed]

/-- C81: what a management command for a route acts on is a component that works and has that route; a buffered endpoint that works is found by
its route. -/
theorem C81_managed (ds : List Decl) (r : String) (i : Nat) :
    (managedSender (start (declareAll {} ds)) r = some i ↔ LastFor ds r i) ∧
      (managedHandler (start (declareAll {} ds)) r = some i ↔ ds[i]? = some (.bufferedEndpoint r) ∧ FirstFor ds r i) ∧
      (managedSender (start (declareAll {} ds)) r = some i ∨ managedHandler (start (declareAll {} ds)) r = some i →
        push (start (declareAll {} ds)) i = .ok ()) := by
  have ht := tables_all ds
  have hs : managedSender (start (declareAll {} ds)) r = some i ↔ LastFor ds r i := by
    unfold managedSender start
    rw [(setup_tables _ _).2.2]
    exact ht.senders r i
  have hh : managedHandler (start (declareAll {} ds)) r = some i ↔ ds[i]? = some (.bufferedEndpoint r) ∧ FirstFor ds r i := by
    unfold managedHandler start
    rw [(setup_tables _ _).2.1]
    exact ht.handlers r i
  refine ⟨hs, hh, fun h => ?_⟩
  rw [hs, hh] at h
  rcases h with h | h
  · exact ((C81_exact ds i _ h.1).1 (.inr ⟨r, h⟩)).2
  · exact ((C81_exact ds i _ h.1).1 (.inl ⟨r, h⟩)).2

/-- In the case of before, the commands for the routes find their components. -/
example :
    let s := start (declareAll {} [.bufferedEndpoint "a", .bufferedSender "a", .endpoint "b", .bufferedEndpoint "b", .bufferedSender "c"])
    managedSender s "a" = some 1 ∧ managedHandler s "a" = some 0 ∧ managedHandler s "b" = none ∧ managedSender s "c" = some 4 := by decide +kernel

/-- C81, refuted in full: two buffered senders for the same route, say to the same application through two clients or to two applications. Both
decorators succeed; after the start the first raises `AttributeError` at every push, and no management command reaches it. -/
theorem C81_same_route_refuted (r : String) :
    let ds : List Decl := [.bufferedSender r, .bufferedSender r]
    let s := start (declareAll {} ds)
    (declare {} (.bufferedSender r)).1 = .ok () ∧ (declare (declareAll {} [.bufferedSender r]) (.bufferedSender r)).1 = .ok () ∧
      push s 0 = .error .attributeError ∧ push s 1 = .ok () ∧ ∀ r', managedSender s r' ≠ some 0 := by
  refine ⟨rfl, rfl, ?_, ?_, fun r' h => ?_⟩
  · refine ((C81_exact _ 0 (.bufferedSender r) rfl).2 ?_).2
    rintro (⟨r', h, _⟩ | ⟨r', h, h2⟩)
    · simp at h
    · simp only [List.getElem?_cons_zero, Option.some.injEq, Decl.bufferedSender.injEq] at h
      subst h
      exact h2 1 (by omega) rfl
  · refine ((C81_exact _ 1 (.bufferedSender r) rfl).1 (.inr ⟨r, rfl, fun j hj h => ?_⟩)).2
    rw [List.getElem?_eq_none (by simp; omega)] at h
    cases h
  · have h := (C81_managed _ r' 0).1.mp h
    have h1 := h.1
    simp only [List.getElem?_cons_zero, Option.some.injEq, Decl.bufferedSender.injEq] at h1
    subst h1
    exact h.2 1 (by omega) rfl

/-- C81, refuted in full: what is declared after the start is not set up, though its decorator does not raise. -/
theorem C81_late_refuted (ds : List Decl) (r : String) :
    let s := start (declareAll {} ds)
    let s' := (declare s (.bufferedSender r)).2
    (declare s (.bufferedSender r)).1 = .ok () ∧ managedSender s' r = some ds.length ∧ push s' ds.length = .error .attributeError := by
  have hl : (start (declareAll {} ds)).made.length = ds.length := by
    have h1 : ∀ i, ((start (declareAll {} ds)).made[i]?).isSome = (ds[i]?).isSome := fun i => by rw [opened, Option.isSome_map]
    rcases Nat.lt_trichotomy (start (declareAll {} ds)).made.length ds.length with h | h | h
    · have := h1 (start (declareAll {} ds)).made.length
      simp [h] at this
    · exact h
    · have := h1 ds.length
      simp [h] at this
  refine ⟨rfl, ?_, ?_⟩
  · simp only [declare, managedSender, hl, Dict.get?_set, if_true]
  · simp only [declare, push, ← hl, List.getElem?_concat_length]

/-! ## Singletons -/

/-- C81: the decorators share their tables. Whatever classes are called, in whatever order and with whatever constructors, two calls of a class
that return, return the same object, and calls of different classes return different ones. -/
theorem C81_singleton {C : Type} [DecidableEq C] (cs : List (C × Except PyErr Unit)) (i j : Nat) (c c' : C) (k k' : Except PyErr Unit) (o o' : Nat)
    (hi : cs[i]? = some (c, k)) (hj : cs[j]? = some (c', k')) (ho : (callAll 0 [] cs)[i]? = some (.ok o))
    (ho' : (callAll 0 [] cs)[j]? = some (.ok o')) : c = c' ↔ o = o' := by
  -- every returned object stands in the final table under its class
  have key : ∀ (cs : List (C × Except PyErr Unit)) (m : Nat) (t : Dict C Nat), (∀ a v, t.get? a = some v → v < m) →
      (∀ a b v, t.get? a = some v → t.get? b = some v → a = b) →
      ∃ t' : Dict C Nat, (∀ a v, t.get? a = some v → t'.get? a = some v) ∧ (∀ a b v, t'.get? a = some v → t'.get? b = some v → a = b) ∧
        ∀ (i : Nat) (c : C) (k : Except PyErr Unit) (o : Nat), cs[i]? = some (c, k) → (callAll m t cs)[i]? = some (.ok o) → t'.get? c = some o := by
    intro cs
    induction cs with
    | nil => exact fun m t _ h2 => ⟨t, fun _ _ h => h, h2, fun i c k o h => by simp at h⟩
    | cons x cs ih =>
      obtain ⟨c, k⟩ := x
      intro m t h1 h2
      simp only [callAll]
      cases hg : t.get? c with
      | some v =>
        simp only [instances, hg]
        obtain ⟨t', a1, a2, a3⟩ := ih m t h1 h2
        refine ⟨t', a1, a2, fun i c' k' o hi ho => ?_⟩
        cases i with
        | zero =>
          simp only [List.getElem?_cons_zero, Option.some.injEq, Prod.mk.injEq, Except.ok.injEq] at hi ho
          rw [← hi.1, ← ho]
          exact a1 _ _ hg
        | succ i => exact a3 i c' k' o (by simpa using hi) (by simpa using ho)
      | none =>
        cases k with
        | error e =>
          simp only [instances, hg]
          obtain ⟨t', a1, a2, a3⟩ := ih m t h1 h2
          refine ⟨t', a1, a2, fun i c' k' o hi ho => ?_⟩
          cases i with
          | zero => simp at ho
          | succ i => exact a3 i c' k' o (by simpa using hi) (by simpa using ho)
        | ok u =>
          simp only [instances, hg]
          obtain ⟨t', a1, a2, a3⟩ := ih (m + 1) (t.set c m)
            (fun a v h => by
              rw [Dict.get?_set] at h
              split at h
              · cases h; omega
              · exact Nat.lt_succ_of_lt (h1 a v h))
            (fun a b v ha hb => by
              rw [Dict.get?_set] at ha hb
              split at ha <;> split at hb
              · rename_i e1 e2; rw [← e1, ← e2]
              · cases ha; exact absurd (h1 _ _ hb) (by omega)
              · cases hb; exact absurd (h1 _ _ ha) (by omega)
              · exact h2 _ _ _ ha hb)
          refine ⟨t', fun a v h => a1 a v ?_, a2, fun i c' k' o hi ho => ?_⟩
          · rw [Dict.get?_set, if_neg (by rintro rfl; rw [hg] at h; cases h)]
            exact h
          · cases i with
            | zero =>
              simp only [List.getElem?_cons_zero, Option.some.injEq, Prod.mk.injEq, Except.ok.injEq] at hi ho
              rw [← hi.1, ← ho]
              exact a1 _ _ (by rw [Dict.get?_set, if_pos rfl])
            | succ i => exact a3 i c' k' o (by simpa using hi) (by simpa using ho)
  obtain ⟨t', _, a2, a3⟩ := key cs 0 [] (fun a v h => by simp [Dict.get?] at h) (fun a b v h => by simp [Dict.get?] at h)
  have h1 := a3 i c k o hi ho
  have h2 := a3 j c' k' o' hj ho'
  constructor
  · rintro rfl
    rw [h1] at h2
    exact Option.some.inj h2
  · rintro rfl
    exact a2 c c' o h1 h2

/-- A constructor that raises leaves no object; the next call makes it. -/
example : (callAll 0 [] [("A", .ok ()), ("B", .error .typeError), ("A", .error .typeError), ("B", .ok ()), ("B", .ok ())]).map Except.toOption =
    [some 0, none, some 0, some 1, some 1] := by decide +kernel

end Verif.Wiring
