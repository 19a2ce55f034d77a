import Verif.Transient.Spec
import Mathlib.Tactic.Tauto

namespace Verif.Transient

open Spec

/-- What holds of call `i` at `pc`. -/
def Fine (max : Int) (s : St) (i : Nat) : Pc → Prop
  | .opening rc => 0 ≤ rc ∧ rc < max ∧ (openedFor s i : Int) ≤ rc
  | .reading rc c => 0 ≤ rc ∧ rc < max ∧ (openedFor s i : Int) ≤ rc + 1 ∧
      ∃ conn, s.conns[c]? = some conn ∧ conn.owner = i ∧ conn.answered = false
  | .closing rc c => 0 ≤ rc ∧ rc < max ∧ (openedFor s i : Int) ≤ rc + 1 ∧
      ∃ conn, s.conns[c]? = some conn ∧ conn.owner = i ∧ conn.answered = true
  | .pausing rc => 0 ≤ rc ∧ rc < max ∧ (openedFor s i : Int) ≤ rc
  | .over e => openedFor s i ≤ max.toNat ∧
      (e = .response → ∃ conn ∈ s.conns, conn.owner = i ∧ conn.answered = true)

structure Inv (max : Int) (s : St) : Prop where
  conn : ∀ c ∈ s.conns, c.written = [c.owner] ∧ c.owner < s.calls.length ∧ (c.answered = true → c.isOpen = false)
  call : ∀ i pc, s.calls[i]? = some pc → Fine max s i pc

theorem openedFor_congr {s s' : St} (h : s'.conns.map Conn.owner = s.conns.map Conn.owner) (i : Nat) : openedFor s' i = openedFor s i := by
  unfold openedFor
  have e : ∀ l : List Conn, l.countP (fun c => c.owner == i) = (l.map Conn.owner).count i := by
    intro l; rw [List.count, List.countP_map]; rfl
  rw [e, e, h]

theorem map_modify {α β : Type _} (l : List α) (c : Nat) (f : α → α) (g : α → β) (h : ∀ x, g (f x) = g x) :
    (l.modify c f).map g = l.map g := by
  induction l generalizing c with
  | nil => cases c <;> rfl
  | cons x xs ih => cases c with
    | zero => simp [h]
    | succ c => simp [List.modify_succ_cons, ih]

/-- Setting one call's place. -/
theorem inv_goto {max : Int} {s : St} {i : Nat} {pc : Pc} (h : Inv max s) (hf : Fine max s i pc) : Inv max (s.goto i pc) := by
  constructor
  · intro c hc
    obtain ⟨a, b, d⟩ := h.conn c hc
    exact ⟨a, by simp only [St.goto, List.length_set]; exact b, d⟩
  · intro j pc' hj
    simp only [St.goto, List.getElem?_set] at hj
    have : Fine max s j pc' := by
      by_cases hij : i = j
      · subst hij
        simp only [if_true] at hj
        split at hj
        · cases hj; exact hf
        · cases hj
      · rw [if_neg hij] at hj; exact h.call j pc' hj
    exact this

theorem fine_loop {max : Int} {s : St} {i : Nat} {rc : Int} (h : Inv max s) (h0 : 0 ≤ rc) (hc : (openedFor s i : Int) ≤ rc)
    (hm : openedFor s i ≤ max.toNat) : Inv max (s.loop max i rc) := by
  unfold St.loop
  split
  · exact inv_goto h ⟨h0, by tauto, hc⟩
  · exact inv_goto h ⟨hm, by intro h; cases h⟩

theorem fine_raised {max : Int} {s : St} {i : Nat} {rc : Int} (f : Fail) (h : Inv max s) (h0 : 0 ≤ rc) (h1 : rc < max)
    (hc : (openedFor s i : Int) ≤ rc + 1) : Inv max (s.raised max i rc f) := by
  have hm : openedFor s i ≤ max.toNat := by omega
  have hd : ∀ e, e ≠ End.response → Fine max s i (.over e) := fun e he => ⟨hm, fun h => absurd h he⟩
  cases f with
  | retryable =>
    show Inv max (if rc + 1 ≥ max then s.goto i (.over .maxRetries) else s.goto i (.pausing (rc + 1)))
    split
    · exact inv_goto h (hd _ (by decide))
    · have : Fine max s i (.pausing (rc + 1)) := ⟨by omega, by omega, hc⟩
      exact inv_goto h this
  | other => exact inv_goto h (hd _ (by decide))

theorem getElem?_modify_ne {α : Type _} (l : List α) (c d : Nat) (f : α → α) (h : c ≠ d) : (l.modify c f)[d]? = l[d]? := by
  rw [List.getElem?_modify]; simp [h]

theorem inv_step {max : Int} {s s' : St} {e : Ev} (h : Inv max s) (hs : step max s e = some s') : Inv max s' := by
  cases e with
  | send =>
    simp only [step, Option.some.injEq] at hs
    subst hs
    have hn : openedFor s s.calls.length = 0 := by
      unfold openedFor
      rw [List.countP_eq_zero]
      intro c hc
      have := (h.conn c hc).2.1
      simp only [beq_iff_eq]; omega
    have hi : Inv max { s with success := false, calls := s.calls ++ [.over .nothing] } := by
      constructor
      · intro c hc
        obtain ⟨a, b, d⟩ := h.conn c hc
        exact ⟨a, by simp only [List.length_append, List.length_singleton]; omega, d⟩
      · intro i pc hpc
        by_cases hlt : i < s.calls.length
        · rw [List.getElem?_append_left hlt] at hpc
          exact h.call i pc hpc
        · rw [List.getElem?_append_right (by omega)] at hpc
          by_cases hz : i - s.calls.length = 0
          · rw [hz] at hpc
            simp only [List.getElem?_cons_zero, Option.some.injEq] at hpc
            subst hpc
            have : i = s.calls.length := by omega
            subst this
            exact ⟨by show openedFor s _ ≤ _; omega, by intro h; cases h⟩
          · rw [List.getElem?_eq_none (by simp; omega)] at hpc; cases hpc
    have hl := fine_loop (i := s.calls.length) (rc := 0) hi (by omega) (by show (openedFor s _ : Int) ≤ 0; omega)
      (by show openedFor s _ ≤ _; omega)
    have e : ∀ pc, ({ s with success := false, calls := s.calls ++ [.over .nothing] } : St).goto s.calls.length pc =
        ({ s with success := false, calls := s.calls ++ [.opening 0] } : St).goto s.calls.length pc := by
      intro pc; simp [St.goto]
    unfold St.loop at hl ⊢
    rw [e, e] at hl
    exact hl
  | opened i =>
    simp only [step] at hs
    split at hs
    · rename_i rc hi
      simp only [Option.some.injEq] at hs
      subst hs
      obtain ⟨h0, h1, h2⟩ := h.call i _ hi
      have hlt : i < s.calls.length := (List.getElem?_eq_some_iff.1 hi).1
      have cnt : ∀ j, openedFor { s with conns := s.conns ++ [⟨i, [i], false, true⟩] } j = openedFor s j + if i = j then 1 else 0 := by
        intro j
        unfold openedFor
        rw [List.countP_append]
        by_cases hij : i = j <;> simp [hij]
      constructor
      · intro c hc
        simp only [St.goto, List.length_set]
        simp only [St.goto, List.mem_append, List.mem_singleton] at hc
        rcases hc with hc | rfl
        · exact h.conn c hc
        · exact ⟨rfl, hlt, by intro h; cases h⟩
      · intro j pc hj
        simp only [St.goto, List.getElem?_set] at hj
        have goal : Fine max { s with conns := s.conns ++ [⟨i, [i], false, true⟩] } j pc := by
          by_cases hij : i = j
          · subst hij
            simp only [if_true, hlt, Option.some.injEq] at hj
            subst hj
            refine ⟨h0, h1, ?_, ⟨i, [i], false, true⟩, ?_, rfl, rfl⟩
            · rw [cnt]; simp; omega
            · simp
          · rw [if_neg hij] at hj
            have hf := h.call j pc hj
            have hcnt := cnt j
            rw [if_neg hij, Nat.add_zero] at hcnt
            cases pc with
            | opening rc' => unfold Fine at hf ⊢; rw [hcnt]; exact hf
            | pausing rc' => unfold Fine at hf ⊢; rw [hcnt]; exact hf
            | reading rc' c =>
              obtain ⟨a, b, d, conn, e, f, g⟩ := hf
              refine ⟨a, b, by rw [hcnt]; exact d, conn, ?_, f, g⟩
              show (s.conns ++ _)[c]? = _
              rw [List.getElem?_append_left (List.getElem?_eq_some_iff.1 e).1]; exact e
            | closing rc' c =>
              obtain ⟨a, b, d, conn, e, f, g⟩ := hf
              refine ⟨a, b, by rw [hcnt]; exact d, conn, ?_, f, g⟩
              show (s.conns ++ _)[c]? = _
              rw [List.getElem?_append_left (List.getElem?_eq_some_iff.1 e).1]; exact e
            | over e =>
              obtain ⟨a, b⟩ := hf
              refine ⟨by rw [hcnt]; exact a, fun he => ?_⟩
              obtain ⟨conn, hm, x⟩ := b he
              exact ⟨conn, List.mem_append_left _ hm, x⟩
        exact goal
    · cases hs
  | openFails i f =>
    simp only [step] at hs
    split at hs
    · rename_i rc hi
      cases hs
      obtain ⟨h0, h1, h2⟩ := h.call i _ hi
      exact fine_raised f h h0 h1 (by omega)
    · cases hs
  | line i =>
    simp only [step] at hs
    split at hs
    · rename_i rc c hi
      simp only [Option.some.injEq] at hs
      subst hs
      obtain ⟨h0, h1, h2, conn, hc, ho, ha⟩ := h.call i _ hi
      have hlt : i < s.calls.length := (List.getElem?_eq_some_iff.1 hi).1
      have cnt : ∀ j, openedFor { s with conns := s.conns.modify c Conn.close } j = openedFor s j :=
        fun j => openedFor_congr (by exact map_modify _ _ _ _ (fun _ => rfl)) j
      constructor
      · intro d hd
        simp only [St.goto, List.length_set]
        obtain ⟨k, hk⟩ := List.mem_iff_getElem?.1 hd
        simp only [St.goto, List.getElem?_modify] at hk
        cases hx : s.conns[k]? with
        | none => rw [hx] at hk; simp at hk
        | some x =>
          rw [hx] at hk
          obtain ⟨p, q, r⟩ := h.conn x (List.mem_of_getElem? hx)
          simp only [Option.map_eq_map, Option.map_some, Option.some.injEq] at hk
          split at hk <;> subst hk
          · exact ⟨p, q, fun _ => rfl⟩
          · exact ⟨p, q, r⟩
      · intro j pc hj
        simp only [St.goto, List.getElem?_set] at hj
        have goal : Fine max { s with conns := s.conns.modify c Conn.close } j pc := by
          by_cases hij : i = j
          · subst hij
            simp only [if_true, hlt, Option.some.injEq] at hj
            subst hj
            refine ⟨h0, h1, by rw [cnt]; exact h2, conn.close, ?_, ho, rfl⟩
            show (s.conns.modify c Conn.close)[c]? = _
            rw [List.getElem?_modify, hc]; simp
          · rw [if_neg hij] at hj
            have hf := h.call j pc hj
            cases pc with
            | opening rc' => unfold Fine at hf ⊢; rw [cnt]; exact hf
            | pausing rc' => unfold Fine at hf ⊢; rw [cnt]; exact hf
            | reading rc' c' =>
              obtain ⟨a, b, d, conn', e, f, g⟩ := hf
              refine ⟨a, b, by rw [cnt]; exact d, conn', ?_, f, g⟩
              show (s.conns.modify c Conn.close)[c']? = _
              rw [getElem?_modify_ne _ _ _ _ (by
                rintro rfl; rw [hc] at e; cases e; exact hij (ho.symm.trans f))]
              exact e
            | closing rc' c' =>
              obtain ⟨a, b, d, conn', e, f, g⟩ := hf
              refine ⟨a, b, by rw [cnt]; exact d, conn', ?_, f, g⟩
              show (s.conns.modify c Conn.close)[c']? = _
              rw [getElem?_modify_ne _ _ _ _ (by
                rintro rfl; rw [hc] at e; cases e; exact hij (ho.symm.trans f))]
              exact e
            | over e =>
              obtain ⟨a, b⟩ := hf
              refine ⟨by rw [cnt]; exact a, fun he => ?_⟩
              obtain ⟨conn', hm, x, y⟩ := b he
              obtain ⟨k, hk⟩ := List.mem_iff_getElem?.1 hm
              refine ⟨conn', ?_, x, y⟩
              refine List.mem_iff_getElem?.2 ⟨k, ?_⟩
              show (s.conns.modify c Conn.close)[k]? = _
              rw [getElem?_modify_ne _ _ _ _ (by
                rintro rfl; rw [hc] at hk; cases hk; exact hij (ho.symm.trans x))]
              exact hk
        exact goal
    · cases hs
  | undecodable i =>
    simp only [step] at hs
    split at hs
    · rename_i rc c hi
      cases hs
      obtain ⟨h0, h1, h2, -⟩ := h.call i _ hi
      exact fine_raised _ h h0 h1 h2
    · cases hs
  | empty i =>
    simp only [step] at hs
    split at hs
    · rename_i rc c hi
      cases hs
      obtain ⟨h0, h1, h2, -⟩ := h.call i _ hi
      exact fine_raised _ h h0 h1 h2
    · cases hs
  | readFails i f =>
    simp only [step] at hs
    split at hs
    · rename_i rc c hi
      cases hs
      obtain ⟨h0, h1, h2, -⟩ := h.call i _ hi
      exact fine_raised f h h0 h1 h2
    · cases hs
  | closed i =>
    simp only [step] at hs
    split at hs
    · rename_i rc c hi
      cases hs
      obtain ⟨h0, h1, h2, conn, hc, ho, ha⟩ := h.call i _ hi
      have hi' : Inv max { s with success := true } := ⟨h.conn, h.call⟩
      exact inv_goto hi' ⟨by show openedFor s i ≤ _; omega, fun _ => ⟨conn, List.mem_of_getElem? hc, ho, ha⟩⟩
    · cases hs
  | closeFails i f =>
    simp only [step] at hs
    split at hs
    · rename_i rc c hi
      cases hs
      obtain ⟨h0, h1, h2, -⟩ := h.call i _ hi
      exact fine_raised f h h0 h1 h2
    · cases hs
  | resume i =>
    simp only [step] at hs
    split at hs
    · rename_i rc hi
      cases hs
      obtain ⟨h0, h1, h2⟩ := h.call i _ hi
      exact fine_loop h h0 h2 (by omega)
    · cases hs
  | cancel i =>
    simp only [step] at hs
    split at hs
    · cases hs
    · rename_i pc hne hi
      cases hs
      have hf := h.call i _ hi
      refine inv_goto h ⟨?_, by intro h; cases h⟩
      cases pc with
      | opening rc => obtain ⟨a, b, d⟩ := hf; omega
      | pausing rc => obtain ⟨a, b, d⟩ := hf; omega
      | reading rc c => obtain ⟨a, b, d, -⟩ := hf; omega
      | closing rc c => obtain ⟨a, b, d, -⟩ := hf; omega
      | over e => exact hf.1
    · cases hs
  | collected c =>
    simp only [step] at hs
    split at hs
    · cases hs
      have cnt : ∀ j, openedFor { s with conns := s.conns.modify c (fun x => { x with isOpen := false }) } j = openedFor s j :=
        fun j => openedFor_congr (by exact map_modify _ _ _ _ (fun _ => rfl)) j
      have get : ∀ (k : Nat) (x : Conn), s.conns[k]? = some x → ∃ y : Conn, (s.conns.modify c (fun x => { x with isOpen := false }))[k]? = some y ∧
          y.owner = x.owner ∧ y.answered = x.answered := by
        intro k x hx
        rw [List.getElem?_modify, hx]
        by_cases hck : c = k <;> simp [hck]
      constructor
      · intro d hd
        obtain ⟨k, hk⟩ := List.mem_iff_getElem?.1 hd
        simp only [List.getElem?_modify] at hk
        cases hx : s.conns[k]? with
        | none => rw [hx] at hk; simp at hk
        | some x =>
          rw [hx] at hk
          obtain ⟨p, q, r⟩ := h.conn x (List.mem_of_getElem? hx)
          simp only [Option.map_eq_map, Option.map_some, Option.some.injEq] at hk
          split at hk <;> subst hk
          · exact ⟨p, q, fun _ => rfl⟩
          · exact ⟨p, q, r⟩
      · intro j pc hj
        have hf := h.call j pc hj
        cases pc with
        | opening rc' => unfold Fine at hf ⊢; rw [cnt]; exact hf
        | pausing rc' => unfold Fine at hf ⊢; rw [cnt]; exact hf
        | reading rc' c' =>
          obtain ⟨a, b, d, conn', e, f, g⟩ := hf
          obtain ⟨y, hy, p, q⟩ := get _ _ e
          exact ⟨a, b, by rw [cnt]; exact d, y, hy, p.trans f, q.trans g⟩
        | closing rc' c' =>
          obtain ⟨a, b, d, conn', e, f, g⟩ := hf
          obtain ⟨y, hy, p, q⟩ := get _ _ e
          exact ⟨a, b, by rw [cnt]; exact d, y, hy, p.trans f, q.trans g⟩
        | over e =>
          obtain ⟨a, b⟩ := hf
          refine ⟨by rw [cnt]; exact a, fun he => ?_⟩
          obtain ⟨conn', hm, x, y⟩ := b he
          obtain ⟨k, hk⟩ := List.mem_iff_getElem?.1 hm
          obtain ⟨z, hz, p, q⟩ := get _ _ hk
          exact ⟨z, List.mem_of_getElem? hz, p.trans x, q.trans y⟩
    · cases hs

theorem inv_new (max : Int) : Inv max new := by
  constructor
  · intro c hc; cases hc
  · intro i pc h; simp [new] at h

theorem inv_steps {max : Int} (es : List Ev) : ∀ {s s' : St}, Inv max s → steps max s es = some s' → Inv max s' := by
  induction es with
  | nil => intro s s' h hs; cases hs; exact h
  | cons e es ih =>
    intro s s' h hs
    simp only [steps] at hs
    cases hst : step max s e with
    | none => rw [hst] at hs; cases hs
    | some t => rw [hst] at hs; exact ih (inv_step h hst) hs

theorem inv_reach {max : Int} {s : St} (h : Reach max s) : Inv max s := by
  obtain ⟨es, h⟩ := h
  exact inv_steps es (inv_new max) h

/-! ### Without failures while closing -/

/-- Between attempts or in one whose response has not been read. -/
def Pc.unanswered : Pc → Bool
  | .opening _ => true
  | .reading _ _ => true
  | .pausing _ => true
  | _ => false

/-- Only the last connection of a message is answered; the connection in use is the last. -/
structure Once (s : St) : Prop where
  bound : ∀ (c : Nat) (x : Conn), s.conns[c]? = some x → x.owner < s.calls.length
  none_yet : ∀ (i : Nat) (pc : Pc), s.calls[i]? = some pc → pc.unanswered = true → ∀ (c : Nat) (x : Conn), s.conns[c]? = some x → x.owner = i → x.answered = false
  last : ∀ (c : Nat) (x : Conn), s.conns[c]? = some x → x.answered = true → ∀ (c' : Nat) (x' : Conn), s.conns[c']? = some x' → x'.owner = x.owner → c' ≤ c
  current : ∀ (i : Nat) (rc : Int) (c : Nat), s.calls[i]? = some (.reading rc c) → (∃ x : Conn, s.conns[c]? = some x ∧ x.owner = i) ∧
    ∀ (c' : Nat) (x' : Conn), s.conns[c']? = some x' → x'.owner = i → c' ≤ c

theorem once_goto {s : St} {i : Nat} {pc : Pc} (h : Once s)
    (hu : pc.unanswered = true → ∀ (c : Nat) (x : Conn), s.conns[c]? = some x → x.owner = i → x.answered = false)
    (hr : ∀ rc c, pc ≠ .reading rc c) : Once (s.goto i pc) := by
  refine ⟨fun c x hx => by simp only [St.goto, List.length_set]; exact h.bound c x hx, ?_, h.last, ?_⟩
  · intro j pc' hj hp
    simp only [St.goto, List.getElem?_set] at hj
    by_cases hij : i = j
    · subst hij
      simp only [if_true] at hj
      split at hj
      · cases hj; exact hu hp
      · cases hj
    · rw [if_neg hij] at hj; exact h.none_yet j pc' hj hp
  · intro j rc c hj
    simp only [St.goto, List.getElem?_set] at hj
    by_cases hij : i = j
    · subst hij
      simp only [if_true] at hj
      split at hj
      · cases hj; exact absurd rfl (hr rc c)
      · cases hj
    · rw [if_neg hij] at hj; exact h.current j rc c hj

theorem once_loop {max : Int} {s : St} {i : Nat} {rc : Int} (h : Once s)
    (hu : ∀ (c : Nat) (x : Conn), s.conns[c]? = some x → x.owner = i → x.answered = false) : Once (s.loop max i rc) := by
  unfold St.loop
  split
  · exact once_goto h (fun _ => hu) (by intro a b hc; cases hc)
  · exact once_goto h (fun hp => by cases hp) (by intro a b hc; cases hc)

theorem once_raised {max : Int} {s : St} {i : Nat} {rc : Int} (f : Fail) (h : Once s)
    (hu : ∀ (c : Nat) (x : Conn), s.conns[c]? = some x → x.owner = i → x.answered = false) : Once (s.raised max i rc f) := by
  cases f with
  | retryable =>
    show Once (if rc + 1 ≥ max then s.goto i (.over .maxRetries) else s.goto i (.pausing (rc + 1)))
    split
    · exact once_goto h (fun hp => by cases hp) (by intro a b hc; cases hc)
    · exact once_goto h (fun _ => hu) (by intro a b hc; cases hc)
  | other => exact once_goto h (fun hp => by cases hp) (by intro a b hc; cases hc)

theorem once_step {max : Int} {s s' : St} {e : Ev} (h : Once s) (he : closingFails e = false) (hs : step max s e = some s') : Once s' := by
  cases e with
  | send =>
    simp only [step, Option.some.injEq] at hs
    subst hs
    have hnone : ∀ (c : Nat) (x : Conn), s.conns[c]? = some x → x.owner = s.calls.length → x.answered = false := by
      intro c x hx ho; have := h.bound c x hx; omega
    refine once_loop ⟨?_, ?_, h.last, ?_⟩ hnone
    · intro c x hx
      have := h.bound c x hx
      simp only [List.length_append, List.length_singleton]; omega
    · intro i pc hi hp
      by_cases hlt : i < s.calls.length
      · simp only [List.getElem?_append_left hlt] at hi
        exact h.none_yet i pc hi hp
      · intro c x hx ho
        have := h.bound c x hx; omega
    · intro i rc c hi
      by_cases hlt : i < s.calls.length
      · simp only [List.getElem?_append_left hlt] at hi
        exact h.current i rc c hi
      · simp only [List.getElem?_append_right (Nat.le_of_not_lt hlt), List.getElem?_singleton] at hi
        split at hi <;> cases hi
  | opened i =>
    simp only [step] at hs
    split at hs
    · rename_i rc hi
      simp only [Option.some.injEq] at hs
      subst hs
      have hlt : i < s.calls.length := (List.getElem?_eq_some_iff.1 hi).1
      have hun := h.none_yet i _ hi rfl
      have get : ∀ (c : Nat) (x : Conn), (s.conns ++ [⟨i, [i], false, true⟩])[c]? = some x →
          (s.conns[c]? = some x) ∨ (c = s.conns.length ∧ x = ⟨i, [i], false, true⟩) := by
        intro c x hx
        by_cases hc : c < s.conns.length
        · rw [List.getElem?_append_left hc] at hx; exact .inl hx
        · rw [List.getElem?_append_right (Nat.le_of_not_lt hc), List.getElem?_singleton] at hx
          split at hx
          · cases hx; exact .inr ⟨by omega, rfl⟩
          · cases hx
      have lt : ∀ (c : Nat) (x : Conn), s.conns[c]? = some x → c < s.conns.length := fun c x hx => (List.getElem?_eq_some_iff.1 hx).1
      refine ⟨?_, ?_, ?_, ?_⟩
      · intro c x hx
        simp only [St.goto, List.length_set]
        rcases get c x hx with hx | ⟨-, rfl⟩
        · exact h.bound c x hx
        · exact hlt
      · intro j pc hj hp c x hx ho
        rcases get c x hx with hx | ⟨-, rfl⟩
        · simp only [St.goto, List.getElem?_set] at hj
          by_cases hij : i = j
          · subst hij; exact hun c x hx ho
          · rw [if_neg hij] at hj; exact h.none_yet j pc hj hp c x hx ho
        · rfl
      · intro c x hx ha c' x' hx' ho
        rcases get c x hx with hx | ⟨-, rfl⟩
        · rcases get c' x' hx' with hx' | ⟨-, rfl⟩
          · exact h.last c x hx ha c' x' hx' ho
          · have := hun c x hx ho.symm; rw [this] at ha; cases ha
        · cases ha
      · intro j rc' c hj
        simp only [St.goto, List.getElem?_set] at hj
        by_cases hij : i = j
        · subst hij
          simp only [if_true, hlt, Option.some.injEq, Pc.reading.injEq] at hj
          obtain ⟨-, rfl⟩ := hj
          refine ⟨⟨⟨i, [i], false, true⟩, by simp [St.goto], rfl⟩, ?_⟩
          intro c' x' hx' ho
          rcases get c' x' hx' with hx' | ⟨hc, -⟩
          · have := lt c' x' hx'; omega
          · omega
        · rw [if_neg hij] at hj
          obtain ⟨⟨x, hx, ho⟩, hl⟩ := h.current j rc' c hj
          refine ⟨⟨x, ?_, ho⟩, ?_⟩
          · show (s.conns ++ _)[c]? = _
            rw [List.getElem?_append_left (lt c x hx)]; exact hx
          · intro c' x' hx' ho'
            rcases get c' x' hx' with hx' | ⟨-, rfl⟩
            · exact hl c' x' hx' ho'
            · exact absurd ho' hij
    · cases hs
  | openFails i f =>
    simp only [step] at hs
    split at hs
    · rename_i rc hi
      cases hs
      exact once_raised f h (h.none_yet i _ hi rfl)
    · cases hs
  | line i =>
    simp only [step] at hs
    split at hs
    · rename_i rc c hi
      simp only [Option.some.injEq] at hs
      subst hs
      have hlt : i < s.calls.length := (List.getElem?_eq_some_iff.1 hi).1
      obtain ⟨⟨x0, hx0, ho0⟩, hl0⟩ := h.current i rc c hi
      have get : ∀ (k : Nat) (x : Conn), (s.conns.modify c Conn.close)[k]? = some x →
          ∃ y, s.conns[k]? = some y ∧ x.owner = y.owner ∧ (x.answered = true → k = c ∨ y.answered = true) := by
        intro k x hx
        rw [List.getElem?_modify] at hx
        cases hy : s.conns[k]? with
        | none => rw [hy] at hx; simp at hx
        | some y =>
          rw [hy] at hx
          simp only [Option.map_eq_map, Option.map_some, Option.some.injEq] at hx
          split at hx
          · subst hx; exact ⟨y, rfl, rfl, fun _ => .inl (by omega)⟩
          · subst hx; exact ⟨y, rfl, rfl, fun h => .inr h⟩
      refine ⟨?_, ?_, ?_, ?_⟩
      · intro k x hx
        simp only [St.goto, List.length_set]
        obtain ⟨y, hy, ho, -⟩ := get k x hx
        rw [ho]; exact h.bound k y hy
      · intro j pc hj hp k x hx ho
        simp only [St.goto, List.getElem?_set] at hj
        by_cases hij : i = j
        · subst hij
          simp only [if_true, hlt, Option.some.injEq] at hj
          subst hj; cases hp
        · rw [if_neg hij] at hj
          obtain ⟨y, hy, hoy, hay⟩ := get k x hx
          have := h.none_yet j pc hj hp k y hy (hoy.symm.trans ho)
          cases hxa : x.answered with
          | false => rfl
          | true =>
            rcases hay hxa with rfl | hya
            · rw [hx0] at hy; cases hy
              exact absurd (ho0.symm.trans (hoy.symm.trans ho)) hij
            · rw [this] at hya; cases hya
      · intro k x hx ha k' x' hx' ho
        obtain ⟨y, hy, hoy, hay⟩ := get k x hx
        obtain ⟨y', hy', hoy', -⟩ := get k' x' hx'
        rcases hay ha with rfl | hya
        · rw [hx0] at hy; cases hy
          exact hl0 k' y' hy' (by rw [← hoy', ho, hoy, ho0])
        · exact h.last k y hy hya k' y' hy' (by rw [← hoy', ho, hoy])
      · intro j rc' k hj
        simp only [St.goto, List.getElem?_set] at hj
        by_cases hij : i = j
        · subst hij
          simp only [if_true, hlt, Option.some.injEq] at hj
          cases hj
        · rw [if_neg hij] at hj
          obtain ⟨⟨x, hx, ho⟩, hl⟩ := h.current j rc' k hj
          refine ⟨?_, ?_⟩
          · show ∃ x, (s.conns.modify c Conn.close)[k]? = some x ∧ _
            rw [List.getElem?_modify, hx]
            simp only [Option.map_eq_map, Option.map_some]
            refine ⟨_, rfl, ?_⟩
            split <;> exact ho
          · intro k' x' hx' ho'
            obtain ⟨y', hy', hoy', -⟩ := get k' x' hx'
            exact hl k' y' hy' (hoy'.symm.trans ho')
    · cases hs
  | undecodable i =>
    simp only [step] at hs
    split at hs
    · rename_i rc c hi
      cases hs
      exact once_raised _ h (h.none_yet i _ hi rfl)
    · cases hs
  | empty i =>
    simp only [step] at hs
    split at hs
    · rename_i rc c hi
      cases hs
      exact once_raised _ h (h.none_yet i _ hi rfl)
    · cases hs
  | readFails i f =>
    simp only [step] at hs
    split at hs
    · rename_i rc c hi
      cases hs
      exact once_raised _ h (h.none_yet i _ hi rfl)
    · cases hs
  | closed i =>
    simp only [step] at hs
    split at hs
    · rename_i rc c hi
      cases hs
      have h' : Once { s with success := true } := ⟨h.bound, h.none_yet, h.last, h.current⟩
      exact once_goto h' (fun hp => by cases hp) (by intro a b hc; cases hc)
    · cases hs
  | closeFails i f => cases he
  | resume i =>
    simp only [step] at hs
    split at hs
    · rename_i rc hi
      cases hs
      exact once_loop h (h.none_yet i _ hi rfl)
    · cases hs
  | cancel i =>
    simp only [step] at hs
    split at hs
    · cases hs
    · cases hs
      exact once_goto h (fun hp => by cases hp) (by intro a b hc; cases hc)
    · cases hs
  | collected c =>
    simp only [step] at hs
    split at hs
    · cases hs
      have get : ∀ (k : Nat) (x : Conn), (s.conns.modify c (fun x => { x with isOpen := false }))[k]? = some x →
          ∃ y, s.conns[k]? = some y ∧ x.owner = y.owner ∧ x.answered = y.answered := by
        intro k x hx
        rw [List.getElem?_modify] at hx
        cases hy : s.conns[k]? with
        | none => rw [hy] at hx; simp at hx
        | some y =>
          rw [hy] at hx
          simp only [Option.map_eq_map, Option.map_some, Option.some.injEq] at hx
          split at hx <;> (subst hx; exact ⟨y, rfl, rfl, rfl⟩)
      refine ⟨?_, ?_, ?_, ?_⟩
      · intro k x hx
        obtain ⟨y, hy, ho, -⟩ := get k x hx
        rw [ho]; exact h.bound k y hy
      · intro j pc hj hp k x hx ho
        obtain ⟨y, hy, hoy, hay⟩ := get k x hx
        rw [hay]; exact h.none_yet j pc hj hp k y hy (hoy.symm.trans ho)
      · intro k x hx ha k' x' hx' ho
        obtain ⟨y, hy, hoy, hay⟩ := get k x hx
        obtain ⟨y', hy', hoy', -⟩ := get k' x' hx'
        exact h.last k y hy (hay.symm.trans ha) k' y' hy' (by rw [← hoy', ho, hoy])
      · intro j rc' k hj
        obtain ⟨⟨x, hx, ho⟩, hl⟩ := h.current j rc' k hj
        refine ⟨?_, ?_⟩
        · show ∃ x, (s.conns.modify c _)[k]? = some x ∧ _
          rw [List.getElem?_modify, hx]
          simp only [Option.map_eq_map, Option.map_some]
          refine ⟨_, rfl, ?_⟩
          split <;> exact ho
        · intro k' x' hx' ho'
          obtain ⟨y', hy', hoy', -⟩ := get k' x' hx'
          exact hl k' y' hy' (hoy'.symm.trans ho')
    · cases hs

theorem once_new : Once new := by
  refine ⟨?_, ?_, ?_, ?_⟩ <;> (intros; simp_all [new])

theorem once_steps {max : Int} (es : List Ev) : ∀ {s s' : St}, Once s → (∀ e ∈ es, closingFails e = false) → steps max s es = some s' →
    Once s' := by
  induction es with
  | nil => intro s s' h _ hs; cases hs; exact h
  | cons e es ih =>
    intro s s' h hn hs
    simp only [steps] at hs
    cases hst : step max s e with
    | none => rw [hst] at hs; cases hs
    | some t =>
      rw [hst] at hs
      exact ih (once_step h (hn e List.mem_cons_self) hst) (fun e he => hn e (List.mem_cons_of_mem _ he)) hs

/-! ### Without any failures -/

/-- How many connections a call has had, and how it ended. -/
def Good : Pc → Nat → Prop
  | .opening rc, n => rc = 0 ∧ n = 0
  | .reading _ _, n => n = 1
  | .closing _ _, n => n = 1
  | .pausing _, _ => False
  | .over e, n => e = .response ∧ n = 1

structure Smooth (s : St) : Prop where
  bound : ∀ (c : Nat) (x : Conn), s.conns[c]? = some x → x.owner < s.calls.length
  call : ∀ (i : Nat) (pc : Pc), s.calls[i]? = some pc → Good pc (openedFor s i)
  use : ∀ (c : Nat) (x : Conn), s.conns[c]? = some x → x.isOpen = true → ∃ rc, s.calls[x.owner]? = some (.reading rc c)

theorem smooth_step {max : Int} (hm : 0 < max) {s s' : St} {e : Ev} (h : Smooth s) (he : smooth e = true) (hs : step max s e = some s') :
    Smooth s' := by
  cases e with
  | send =>
    simp only [step, Option.some.injEq, St.loop, hm, and_self, if_true] at hs
    subst hs
    have eq : (s.calls ++ [Pc.opening 0]).set s.calls.length (.opening 0) = s.calls ++ [.opening 0] := by simp
    simp only [St.goto, eq]
    have hz : openedFor s s.calls.length = 0 := by
      unfold openedFor
      rw [List.countP_eq_zero]
      intro c hc
      obtain ⟨k, hk⟩ := List.mem_iff_getElem?.1 hc
      have := h.bound k c hk
      simp only [beq_iff_eq]; omega
    refine ⟨?_, ?_, ?_⟩
    · intro c x hx
      have := h.bound c x hx
      simp only [List.length_append, List.length_singleton]; omega
    · intro i pc hi
      by_cases hlt : i < s.calls.length
      · simp only [List.getElem?_append_left hlt] at hi
        exact h.call i pc hi
      · simp only [List.getElem?_append_right (Nat.le_of_not_lt hlt), List.getElem?_singleton] at hi
        split at hi
        · cases hi
          have : i = s.calls.length := by omega
          subst this
          exact ⟨rfl, hz⟩
        · cases hi
    · intro c x hx ho
      obtain ⟨rc, hr⟩ := h.use c x hx ho
      refine ⟨rc, ?_⟩
      show (s.calls ++ _)[x.owner]? = _
      rw [List.getElem?_append_left (h.bound c x hx)]; exact hr
  | opened i =>
    simp only [step] at hs
    split at hs
    · rename_i rc hi
      simp only [Option.some.injEq] at hs
      subst hs
      have hlt : i < s.calls.length := (List.getElem?_eq_some_iff.1 hi).1
      obtain ⟨-, h0⟩ : rc = 0 ∧ openedFor s i = 0 := h.call i _ hi
      have cnt : ∀ j, openedFor { s with conns := s.conns ++ [⟨i, [i], false, true⟩] } j = openedFor s j + if i = j then 1 else 0 := by
        intro j
        unfold openedFor
        rw [List.countP_append]
        by_cases hij : i = j <;> simp [hij]
      have get : ∀ (c : Nat) (x : Conn), (s.conns ++ [⟨i, [i], false, true⟩])[c]? = some x →
          (s.conns[c]? = some x) ∨ (c = s.conns.length ∧ x = ⟨i, [i], false, true⟩) := by
        intro c x hx
        by_cases hc : c < s.conns.length
        · rw [List.getElem?_append_left hc] at hx; exact .inl hx
        · rw [List.getElem?_append_right (Nat.le_of_not_lt hc), List.getElem?_singleton] at hx
          split at hx
          · cases hx; exact .inr ⟨by omega, rfl⟩
          · cases hx
      refine ⟨?_, ?_, ?_⟩
      · intro c x hx
        simp only [St.goto, List.length_set]
        rcases get c x hx with hx | ⟨-, rfl⟩
        · exact h.bound c x hx
        · exact hlt
      · intro j pc hj
        simp only [St.goto, List.getElem?_set] at hj
        show Good pc (openedFor { s with conns := s.conns ++ [⟨i, [i], false, true⟩] } j)
        rw [cnt]
        by_cases hij : i = j
        · subst hij
          simp only [if_true, hlt, Option.some.injEq] at hj
          subst hj
          simp only [if_true, h0]; exact rfl
        · rw [if_neg hij] at hj ⊢
          exact h.call j pc hj
      · intro c x hx ho
        rcases get c x hx with hx | ⟨rfl, rfl⟩
        · obtain ⟨rc', hr⟩ := h.use c x hx ho
          refine ⟨rc', ?_⟩
          show (s.calls.set i _)[x.owner]? = _
          rw [List.getElem?_set, if_neg]
          · exact hr
          · rintro rfl; rw [hi] at hr; cases hr
        · refine ⟨rc, ?_⟩
          show (s.calls.set i _)[i]? = _
          simp [hlt]
    · cases hs
  | line i =>
    simp only [step] at hs
    split at hs
    · rename_i rc c hi
      simp only [Option.some.injEq] at hs
      subst hs
      have hlt : i < s.calls.length := (List.getElem?_eq_some_iff.1 hi).1
      have cnt : ∀ j, openedFor { s with conns := s.conns.modify c Conn.close } j = openedFor s j :=
        fun j => openedFor_congr (by exact map_modify _ _ _ _ (fun _ => rfl)) j
      have get : ∀ (k : Nat) (x : Conn), (s.conns.modify c Conn.close)[k]? = some x →
          ∃ y, s.conns[k]? = some y ∧ x.owner = y.owner ∧ (x.isOpen = true → k ≠ c ∧ y.isOpen = true) := by
        intro k x hx
        rw [List.getElem?_modify] at hx
        cases hy : s.conns[k]? with
        | none => rw [hy] at hx; simp at hx
        | some y =>
          rw [hy] at hx
          simp only [Option.map_eq_map, Option.map_some, Option.some.injEq] at hx
          split at hx
          · subst hx; exact ⟨y, rfl, rfl, fun h => by cases h⟩
          · rename_i hck
            subst hx; exact ⟨y, rfl, rfl, fun h => ⟨fun e => hck e.symm, h⟩⟩
      refine ⟨?_, ?_, ?_⟩
      · intro k x hx
        simp only [St.goto, List.length_set]
        obtain ⟨y, hy, ho, -⟩ := get k x hx
        rw [ho]; exact h.bound k y hy
      · intro j pc hj
        simp only [St.goto, List.getElem?_set] at hj
        show Good pc (openedFor { s with conns := s.conns.modify c Conn.close } j)
        rw [cnt]
        by_cases hij : i = j
        · subst hij
          simp only [if_true, hlt, Option.some.injEq] at hj
          subst hj
          exact (h.call i (.reading rc c) hi : openedFor s i = 1)
        · rw [if_neg hij] at hj
          exact h.call j pc hj
      · intro k x hx ho
        obtain ⟨y, hy, hoy, hop⟩ := get k x hx
        obtain ⟨hk, hyo⟩ := hop ho
        obtain ⟨rc', hr⟩ := h.use k y hy hyo
        refine ⟨rc', ?_⟩
        show (s.calls.set i _)[x.owner]? = _
        rw [hoy, List.getElem?_set, if_neg]
        · exact hr
        · rintro rfl
          rw [hi] at hr
          cases hr
          exact hk rfl
    · cases hs
  | closed i =>
    simp only [step] at hs
    split at hs
    · rename_i rc c hi
      simp only [Option.some.injEq] at hs
      subst hs
      have hlt : i < s.calls.length := (List.getElem?_eq_some_iff.1 hi).1
      refine ⟨?_, ?_, ?_⟩
      · intro k x hx
        simp only [St.goto, List.length_set]
        exact h.bound k x hx
      · intro j pc hj
        simp only [St.goto, List.getElem?_set] at hj
        by_cases hij : i = j
        · subst hij
          simp only [if_true, hlt, Option.some.injEq] at hj
          subst hj
          exact ⟨rfl, h.call i _ hi⟩
        · rw [if_neg hij] at hj
          exact h.call j pc hj
      · intro k x hx ho
        obtain ⟨rc', hr⟩ := h.use k x hx ho
        refine ⟨rc', ?_⟩
        show (s.calls.set i _)[x.owner]? = _
        rw [List.getElem?_set, if_neg]
        · exact hr
        · rintro rfl; rw [hi] at hr; cases hr
    · cases hs
  | openFails i f => cases he
  | undecodable i => cases he
  | empty i => cases he
  | readFails i f => cases he
  | closeFails i f => cases he
  | resume i => cases he
  | cancel i => cases he
  | collected c => cases he

theorem smooth_new : Smooth new := by
  refine ⟨?_, ?_, ?_⟩ <;> (intros; simp_all [new])

theorem smooth_steps {max : Int} (hm : 0 < max) (es : List Ev) : ∀ {s s' : St}, Smooth s → (∀ e ∈ es, smooth e = true) →
    steps max s es = some s' → Smooth s' := by
  induction es with
  | nil => intro s s' h _ hs; cases hs; exact h
  | cons e es ih =>
    intro s s' h hn hs
    simp only [steps] at hs
    cases hst : step max s e with
    | none => rw [hst] at hs; cases hs
    | some t =>
      rw [hst] at hs
      exact ih (smooth_step hm h (hn e List.mem_cons_self) hst) (fun e he => hn e (List.mem_cons_of_mem _ he)) hs

/-- A connection a call reads from is open. -/
def InUse (s : St) : Prop := ∀ (i : Nat) (rc : Int) (c : Nat), s.calls[i]? = some (.reading rc c) → ∃ x, s.conns[c]? = some x ∧ x.isOpen = true

theorem inUse_goto {s : St} {i : Nat} {pc : Pc} (h : InUse s) (hp : ∀ rc c, pc ≠ .reading rc c) : InUse (s.goto i pc) := by
  intro j rc c hj
  simp only [St.goto, List.getElem?_set] at hj
  by_cases hij : i = j
  · subst hij
    rw [if_pos rfl] at hj
    split at hj
    · exact absurd (Option.some.inj hj) (hp rc c)
    · cases hj
  · rw [if_neg hij] at hj
    exact h j rc c hj

theorem inUse_loop {max : Int} {s : St} {i : Nat} {rc : Int} (h : InUse s) : InUse (s.loop max i rc) := by
  unfold St.loop
  split <;> exact inUse_goto h (fun _ _ e => by cases e)

theorem inUse_raised {max : Int} {s : St} {i : Nat} {rc : Int} (f : Fail) (h : InUse s) : InUse (s.raised max i rc f) := by
  cases f with
  | retryable =>
    simp only [St.raised]
    split <;> exact inUse_goto h (fun _ _ e => by cases e)
  | other => exact inUse_goto h (fun _ _ e => by cases e)

theorem inUse_step {max : Int} {s s' : St} {e : Ev} (hi : Inv max s) (h : InUse s) (hs : step max s e = some s') : InUse s' := by
  cases e with
  | send =>
    simp only [step, Option.some.injEq] at hs
    subst hs
    refine inUse_loop ?_
    intro j rc c hj
    simp only at hj
    by_cases hlt : j < s.calls.length
    · rw [List.getElem?_append_left hlt] at hj
      exact h j rc c hj
    · rw [List.getElem?_append_right (by omega)] at hj
      cases hk : j - s.calls.length with
      | zero => rw [hk] at hj; cases hj
      | succ k => rw [hk] at hj; cases hj
  | opened i =>
    simp only [step] at hs
    split at hs
    · rename_i rc hc
      cases hs
      intro j rc' c hj
      simp only [St.goto, List.getElem?_set] at hj
      by_cases hij : i = j
      · subst hij
        rw [if_pos rfl] at hj
        split at hj
        · cases hj
          exact ⟨⟨i, [i], false, true⟩, by simp [St.goto], rfl⟩
        · cases hj
      · rw [if_neg hij] at hj
        obtain ⟨x, hx, ho⟩ := h j rc' c hj
        exact ⟨x, by simp only [St.goto]; rw [List.getElem?_append_left (List.getElem?_eq_some_iff.1 hx).1]; exact hx, ho⟩
    · cases hs
  | openFails i f =>
    simp only [step] at hs
    split at hs
    · cases hs; exact inUse_raised f h
    · cases hs
  | line i =>
    simp only [step] at hs
    split at hs
    · rename_i rc c hc
      cases hs
      intro j rc' c' hj
      simp only [St.goto, List.getElem?_set] at hj
      by_cases hij : i = j
      · subst hij
        rw [if_pos rfl] at hj
        split at hj
        · cases hj
        · cases hj
      · rw [if_neg hij] at hj
        obtain ⟨x, hx, ho⟩ := h j rc' c' hj
        obtain ⟨-, -, -, y, hy, hyo, -⟩ := hi.call i _ hc
        obtain ⟨-, -, -, y', hy', hyo', -⟩ := hi.call j _ hj
        have hne : c ≠ c' := by
          intro e
          subst e
          rw [hy] at hy'
          cases hy'
          exact hij (hyo.symm.trans hyo')
        exact ⟨x, by simp only [St.goto]; rw [getElem?_modify_ne _ _ _ _ hne]; exact hx, ho⟩
    · cases hs
  | undecodable i =>
    simp only [step] at hs
    split at hs
    · cases hs; exact inUse_raised _ h
    · cases hs
  | empty i =>
    simp only [step] at hs
    split at hs
    · cases hs; exact inUse_raised _ h
    · cases hs
  | readFails i f =>
    simp only [step] at hs
    split at hs
    · cases hs; exact inUse_raised _ h
    · cases hs
  | closed i =>
    simp only [step] at hs
    split at hs
    · cases hs
      have h' : InUse { s with success := true } := h
      exact inUse_goto h' (fun _ _ e => by cases e)
    · cases hs
  | closeFails i f =>
    simp only [step] at hs
    split at hs
    · cases hs; exact inUse_raised _ h
    · cases hs
  | resume i =>
    simp only [step] at hs
    split at hs
    · cases hs; exact inUse_loop h
    · cases hs
  | cancel i =>
    simp only [step] at hs
    split at hs
    · cases hs
    · cases hs; exact inUse_goto h (fun _ _ e => by cases e)
    · cases hs
  | collected c =>
    simp only [step] at hs
    split at hs
    · rename_i hg
      cases hs
      intro j rc c' hj
      simp only at hj
      obtain ⟨x, hx, ho⟩ := h j rc c' hj
      have hne : c ≠ c' := by
        intro e
        subst e
        have := hg.2
        simp only [St.refers, Bool.or_eq_false_iff, List.any_eq_false] at this
        exact this.1 _ (List.mem_of_getElem? hj) (by simp)
      exact ⟨x, by simp only; rw [getElem?_modify_ne _ _ _ _ hne]; exact hx, ho⟩
    · cases hs

theorem inUse_steps {max : Int} (es : List Ev) : ∀ {s s' : St}, Inv max s → InUse s → steps max s es = some s' → InUse s' := by
  induction es with
  | nil => intro s s' _ h hs; cases hs; exact h
  | cons e es ih =>
    intro s s' hi h hs
    simp only [steps] at hs
    split at hs
    · cases hs
    · rename_i s1 h1
      exact ih (inv_step hi h1) (inUse_step hi h h1) hs

theorem inUse_reach {max : Int} {s : St} (h : Reach max s) : InUse s := by
  obtain ⟨es, hs⟩ := h
  refine inUse_steps es (inv_new max) ?_ hs
  intro i rc c hi
  simp [new] at hi

end Verif.Transient
