import Verif.Datagram.Spec
import Mathlib.Tactic.Tauto

namespace Verif.Datagram

open Spec

def isOpening : Pc → Bool
  | .opening _ => true
  | _ => false

theorem opening_eq (s : St) : opening s = s.calls.countP isOpening := by
  unfold opening
  congr

theorem countP_set {α : Type _} (p : α → Bool) (l : List α) (i : Nat) (x y : α) (h : l[i]? = some y) :
    (l.set i x).countP p + (if p y then 1 else 0) = l.countP p + (if p x then 1 else 0) := by
  induction l generalizing i with
  | nil => simp at h
  | cons a as ih => cases i with
    | zero =>
      simp only [List.getElem?_cons_zero, Option.some.injEq] at h
      subst h
      simp only [List.set_cons_zero, List.countP_cons]
      omega
    | succ i =>
      simp only [List.getElem?_cons_succ] at h
      have := ih i h
      simp only [List.set_cons_succ, List.countP_cons]
      omega

/-- Sockets so far and those being opened. -/
def total (s : St) : Nat := s.socks.length + opening s

theorem opening_goto {s : St} {i : Nat} {pc pc' : Pc} (h : s.calls[i]? = some pc) :
    opening (s.goto i pc') + (if isOpening pc then 1 else 0) = opening s + (if isOpening pc' then 1 else 0) := by
  rw [opening_eq, opening_eq]
  exact countP_set _ _ _ _ _ h

theorem opening_set_le {s : St} {i : Nat} {pc : Pc} (h : isOpening pc = false) : opening (s.goto i pc) ≤ opening s := by
  by_cases hlt : i < s.calls.length
  · have := opening_goto (pc' := pc) (List.getElem?_eq_getElem hlt)
    rw [h] at this
    simp only [Bool.false_eq_true, if_false] at this
    omega
  · unfold St.goto
    rw [List.set_eq_of_length_le (Nat.le_of_not_lt hlt)]
    exact Nat.le_refl _

theorem raised_le {max : Int} {s : St} {i : Nat} {rc : Int} (f : Fail) : opening (s.raised max i rc f) ≤ opening s := by
  cases f with
  | timeout =>
    show opening (if _ then _ else _) ≤ _
    split <;> exact opening_set_le rfl
  | other => exact opening_set_le rfl

theorem raised_socks {max : Int} {s : St} {i : Nat} {rc : Int} (f : Fail) :
    (s.raised max i rc f).socks = s.socks ∧ (s.raised max i rc f).initialised = s.initialised ∧ (s.raised max i rc f).current = s.current := by
  cases f with
  | timeout =>
    show (if _ then _ else _ : St).socks = _ ∧ (if _ then _ else _ : St).initialised = _ ∧ (if _ then _ else _ : St).current = _
    split <;> exact ⟨rfl, rfl, rfl⟩
  | other => exact ⟨rfl, rfl, rfl⟩

theorem loop_socks {max : Int} {s : St} {i : Nat} {rc : Int} :
    (s.loop max i rc).socks = s.socks ∧ (s.loop max i rc).initialised = s.initialised ∧ (s.loop max i rc).current = s.current := by
  unfold St.loop
  split <;> exact ⟨rfl, rfl, rfl⟩

/-- Opening a socket for call `i` at `opening rc`: it leaves those being opened. -/
theorem opened_total {s : St} {i : Nat} {rc : Int} (h : s.calls[i]? = some (.opening rc)) :
    total (St.goto { s with initialised := true, current := s.socks.length, socks := s.socks ++ [⟨.none, []⟩] } i (.queued rc)) = total s := by
  have := opening_goto (s := { s with initialised := true, current := s.socks.length, socks := s.socks ++ [⟨.none, []⟩] }) (pc' := .queued rc) h
  have e : opening { s with initialised := true, current := s.socks.length, socks := s.socks ++ [⟨.none, []⟩] } = opening s := rfl
  rw [e] at this
  simp only [isOpening, if_true, Bool.false_eq_true, if_false] at this
  unfold total
  simp only [St.goto, List.length_append, List.length_singleton] at this ⊢
  omega

/-- A step does not add to the sockets and those being opened, unless an attempt is begun by a client that is not initialised. -/
theorem step_total {max : Int} {s s' : St} {e : Ev} (hs : step max s e = some s') :
    (total s' ≤ total s ∧ (s.initialised = true → s'.initialised = true) ∧ (s'.initialised = false → s'.socks.length = s.socks.length)) ∨
    ((e = .send ∨ ∃ i, e = .resume i) ∧ s.initialised = false ∧ s'.initialised = false ∧ s'.socks.length = s.socks.length ∧ total s' ≤ total s + 1) := by
  have same : ∀ t : St, t.initialised = s.initialised → t.socks.length = s.socks.length → opening t ≤ opening s →
      (total t ≤ total s ∧ (s.initialised = true → t.initialised = true) ∧ (t.initialised = false → t.socks.length = s.socks.length)) := by
    intro t h1 h2 h3
    exact ⟨by unfold total; omega, fun h => by rw [h1]; exact h, fun _ => h2⟩
  have looped : ∀ (t : St) (i : Nat) (rc : Int) (pc : Pc), t.calls[i]? = some pc → isOpening pc = false → t.initialised = s.initialised →
      t.socks = s.socks → opening t ≤ opening s →
      (total (t.loop max i rc) ≤ total s ∧ (s.initialised = true → (t.loop max i rc).initialised = true) ∧
        ((t.loop max i rc).initialised = false → (t.loop max i rc).socks.length = s.socks.length)) ∨
      (s.initialised = false ∧ (t.loop max i rc).initialised = false ∧ (t.loop max i rc).socks.length = s.socks.length ∧
        total (t.loop max i rc) ≤ total s + 1) := by
    intro t i rc pc hpc hno h1 h2 h3
    obtain ⟨l1, l2, l3⟩ := loop_socks (max := max) (s := t) (i := i) (rc := rc)
    by_cases hrc : rc < max
    · cases hi : s.initialised with
      | true =>
        left
        have e : t.loop max i rc = t.goto i (.queued rc) := by
          unfold St.loop; rw [if_pos hrc, h1, hi]; rfl
        have := opening_set_le (s := t) (i := i) (pc := .queued rc) rfl
        have := same (t.loop max i rc) (by rw [l2, h1]) (by rw [l1, h2]) (by rw [e]; omega)
        rw [hi] at this
        exact this
      | false =>
        right
        have e : t.loop max i rc = t.goto i (.opening rc) := by
          unfold St.loop; rw [if_pos hrc, h1, hi]; rfl
        have g := opening_goto (s := t) (pc' := .opening rc) hpc
        rw [hno] at g
        simp only [isOpening, Bool.false_eq_true, if_false, if_true] at g
        refine ⟨rfl, by rw [l2, h1, hi], by rw [l1, h2], ?_⟩
        unfold total
        rw [l1, h2, e]
        omega
    · left
      have e : t.loop max i rc = t.goto i (.over .nothing) := by
        unfold St.loop; rw [if_neg hrc]
      have := opening_set_le (s := t) (i := i) (pc := .over .nothing) rfl
      exact same (t.loop max i rc) (by rw [l2, h1]) (by rw [l1, h2]) (by rw [e]; omega)
  cases e with
  | send =>
    simp only [step, Option.some.injEq] at hs
    subst hs
    have ho : opening { s with calls := s.calls ++ [.over .nothing] } = opening s := by
      rw [opening_eq, opening_eq]; simp [isOpening]
    rcases looped { s with calls := s.calls ++ [.over .nothing] } s.calls.length 0 (.over .nothing) (by simp) rfl rfl rfl (by omega) with h | h
    · exact .inl h
    · exact .inr ⟨.inl rfl, h⟩
  | opened i =>
    simp only [step] at hs
    split at hs
    · rename_i rc hc
      simp only [Option.some.injEq] at hs
      subst hs
      exact .inl ⟨Nat.le_of_eq (opened_total hc), fun _ => rfl, fun h => by simp [St.goto] at h⟩
    · cases hs
  | openFails i f =>
    simp only [step] at hs
    split at hs
    · rename_i rc hc
      simp only [Option.some.injEq] at hs
      subst hs
      obtain ⟨r1, r2, _⟩ := raised_socks (max := max) (s := s) (i := i) (rc := rc) f
      exact .inl (same _ r2 (by rw [r1]) (raised_le f))
    · cases hs
  | acquire i =>
    simp only [step] at hs
    split at hs
    · rename_i rc hc
      split at hs
      · cases hs
      · simp only [Option.some.injEq] at hs
        subst hs
        refine .inl (same _ rfl (by simp [St.goto]) ?_)
        exact opening_set_le (s := { s with socks := s.socks.modify s.current (Sock.sent i) }) rfl
    · cases hs
  | deliver k j =>
    simp only [step] at hs
    split at hs
    · cases hs
    · split at hs
      · cases hs
      · rename_i sock hk q hq
        simp only [Option.some.injEq] at hs
        subst hs
        split
        · rename_i r hr
          refine .inl (same _ rfl (by simp [St.goto]) ?_)
          exact opening_set_le (s := { s with socks := s.socks.modify k (Sock.received j) }) rfl
        · exact .inl (same _ rfl (by simp) (Nat.le_refl _))
  | drop k j =>
    simp only [step] at hs
    split at hs
    · cases hs
    · split at hs
      · simp only [Option.some.injEq] at hs
        subst hs
        exact .inl (same _ rfl (by simp) (Nat.le_refl _))
      · cases hs
  | timeout i =>
    simp only [step] at hs
    split at hs
    · rename_i rc k hc
      simp only [Option.some.injEq] at hs
      subst hs
      obtain ⟨r1, r2, _⟩ := raised_socks (max := max) (s := { s with socks := s.socks.modify k (fun x => { x with response := .cancelled }) }) (i := i) (rc := rc) .timeout
      exact .inl (same _ r2 (by rw [r1]; simp) (raised_le (s := { s with socks := s.socks.modify k (fun x => { x with response := .cancelled }) }) .timeout))
    · cases hs
  | resume i =>
    simp only [step] at hs
    split at hs
    · rename_i rc hc
      simp only [Option.some.injEq] at hs
      subst hs
      rcases looped s i rc (.pausing rc) hc rfl rfl rfl (Nat.le_refl _) with h | h
      · exact .inl h
      · exact .inr ⟨.inr ⟨i, rfl⟩, h⟩
    · cases hs

theorem steps_total {max : Int} {es : List Ev} : ∀ {s s' : St}, s.initialised = true → steps max s es = some s' →
    s'.initialised = true ∧ total s' ≤ total s := by
  induction es with
  | nil =>
    intro s s' hi h
    simp only [steps, Option.some.injEq] at h
    subst h
    exact ⟨hi, Nat.le_refl _⟩
  | cons e es ih =>
    intro s s' hi h
    simp only [steps] at h
    cases hs : step max s e with
    | none => rw [hs] at h; cases h
    | some t =>
      rw [hs] at h
      rcases step_total hs with ⟨h1, h2, _⟩ | ⟨_, h2, _⟩
      · obtain ⟨g1, g2⟩ := ih (h2 hi) h
        exact ⟨g1, by omega⟩
      · rw [hi] at h2; cases h2

theorem opening_le_calls (s : St) : opening s ≤ s.calls.length := by
  rw [opening_eq]; exact List.countP_le_length

theorem step_calls {max : Int} {s s' : St} {e : Ev} (hs : step max s e = some s') : s.calls.length ≤ s'.calls.length := by
  have hloop : ∀ (t : St) (i : Nat) (rc : Int), (t.loop max i rc).calls.length = t.calls.length := by
    intro t i rc; unfold St.loop; split <;> simp [St.goto]
  have hraised : ∀ (t : St) (i : Nat) (rc : Int) (f : Fail), (t.raised max i rc f).calls.length = t.calls.length := by
    intro t i rc f
    cases f with
    | timeout => simp only [St.raised]; split <;> simp [St.goto]
    | other => simp [St.raised, St.goto]
  cases e <;> simp only [step] at hs
  case send =>
    simp only [Option.some.injEq] at hs
    subst hs
    rw [hloop]; simp
  case deliver k j =>
    split at hs
    · cases hs
    · split at hs
      · cases hs
      · simp only [Option.some.injEq] at hs
        subst hs
        split <;> simp [St.goto]
  case drop k j =>
    split at hs
    · cases hs
    · split at hs
      · simp only [Option.some.injEq] at hs; subst hs; exact Nat.le_refl _
      · cases hs
  case acquire i =>
    split at hs
    · split at hs
      · cases hs
      · simp only [Option.some.injEq] at hs; subst hs; simp [St.goto]
    · cases hs
  all_goals
    split at hs
    · simp only [Option.some.injEq] at hs
      subst hs
      first | (rw [hloop]; exact Nat.le_refl _) | (rw [hraised]; exact Nat.le_refl _) | simp [St.goto]
    · cases hs

/-- In every reachable state. -/
def Base (s : St) : Prop := total s ≤ s.calls.length ∧ (s.initialised = false → s.socks.length = 0)

theorem base_step {max : Int} {s s' : St} {e : Ev} (hb : Base s) (hs : step max s e = some s') : Base s' := by
  have hc := step_calls hs
  have ho := opening_le_calls s'
  obtain ⟨b1, b2⟩ := hb
  have hz : s'.initialised = false → s'.socks.length = 0 := by
    intro hf
    rcases step_total hs with ⟨h1, h2, h3⟩ | ⟨h1, h2, h3, h4, h5⟩
    · have : s.initialised = false := by
        cases hb : s.initialised with
        | false => rfl
        | true => rw [h2 hb] at hf; cases hf
      rw [h3 hf, b2 this]
    · rw [h4, b2 h2]
  refine ⟨?_, hz⟩
  rcases step_total hs with ⟨h1, _⟩ | ⟨_, _, h3, _⟩
  · omega
  · have := hz h3
    unfold total
    omega

theorem base_steps {max : Int} {es : List Ev} : ∀ {s s' : St}, Base s → steps max s es = some s' → Base s' := by
  induction es with
  | nil =>
    intro s s' hi h
    simp only [steps, Option.some.injEq] at h
    subst h
    exact hi
  | cons e es ih =>
    intro s s' hi h
    simp only [steps] at h
    cases hs : step max s e with
    | none => rw [hs] at h; cases h
    | some t => rw [hs] at h; exact ih (base_step hi hs) h

/-- The invariant while every attempt is begun alone. -/
def One (s : St) : Prop := total s ≤ 1 ∧ (s.initialised = false → s.socks.length = 0)

theorem alone_one {max : Int} {es : List Ev} : ∀ {s s' : St}, One s → Along max alone s es → steps max s es = some s' → One s' := by
  induction es with
  | nil =>
    intro s s' hi _ h
    simp only [steps, Option.some.injEq] at h
    subst h
    exact hi
  | cons e es ih =>
    intro s s' hi ha h
    simp only [steps] at h
    cases hs : step max s e with
    | none => rw [hs] at h; cases h
    | some t =>
      rw [hs] at h
      simp only [Along, hs] at ha
      refine ih ?_ ha.2 h
      obtain ⟨i1, i2⟩ := hi
      rcases step_total hs with ⟨h1, h2, h3⟩ | ⟨h1, h2, h3, h4, h5⟩
      · refine ⟨by omega, fun hf => ?_⟩
        have : s.initialised = false := by
          cases hb : s.initialised with
          | false => rfl
          | true => rw [h2 hb] at hf; cases hf
        rw [h3 hf, i2 this]
      · have ho : opening s = 0 := by
          rcases h1 with h1 | ⟨i, h1⟩ <;> subst h1 <;> exact ha.1
        have := i2 h2
        refine ⟨?_, fun _ => by rw [h4, this]⟩
        unfold total at *
        omega

/-- Calls have attempts left, and have not ended without a result. -/
def Left (max : Int) : Pc → Prop
  | .opening rc | .queued rc | .waiting rc _ | .pausing rc => 0 ≤ rc ∧ rc < max
  | .over e => e ≠ .nothing

def Lefts (max : Int) (s : St) : Prop := ∀ pc ∈ s.calls, Left max pc

theorem lefts_goto {max : Int} {s : St} {i : Nat} {pc : Pc} (h : Lefts max s) (hp : Left max pc) : Lefts max (s.goto i pc) := by
  intro q hq
  rcases List.mem_or_eq_of_mem_set hq with hq | hq
  · exact h q hq
  · rw [hq]; exact hp

theorem lefts_loop {max : Int} {s : St} {i : Nat} {rc : Int} (h : Lefts max s) (h0 : 0 ≤ rc) (h1 : rc < max) : Lefts max (s.loop max i rc) := by
  unfold St.loop
  rw [if_pos h1]
  refine lefts_goto h ?_
  cases s.initialised <;> exact ⟨h0, h1⟩

theorem lefts_raised {max : Int} {s : St} {i : Nat} {rc : Int} (f : Fail) (h : Lefts max s) (h0 : 0 ≤ rc) : Lefts max (s.raised max i rc f) := by
  cases f with
  | timeout =>
    show Lefts max (if _ then _ else _)
    split
    · exact lefts_goto h (fun e => by cases e)
    · exact lefts_goto h ⟨by omega, by omega⟩
  | other => exact lefts_goto h (fun e => by cases e)

theorem lefts_step {max : Int} {s s' : St} {e : Ev} (hm : 0 < max) (h : Lefts max s) (hs : step max s e = some s') : Lefts max s' := by
  cases e <;> simp only [step] at hs
  case send =>
    simp only [Option.some.injEq] at hs
    subst hs
    unfold St.loop
    rw [if_pos hm]
    intro q hq
    simp only [St.goto] at hq
    rw [List.set_append_right _ _ (Nat.le_refl _), Nat.sub_self, List.set_cons_zero] at hq
    rcases List.mem_append.1 hq with hq | hq
    · exact h q hq
    · rw [List.mem_singleton.1 hq]
      cases s.initialised <;> exact ⟨Int.le_refl _, hm⟩
  case deliver k j =>
    split at hs
    · cases hs
    · split at hs
      · cases hs
      · simp only [Option.some.injEq] at hs
        subst hs
        split
        · exact lefts_goto (s := { s with socks := s.socks.modify k (Sock.received j) }) h (fun e => by cases e)
        · exact h
  case drop k j =>
    split at hs
    · cases hs
    · split at hs
      · simp only [Option.some.injEq] at hs; subst hs; exact h
      · cases hs
  case acquire i =>
    split at hs
    · rename_i rc hc
      split at hs
      · cases hs
      · simp only [Option.some.injEq] at hs
        subst hs
        exact lefts_goto (s := { s with socks := s.socks.modify s.current (Sock.sent i) }) h (show 0 ≤ rc ∧ rc < max from h (.queued rc) (List.mem_of_getElem? hc))
    · cases hs
  case opened i =>
    split at hs
    · rename_i rc hc
      simp only [Option.some.injEq] at hs
      subst hs
      exact lefts_goto (s := { s with initialised := true, current := s.socks.length, socks := s.socks ++ [⟨.none, []⟩] }) h
        (show 0 ≤ rc ∧ rc < max from h (.opening rc) (List.mem_of_getElem? hc))
    · cases hs
  case openFails i f =>
    split at hs
    · rename_i rc hc
      simp only [Option.some.injEq] at hs
      subst hs
      exact lefts_raised f h (h _ (List.mem_of_getElem? hc)).1
    · cases hs
  case timeout i =>
    split at hs
    · rename_i rc k hc
      simp only [Option.some.injEq] at hs
      subst hs
      exact lefts_raised (s := { s with socks := s.socks.modify k (fun x => { x with response := .cancelled }) }) .timeout h (h _ (List.mem_of_getElem? hc)).1
    · cases hs
  case resume i =>
    split at hs
    · rename_i rc hc
      simp only [Option.some.injEq] at hs
      subst hs
      obtain ⟨a, b⟩ := h _ (List.mem_of_getElem? hc)
      exact lefts_loop h a b
    · cases hs

theorem lefts_steps {max : Int} (hm : 0 < max) {es : List Ev} : ∀ {s s' : St}, Lefts max s → steps max s es = some s' → Lefts max s' := by
  induction es with
  | nil =>
    intro s s' hi h
    simp only [steps, Option.some.injEq] at h
    subst h
    exact hi
  | cons e es ih =>
    intro s s' hi h
    simp only [steps] at h
    cases hs : step max s e with
    | none => rw [hs] at h; cases h
    | some t => rw [hs] at h; exact ih (lefts_step hm hi hs) h

/-- Replies and those they are for, while nothing times out. -/
structure Tidy (s : St) : Prop where
  socks : ∀ (k : Nat) (x : Sock), s.socks[k]? = some x →
    (x.response = .none ∧ x.net = []) ∨
    ∃ (r : Nat) (rc : Int), x.response = .live r ∧ (x.net = [] ∨ x.net = [r]) ∧ s.calls[r]? = some (.waiting rc k)
  got : ∀ (r q : Nat), s.calls[r]? = some (.over (.reply q)) → q = r

theorem get_set {α : Type _} {l : List α} {i j : Nat} {x y : α} (h : (l.set i x)[j]? = some y) : (j = i ∧ y = x) ∨ (j ≠ i ∧ l[j]? = some y) := by
  rw [List.getElem?_set] at h
  split at h
  · rename_i e
    split at h
    · left; exact ⟨e.symm, (Option.some.inj h).symm⟩
    · cases h
  · rename_i e
    right; exact ⟨fun c => e c.symm, h⟩

/-- A call that is not waiting for a reply goes on without one. -/
theorem tidy_goto {s : St} {i : Nat} {pc : Pc} (h : Tidy s) (hi : ∀ (rc : Int) (k : Nat), s.calls[i]? ≠ some (.waiting rc k))
    (hp : ∀ q, pc ≠ .over (.reply q)) : Tidy (s.goto i pc) where
  socks := by
    intro k x hx
    rcases h.socks k x hx with a | ⟨r, rc, a, b, c⟩
    · exact .inl a
    · refine .inr ⟨r, rc, a, b, ?_⟩
      have hne : i ≠ r := fun e => hi rc k (by rw [e]; exact c)
      show (s.calls.set i pc)[r]? = _
      rw [List.getElem?_set_ne hne]
      exact c
  got := by
    intro r q hq
    rcases get_set hq with ⟨_, e⟩ | ⟨_, e⟩
    · exact absurd e.symm (hp q)
    · exact h.got r q e

theorem tidy_fields {s t : St} (h : Tidy s) (h1 : t.socks = s.socks) (h2 : t.calls = s.calls) : Tidy t where
  socks := by rw [h1, h2]; exact h.socks
  got := by rw [h2]; exact h.got

theorem tidy_loop {max : Int} {s : St} {i : Nat} {rc : Int} (h : Tidy s) (hi : ∀ (rc : Int) (k : Nat), s.calls[i]? ≠ some (.waiting rc k)) :
    Tidy (s.loop max i rc) := by
  unfold St.loop
  split
  · refine tidy_goto h hi ?_
    intro q
    cases s.initialised <;> exact Pc.noConfusion
  · exact tidy_goto h hi (fun q e => by cases e)

theorem tidy_raised {max : Int} {s : St} {i : Nat} {rc : Int} {f : Fail} (h : Tidy s) (hi : ∀ (rc : Int) (k : Nat), s.calls[i]? ≠ some (.waiting rc k)) :
    Tidy (s.raised max i rc f) := by
  cases f with
  | timeout =>
    show Tidy (if _ then _ else _)
    split <;> exact tidy_goto h hi (fun q e => by cases e)
  | other => exact tidy_goto h hi (fun q e => by cases e)

theorem get_modify {α : Type _} {l : List α} {f : α → α} {i j : Nat} {y : α} (h : (l.modify i f)[j]? = some y) :
    (j = i ∧ ∃ x, l[j]? = some x ∧ y = f x) ∨ (j ≠ i ∧ l[j]? = some y) := by
  rw [List.getElem?_modify] at h
  cases hx : l[j]? with
  | none => rw [hx] at h; cases h
  | some x =>
    rw [hx] at h
    have h : (if i = j then f x else x) = y := Option.some.inj h
    by_cases e : i = j
    · rw [if_pos e] at h
      exact .inl ⟨e.symm, x, rfl, h.symm⟩
    · rw [if_neg e] at h
      exact .inr ⟨fun c => e c.symm, by rw [h]⟩

theorem nobody {s : St} (h : Tidy s) (hw : ¬ s.calls.any Pc.isWaiting = true) : ∀ (k : Nat) (x : Sock), s.socks[k]? = some x → x.response = .none ∧ x.net = [] := by
  intro k x hx
  rcases h.socks k x hx with a | ⟨r, rc, _, _, c⟩
  · exact a
  · exact absurd (List.any_eq_true.2 ⟨_, List.mem_of_getElem? c, rfl⟩) hw

theorem tidy_step {max : Int} {s s' : St} {e : Ev} (h : Tidy s) (ht : timesOut e = false) (hs : step max s e = some s') : Tidy s' := by
  cases e with
  | send =>
    simp only [step, Option.some.injEq] at hs
    subst hs
    refine tidy_loop ⟨?_, ?_⟩ (by intro rc k; simp)
    · intro k x hx
      rcases h.socks k x hx with a | ⟨r, rc, a, b, c⟩
      · exact .inl a
      · refine .inr ⟨r, rc, a, b, ?_⟩
        obtain ⟨hlt, _⟩ := List.getElem?_eq_some_iff.1 c
        show (s.calls ++ [.over .nothing])[r]? = _
        rw [List.getElem?_append_left hlt]
        exact c
    · intro r q hq
      have hq : (s.calls ++ [.over .nothing])[r]? = some (.over (.reply q)) := hq
      rw [List.getElem?_append] at hq
      split at hq
      · exact h.got r q hq
      · have := List.mem_of_getElem? hq
        simp at this
  | opened i =>
    simp only [step] at hs
    split at hs
    · rename_i rc hc
      simp only [Option.some.injEq] at hs
      subst hs
      refine tidy_goto ⟨?_, h.got⟩ (by intro r k; show s.calls[i]? ≠ _; rw [hc]; intro e; cases e) (fun q e => by cases e)
      intro k x hx
      have hx : (s.socks ++ [⟨.none, []⟩])[k]? = some x := hx
      rw [List.getElem?_append] at hx
      split at hx
      · exact h.socks k x hx
      · have := List.mem_of_getElem? hx
        simp only [List.mem_singleton] at this
        subst this
        exact .inl ⟨rfl, rfl⟩
    · cases hs
  | openFails i f =>
    simp only [step] at hs
    split at hs
    · rename_i rc hc
      simp only [Option.some.injEq] at hs
      subst hs
      exact tidy_raised h (by intro r k; rw [hc]; intro e; cases e)
    · cases hs
  | acquire i =>
    simp only [step] at hs
    split at hs
    · rename_i rc hc
      split at hs
      · cases hs
      · rename_i hw
        simp only [Option.some.injEq] at hs
        subst hs
        have hn := nobody h hw
        refine ⟨?_, ?_⟩
        · intro k x hx
          have hx : (s.socks.modify s.current (Sock.sent i))[k]? = some x := hx
          rcases get_modify hx with ⟨e, y, hy, ey⟩ | ⟨_, hy⟩
          · right
            refine ⟨i, rc, by rw [ey]; rfl, .inr ?_, ?_⟩
            · rw [ey]
              show y.net ++ [i] = [i]
              rw [(hn k y hy).2]
              rfl
            · obtain ⟨hlt, _⟩ := List.getElem?_eq_some_iff.1 hc
              show (s.calls.set i _)[i]? = _
              rw [List.getElem?_set_self hlt, e]
          · exact .inl (hn k x hy)
        · intro r q hq
          rcases get_set hq with ⟨_, e⟩ | ⟨_, e⟩
          · cases e
          · exact h.got r q e
    · cases hs
  | deliver k j =>
    simp only [step] at hs
    split at hs
    · cases hs
    · split at hs
      · cases hs
      · rename_i sock hk _ q hq
        simp only [Option.some.injEq] at hs
        subst hs
        rcases h.socks k sock hk with ⟨_, b⟩ | ⟨r, rc, a, b, c⟩
        · rw [b] at hq; simp at hq
        · have hnet : sock.net = [r] := by
            rcases b with b | b
            · rw [b] at hq; simp at hq
            · exact b
          rw [hnet] at hq
          have hj : j = 0 := by
            cases j with
            | zero => rfl
            | succ j => simp at hq
          subst hj
          have hqr : r = q := by simpa using hq
          subst hqr
          simp only [a]
          refine ⟨?_, ?_⟩
          · intro k' x hx
            have hx : (s.socks.modify k (Sock.received 0))[k']? = some x := hx
            rcases get_modify hx with ⟨e, y, hy, ey⟩ | ⟨hne, hy⟩
            · left
              rw [e, hk] at hy
              cases hy
              rw [ey]
              simp only [Sock.received, a, hnet]
              exact ⟨trivial, rfl⟩
            · rcases h.socks k' x hy with a' | ⟨r', rc', a', b', c'⟩
              · exact .inl a'
              · refine .inr ⟨r', rc', a', b', ?_⟩
                have : r ≠ r' := by
                  intro e
                  rw [← e, c] at c'
                  simp only [Option.some.injEq, Pc.waiting.injEq] at c'
                  exact hne c'.2.symm
                show (s.calls.set r _)[r']? = _
                rw [List.getElem?_set_ne this]
                exact c'
          · intro r' q' hq'
            rcases get_set hq' with ⟨e1, e⟩ | ⟨_, e⟩
            · cases e; exact e1.symm
            · exact h.got r' q' e
  | drop k j =>
    simp only [step] at hs
    split at hs
    · cases hs
    · rename_i sock hk
      split at hs
      · rename_i hj
        simp only [Option.some.injEq] at hs
        subst hs
        refine ⟨?_, h.got⟩
        intro k' x hx
        rcases get_modify hx with ⟨e, y, hy, ey⟩ | ⟨_, hy⟩
        · rcases h.socks k' y hy with ⟨a, b⟩ | ⟨r, rc, a, b, c⟩
          · left; rw [ey]; exact ⟨a, by rw [b]; rfl⟩
          · right
            rw [ey]
            refine ⟨r, rc, a, ?_, c⟩
            rcases b with b | b
            · left; show y.net.eraseIdx j = []; rw [b]; rfl
            · rw [b]
              cases j with
              | zero => left; rfl
              | succ j => right; rfl
        · exact h.socks k' x hy
      · cases hs
  | timeout i => cases ht
  | resume i =>
    simp only [step] at hs
    split at hs
    · rename_i rc hc
      simp only [Option.some.injEq] at hs
      subst hs
      exact tidy_loop h (by intro r k; rw [hc]; intro e; cases e)
    · cases hs

theorem tidy_steps {max : Int} {es : List Ev} : ∀ {s s' : St}, Tidy s → (∀ e ∈ es, timesOut e = false) → steps max s es = some s' → Tidy s' := by
  induction es with
  | nil =>
    intro s s' h _ hs
    simp only [steps, Option.some.injEq] at hs
    subst hs
    exact h
  | cons e es ih =>
    intro s s' h ht hs
    simp only [steps] at hs
    cases he : step max s e with
    | none => rw [he] at hs; cases hs
    | some t =>
      rw [he] at hs
      exact ih (tidy_step h (ht e (List.mem_cons_self ..)) he) (fun e' h' => ht e' (List.mem_cons_of_mem _ h')) hs

end Verif.Datagram
