import Verif.Startup.Live

/-!
# C102: tasks of the application

For any number of buffered components, any code of `setup_tasks`, any events and any behaviour of all tasks. Modelled: ekosis/application_base.py 219-224 and 279-302
on asyncio's loop; see `Verif.Startup.Model` for what is not.
-/

namespace Verif.Startup

/-- Tasks begin to run in the order in which `setup_tasks` has created them, each once. -/
theorem C102_order (comps : Nat) (code : List Cmd) (ws : List Turn) :
    ∃ n, n ≤ (flags code).length ∧ began (turns comps code ws).trace = List.range n := by
  obtain ⟨n, h1, h2, _⟩ := ord_turns comps code ws
  refine ⟨n, Nat.le_trans h1 ?_, h2⟩
  have h := (inv_turns comps code ws).todo
  unfold Todo at h
  cases hm : (turns comps code ws).main with
  | fresh => rw [hm] at h; simp only at h; omega
  | waiting rest => rw [hm] at h; obtain ⟨p, a, b, _⟩ := h; rw [congrArg flags a, flags_append, List.length_append]; omega
  | resumed rest => rw [hm] at h; obtain ⟨p, a, b, _⟩ := h; rw [congrArg flags a, flags_append, List.length_append]; omega
  | gathering => rw [hm] at h; exact Nat.le_of_eq h.1
  | over r => rw [hm] at h; exact h.1

/-- Before the first request arrives from outside, all tasks that `setup_tasks` creates before it suspends have begun to run.
Missing: requests that a buffered endpoint has kept from an earlier run (`C102_leftover_refuted`), and tasks created later (`C102_late_refuted`). -/
theorem C102_before_partial (comps : Nat) (code : List Cmd) (ws : List Turn) (pre post : List Ev) (e : Ev)
    (ht : (turns comps code ws).trace = pre ++ e :: post) (he : Asked e) : List.range (upfront code) <+: began pre := by
  rcases late_turns comps code ws with h | ⟨p, q, h1, h2, h3⟩
  · exact absurd he (h e (by rw [ht]; simp))
  · rw [h1] at ht
    rcases List.append_eq_append_iff.1 ht with ⟨a, ha, hb⟩ | ⟨a, ha, hb⟩
    · rw [ha, began_append]; exact h3.trans (List.prefix_append _ _)
    · cases a with
      | nil => rw [List.append_nil] at ha; rw [← ha]; exact h3
      | cons x a =>
        rw [List.cons_append, List.cons.injEq] at hb
        exact absurd he (h2 e (by rw [ha, hb.1]; simp))

/-- Nothing done. -/
def idle : Act := { handles := false, listens := false, next := .suspend }

/-- A turn in which the servers start to listen; the connections and workers call the endpoint's function. -/
def busy (ps : List Poll) : Turn := { polls := ps, acts := fun _ => { handles := true, listens := true, next := .suspend } }

/-- A request from outside is served after two tasks have begun (task 2 of the loop is a server). -/
example : (turns 0 [.create true, .create false] [busy [], busy [], busy [.accept 2], busy []]).trace =
    [.gathered, .started 0, .started 1, .accepted, .handled .conn] := by decide +kernel

/-- "`my_background_task` will be running before the first request reaches any of your endpoints" (documentation/setup_tasks.md 60-61) is not true of requests
that a buffered endpoint has kept: its worker is created while the application is set up, before the tasks, and begins first. -/
theorem C102_leftover_refuted : ∃ (comps : Nat) (code : List Cmd) (ws : List Turn) (pre post : List Ev),
    code = [.create true] ∧ (turns comps code ws).trace = pre ++ .handled .worker :: post ∧ began pre = [] ∧ Ev.started 0 ∈ post :=
  ⟨1, [.create true], [busy [], busy []], [.gathered], [.started 0], by decide +kernel⟩

/-- Nor of tasks created after `setup_tasks` has waited for something: the servers already listen. -/
theorem C102_late_refuted : ∃ (comps : Nat) (code : List Cmd) (ws : List Turn) (pre post : List Ev),
    code = [.wait, .create true] ∧ (turns comps code ws).trace = pre ++ .handled .conn :: post ∧ began pre = [] ∧ Ev.started 0 ∈ post :=
  ⟨0, [.wait, .create true], [busy [], busy [], busy [.accept 1], busy [], busy [.wakeMain], busy []], [.accepted], [.gathered, .started 0], by decide +kernel⟩

/-- If a task of the list (or one of the library that is waited for) raises, the application ends with an exception: three turns of the loop later at most it has, whatever
happens in them. -/
theorem C102_failure (comps : Nat) (code : List Cmd) (ws : List Turn) (k : Kind) (e : Nat) (hg : Ev.gathered ∈ (turns comps code ws).trace)
    (hk : Belongs code k) (he : Ev.ended k (some e) ∈ (turns comps code ws).trace) (w1 w2 w3 : Turn) :
    Ev.closed ∈ (turns comps code (ws ++ [w1, w2, w3])).trace ∧ ∃ e', Ev.over (some e') ∈ (turns comps code (ws ++ [w1, w2, w3])).trace := by
  have i0 := inv_turns comps code ws
  obtain ⟨t, x, h1, h2, h3⟩ := i0.base.of_ended k (some e) he
  have ht : t ∈ (turns comps code ws).kept := (i0.base.kept_iff t x h1).2 (by rw [h2]; exact hk)
  have ho : overOf (turns comps code ws) t = some (some e) := by unfold overOf; rw [h1]; exact h3
  have hp := i0.gath.begun hg
  have a1 := one_turn comps w1 i0 hp ht ho
  have i1 := inv_turn comps w1 i0
  have a2 := two_turn comps w2 i1 a1.1 a1.2
  have i2 := inv_turn comps w2 i1
  have a3 := three_turn comps w3 i2 a2
  have i3 := inv_turn comps w3 i2
  have hs : turns comps code (ws ++ [w1, w2, w3]) = turn comps code (turn comps code (turn comps code (turns comps code ws) w1) w2) w3 := by
    unfold turns; rw [List.foldl_append]; rfl
  have sh := shut_turns comps code (ws ++ [w1, w2, w3])
  rw [hs] at sh ⊢
  refine ⟨(sh.closed a3).1, ?_⟩
  have s3 := stops comps code (ws ++ [w1, w2, w3])
  rw [hs] at s3
  obtain ⟨r, hr⟩ := s3 a3
  obtain ⟨g1, g2⟩ := i3.gath.why r hr
  rcases g2 with ⟨e', rfl, _⟩ | g2
  · exact ⟨e', g1⟩
  · cases r with
    | some e' => exact ⟨e', g1⟩
    | none =>
      exfalso
      obtain ⟨t', x', q1, q2, q3⟩ := i3.base.of_ended k (some e) (by
        have := (((grow_turn comps code _ w1).trans (grow_turn comps code _ w2)).trans (grow_turn comps code _ w3)).subset he
        exact this)
      have q4 := g2 t' ((i3.base.kept_iff t' x' q1).2 (by rw [q2]; exact hk))
      unfold overOf at q4
      rw [q1] at q4
      simp only [Option.bind_some] at q4
      rw [q3] at q4; cases q4

/-- The second task raises 7, and ends the application. -/
def fails (n : Nat) : Turn := { polls := [], acts := fun t => if t = n then { handles := false, listens := false, next := .fail 7 } else idle }

example : (turns 0 [.create true, .create true] [fails 5, fails 5]).trace = [.gathered, .started 0, .started 1, .ended (.own 1) (some 7)]
    ∧ (turns 0 [.create true, .create true] [fails 5, fails 5, fails 5, fails 5, fails 5]).trace =
      [.gathered, .started 0, .started 1, .ended (.own 1) (some 7), .over (some 7), .cancelled 0, .closed] := by decide +kernel

/-- Nothing else ends it with an exception: one of `setup_tasks`, or of a task of the list. So a task that returns ends nothing, nor does one that raises but
was not put into the list. It ends without exception only if every task of the list has returned. -/
theorem C102_reason (comps : Nat) (code : List Cmd) (ws : List Turn) (r : Option Nat) (h : Ev.over r ∈ (turns comps code ws).trace) :
    (∀ e, r = some e → Cmd.raise e ∈ code ∨ ∃ k, Belongs code k ∧ Ev.ended k (some e) ∈ (turns comps code ws).trace) ∧
      (r = none → ∀ j, (flags code)[j]? = some true → Ev.ended (.own j) none ∈ (turns comps code ws).trace) := by
  have i := inv_turns comps code ws
  have hm := i.gath.only r h
  obtain ⟨_, g⟩ := i.gath.why r hm
  constructor
  · rintro e rfl
    rcases g with ⟨e', h1, h2⟩ | ⟨t, h1, h2⟩
    · cases h1; exact .inl h2
    · right
      unfold overOf at h2
      cases hx : (turns comps code ws).tasks[t]? with
      | none => rw [hx] at h2; cases h2
      | some x =>
        rw [hx] at h2
        exact ⟨x.kind, (i.base.kept_iff t x hx).1 h1, i.base.ended_of t x _ hx h2⟩
  · rintro rfl j hj
    rcases g with ⟨e', h1, _⟩ | g
    · cases h1
    · have ho : (turns comps code ws).own = (flags code).length := by
        have := i.todo; unfold Todo at this; rw [hm] at this; exact this.2.1 rfl
      have hlt : j < (flags code).length := (List.getElem?_eq_some_iff.1 hj).1
      have hmem : j ∈ (turns comps code ws).tasks.filterMap ownOf := by rw [i.base.owns, List.mem_range, ho]; exact hlt
      obtain ⟨x, h1, h2⟩ := List.mem_filterMap.1 hmem
      have hk : x.kind = .own j := by
        unfold ownOf at h2
        cases hk : x.kind <;> rw [hk] at h2 <;> simp at h2
        rw [h2]
      obtain ⟨t, ht⟩ := List.mem_iff_getElem?.1 h1
      have q := g t ((i.base.kept_iff t x ht).2 (by rw [hk]; exact hj))
      unfold overOf at q
      rw [ht] at q
      have := i.base.ended_of t x none ht q
      rw [hk] at this; exact this

/-- A task returns and a task outside the list raises: the application goes on. -/
example : (turns 0 [.create true, .create false] [{ polls := [], acts := fun _ => idle },
      { polls := [], acts := fun t => if t = 4 then { idle with next := .finish } else if t = 5 then { idle with next := .fail 7 } else idle },
      busy [], busy [], busy [], busy []]).trace = [.gathered, .started 0, .ended (.own 0) none, .started 1, .ended (.own 1) (some 7)] := by decide +kernel

/-- If `setup_tasks` raises, the application does not run: nothing is waited for, and it ends with that exception; two turns of the loop after the start, if
`setup_tasks` does not suspend before. -/
theorem C102_setup (comps : Nat) (code p q : List Cmd) (e : Nat) (hc : code = p ++ .raise e :: q) (hp : ∀ e', Cmd.raise e' ∉ p) (ws : List Turn) :
    Ev.gathered ∉ (turns comps code ws).trace ∧ (∀ r, Ev.over r ∈ (turns comps code ws).trace → r = some e) ∧
      (Cmd.wait ∉ p → 2 ≤ ws.length → Ev.closed ∈ (turns comps code ws).trace ∧ Ev.over (some e) ∈ (turns comps code ws).trace) := by
  have i := inv_turns comps code ws
  have hraise : ¬ Calm code := fun g => g e (by rw [hc]; simp)
  have second : ∀ r, Ev.over r ∈ (turns comps code ws).trace → r = some e := by
    intro r h
    have hm := i.gath.only r h
    have ht := i.todo
    unfold Todo at ht
    rw [hm] at ht
    rcases ht.2.2 with g | ⟨p', e', q', h1, h2, h3⟩
    · exact absurd g hraise
    · rw [h3]
      rw [hc] at h1
      rcases List.append_eq_append_iff.1 h1 with ⟨a, ha, hb⟩ | ⟨a, ha, hb⟩
      · cases a with
        | nil => simp only [List.nil_append, List.cons.injEq, Cmd.raise.injEq] at hb; rw [hb.1]
        | cons x a =>
          rw [List.cons_append, List.cons.injEq] at hb
          exact absurd (by rw [ha, ← hb.1]; simp) (h2 e)
      · cases a with
        | nil => simp only [List.nil_append, List.cons.injEq, Cmd.raise.injEq] at hb; rw [hb.1]
        | cons x a =>
          rw [List.cons_append, List.cons.injEq] at hb
          exact absurd (by rw [ha, ← hb.1]; simp) (hp e')
  refine ⟨fun g => hraise (i.base.calm g), second, ?_⟩
  intro hw hl
  match ws, hl with
  | w1 :: w2 :: ws, _ =>
    have h1 : ∃ r, (turn comps code init w1).main = .over r := by
      have : turn comps code init w1 = exec code ((internals comps).foldl (fun s p => spawn p.1 p.2 s) { init with ready := [] }) := first_turn comps code w1
      obtain ⟨s', hs'⟩ := exec_raise p q e hw hp ((internals comps).foldl (fun s p => spawn p.1 p.2 s) { init with ready := [] })
      rw [this]
      rw [hc, hs']
      exact ⟨some e, rfl⟩
    have h2 := three_turn comps w2 (inv_turn comps w1 (inv_init code)) (.inl h1)
    have h3 : (turns comps code (w1 :: w2 :: ws)).stopping = true := by
      have : turns comps code (w1 :: w2 :: ws) = ws.foldl (turn comps code) (turn comps code (turn comps code init w1) w2) := rfl
      rw [this]
      generalize turn comps code (turn comps code init w1) w2 = s at h2
      clear this second i
      induction ws with
      | nil => exact h2
      | cons w ws ih => rw [List.foldl_cons]; unfold turn at ih ⊢; rw [h2]; exact ih (by simp)
    obtain ⟨r, hr⟩ := stops comps code _ h3
    have g := (i.gath.why r hr).1
    exact ⟨((shut_turns comps code _).closed h3).1, by rw [← second r g]; exact g⟩

example : (turns 0 [.create true, .raise 5, .create true] [busy [], busy []]).trace = [.over (some 5), .started 0, .cancelled 0, .closed] := by decide +kernel

/-- When the loop has stopped, each task that had begun has ended or has been cancelled, and not both. -/
theorem C102_cancelled (comps : Nat) (code : List Cmd) (ws : List Turn) (hc : Ev.closed ∈ (turns comps code ws).trace) (j : Nat)
    (hj : j ∈ began (turns comps code ws).trace) :
    Ev.cancelled j ∈ (turns comps code ws).trace ↔ ∀ r, Ev.ended (.own j) r ∉ (turns comps code ws).trace := by
  have i := inv_turns comps code ws
  have sh := shut_turns comps code ws
  have hst : (turns comps code ws).stopping = true := by
    cases hs : (turns comps code ws).stopping with
    | true => rfl
    | false => exact absurd rfl (sh.opened hs _ hc).1
  obtain ⟨_, tr, ho, htr⟩ := sh.closed hst
  constructor
  · intro h r hr
    rw [htr] at h
    simp only [List.mem_append, List.mem_singleton, reduceCtorEq, or_false] at h
    rcases h with h | h
    · exact (ho _ h).2 j rfl
    · obtain ⟨x, h1, h2⟩ := List.mem_filterMap.1 h
      obtain ⟨t, y, g1, g2, g3⟩ := i.base.of_ended _ _ hr
      have hx : x.kind = .own j ∧ x.over = none := by
        unfold left at h2
        split at h2
        · rename_i a b; cases h2; exact ⟨a, b⟩
        · cases h2
      have hnd : ((turns comps code ws).tasks.filterMap ownOf).Nodup := by rw [i.base.owns]; exact List.nodup_range
      have := own_unique hnd h1 (List.mem_of_getElem? g1) hx.1 g2
      rw [this] at hx; rw [hx.2] at g3; cases g3
  · intro h
    obtain ⟨n, h1, h2, _⟩ := ord_turns comps code ws
    rw [h2, List.mem_range] at hj
    have hmem : j ∈ (turns comps code ws).tasks.filterMap ownOf := by rw [i.base.owns, List.mem_range]; omega
    obtain ⟨x, h3, h4⟩ := List.mem_filterMap.1 hmem
    have hk : x.kind = .own j := by
      unfold ownOf at h4
      cases hk : x.kind <;> rw [hk] at h4 <;> simp at h4
      rw [h4]
    cases hov : x.over with
    | some r =>
      obtain ⟨t, ht⟩ := List.mem_iff_getElem?.1 h3
      have := i.base.ended_of t x r ht hov
      rw [hk] at this
      exact absurd this (h r)
    | none =>
      rw [htr]
      refine List.mem_append_left _ (List.mem_append_right _ (List.mem_filterMap.2 ⟨x, h3, ?_⟩))
      unfold left; rw [hk, hov]

end Verif.Startup
