import Verif.Startup.Lemmas

namespace Verif.Startup

/-! ## Tasks that are created at once begin before the first request arrives -/

/-- No request yet. -/
def Quiet (tr : List Ev) : Prop := ∀ e ∈ tr, ¬ Asked e

/-- No connection has a task. -/
def Alone (s : St) : Prop := ∀ x ∈ s.tasks, x.kind ≠ .conn

/-- A handle that brings no request. -/
def Plain : Job → Prop
  | .accept _ => False
  | .first _ k => k ≠ .conn
  | _ => True

/-- Before the second turn of the loop. -/
structure Early (u : Nat) (s : St) : Prop where
  deaf : s.listening = []
  quiet : Quiet s.trace
  alone : Alone s
  plain : ∀ j ∈ s.ready, Plain j
  all : List.range u <+: began s.trace ++ firsts s.ready
  going : s.stopping = false

/-- In the second turn, with the handles that are still to be run. -/
structure Second (u : Nat) (js : List Job) (s : St) : Prop where
  quiet : Quiet s.trace
  alone : Alone s
  plain : ∀ j ∈ js, Plain j
  all : List.range u <+: began s.trace ++ firsts js

/-- Later. -/
def Late (u : Nat) (s : St) : Prop := ∃ pre post, s.trace = pre ++ post ∧ Quiet pre ∧ List.range u <+: began pre

theorem quiet_snoc {tr : List Ev} {e : Ev} (h : Quiet tr) (he : ¬ Asked e) : Quiet (tr ++ [e]) := by
  intro x hx
  rcases List.mem_append.1 hx with h1 | h1
  · exact h x h1
  · rw [List.mem_singleton.1 h1]; exact he

/-- What a step does to trace and tasks, as far as it matters here. -/
structure Small (s s' : St) : Prop where
  quiet : Quiet s.trace → Quiet s'.trace
  alone : Alone s → Alone s'
  began : began s'.trace = began s.trace

theorem Small.refl (s : St) : Small s s := ⟨id, id, rfl⟩

theorem Small.trans {a b c : St} (h : Small a b) (g : Small b c) : Small a c :=
  ⟨g.quiet ∘ h.quiet, g.alone ∘ h.alone, g.began.trans h.began⟩

theorem alone_modify {s : St} (t : Nat) (f : Task → Task) (hf : ∀ x, (f x).kind = x.kind) (h : Alone s) :
    ∀ x ∈ s.tasks.modify t f, x.kind ≠ .conn := by
  intro x hx
  obtain ⟨i, hi⟩ := List.mem_iff_getElem?.1 hx
  rw [List.getElem?_modify] at hi
  cases hs : s.tasks[i]? with
  | none => rw [hs] at hi; simp at hi
  | some y =>
    rw [hs] at hi
    have hy := h y (List.mem_of_getElem? hs)
    simp only [Option.map_eq_map, Option.map_some, Option.some.injEq] at hi
    rw [← hi]
    split
    · rw [hf]; exact hy
    · exact hy

theorem small_gather (s : St) : Small s (gather s) :=
  ⟨fun h => quiet_snoc h (by simp [Asked]), id, by simp [gather, St.say]; rfl⟩

theorem small_endMain (r : Option Nat) (s : St) : Small s (endMain r s) :=
  ⟨fun h => quiet_snoc h (by simp [Asked]), id, by simp [endMain, St.say]; rfl⟩

theorem small_spawn {s : St} {k : Kind} (b : Bool) (hk : k ≠ .conn) : Small s (spawn k b s) := by
  refine ⟨id, fun h => ?_, rfl⟩
  intro x hx
  rcases List.mem_append.1 hx with h1 | h1
  · exact h x h1
  · rw [List.mem_singleton.1 h1]; exact hk

theorem small_exec : ∀ (cs : List Cmd) (s : St), Small s (exec cs s)
  | [], s => small_gather s
  | .create b :: cs, s => by
    simp only [exec]
    have h : Small s { spawn (.own s.own) b s with own := s.own + 1 } := by
      have := small_spawn (s := s) (k := .own s.own) b (by simp)
      exact ⟨this.quiet, this.alone, this.began⟩
    exact h.trans (small_exec cs _)
  | .wait :: cs, s => ⟨id, id, rfl⟩
  | .raise e :: _, s => small_endMain _ s

theorem internals_conn {c : Nat} {p : Kind × Bool} (h : p ∈ internals c) : p.1 ≠ .conn := by
  simp only [internals, List.mem_append, List.mem_replicate, List.mem_cons, List.not_mem_nil, or_false] at h
  rcases h with (⟨_, rfl⟩ | ⟨_, rfl⟩) | rfl | rfl | rfl | rfl <;> simp

theorem small_internals : ∀ (l : List (Kind × Bool)) (s : St), (∀ p ∈ l, p.1 ≠ .conn) → Small s (l.foldl (fun s p => spawn p.1 p.2 s) s)
  | [], s, _ => Small.refl s
  | p :: l, _, hl =>
    (small_spawn p.2 (hl p List.mem_cons_self)).trans (small_internals l _ (fun q hq => hl q (List.mem_cons_of_mem _ hq)))

theorem small_main (c : Nat) (code : List Cmd) (s : St) : Small s (mainStep c code s) := by
  unfold mainStep
  split
  · exact (small_internals _ s (fun p hp => internals_conn hp)).trans (small_exec _ _)
  · exact small_exec _ _
  · split
    · exact small_endMain _ s
    · exact Small.refl s
  · exact Small.refl s

theorem small_finish (t : Nat) (r : Option Nat) (s : St) : Small s (finish t r s) := by
  unfold finish
  cases hx : s.tasks[t]? with
  | none => exact Small.refl s
  | some x =>
    simp only
    by_cases ho : x.over.isSome
    · rw [if_pos ho]; exact Small.refl s
    · rw [if_neg ho]
      have h : Small s { s with tasks := s.tasks.modify t fun x => { x with over := some r }, trace := s.trace ++ [.ended x.kind r] } :=
        ⟨fun h => quiet_snoc h (by simp [Asked]), fun h => alone_modify t _ (fun _ => rfl) h, by simp; rfl⟩
      by_cases hc : s.main = .gathering ∧ t ∈ s.kept
      · rw [if_pos hc]; exact ⟨h.quiet, h.alone, h.began⟩
      · rw [if_neg hc]; exact h

theorem small_act (a : Act) (t : Nat) {k : Kind} (s : St) (hk : k ≠ .conn) : Small s (act a t k s) := by
  have h1 : Small s (handle a k s) := by
    unfold handle
    split
    · exact ⟨fun h => quiet_snoc h (by simp [Asked, hk]), id, by simp [St.say]; rfl⟩
    · exact Small.refl s
  have h2 : Small s (listen a t k (handle a k s)) := by
    unfold listen
    split
    · exact ⟨h1.quiet, h1.alone, h1.began⟩
    · exact h1
  unfold act
  simp only
  cases a.next with
  | suspend => exact ⟨h2.quiet, fun h => alone_modify t _ (fun _ => rfl) (h2.alone h), h2.began⟩
  | again => exact ⟨h2.quiet, h2.alone, h2.began⟩
  | finish => exact h2.trans (small_finish _ _ _)
  | fail e => exact h2.trans (small_finish _ _ _)

theorem small_done (t : Nat) (s : St) : Small s (doneCallback t s) := by
  unfold doneCallback
  simp only
  split
  · exact ⟨id, id, rfl⟩
  · split
    · exact ⟨id, id, rfl⟩
    · split <;> exact ⟨id, id, rfl⟩

theorem second_run {u : Nat} {js : List Job} {s : St} (c : Nat) (code : List Cmd) (acts : Nat → Act) (j : Job) (h : Second u (j :: js) s) :
    Second u js (run c code acts s j) := by
  have hp := h.plain j List.mem_cons_self
  have hps : ∀ i ∈ js, Plain i := fun i hi => h.plain i (List.mem_cons_of_mem _ hi)
  have ha := h.all
  rw [show j :: js = [j] ++ js from rfl, firsts_append] at ha
  have go {s' : St} (g : Small s s') (hj : firsts [j] = []) : Second u js s' :=
    ⟨g.quiet h.quiet, g.alone h.alone, hps, by rw [g.began]; rw [hj] at ha; exact ha⟩
  cases j with
  | main => exact go (small_main c code s) rfl
  | first t k =>
    simp only [run]
    cases k with
    | own j =>
      have g := small_act (acts t) t (k := .own j) (s.say (.started j)) (by simp)
      refine ⟨g.quiet (quiet_snoc h.quiet (by simp [Asked])), g.alone h.alone, hps, ?_⟩
      rw [g.began]
      simp only [St.say, began_append]
      rw [List.append_assoc]
      exact ha
    | conn => exact absurd rfl hp
    | _ => exact go (small_act _ _ _ (by simp)) rfl
  | step t =>
    simp only [run]
    cases hx : s.tasks[t]? with
    | none => exact go (Small.refl s) rfl
    | some x =>
      simp only
      split
      · exact go (Small.refl s) rfl
      · exact go (small_act _ _ _ (h.alone x (List.mem_of_getElem? hx))) rfl
  | accept t => exact absurd hp (by simp [Plain])
  | done t => exact go (small_done t s) rfl
  | stop => exact go ⟨id, id, rfl⟩ rfl

theorem second_jobs {u : Nat} (c : Nat) (code : List Cmd) (acts : Nat → Act) : ∀ (js : List Job) {s : St}, Second u js s →
    Second u [] (js.foldl (run c code acts) s)
  | [], _, h => h
  | j :: js, _, h => second_jobs c code acts js (second_run c code acts j h)

theorem early_admit {u : Nat} {s : St} (p : Poll) (h : Early u s) : Early u (admit s p) := by
  have hall {j : Job} : List.range u <+: began s.trace ++ firsts (s.ready ++ [j]) := by
    rw [firsts_append, ← List.append_assoc]
    exact h.all.trans (List.prefix_append _ _)
  have hpl {j : Job} (hj : Plain j) : ∀ i ∈ s.ready ++ [j], Plain i := by
    intro i hi
    rcases List.mem_append.1 hi with h1 | h1
    · exact h.plain i h1
    · rw [List.mem_singleton.1 h1]; exact hj
  cases p with
  | accept t => simp only [admit, h.deaf, List.not_mem_nil, if_false]; exact h
  | wake t =>
    simp only [admit]
    split
    · split
      · exact ⟨h.deaf, h.quiet, alone_modify t _ (fun _ => rfl) h.alone, hpl trivial, hall, h.going⟩
      · exact h
    · exact h
  | wakeMain =>
    simp only [admit]
    split
    · exact ⟨h.deaf, h.quiet, h.alone, hpl trivial, hall, h.going⟩
    · exact h

theorem early_admits {u : Nat} : ∀ (ps : List Poll) {s : St}, Early u s → Early u (ps.foldl admit s)
  | [], _, h => h
  | p :: ps, _, h => early_admits ps (early_admit p h)

theorem late_turn_early {u : Nat} {s : St} (c : Nat) (code : List Cmd) (w : Turn) (h : Early u s) : Late u (turn c code s w) := by
  unfold turn
  rw [if_neg (by rw [h.going]; simp)]
  simp only
  have h1 := early_admits w.polls h
  have h2 : Second u [] ((w.polls.foldl admit s).ready.foldl (run c code w.acts) { w.polls.foldl admit s with ready := [] }) :=
    second_jobs c code w.acts _ ⟨h1.quiet, h1.alone, h1.plain, h1.all⟩
  have h3 := h2.all
  rw [firsts_nil, List.append_nil] at h3
  split
  · exact ⟨_, _, by simp only [close]; rw [List.append_assoc], h2.quiet, h3⟩
  · exact ⟨_, [], (List.append_nil _).symm, h2.quiet, h3⟩

/-! ### The first turn -/

theorem exec_early : ∀ (cs : List Cmd) (s : St), s.listening = [] → (∀ j ∈ s.ready, Plain j) → s.stopping = false →
    (exec cs s).listening = [] ∧ (∀ j ∈ (exec cs s).ready, Plain j) ∧ (exec cs s).stopping = false ∧
      firsts s.ready ++ List.range' s.own (upfront cs) <+: firsts (exec cs s).ready
  | [], s, hl, hp, hs => by
    refine ⟨hl, ?_, hs, ?_⟩
    · intro j hj
      simp only [exec, gather, St.say, List.mem_append, List.mem_map] at hj
      rcases hj with h | ⟨t, _, rfl⟩
      · exact hp j h
      · trivial
    · simp only [exec, gather, St.say, firsts_append, firsts_dones, upfront, List.range'_zero]
      exact List.prefix_refl _
  | .create b :: cs, s, hl, hp, hs => by
    simp only [exec]
    have := exec_early cs { spawn (.own s.own) b s with own := s.own + 1 } hl (by
      intro j hj
      rcases List.mem_append.1 hj with h1 | h1
      · exact hp j h1
      · rw [List.mem_singleton.1 h1]; simp [Plain]) hs
    refine ⟨this.1, this.2.1, this.2.2.1, ?_⟩
    refine List.IsPrefix.trans ?_ this.2.2.2
    simp only [spawn, firsts_append, upfront, List.range'_succ, List.append_assoc]
    exact List.prefix_refl _
  | .wait :: cs, s, hl, hp, hs => ⟨hl, hp, hs, by simp [exec, upfront]⟩
  | .raise e :: cs, s, hl, hp, hs => by
    refine ⟨hl, ?_, hs, ?_⟩
    · intro j hj
      simp only [exec, endMain, St.say, List.mem_append, List.mem_singleton] at hj
      rcases hj with h | rfl
      · exact hp j h
      · trivial
    · simp [exec, endMain, St.say, upfront]

theorem internals_early : ∀ (l : List (Kind × Bool)) (s : St), (∀ p ∈ l, p.1 ≠ .conn) → (∀ p ∈ l, ∀ j, p.1 ≠ .own j) →
    s.listening = [] → (∀ j ∈ s.ready, Plain j) → s.stopping = false →
    let s' := l.foldl (fun s p => spawn p.1 p.2 s) s
    s'.listening = [] ∧ (∀ j ∈ s'.ready, Plain j) ∧ s'.stopping = false ∧ s'.own = s.own ∧ firsts s'.ready = firsts s.ready
  | [], s, _, _, hl, hp, hs => ⟨hl, hp, hs, rfl, rfl⟩
  | p :: l, s, h1, h2, hl, hp, hs => by
    have := internals_early l (spawn p.1 p.2 s) (fun q hq => h1 q (List.mem_cons_of_mem _ hq)) (fun q hq => h2 q (List.mem_cons_of_mem _ hq)) hl (by
      intro j hj
      rcases List.mem_append.1 hj with g | g
      · exact hp j g
      · rw [List.mem_singleton.1 g]; exact h1 p List.mem_cons_self) hs
    refine ⟨this.1, this.2.1, this.2.2.1, this.2.2.2.1, ?_⟩
    simp only [List.foldl_cons]
    rw [this.2.2.2.2]
    have h3 := h2 p List.mem_cons_self
    simp only [spawn, firsts_append]
    cases hk : p.1 <;> simp_all [firsts]

theorem admits_init (ps : List Poll) : ps.foldl admit init = init := by
  induction ps with
  | nil => rfl
  | cons p ps ih => cases p <;> exact ih

theorem exec_stopping : ∀ (cs : List Cmd) (s : St), (exec cs s).stopping = s.stopping
  | [], _ => rfl
  | .create b :: cs, s => by simp only [exec]; exact exec_stopping cs _
  | .wait :: _, _ => rfl
  | .raise _ :: _, _ => rfl

theorem first_turn (c : Nat) (code : List Cmd) (w : Turn) :
    turn c code init w = exec code ((internals c).foldl (fun s p => spawn p.1 p.2 s) { init with ready := [] }) := by
  have h1 := internals_early (internals c) { init with ready := [] } (fun p hp => internals_conn hp) (fun p hp => internals_own hp) rfl (by simp) rfl
  unfold turn
  rw [if_neg (by decide)]
  simp only [admits_init]
  have : init.ready.foldl (run c code w.acts) { init with ready := [] } =
    exec code ((internals c).foldl (fun s p => spawn p.1 p.2 s) { init with ready := [] }) := rfl
  rw [this, exec_stopping, h1.2.2.1, if_neg (by simp)]

theorem exec_raise : ∀ (p q : List Cmd) (e : Nat), Cmd.wait ∉ p → (∀ e', Cmd.raise e' ∉ p) → ∀ (s : St),
    ∃ s', exec (p ++ .raise e :: q) s = endMain (some e) s'
  | [], _, _, _, _, s => ⟨s, rfl⟩
  | .create b :: p, q, e, h1, h2, s => by
    simp only [List.cons_append, exec]
    exact exec_raise p q e (fun g => h1 (List.mem_cons_of_mem _ g)) (fun e' g => h2 e' (List.mem_cons_of_mem _ g)) _
  | .wait :: p, _, _, h1, _, _ => absurd List.mem_cons_self h1
  | .raise e' :: p, _, _, _, h2, _ => absurd List.mem_cons_self (h2 e')

theorem early_first (c : Nat) (code : List Cmd) (w : Turn) : Early (upfront code) (turn c code init w) := by
  have h1 := internals_early (internals c) { init with ready := [] } (fun p hp => internals_conn hp) (fun p hp => internals_own hp) rfl (by simp) rfl
  have h2 := small_internals (internals c) { init with ready := [] } (fun p hp => internals_conn hp)
  simp only at h1
  generalize hs : (internals c).foldl (fun s p => spawn p.1 p.2 s) { init with ready := [] } = s at h1 h2
  have h3 := exec_early code s h1.1 h1.2.1 h1.2.2.1
  have h4 := h2.trans (small_exec code s)
  have h5 : turn c code init w = exec code s := by rw [← hs]; exact first_turn c code w
  rw [h5]
  refine ⟨h3.1, h4.quiet (by intro e he; cases he), h4.alone (by intro x hx; cases hx), h3.2.1, ?_, h3.2.2.1⟩
  rw [h4.began]
  have h6 := h3.2.2.2
  rw [h1.2.2.2.2, h1.2.2.2.1] at h6
  rw [List.range_eq_range']
  exact h6

/-! ### Afterwards the trace only grows -/

theorem grow_foldl {α : Type} (f : St → α → St) (hf : ∀ s a, s.trace <+: (f s a).trace) : ∀ (l : List α) (s : St), s.trace <+: (l.foldl f s).trace
  | [], s => List.prefix_refl _
  | a :: l, s => (hf s a).trans (grow_foldl f hf l _)

theorem grow_spawn (k : Kind) (b : Bool) (s : St) : s.trace <+: (spawn k b s).trace := List.prefix_refl _

theorem grow_exec : ∀ (cs : List Cmd) (s : St), s.trace <+: (exec cs s).trace
  | [], _ => List.prefix_append _ _
  | .create b :: cs, s => by
    simp only [exec]
    exact grow_exec cs { spawn (.own s.own) b s with own := s.own + 1 }
  | .wait :: _, _ => List.prefix_refl _
  | .raise _ :: _, _ => List.prefix_append _ _

theorem grow_main (c : Nat) (code : List Cmd) (s : St) : s.trace <+: (mainStep c code s).trace := by
  unfold mainStep
  split
  · exact (grow_foldl _ (fun s p => grow_spawn _ _ s) _ _).trans (grow_exec _ _)
  · exact grow_exec _ _
  · split
    · exact List.prefix_append _ _
    · exact List.prefix_refl _
  · exact List.prefix_refl _

theorem grow_finish (t : Nat) (r : Option Nat) (s : St) : s.trace <+: (finish t r s).trace := by
  unfold finish
  cases s.tasks[t]? with
  | none => exact List.prefix_refl _
  | some x =>
    simp only
    by_cases ho : x.over.isSome
    · rw [if_pos ho]; exact List.prefix_refl _
    · rw [if_neg ho]
      by_cases hc : s.main = .gathering ∧ t ∈ s.kept
      · rw [if_pos hc]; exact List.prefix_append _ _
      · rw [if_neg hc]; exact List.prefix_append _ _

theorem grow_act (a : Act) (t : Nat) (k : Kind) (s : St) : s.trace <+: (act a t k s).trace := by
  have h1 : s.trace <+: (handle a k s).trace := by
    unfold handle
    split
    · exact List.prefix_append _ _
    · exact List.prefix_refl _
  have h2 : s.trace <+: (listen a t k (handle a k s)).trace := by
    unfold listen
    split <;> exact h1
  unfold act
  simp only
  cases a.next with
  | suspend => exact h2
  | again => exact h2
  | finish => exact h2.trans (grow_finish _ _ _)
  | fail e => exact h2.trans (grow_finish _ _ _)

theorem grow_run (c : Nat) (code : List Cmd) (acts : Nat → Act) (s : St) (j : Job) : s.trace <+: (run c code acts s j).trace := by
  cases j with
  | main => exact grow_main c code s
  | first t k =>
    simp only [run]
    cases k with
    | own j => exact (List.prefix_append s.trace [Ev.started j]).trans (grow_act _ _ _ (s.say (.started j)))
    | _ => exact grow_act _ _ _ _
  | step t =>
    simp only [run]
    split
    · split
      · exact List.prefix_refl _
      · exact grow_act _ _ _ _
    · exact List.prefix_refl _
  | accept t => exact List.prefix_append _ _
  | done t =>
    simp only [run, doneCallback]
    split
    · exact List.prefix_refl _
    · split
      · exact List.prefix_refl _
      · split <;> exact List.prefix_refl _
  | stop => exact List.prefix_refl _

theorem grow_admit (s : St) (p : Poll) : s.trace <+: (admit s p).trace := by
  cases p with
  | accept t => simp only [admit]; split <;> exact List.prefix_refl _
  | wake t =>
    simp only [admit]; split
    · split <;> exact List.prefix_refl _
    · exact List.prefix_refl _
  | wakeMain => simp only [admit]; split <;> exact List.prefix_refl _

theorem grow_turn (c : Nat) (code : List Cmd) (s : St) (w : Turn) : s.trace <+: (turn c code s w).trace := by
  unfold turn
  split
  · exact List.prefix_refl _
  · simp only
    have h := (grow_foldl _ grow_admit w.polls s).trans
      (grow_foldl _ (grow_run c code w.acts) (w.polls.foldl admit s).ready { w.polls.foldl admit s with ready := [] })
    split
    · refine h.trans ?_
      simp only [close, List.append_assoc]
      exact List.prefix_append _ _
    · exact h

theorem late_mono {u : Nat} {s s' : St} (h : Late u s) (g : s.trace <+: s'.trace) : Late u s' := by
  obtain ⟨pre, post, h1, h2, h3⟩ := h
  obtain ⟨q, hq⟩ := g
  exact ⟨pre, post ++ q, by rw [← hq, h1, List.append_assoc], h2, h3⟩

/-- In any run: no request yet, or the requests come after the tasks created at once have begun. -/
theorem late_turns (c : Nat) (code : List Cmd) (ws : List Turn) : Quiet (turns c code ws).trace ∨ Late (upfront code) (turns c code ws) := by
  cases ws with
  | nil => left; intro e he; cases he
  | cons w ws =>
    cases ws with
    | nil => left; exact (early_first c code w).quiet
    | cons w2 ws =>
      right
      exact late_mono (late_turn_early c code w2 (early_first c code w)) (grow_foldl _ (grow_turn c code) ws _)

end Verif.Startup
