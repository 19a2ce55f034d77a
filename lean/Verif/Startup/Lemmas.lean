import Verif.Startup.Spec

namespace Verif.Startup

/-! ## What a handle may change -/

@[simp] theorem began_append (a b : List Ev) : began (a ++ b) = began a ++ began b := by simp [began]

/-- First steps that are scheduled, by number of the application's task. -/
def firsts (js : List Job) : List Nat := js.filterMap fun j => match j with
  | .first _ (.own j) => some j
  | _ => none

@[simp] theorem firsts_append (a b : List Job) : firsts (a ++ b) = firsts a ++ firsts b := by simp [firsts]

theorem firsts_nil : firsts [] = [] := rfl

/-- Invariant: tasks begin in order, the others have their first step scheduled in order. `js` are the handles of this turn that are still to be run. -/
def Ord (js : List Job) (s : St) : Prop :=
  ∃ n, n ≤ s.own ∧ began s.trace = List.range n ∧ firsts (js ++ s.ready) = List.range' n (s.own - n)

theorem firsts_dones (l : List Nat) : firsts (l.map Job.done) = [] := by
  simp [firsts, List.filterMap_map, Function.comp_def]

theorem ord_gather {js : List Job} {s : St} (h : Ord js s) : Ord js (gather s) := by
  obtain ⟨n, h1, h2, h3⟩ := h
  refine ⟨n, h1, ?_, ?_⟩
  · simp [gather, St.say, h2]; rfl
  · simp only [gather, St.say]
    rw [← List.append_assoc, firsts_append, h3, firsts_dones, List.append_nil]

theorem ord_endMain {js : List Job} {s : St} (r : Option Nat) (h : Ord js s) : Ord js (endMain r s) := by
  obtain ⟨n, h1, h2, h3⟩ := h
  refine ⟨n, h1, ?_, ?_⟩
  · simp [endMain, St.say, h2]; rfl
  · simp only [endMain, St.say]
    rw [← List.append_assoc, firsts_append, h3]; simp [firsts]

theorem ord_own {js : List Job} {s : St} (b : Bool) (h : Ord js s) :
    Ord js { spawn (.own s.own) b s with own := s.own + 1 } := by
  obtain ⟨n, h1, h2, h3⟩ := h
  refine ⟨n, Nat.le_succ_of_le h1, h2, ?_⟩
  simp only [spawn]
  rw [← List.append_assoc, firsts_append, h3]
  have : s.own + 1 - n = (s.own - n) + 1 := by omega
  rw [this, List.range'_concat]
  have : n + 1 * (s.own - n) = s.own := by omega
  rw [this]; rfl

theorem ord_spawn {js : List Job} {s : St} {k : Kind} (b : Bool) (hk : ∀ j, k ≠ .own j) (h : Ord js s) : Ord js (spawn k b s) := by
  obtain ⟨n, h1, h2, h3⟩ := h
  refine ⟨n, h1, h2, ?_⟩
  simp only [spawn]
  rw [← List.append_assoc, firsts_append, h3]
  cases k <;> simp_all [firsts]

theorem ord_exec {js : List Job} : ∀ (cs : List Cmd) {s : St}, Ord js s → Ord js (exec cs s)
  | [], s, h => ord_gather h
  | .create b :: cs, s, h => by simp only [exec]; exact ord_exec cs (ord_own b h)
  | .wait :: cs, s, h => h
  | .raise e :: _, s, h => ord_endMain _ h

theorem internals_own {c : Nat} {p : Kind × Bool} (h : p ∈ internals c) (j : Nat) : p.1 ≠ .own j := by
  simp only [internals, List.mem_append, List.mem_replicate, List.mem_cons, List.not_mem_nil, or_false] at h
  rcases h with (⟨_, rfl⟩ | ⟨_, rfl⟩) | rfl | rfl | rfl | rfl <;> simp

theorem ord_internals {js : List Job} : ∀ (l : List (Kind × Bool)) {s : St}, (∀ p ∈ l, ∀ j, p.1 ≠ .own j) → Ord js s →
    Ord js (l.foldl (fun s p => spawn p.1 p.2 s) s)
  | [], _, _, h => h
  | p :: l, _, hl, h => ord_internals l (fun q hq => hl q (List.mem_cons_of_mem _ hq)) (ord_spawn _ (hl p List.mem_cons_self) h)

theorem ord_mainStep {js : List Job} {s : St} (c : Nat) (code : List Cmd) (h : Ord js s) : Ord js (mainStep c code s) := by
  unfold mainStep
  split
  · exact ord_exec _ (ord_internals _ (fun p hp => internals_own hp) h)
  · exact ord_exec _ h
  · split
    · exact ord_endMain _ h
    · exact h
  · exact h

theorem ord_finish {js : List Job} {s : St} (t : Nat) (r : Option Nat) (h : Ord js s) : Ord js (finish t r s) := by
  obtain ⟨n, h1, h2, h3⟩ := h
  unfold finish
  cases hx : s.tasks[t]? with
  | none => exact ⟨n, h1, h2, h3⟩
  | some x =>
    simp only
    by_cases ho : x.over.isSome
    · rw [if_pos ho]; exact ⟨n, h1, h2, h3⟩
    · rw [if_neg ho]
      by_cases hc : s.main = .gathering ∧ t ∈ s.kept
      · rw [if_pos hc]
        refine ⟨n, h1, ?_, ?_⟩
        · simp [St.soon, h2]; rfl
        · simp only [St.soon]
          rw [← List.append_assoc, firsts_append, h3]; simp [firsts]
      · rw [if_neg hc]
        exact ⟨n, h1, by simp [h2]; rfl, h3⟩

theorem ord_act {js : List Job} {s : St} (a : Act) (t : Nat) (k : Kind) (h : Ord js s) : Ord js (act a t k s) := by
  have h1 : Ord js (handle a k s) := by
    unfold handle
    split
    · obtain ⟨n, h1, h2, h3⟩ := h
      exact ⟨n, h1, by simp [St.say, h2]; rfl, h3⟩
    · exact h
  have h2 : Ord js (listen a t k (handle a k s)) := by
    unfold listen
    split <;> exact h1
  unfold act
  simp only
  cases a.next with
  | suspend => exact h2
  | again =>
    obtain ⟨n, g1, g2, g3⟩ := h2
    refine ⟨n, g1, g2, ?_⟩
    simp only [St.soon]
    rw [← List.append_assoc, firsts_append, g3]; simp [firsts]
  | finish => exact ord_finish _ _ h2
  | fail e => exact ord_finish _ _ h2

theorem ord_done {js : List Job} {s : St} (t : Nat) (h : Ord js s) : Ord js (doneCallback t s) := by
  obtain ⟨n, h1, h2, h3⟩ := h
  unfold doneCallback
  simp only
  split
  · exact ⟨n, h1, h2, h3⟩
  · split
    · refine ⟨n, h1, h2, ?_⟩
      simp only
      rw [← List.append_assoc, firsts_append, h3]; simp [firsts]
    · split
      · refine ⟨n, h1, h2, ?_⟩
        simp only
        rw [← List.append_assoc, firsts_append, h3]; simp [firsts]
      · exact ⟨n, h1, h2, h3⟩

theorem ord_run {js : List Job} {s : St} (c : Nat) (code : List Cmd) (acts : Nat → Act) (j : Job) (h : Ord (j :: js) s) :
    Ord js (run c code acts s j) := by
  have other (hj : firsts [j] = []) : Ord js s := by
    obtain ⟨n, h1, h2, h3⟩ := h
    refine ⟨n, h1, h2, ?_⟩
    rw [← h3, show j :: js ++ s.ready = [j] ++ (js ++ s.ready) from rfl, firsts_append [j], hj, List.nil_append]
  cases j with
  | main => exact ord_mainStep _ _ (other rfl)
  | first t k =>
    simp only [run]
    cases k with
    | own j =>
      refine ord_act _ _ _ ?_
      obtain ⟨n, h1, h2, h3⟩ := h
      rw [show Job.first t (.own j) :: js ++ s.ready = [Job.first t (.own j)] ++ (js ++ s.ready) from rfl, firsts_append [_]] at h3
      have h4 : firsts [Job.first t (.own j)] = [j] := rfl
      rw [h4] at h3
      have hlt : n < s.own := by
        rcases Nat.lt_or_ge n s.own with h | h
        · exact h
        · rw [show s.own - n = 0 by omega] at h3; simp at h3
      rw [show s.own - n = (s.own - (n + 1)) + 1 by omega, List.range'_succ] at h3
      simp only [List.cons_append, List.nil_append, List.cons.injEq] at h3
      obtain ⟨rfl, h3⟩ := h3
      refine ⟨j + 1, hlt, ?_, h3⟩
      simp only [St.say, began_append, h2, List.range_succ]; rfl
    | _ => exact ord_act _ _ _ (other rfl)
  | step t =>
    simp only [run]
    have := other rfl
    split
    · split
      · exact this
      · exact ord_act _ _ _ this
    · exact this
  | accept t =>
    simp only [run]
    refine ord_spawn _ (fun j => by simp) ?_
    obtain ⟨n, h1, h2, h3⟩ := other rfl
    exact ⟨n, h1, by simp [St.say, h2]; rfl, h3⟩
  | done t => exact ord_done _ (other rfl)
  | stop => exact other rfl

theorem ord_jobs (c : Nat) (code : List Cmd) (acts : Nat → Act) : ∀ (js : List Job) {s : St}, Ord js s → Ord [] (js.foldl (run c code acts) s)
  | [], _, h => h
  | j :: js, _, h => ord_jobs c code acts js (ord_run c code acts j h)

theorem ord_admit {s : St} (p : Poll) (h : Ord [] s) : Ord [] (admit s p) := by
  obtain ⟨n, h1, h2, h3⟩ := h
  rw [List.nil_append] at h3
  cases p with
  | accept t =>
    simp only [admit]; split
    · refine ⟨n, h1, h2, ?_⟩
      simp only [St.soon, List.nil_append, firsts_append, h3]; simp [firsts]
    · exact ⟨n, h1, h2, h3⟩
  | wake t =>
    simp only [admit]; split
    · split
      · refine ⟨n, h1, h2, ?_⟩
        simp only [St.soon, List.nil_append, firsts_append, h3]; simp [firsts]
      · exact ⟨n, h1, h2, h3⟩
    · exact ⟨n, h1, h2, h3⟩
  | wakeMain =>
    simp only [admit]; split
    · refine ⟨n, h1, h2, ?_⟩
      simp only [St.soon, List.nil_append, firsts_append, h3]; simp [firsts]
    · exact ⟨n, h1, h2, h3⟩

theorem ord_admits : ∀ (ps : List Poll) {s : St}, Ord [] s → Ord [] (ps.foldl admit s)
  | [], _, h => h
  | p :: ps, _, h => ord_admits ps (ord_admit p h)

theorem began_left (l : List Task) : began (l.filterMap left) = [] := by
  unfold began
  rw [List.filterMap_filterMap, List.filterMap_eq_nil_iff]
  intro x _
  unfold left
  cases x.kind <;> cases x.over <;> rfl

theorem ord_close {s : St} (h : Ord [] s) : Ord [] (close s) := by
  obtain ⟨n, h1, h2, h3⟩ := h
  refine ⟨n, h1, ?_, h3⟩
  simp only [close, began_append, h2, began_left]; simp; rfl

theorem ord_turn {s : St} (c : Nat) (code : List Cmd) (w : Turn) (h : Ord [] s) : Ord [] (turn c code s w) := by
  unfold turn
  split
  · exact h
  · simp only
    have h1 := ord_admits w.polls h
    have h2 : Ord (w.polls.foldl admit s).ready { w.polls.foldl admit s with ready := [] } := by
      obtain ⟨n, g1, g2, g3⟩ := h1
      exact ⟨n, g1, g2, by rw [← g3]; simp⟩
    have h3 := ord_jobs c code w.acts _ h2
    split
    · exact ord_close h3
    · exact h3

theorem ord_turns (c : Nat) (code : List Cmd) (ws : List Turn) : Ord [] (turns c code ws) := by
  unfold turns
  have : ∀ (ws : List Turn) (s : St), Ord [] s → Ord [] (ws.foldl (turn c code) s) := by
    intro ws
    induction ws with
    | nil => exact fun _ h => h
    | cons w ws ih => exact fun s h => ih _ (ord_turn c code w h)
  exact this ws _ ⟨0, by decide, rfl, rfl⟩

end Verif.Startup
