import Verif.Tasks.Lemmas
import Mathlib.Data.List.Perm.Subperm

/-!
# C78, C79: the current span key in the tasks of an application; fire-and-forget work
-/

namespace Verif.Tasks

variable {K : Type} [DecidableEq K]

theorem asked_eq (x : Line K) (given : List (Code K)) : asked x given = (given.flatMap (lines none)).count x := by
  induction given with
  | nil => rfl
  | cons c given ih => simp only [asked, List.map_cons, List.sum_cons, List.flatMap_cons, List.count_append] at ih ⊢; omega

/-- **C78, partial.** Whatever the order in which tasks run, requests are handled side by side, work is left to other tasks, messages wait
for the worker of a buffered endpoint, exceptions end blocks: every line that is logged is a line of the code with the key to which it
belongs, and none is logged more often than it stands there. What is missing: the workers of buffered senders must not log
(`SilentSenders`); see `C78_sender_refuted`. -/
theorem C78_lines_partial {endpoint : Nat → Bool} {s : St K} {given} (h : Reach endpoint s given)
    (hs : ∀ c ∈ given, SilentSenders endpoint c) : s.trace.Subperm (given.flatMap (lines none)) := by
  rw [List.subperm_ext_iff]
  intro x _
  have := (reach_amount h hs x).1
  rw [asked_eq, St.amount] at this
  omega

/-- **C78, partial.** When nothing is left to do and nothing was raised, every line was logged exactly once with the key to which it belongs:
work that is left to other tasks is done, once, and for the request that left it. (`SilentSenders` as above.) -/
theorem C78_complete_partial {endpoint : Nat → Bool} {s : St K} {given} (h : Reach endpoint s given)
    (hs : ∀ c ∈ given, SilentSenders endpoint c) (hq : ∀ c ∈ given, quietCode c = true) (hi : Idle s) :
    s.trace.Perm (given.flatMap (lines none)) := by
  rw [List.perm_iff_count]
  intro x
  have := (reach_amount h hs x).2 hq
  have hz : s.left x = 0 := by
    simp only [St.left, hi.2.1, hi.2.2.1, List.map_nil, List.sum_nil, Nat.add_zero]
    refine sum_zero _ fun y hy => ?_
    obtain ⟨h1, h2⟩ := reach_ended h y hy (hi.2.2.2 y hy)
    simp [Task.left, h1, h2, lines]
  rw [asked_eq, St.amount] at this
  omega

/-- **C78, partial.** A line that stands only in the text of requests and messages with key `k` is never logged with another key, nor without
a key. (`SilentSenders` as above.) -/
theorem C78_own_key_partial {endpoint : Nat → Bool} {s : St K} {given} (h : Reach endpoint s given)
    (hs : ∀ c ∈ given, SilentSenders endpoint c) (id : Nat) (k : K)
    (hk : ∀ c ∈ given, ∀ key, (id, key) ∈ lines none c → key = some k) : ∀ key, (id, key) ∈ s.trace → key = some k := by
  intro key hm
  have := (C78_lines_partial h hs).subset hm
  obtain ⟨c, hc, h1⟩ := List.mem_flatMap.mp this
  exact hk c hc key h1

/-! ### A case: two requests to a buffered endpoint and one that leaves work for later, all at once -/

/-- A request with key `k` that is logged (line `10 k`), is put into the queue of buffered endpoint 0 by a fire-and-forget task, starts the
worker, and leaves work for later (line `10 k + 2`). The message is logged while it is worked on (line `10 k + 1`), twice with a wait between. -/
def exampleRequest (k : Nat) : Code Nat :=
  .block k true (.log (10 * k) (.spawn (.put 0 k (.log (10 * k + 1) (.wait (.log (10 * k + 1) .done))) .done)
    (.check 0 (.soon (.wait (.log (10 * k + 2) .done)) (.wait (.log (10 * k) .done)))))) .done

/-- Tasks 0 and 1 are the connections, both requests are under way at once; 2 and 4 put the messages, 3 is the worker, 5 and 6 are the work
left for later. -/
def exampleRun : List (Label Nat) :=
  [.connect (exampleRequest 1), .connect (exampleRequest 2),
   .next, .exec, .exec, .exec, .exec, .exec, .exec,
   .next, .exec, .exec, .exec, .exec, .exec, .exec,
   .next, .exec, .exec,
   .next, .exec, .exec, .exec,
   .next, .next, .exec, .exec, .next, .next, .next, .exec, .next, .next, .exec,
   .wake 6, .next, .exec, .exec, .next,
   .wake 5, .next, .exec, .exec, .next,
   .wake 3, .next, .exec, .exec, .exec, .exec, .exec,
   .wake 3, .next, .exec, .exec, .exec, .exec,
   .wake 1, .next, .exec, .exec, .exec,
   .wake 0, .next, .exec, .exec, .exec]

def exampleEnd : St Nat := (steps (fun _ => true) {} exampleRun).getD {}

theorem exampleEnd_run : steps (fun _ => true) {} exampleRun = some exampleEnd := by
  have h : (steps (fun _ => true) ({} : St Nat) exampleRun).isSome = true := by decide +kernel
  obtain ⟨s, hs⟩ := Option.isSome_iff_exists.mp h
  unfold exampleEnd
  rw [hs]
  rfl

theorem example_reach : Reach (fun _ => true) exampleEnd [exampleRequest 1, exampleRequest 2] :=
  steps_reach Reach.start exampleEnd_run

theorem example_silent : ∀ c ∈ [exampleRequest 1, exampleRequest 2], SilentSenders (fun _ => true) c := by
  simp [exampleRequest, SilentSenders]

example : Idle exampleEnd ∧ exampleEnd.trace = [(10, some 1), (20, some 2), (11, some 1), (22, some 2), (12, some 1), (11, some 1), (21, some 2),
    (21, some 2), (20, some 2), (10, some 1)] := by decide +kernel
/-- `C78_complete_partial` applies to it. -/
example : exampleEnd.trace.Perm ([exampleRequest 1, exampleRequest 2].flatMap (lines none)) :=
  C78_complete_partial example_reach example_silent (by decide) (by decide +kernel)
/-- `C78_own_key_partial` applies to it: line 21 is logged in the worker that request 1 started. -/
example : ∀ key, (21, key) ∈ exampleEnd.trace → key = some 2 :=
  C78_own_key_partial example_reach example_silent 21 2 (by simp [exampleRequest, lines])

/-! ### The worker of a buffered sender -/

/-- A request with key `k` that sends a message with that key through buffered sender 0; the worker logs a line for it (such as "Pushing
message to error queue", ekosis/queues/pending_queue.py 118, when it cannot be sent). -/
def sendingRequest (k : Nat) : Code Nat := .block k true (.put 0 k (.log k .done) (.check 0 .done)) .done

def sendingRun : List (Label Nat) :=
  [.connect (sendingRequest 1), .connect (sendingRequest 2)] ++ (.next :: List.replicate 5 .exec) ++ (.next :: List.replicate 5 .exec) ++
  (.next :: List.replicate 8 .exec)

/-- **C78, refuted for buffered senders.** The worker of a buffered sender keeps the context of the request that started it and does not set
the current span key. What it logs for another request's message is logged with the key of the first: line 2 stands only in the text of the
message with key 2, nothing is raised, and it is logged with key 1. -/
theorem C78_sender_refuted : ∃ (s : St Nat) (given : List (Code Nat)), Reach (fun _ => false) s given ∧ Idle s ∧
    (∀ c ∈ given, quietCode c = true) ∧ (∀ c ∈ given, ∀ key, (2, key) ∈ lines none c → key = some 2) ∧ (2, some 1) ∈ s.trace ∧
    (2, some 2) ∉ s.trace := by
  have h : (steps (fun _ => false) ({} : St Nat) sendingRun).isSome = true := by decide +kernel
  obtain ⟨s, hs⟩ := Option.isSome_iff_exists.mp h
  have h2 : ((steps (fun _ => false) ({} : St Nat) sendingRun).getD {}).trace = [(1, some 1), (2, some 1)] := by decide +kernel
  have h3 : Idle ((steps (fun _ => false) ({} : St Nat) sendingRun).getD {}) := by decide +kernel
  rw [hs] at h2 h3
  simp only [Option.getD_some] at h2 h3
  refine ⟨s, _, steps_reach Reach.start hs, h3, by decide +kernel, ?_, by simp [h2], by simp [h2]⟩
  simp [sendingRun, givenBy, sendingRequest, lines]

/-! ## C79 -/

/-- **C79.** Functions called through `run_soon` begin in the order of the calls, each once and none left out: those that began are the
first ones called, and all of them once the loop has nothing more to run. -/
theorem C79_order {endpoint : Nat → Bool} {s : St K} {given} (h : Reach endpoint s given) :
    s.begun = List.range s.begun.length ∧ s.begun.length ≤ s.calls ∧ (s.ready = [] → s.begun = List.range s.calls) := by
  have hb := reach_begun h
  have hl := congrArg List.length hb
  simp only [List.length_append, List.length_range] at hl
  refine ⟨?_, by omega, fun hr => ?_⟩
  · have := congrArg (List.take s.begun.length) hb
    rw [List.take_left' rfl, List.take_range] at this
    rw [this]
    simp only [List.length_range]
  · rw [hr] at hb
    simpa using hb

/-- **C79.** A task made by `run_soon` or `fire_and_forget_task` is referred to by `FIRE_AND_FORGET_TASKS` from the moment it exists until it is
over, so it cannot be lost to garbage collection while it waits. -/
theorem C79_kept {endpoint : Nat → Bool} {s : St K} {given} (h : Reach endpoint s given) (t : Nat) (x : Task K)
    (hx : s.tasks[t]? = some x) (hf : x.fire = true) (ho : x.over = false) : t ∈ s.kept :=
  (reach_kept h).fire t x hx hf ho

/-- **C79.** `FIRE_AND_FORGET_TASKS` has nothing else, and does not grow: what is in it is a task made by `run_soon` or `fire_and_forget_task`
that is not over or whose callback is about to run; when nothing is left to do it is empty. -/
theorem C79_no_leak {endpoint : Nat → Bool} {s : St K} {given} (h : Reach endpoint s given) :
    (∀ t ∈ s.kept, ∃ x, s.tasks[t]? = some x ∧ x.fire = true ∧ (x.over = true → Handle.discard t ∈ s.ready)) ∧
    (Idle s → s.kept = []) := by
  refine ⟨(reach_kept h).kept, fun hi => ?_⟩
  rw [List.eq_nil_iff_forall_not_mem]
  intro t ht
  obtain ⟨x, hx, _, h2⟩ := (reach_kept h).kept t ht
  have := h2 (hi.2.2.2 x (List.mem_of_getElem? hx))
  rw [hi.2.1] at this
  cases this

/-- The calls of the case above: both were made, both began in order; halfway, the tasks are kept. -/
example : exampleEnd.begun = [0, 1] ∧ exampleEnd.calls = 2 ∧ exampleEnd.kept = [] := by decide +kernel
example : ((steps (fun _ => true) ({} : St Nat) (exampleRun.take 34)).map fun s => (s.begun, s.kept, s.ready)) = some ([0, 1], [5, 6], []) := by
  decide +kernel
example : exampleEnd.begun = List.range exampleEnd.calls := (C79_order example_reach).2.2 (by decide +kernel)

end Verif.Tasks
