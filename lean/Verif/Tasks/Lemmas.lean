import Verif.Tasks.Spec
import Mathlib.Data.List.Count
import Mathlib.Tactic.Common

/-!
# Lemmas: nothing is logged but what was asked for, with the key it belongs to
-/

set_option linter.unusedSectionVars false

namespace Verif.Tasks

variable {K : Type} [DecidableEq K]

abbrev Line (K : Type) := Nat × Option K

/-- How often `x` is still to be logged by a frame, a task, a handle, a message. -/
def Frame.left (x : Line K) (f : Frame K) : Nat := (lines f.saved f.rest).count x
def Task.left (x : Line K) (y : Task K) : Nat := (lines y.ctx y.code).count x + (y.frames.map (Frame.left x)).sum
def Handle.left (x : Line K) : Handle K → Nat
  | .call _ ctx c => (lines ctx c).count x
  | _ => 0
def itemLeft (x : Line K) (m : Nat × K × Code K) : Nat := (lines (some m.2.1) m.2.2).count x

def St.left (x : Line K) (s : St K) : Nat :=
  (s.tasks.map (Task.left x)).sum + (s.ready.map (Handle.left x)).sum + (s.queue.map (itemLeft x)).sum

theorem sum_set {α : Type} (f : α → Nat) {l : List α} {t : Nat} {a : α} (h : l[t]? = some a) (b : α) :
    ((l.set t b).map f).sum + f a = (l.map f).sum + f b := by
  induction l generalizing t with
  | nil => simp at h
  | cons c l ih =>
    cases t with
    | zero =>
      simp only [List.getElem?_cons_zero, Option.some.injEq] at h
      subst h
      simp only [List.set_cons_zero, List.map_cons, List.sum_cons]; omega
    | succ t =>
      have := ih (t := t) (by simpa using h)
      simp only [List.set_cons_succ, List.map_cons, List.sum_cons]; omega

theorem takeFirst_left (x : Line K) {w : Nat} {q q' : List (Nat × K × Code K)} {m} (h : takeFirst w q = some (m, q')) :
    (q.map (itemLeft x)).sum = (q'.map (itemLeft x)).sum + (lines (some m.1) m.2).count x := by
  induction q generalizing q' with
  | nil => simp [takeFirst] at h
  | cons a q ih =>
    obtain ⟨v, n⟩ := a
    simp only [takeFirst] at h
    split at h
    · simp only [Option.some.injEq, Prod.mk.injEq] at h
      obtain ⟨rfl, rfl⟩ := h
      simp only [List.map_cons, List.sum_cons, itemLeft]; omega
    · rw [Option.map_eq_some_iff] at h
      obtain ⟨r, hr, he⟩ := h
      simp only [Prod.mk.injEq] at he
      obtain ⟨rfl, rfl⟩ := he
      have := ih (q' := r.2) (by rw [hr])
      simp only [List.map_cons, List.sum_cons]; omega

theorem unwind_left (x : Line K) (ctx : Option K) (fs : List (Frame K)) :
    (lines (unwind ctx fs).1 (unwind ctx fs).2.1).count x + ((unwind ctx fs).2.2.map (Frame.left x)).sum ≤ (fs.map (Frame.left x)).sum := by
  induction fs generalizing ctx with
  | nil => simp [unwind, lines]
  | cons f fs ih =>
    simp only [unwind]
    split
    · simp [Frame.left]
    · have := ih f.saved
      simp only [List.map_cons, List.sum_cons]; omega

theorem create_left (x : Line K) (s : St K) (ctx : Option K) (c : Code K) (fire : Bool) : (create s ctx c fire).left x = s.left x + (lines ctx c).count x := by
  simp only [create, St.left, List.map_append, List.map_cons, List.map_nil, List.sum_append, List.sum_cons, List.sum_nil, Task.left, Handle.left]
  omega

theorem put_left (x : Line K) {s : St K} {t : Nat} {a : Task K} (h : s.tasks[t]? = some a) (b : Task K) :
    ({ s with tasks := s.tasks.set t b } : St K).left x + a.left x = s.left x + b.left x := by
  have := sum_set (Task.left x) h b
  simp only [St.left]; omega

/-! ## Conditions on all code -/

/-- A condition that holds of the parts of what it holds of. -/
structure Closed (P : Code K → Prop) : Prop where
  done : P .done
  loop : ∀ w, P (.loop w)
  log : ∀ {id r}, P (.log id r) → P r
  wait : ∀ {r}, P (.wait r) → P r
  block : ∀ {k c b r}, P (.block k c b r) → P b ∧ P r
  soon : ∀ {b r}, P (.soon b r) → P b ∧ P r
  spawn : ∀ {b r}, P (.spawn b r) → P b ∧ P r
  put : ∀ {w k b r}, P (.put w k b r) → P b ∧ P r
  check : ∀ {w r}, P (.check w r) → P r

def Task.holds (P : Code K → Prop) (x : Task K) : Prop := P x.code ∧ ∀ f ∈ x.frames, P f.rest
def Handle.holds (P : Code K → Prop) : Handle K → Prop
  | .call _ _ c => P c
  | _ => True

structure Holds (P : Code K → Prop) (s : St K) : Prop where
  tasks : ∀ x ∈ s.tasks, x.holds P
  ready : ∀ h ∈ s.ready, h.holds P
  queue : ∀ m ∈ s.queue, P m.2.2

theorem takeFirst_holds {P : Code K → Prop} {w : Nat} {q q' : List (Nat × K × Code K)} {m} (h : takeFirst w q = some (m, q'))
    (hq : ∀ m ∈ q, P m.2.2) : P m.2 ∧ ∀ m ∈ q', P m.2.2 := by
  induction q generalizing q' with
  | nil => simp [takeFirst] at h
  | cons a q ih =>
    obtain ⟨v, n⟩ := a
    simp only [List.mem_cons, forall_eq_or_imp] at hq
    simp only [takeFirst] at h
    split at h
    · simp only [Option.some.injEq, Prod.mk.injEq] at h
      obtain ⟨rfl, rfl⟩ := h
      exact hq
    · rw [Option.map_eq_some_iff] at h
      obtain ⟨r, hr, he⟩ := h
      simp only [Prod.mk.injEq] at he
      obtain ⟨rfl, rfl⟩ := he
      have := ih (q' := r.2) (by rw [hr]) hq.2
      refine ⟨this.1, ?_⟩
      simp only [List.mem_cons, forall_eq_or_imp]
      exact ⟨hq.1, this.2⟩

theorem set_all {α : Type} {P : α → Prop} {l : List α} (h : ∀ x ∈ l, P x) (t : Nat) {b : α} (hb : P b) : ∀ x ∈ l.set t b, P x := by
  intro x hx
  rcases List.mem_or_eq_of_mem_set hx with h1 | h1
  · exact h x h1
  · exact h1 ▸ hb

theorem snoc_all {α : Type} {P : α → Prop} {l : List α} (h : ∀ x ∈ l, P x) {b : α} (hb : P b) : ∀ x ∈ l ++ [b], P x := by
  intro x hx
  rcases List.mem_append.mp hx with h1 | h1
  · exact h x h1
  · exact List.mem_singleton.mp h1 ▸ hb

theorem create_holds {P : Code K → Prop} {s : St K} (h : Holds P s) (ctx : Option K) {c : Code K} (hc : P c) (fire : Bool) : Holds P (create s ctx c fire) :=
  ⟨snoc_all h.tasks ⟨hc, by simp⟩, snoc_all h.ready trivial, h.queue⟩

theorem unwind_holds {P : Code K → Prop} (hP : Closed P) (ctx : Option K) {fs : List (Frame K)} (h : ∀ f ∈ fs, P f.rest) :
    P (unwind ctx fs).2.1 ∧ ∀ f ∈ (unwind ctx fs).2.2, P f.rest := by
  induction fs generalizing ctx with
  | nil => exact ⟨hP.done, by simp [unwind]⟩
  | cons f fs ih =>
    simp only [List.mem_cons, forall_eq_or_imp] at h
    simp only [unwind]
    split
    · exact h
    · exact ih f.saved h.2

theorem exec_holds {P : Code K → Prop} (hP : Closed P) (endpoint : Nat → Bool) {s : St K} (h : Holds P s) {t : Nat} {a : Task K} (ha : s.tasks[t]? = some a) :
    Holds P (exec endpoint s t a) := by
  have hq := h.tasks a (List.mem_of_getElem? ha)
  obtain ⟨h1, h2⟩ := hq
  unfold exec
  cases hc : a.code with
  | done =>
    cases hf : a.frames with
    | nil =>
      refine ⟨set_all h.tasks t ⟨hP.done, by simp⟩, ?_, h.queue⟩
      simp only
      split
      · exact snoc_all h.ready trivial
      · exact h.ready
    | cons f fs =>
      rw [hf] at h2
      simp only [List.mem_cons, forall_eq_or_imp] at h2
      exact ⟨set_all h.tasks t h2, h.ready, h.queue⟩
  | fail =>
    have h3 := unwind_holds hP a.ctx h2
    exact ⟨set_all h.tasks t h3, h.ready, h.queue⟩
  | log id r => rw [hc] at h1; exact ⟨set_all h.tasks t ⟨hP.log h1, h2⟩, h.ready, h.queue⟩
  | wait r => rw [hc] at h1; exact ⟨set_all h.tasks t ⟨hP.wait h1, h2⟩, h.ready, h.queue⟩
  | block k catches b r =>
    rw [hc] at h1
    replace h1 := hP.block h1
    refine ⟨set_all h.tasks t ⟨h1.1, ?_⟩, h.ready, h.queue⟩
    simp only [List.mem_cons, forall_eq_or_imp]
    exact ⟨h1.2, h2⟩
  | soon b r =>
    rw [hc] at h1
    replace h1 := hP.soon h1
    exact ⟨set_all h.tasks t ⟨h1.2, h2⟩, snoc_all h.ready h1.1, h.queue⟩
  | spawn b r =>
    rw [hc] at h1
    replace h1 := hP.spawn h1
    have := create_holds (s := { s with tasks := s.tasks.set t { a with code := r } })
      ⟨set_all h.tasks t ⟨h1.2, h2⟩, h.ready, h.queue⟩ a.ctx h1.1 true
    exact ⟨this.tasks, this.ready, this.queue⟩
  | put w k b r =>
    rw [hc] at h1
    replace h1 := hP.put h1
    exact ⟨set_all h.tasks t ⟨h1.2, h2⟩, h.ready, snoc_all h.queue h1.1⟩
  | check w r =>
    rw [hc] at h1
    replace h1 := hP.check h1
    have hb : Holds P ({ s with tasks := s.tasks.set t { a with code := r } } : St K) := ⟨set_all h.tasks t ⟨h1, h2⟩, h.ready, h.queue⟩
    have hb2 := create_holds hb a.ctx (c := .loop w) (hP.loop w) false
    simp only
    split
    · split
      · exact ⟨hb2.tasks, hb2.ready, hb2.queue⟩
      · exact hb
    · exact ⟨hb2.tasks, hb2.ready, hb2.queue⟩
  | loop w =>
    cases hq : takeFirst w s.queue with
    | none => simp only [hq]; exact ⟨set_all h.tasks t ⟨hP.done, h2⟩, h.ready, h.queue⟩
    | some m =>
      obtain ⟨⟨k, b⟩, q⟩ := m
      obtain ⟨h3, h4⟩ := takeFirst_holds hq h.queue
      simp only [hq]
      split
      · refine ⟨set_all h.tasks t ⟨h3, ?_⟩, h.ready, h4⟩
        simp only [List.mem_cons, forall_eq_or_imp]
        exact ⟨hP.loop w, h2⟩
      · refine ⟨set_all h.tasks t ⟨h3, ?_⟩, h.ready, h4⟩
        simp only [List.mem_cons, forall_eq_or_imp]
        exact ⟨hP.loop w, h2⟩

theorem step_holds {P : Code K → Prop} (hP : Closed P) (endpoint : Nat → Bool) {s s' : St K} {l : Label K} (h : step endpoint s l = some s') (hq : Holds P s)
    (hl : ∀ c, l = .connect c → P c) : Holds P s' := by
  cases l with
  | next =>
    simp only [step] at h
    split at h
    · rename_i n ctx c hs hcur hr
      simp only [Option.some.injEq] at h
      subst h
      have h1 := hq.ready
      rw [hr] at h1
      simp only [List.mem_cons, forall_eq_or_imp] at h1
      have := create_holds (s := { s with ready := hs }) ⟨hq.tasks, h1.2, hq.queue⟩ ctx h1.1 true
      exact ⟨this.tasks, this.ready, this.queue⟩
    · rename_i t hs hcur hr
      simp only [Option.some.injEq] at h
      subst h
      exact ⟨hq.tasks, fun x hx => hq.ready x (hr ▸ List.mem_cons_of_mem _ hx), hq.queue⟩
    · rename_i t hs hcur hr
      simp only [Option.some.injEq] at h
      subst h
      exact ⟨hq.tasks, fun x hx => hq.ready x (hr ▸ List.mem_cons_of_mem _ hx), hq.queue⟩
    · cases h
  | exec =>
    simp only [step] at h
    split at h
    · split at h
      · rename_i a ha
        simp only [Option.some.injEq] at h
        subst h
        exact exec_holds hP endpoint hq ha
      · cases h
    · cases h
  | quit =>
    simp only [step] at h
    split at h
    · rename_i t hcur
      split at h
      · rename_i a ha
        split at h
        · simp only [Option.some.injEq] at h
          subst h
          exact ⟨set_all hq.tasks t ⟨hP.done, (hq.tasks a (List.mem_of_getElem? ha)).2⟩, hq.ready, hq.queue⟩
        · cases h
      · cases h
    · cases h
  | wake t =>
    simp only [step] at h
    split at h
    · rename_i a ha
      split at h
      · simp only [Option.some.injEq] at h
        subst h
        exact ⟨set_all hq.tasks t (hq.tasks a (List.mem_of_getElem? ha)), snoc_all hq.ready trivial, hq.queue⟩
      · cases h
    · cases h
  | connect c =>
    simp only [step, Option.some.injEq] at h
    subst h
    exact create_holds hq none (hl c rfl) false

theorem reach_holds {P : Code K → Prop} (hP : Closed P) {endpoint : Nat → Bool} {s : St K} {given} (h : Reach endpoint s given) (hg : ∀ c ∈ given, P c) : Holds P s := by
  induction h with
  | start => exact ⟨by simp, by simp, by simp⟩
  | step hr hs ih =>
    rename_i l given
    cases l with
    | connect c => exact step_holds hP endpoint hs (ih fun d hd => hg d (List.mem_append_left _ hd)) (fun d hd => by cases hd; exact hg c (by simp))
    | next => exact step_holds hP endpoint hs (ih hg) (fun d hd => by cases hd)
    | exec => exact step_holds hP endpoint hs (ih hg) (fun d hd => by cases hd)
    | quit => exact step_holds hP endpoint hs (ih hg) (fun d hd => by cases hd)
    | wake t => exact step_holds hP endpoint hs (ih hg) (fun d hd => by cases hd)

theorem quiet_closed : Closed (fun c : Code K => quietCode c = true) := by
  constructor <;> simp [quietCode]

/-! ## Buffered senders whose worker logs nothing -/

theorem lines_nil (c : Code K) (ctx ctx' : Option K) (h : lines ctx c = []) : lines ctx' c = [] := by
  induction c generalizing ctx ctx' with
  | done => rfl
  | log id r ih => simp [lines] at h
  | wait r ih => exact ih ctx ctx' h
  | fail => rfl
  | block k ca b r ihb ihr =>
    simp only [lines, List.append_eq_nil_iff] at h ⊢
    exact ⟨h.1, ihr _ _ h.2⟩
  | soon b r ihb ihr =>
    simp only [lines, List.append_eq_nil_iff] at h ⊢
    exact ⟨ihb _ _ h.1, ihr _ _ h.2⟩
  | spawn b r ihb ihr =>
    simp only [lines, List.append_eq_nil_iff] at h ⊢
    exact ⟨ihb _ _ h.1, ihr _ _ h.2⟩
  | put w k b r ihb ihr =>
    simp only [lines, List.append_eq_nil_iff] at h ⊢
    exact ⟨h.1, ihr _ _ h.2⟩
  | check w r ih => exact ih ctx ctx' h
  | loop w => rfl

theorem silent_closed (endpoint : Nat → Bool) : Closed (fun c : Code K => SilentSenders endpoint c) := by
  constructor <;> simp only [SilentSenders] <;> tauto

/-- The messages for senders log nothing. -/
def SilentQueue (endpoint : Nat → Bool) (s : St K) : Prop := ∀ m ∈ s.queue, endpoint m.1 = true ∨ ∀ ctx, lines ctx m.2.2 = []

theorem takeFirst_silent {endpoint : Nat → Bool} {w : Nat} {q q' : List (Nat × K × Code K)} {m} (h : takeFirst w q = some (m, q'))
    (hq : ∀ m ∈ q, endpoint m.1 = true ∨ ∀ ctx, lines ctx m.2.2 = []) :
    (endpoint w = true ∨ ∀ ctx, lines ctx m.2 = []) ∧ ∀ m ∈ q', endpoint m.1 = true ∨ ∀ ctx, lines ctx m.2.2 = [] := by
  induction q generalizing q' with
  | nil => simp [takeFirst] at h
  | cons a q ih =>
    obtain ⟨v, n⟩ := a
    simp only [List.mem_cons, forall_eq_or_imp] at hq
    simp only [takeFirst] at h
    split at h
    · rename_i e
      simp only [Option.some.injEq, Prod.mk.injEq] at h
      obtain ⟨rfl, rfl⟩ := h
      exact ⟨e ▸ hq.1, hq.2⟩
    · rw [Option.map_eq_some_iff] at h
      obtain ⟨r, hr, he⟩ := h
      simp only [Prod.mk.injEq] at he
      obtain ⟨rfl, rfl⟩ := he
      have := ih (q' := r.2) (by rw [hr]) hq.2
      refine ⟨this.1, ?_⟩
      simp only [List.mem_cons, forall_eq_or_imp]
      exact ⟨hq.1, this.2⟩

theorem exec_queue (endpoint : Nat → Bool) {s : St K} (h : SilentQueue endpoint s) (hs : Holds (SilentSenders endpoint) s) {t : Nat} {a : Task K}
    (ha : s.tasks[t]? = some a) : SilentQueue endpoint (exec endpoint s t a) := by
  have h1 := (hs.tasks a (List.mem_of_getElem? ha)).1
  unfold exec
  cases hc : a.code with
  | done => cases hf : a.frames <;> exact h
  | put w k b r =>
    rw [hc] at h1
    simp only [SilentSenders] at h1
    refine snoc_all h ?_
    exact h1.1.imp id fun h2 ctx => lines_nil b _ _ h2
  | check w r =>
    simp only
    split
    · split <;> exact h
    · exact h
  | loop w =>
    cases hq : takeFirst w s.queue with
    | none => simp only [hq]; exact h
    | some m =>
      have := (takeFirst_silent hq h).2
      simp only [hq]
      split <;> exact this
  | log id r => exact h
  | wait r => exact h
  | fail => exact h
  | block k catches b r => exact h
  | soon b r => exact h
  | spawn b r => exact h

theorem reach_queue {endpoint : Nat → Bool} {s : St K} {given} (h : Reach endpoint s given) (hg : ∀ c ∈ given, SilentSenders endpoint c) :
    SilentQueue endpoint s := by
  induction h with
  | start => simp [SilentQueue]
  | step hr hs ih =>
    rename_i s0 s1 l given
    have hg' : ∀ c ∈ given, SilentSenders endpoint c := by
      cases l with
      | connect c => exact fun d hd => hg d (List.mem_append_left _ hd)
      | next => exact hg
      | exec => exact hg
      | quit => exact hg
      | wake t => exact hg
    have ih := ih hg'
    have hh := reach_holds (silent_closed endpoint) hr hg'
    cases l with
    | exec =>
      simp only [step] at hs
      split at hs
      · split at hs
        · rename_i a ha
          simp only [Option.some.injEq] at hs
          subst hs
          exact exec_queue endpoint ih hh ha
        · cases hs
      · cases hs
    | next =>
      simp only [step] at hs
      split at hs <;> first | (simp only [Option.some.injEq] at hs; subst hs; exact ih) | cases hs
    | quit =>
      simp only [step] at hs
      split at hs
      · split at hs
        · split at hs
          · simp only [Option.some.injEq] at hs
            subst hs
            exact ih
          · cases hs
        · cases hs
      · cases hs
    | wake t =>
      simp only [step] at hs
      split at hs
      · split at hs
        · simp only [Option.some.injEq] at hs
          subst hs
          exact ih
        · cases hs
      · cases hs
    | connect c =>
      simp only [step, Option.some.injEq] at hs
      subst hs
      exact ih

/-! ## What is to come -/

/-- Everything to come. -/
def St.amount (x : Line K) (s : St K) : Nat := s.trace.count x + s.left x

theorem exec_amount (endpoint : Nat → Bool) {s : St K} (he : SilentQueue endpoint s) {t : Nat} {a : Task K} (h : s.tasks[t]? = some a)
    (x : Line K) : (exec endpoint s t a).amount x ≤ s.amount x ∧ (a.code ≠ .fail → (exec endpoint s t a).amount x = s.amount x) := by
  have hp := fun b => put_left x h b
  unfold exec
  cases hc : a.code with
  | done =>
    cases hf : a.frames with
    | nil =>
      have := hp { a with over := true }
      have e : Task.left x { a with over := true } = Task.left x a := rfl
      simp only [hc, hf] at this e
      simp only [St.amount]
      refine ⟨?_, fun _ => ?_⟩ <;> simp only [St.left] at this ⊢ <;> split <;>
        (try simp only [List.map_append, List.map_cons, List.map_nil, List.sum_append, List.sum_cons, List.sum_nil, Handle.left]) <;> omega
    | cons f fs =>
      have := hp { a with ctx := f.saved, code := f.rest, frames := fs }
      simp only [Task.left, hc, hf, lines, List.count_nil, List.map_cons, List.sum_cons, Frame.left] at this
      simp only [St.amount]
      refine ⟨?_, fun _ => ?_⟩ <;> omega
  | log id r =>
    have := hp { a with code := r }
    simp only [Task.left, hc, lines, List.count_cons] at this
    simp only [St.amount, St.left, List.count_append, List.count_cons, List.count_nil] at this ⊢
    refine ⟨?_, fun _ => ?_⟩ <;> omega
  | wait r =>
    have := hp { a with code := r, waiting := true }
    simp only [Task.left, hc, lines] at this
    simp only [St.amount, St.left] at this ⊢
    refine ⟨?_, fun _ => ?_⟩ <;> omega
  | fail =>
    have := hp { a with ctx := (unwind a.ctx a.frames).1, code := (unwind a.ctx a.frames).2.1, frames := (unwind a.ctx a.frames).2.2 }
    have h2 := unwind_left x a.ctx a.frames
    simp only [Task.left, hc, lines, List.count_nil] at this
    simp only [St.amount]
    exact ⟨by omega, fun h => absurd rfl h⟩
  | block k catches b r =>
    have := hp { a with ctx := some k, code := b, frames := ⟨a.ctx, catches, r⟩ :: a.frames }
    simp only [Task.left, hc, lines, List.count_append, List.map_cons, List.sum_cons, Frame.left] at this
    simp only [St.amount]
    refine ⟨?_, fun _ => ?_⟩ <;> omega
  | soon b r =>
    have := hp { a with code := r }
    simp only [Task.left, hc, lines, List.count_append] at this
    simp only [St.amount, St.left, List.map_append, List.map_cons, List.map_nil, List.sum_append, List.sum_cons, List.sum_nil, Handle.left] at this ⊢
    refine ⟨?_, fun _ => ?_⟩ <;> omega
  | spawn b r =>
    have := hp { a with code := r }
    simp only [Task.left, hc, lines, List.count_append] at this
    have h2 := create_left x ({ s with tasks := s.tasks.set t { a with code := r } } : St K) a.ctx b true
    simp only [St.amount]
    simp only [St.left, create] at this h2 ⊢
    refine ⟨?_, fun _ => ?_⟩ <;> omega
  | put w k b r =>
    have := hp { a with code := r }
    simp only [Task.left, hc, lines, List.count_append] at this
    simp only [St.amount, St.left, List.map_append, List.map_cons, List.map_nil, List.sum_append, List.sum_cons, List.sum_nil, itemLeft] at this ⊢
    refine ⟨?_, fun _ => ?_⟩ <;> omega
  | check w r =>
    have := hp { a with code := r }
    simp only [Task.left, hc, lines] at this
    have h2 := create_left x ({ s with tasks := s.tasks.set t { a with code := r } } : St K) a.ctx (.loop w) false
    simp only [lines, List.count_nil] at h2
    simp only [St.amount]
    refine ⟨?_, fun _ => ?_⟩ <;> (split <;> (try split)) <;> simp only [St.left, create] at this h2 ⊢ <;> omega
  | loop w =>
    cases hq : takeFirst w s.queue with
    | none =>
      have := hp { a with code := .done }
      simp only [Task.left, hc, lines] at this
      simp only [hq, St.amount]
      refine ⟨?_, fun _ => ?_⟩ <;> omega
    | some m =>
      obtain ⟨⟨k, b⟩, q⟩ := m
      have h1 := takeFirst_left x hq
      simp only at h1
      simp only [hq]
      split
      · have := hp { a with ctx := some k, code := b, frames := ⟨a.ctx, false, .loop w⟩ :: a.frames }
        simp only [Task.left, hc, lines, List.count_nil, List.map_cons, List.sum_cons, Frame.left] at this
        simp only [St.amount]
        simp only [St.left] at this ⊢
        refine ⟨?_, fun _ => ?_⟩ <;> omega
      · rename_i hw
        have h2 := (takeFirst_silent hq he).1.resolve_left hw
        have := hp { a with code := b, frames := ⟨a.ctx, true, .loop w⟩ :: a.frames }
        simp only [Task.left, hc, lines, h2, List.count_nil, List.map_cons, List.sum_cons, Frame.left] at this
        simp only [h2, List.count_nil] at h1
        simp only [St.amount]
        simp only [St.left] at this ⊢
        refine ⟨?_, fun _ => ?_⟩ <;> omega

/-- How often `x` is among the lines of the code given from outside. -/
def asked (x : Line K) (given : List (Code K)) : Nat := (given.map fun c => (lines none c).count x).sum

theorem step_amount (endpoint : Nat → Bool) {s s' : St K} (he : SilentQueue endpoint s) {l : Label K} (h : step endpoint s l = some s')
    (x : Line K) :
    s'.amount x ≤ s.amount x + (match l with | .connect c => (lines none c).count x | _ => 0) ∧
    ((∀ t a, s.current = some t → s.tasks[t]? = some a → a.code ≠ .fail) →
      s'.amount x = s.amount x + (match l with | .connect c => (lines none c).count x | _ => 0)) := by
  cases l with
  | next =>
    simp only [step] at h
    split at h
    · rename_i n ctx c hs hcur hr
      simp only [Option.some.injEq] at h
      subst h
      have := create_left x ({ s with ready := hs } : St K) ctx c true
      simp only [St.amount]
      simp only [St.left, create, hr, List.map_cons, List.sum_cons, Handle.left] at this ⊢
      refine ⟨?_, fun _ => ?_⟩ <;> omega
    · rename_i t hs hcur hr
      simp only [Option.some.injEq] at h
      subst h
      simp only [St.amount, St.left, hr, List.map_cons, List.sum_cons, Handle.left]
      refine ⟨?_, fun _ => ?_⟩ <;> omega
    · rename_i t hs hcur hr
      simp only [Option.some.injEq] at h
      subst h
      simp only [St.amount, St.left, hr, List.map_cons, List.sum_cons, Handle.left]
      refine ⟨?_, fun _ => ?_⟩ <;> omega
    · cases h
  | exec =>
    simp only [step] at h
    split at h
    · rename_i t hcur
      split at h
      · rename_i a ha
        simp only [Option.some.injEq] at h
        subst h
        have := exec_amount endpoint he ha x
        exact ⟨by simpa using this.1, fun hf => by simpa using this.2 (hf t a hcur ha)⟩
      · cases h
    · cases h
  | quit =>
    simp only [step] at h
    split at h
    · rename_i t hcur
      split at h
      · rename_i a ha
        split at h
        · rename_i w hw
          simp only [Option.some.injEq] at h
          subst h
          have := put_left x ha { a with code := .done }
          simp only [Task.left, hw, lines] at this
          simp only [St.amount]
          refine ⟨?_, fun _ => ?_⟩ <;> omega
        · cases h
      · cases h
    · cases h
  | wake t =>
    simp only [step] at h
    split at h
    · rename_i a ha
      split at h
      · simp only [Option.some.injEq] at h
        subst h
        have := put_left x ha { a with waiting := false }
        have e : Task.left x { a with waiting := false } = Task.left x a := rfl
        simp only [St.amount]
        simp only [St.left, List.map_append, List.map_cons, List.map_nil, List.sum_append, List.sum_cons, List.sum_nil, Handle.left] at this ⊢
        refine ⟨?_, fun _ => ?_⟩ <;> omega
      · cases h
    · cases h
  | connect c =>
    simp only [step, Option.some.injEq] at h
    subst h
    have := create_left x s none c false
    simp only [St.amount]
    simp only [create] at this ⊢
    refine ⟨?_, fun _ => ?_⟩ <;> omega

theorem reach_amount {endpoint : Nat → Bool} {s : St K} {given} (h : Reach endpoint s given)
    (hg : ∀ c ∈ given, SilentSenders endpoint c) (x : Line K) :
    s.amount x ≤ asked x given ∧ ((∀ c ∈ given, quietCode c = true) → s.amount x = asked x given) := by
  induction h with
  | start => simp [St.amount, St.left, asked]
  | step hr hs ih =>
    rename_i s0 s1 l given
    have hg' : ∀ P : Code K → Prop, (∀ c ∈ (match l with | .connect c => given ++ [c] | _ => given), P c) → ∀ c ∈ given, P c := by
      intro P hP
      cases l with
      | connect c => exact fun d hd => hP d (List.mem_append_left _ hd)
      | next => exact hP
      | exec => exact hP
      | quit => exact hP
      | wake t => exact hP
    have ih := ih (hg' _ hg)
    have hst := step_amount endpoint (reach_queue hr (hg' _ hg)) hs x
    constructor
    · have ih := ih.1
      have this := hst.1
      cases l <;> simp only [asked, List.map_append, List.map_cons, List.map_nil, List.sum_append, List.sum_cons, List.sum_nil] at ih this ⊢ <;> omega
    · intro hq
      have hh := reach_holds quiet_closed hr (hg' _ hq)
      have ih := ih.2 (hg' _ hq)
      have this := hst.2 (fun t a _ ha hf => by
        have := (hh.tasks a (List.mem_of_getElem? ha)).1
        rw [hf] at this
        cases this)
      cases l <;> simp only [asked, List.map_append, List.map_cons, List.map_nil, List.sum_append, List.sum_cons, List.sum_nil] at ih this ⊢ <;> omega

/-! ## The order of `run_soon` -/

def callNo : Handle K → Option Nat
  | .call n _ _ => some n
  | _ => none

theorem exec_begun (endpoint : Nat → Bool) (s : St K) (t : Nat) (a : Task K) (h : s.begun ++ s.ready.filterMap callNo = List.range s.calls) :
    (exec endpoint s t a).begun ++ (exec endpoint s t a).ready.filterMap callNo = List.range (exec endpoint s t a).calls := by
  unfold exec
  cases hc : a.code with
  | done =>
    cases hf : a.frames with
    | nil =>
      simp only
      split
      · simpa [List.filterMap_append, List.filterMap_cons, List.filterMap_nil, callNo] using h
      · exact h
    | cons f fs => exact h
  | soon b r =>
    simp only [List.filterMap_append, List.filterMap_cons, List.filterMap_nil, callNo, List.range_succ, ← h, List.append_assoc]
  | spawn b r => simpa [create, List.filterMap_append, List.filterMap_cons, List.filterMap_nil, callNo] using h
  | check w r =>
    simp only
    split
    · split
      · simpa [create, List.filterMap_append, List.filterMap_cons, List.filterMap_nil, callNo] using h
      · exact h
    · simpa [create, List.filterMap_append, List.filterMap_cons, List.filterMap_nil, callNo] using h
  | loop w =>
    cases hq : takeFirst w s.queue with
    | none => simp only [hq]; exact h
    | some m =>
      simp only [hq]
      split <;> exact h
  | log id r => exact h
  | wait r => exact h
  | fail => exact h
  | block k catches b r => exact h
  | put w k b r => exact h

theorem reach_begun {endpoint : Nat → Bool} {s : St K} {given} (h : Reach endpoint s given) :
    s.begun ++ s.ready.filterMap callNo = List.range s.calls := by
  induction h with
  | start => simp
  | step hr hs ih =>
    rename_i s0 s1 l given
    cases l with
    | next =>
      simp only [step] at hs
      split at hs
      · rename_i n ctx c hs' hcur hr
        simp only [Option.some.injEq] at hs
        subst hs
        rw [hr] at ih
        simpa [create, List.filterMap_append, List.filterMap_cons, List.filterMap_nil, callNo] using ih
      · rename_i t hs' hcur hr
        simp only [Option.some.injEq] at hs
        subst hs
        rw [hr] at ih
        simpa [List.filterMap_cons, callNo] using ih
      · rename_i t hs' hcur hr
        simp only [Option.some.injEq] at hs
        subst hs
        rw [hr] at ih
        simpa [List.filterMap_cons, callNo] using ih
      · cases hs
    | exec =>
      simp only [step] at hs
      split at hs
      · split at hs
        · simp only [Option.some.injEq] at hs
          subst hs
          exact exec_begun endpoint _ _ _ ih
        · cases hs
      · cases hs
    | quit =>
      simp only [step] at hs
      split at hs
      · split at hs
        · split at hs
          · simp only [Option.some.injEq] at hs
            subst hs
            exact ih
          · cases hs
        · cases hs
      · cases hs
    | wake t =>
      simp only [step] at hs
      split at hs
      · split at hs
        · simp only [Option.some.injEq] at hs
          subst hs
          simpa [List.filterMap_append, List.filterMap_cons, List.filterMap_nil, callNo] using ih
        · cases hs
      · cases hs
    | connect c =>
      simp only [step, Option.some.injEq] at hs
      subst hs
      simpa [create, List.filterMap_append, List.filterMap_cons, List.filterMap_nil, callNo] using ih

/-! ## `FIRE_AND_FORGET_TASKS` -/

structure Kept (s : St K) : Prop where
  /-- what is kept is a fire-and-forget task, and is not over, or its callback is about to run -/
  kept : ∀ t ∈ s.kept, ∃ x, s.tasks[t]? = some x ∧ x.fire = true ∧ (x.over = true → Handle.discard t ∈ s.ready)
  /-- a callback that is about to run belongs to a task that is over -/
  discard : ∀ t, Handle.discard t ∈ s.ready → ∃ x, s.tasks[t]? = some x ∧ x.over = true
  /-- a fire-and-forget task that is not over is kept -/
  fire : ∀ t x, s.tasks[t]? = some x → x.fire = true → x.over = false → t ∈ s.kept

/-- The running task is changed, but neither ends nor was over; other handles than callbacks may come. -/
theorem put_kept {s : St K} (h : Kept s) {t : Nat} {a b : Task K} (ha : s.tasks[t]? = some a)
    {s' : St K} (h1 : s'.tasks = s.tasks.set t b) (hf : b.fire = a.fire) (ho : b.over = a.over) (h2 : s'.kept = s.kept)
    (h3 : ∀ u, Handle.discard u ∈ s'.ready ↔ Handle.discard u ∈ s.ready) :
    Kept s' := by
  have hlt : t < s.tasks.length := by
    rcases Nat.lt_or_ge t s.tasks.length with h | h
    · exact h
    · rw [List.getElem?_eq_none h] at ha; cases ha
  refine ⟨?_, ?_, ?_⟩
  · intro u hu
    rw [h2] at hu
    obtain ⟨x, hx, h4, h5⟩ := h.kept u hu
    by_cases e : u = t
    · subst e
      rw [ha] at hx
      cases hx
      exact ⟨b, by rw [h1, List.getElem?_set_self hlt], by rw [hf, h4], fun h6 => (h3 u).mpr (h5 (by rw [← ho, h6]))⟩
    · exact ⟨x, by rw [h1, List.getElem?_set_ne (Ne.symm e), hx], h4, fun h6 => (h3 u).mpr (h5 h6)⟩
  · intro u hu
    obtain ⟨x, hx, h4⟩ := h.discard u ((h3 u).mp hu)
    by_cases e : u = t
    · subst e
      rw [ha] at hx
      cases hx
      exact ⟨b, by rw [h1, List.getElem?_set_self hlt], by rw [ho, h4]⟩
    · exact ⟨x, by rw [h1, List.getElem?_set_ne (Ne.symm e), hx], h4⟩
  · intro u x hx h4 h5
    rw [h2]
    by_cases e : u = t
    · subst e
      rw [h1, List.getElem?_set_self hlt] at hx
      cases hx
      exact h.fire u a ha (by rw [← hf, h4]) (by rw [← ho, h5])
    · rw [h1, List.getElem?_set_ne (Ne.symm e)] at hx
      exact h.fire u x hx h4 h5

/-- A task that is not kept is created. -/
theorem create_kept {s : St K} (h : Kept s) (ctx : Option K) (c : Code K) : Kept (create s ctx c false) := by
  have lt : ∀ {t : Nat} {x : Task K}, s.tasks[t]? = some x → (s.tasks ++ [({ ctx := ctx, code := c, fire := false } : Task K)])[t]? = some x := by
    intro t x hx
    rw [List.getElem?_append_left, hx]
    rcases Nat.lt_or_ge t s.tasks.length with h | h
    · exact h
    · rw [List.getElem?_eq_none h] at hx; cases hx
  refine ⟨?_, ?_, ?_⟩
  · intro t ht
    obtain ⟨x, hx, h1, h2⟩ := h.kept t ht
    exact ⟨x, lt hx, h1, fun h3 => List.mem_append_left _ (h2 h3)⟩
  · intro t ht
    simp only [create, List.mem_append, List.mem_singleton, reduceCtorEq, or_false] at ht
    obtain ⟨x, hx, h1⟩ := h.discard t ht
    exact ⟨x, lt hx, h1⟩
  · intro t x hx h1 h2
    simp only [create] at hx ⊢
    rcases Nat.lt_or_ge t s.tasks.length with hl | hl
    · rw [List.getElem?_append_left hl] at hx
      exact h.fire t x hx h1 h2
    · rw [List.getElem?_append_right hl] at hx
      cases ht : t - s.tasks.length with
      | zero => rw [ht] at hx; simp only [List.getElem?_cons_zero, Option.some.injEq] at hx; subst hx; cases h1
      | succ n => rw [ht] at hx; simp at hx

/-- A task that is kept is created. -/
theorem create_fire_kept {s : St K} (h : Kept s) (ctx : Option K) (c : Code K) {s' : St K}
    (h1 : s'.tasks = (create s ctx c true).tasks) (h2 : s'.ready = (create s ctx c true).ready) (h3 : s'.kept = s.kept ++ [s.tasks.length]) :
    Kept s' := by
  have lt : ∀ {t : Nat} {x : Task K}, s.tasks[t]? = some x → (s.tasks ++ [({ ctx := ctx, code := c, fire := true } : Task K)])[t]? = some x := by
    intro t x hx
    rw [List.getElem?_append_left, hx]
    rcases Nat.lt_or_ge t s.tasks.length with h | h
    · exact h
    · rw [List.getElem?_eq_none h] at hx; cases hx
  simp only [create] at h1 h2
  refine ⟨?_, ?_, ?_⟩
  · intro t ht
    rw [h3] at ht
    rcases List.mem_append.mp ht with ht | ht
    · obtain ⟨x, hx, h4, h5⟩ := h.kept t ht
      exact ⟨x, by rw [h1]; exact lt hx, h4, fun h6 => by rw [h2]; exact List.mem_append_left _ (h5 h6)⟩
    · rw [List.mem_singleton] at ht
      subst ht
      exact ⟨{ ctx := ctx, code := c, fire := true }, by rw [h1]; simp, rfl, fun h => by cases h⟩
  · intro t ht
    rw [h2] at ht
    simp only [List.mem_append, List.mem_singleton, reduceCtorEq, or_false] at ht
    obtain ⟨x, hx, h4⟩ := h.discard t ht
    exact ⟨x, by rw [h1]; exact lt hx, h4⟩
  · intro t x hx h4 h5
    rw [h1] at hx
    rw [h3]
    rcases Nat.lt_or_ge t s.tasks.length with hl | hl
    · rw [List.getElem?_append_left hl] at hx
      exact List.mem_append_left _ (h.fire t x hx h4 h5)
    · rw [List.getElem?_append_right hl] at hx
      cases ht : t - s.tasks.length with
      | zero => exact List.mem_append_right _ (List.mem_singleton.mpr (by omega))
      | succ n => rw [ht] at hx; simp at hx

theorem exec_kept (endpoint : Nat → Bool) {s : St K} (h : Kept s) {t : Nat} {a : Task K} (ha : s.tasks[t]? = some a) :
    Kept (exec endpoint s t a) := by
  have hlt : t < s.tasks.length := by
    rcases Nat.lt_or_ge t s.tasks.length with h | h
    · exact h
    · rw [List.getElem?_eq_none h] at ha; cases ha
  unfold exec
  cases hc : a.code with
  | done =>
    cases hf : a.frames with
    | nil =>
      simp only
      refine ⟨?_, ?_, ?_⟩
      · intro u hu
        simp only at hu ⊢
        obtain ⟨x, hx, h1, h2⟩ := h.kept u hu
        by_cases e : u = t
        · subst e
          rw [ha] at hx
          cases hx
          refine ⟨_, List.getElem?_set_self hlt, h1, fun _ => ?_⟩
          simp only [hu, if_true]
          simp
        · refine ⟨x, by rw [List.getElem?_set_ne (Ne.symm e), hx], h1, fun h3 => ?_⟩
          split
          · exact List.mem_append_left _ (h2 h3)
          · exact h2 h3
      · intro u hu
        simp only at hu ⊢
        by_cases e : u = t
        · subst e
          exact ⟨_, List.getElem?_set_self hlt, rfl⟩
        · have : Handle.discard u ∈ s.ready := by
            split at hu
            · simp only [List.mem_append, List.mem_singleton, Handle.discard.injEq, e, or_false] at hu
              exact hu
            · exact hu
          obtain ⟨x, hx, h1⟩ := h.discard u this
          exact ⟨x, by rw [List.getElem?_set_ne (Ne.symm e), hx], h1⟩
      · intro u x hx h1 h2
        simp only at hx ⊢
        by_cases e : u = t
        · subst e
          rw [List.getElem?_set_self hlt] at hx
          cases hx
          cases h2
        · rw [List.getElem?_set_ne (Ne.symm e)] at hx
          exact h.fire u x hx h1 h2
    | cons f fs => exact put_kept h ha rfl rfl rfl rfl (fun _ => Iff.rfl)
  | log id r => exact put_kept h ha rfl rfl rfl rfl (fun _ => Iff.rfl)
  | wait r => exact put_kept h ha rfl rfl rfl rfl (fun _ => Iff.rfl)
  | fail => exact put_kept h ha rfl rfl rfl rfl (fun _ => Iff.rfl)
  | block k catches b r => exact put_kept h ha rfl rfl rfl rfl (fun _ => Iff.rfl)
  | put w k b r => exact put_kept h ha rfl rfl rfl rfl (fun _ => Iff.rfl)
  | soon b r => exact put_kept h ha rfl rfl rfl rfl (fun _ => by simp)
  | spawn b r =>
    have h1 : Kept ({ s with tasks := s.tasks.set t { a with code := r } } : St K) := put_kept h ha rfl rfl rfl rfl (fun _ => Iff.rfl)
    exact create_fire_kept h1 a.ctx b rfl rfl (by simp)
  | check w r =>
    have h1 : Kept ({ s with tasks := s.tasks.set t { a with code := r } } : St K) := put_kept h ha rfl rfl rfl rfl (fun _ => Iff.rfl)
    have h2 := create_kept h1 a.ctx (.loop w)
    simp only
    split
    · split
      · exact ⟨h2.kept, h2.discard, h2.fire⟩
      · exact h1
    · exact ⟨h2.kept, h2.discard, h2.fire⟩
  | loop w =>
    cases hq : takeFirst w s.queue with
    | none => simp only [hq]; exact put_kept h ha rfl rfl rfl rfl (fun _ => Iff.rfl)
    | some m =>
      simp only [hq]
      split <;> exact put_kept h ha rfl rfl rfl rfl (fun _ => Iff.rfl)

theorem reach_kept {endpoint : Nat → Bool} {s : St K} {given} (h : Reach endpoint s given) : Kept s := by
  induction h with
  | start => exact ⟨by simp, by simp, by simp⟩
  | step hr hs ih =>
    rename_i s0 s1 l given
    cases l with
    | next =>
      simp only [step] at hs
      split at hs
      · rename_i n ctx c hs' hcur hr
        simp only [Option.some.injEq] at hs
        subst hs
        have h1 : Kept ({ s0 with ready := hs' } : St K) := by
          refine ⟨?_, ?_, ih.fire⟩
          · intro t ht
            obtain ⟨x, hx, h4, h5⟩ := ih.kept t ht
            refine ⟨x, hx, h4, fun h6 => ?_⟩
            have := h5 h6
            rw [hr] at this
            simpa using this
          · intro t ht
            exact ih.discard t (by rw [hr]; exact List.mem_cons_of_mem _ ht)
        exact create_fire_kept h1 ctx c rfl rfl rfl
      · rename_i t hs' hcur hr
        simp only [Option.some.injEq] at hs
        subst hs
        refine ⟨?_, ?_, ih.fire⟩
        · intro t ht
          obtain ⟨x, hx, h4, h5⟩ := ih.kept t ht
          refine ⟨x, hx, h4, fun h6 => ?_⟩
          have := h5 h6
          rw [hr] at this
          simpa using this
        · intro t ht
          exact ih.discard t (by rw [hr]; exact List.mem_cons_of_mem _ ht)
      · rename_i t hs' hcur hr
        simp only [Option.some.injEq] at hs
        subst hs
        refine ⟨?_, ?_, ?_⟩
        · intro u hu
          simp only [List.mem_filter, ne_eq, decide_not, Bool.not_eq_eq_eq_not, Bool.not_true, decide_eq_false_iff_not] at hu
          obtain ⟨x, hx, h4, h5⟩ := ih.kept u hu.1
          refine ⟨x, hx, h4, fun h6 => ?_⟩
          have := h5 h6
          rw [hr] at this
          simp only [List.mem_cons, Handle.discard.injEq, hu.2, false_or] at this
          exact this
        · intro u hu
          exact ih.discard u (by rw [hr]; exact List.mem_cons_of_mem _ hu)
        · intro u x hx h4 h5
          have := ih.fire u x hx h4 h5
          simp only [List.mem_filter, ne_eq, decide_not, Bool.not_eq_eq_eq_not, Bool.not_true, decide_eq_false_iff_not]
          refine ⟨this, fun e => ?_⟩
          subst e
          obtain ⟨y, hy, h6⟩ := ih.discard u (by rw [hr]; simp)
          rw [hx] at hy
          cases hy
          rw [h5] at h6
          cases h6
      · cases hs
    | exec =>
      simp only [step] at hs
      split at hs
      · split at hs
        · rename_i a ha
          simp only [Option.some.injEq] at hs
          subst hs
          exact exec_kept endpoint ih ha
        · cases hs
      · cases hs
    | quit =>
      simp only [step] at hs
      split at hs
      · split at hs
        · rename_i a ha
          split at hs
          · simp only [Option.some.injEq] at hs
            subst hs
            exact put_kept ih ha rfl rfl rfl rfl (fun _ => Iff.rfl)
          · cases hs
        · cases hs
      · cases hs
    | wake t =>
      simp only [step] at hs
      split at hs
      · rename_i a ha
        split at hs
        · simp only [Option.some.injEq] at hs
          subst hs
          exact put_kept ih ha rfl rfl rfl rfl (fun _ => by simp)
        · cases hs
      · cases hs
    | connect c =>
      simp only [step, Option.some.injEq] at hs
      subst hs
      exact create_kept ih none c

/-! ## Tasks that are over -/

def Task.ended (x : Task K) : Prop := x.over = true → x.code = .done ∧ x.frames = []

theorem exec_ended (endpoint : Nat → Bool) {s : St K} (h : ∀ x ∈ s.tasks, x.ended) {t : Nat} {a : Task K} (ha : s.tasks[t]? = some a) :
    ∀ x ∈ (exec endpoint s t a).tasks, x.ended := by
  have h1 := h a (List.mem_of_getElem? ha)
  have no : a.code ≠ .done → a.over ≠ true := fun h2 h3 => h2 (h1 h3).1
  unfold exec
  cases hc : a.code with
  | done =>
    cases hf : a.frames with
    | nil => exact set_all h t fun _ => ⟨by simp, by simp⟩
    | cons f fs =>
      refine set_all h t fun h2 => ?_
      have := (h1 h2).2
      rw [hf] at this
      cases this
  | log id r => exact set_all h t fun h2 => absurd h2 (no (by simp [hc]))
  | wait r => exact set_all h t fun h2 => absurd h2 (no (by simp [hc]))
  | fail => exact set_all h t fun h2 => absurd h2 (no (by simp [hc]))
  | block k catches b r => exact set_all h t fun h2 => absurd h2 (no (by simp [hc]))
  | put w k b r => exact set_all h t fun h2 => absurd h2 (no (by simp [hc]))
  | soon b r => exact set_all h t fun h2 => absurd h2 (no (by simp [hc]))
  | spawn b r =>
    have h3 : ∀ x ∈ s.tasks.set t { a with code := r }, x.ended := set_all h t fun h2 => absurd h2 (no (by simp [hc]))
    exact snoc_all h3 (fun h2 => by cases h2)
  | check w r =>
    have h3 : ∀ x ∈ s.tasks.set t { a with code := r }, x.ended := set_all h t fun h2 => absurd h2 (no (by simp [hc]))
    simp only
    split
    · split
      · exact snoc_all h3 (fun h2 => by cases h2)
      · exact h3
    · exact snoc_all h3 (fun h2 => by cases h2)
  | loop w =>
    cases hq : takeFirst w s.queue with
    | none => simp only [hq]; exact set_all h t fun h2 => absurd h2 (no (by simp [hc]))
    | some m =>
      simp only [hq]
      split <;> exact set_all h t fun h2 => absurd h2 (no (by simp [hc]))

theorem reach_ended {endpoint : Nat → Bool} {s : St K} {given} (h : Reach endpoint s given) : ∀ x ∈ s.tasks, x.ended := by
  induction h with
  | start => simp
  | step hr hs ih =>
    rename_i s0 s1 l given
    cases l with
    | exec =>
      simp only [step] at hs
      split at hs
      · split at hs
        · rename_i a ha
          simp only [Option.some.injEq] at hs
          subst hs
          exact exec_ended endpoint ih ha
        · cases hs
      · cases hs
    | next =>
      simp only [step] at hs
      split at hs
      · simp only [Option.some.injEq] at hs
        subst hs
        exact snoc_all ih (fun h2 => by cases h2)
      · simp only [Option.some.injEq] at hs
        subst hs
        exact ih
      · simp only [Option.some.injEq] at hs
        subst hs
        exact ih
      · cases hs
    | quit =>
      simp only [step] at hs
      split at hs
      · rename_i t hcur
        split at hs
        · rename_i a ha
          split at hs
          · rename_i w hw
            simp only [Option.some.injEq] at hs
            subst hs
            refine set_all ih t fun h2 => ?_
            have := (ih a (List.mem_of_getElem? ha) h2).1
            rw [hw] at this
            cases this
          · cases hs
        · cases hs
      · cases hs
    | wake t =>
      simp only [step] at hs
      split at hs
      · rename_i a ha
        split at hs
        · simp only [Option.some.injEq] at hs
          subst hs
          exact set_all ih t fun h2 => ih a (List.mem_of_getElem? ha) h2
        · cases hs
      · cases hs
    | connect c =>
      simp only [step, Option.some.injEq] at hs
      subst hs
      exact snoc_all ih (fun h2 => by cases h2)

theorem sum_zero {α : Type} (f : α → Nat) {l : List α} (h : ∀ x ∈ l, f x = 0) : (l.map f).sum = 0 := by
  induction l with
  | nil => rfl
  | cons a l ih =>
    simp only [List.mem_cons, forall_eq_or_imp] at h
    simp only [List.map_cons, List.sum_cons, h.1, ih h.2]

/-! ## Runs -/

/-- What a run of labels was given. -/
def givenBy : List (Label K) → List (Code K)
  | [] => []
  | .connect c :: ls => c :: givenBy ls
  | _ :: ls => givenBy ls

theorem steps_reach {endpoint : Nat → Bool} {s s' : St K} {given} (hr : Reach endpoint s given) {ls : List (Label K)}
    (h : steps endpoint s ls = some s') : Reach endpoint s' (given ++ givenBy ls) := by
  induction ls generalizing s given with
  | nil =>
    simp only [steps, Option.some.injEq] at h
    subst h
    simpa [givenBy] using hr
  | cons l ls ih =>
    simp only [steps] at h
    cases hs : step endpoint s l with
    | none => simp [hs] at h
    | some s1 =>
      simp only [hs] at h
      have := ih (Reach.step hr hs) h
      cases l <;> simpa [givenBy] using this

end Verif.Tasks
