import Mathlib.Data.List.Perm.Basic
import Mathlib.Data.List.Nodup
import Mathlib.Data.List.Induction
import Verif.Py.DictLemmas
import Verif.Traces.Spec

/-!
# Lemmas about the tracing model
-/

namespace Verif.Traces

open Verif.Py Verif.Span

section DictPerm

variable {K V : Type} [DecidableEq K]

theorem set_perm (d : Dict K V) (k : K) (v : V) : (Dict.set d k v).Perm ((k, v) :: Dict.erase d k) := by
  induction d with
  | nil => exact List.Perm.refl _
  | cons x xs ih =>
    obtain ⟨k', v'⟩ := x
    by_cases h : k' = k
    · subst h; simp [Dict.set, Dict.erase]
    · simp only [Dict.set, Dict.erase, h, if_false]
      exact ((ih.cons (k', v')).trans (List.Perm.swap _ _ _))

theorem erase_perm (d : Dict K V) (k : K) (v : V) (h : Dict.get? d k = some v) : d.Perm ((k, v) :: Dict.erase d k) := by
  induction d with
  | nil => simp [Dict.get?] at h
  | cons x xs ih =>
    obtain ⟨k', v'⟩ := x
    by_cases hk : k' = k
    · subst hk
      simp only [Dict.get?, if_true, Option.some.injEq] at h
      subst h; simp [Dict.erase]
    · simp only [Dict.get?, hk, if_false] at h
      simp only [Dict.erase, hk, if_false]
      exact (((ih h).cons (k', v')).trans (List.Perm.swap _ _ _))

theorem erase_sublist (d : Dict K V) (k : K) : (Dict.erase d k).Sublist d := by
  induction d with
  | nil => exact List.Sublist.refl _
  | cons x xs ih =>
    obtain ⟨k', v'⟩ := x
    by_cases h : k' = k
    · simp [Dict.erase, h]
    · simp only [Dict.erase, h, if_false]; exact ih.cons_cons _

end DictPerm

/-- The numbers of the spans in use: open ones that can still be finished, and finished ones. -/
def Tracer.used (s : Tracer) : List Nat := s.active.map Prod.snd ++ s.process.map Prod.snd ++ s.ended.map End.span

structure Good (s : Tracer) : Prop where
  nodup : s.used.Nodup
  lt : ∀ n ∈ s.used, n < s.started.length
  ka : (Dict.keys s.active).Nodup
  kp : (Dict.keys s.process).Nodup

theorem good_init : Good init.tr := by constructor <;> simp [init, Tracer.used, Dict.keys]

/-- Shrinking what is used keeps things good. -/
theorem Good.mono {s s' : Tracer} (h : Good s) (hu : List.Subperm s'.used s.used) (hs : s.started.length ≤ s'.started.length)
    (ha : (Dict.keys s'.active).Nodup) (hp : (Dict.keys s'.process).Nodup) : Good s' := by
  refine ⟨?_, fun n hn => ?_, ha, hp⟩
  · obtain ⟨l, hl, hs'⟩ := hu
    exact (hl.nodup_iff).1 (h.nodup.sublist hs')
  · exact Nat.lt_of_lt_of_le (h.lt n (hu.subset hn)) hs

theorem good_started {s : Tracer} (h : Good s) (x : Span) : Good { s with started := s.started ++ [x] } :=
  h.mono (List.Subperm.refl _) (by simp) h.ka h.kp

theorem used_set_active (s : Tracer) (k : SpanKey) (n : Nat) (st : List Span) :
    ({ s with started := st, active := Dict.set s.active k n } : Tracer).used.Perm
      (n :: ({ s with active := Dict.erase s.active k } : Tracer).used) := by
  simp only [Tracer.used]
  have := (set_perm s.active k n).map Prod.snd
  simp only [List.map_cons] at this
  have h2 := (this.append_right (s.process.map Prod.snd)).append_right (s.ended.map End.span)
  simpa using h2

theorem used_set_process (s : Tracer) (k : SpanKey) (n : Nat) (st : List Span) :
    ({ s with started := st, process := Dict.set s.process k n } : Tracer).used.Perm
      (n :: ({ s with process := Dict.erase s.process k } : Tracer).used) := by
  simp only [Tracer.used]
  have := (set_perm s.process k n).map Prod.snd
  simp only [List.map_cons] at this
  have h2 := (this.append_left (s.active.map Prod.snd)).append_right (s.ended.map End.span)
  refine h2.trans ?_
  simp only [List.append_assoc, List.cons_append]
  exact List.perm_middle

theorem erase_active_sub (s : Tracer) (k : SpanKey) :
    List.Sublist ({ s with active := Dict.erase s.active k } : Tracer).used s.used := by
  simp only [Tracer.used]
  exact (((erase_sublist s.active k).map _).append (List.Sublist.refl _)).append (List.Sublist.refl _)

theorem erase_process_sub (s : Tracer) (k : SpanKey) :
    List.Sublist ({ s with process := Dict.erase s.process k } : Tracer).used s.used := by
  simp only [Tracer.used]
  exact ((List.Sublist.refl _).append ((erase_sublist s.process k).map _)).append (List.Sublist.refl _)

theorem good_beforeRouting {s : Tracer} (h : Good s) (k : SpanKey) (route : List Char) : Good (beforeRouting s k route).2 := by
  unfold beforeRouting
  cases hb : k.bytes with
  | error e => simp only; exact good_started h _
  | ok b =>
    simp only
    have hp := used_set_active s k s.started.length
    refine ⟨?_, ?_, ?_, h.kp⟩
    · rw [(hp _).nodup_iff, List.nodup_cons]
      exact ⟨fun hm => absurd (h.lt _ ((erase_active_sub s k).subset hm)) (Nat.lt_irrefl _), h.nodup.sublist (erase_active_sub s k)⟩
    · intro n hn
      rcases List.mem_cons.1 ((hp _).subset hn) with rfl | hm
      · simp
      · exact Nat.lt_of_lt_of_le (h.lt n ((erase_active_sub s k).subset hm)) (by simp)
    · exact Dict.nodup_keys_set _ _ _ h.ka

theorem good_beforeProcess {s : Tracer} (h : Good s) (k : SpanKey) (cls : List Char) (r : Option Nat) (retries : Nat) :
    Good (beforeProcess s k cls r retries).2 := by
  unfold beforeProcess
  cases hb : k.bytes with
  | error e => simp only; exact good_started h _
  | ok b =>
    simp only
    have hp := used_set_process s k s.started.length
    refine ⟨?_, ?_, h.ka, ?_⟩
    · rw [(hp _).nodup_iff, List.nodup_cons]
      exact ⟨fun hm => absurd (h.lt _ ((erase_process_sub s k).subset hm)) (Nat.lt_irrefl _), h.nodup.sublist (erase_process_sub s k)⟩
    · intro n hn
      rcases List.mem_cons.1 ((hp _).subset hn) with rfl | hm
      · simp
      · exact Nat.lt_of_lt_of_le (h.lt n ((erase_process_sub s k).subset hm)) (by simp)
    · exact Dict.nodup_keys_set _ _ _ h.kp

theorem good_afterRouting {s : Tracer} (h : Good s) (k : SpanKey) : Good (afterRouting s k).2 := by
  unfold afterRouting
  cases hb : k.bytes with
  | error e => exact h
  | ok b =>
    simp only
    cases hg : Dict.get? s.active k with
    | none => exact h
    | some n =>
      simp only
      refine h.mono ?_ (Nat.le_refl _) (Dict.nodup_keys_erase _ _ h.ka) h.kp
      apply List.Perm.subperm
      simp only [Tracer.used, List.map_append, List.map_cons, List.map_nil]
      have h1 := (erase_perm s.active k n hg).map Prod.snd
      simp only [List.map_cons] at h1
      have h2 := (h1.append_right (s.process.map Prod.snd)).append_right (s.ended.map End.span)
      refine List.Perm.trans ?_ h2.symm
      rw [← List.append_assoc]
      exact List.perm_append_singleton _ _

theorem good_afterProcess {s : Tracer} (h : Good s) (k : SpanKey) (ok : Bool) : Good (afterProcess s k ok).2 := by
  unfold afterProcess
  cases hb : k.bytes with
  | error e => exact h
  | ok b =>
    simp only
    cases hg : Dict.get? s.process k with
    | none => exact h
    | some n =>
      simp only
      refine h.mono ?_ (Nat.le_refl _) h.ka (Dict.nodup_keys_erase _ _ h.kp)
      apply List.Perm.subperm
      simp only [Tracer.used, List.map_append, List.map_cons, List.map_nil]
      have h1 := (erase_perm s.process k n hg).map Prod.snd
      simp only [List.map_cons] at h1
      have h2 := (h1.append_left (s.active.map Prod.snd)).append_right (s.ended.map End.span)
      refine List.Perm.trans ?_ h2.symm
      rw [← List.append_assoc]
      refine (List.perm_append_singleton _ _).trans ?_
      simp only [List.append_assoc, List.cons_append]
      exact List.perm_middle.symm

theorem good_restart {s : Tracer} (h : Good s) : Good { s with active := [], process := [] } := by
  refine h.mono ?_ (Nat.le_refl _) (by simp [Dict.keys]) (by simp [Dict.keys])
  apply List.Sublist.subperm
  simp [Tracer.used]

theorem good_step (ids : Nat → Nat) {s : State} (h : Good s.tr) (e : Event) : Good (step ids s e).tr := by
  cases e with
  | arrive t k route =>
    simp only [step]
    have := good_beforeRouting h k route
    split
    · split <;> (rename_i heq; rw [heq] at this; exact this)
    · exact h
  | push t => simp only [step]; split <;> exact h
  | respond t =>
    simp only [step]; split
    · exact good_afterRouting h _
    · exact h
  | fail t => simp only [step]; split <;> exact h
  | stored k => exact h
  | attempt t i cls r =>
    simp only [step]
    split
    · rename_i item _ _
      have := good_beforeProcess h item.key cls item.receive r
      split <;> (rename_i heq; rw [heq] at this; exact this)
    · exact h
  | result t ok =>
    simp only [step]; split
    · exact good_afterProcess h _ _
    · exact h
  | crash t => simp only [step]; split <;> exact h
  | restart => exact good_restart h

theorem good_run (ids : Nat → Nat) {s : State} (h : Good s.tr) (es : List Event) : Good (run ids s es).tr := by
  induction es generalizing s with
  | nil => exact h
  | cons e es ih => exact ih (good_step ids h e)

theorem run_append (ids : Nat → Nat) (s : State) (a b : List Event) : run ids s (a ++ b) = run ids (run ids s a) b :=
  List.foldl_append

theorem run_cons (ids : Nat → Nat) (s : State) (e : Event) (es : List Event) :
    run ids s (e :: es) = run ids (step ids s e) es := rfl

/-! ### Things only grow -/

/-- `b` extends `a`. -/
structure Ext (a b : State) : Prop where
  started : a.tr.started <+: b.tr.started
  ended : a.tr.ended <+: b.tr.ended
  queued : a.queued <+: b.queued

theorem Ext.rfl' (a : State) : Ext a a := ⟨List.prefix_refl _, List.prefix_refl _, List.prefix_refl _⟩

theorem Ext.trans {a b c : State} (h : Ext a b) (h' : Ext b c) : Ext a c :=
  ⟨h.started.trans h'.started, h.ended.trans h'.ended, h.queued.trans h'.queued⟩

theorem beforeRouting_ext (s : Tracer) (k : SpanKey) (r : List Char) :
    s.started <+: (beforeRouting s k r).2.started ∧ (beforeRouting s k r).2.ended = s.ended := by
  unfold beforeRouting; cases k.bytes <;> simp

theorem beforeProcess_ext (s : Tracer) (k : SpanKey) (c : List Char) (r : Option Nat) (n : Nat) :
    s.started <+: (beforeProcess s k c r n).2.started ∧ (beforeProcess s k c r n).2.ended = s.ended := by
  unfold beforeProcess; cases k.bytes <;> simp

theorem afterRouting_ext (s : Tracer) (k : SpanKey) :
    (afterRouting s k).2.started = s.started ∧ s.ended <+: (afterRouting s k).2.ended := by
  unfold afterRouting
  cases k.bytes with
  | error e => simp
  | ok b => simp only; cases Dict.get? s.active k <;> simp

theorem afterProcess_ext (s : Tracer) (k : SpanKey) (b : Bool) :
    (afterProcess s k b).2.started = s.started ∧ s.ended <+: (afterProcess s k b).2.ended := by
  unfold afterProcess
  cases k.bytes with
  | error e => simp
  | ok b => simp only; cases Dict.get? s.process k <;> simp

theorem ext_step (ids : Nat → Nat) (s : State) (e : Event) : Ext s (step ids s e) := by
  cases e with
  | arrive t k route =>
    simp only [step]
    have := beforeRouting_ext s.tr k route
    split
    · split <;>
      · rename_i heq; rw [heq] at this
        exact ⟨this.1, by simp only; rw [this.2]; exact List.prefix_refl _, List.prefix_refl _⟩
    · exact Ext.rfl' s
  | push t =>
    simp only [step]; split
    · exact ⟨List.prefix_refl _, List.prefix_refl _, List.prefix_append _ _⟩
    · exact Ext.rfl' s
  | respond t =>
    simp only [step]; split
    · rename_i k _
      have := afterRouting_ext s.tr k
      exact ⟨by simp only; rw [this.1]; exact List.prefix_refl _, this.2, List.prefix_refl _⟩
    · exact Ext.rfl' s
  | fail t =>
    simp only [step]; split
    · exact ⟨List.prefix_refl _, List.prefix_refl _, List.prefix_refl _⟩
    · exact Ext.rfl' s
  | stored k => exact ⟨List.prefix_refl _, List.prefix_refl _, List.prefix_append _ _⟩
  | attempt t i cls r =>
    simp only [step]
    split
    · rename_i item _ _
      have := beforeProcess_ext s.tr item.key cls item.receive r
      split <;>
      · rename_i heq; rw [heq] at this
        exact ⟨this.1, by simp only; rw [this.2]; exact List.prefix_refl _, List.prefix_refl _⟩
    · exact Ext.rfl' s
  | result t b =>
    simp only [step]; split
    · rename_i k _
      have := afterProcess_ext s.tr k b
      exact ⟨by simp only; rw [this.1]; exact List.prefix_refl _, this.2, List.prefix_refl _⟩
    · exact Ext.rfl' s
  | crash t =>
    simp only [step]; split
    · exact ⟨List.prefix_refl _, List.prefix_refl _, List.prefix_refl _⟩
    · exact Ext.rfl' s
  | restart => exact ⟨List.prefix_refl _, List.prefix_refl _, List.prefix_refl _⟩

theorem ext_run (ids : Nat → Nat) (s : State) (es : List Event) : Ext s (run ids s es) := by
  induction es generalizing s with
  | nil => exact Ext.rfl' s
  | cons e es ih => exact (ext_step ids s e).trans (ih _)

theorem prefix_getElem? {α : Type} {a b : List α} (h : a <+: b) {i : Nat} {x : α} (hx : a[i]? = some x) : b[i]? = some x := by
  obtain ⟨c, rfl⟩ := h
  have hi : i < a.length := by
    by_contra hc
    rw [List.getElem?_eq_none (by omega)] at hx; cases hx
  rw [List.getElem?_append_left hi]; exact hx

/-! ### Tasks and the events that made them -/

theorem setTask_same (f : Nat → Task) (t : Nat) (x : Task) : setTask f t x t = x := by simp [setTask]

theorem setTask_other (f : Nat → Task) {t u : Nat} (x : Task) (h : u ≠ t) : setTask f t x u = f u := by simp [setTask, h]

/-- How one event changes the state of one task. -/
theorem task_step (ids : Nat → Nat) (s : State) (e : Event) (u : Nat) (h : e.task ≠ some u) (hr : e ≠ .restart) :
    (step ids s e).tasks u = s.tasks u := by
  cases e with
  | restart => exact absurd rfl hr
  | stored k => rfl
  | arrive t k route =>
    have hu : u ≠ t := fun h' => h (by simp [Event.task, h'])
    simp only [step]; split
    · split <;> exact setTask_other _ _ hu
    · rfl
  | push t => simp only [step]; split <;> rfl
  | respond t =>
    have hu : u ≠ t := fun h' => h (by simp [Event.task, h'])
    simp only [step]; split
    · exact setTask_other _ _ hu
    · rfl
  | fail t =>
    have hu : u ≠ t := fun h' => h (by simp [Event.task, h'])
    simp only [step]; split
    · exact setTask_other _ _ hu
    · rfl
  | attempt t i cls r =>
    have hu : u ≠ t := fun h' => h (by simp [Event.task, h'])
    simp only [step]; split
    · split <;> exact setTask_other _ _ hu
    · rfl
  | result t b =>
    have hu : u ≠ t := fun h' => h (by simp [Event.task, h'])
    simp only [step]; split
    · exact setTask_other _ _ hu
    · rfl
  | crash t =>
    have hu : u ≠ t := fun h' => h (by simp [Event.task, h'])
    simp only [step]; split
    · exact setTask_other _ _ hu
    · rfl

theorem task_restart (ids : Nat → Nat) (s : State) (u : Nat) :
    (step ids s .restart).tasks u = match s.tasks u with | .idle => .idle | _ => .over := rfl

theorem idle_run (ids : Nat → Nat) (s : State) (es : List Event) (t : Nat) (h : s.tasks t = .idle)
    (hf : ∀ e ∈ es, e.task ≠ some t) : (run ids s es).tasks t = .idle := by
  induction es generalizing s with
  | nil => exact h
  | cons e es ih =>
    refine ih _ ?_ (fun x hx => hf x (List.mem_cons_of_mem _ hx))
    by_cases hr : e = .restart
    · subst hr; rw [task_restart, h]
    · rw [task_step ids s e t (hf e (by simp)) hr]; exact h

/-- A task that becomes busy does so by its arrival or attempt. -/
theorem serving_step (ids : Nat → Nat) (s : State) (e : Event) (u : Nat) (k : SpanKey)
    (h : (step ids s e).tasks u = .serving k) :
    s.tasks u = .serving k ∨ ∃ route, e = .arrive u k route := by
  by_cases hr : e = .restart
  · subst hr; rw [task_restart] at h; split at h <;> cases h
  by_cases ht : e.task = some u
  · cases e with
    | restart => exact absurd rfl hr
    | stored k => cases ht
    | arrive t k' route =>
      simp only [Event.task, Option.some.injEq] at ht; subst ht
      simp only [step] at h; split at h
      · split at h
        · simp only [setTask_same] at h; cases h; exact Or.inr ⟨route, rfl⟩
        · simp only [setTask_same] at h; cases h
      · exact Or.inl h
    | push t => simp only [step] at h; split at h <;> exact Or.inl h
    | respond t =>
      simp only [Event.task, Option.some.injEq] at ht; subst ht
      simp only [step] at h; split at h
      · simp only [setTask_same] at h; cases h
      · exact Or.inl h
    | fail t =>
      simp only [Event.task, Option.some.injEq] at ht; subst ht
      simp only [step] at h; split at h
      · simp only [setTask_same] at h; cases h
      · exact Or.inl h
    | attempt t i cls r =>
      simp only [Event.task, Option.some.injEq] at ht; subst ht
      simp only [step] at h; split at h
      · split at h
        · simp only [setTask_same] at h; cases h
        · simp only [setTask_same] at h; cases h
      · exact Or.inl h
    | result t b =>
      simp only [Event.task, Option.some.injEq] at ht; subst ht
      simp only [step] at h; split at h
      · simp only [setTask_same] at h; cases h
      · exact Or.inl h
    | crash t =>
      simp only [Event.task, Option.some.injEq] at ht; subst ht
      simp only [step] at h; split at h
      · simp only [setTask_same] at h; cases h
      · exact Or.inl h
  · rw [task_step ids s e u ht hr] at h; exact Or.inl h

theorem processing_step (ids : Nat → Nat) (s : State) (e : Event) (u : Nat) (k : SpanKey)
    (h : (step ids s e).tasks u = .processing k) :
    s.tasks u = .processing k ∨ ∃ i cls r item, e = .attempt u i cls r ∧ s.queued[i]? = some item ∧ item.key = k := by
  by_cases hr : e = .restart
  · subst hr; rw [task_restart] at h; split at h <;> cases h
  by_cases ht : e.task = some u
  · cases e with
    | restart => exact absurd rfl hr
    | stored k => cases ht
    | arrive t k' route =>
      simp only [Event.task, Option.some.injEq] at ht; subst ht
      simp only [step] at h; split at h
      · split at h
        · simp only [setTask_same] at h; cases h
        · simp only [setTask_same] at h; cases h
      · exact Or.inl h
    | push t => simp only [step] at h; split at h <;> exact Or.inl h
    | respond t =>
      simp only [Event.task, Option.some.injEq] at ht; subst ht
      simp only [step] at h; split at h
      · simp only [setTask_same] at h; cases h
      · exact Or.inl h
    | fail t =>
      simp only [Event.task, Option.some.injEq] at ht; subst ht
      simp only [step] at h; split at h
      · simp only [setTask_same] at h; cases h
      · exact Or.inl h
    | attempt t i cls r =>
      simp only [Event.task, Option.some.injEq] at ht; subst ht
      simp only [step] at h; split at h
      · rename_i item _ hq
        split at h
        · simp only [setTask_same] at h; cases h; exact Or.inr ⟨i, cls, r, item, rfl, hq, rfl⟩
        · simp only [setTask_same] at h; cases h
      · exact Or.inl h
    | result t b =>
      simp only [Event.task, Option.some.injEq] at ht; subst ht
      simp only [step] at h; split at h
      · simp only [setTask_same] at h; cases h
      · exact Or.inl h
    | crash t =>
      simp only [Event.task, Option.some.injEq] at ht; subst ht
      simp only [step] at h; split at h
      · simp only [setTask_same] at h; cases h
      · exact Or.inl h
  · rw [task_step ids s e u ht hr] at h; exact Or.inl h

theorem serving_run (ids : Nat → Nat) (es : List Event) (u : Nat) (k : SpanKey)
    (h : (run ids init es).tasks u = .serving k) : ∃ route, Event.arrive u k route ∈ es := by
  induction es using List.reverseRecOn with
  | nil => cases h
  | append_singleton es e ih =>
    rw [run_append] at h
    rcases serving_step ids _ e u k h with h' | ⟨route, rfl⟩
    · obtain ⟨r, hr⟩ := ih h'; exact ⟨r, List.mem_append_left _ hr⟩
    · exact ⟨route, by simp⟩

theorem processing_run (ids : Nat → Nat) (es : List Event) (u : Nat) (k : SpanKey)
    (h : (run ids init es).tasks u = .processing k) :
    ∃ i cls r item, Event.attempt u i cls r ∈ es ∧ (run ids init es).queued[i]? = some item ∧ item.key = k := by
  induction es using List.reverseRecOn with
  | nil => cases h
  | append_singleton es e ih =>
    rw [run_append] at h ⊢
    have hq := (ext_run ids (run ids init es) [e]).queued
    rcases processing_step ids _ e u k h with h' | ⟨i, cls, r, item, rfl, hi, hk⟩
    · obtain ⟨i, cls, r, item, hm, hi, hk⟩ := ih h'
      exact ⟨i, cls, r, item, List.mem_append_left _ hm, prefix_getElem? hq hi, hk⟩
    · exact ⟨i, cls, r, item, by simp, prefix_getElem? hq hi, hk⟩

/-! ### Which spans the dictionaries hold -/

theorem bytes_ok {k : SpanKey} (h : Proper k) : ∃ b, k.bytes = .ok b := by
  unfold SpanKey.bytes SpanId.bytes
  rw [if_pos ⟨h.2.1, h.2.2⟩]
  exact ⟨_, rfl⟩

theorem bytes_proper {k : SpanKey} {b : List Byte} (h : k.bytes = .ok b) : 0 ≤ k.span.value ∧ k.span.value < 2 ^ 64 := by
  unfold SpanKey.bytes SpanId.bytes at h
  split at h
  · assumption
  · cases h

theorem beforeRouting_active (s : Tracer) (k k' : SpanKey) (r : List Char) (hk : k ≠ k') :
    Dict.get? (beforeRouting s k r).2.active k' = Dict.get? s.active k' := by
  unfold beforeRouting
  cases k.bytes with
  | error e => rfl
  | ok b => simp only; rw [Dict.get?_set]; simp [hk]

theorem beforeProcess_process (s : Tracer) (k k' : SpanKey) (c : List Char) (r : Option Nat) (n : Nat) (hk : k ≠ k') :
    Dict.get? (beforeProcess s k c r n).2.process k' = Dict.get? s.process k' := by
  unfold beforeProcess
  cases k.bytes with
  | error e => rfl
  | ok b => simp only; rw [Dict.get?_set]; simp [hk]

theorem beforeProcess_active (s : Tracer) (k : SpanKey) (c : List Char) (r : Option Nat) (n : Nat) :
    (beforeProcess s k c r n).2.active = s.active := by
  unfold beforeProcess; cases k.bytes <;> rfl

theorem beforeRouting_process (s : Tracer) (k : SpanKey) (r : List Char) : (beforeRouting s k r).2.process = s.process := by
  unfold beforeRouting; cases k.bytes <;> rfl

theorem afterRouting_active (s : Tracer) (k k' : SpanKey) (hn : (Dict.keys s.active).Nodup) (hk : k ≠ k') :
    Dict.get? (afterRouting s k).2.active k' = Dict.get? s.active k' := by
  unfold afterRouting
  cases k.bytes with
  | error e => rfl
  | ok b =>
    simp only
    cases Dict.get? s.active k with
    | none => rfl
    | some n => simp only; rw [Dict.get?_erase _ _ _ hn, if_neg hk]

theorem afterProcess_process (s : Tracer) (k k' : SpanKey) (b : Bool) (hn : (Dict.keys s.process).Nodup) (hk : k ≠ k') :
    Dict.get? (afterProcess s k b).2.process k' = Dict.get? s.process k' := by
  unfold afterProcess
  cases k.bytes with
  | error e => rfl
  | ok _ =>
    simp only
    cases Dict.get? s.process k with
    | none => rfl
    | some n => simp only; rw [Dict.get?_erase _ _ _ hn, if_neg hk]

theorem afterProcess_active (s : Tracer) (k : SpanKey) (b : Bool) : (afterProcess s k b).2.active = s.active := by
  unfold afterProcess
  cases k.bytes with
  | error e => rfl
  | ok _ => simp only; cases Dict.get? s.process k <;> rfl

theorem afterRouting_process (s : Tracer) (k : SpanKey) : (afterRouting s k).2.process = s.process := by
  unfold afterRouting
  cases k.bytes with
  | error e => rfl
  | ok _ => simp only; cases Dict.get? s.active k <;> rfl

/-- The span of a key stays where it is unless a request with this key arrives or finishes. -/
theorem active_step (ids : Nat → Nat) (s : State) (hg : Good s.tr) (e : Event) (k : SpanKey) (hr : e ≠ .restart)
    (ha : ∀ u route, e ≠ .arrive u k route) (hp : ∀ u, e = .respond u → s.tasks u ≠ .serving k) :
    Dict.get? (step ids s e).tr.active k = Dict.get? s.tr.active k := by
  cases e with
  | restart => exact absurd rfl hr
  | stored _ => rfl
  | arrive t k' route =>
    have hk : k' ≠ k := fun h => ha t route (by rw [h])
    have := beforeRouting_active s.tr k' k route hk
    simp only [step]; split
    · split <;> (rename_i heq; rw [heq] at this; exact this)
    · rfl
  | push t => simp only [step]; split <;> rfl
  | respond t =>
    simp only [step]; split
    · rename_i k' hs
      exact afterRouting_active _ _ _ hg.ka (fun h => hp t rfl (by rw [hs, h]))
    · rfl
  | fail t => simp only [step]; split <;> rfl
  | attempt t i cls r =>
    simp only [step]; split
    · rename_i item _ _
      have := beforeProcess_active s.tr item.key cls item.receive r
      split <;> (rename_i heq; rw [heq] at this; simp only at this ⊢; rw [this])
    · rfl
  | result t b =>
    simp only [step]; split
    · simp only; rw [afterProcess_active]
    · rfl
  | crash t => simp only [step]; split <;> rfl

/-- The same for attempts. -/
theorem process_step (ids : Nat → Nat) (s : State) (hg : Good s.tr) (e : Event) (k : SpanKey) (hr : e ≠ .restart)
    (ha : ∀ u i cls r item, e = .attempt u i cls r → s.queued[i]? = some item → item.key ≠ k)
    (hp : ∀ u b, e = .result u b → s.tasks u ≠ .processing k) :
    Dict.get? (step ids s e).tr.process k = Dict.get? s.tr.process k := by
  cases e with
  | restart => exact absurd rfl hr
  | stored _ => rfl
  | arrive t k' route =>
    have := beforeRouting_process s.tr k' route
    simp only [step]; split
    · split <;> (rename_i heq; rw [heq] at this; simp only at this ⊢; rw [this])
    · rfl
  | push t => simp only [step]; split <;> rfl
  | respond t =>
    simp only [step]; split
    · simp only; rw [afterRouting_process]
    · rfl
  | fail t => simp only [step]; split <;> rfl
  | attempt t i cls r =>
    simp only [step]; split
    · rename_i item _ hq
      have := beforeProcess_process s.tr item.key k cls item.receive r (ha t i cls r item rfl hq)
      split <;> (rename_i heq; rw [heq] at this; exact this)
    · rfl
  | result t b =>
    simp only [step]; split
    · rename_i k' hs
      exact afterProcess_process _ _ _ _ hg.kp (fun h => hp t b rfl (by rw [hs, h]))
    · rfl
  | crash t => simp only [step]; split <;> rfl

/-! ### Finished once -/

theorem finished_of_mem {s : State} (hg : Good s.tr) {e : End} (he : e ∈ s.tr.ended) : Finished s e.span e := by
  have hn : (s.tr.ended.map End.span).Nodup := (List.nodup_append'.1 hg.nodup).2.1
  unfold Finished
  generalize s.tr.ended = l at *
  clear hg
  induction l with
  | nil => cases he
  | cons x xs ih =>
    simp only [List.map_cons, List.nodup_cons, List.mem_map, not_exists, not_and] at hn
    rcases List.mem_cons.1 he with rfl | hm
    · rw [List.filter_cons_of_pos (by simp)]
      congr 1
      rw [List.filter_eq_nil_iff]
      intro a ha; simp only [decide_eq_true_eq]; exact hn.1 a ha
    · rw [List.filter_cons_of_neg]
      · exact ih hm hn.2
      · simp only [decide_eq_true_eq]; exact fun h => hn.1 e hm h.symm

theorem unfinished_active {s : State} (hg : Good s.tr) {k : SpanKey} {n : Nat} (h : Dict.get? s.tr.active k = some n) :
    Unfinished s n := by
  intro x hx hn
  have hm : n ∈ s.tr.active.map Prod.snd ++ s.tr.process.map Prod.snd :=
    List.mem_append_left _ (List.mem_map.2 ⟨_, Dict.get?_mem _ _ _ h, rfl⟩)
  have := (List.nodup_append'.1 hg.nodup).2.2
  exact this hm (List.mem_map.2 ⟨x, hx, hn⟩)

theorem unfinished_process {s : State} (hg : Good s.tr) {k : SpanKey} {n : Nat} (h : Dict.get? s.tr.process k = some n) :
    Unfinished s n := by
  intro x hx hn
  have hm : n ∈ s.tr.active.map Prod.snd ++ s.tr.process.map Prod.snd :=
    List.mem_append_right _ (List.mem_map.2 ⟨_, Dict.get?_mem _ _ _ h, rfl⟩)
  have := (List.nodup_append'.1 hg.nodup).2.2
  exact this hm (List.mem_map.2 ⟨x, hx, hn⟩)

/-! ### The life of one request and of one attempt -/

theorem context_traceable {k : SpanKey} (h : Traceable k) :
    context k.trace k.span.value true = some ⟨k.trace, k.span.value.toNat, true⟩ := if_pos h

theorem Traceable.proper {k : SpanKey} (h : Traceable k) : Proper k := ⟨h.2.1, by have := h.2.2.1; omega, h.2.2.2⟩

theorem arrive_step (ids : Nat → Nat) (s : State) (t : Nat) (k : SpanKey) (route : List Char) (hi : s.tasks t = .idle)
    (hk : Traceable k) :
    (step ids s (.arrive t k route)).tr.started = s.tr.started ++ [requestSpan k route] ∧
    (step ids s (.arrive t k route)).tasks t = .serving k ∧
    Dict.get? (step ids s (.arrive t k route)).tr.active k = some s.tr.started.length := by
  obtain ⟨b, hb⟩ := bytes_ok hk.proper
  have hbr : beforeRouting s.tr k route =
      (.ok (), { s.tr with started := s.tr.started ++ [requestSpan k route],
                           active := Dict.set s.tr.active k s.tr.started.length }) := by
    simp only [beforeRouting, hb, context_traceable hk]; rfl
  simp only [step, hi, hbr]
  exact ⟨trivial, setTask_same _ _ _, by rw [Dict.get?_set, if_pos rfl]⟩

theorem arrive_active (ids : Nat → Nat) (s : State) (t : Nat) (k : SpanKey) (route : List Char) (hi : s.tasks t = .idle)
    (hk : Traceable k) :
    (step ids s (.arrive t k route)).tr.active = Dict.set s.tr.active k s.tr.started.length := by
  obtain ⟨b, hb⟩ := bytes_ok hk.proper
  simp only [step, hi, beforeRouting, hb]

theorem request_mid (ids : Nat → Nat) (pre mid : List Event) (t : Nat) (k : SpanKey) (route : List Char)
    (hf : ∀ e ∈ pre, e.task ≠ some t) (hk : Traceable k) (hm : Undisturbed t k pre mid) :
    (run ids init (pre ++ .arrive t k route :: mid)).tasks t = .serving k ∧
    Dict.get? (run ids init (pre ++ .arrive t k route :: mid)).tr.active k = some (run ids init pre).tr.started.length ∧
    (run ids init (pre ++ .arrive t k route :: mid)).tr.started[(run ids init pre).tr.started.length]? =
      some (requestSpan k route) := by
  have hidle := idle_run ids init pre t rfl hf
  obtain ⟨h1, h2, h3⟩ := arrive_step ids (run ids init pre) t k route hidle hk
  induction mid using List.reverseRecOn with
  | nil =>
    rw [run_append, run_cons]
    refine ⟨h2, h3, ?_⟩
    show (step ids (run ids init pre) (.arrive t k route)).tr.started[(run ids init pre).tr.started.length]? = _
    rw [h1]; simp
  | append_singleton mid e ih =>
    have hm' : Undisturbed t k pre mid :=
      ⟨fun h => hm.no_restart (List.mem_append_left _ h), fun e he => hm.own e (List.mem_append_left _ he),
       fun u r h => hm.no_arrival u r (List.mem_append_left _ h), fun u h => hm.no_response u (List.mem_append_left _ h)⟩
    obtain ⟨i1, i2, i3⟩ := ih hm'
    have heq : pre ++ .arrive t k route :: (mid ++ [e]) = (pre ++ .arrive t k route :: mid) ++ [e] := by simp
    rw [heq, run_append]
    generalize hs : run ids init (pre ++ .arrive t k route :: mid) = s at i1 i2 i3
    have hg : Good s.tr := hs ▸ good_run ids good_init _
    have hr : e ≠ .restart := fun h => hm.no_restart (by simp [h])
    refine ⟨?_, ?_, prefix_getElem? (ext_step ids s e).started i3⟩
    · show (step ids s e).tasks t = _
      by_cases ht : e.task = some t
      · rw [hm.own e (by simp) ht]; simp only [step, i1]
      · rw [task_step ids s e t ht hr]; exact i1
    · show Dict.get? (step ids s e).tr.active k = _
      rw [active_step ids s hg e k hr]
      · exact i2
      · intro u r h; exact hm.no_arrival u r (by simp [h])
      · rintro u rfl hsv
        rw [← hs] at hsv
        obtain ⟨r, hmem⟩ := serving_run ids _ u k hsv
        rcases List.mem_append.1 hmem with h | h
        · exact hm.no_response u (by simp) r h
        rcases List.mem_cons.1 h with h | h
        · cases h
          have := hm.own (.respond t) (by simp) rfl
          cases this
        · exact hm.no_arrival u r (List.mem_append_left _ h)

theorem attempt_step (ids : Nat → Nat) (s : State) (t i : Nat) (item : Item) (cls : List Char) (r : Nat) (hi : s.tasks t = .idle)
    (hq : s.queued[i]? = some item) (hk : Traceable item.key) (hid : ∀ j, item.receive = some j → 0 < j ∧ j < 2 ^ 64) :
    (step ids s (.attempt t i cls r)).tr.started =
      s.tr.started ++ [attemptSpan item.key cls r
        (match item.receive with | some j => j | none => item.key.span.value.toNat) item.receive.isNone] ∧
    (step ids s (.attempt t i cls r)).tasks t = .processing item.key ∧
    Dict.get? (step ids s (.attempt t i cls r)).tr.process item.key = some s.tr.started.length := by
  obtain ⟨b, hb⟩ := bytes_ok hk.proper
  have hbr : beforeProcess s.tr item.key cls item.receive r =
      (.ok (), { s.tr with
        started := s.tr.started ++ [attemptSpan item.key cls r
          (match item.receive with | some j => j | none => item.key.span.value.toNat) item.receive.isNone],
        process := Dict.set s.tr.process item.key s.tr.started.length }) := by
    cases hr : item.receive with
    | none =>
      have hc : context item.key.trace item.key.span.value true = some ⟨item.key.trace, item.key.span.value.toNat, true⟩ :=
        if_pos hk
      simp only [beforeProcess, hb, Option.isNone_none, hc]; rfl
    | some j =>
      have hc : context item.key.trace (j : Int) false = some ⟨item.key.trace, j, false⟩ := by
        have := hid j hr
        unfold context
        rw [if_pos ⟨hk.1, hk.2.1, by omega, by omega⟩]; rfl
      simp only [beforeProcess, hb, Option.isNone_some, hc]; rfl
  simp only [step, hi, hq, hbr]
  exact ⟨trivial, setTask_same _ _ _, by rw [Dict.get?_set, if_pos rfl]⟩

theorem attempt_mid (ids : Nat → Nat) (pre mid : List Event) (t i : Nat) (item : Item) (cls : List Char) (r : Nat)
    (hf : ∀ e ∈ pre, e.task ≠ some t) (hq : (run ids init pre).queued[i]? = some item) (hk : Proper item.key)
    (hm : UndisturbedAttempt t item.key (run ids init (pre ++ .attempt t i cls r :: mid)).queued pre mid) :
    (run ids init (pre ++ .attempt t i cls r :: mid)).tasks t = .processing item.key ∧
    Dict.get? (run ids init (pre ++ .attempt t i cls r :: mid)).tr.process item.key =
      some (run ids init pre).tr.started.length := by
  have hidle := idle_run ids init pre t rfl hf
  induction mid using List.reverseRecOn with
  | nil =>
    rw [run_append, run_cons]
    obtain ⟨b, hb⟩ := bytes_ok hk
    show (step ids (run ids init pre) (.attempt t i cls r)).tasks t = _ ∧
      Dict.get? (step ids (run ids init pre) (.attempt t i cls r)).tr.process _ = _
    simp only [step, hidle, hq, beforeProcess, hb]
    exact ⟨setTask_same _ _ _, by rw [Dict.get?_set, if_pos rfl]⟩
  | append_singleton mid e ih =>
    have heq : pre ++ .attempt t i cls r :: (mid ++ [e]) = (pre ++ .attempt t i cls r :: mid) ++ [e] := by simp
    rw [heq, run_append] at hm
    rw [heq, run_append]
    have hqq := (ext_run ids (run ids init (pre ++ .attempt t i cls r :: mid)) [e]).queued
    have hm' : UndisturbedAttempt t item.key (run ids init (pre ++ .attempt t i cls r :: mid)).queued pre mid :=
      ⟨fun h => hm.no_restart (List.mem_append_left _ h), fun e he => hm.own e (List.mem_append_left _ he),
       fun u j c r h it hit => hm.no_attempt u j c r (List.mem_append_left _ h) it (prefix_getElem? hqq hit),
       fun u b h j c r h' it hit => hm.no_result u b (List.mem_append_left _ h) j c r h' it (prefix_getElem? hqq hit)⟩
    obtain ⟨i1, i2⟩ := ih hm'
    have hqm : (run ids init pre).queued <+: (run ids init (pre ++ .attempt t i cls r :: mid)).queued := by
      rw [run_append]; exact (ext_run ids _ _).queued
    generalize hs : run ids init (pre ++ .attempt t i cls r :: mid) = s at *
    have hg : Good s.tr := hs ▸ good_run ids good_init _
    have hr : e ≠ .restart := fun h => hm.no_restart (by simp [h])
    constructor
    · show (step ids s e).tasks t = _
      rw [task_step ids s e t (hm.own e (by simp)) hr]; exact i1
    · show Dict.get? (step ids s e).tr.process _ = _
      rw [process_step ids s hg e item.key hr]
      · exact i2
      · rintro u j c r' it rfl hit
        exact hm.no_attempt u j c r' (by simp) it (prefix_getElem? hqq hit)
      · rintro u b rfl hsv
        have hsv' := hsv
        rw [← hs] at hsv'
        obtain ⟨j, c, r', it, hmem, hit, hkey⟩ := processing_run ids _ u item.key hsv'
        rw [hs] at hit
        rcases List.mem_append.1 hmem with h | h
        · exact hm.no_result u b (by simp) j c r' h it (prefix_getElem? hqq hit) hkey
        rcases List.mem_cons.1 h with h | h
        · cases h
          exact hm.own (.result t b) (by simp) rfl
        · exact hm.no_attempt u j c r' (List.mem_append_left _ h) it (prefix_getElem? hqq hit) hkey

/-! ### Lost spans -/

/-- Span `n` is not finished, and no task is left that could finish it. -/
structure Lost (n : Nat) (s : State) : Prop where
  lt : n < s.tr.started.length
  unfinished : Unfinished s n
  active : ∀ k, Dict.get? s.tr.active k = some n → ∀ u, s.tasks u ≠ .serving k
  process : ∀ k, Dict.get? s.tr.process k = some n → ∀ u, s.tasks u ≠ .processing k

theorem lost_step (ids : Nat → Nat) {n : Nat} {s : State} (hg : Good s.tr) (h : Lost n s) (e : Event) : Lost n (step ids s e) := by
  have hlt : n < (step ids s e).tr.started.length := Nat.lt_of_lt_of_le h.lt (ext_step ids s e).started.length_le
  cases e with
  | arrive t k route =>
    revert hlt
    simp only [step]; split
    · rename_i hidle
      unfold beforeRouting
      cases hb : k.bytes with
      | error e =>
        simp only
        intro hlt
        refine ⟨hlt, h.unfinished, fun k' hk' u hu => ?_, fun k' hk' u hu => ?_⟩
        · by_cases hut : u = t
          · subst hut; simp only [setTask_same] at hu; cases hu
          · simp only [setTask_other _ _ hut] at hu; exact h.active k' hk' u hu
        · by_cases hut : u = t
          · subst hut; simp only [setTask_same] at hu; cases hu
          · simp only [setTask_other _ _ hut] at hu; exact h.process k' hk' u hu
      | ok b =>
        simp only
        intro hlt
        refine ⟨hlt, h.unfinished, fun k' hk' u hu => ?_, fun k' hk' u hu => ?_⟩
        · simp only [Dict.get?_set] at hk'
          split at hk'
          · simp only [Option.some.injEq] at hk'; have := h.lt; omega
          · rename_i hne
            by_cases hut : u = t
            · subst hut; simp only [setTask_same] at hu; cases hu; exact hne rfl
            · simp only [setTask_other _ _ hut] at hu; exact h.active k' hk' u hu
        · by_cases hut : u = t
          · subst hut; simp only [setTask_same] at hu; cases hu
          · simp only [setTask_other _ _ hut] at hu; exact h.process k' hk' u hu
    · exact fun _ => h
  | push t =>
    simp only [step]; split
    · exact ⟨h.lt, h.unfinished, h.active, h.process⟩
    · exact h
  | respond t =>
    revert hlt
    simp only [step]; split
    · rename_i k hs
      unfold afterRouting
      have key : ∀ u k', setTask s.tasks t .over u = .serving k' → s.tasks u = .serving k' := by
        intro u k' hu
        by_cases hut : u = t
        · subst hut; simp only [setTask_same] at hu; cases hu
        · rwa [setTask_other _ _ hut] at hu
      have key' : ∀ u k', setTask s.tasks t .over u = .processing k' → s.tasks u = .processing k' := by
        intro u k' hu
        by_cases hut : u = t
        · subst hut; simp only [setTask_same] at hu; cases hu
        · rwa [setTask_other _ _ hut] at hu
      cases hb : k.bytes with
      | error e =>
        intro hlt
        exact ⟨h.lt, h.unfinished, fun k' hk' u hu => h.active k' hk' u (key u k' hu),
          fun k' hk' u hu => h.process k' hk' u (key' u k' hu)⟩
      | ok b =>
        simp only
        cases hga : Dict.get? s.tr.active k with
        | none =>
          intro hlt
          exact ⟨h.lt, h.unfinished, fun k' hk' u hu => h.active k' hk' u (key u k' hu),
            fun k' hk' u hu => h.process k' hk' u (key' u k' hu)⟩
        | some m =>
          simp only
          intro hlt
          refine ⟨h.lt, ?_, fun k' hk' u hu => ?_, fun k' hk' u hu => h.process k' hk' u (key' u k' hu)⟩
          · intro x hx
            rcases List.mem_append.1 hx with hx | hx
            · exact h.unfinished x hx
            · simp only [List.mem_singleton] at hx; subst hx
              rintro rfl; exact h.active k hga t hs
          · simp only [Dict.get?_erase _ _ _ hg.ka] at hk'
            split at hk'
            · cases hk'
            · exact h.active k' hk' u (key u k' hu)
    · exact fun _ => h
  | fail t =>
    simp only [step]; split
    · refine ⟨h.lt, h.unfinished, fun k' hk' u hu => ?_, fun k' hk' u hu => ?_⟩ <;>
      · by_cases hut : u = t
        · subst hut; simp only [setTask_same] at hu; cases hu
        · simp only [setTask_other _ _ hut] at hu
          first | exact h.active k' hk' u hu | exact h.process k' hk' u hu
    · exact h
  | stored k => exact ⟨h.lt, h.unfinished, h.active, h.process⟩
  | attempt t i cls r =>
    revert hlt
    simp only [step]; split
    · rename_i item hidle hq
      unfold beforeProcess
      cases hb : item.key.bytes with
      | error e =>
        simp only
        intro hlt
        refine ⟨hlt, h.unfinished, fun k' hk' u hu => ?_, fun k' hk' u hu => ?_⟩
        · by_cases hut : u = t
          · subst hut; simp only [setTask_same] at hu; cases hu
          · simp only [setTask_other _ _ hut] at hu; exact h.active k' hk' u hu
        · by_cases hut : u = t
          · subst hut; simp only [setTask_same] at hu; cases hu
          · simp only [setTask_other _ _ hut] at hu; exact h.process k' hk' u hu
      | ok b =>
        simp only
        intro hlt
        refine ⟨hlt, h.unfinished, fun k' hk' u hu => ?_, fun k' hk' u hu => ?_⟩
        · by_cases hut : u = t
          · subst hut; simp only [setTask_same] at hu; cases hu
          · simp only [setTask_other _ _ hut] at hu; exact h.active k' hk' u hu
        · simp only [Dict.get?_set] at hk'
          split at hk'
          · simp only [Option.some.injEq] at hk'; have := h.lt; omega
          · rename_i hne
            by_cases hut : u = t
            · subst hut; simp only [setTask_same] at hu; cases hu; exact hne rfl
            · simp only [setTask_other _ _ hut] at hu; exact h.process k' hk' u hu
    · exact fun _ => h
  | result t ok =>
    revert hlt
    simp only [step]; split
    · rename_i k hs
      unfold afterProcess
      have key : ∀ u k', setTask s.tasks t .over u = .serving k' → s.tasks u = .serving k' := by
        intro u k' hu
        by_cases hut : u = t
        · subst hut; simp only [setTask_same] at hu; cases hu
        · rwa [setTask_other _ _ hut] at hu
      have key' : ∀ u k', setTask s.tasks t .over u = .processing k' → s.tasks u = .processing k' := by
        intro u k' hu
        by_cases hut : u = t
        · subst hut; simp only [setTask_same] at hu; cases hu
        · rwa [setTask_other _ _ hut] at hu
      cases hb : k.bytes with
      | error e =>
        intro hlt
        exact ⟨h.lt, h.unfinished, fun k' hk' u hu => h.active k' hk' u (key u k' hu),
          fun k' hk' u hu => h.process k' hk' u (key' u k' hu)⟩
      | ok b =>
        simp only
        cases hga : Dict.get? s.tr.process k with
        | none =>
          intro hlt
          exact ⟨h.lt, h.unfinished, fun k' hk' u hu => h.active k' hk' u (key u k' hu),
            fun k' hk' u hu => h.process k' hk' u (key' u k' hu)⟩
        | some m =>
          simp only
          intro hlt
          refine ⟨h.lt, ?_, fun k' hk' u hu => h.active k' hk' u (key u k' hu), fun k' hk' u hu => ?_⟩
          · intro x hx
            rcases List.mem_append.1 hx with hx | hx
            · exact h.unfinished x hx
            · simp only [List.mem_singleton] at hx; subst hx
              rintro rfl; exact h.process k hga t hs
          · simp only [Dict.get?_erase _ _ _ hg.kp] at hk'
            split at hk'
            · cases hk'
            · exact h.process k' hk' u (key' u k' hu)
    · exact fun _ => h
  | crash t =>
    simp only [step]; split
    · refine ⟨h.lt, h.unfinished, fun k' hk' u hu => ?_, fun k' hk' u hu => ?_⟩ <;>
      · by_cases hut : u = t
        · subst hut; simp only [setTask_same] at hu; cases hu
        · simp only [setTask_other _ _ hut] at hu
          first | exact h.active k' hk' u hu | exact h.process k' hk' u hu
    · exact h
  | restart =>
    exact ⟨h.lt, h.unfinished, fun k' hk' => by simp [step, Dict.get?] at hk', fun k' hk' => by simp [step, Dict.get?] at hk'⟩

theorem lost_run (ids : Nat → Nat) {n : Nat} {s : State} (hg : Good s.tr) (h : Lost n s) (es : List Event) :
    Lost n (run ids s es) := by
  induction es generalizing s with
  | nil => exact h
  | cons e es ih => exact ih (good_step ids hg e) (lost_step ids hg h e)

/-- No span is in both dictionaries. -/
theorem not_both {s : Tracer} (hg : Good s) {k k' : SpanKey} {n : Nat} (h : Dict.get? s.active k = some n)
    (h' : Dict.get? s.process k' = some n) : False := by
  have h1 := (List.nodup_append'.1 (List.nodup_append'.1 hg.nodup).1).2.2
  exact h1 (List.mem_map.2 ⟨_, Dict.get?_mem _ _ _ h, rfl⟩) (List.mem_map.2 ⟨_, Dict.get?_mem _ _ _ h', rfl⟩)

theorem snd_inj {d : Dict SpanKey Nat} (hd : (d.map Prod.snd).Nodup) {k k' : SpanKey} {n : Nat} (h : (k, n) ∈ d)
    (h' : (k', n) ∈ d) : k = k' := by
  induction d with
  | nil => cases h
  | cons x xs ih =>
    simp only [List.map_cons, List.nodup_cons] at hd
    rcases List.mem_cons.1 h with e1 | h1 <;> rcases List.mem_cons.1 h' with e2 | h2
    · rw [← e1] at e2; cases e2; rfl
    · rw [← e1] at hd; exact absurd (List.mem_map.2 ⟨_, h2, rfl⟩) hd.1
    · rw [← e2] at hd; exact absurd (List.mem_map.2 ⟨_, h1, rfl⟩) hd.1
    · exact ih hd.2 h1 h2

theorem active_inj {s : Tracer} (hg : Good s) {k k' : SpanKey} {n : Nat} (h : Dict.get? s.active k = some n)
    (h' : Dict.get? s.active k' = some n) : k = k' :=
  snd_inj (List.nodup_append'.1 (List.nodup_append'.1 hg.nodup).1).1 (Dict.get?_mem _ _ _ h) (Dict.get?_mem _ _ _ h')

theorem process_inj {s : Tracer} (hg : Good s) {k k' : SpanKey} {n : Nat} (h : Dict.get? s.process k = some n)
    (h' : Dict.get? s.process k' = some n) : k = k' :=
  snd_inj (List.nodup_append'.1 (List.nodup_append'.1 hg.nodup).1).2.1 (Dict.get?_mem _ _ _ h) (Dict.get?_mem _ _ _ h')

end Verif.Traces
