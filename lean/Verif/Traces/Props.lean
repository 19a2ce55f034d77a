import Verif.Traces.Lemmas

/-!
# C71, C72: tracing

`ids` gives the 64-bit id OpenTelemetry chooses for each span; nothing is assumed about it except, where a parent is concerned, that it
is a positive 64-bit number.
-/

namespace Verif.Traces

open Verif.Py Verif.Span

/-- A key, for examples. -/
def exKey (n : Nat) : SpanKey := ⟨7, ⟨n + 1⟩⟩

/-! ## C71 -/

/-- C71, in part: whatever happens, no span is finished twice, and only spans that were started are finished. -/
theorem C71_once (ids : Nat → Nat) (es : List Event) :
    ((run ids init es).tr.ended.map End.span).Nodup ∧
    ∀ x ∈ (run ids init es).tr.ended, x.span < (run ids init es).tr.started.length := by
  have hg := good_run ids good_init es
  refine ⟨(List.nodup_append'.1 hg.nodup).2.1, fun x hx => hg.lt _ ?_⟩
  exact List.mem_append_right _ (List.mem_map.2 ⟨x, hx, rfl⟩)

/-- C71, in part: every span comes from one request that arrived or one attempt that began, in that order, and is named after it. -/
theorem C71_source (ids : Nat → Nat) (es : List Event) (n : Nat) (x : Span) (h : (run ids init es).tr.started[n]? = some x) :
    Source ids es n x := by
  induction es using List.reverseRecOn with
  | nil => simp [run, init] at h
  | append_singleton es e ih =>
    rw [run_append] at h
    generalize hs : run ids init es = s at h ih
    have hlast : ∀ y : Span, (step ids s e).tr.started = s.tr.started ++ [y] → s.tr.started[n]? = some x ∨
        (n = s.tr.started.length ∧ x = y) := by
      intro y hy
      have h' : (step ids s e).tr.started[n]? = some x := h
      rw [hy] at h'
      by_cases hlt : n < s.tr.started.length
      · rw [List.getElem?_append_left hlt] at h'; exact Or.inl h'
      · right
        rw [List.getElem?_append_right (by omega)] at h'
        have : n - s.tr.started.length = 0 := by
          by_contra hc
          rw [List.getElem?_eq_none (by simp; omega)] at h'; cases h'
        rw [this] at h'
        simp only [List.getElem?_cons_zero, Option.some.injEq] at h'
        exact ⟨by omega, h'.symm⟩
    have hold : s.tr.started[n]? = some x → Source ids (es ++ [e]) n x := fun h' => by
      obtain ⟨pre, e', post, h1, h2, h3⟩ := ih h'
      exact ⟨pre, e', post ++ [e], by rw [h1]; simp, h2, h3⟩
    have same : (step ids s e).tr.started = s.tr.started → s.tr.started[n]? = some x := fun h' => by
      have h'' : (step ids s e).tr.started[n]? = some x := h
      rwa [h'] at h''
    cases e with
    | arrive t k route =>
      by_cases hi : s.tasks t = .idle
      · have hst : ∃ y : Span, y.name = route ∧ (step ids s (.arrive t k route)).tr.started = s.tr.started ++ [y] := by
          simp only [step, hi, beforeRouting]
          cases k.bytes <;> exact ⟨_, rfl, rfl⟩
        obtain ⟨y, hy, hst⟩ := hst
        rcases hlast y hst with h' | ⟨hn, rfl⟩
        · exact hold h'
        · exact ⟨es, _, [], rfl, by rw [hs, hn], Or.inl ⟨t, k, route, rfl, hy⟩⟩
      · refine hold (same ?_)
        simp only [step]
        try (split <;> first | contradiction | rfl)
    | attempt t i cls r =>
      by_cases hi : s.tasks t = .idle
      · cases hq : s.queued[i]? with
        | none =>
          refine hold (same ?_)
          simp only [step, hi, hq]
        | some item =>
          have hst : ∃ y : Span, y.name = cls ++ ['.', 'p', 'r', 'o', 'c', 'e', 's', 's'] ∧
              (step ids s (.attempt t i cls r)).tr.started = s.tr.started ++ [y] := by
            simp only [step, hi, hq, beforeProcess]
            cases item.key.bytes <;> exact ⟨_, rfl, rfl⟩
          obtain ⟨y, hy, hst⟩ := hst
          rcases hlast y hst with h' | ⟨hn, rfl⟩
          · exact hold h'
          · exact ⟨es, _, [], rfl, by rw [hs, hn], Or.inr ⟨t, i, cls, r, rfl, hy⟩⟩
      · refine hold (same ?_)
        simp only [step]
        try (split <;> first | contradiction | rfl)
    | push t => exact hold (same (by simp only [step]; split <;> rfl))
    | respond t =>
      refine hold (same ?_)
      simp only [step]; split
      · exact (afterRouting_ext _ _).1
      · rfl
    | fail t => exact hold (same (by simp only [step]; split <;> rfl))
    | stored k => exact hold (same rfl)
    | result t b =>
      refine hold (same ?_)
      simp only [step]; split
      · exact (afterProcess_ext _ _ _).1
      · rfl
    | crash t => exact hold (same (by simp only [step]; split <;> rfl))
    | restart => exact hold (same rfl)

/-- C71, in part: a request in progress has its span, a child of the caller's, and it is not finished. The full property has no
condition; this one asks that no other request with the same span key comes or goes meanwhile. -/
theorem C71_running_partial (ids : Nat → Nat) (pre mid : List Event) (t : Nat) (k : SpanKey) (route : List Char)
    (hf : ∀ e ∈ pre, e.task ≠ some t) (hk : Traceable k) (hm : Undisturbed t k pre mid) :
    let s := run ids init (pre ++ .arrive t k route :: mid)
    let n := (run ids init pre).tr.started.length
    s.tr.started[n]? = some (requestSpan k route) ∧ Unfinished s n := by
  obtain ⟨_, h2, h3⟩ := request_mid ids pre mid t k route hf hk hm
  exact ⟨h3, unfinished_active (good_run ids good_init _) h2⟩

/-- C71, in part: a request that is handled has exactly one span, named after its route and child of the caller's span, which is finished
exactly once, with status OK, whatever happens before, meanwhile and afterwards. The full property has no condition; this one asks that the
request is handled without exception, and that no other request with the same span key comes or goes meanwhile. -/
theorem C71_request_partial (ids : Nat → Nat) (pre mid post : List Event) (t : Nat) (k : SpanKey) (route : List Char)
    (hf : ∀ e ∈ pre, e.task ≠ some t) (hk : Traceable k) (hm : Undisturbed t k pre mid) :
    let s := run ids init (pre ++ .arrive t k route :: mid ++ .respond t :: post)
    let n := (run ids init pre).tr.started.length
    s.tr.started[n]? = some (requestSpan k route) ∧ Finished s n { span := n, ok := true, success := none } := by
  obtain ⟨h1, h2, h3⟩ := request_mid ids pre mid t k route hf hk hm
  have hg : Good (run ids init (pre ++ .arrive t k route :: mid ++ .respond t :: post)).tr := good_run ids good_init _
  simp only
  rw [run_append, run_cons] at hg ⊢
  generalize run ids init (pre ++ .arrive t k route :: mid) = s at h1 h2 h3 hg
  have hx := ext_run ids (step ids s (.respond t)) post
  refine ⟨prefix_getElem? ((ext_step ids s (.respond t)).trans hx).started h3, ?_⟩
  refine finished_of_mem (e := ⟨_, true, none⟩) hg (hx.ended.subset ?_)
  obtain ⟨b, hb⟩ := bytes_ok hk.proper
  simp [step, h1, afterRouting, hb, h2]

/-- The hypotheses can be met: two requests at once, the second one undisturbed by the first. -/
example : Undisturbed 1 (exKey 1) [.arrive 0 (exKey 0) "a".toList] [.push 1, .respond 0, .arrive 2 (exKey 2) []] ∧
    Traceable (exKey 1) := by
  refine ⟨⟨by decide, by decide, fun u r h => by simp [exKey] at h, fun u h r h' => ?_⟩, by decide⟩
  simp [exKey] at h'

/-- C71, in part: the span of a request whose handling raises is never finished, whatever happens afterwards. (The full property asks for
the opposite.) -/
theorem C71_failed_lost (ids : Nat → Nat) (pre mid post : List Event) (t : Nat) (k : SpanKey) (route : List Char)
    (hf : ∀ e ∈ pre, e.task ≠ some t) (hk : Traceable k) (hm : Undisturbed t k pre mid) (hp : ∀ u r, Event.arrive u k r ∉ pre) :
    let s := run ids init (pre ++ .arrive t k route :: mid ++ .fail t :: post)
    let n := (run ids init pre).tr.started.length
    s.tr.started[n]? = some (requestSpan k route) ∧ Unfinished s n := by
  obtain ⟨h1, h2, h3⟩ := request_mid ids pre mid t k route hf hk hm
  have hg : Good (run ids init (pre ++ .arrive t k route :: mid)).tr := good_run ids good_init _
  have honly : ∀ u, u ≠ t → (run ids init (pre ++ .arrive t k route :: mid)).tasks u ≠ .serving k := by
    intro u hu hs
    obtain ⟨r, hr⟩ := serving_run ids _ u k hs
    rcases List.mem_append.1 hr with h | h
    · exact hp u r h
    rcases List.mem_cons.1 h with h | h
    · cases h; exact hu rfl
    · exact hm.no_arrival u r h
  simp only
  rw [run_append, run_cons]
  generalize run ids init (pre ++ .arrive t k route :: mid) = s at h1 h2 h3 hg honly
  have hx := (ext_step ids s (.fail t)).trans (ext_run ids (step ids s (.fail t)) post)
  refine ⟨prefix_getElem? hx.started h3, ?_⟩
  refine (lost_run ids (good_step ids hg (.fail t)) ?_ post).unfinished
  have hstep : step ids s (.fail t) = { s with tasks := setTask s.tasks t .over } := by simp [step, h1]
  rw [hstep]
  refine ⟨?_, unfinished_active (s := s) hg h2, fun k' hk' u hu => ?_, fun k' hk' => (not_both hg h2 hk').elim⟩
  · by_contra hc
    rw [List.getElem?_eq_none (Nat.le_of_not_lt hc)] at h3; cases h3
  · cases active_inj hg h2 hk'
    by_cases hut : u = t
    · subst hut; simp only [setTask_same] at hu; cases hu
    · simp only [setTask_other _ _ hut] at hu; exact honly u hut hu

/-- C71 is false of the code: a request whose handler raises (an answer that says so is sent) is never exported as a span. -/
theorem C71_failed_refuted :
    ∃ (t : Nat) (k : SpanKey) (route : List Char), Traceable k ∧ ∀ ids post,
      Unfinished (run ids init (.arrive t k route :: .fail t :: post)) 0 := by
  refine ⟨0, exKey 0, [], by decide, fun ids post => ?_⟩
  exact (C71_failed_lost ids [] [] post 0 (exKey 0) [] (by simp) (by decide)
    ⟨by simp, by simp, by simp, by simp⟩ (by simp)).2

theorem exKey_traceable (n : Nat) (hn : n + 1 < 2 ^ 64) : Traceable (exKey n) :=
  ⟨by simp [exKey], by simp [exKey], by simp only [exKey]; omega, by simp only [exKey]; omega⟩

/-- Requests that fail one after the other. -/
def failures : Nat → List Event
  | 0 => []
  | n + 1 => failures n ++ [.arrive n (exKey n) [], .fail n]

theorem failures_task (n : Nat) : ∀ e ∈ failures n, ∀ m, n ≤ m → e.task ≠ some m := by
  induction n with
  | zero => simp [failures]
  | succ n ih =>
    intro e he m hm
    simp only [failures, List.mem_append, List.mem_cons, List.not_mem_nil, or_false] at he
    rcases he with he | rfl | rfl
    · exact ih e he m (by omega)
    · simp only [Event.task, ne_eq, Option.some.injEq]; omega
    · simp only [Event.task, ne_eq, Option.some.injEq]; omega

theorem failures_run (ids : Nat → Nat) (n : Nat) (hn : ∀ i < n, Traceable (exKey i)) :
    (run ids init (failures n)).tr.started.length = n ∧
    (run ids init (failures n)).tr.active = (List.range n).map (fun i => (exKey i, i)) ∧
    ∀ u k, (run ids init (failures n)).tasks u ≠ .serving k := by
  induction n with
  | zero => exact ⟨rfl, rfl, fun u k h => by cases h⟩
  | succ n ih =>
    obtain ⟨h0, h1, h2⟩ := ih (fun i hi => hn i (Nat.lt_succ_of_lt hi))
    have hi := idle_run ids init (failures n) n rfl (fun e he => failures_task n e he n (Nat.le_refl _))
    have hk : Traceable (exKey n) := hn n (Nat.lt_succ_self n)
    simp only [failures, run_append]
    generalize run ids init (failures n) = s at h0 h1 h2 hi
    have hnk : exKey n ∉ Dict.keys s.tr.active := by
      rw [h1]
      simp only [Dict.keys, List.map_map, List.mem_map, List.mem_range, not_exists, not_and]
      intro x hx h
      simp only [Function.comp, exKey, SpanKey.mk.injEq, SpanId.mk.injEq, true_and] at h
      omega
    obtain ⟨a1, a2, a3⟩ := arrive_step ids s n (exKey n) [] hi hk
    have hact : (step ids s (.arrive n (exKey n) [])).tr.active = s.tr.active ++ [(exKey n, n)] := by
      rw [arrive_active ids s n _ [] hi hk, Dict.set_of_not_mem _ _ _ hnk, h0]
    have htask : ∀ u, u ≠ n → (step ids s (.arrive n (exKey n) [])).tasks u = s.tasks u := fun u hu =>
      task_step ids s _ u (by simp only [Event.task, ne_eq, Option.some.injEq]; exact fun h => hu h.symm) (by simp)
    show (step ids (step ids s (.arrive n (exKey n) [])) (.fail n)).tr.started.length = _ ∧
      (step ids (step ids s (.arrive n (exKey n) [])) (.fail n)).tr.active = _ ∧
      ∀ u k, (step ids (step ids s (.arrive n (exKey n) [])) (.fail n)).tasks u ≠ _
    generalize step ids s (.arrive n (exKey n) []) = s' at a1 a2 hact htask
    have hstep : step ids s' (.fail n) = { s' with tasks := setTask s'.tasks n .over } := by simp [step, a2]
    rw [hstep]
    refine ⟨by simp only; rw [a1]; simp [h0], ?_, fun u k hu => ?_⟩
    · simp only; rw [hact, h1, List.range_succ]; simp
    · by_cases hut : u = n
      · subst hut; simp only [setTask_same] at hu; cases hu
      · simp only [setTask_other _ _ hut] at hu; rw [htask u hut] at hu; exact h2 u k hu

/-- C71 is false of the code: spans of failed requests stay in memory, as many as requests failed, while no request is in progress. -/
theorem C71_leak_refuted (ids : Nat → Nat) (n : Nat) (hn : n < 2 ^ 64) :
    (run ids init (failures n)).tr.active = (List.range n).map (fun i => (exKey i, i)) ∧
    ∀ u k, (run ids init (failures n)).tasks u ≠ .serving k :=
  (failures_run ids n (fun i hi => exKey_traceable i (Nat.lt_of_le_of_lt hi hn))).2

/-- C71 is false of the code: when a caller repeats a request with the same span key while the first is still being handled, both are
handled, but one of the two spans is finished too early, when the other request ends, and one is never finished. -/
theorem C71_same_key_refuted (ids : Nat → Nat) :
    let both : List Event := [.arrive 0 (exKey 0) [], .arrive 1 (exKey 0) [], .respond 0]
    (run ids init both).tr.ended = [⟨1, true, none⟩] ∧ (run ids init both).tasks 1 = .serving (exKey 0) ∧
    ∀ post, Unfinished (run ids init (both ++ .respond 1 :: post)) 0 := by
  have hb : (exKey 0).bytes = .ok (bytesPad 16 7 ++ bytesPad 8 1) := by decide +kernel
  have hs : run ids init [.arrive 0 (exKey 0) [], .arrive 1 (exKey 0) [], .respond 0] =
      { tr := { started := [requestSpan (exKey 0) [], requestSpan (exKey 0) []], ended := [⟨1, true, none⟩], active := [],
                process := [] },
        tasks := (run ids init [.arrive 0 (exKey 0) [], .arrive 1 (exKey 0) [], .respond 0]).tasks, queued := [] } := by
    simp [run, step, init, beforeRouting, hb, setTask, Dict.set, afterRouting, Dict.get?, Dict.erase]
    decide +kernel
  refine ⟨by rw [hs], by simp [run, step, init, beforeRouting, hb, setTask], fun post => ?_⟩
  rw [run_append]
  have hg : Good (run ids init [.arrive 0 (exKey 0) [], .arrive 1 (exKey 0) [], .respond 0]).tr := good_run ids good_init _
  refine (lost_run ids hg ?_ _).unfinished
  refine ⟨by rw [hs]; simp, ?_, ?_, ?_⟩
  · rw [hs]; intro x hx; simp only [List.mem_singleton] at hx; subst hx; decide
  · rw [hs]; intro k hk; simp [Dict.get?] at hk
  · rw [hs]; intro k hk; simp [Dict.get?] at hk

/-- C71 is false of the code: a span key with a zero in it is accepted, but its span then belongs to a trace of its own. -/
theorem C71_zero_refuted (ids : Nat → Nat) (k : SpanKey) (h : k.trace = 0 ∨ k.span.value = 0) :
    (run ids init [.arrive 0 k []]).tr.started.map Span.parent = [none] := by
  have hc : context k.trace k.span.value true = none := by
    unfold context; rw [if_neg]; rintro ⟨h1, _, h2, _⟩; omega
  show (step ids init (.arrive 0 k [])).tr.started.map Span.parent = _
  simp only [step, init, beforeRouting]
  cases k.bytes <;> simp [hc]

/-- There are such keys, and they have a byte form. -/
example : Proper ⟨0, ⟨5⟩⟩ ∧ Proper ⟨5, ⟨0⟩⟩ := by decide

/-! ## C72 -/

/-- C72, in part: work queued while its request is in progress is, at every attempt, however often and however much later, also after
restarts, traced as a child of the request's span, in the caller's trace, with its retry count. The full property has no condition; this
one asks that no other request with the same span key comes or goes before the work is queued. -/
theorem C72_child_partial (ids : Nat → Nat) (pre mid rest post : List Event) (t a : Nat) (k : SpanKey) (route cls : List Char)
    (r : Nat) (hf : ∀ e ∈ pre, e.task ≠ some t) (hk : Traceable k) (hm : Undisturbed t k pre mid)
    (ha : ∀ e ∈ pre ++ .arrive t k route :: mid ++ .push t :: rest, e.task ≠ some a)
    (hid : ∀ n, 0 < ids n ∧ ids n < 2 ^ 64) :
    let n := (run ids init pre).tr.started.length
    let i := (run ids init (pre ++ .arrive t k route :: mid)).queued.length
    let before := pre ++ .arrive t k route :: mid ++ .push t :: rest
    let s := run ids init (before ++ .attempt a i cls r :: post)
    s.tr.started[n]? = some (requestSpan k route) ∧
    s.tr.started[(run ids init before).tr.started.length]? = some (attemptSpan k cls r (ids n) false) := by
  obtain ⟨h1, h2, h3⟩ := request_mid ids pre mid t k route hf hk hm
  have hidle := idle_run ids init _ a rfl ha
  obtain ⟨b, hb⟩ := bytes_ok hk.proper
  simp only
  rw [run_append ids init (pre ++ _ ++ _)]
  rw [run_append ids init (pre ++ _), run_cons ids _ (.push t) rest] at hidle ⊢
  generalize run ids init (pre ++ .arrive t k route :: mid) = s at h1 h2 h3 hidle
  have hpush : step ids s (.push t) = { s with queued := s.queued ++ [⟨k, some (ids (run ids init pre).tr.started.length)⟩] } := by
    simp [step, h1, beforePush, hb, h2]
  have hx := ext_run ids (step ids s (.push t)) rest
  have hq : (run ids (step ids s (.push t)) rest).queued[s.queued.length]? =
      some ⟨k, some (ids (run ids init pre).tr.started.length)⟩ := by
    refine prefix_getElem? hx.queued ?_
    rw [hpush]; simp
  have hst := prefix_getElem? ((ext_step ids s (.push t)).trans hx).started h3
  generalize run ids (step ids s (.push t)) rest = s' at hidle hq hst ⊢
  rw [run_cons]
  have hx' := ext_run ids (step ids s' (.attempt a s.queued.length cls r)) post
  obtain ⟨a1, _, _⟩ := attempt_step ids s' a s.queued.length _ cls r hidle hq hk
    (fun j hj => by simp only [Option.some.injEq] at hj; subst hj; exact hid _)
  refine ⟨prefix_getElem? ((ext_step ids s' _).trans hx').started hst, prefix_getElem? hx'.started ?_⟩
  rw [a1]; simp

/-- C72, in part: work queued without tracing is traced as a child of the span of its span key. -/
theorem C72_stored (ids : Nat → Nat) (pre rest post : List Event) (a : Nat) (k : SpanKey) (cls : List Char)
    (r : Nat) (hk : Traceable k) (ha : ∀ e ∈ pre ++ .stored k :: rest, e.task ≠ some a) :
    let i := (run ids init pre).queued.length
    let before := pre ++ .stored k :: rest
    let s := run ids init (before ++ .attempt a i cls r :: post)
    s.tr.started[(run ids init before).tr.started.length]? = some (attemptSpan k cls r k.span.value.toNat true) := by
  have hidle := idle_run ids init _ a rfl ha
  simp only
  rw [run_append ids init (pre ++ _)]
  rw [run_append ids init pre, run_cons ids _ (.stored k) rest] at hidle ⊢
  generalize run ids init pre = s at hidle
  have hx := ext_run ids (step ids s (.stored k)) rest
  have hq : (run ids (step ids s (.stored k)) rest).queued[s.queued.length]? = some ⟨k, none⟩ := by
    refine prefix_getElem? hx.queued ?_
    simp [step]
  generalize run ids (step ids s (.stored k)) rest = s' at hidle hq ⊢
  rw [run_cons]
  have hx' := ext_run ids (step ids s' (.attempt a s.queued.length cls r)) post
  obtain ⟨a1, _, _⟩ := attempt_step ids s' a s.queued.length _ cls r hidle hq hk (fun j hj => by cases hj)
  refine prefix_getElem? hx'.started ?_
  rw [a1]; simp

/-- C72, in part: an attempt that reports a result has its span finished exactly once, with that result, whatever happens before,
meanwhile and afterwards. The full property has no condition; this one asks that the attempt does not raise and that no other
attempt with the same span key comes or goes meanwhile. -/
theorem C72_result_partial (ids : Nat → Nat) (pre mid post : List Event) (a i : Nat) (item : Item) (cls : List Char) (r : Nat)
    (success : Bool) (hf : ∀ e ∈ pre, e.task ≠ some a) (hq : (run ids init pre).queued[i]? = some item) (hk : Proper item.key)
    (hm : UndisturbedAttempt a item.key (run ids init (pre ++ .attempt a i cls r :: mid)).queued pre mid) :
    let s := run ids init (pre ++ .attempt a i cls r :: mid ++ .result a success :: post)
    let n := (run ids init pre).tr.started.length
    Finished s n { span := n, ok := false, success := some success } := by
  obtain ⟨h1, h2⟩ := attempt_mid ids pre mid a i item cls r hf hq hk hm
  have hg : Good (run ids init (pre ++ .attempt a i cls r :: mid ++ .result a success :: post)).tr := good_run ids good_init _
  simp only
  rw [run_append, run_cons] at hg ⊢
  generalize run ids init (pre ++ .attempt a i cls r :: mid) = s at h1 h2 hg
  have hx := ext_run ids (step ids s (.result a success)) post
  refine finished_of_mem (e := ⟨_, false, some success⟩) hg (hx.ended.subset ?_)
  obtain ⟨b, hb⟩ := bytes_ok hk
  simp [step, h1, afterProcess, hb, h2]

/-- The hypotheses can be met: work queued by two requests, attempted side by side by two endpoints, the second retried. -/
example : let pre : List Event := [.arrive 0 (exKey 0) [], .push 0, .arrive 1 (exKey 1) [], .push 1, .attempt 2 0 [] 0]
    let mid : List Event := [.respond 0, .result 2 false, .attempt 4 0 [] 1]
    (run id init pre).queued[1]? = some ⟨exKey 1, some 1⟩ ∧
    UndisturbedAttempt 3 (exKey 1) (run id init (pre ++ .attempt 3 1 [] 0 :: mid)).queued pre mid := by
  have hq : ∀ mid', (run id init ([.arrive 0 (exKey 0) [], .push 0, .arrive 1 (exKey 1) [], .push 1, .attempt 2 0 [] 0] ++ mid')).queued.take 2
      = [⟨exKey 0, some 0⟩, ⟨exKey 1, some 1⟩] := by
    intro mid'
    rw [run_append]
    obtain ⟨c, hc⟩ := (ext_run id (run id init [.arrive 0 (exKey 0) [], .push 0, .arrive 1 (exKey 1) [], .push 1, .attempt 2 0 [] 0]) mid').queued
    have h2 : (run id init [.arrive 0 (exKey 0) [], .push 0, .arrive 1 (exKey 1) [], .push 1, .attempt 2 0 [] 0]).queued =
      [⟨exKey 0, some 0⟩, ⟨exKey 1, some 1⟩] := by decide +kernel
    rw [← hc, h2]; rfl
  simp only
  refine ⟨by decide +kernel, ⟨by decide, by decide, ?_, ?_⟩⟩
  · intro u i cls r h item hi
    simp only [List.mem_cons, reduceCtorEq, Event.attempt.injEq, List.not_mem_nil, or_false, false_or] at h
    obtain ⟨rfl, rfl, rfl, rfl⟩ := h
    have h0 := congrArg (fun l => l[0]?) (hq (.attempt 3 1 [] 0 :: [.respond 0, .result 2 false, .attempt 4 0 [] 1]))
    simp only [List.getElem?_take, Nat.zero_lt_succ, if_true, List.getElem?_cons_zero] at h0
    rw [hi] at h0; cases h0; decide
  · intro u b h i cls r h' item hi
    simp only [List.mem_cons, reduceCtorEq, Event.attempt.injEq, List.not_mem_nil, or_false, false_or] at h'
    obtain ⟨rfl, rfl, rfl, rfl⟩ := h'
    have h0 := congrArg (fun l => l[0]?) (hq (.attempt 3 1 [] 0 :: [.respond 0, .result 2 false, .attempt 4 0 [] 1]))
    simp only [List.getElem?_take, Nat.zero_lt_succ, if_true, List.getElem?_cons_zero] at h0
    rw [hi] at h0; cases h0; decide

/-- C72, in part: the span of an attempt that raises is never finished, whatever happens afterwards. -/
theorem C72_crash_lost (ids : Nat → Nat) (pre mid post : List Event) (a i : Nat) (item : Item) (cls : List Char) (r : Nat)
    (hf : ∀ e ∈ pre, e.task ≠ some a) (hq : (run ids init pre).queued[i]? = some item) (hk : Proper item.key)
    (hm : UndisturbedAttempt a item.key (run ids init (pre ++ .attempt a i cls r :: mid)).queued pre mid)
    (hp : ∀ u j c r', Event.attempt u j c r' ∈ pre →
      ∀ it, (run ids init (pre ++ .attempt a i cls r :: mid)).queued[j]? = some it → it.key ≠ item.key) :
    Unfinished (run ids init (pre ++ .attempt a i cls r :: mid ++ .crash a :: post)) (run ids init pre).tr.started.length := by
  obtain ⟨h1, h2⟩ := attempt_mid ids pre mid a i item cls r hf hq hk hm
  have hg : Good (run ids init (pre ++ .attempt a i cls r :: mid)).tr := good_run ids good_init _
  have hlen : (run ids init pre).tr.started.length < (run ids init (pre ++ .attempt a i cls r :: mid)).tr.started.length :=
    hg.lt _ (List.mem_append_left _ (List.mem_append_right _ (List.mem_map.2 ⟨_, Dict.get?_mem _ _ _ h2, rfl⟩)))
  have honly : ∀ u, u ≠ a → (run ids init (pre ++ .attempt a i cls r :: mid)).tasks u ≠ .processing item.key := by
    intro u hu hs
    obtain ⟨j, c, r', it, hmem, hit, hkey⟩ := processing_run ids _ u item.key hs
    rcases List.mem_append.1 hmem with h | h
    · exact hp u j c r' h it hit hkey
    rcases List.mem_cons.1 h with h | h
    · cases h; exact hu rfl
    · exact hm.no_attempt u j c r' h it hit hkey
  rw [run_append, run_cons]
  generalize run ids init (pre ++ .attempt a i cls r :: mid) = s at h1 h2 hg honly hlen
  refine (lost_run ids (good_step ids hg (.crash a)) ?_ post).unfinished
  have hstep : step ids s (.crash a) = { s with tasks := setTask s.tasks a .over } := by simp [step, h1]
  rw [hstep]
  refine ⟨hlen, unfinished_process (s := s) hg h2, fun k' hk' => (not_both hg hk' h2).elim, fun k' hk' u hu => ?_⟩
  cases process_inj hg h2 hk'
  by_cases hut : u = a
  · subst hut; simp only [setTask_same] at hu; cases hu
  · simp only [setTask_other _ _ hut] at hu; exact honly u hut hu

/-- C72 is false of the code: an attempt that raises is never exported as a span. -/
theorem C72_crash_refuted (ids : Nat → Nat) (post : List Event) :
    Unfinished (run ids init (.stored (exKey 0) :: .attempt 0 0 [] 0 :: .crash 0 :: post)) 0 :=
  C72_crash_lost ids [.stored (exKey 0)] [] post 0 0 ⟨exKey 0, none⟩ [] 0 (by simp [Event.task]) rfl (by decide)
    ⟨by simp, by simp, by simp, by simp⟩ (by simp)

/-- C72 is false of the code: when two endpoints process requests with the same span key at the same time, the result of the first to
end is recorded on the span of the other one, and the span of the first is never finished. -/
theorem C72_same_key_refuted (ids : Nat → Nat) :
    let es : List Event := [.stored (exKey 0), .stored (exKey 0), .attempt 0 0 "A".toList 0, .attempt 1 1 "B".toList 0,
      .result 0 true, .result 1 false]
    (run ids init es).tr.started.map Span.name = ["A.process".toList, "B.process".toList] ∧
    (run ids init es).tr.ended = [⟨1, false, some true⟩] ∧
    ∀ post, Unfinished (run ids init (es ++ post)) 0 := by
  have hb : (exKey 0).bytes = .ok (bytesPad 16 7 ++ bytesPad 8 1) := by decide +kernel
  have hs : ((run ids init [.stored (exKey 0), .stored (exKey 0), .attempt 0 0 "A".toList 0, .attempt 1 1 "B".toList 0,
      .result 0 true, .result 1 false]).tr.started.map Span.name = ["A.process".toList, "B.process".toList]) ∧
      (run ids init [.stored (exKey 0), .stored (exKey 0), .attempt 0 0 "A".toList 0, .attempt 1 1 "B".toList 0,
      .result 0 true, .result 1 false]).tr.ended = [⟨1, false, some true⟩] ∧
      (run ids init [.stored (exKey 0), .stored (exKey 0), .attempt 0 0 "A".toList 0, .attempt 1 1 "B".toList 0,
      .result 0 true, .result 1 false]).tr.active = [] ∧
      (run ids init [.stored (exKey 0), .stored (exKey 0), .attempt 0 0 "A".toList 0, .attempt 1 1 "B".toList 0,
      .result 0 true, .result 1 false]).tr.process = [] := by
    simp [run, step, init, beforeProcess, hb, setTask, Dict.set, afterProcess, Dict.get?, Dict.erase]
  obtain ⟨h1, h2, h3, h4⟩ := hs
  refine ⟨h1, h2, fun post => ?_⟩
  rw [run_append]
  have hg : Good (run ids init [.stored (exKey 0), .stored (exKey 0), .attempt 0 0 "A".toList 0, .attempt 1 1 "B".toList 0,
      .result 0 true, .result 1 false]).tr := good_run ids good_init _
  refine (lost_run ids hg ?_ _).unfinished
  refine ⟨?_, ?_, ?_, ?_⟩
  · have := congrArg List.length h1
    rw [List.length_map] at this; rw [this]; decide
  · intro x hx; rw [h2] at hx; simp only [List.mem_singleton] at hx; subst hx; decide
  · intro k hk; rw [h3] at hk; simp [Dict.get?] at hk
  · intro k hk; rw [h4] at hk; simp [Dict.get?] at hk

end Verif.Traces
