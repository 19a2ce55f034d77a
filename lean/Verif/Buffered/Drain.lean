import Verif.Buffered.Awake
import Verif.Buffered.DrainSpec

/-!
# Lemmas for C82: every step of a worker uses up work
-/

set_option linter.unusedSectionVars false

namespace Verif.Buffered

open Verif.Py Verif.Queue Verif.Queue.Spec Verif.Pending

variable {K D M R S : Type} [DecidableEq K]

theorem created_nil {l : List (Task K D M)} (h : ∀ (t : Nat) (x : Task K D M), l[t]? = some x → x = .done) : created l = 0 := by
  induction l with
  | nil => rfl
  | cons a l ih =>
    have h0 := h 0 a rfl
    subst h0
    exact ih fun t x hx => h (t + 1) x (by simpa using hx)

theorem created_set {l : List (Task K D M)} {t : Nat} (h : OnlyTask l t) (ht : t < l.length) (x : Task K D M) :
    created (l.set t x) = created [x] := by
  induction l generalizing t with
  | nil => simp at ht
  | cons a l ih =>
    cases t with
    | zero =>
      have : created l = 0 := created_nil fun t x hx => h (t + 1) x (by simp) (by simpa using hx)
      cases x <;> simp [created, this]
    | succ t =>
      have h0 := h 0 a (by simp) rfl
      subst h0
      have := ih (t := t) (fun t' x hn hx => h (t' + 1) x (by omega) (by simpa using hx)) (by simpa using ht)
      simpa [created] using this

theorem created_append (l : List (Task K D M)) : created (l ++ [.scheduled]) = created l + 1 := by
  induction l with
  | nil => rfl
  | cons a l ih => cases a <;> simp [created, ih]

theorem load_push (c : Nat) (lp : List (K × PEntry K D M)) (v : PEntry K D M) (k : K) :
    load c (Spec.push lp v k) ≤ load c lp + left c v.retries := by
  unfold Spec.push
  split
  · omega
  · simp [load]

/-- The work of one task. -/
def taskLoad (c : Nat) : Task K D M → Nat
  | .scheduled => 1
  | .inFlight e => left c e.retries
  | .done => 0

/-- The work of a state in which only task `t` may be alive. -/
theorem toDo_only {l : List (Task K D M)} {t : Nat} (h : OnlyTask l t) (ht : t < l.length) (c : Nat) (lp : List (K × PEntry K D M)) (x : Task K D M) :
    toDo c lp (l.set t x) = load c lp + taskLoad c x := by
  unfold toDo
  rw [inFlight_set h ht, created_set h ht]
  cases x <;> simp [inFlight, created, taskLoad]

theorem toDo_at {l : List (Task K D M)} {t : Nat} {x} (h : OnlyTask l t) (hx : l[t]? = some x) (c : Nat) (lp : List (K × PEntry K D M)) :
    toDo c lp l = load c lp + taskLoad c x := by
  have := toDo_only h (List.getElem?_eq_some_iff.mp hx).1 c lp x
  rwa [set_same hx] at this

theorem endTask_tasks (s : St K D M R S) (t : Nat) : (s.endTask t).tasks = s.tasks.set t .done := by
  unfold St.endTask St.shutDownCheck
  split <;> rfl

/-- After a turn of the loop there is no more to do than what was pending. -/
theorem loop_toDo {cfg : Cfg K D M R S} (hc : cfg.codecs.Lawful) {s : St K D M R S} {t : Nat} (h : Mid s t) {lp le}
    (hi : Pending.Inv cfg.codecs s.pair lp le) (c : Nat) :
    toDo c (turn (R := R) cfg.build s.paused lp).1 (s.loop cfg t).tasks ≤ load c lp := by
  unfold St.loop
  by_cases hcond : (!s.paused && s.pair.hasPending) = true
  · rw [if_pos hcond]
    simp only [Bool.and_eq_true, Bool.not_eq_true'] at hcond
    have hp : lp ≠ [] := (hasPending_iff hc hi).mp hcond.2
    obtain ⟨⟨k, e⟩, rest, rfl⟩ : ∃ x rest, lp = x :: rest := by
      cases lp with
      | nil => exact absurd rfl hp
      | cons x r => exact ⟨x, r, rfl⟩
    obtain ⟨h1, h2⟩ := inv_pop hi
    have e1 : s.pair.pop cfg.codecs = (.ok (some e), (s.pair.pop cfg.codecs).2) := by
      rw [← show (s.pair.pop cfg.codecs).1 = .ok (some e) from h1]
    rw [e1]
    cases hb : cfg.build e.data with
    | none =>
      have htu : turn (R := R) cfg.build s.paused ((k, e) :: rest) = (rest, [.lost k]) := by
        rw [hcond.1]; simp only [turn, hb]
      rw [htu]
      simp only [hb]
      rw [endTask_tasks]
      simp only [St.emit]
      rw [toDo_only h.only h.lt]
      simp [load, taskLoad]
    | some d =>
      have htu : turn (R := R) cfg.build s.paused ((k, e) :: rest) = (rest, [.started { e with data := d }]) := by
        rw [hcond.1]; simp only [turn, hb]
      rw [htu]
      simp only [hb, St.emit]
      rw [toDo_only h.only h.lt]
      simp only [load, taskLoad, List.map_cons, List.sum_cons]
      omega
  · rw [if_neg hcond, endTask_tasks, toDo_only h.only h.lt]
    have : load c (turn (R := R) cfg.build s.paused lp).1 ≤ load c lp := by
      cases s.paused with
      | true => exact Nat.le_refl _
      | false =>
        cases lp with
        | nil => exact Nat.le_refl _
        | cons x r =>
          obtain ⟨k, e⟩ := x
          simp only [turn]
          cases cfg.build e.data <;> simp [load]
    simpa [taskLoad] using this

theorem start_toDo {cfg : Cfg K D M R S} (hc : cfg.codecs.Lawful) {s s' : St K D M R S} {t : Nat} {lp le} (hT : Tasks s)
    (hi : Pending.Inv cfg.codecs s.pair lp le) (hs : s.start cfg t = some s') :
    ∃ lp', Pending.Inv cfg.codecs s'.pair lp' le ∧ toDo (cap cfg) lp' s'.tasks < toDo (cap cfg) lp s.tasks := by
  have hs0 := hs
  unfold St.start at hs
  split at hs
  · rename_i ht
    rw [← Option.some.inj hs]
    have hm := start_mid hT ht
    refine ⟨_, (loop_turn hc hm (lp := lp) (le := le) hi).1, ?_⟩
    have h1 := loop_toDo hc hm (lp := lp) (le := le) hi (cap cfg)
    have h2 := toDo_at (hT.onlyTask ht (by simp)) ht (cap cfg) lp
    simp only [taskLoad] at h2
    omega
  · cases hs

theorem left_pos (c r : Nat) : 0 < left c r := by unfold left; omega

theorem finish_toDo {cfg : Cfg K D M R S} (hc : cfg.codecs.Lawful) {s s' : St K D M R S} {t : Nat} {o : Outcome R} {lp le} (hT : Tasks s)
    (hi : Pending.Inv cfg.codecs s.pair lp le) (hs : s.finish cfg t o = some s') :
    ∃ lp' le', Pending.Inv cfg.codecs s'.pair lp' le' ∧ toDo (cap cfg) lp' s'.tasks < toDo (cap cfg) lp s.tasks := by
  obtain ⟨e, ht⟩ := finish_flight hs
  have hm := flight_mid hT ht
  have h2 := toDo_at (hT.onlyTask ht (by simp)) ht (cap cfg) lp
  simp only [taskLoad] at h2
  have hpos := left_pos (cap cfg) e.retries
  unfold St.finish at hs
  rw [ht] at hs
  simp only [Option.some.injEq] at hs
  subst hs
  have push : ∀ (p : Except PyErr Unit × Pair K S) {lp1 le1}, p.1 = .ok () → Pending.Inv cfg.codecs p.2 lp1 le1 →
      ∃ lp' le', Pending.Inv cfg.codecs (s.afterPush cfg t e.key p).pair lp' le' ∧
        toDo (cap cfg) lp' (s.afterPush cfg t e.key p).tasks ≤ load (cap cfg) lp1 := by
    rintro ⟨p1, p2⟩ lp1 le1 hp hi1
    simp only at hp hi1
    subst hp
    have hm1 : Mid ({ s with pair := p2 }.emit (.failed e.key)) t := (hm.withPair _).emit _
    exact ⟨_, _, (loop_turn hc hm1 (lp := lp1) (le := le1) hi1).1, loop_toDo hc hm1 (lp := lp1) (le := le1) hi1 _⟩
  cases o with
  | ok =>
    have hm1 := hm.emit (.succeeded e.key)
    refine ⟨_, _, (loop_turn hc hm1 (lp := lp) (le := le) hi).1, ?_⟩
    have h1 := loop_toDo hc hm1 (lp := lp) (le := le) hi (cap cfg)
    simp only at h1 ⊢
    omega
  | retry =>
    simp only
    by_cases hge : ((e.retries + 1 : Nat) : Int) ≥ cfg.maxRetries
    · simp only [if_pos hge]
      obtain ⟨g1, g2⟩ := inv_pushError hc hi e.key e.data cfg.reason (cfg.keep e.md)
      obtain ⟨lp', le', i1, i2⟩ := push _ g1 g2
      exact ⟨lp', le', i1, by omega⟩
    · simp only [if_neg hge]
      obtain ⟨g1, g2⟩ := inv_pushPending hc hi e.key e.data (e.retries + 1) (cfg.keep e.md)
      obtain ⟨lp', le', i1, i2⟩ := push _ g1 g2
      refine ⟨lp', le', i1, ?_⟩
      have h3 := load_push (cap cfg) lp ⟨e.key, e.retries + 1, e.data, cfg.keep e.md⟩ e.key
      have h4 : left (cap cfg) (e.retries + 1) < left (cap cfg) e.retries := by
        unfold left cap
        omega
      simp only at h3
      omega
  | fatal r =>
    obtain ⟨g1, g2⟩ := inv_pushError hc hi e.key e.data r (cfg.keep e.md)
    obtain ⟨lp', le', i1, i2⟩ := push _ g1 g2
    exact ⟨lp', le', i1, by simp only; omega⟩
  | raise =>
    refine ⟨lp, le, ?_, ?_⟩
    · obtain ⟨_, _, g3, _⟩ := (hm.emit (Ev.lost e.key)).endTasks
      simp only
      rw [g3]
      exact hi
    · simp only
      rw [endTask_tasks]
      simp only [St.emit]
      rw [toDo_only hm.only hm.lt]
      simp only [taskLoad]
      omega

theorem check_toDo (s : St K D M R S) (c : Nat) (lp : List (K × PEntry K D M)) : toDo c lp s.check.tasks ≤ toDo c lp s.tasks + 1 := by
  unfold St.check
  split
  · simp only [toDo, inFlight_append, created_append]; omega
  · omega

/-! ## Nothing is possible any more -/

/-- No worker can do anything only if all have ended. -/
theorem all_done {cfg : Cfg K D M R S} {s : St K D M R S} (h1 : ∀ t, s.start cfg t = none) (h2 : ∀ t, s.finish cfg t .ok = none) :
    ∀ (t : Nat) (x : Task K D M), s.tasks[t]? = some x → x = .done := by
  intro t x hx
  cases x with
  | done => rfl
  | scheduled =>
    have := h1 t
    unfold St.start at this
    rw [hx] at this
    cases this
  | inFlight e =>
    have := h2 t
    unfold St.finish at this
    rw [hx] at this
    cases this

theorem noWorker_of_done {s : St K D M R S} (hT : Tasks s) (h : ∀ (t : Nat) (x : Task K D M), s.tasks[t]? = some x → x = .done) : s.noWorker = true := by
  cases hn : s.noWorker with
  | true => rfl
  | false =>
    obtain ⟨t, h1 | ⟨e, h1⟩⟩ := alive_task hT hn
    · have := h t _ h1; cases this
    · have := h t _ h1; cases this

theorem empty_of_done {cfg : Cfg K D M R S} (hc : cfg.codecs.Lawful) {s : St K D M R S} (hT : Tasks s) {lp le}
    (hi : Pending.Inv cfg.codecs s.pair lp le) (ha : Awake s) (hp : s.paused = false) (hl : lostKeys s.log = [])
    (h : ∀ (t : Nat) (x : Task K D M), s.tasks[t]? = some x → x = .done) : lp = [] := by
  rcases ha (noWorker_of_done hT h) with g | g | g
  · rw [hp] at g; cases g
  · by_contra hne
    have := (hasPending_iff hc hi).mpr hne
    rw [g] at this
    cases this
  · exact absurd hl g

/-! ## What a worker leaves alone -/

theorem found_turn {build : D → Option D} {p : Bool} {lp : List (K × PEntry K D M)} {e : Ev K D M R} (h : e ∈ (turn build p lp).2) :
    (∃ x, e = .started x) ∨ ∃ k, e = .lost k := by
  cases p with
  | true => simp [turn] at h
  | false =>
    cases lp with
    | nil => simp [turn] at h
    | cons x r =>
      obtain ⟨k, x⟩ := x
      simp only [turn] at h
      cases hb : build x.data with
      | none => rw [hb] at h; simp at h; exact .inr ⟨_, h⟩
      | some d => rw [hb] at h; simp at h; exact .inl ⟨_, h⟩

/-- A worker neither pauses nor finds nor takes in nor forgets. -/
theorem worker_log {cfg : Cfg K D M R S} (hc : cfg.codecs.Lawful) {s s' : St K D M R S} {lp le} (hT : Tasks s)
    (hi : Pending.Inv cfg.codecs s.pair lp le) (hs : (∃ t, s.start cfg t = some s') ∨ ∃ t o, s.finish cfg t o = some s') :
    s'.paused = s.paused ∧ (∀ e, .found e ∈ s'.log → .found e ∈ s.log) ∧ (∀ e, .foundFailed e ∈ s'.log → .foundFailed e ∈ s.log) ∧
      known s'.log = known s.log ∧ ∀ e, e ∈ s.log → e ∈ s'.log := by
  have kt : ∀ (p : Bool) (lp : List (K × PEntry K D M)), known (turn (R := R) cfg.build p lp).2 = [] := by
    intro p lp
    cases p with
    | true => rfl
    | false =>
      cases lp with
      | nil => rfl
      | cons x r =>
        obtain ⟨k, x⟩ := x
        simp only [turn]
        cases cfg.build x.data <;> rfl
  rcases hs with ⟨t, hs⟩ | ⟨t, o, hs⟩
  · obtain ⟨_, g2, g3, _⟩ := start_turn hc hT hi hs
    refine ⟨g3, fun e he => ?_, fun e he => ?_, by rw [g2, known_append, kt]; rfl, fun e he => by rw [g2]; exact List.mem_append_right _ he⟩
    · rw [g2, List.mem_append] at he
      rcases he with he | he
      · rcases found_turn he with ⟨_, h⟩ | ⟨_, h⟩ <;> cases h
      · exact he
    · rw [g2, List.mem_append] at he
      rcases he with he | he
      · rcases found_turn he with ⟨_, h⟩ | ⟨_, h⟩ <;> cases h
      · exact he
  · obtain ⟨e0, ht⟩ := finish_flight hs
    by_cases ho : o = .raise
    · subst ho
      obtain ⟨_, g2, g3, _⟩ := raise_result hT ht hs
      rw [g2]
      exact ⟨g3, fun e he => by simpa using he, fun e he => by simpa using he, rfl, fun e he => List.mem_cons_of_mem _ he⟩
    · obtain ⟨_, g2, g3, _⟩ := finish_turn hc hT hi ht ho hs
      have ek : known (endEvent e0.key o :: s.log) = known s.log := by cases o <;> rfl
      refine ⟨g3, fun e he => ?_, fun e he => ?_, by rw [g2, known_append, kt, ek]; rfl,
        fun e he => by rw [g2]; exact List.mem_append_right _ (List.mem_cons_of_mem _ he)⟩
      · rw [g2, List.mem_append, List.mem_cons] at he
        rcases he with he | he | he
        · rcases found_turn he with ⟨_, h⟩ | ⟨_, h⟩ <;> cases h
        · cases o <;> cases he
        · exact he
      · rw [g2, List.mem_append, List.mem_cons] at he
        rcases he with he | he | he
        · rcases found_turn he with ⟨_, h⟩ | ⟨_, h⟩ <;> cases h
        · cases o <;> cases he
        · exact he

end Verif.Buffered
