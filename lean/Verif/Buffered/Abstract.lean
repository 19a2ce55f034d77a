import Verif.Buffered.Spec
import Verif.Pending.Lemmas

/-!
# Buffered endpoints and senders as lists and events

`Abs` is what a state amounts to: the two queue contents, accepted requests that are not queued yet, the
messages being handled and the visible events. `Micro` are the changes it can undergo. Every transition of
the model is a sequence of such changes (`core_*` lemmas).
-/

set_option linter.unusedSectionVars false

namespace Verif.Buffered

open Verif.Py Verif.Queue Verif.Queue.Spec Verif.Pending

variable {K D M R S : Type} [DecidableEq K]

/-- Contents and events. -/
structure Abs (K D M R : Type) where
  lp : List (K × PEntry K D M)
  le : List (K × EEntry K D M R)
  ext : List (K × D × M)
  fl : List (PEntry K D M)
  log : List (Ev K D M R)

/-- Which changes may occur: failures other than retryable ones, attempts ended by an exception, accepted
payloads that were not built by `build`. -/
structure Allow where
  fatal : Bool
  crash : Bool
  odd : Bool

/-- Changes of `Abs`. -/
inductive Micro (cfg : Cfg K D M R S) (b : Allow) : Abs K D M R → Abs K D M R → Prop where
  | refused {a} (k) : Micro cfg b a { a with log := .refused k :: a.log }
  | rejected {a} (k) : Micro cfg b a { a with log := .rejected k :: a.log }
  | ack {a} (k d m) : (∃ raw, cfg.build raw = some d) ∨ b.odd = true →
      Micro cfg b a { a with ext := a.ext ++ [(k, d, m)], log := .acked k d m :: a.log }
  | store {a x y k d m} : a.ext = x ++ (k, d, m) :: y →
      Micro cfg b a { a with ext := x ++ y, lp := Spec.push a.lp ⟨k, 0, d, m⟩ k }
  | take {a k e rest d} : a.lp = (k, e) :: rest → a.fl = [] → cfg.build e.data = some d →
      Micro cfg b a { a with lp := rest, fl := [{ e with data := d }], log := .started { e with data := d } :: a.log }
  | takeBad {a k e rest} : a.lp = (k, e) :: rest → a.fl = [] → cfg.build e.data = none →
      Micro cfg b a { a with lp := rest, log := .lost k :: a.log }
  | ok {a e} : a.fl = [e] → Micro cfg b a { a with fl := [], log := .succeeded e.key :: a.log }
  | retryError {a e} : a.fl = [e] → ((e.retries + 1 : Nat) : Int) ≥ cfg.maxRetries →
      Micro cfg b a { a with fl := [], le := Spec.push a.le ⟨e.key, e.data, cfg.reason, cfg.keep e.md⟩ e.key,
                             log := .failed e.key :: a.log }
  | retry {a e} : a.fl = [e] → ¬ ((e.retries + 1 : Nat) : Int) ≥ cfg.maxRetries →
      Micro cfg b a { a with fl := [], lp := Spec.push a.lp ⟨e.key, e.retries + 1, e.data, cfg.keep e.md⟩ e.key,
                             log := .failed e.key :: a.log }
  | fatal {a e} (r) : b.fatal = true → a.fl = [e] →
      Micro cfg b a { a with fl := [], le := Spec.push a.le ⟨e.key, e.data, r, cfg.keep e.md⟩ e.key,
                             log := .failed e.key :: a.log }
  | crash {a e} : b.crash = true → a.fl = [e] → Micro cfg b a { a with fl := [], log := .lost e.key :: a.log }
  | clear {a} : Micro cfg b a { a with le := [], log := .cleared (keys a.le) :: a.log }
  | pop {a k} : k ∈ keys a.le → Micro cfg b a { a with le := without a.le k, log := .popped k :: a.log }
  | reOne {a k v} : (k, v) ∈ a.le →
      Micro cfg b a { a with le := without a.le k, lp := Spec.push a.lp ⟨k, 0, v.data, v.md⟩ k, log := .requeued [k] :: a.log }
  | reAll {a} : Micro cfg b a { a with le := [], lp := moved a.lp a.le, log := .requeued (keys a.le) :: a.log }

/-- Any number of changes. -/
inductive Micros (cfg : Cfg K D M R S) (b : Allow) : Abs K D M R → Abs K D M R → Prop where
  | nil {a} : Micros cfg b a a
  | cons {x y z} : Micro cfg b x y → Micros cfg b y z → Micros cfg b x z

theorem Micros.one {cfg : Cfg K D M R S} {b : Allow} {x y} (h : Micro cfg b x y) : Micros cfg b x y := .cons h .nil

theorem Micros.trans {cfg : Cfg K D M R S} {b : Allow} {x y z} (h : Micros cfg b x y) (h' : Micros cfg b y z) : Micros cfg b x z := by
  induction h with
  | nil => exact h'
  | cons h1 _ ih => exact .cons h1 (ih h')

/-! ### tasks -/

/-- Every task but `t` has finished. -/
def OnlyTask (l : List (Task K D M)) (t : Nat) : Prop := ∀ (t' : Nat) (x : Task K D M), t' ≠ t → l[t']? = some x → x = .done

theorem inFlight_nil {l : List (Task K D M)} (h : ∀ (t : Nat) (x : Task K D M), l[t]? = some x → x = .done) : inFlight l = [] := by
  induction l with
  | nil => rfl
  | cons a l ih =>
    have h0 := h 0 a rfl
    subst h0
    exact ih fun t x hx => h (t + 1) x (by simpa using hx)

theorem inFlight_set {l : List (Task K D M)} {t : Nat} (h : OnlyTask l t) (ht : t < l.length) (x : Task K D M) :
    inFlight (l.set t x) = inFlight [x] := by
  induction l generalizing t with
  | nil => simp at ht
  | cons a l ih =>
    cases t with
    | zero =>
      have : inFlight l = [] := inFlight_nil fun t x hx => h (t + 1) x (by simp) (by simpa using hx)
      cases x <;> simp [inFlight, this]
    | succ t =>
      have h0 := h 0 a (by simp) rfl
      subst h0
      have := ih (t := t) (fun t' x hn hx => h (t' + 1) x (by omega) (by simpa using hx)) (by simpa using ht)
      simpa [inFlight] using this

theorem inFlight_append (l : List (Task K D M)) : inFlight (l ++ [.scheduled]) = inFlight l := by
  induction l with
  | nil => rfl
  | cons a l ih => cases a <;> simp [inFlight, ih]

theorem set_same {α : Type} {l : List α} {t : Nat} {x : α} (h : l[t]? = some x) : l.set t x = l := by
  obtain ⟨h1, h2⟩ := List.getElem?_eq_some_iff.mp h
  rw [← h2, List.set_getElem_self]

theorem inFlight_get {l : List (Task K D M)} {t : Nat} (h : OnlyTask l t) {e : PEntry K D M}
    (ht : l[t]? = some (.inFlight e)) : inFlight l = [e] := by
  have hlt : t < l.length := (List.getElem?_eq_some_iff.mp ht).1
  have := inFlight_set h hlt (.inFlight e)
  rw [set_same ht] at this
  exact this

/-- Worker tasks and their bookkeeping. -/
structure Tasks (s : St K D M R S) : Prop where
  single : ∀ (t : Nat) (x : Task K D M), s.tasks[t]? = some x → x ≠ .done → s.current = some t
  cur : ∀ t, s.current = some t → t < s.tasks.length
  running : s.running = true ↔ inFlight s.tasks ≠ []
  shutdown : s.shutdown = false

/-- A worker task is executing its code. -/
structure Mid (s : St K D M R S) (t : Nat) : Prop where
  only : OnlyTask s.tasks t
  lt : t < s.tasks.length
  cur : s.current = some t
  shutdown : s.shutdown = false
  running : s.running = true

/-- The state amounts to `a`. -/
structure Amounts (cfg : Cfg K D M R S) (s : St K D M R S) (a : Abs K D M R) : Prop where
  tasks : Tasks s
  inv : Pending.Inv cfg.codecs s.pair a.lp a.le
  fl : inFlight s.tasks = a.fl
  log : s.log = a.log

theorem Tasks.onlyTask {s : St K D M R S} (h : Tasks s) {t : Nat} {x} (ht : s.tasks[t]? = some x) (hx : x ≠ .done) :
    OnlyTask s.tasks t := by
  intro t' y hne hy
  by_contra hd
  have h1 := h.single t x ht hx
  have h2 := h.single t' y hy hd
  rw [h1] at h2
  exact hne (Option.some.inj h2).symm

theorem noWorker_iff {s : St K D M R S} (h : Tasks s) :
    s.noWorker = true ↔ ∀ (t : Nat) (x : Task K D M), s.tasks[t]? = some x → x = .done := by
  unfold St.noWorker
  cases hc : s.current with
  | none =>
    simp only [true_iff]
    intro t x hx
    by_contra hd
    have := h.single t x hx hd
    rw [hc] at this; cases this
  | some t =>
    have hlt := h.cur t hc
    simp only
    cases ht : s.tasks[t] with
    | done =>
      have hg : s.tasks[t]? = some .done := by rw [List.getElem?_eq_getElem hlt, ht]
      rw [hg]
      simp only [true_iff]
      intro t' x hx
      by_contra hd
      have := h.single t' x hx hd
      rw [hc] at this
      have e := Option.some.inj this
      subst e
      rw [hg] at hx
      exact hd (Option.some.inj hx).symm
    | scheduled =>
      have hg : s.tasks[t]? = some .scheduled := by rw [List.getElem?_eq_getElem hlt, ht]
      rw [hg]
      simp only [Bool.false_eq_true, false_iff, not_forall]
      exact ⟨t, _, hg, by simp⟩
    | inFlight e =>
      have hg : s.tasks[t]? = some (.inFlight e) := by rw [List.getElem?_eq_getElem hlt, ht]
      rw [hg]
      simp only [Bool.false_eq_true, false_iff, not_forall]
      exact ⟨t, _, hg, by simp⟩

theorem tasks_check {s : St K D M R S} (h : Tasks s) : Tasks s.check := by
  unfold St.check
  split
  · rename_i hn
    have hall := (noWorker_iff h).mp hn
    refine ⟨?_, ?_, ?_, h.shutdown⟩
    · intro t x hx hd
      simp only [List.getElem?_append] at hx
      split at hx
      · exact absurd (hall t x hx) hd
      · rename_i hge
        have : t - s.tasks.length = 0 := by
          by_contra hne
          rw [List.getElem?_eq_none (by simp; omega)] at hx
          cases hx
        have : t = s.tasks.length := by omega
        simp [this]
    · intro t ht
      simp only [Option.some.injEq] at ht
      simp [← ht]
    · simp only [inFlight_append]; exact h.running
  · exact h

theorem check_fields (s : St K D M R S) : s.check.pair = s.pair ∧ s.check.log = s.log ∧ s.check.paused = s.paused ∧
    inFlight s.check.tasks = inFlight s.tasks := by
  unfold St.check
  split
  · exact ⟨rfl, rfl, rfl, inFlight_append _⟩
  · exact ⟨rfl, rfl, rfl, rfl⟩

theorem amounts_check {cfg : Cfg K D M R S} {s : St K D M R S} {a} (h : Amounts cfg s a) : Amounts cfg s.check a := by
  obtain ⟨h1, h2, _, h3⟩ := check_fields s
  exact ⟨tasks_check h.tasks, h1 ▸ h.inv, h3 ▸ h.fl, h2 ▸ h.log⟩

theorem Mid.endTasks {s : St K D M R S} {t : Nat} (h : Mid s t) : Tasks (s.endTask t) ∧ inFlight (s.endTask t).tasks = [] ∧
    (s.endTask t).pair = s.pair ∧ (s.endTask t).log = s.log ∧ (s.endTask t).paused = s.paused ∧
    (s.endTask t).noWorker = true := by
  have e : s.endTask t = { s with tasks := s.tasks.set t .done, running := false } := by
    unfold St.endTask St.shutDownCheck
    simp [h.shutdown]
  have hd : ∀ (t' : Nat) (x : Task K D M), (s.tasks.set t .done)[t']? = some x → x = .done := by
    intro t' x hx
    rw [List.getElem?_set] at hx
    split at hx
    · split at hx
      · exact (Option.some.inj hx).symm
      · cases hx
    · rename_i hne; exact h.only t' x (fun e => hne e.symm) hx
  have hf : inFlight (s.tasks.set t .done) = [] := inFlight_set h.only h.lt .done
  have ht : Tasks (s.endTask t) := by
    rw [e]
    refine ⟨fun t' x hx hne => absurd (hd t' x hx) hne, ?_, ?_, h.shutdown⟩
    · intro t' ht'
      simp only at ht'
      simp only [List.length_set]
      rw [h.cur] at ht'
      exact (Option.some.inj ht') ▸ h.lt
    · simp [hf]
  refine ⟨ht, by rw [e]; exact hf, by rw [e], by rw [e], by rw [e], ?_⟩
  rw [noWorker_iff ht, e]; exact hd

/-! ### the worker -/

theorem Mid.withPair {s : St K D M R S} {t : Nat} (h : Mid s t) (q : Pair K S) : Mid { s with pair := q } t :=
  ⟨h.only, h.lt, h.cur, h.shutdown, h.running⟩

theorem Mid.emit {s : St K D M R S} {t : Nat} (h : Mid s t) (e : Ev K D M R) : Mid (s.emit e) t :=
  ⟨h.only, h.lt, h.cur, h.shutdown, h.running⟩

theorem hasPending_iff {cfg : Cfg K D M R S} (hc : cfg.codecs.Lawful) {q : Pair K S} {lp le} (h : Pending.Inv cfg.codecs q lp le) :
    q.hasPending = true ↔ lp ≠ [] := by
  have := (C03_size hc.1 h.rp h.holds.p).2
  unfold Pair.hasPending
  cases hb : q.pending.isEmpty with
  | true => simp [this.mp hb]
  | false => simp only [Bool.not_false, true_iff]; intro e; rw [this.mpr e] at hb; cases hb

/-- What `loop` does, in terms of lists. -/
theorem core_loop {cfg : Cfg K D M R S} {b : Allow} (hc : cfg.codecs.Lawful) {s : St K D M R S} {t : Nat} (h : Mid s t) {a : Abs K D M R}
    (hi : Pending.Inv cfg.codecs s.pair a.lp a.le) (hlog : s.log = a.log) (hfl : a.fl = []) :
    ∃ a', Micros cfg b a a' ∧ Amounts cfg (s.loop cfg t) a' ∧ a'.ext = a.ext := by
  unfold St.loop
  by_cases hcond : (!s.paused && s.pair.hasPending) = true
  · rw [if_pos hcond]
    have hp : a.lp ≠ [] := (hasPending_iff hc hi).mp (by simp at hcond; exact hcond.2)
    obtain ⟨⟨k, e⟩, rest, hl⟩ : ∃ x rest, a.lp = x :: rest := by
      cases h' : a.lp with
      | nil => exact absurd h' hp
      | cons x r => exact ⟨x, r, rfl⟩
    obtain ⟨h1, h2⟩ := inv_pop hi
    have hk : e.key = k := hi.holds.pKeys (k, e) (by rw [hl]; simp)
    rw [hl] at h1 h2
    have e1 : s.pair.pop cfg.codecs = (.ok (some e), (s.pair.pop cfg.codecs).2) := by
      rw [← show (s.pair.pop cfg.codecs).1 = .ok (some e) from h1]
    rw [e1]
    simp only [List.tail_cons] at h2
    cases hb : cfg.build e.data with
    | none =>
      simp only [hb]
      have hm : Mid ({ s with pair := (s.pair.pop cfg.codecs).2 }.emit (Ev.lost e.key)) t := (h.withPair _).emit _
      obtain ⟨g1, g2, g3, g4, _, _⟩ := hm.endTasks
      refine ⟨_, .one (.takeBad hl hfl hb), ⟨g1, ?_, ?_, ?_⟩, rfl⟩
      · rw [g3]; exact h2
      · rw [g2]; exact hfl.symm
      · rw [g4, hk]; show _ :: s.log = _; rw [hlog]
    | some d =>
      simp only [hb]
      refine ⟨_, .one (.take hl hfl hb), ⟨⟨?_, ?_, ?_, ?_⟩, ?_, ?_, ?_⟩, rfl⟩
      · intro t' x hx hne
        simp only [St.emit] at hx ⊢
        rw [List.getElem?_set] at hx
        split at hx
        · rename_i e'; rw [← e']; exact h.cur
        · rename_i hne'; exact absurd (h.only t' x (fun e => hne' e.symm) hx) hne
      · intro t' ht'
        simp only [St.emit, List.length_set] at ht' ⊢
        rw [h.cur] at ht'
        exact (Option.some.inj ht') ▸ h.lt
      · simp only [St.emit]
        rw [inFlight_set h.only h.lt]; simp [inFlight, h.running]
      · exact h.shutdown
      · exact h2
      · simp only [St.emit]; rw [inFlight_set h.only h.lt]; rfl
      · simp only [St.emit, hlog]
  · rw [if_neg hcond]
    obtain ⟨g1, g2, g3, g4, _, _⟩ := h.endTasks
    exact ⟨a, .nil, ⟨g1, g3 ▸ hi, g2.trans hfl.symm, g4.trans hlog⟩, rfl⟩

theorem core_start {cfg : Cfg K D M R S} {b : Allow} (hc : cfg.codecs.Lawful) {s s' : St K D M R S} {t : Nat} {a : Abs K D M R}
    (h : Amounts cfg s a) (hs : s.start cfg t = some s') : ∃ a', Micros cfg b a a' ∧ Amounts cfg s' a' ∧ a'.ext = a.ext := by
  unfold St.start at hs
  split at hs
  · rename_i ht
    rw [← Option.some.inj hs]
    have ho := h.tasks.onlyTask ht (by simp)
    have hlt : t < s.tasks.length := (List.getElem?_eq_some_iff.mp ht).1
    have hf : inFlight s.tasks = [] := by
      have := inFlight_set ho hlt .scheduled
      rw [set_same ht] at this
      exact this
    have hm : Mid { s with running := true } t := ⟨ho, hlt, h.tasks.single t _ ht (by simp), h.tasks.shutdown, rfl⟩
    exact core_loop hc hm (a := a) h.inv h.log (by rw [← h.fl, hf])
  · cases hs

theorem core_afterPush {cfg : Cfg K D M R S} {b : Allow} (hc : cfg.codecs.Lawful) {s : St K D M R S} {t : Nat} (h : Mid s t) {a : Abs K D M R}
    {p : Except PyErr Unit × Pair K S} {k : K} (hp : p.1 = .ok ())
    (hi : Pending.Inv cfg.codecs p.2 a.lp a.le) (hlog : .failed k :: s.log = a.log) (hfl : a.fl = []) :
    ∃ a', Micros cfg b a a' ∧ Amounts cfg (s.afterPush cfg t k p) a' ∧ a'.ext = a.ext := by
  obtain ⟨p1, p2⟩ := p
  simp only at hp hi
  subst hp
  exact core_loop hc (s := { s with pair := p2 }.emit (.failed k)) ((h.withPair _).emit _) hi hlog hfl

theorem core_finish {cfg : Cfg K D M R S} {b : Allow} (hc : cfg.codecs.Lawful) {s s' : St K D M R S} {t : Nat} {o : Outcome R} {a : Abs K D M R}
    (h : Amounts cfg s a) (hfa : ∀ r, o = .fatal r → b.fatal = true) (hcr : o = .raise → b.crash = true)
    (hs : s.finish cfg t o = some s') : ∃ a', Micros cfg b a a' ∧ Amounts cfg s' a' ∧ a'.ext = a.ext := by
  unfold St.finish at hs
  split at hs
  · rename_i e ht
    have ho := h.tasks.onlyTask ht (by simp)
    have hlt : t < s.tasks.length := (List.getElem?_eq_some_iff.mp ht).1
    have hf := inFlight_get ho ht
    have hrun : s.running = true := h.tasks.running.mpr (by rw [hf]; simp)
    have hm : Mid s t := ⟨ho, hlt, h.tasks.single t _ ht (by simp), h.tasks.shutdown, hrun⟩
    have hfl : a.fl = [e] := by rw [← h.fl, hf]
    rw [← Option.some.inj hs]
    cases o with
    | ok =>
      obtain ⟨a', h1, h2, h3⟩ := core_loop hc (hm.emit (.succeeded e.key)) (a := { a with fl := [], log := .succeeded e.key :: a.log })
        h.inv (by simp [St.emit, h.log]) rfl
      exact ⟨a', .cons (.ok hfl) h1, h2, h3⟩
    | retry =>
      simp only
      split
      · rename_i hge
        obtain ⟨g1, g2⟩ := inv_pushError hc h.inv e.key e.data cfg.reason (cfg.keep e.md)
        obtain ⟨a', h1, h2, h3⟩ := core_afterPush hc hm (k := e.key) g1
          (a := { a with fl := [], le := Spec.push a.le ⟨e.key, e.data, cfg.reason, cfg.keep e.md⟩ e.key,
                         log := .failed e.key :: a.log }) g2 (by simp [h.log]) rfl
        exact ⟨a', .cons (.retryError hfl hge) h1, h2, h3⟩
      · rename_i hlt'
        obtain ⟨g1, g2⟩ := inv_pushPending hc h.inv e.key e.data (e.retries + 1) (cfg.keep e.md)
        obtain ⟨a', h1, h2, h3⟩ := core_afterPush hc hm (k := e.key) g1
          (a := { a with fl := [], lp := Spec.push a.lp ⟨e.key, e.retries + 1, e.data, cfg.keep e.md⟩ e.key,
                         log := .failed e.key :: a.log }) g2 (by simp [h.log]) rfl
        exact ⟨a', .cons (.retry hfl hlt') h1, h2, h3⟩
    | fatal r =>
      obtain ⟨g1, g2⟩ := inv_pushError hc h.inv e.key e.data r (cfg.keep e.md)
      obtain ⟨a', h1, h2, h3⟩ := core_afterPush hc hm (k := e.key) g1
        (a := { a with fl := [], le := Spec.push a.le ⟨e.key, e.data, r, cfg.keep e.md⟩ e.key,
                       log := .failed e.key :: a.log }) g2 (by simp [h.log]) rfl
      exact ⟨a', (.cons (.fatal r (hfa r rfl) hfl) h1), h2, h3⟩
    | raise =>
      obtain ⟨g1, g2, g3, g4, _, _⟩ := (hm.emit (.lost e.key)).endTasks
      refine ⟨_, .one (.crash (hcr rfl) hfl), ⟨g1, ?_, g2, ?_⟩, rfl⟩
      · rw [g3]; exact h.inv
      · rw [g4]; simp [St.emit, h.log]
  · cases hs

/-! ### operator commands -/

theorem drainVals_eq {V : Type} {c : Codec V S} : ∀ {l : Fifo K V} {q : PQ K S}, Holds c q l →
    St.drainVals c l.length q = l.map Prod.snd := by
  intro l
  induction l with
  | nil => intro q _; rfl
  | cons x l ih =>
    intro q h
    obtain ⟨h1, h2⟩ := holds_pop h
    have e : q.pop c = (.ok (some x.2), (q.pop c).2) := by
      rw [← show (q.pop c).1 = .ok (some x.2) from h1]
    rw [List.length_cons, St.drainVals, e]
    simp only [List.map_cons, List.cons.injEq, true_and]
    exact ih h2

theorem map_key_eq {V : Type} {l : List (K × V)} {f : V → K} (h : ∀ x ∈ l, f x.2 = x.1) :
    (l.map Prod.snd).map f = keys l := by
  rw [List.map_map, keys]
  exact List.map_congr_left h

theorem failedKeys_eq {cfg : Cfg K D M R S} (hc : cfg.codecs.Lawful) {s : St K D M R S} {lp le} (h : Pending.Inv cfg.codecs s.pair lp le) :
    s.failedKeys cfg = keys le := by
  unfold St.failedKeys
  rw [(C03_size hc.2 h.re h.holds.e).1, drainVals_eq h.holds.e, map_key_eq h.holds.eKeys]

theorem core_clear {cfg : Cfg K D M R S} {b : Allow} (hc : cfg.codecs.Lawful) {s : St K D M R S} {a : Abs K D M R} (h : Amounts cfg s a) :
    ∃ a', Micros cfg b a a' ∧ Amounts cfg (s.clearErrors cfg) a' ∧ a'.ext = a.ext := by
  refine ⟨_, .one .clear, ⟨⟨h.tasks.single, h.tasks.cur, h.tasks.running, h.tasks.shutdown⟩, inv_clear hc h.inv, h.fl, ?_⟩, rfl⟩
  simp only [St.clearErrors, St.emit, failedKeys_eq hc h.inv, h.log]

theorem core_popError {cfg : Cfg K D M R S} {b : Allow} (hc : cfg.codecs.Lawful) {s : St K D M R S} {a : Abs K D M R} (h : Amounts cfg s a) (k : K) :
    ∃ a', Micros cfg b a a' ∧ Amounts cfg (s.popError cfg k) a' ∧ a'.ext = a.ext := by
  obtain ⟨h1, h2⟩ := inv_popKeyErr hc h.inv k
  unfold St.popError
  cases hl : lookup a.le k with
  | none =>
    have e : s.pair.popError cfg.codecs k = (.ok none, { s.pair with error := (s.pair.error.popKey cfg.codecs.e k).2 }) := by
      unfold Pair.popError; simp only [h1, hl, Except.map]; rfl
    rw [e]
    have hw : without a.le k = a.le := by
      unfold without
      rw [List.filter_eq_self]
      intro x hx
      simp only [ne_eq, decide_eq_true_eq]
      intro ex; exact (lookup_none_iff a.le k).mp hl (List.mem_map.mpr ⟨x, hx, ex⟩)
    rw [hw] at h2
    exact ⟨a, .nil, ⟨⟨h.tasks.single, h.tasks.cur, h.tasks.running, h.tasks.shutdown⟩, h2, h.fl, h.log⟩, rfl⟩
  | some v =>
    have e : s.pair.popError cfg.codecs k = (.ok (some v.data), { s.pair with error := (s.pair.error.popKey cfg.codecs.e k).2 }) := by
      unfold Pair.popError; simp only [h1, hl, Except.map]; rfl
    rw [e]
    have hk : k ∈ keys a.le := List.mem_map.mpr ⟨_, lookup_key h.inv.holds.e.1 hl, rfl⟩
    refine ⟨_, .one (.pop hk), ⟨⟨h.tasks.single, h.tasks.cur, h.tasks.running, h.tasks.shutdown⟩, h2, h.fl, ?_⟩, rfl⟩
    simp [St.emit, h.log]

theorem core_reAll {cfg : Cfg K D M R S} {b : Allow} (hc : cfg.codecs.Lawful) {s : St K D M R S} {a : Abs K D M R} (h : Amounts cfg s a) :
    ∃ a', Micros cfg b a a' ∧ Amounts cfg (s.reprocessAll cfg) a' ∧ a'.ext = a.ext := by
  have hn := (C03_size hc.2 h.inv.re h.inv.holds.e).1
  obtain ⟨q', h1, h2⟩ := inv_moveAllN hc a.le (s.pair.error.size + 1) h.inv (by omega)
  unfold St.reprocessAll
  rw [h1]
  refine ⟨_, .one .reAll, amounts_check ⟨⟨h.tasks.single, h.tasks.cur, h.tasks.running, h.tasks.shutdown⟩, h2, h.fl, ?_⟩, rfl⟩
  simp [St.emit, failedKeys_eq hc h.inv, h.log]

theorem core_reOne {cfg : Cfg K D M R S} {b : Allow} (hc : cfg.codecs.Lawful) {s : St K D M R S} {a : Abs K D M R} (h : Amounts cfg s a) (k : K) :
    ∃ a', Micros cfg b a a' ∧ Amounts cfg (s.reprocessOne cfg k) a' ∧ a'.ext = a.ext := by
  obtain ⟨h1, h2⟩ := inv_popKeyErr hc h.inv k
  unfold St.reprocessOne
  cases hl : lookup a.le k with
  | none =>
    rw [hl] at h1
    have e : s.pair.error.popKey cfg.codecs.e k = (.ok none, (s.pair.error.popKey cfg.codecs.e k).2) := by rw [← h1]
    have hm : s.pair.moveOne cfg.codecs k = (.ok none, { s.pair with error := (s.pair.error.popKey cfg.codecs.e k).2 }) := by
      unfold Pair.moveOne; rw [e]
    rw [hm]
    have hw : without a.le k = a.le := by
      unfold without
      rw [List.filter_eq_self]
      intro x hx
      simp only [ne_eq, decide_eq_true_eq]
      intro ex; exact (lookup_none_iff a.le k).mp hl (List.mem_map.mpr ⟨x, hx, ex⟩)
    rw [hw] at h2
    exact ⟨a, .nil, amounts_check ⟨⟨h.tasks.single, h.tasks.cur, h.tasks.running, h.tasks.shutdown⟩, h2, h.fl, h.log⟩, rfl⟩
  | some v =>
    rw [hl] at h1
    have e : s.pair.error.popKey cfg.codecs.e k = (.ok (some v), (s.pair.error.popKey cfg.codecs.e k).2) := by rw [← h1]
    obtain ⟨h3, h4⟩ := inv_pushPending hc h2 k v.data 0 v.md
    have e2 : Pair.pushPending cfg.codecs { s.pair with error := (s.pair.error.popKey cfg.codecs.e k).2 } k v.data 0 v.md =
        (.ok (), (Pair.pushPending cfg.codecs { s.pair with error := (s.pair.error.popKey cfg.codecs.e k).2 } k v.data 0 v.md).2) := by
      rw [← h3]
    have hm : s.pair.moveOne cfg.codecs k = (.ok (some v.data),
        (Pair.pushPending cfg.codecs { s.pair with error := (s.pair.error.popKey cfg.codecs.e k).2 } k v.data 0 v.md).2) := by
      unfold Pair.moveOne; rw [e]; simp only; rw [e2]
    rw [hm]
    refine ⟨_, .one (.reOne (lookup_key h.inv.holds.e.1 hl)),
      amounts_check ⟨⟨h.tasks.single, h.tasks.cur, h.tasks.running, h.tasks.shutdown⟩, h4, h.fl, ?_⟩, rfl⟩
    simp [St.emit, h.log]

/-! ### whole transitions -/

/-- The content at start-up. -/
def Abs.ofLists (lp : List (K × PEntry K D M)) (le : List (K × EEntry K D M R)) : Abs K D M R where
  lp := lp
  le := le
  ext := []
  fl := []
  log := lp.map (fun x => .found x.2) ++ le.map (fun x => .foundFailed x.2)

theorem amounts_init {cfg : Cfg K D M R S} (hc : cfg.codecs.Lawful) {q : Pair K S} {lp le} (h : Pending.Inv cfg.codecs q lp le) :
    Amounts cfg (St.init cfg q) (.ofLists lp le) := by
  refine ⟨⟨?_, ?_, ?_, rfl⟩, h, rfl, ?_⟩
  · intro t x hx; simp [St.init] at hx
  · intro t ht; simp [St.init] at ht
  · simp [St.init, inFlight]
  · simp only [St.init, Abs.ofLists, (C03_size hc.1 h.rp h.holds.p).1, (C03_size hc.2 h.re h.holds.e).1,
      drainVals_eq h.holds.p, drainVals_eq h.holds.e, List.map_map]
    rfl

theorem Amounts.unpause {cfg : Cfg K D M R S} {s : St K D M R S} {a} (h : Amounts cfg s a) : Amounts cfg s.unpause a :=
  amounts_check ⟨⟨h.tasks.single, h.tasks.cur, h.tasks.running, h.tasks.shutdown⟩, h.inv, h.fl, h.log⟩

theorem eraseIdx_split {α : Type} {l : List α} {i : Nat} {x : α} (h : l[i]? = some x) :
    ∃ a b, l = a ++ x :: b ∧ l.eraseIdx i = a ++ b := by
  induction l generalizing i with
  | nil => simp at h
  | cons y l ih =>
    cases i with
    | zero => simp only [List.getElem?_cons_zero, Option.some.injEq] at h; exact ⟨[], l, by simp [h], rfl⟩
    | succ i =>
      obtain ⟨a, b, h1, h2⟩ := ih (i := i) (by simpa using h)
      exact ⟨y :: a, b, by simp [h1], by simp [h2]⟩

/-- The state of an endpoint amounts to `a`. -/
structure HAmounts (cfg : Cfg K D M R S) (s : Handler.HSt K D M R S) (a : Abs K D M R) : Prop where
  core : Amounts cfg s.core a
  ext : s.jobs = a.ext
  coll : ∀ x ∈ s.collecting, ∃ raw, cfg.build raw = some x.2

theorem h_step {cfg : Cfg K D M R S} {b : Allow} (hc : cfg.codecs.Lawful) {s s' : Handler.HSt K D M R S} {l : Handler.Label K D M R} {a : Abs K D M R}
    (h : HAmounts cfg s a) (hcr : ∀ t, l = .finish t .raise → b.crash = true)
    (hs : Handler.step cfg s l = some s') : ∃ a', Micros cfg b a a' ∧ HAmounts cfg s' a' := by
  have hT := h.core.tasks
  cases l with
  | arrive k raw =>
    simp only [Handler.step, Option.some.injEq] at hs
    cases hb : cfg.build raw with
    | none =>
      rw [hb] at hs; subst hs
      refine ⟨_, .one (.rejected k), ⟨⟨⟨hT.single, hT.cur, hT.running, hT.shutdown⟩, h.core.inv, h.core.fl, ?_⟩, h.ext, h.coll⟩⟩
      simp [St.emit, h.core.log]
    | some d =>
      rw [hb] at hs
      simp only at hs
      split at hs
      · subst hs
        refine ⟨_, .one (.refused k), ⟨⟨⟨hT.single, hT.cur, hT.running, hT.shutdown⟩, h.core.inv, h.core.fl, ?_⟩, h.ext, h.coll⟩⟩
        simp [St.emit, h.core.log]
      · subst hs
        refine ⟨a, .nil, h.core, h.ext, ?_⟩
        intro x hx
        simp only [List.mem_append, List.mem_singleton] at hx
        rcases hx with hx | rfl
        · exact h.coll x hx
        · exact ⟨raw, hb⟩
  | accept i m =>
    simp only [Handler.step] at hs
    cases hg : s.collecting[i]? with
    | none => rw [hg] at hs; cases hs
    | some kd =>
      obtain ⟨k, d⟩ := kd
      rw [hg] at hs
      simp only [Option.some.injEq] at hs
      subst hs
      have hmem : (k, d) ∈ s.collecting := List.mem_of_getElem? hg
      refine ⟨_, .one (.ack k d m (.inl (h.coll _ hmem))),
        ⟨amounts_check ⟨⟨hT.single, hT.cur, hT.running, hT.shutdown⟩, h.core.inv, h.core.fl, ?_⟩, ?_, ?_⟩⟩
      · simp [St.emit, h.core.log]
      · simp [h.ext]
      · intro x hx; exact h.coll x (List.mem_of_mem_eraseIdx hx)
  | refuse i =>
    simp only [Handler.step] at hs
    cases hg : s.collecting[i]? with
    | none => rw [hg] at hs; cases hs
    | some kd =>
      obtain ⟨k, d⟩ := kd
      rw [hg] at hs
      simp only [Option.some.injEq] at hs
      subst hs
      refine ⟨_, .one (.rejected k), ⟨⟨⟨hT.single, hT.cur, hT.running, hT.shutdown⟩, h.core.inv, h.core.fl, ?_⟩, h.ext, ?_⟩⟩
      · simp [St.emit, h.core.log]
      · intro x hx; exact h.coll x (List.mem_of_mem_eraseIdx hx)
  | push i =>
    simp only [Handler.step] at hs
    cases hg : s.jobs[i]? with
    | none => rw [hg] at hs; cases hs
    | some kdm =>
      obtain ⟨k, d, m⟩ := kdm
      rw [hg] at hs
      simp only [Option.some.injEq] at hs
      subst hs
      obtain ⟨x, y, e1, e2⟩ := eraseIdx_split hg
      obtain ⟨g1, g2⟩ := inv_pushPending hc h.core.inv k d 0 m
      exact ⟨_, .one (.store (h.ext ▸ e1)), ⟨⟨⟨hT.single, hT.cur, hT.running, hT.shutdown⟩, g2, h.core.fl, h.core.log⟩, e2, h.coll⟩⟩
  | start t =>
    simp only [Handler.step, Option.map_eq_some_iff] at hs
    obtain ⟨c, hcs, rfl⟩ := hs
    obtain ⟨a', h1, h2, h3⟩ := core_start hc h.core hcs
    exact ⟨a', h1, h2, h.ext.trans h3.symm, h.coll⟩
  | finish t o =>
    have hs' : (s.core.finish cfg t o).map (fun c => { s with core := c }) = some s' ∧ ∀ r, o ≠ .fatal r := by
      cases o <;> simp only [Handler.step] at hs <;> first | exact ⟨hs, by simp⟩ | cases hs
    obtain ⟨hs', hnf⟩ := hs'
    rw [Option.map_eq_some_iff] at hs'
    obtain ⟨c, hcs, rfl⟩ := hs'
    obtain ⟨a', h1, h2, h3⟩ := core_finish (b := b) hc h.core (fun r e => absurd e (hnf r)) (fun e => hcr t (by rw [e])) hcs
    exact ⟨a', h1, h2, h.ext.trans h3.symm, h.coll⟩
  | pauseReceiving =>
    simp only [Handler.step, Option.some.injEq] at hs; subst hs
    exact ⟨a, .nil, h.core, h.ext, h.coll⟩
  | unpauseReceiving =>
    simp only [Handler.step, Option.some.injEq] at hs; subst hs
    exact ⟨a, .nil, amounts_check h.core, h.ext, h.coll⟩
  | pauseProcessing =>
    simp only [Handler.step, Option.some.injEq] at hs; subst hs
    exact ⟨a, .nil, ⟨⟨hT.single, hT.cur, hT.running, hT.shutdown⟩, h.core.inv, h.core.fl, h.core.log⟩, h.ext, h.coll⟩
  | unpauseProcessing =>
    simp only [Handler.step, Option.some.injEq] at hs; subst hs
    exact ⟨a, .nil, h.core.unpause, h.ext, h.coll⟩
  | clearErrors =>
    simp only [Handler.step, Option.some.injEq] at hs; subst hs
    obtain ⟨a', h1, h2, h3⟩ := core_clear hc h.core
    exact ⟨a', h1, h2, h.ext.trans h3.symm, h.coll⟩
  | popError k =>
    simp only [Handler.step, Option.some.injEq] at hs; subst hs
    obtain ⟨a', h1, h2, h3⟩ := core_popError hc h.core k
    exact ⟨a', h1, h2, h.ext.trans h3.symm, h.coll⟩
  | reprocessAll =>
    simp only [Handler.step, Option.some.injEq] at hs; subst hs
    obtain ⟨a', h1, h2, h3⟩ := core_reAll hc h.core
    exact ⟨a', h1, h2, h.ext.trans h3.symm, h.coll⟩
  | reprocessOne k =>
    simp only [Handler.step, Option.some.injEq] at hs; subst hs
    obtain ⟨a', h1, h2, h3⟩ := core_reOne hc h.core k
    exact ⟨a', h1, h2, h.ext.trans h3.symm, h.coll⟩

theorem h_setup {cfg : Cfg K D M R S} (hc : cfg.codecs.Lawful) {q : Pair K S} {lp le} (h : Pending.Inv cfg.codecs q lp le) :
    HAmounts cfg (Handler.setup cfg q) (.ofLists lp le) :=
  ⟨amounts_check (amounts_check (amounts_init hc h)).unpause, rfl, by simp [Handler.setup]⟩

theorem s_step {cfg : Cfg K D M R S} {b : Allow} (hc : cfg.codecs.Lawful) {s s' : St K D M R S} {l : Sender.Label K D R} {a : Abs K D M R}
    (h : Amounts cfg s a) (he : a.ext = [])
    (hfa : ∀ t r, l = .finish t (.fatal r) → b.fatal = true) (hcr : ∀ t, l = .finish t .raise → b.crash = true)
    (hod : ∀ k d, l = .enqueue k d → (∃ raw, cfg.build raw = some d) ∨ b.odd = true) (hs : Sender.step cfg s l = some s') :
    ∃ a', Micros cfg b a a' ∧ Amounts cfg s' a' ∧ a'.ext = [] := by
  have hT := h.tasks
  cases l with
  | enqueue k d =>
    simp only [Sender.step, Option.some.injEq] at hs
    obtain ⟨g1, g2⟩ := inv_pushPending hc h.inv k d 0 cfg.noMeta
    have e : s.pair.pushPending cfg.codecs k d 0 cfg.noMeta = (.ok (), (s.pair.pushPending cfg.codecs k d 0 cfg.noMeta).2) := by
      rw [← g1]
    rw [e] at hs
    subst hs
    refine ⟨{ lp := Spec.push a.lp ⟨k, 0, d, cfg.noMeta⟩ k, le := a.le, ext := [], fl := a.fl,
              log := .acked k d cfg.noMeta :: a.log },
      .cons (.ack k d cfg.noMeta (hod k d rfl)) (.one ?_), amounts_check ⟨⟨hT.single, hT.cur, hT.running, hT.shutdown⟩, g2, h.fl, ?_⟩, rfl⟩
    · exact Micro.store (a := { a with ext := a.ext ++ [(k, d, cfg.noMeta)], log := .acked k d cfg.noMeta :: a.log })
        (x := []) (y := []) (by simp [he])
    · simp [St.emit, h.log]
  | start t =>
    obtain ⟨a', h1, h2, h3⟩ := core_start hc h hs
    exact ⟨a', h1, h2, h3.trans he⟩
  | finish t o =>
    obtain ⟨a', h1, h2, h3⟩ := core_finish (b := b) hc h (fun r e => hfa t r (by rw [e])) (fun e => hcr t (by rw [e])) hs
    exact ⟨a', h1, h2, h3.trans he⟩
  | pause =>
    simp only [Sender.step, Option.some.injEq] at hs; subst hs
    exact ⟨a, .nil, ⟨⟨hT.single, hT.cur, hT.running, hT.shutdown⟩, h.inv, h.fl, h.log⟩, he⟩
  | unpause =>
    simp only [Sender.step, Option.some.injEq] at hs; subst hs
    exact ⟨a, .nil, h.unpause, he⟩
  | clearErrors =>
    simp only [Sender.step, Option.some.injEq] at hs; subst hs
    obtain ⟨a', h1, h2, h3⟩ := core_clear hc h
    exact ⟨a', h1, h2, h3.trans he⟩
  | popError k =>
    simp only [Sender.step, Option.some.injEq] at hs; subst hs
    obtain ⟨a', h1, h2, h3⟩ := core_popError hc h k
    exact ⟨a', h1, h2, h3.trans he⟩
  | reprocessAll =>
    simp only [Sender.step, Option.some.injEq] at hs; subst hs
    obtain ⟨a', h1, h2, h3⟩ := core_reAll hc h
    exact ⟨a', h1, h2, h3.trans he⟩
  | reprocessOne k =>
    simp only [Sender.step, Option.some.injEq] at hs; subst hs
    obtain ⟨a', h1, h2, h3⟩ := core_reOne hc h k
    exact ⟨a', h1, h2, h3.trans he⟩

/-- Everything reachable comes from the content at start-up by changes of `Micro`. -/
theorem hreach_amounts {cfg : Cfg K D M R S} (b : Allow) {P} (hc : cfg.codecs.Lawful) 
    (hP : ∀ s l, P s l → ∀ t, l = .finish t .raise → b.crash = true) {s : Handler.HSt K D M R S} (h : HReach cfg P s) :
    ∃ lp le a, (keys lp).Nodup ∧ (keys le).Nodup ∧ (∀ x ∈ lp, x.2.key = x.1) ∧ (∀ x ∈ le, x.2.key = x.1) ∧
      Micros cfg b (.ofLists lp le) a ∧ HAmounts cfg s a := by
  induction h with
  | setup hq =>
    obtain ⟨lp, le, hi⟩ := preach_inv hc hq
    exact ⟨lp, le, _, hi.holds.p.1, hi.holds.e.1, hi.holds.pKeys, hi.holds.eKeys, .nil, h_setup hc hi⟩
  | step _ hp hs ih =>
    obtain ⟨lp, le, a, h1, h2, h3, h4, h5, h6⟩ := ih
    obtain ⟨a', h7, h8⟩ := h_step hc h6 (hP _ _ hp) hs
    exact ⟨lp, le, a', h1, h2, h3, h4, h5.trans h7, h8⟩

theorem sreach_amounts {cfg : Cfg K D M R S} (b : Allow) {P} (hc : cfg.codecs.Lawful) 
    (hP : ∀ s l, P s l → (∀ t r, l = .finish t (.fatal r) → b.fatal = true) ∧ (∀ t, l = .finish t .raise → b.crash = true) ∧
      (∀ k d, l = .enqueue k d → (∃ raw, cfg.build raw = some d) ∨ b.odd = true)) {s : St K D M R S} (h : SReach cfg P s) :
    ∃ lp le a, (keys lp).Nodup ∧ (keys le).Nodup ∧ (∀ x ∈ lp, x.2.key = x.1) ∧ (∀ x ∈ le, x.2.key = x.1) ∧
      Micros cfg b (.ofLists lp le) a ∧ Amounts cfg s a ∧ a.ext = [] := by
  induction h with
  | setup hq =>
    obtain ⟨lp, le, hi⟩ := preach_inv hc hq
    exact ⟨lp, le, _, hi.holds.p.1, hi.holds.e.1, hi.holds.pKeys, hi.holds.eKeys, .nil,
      amounts_check (amounts_init hc hi).unpause, rfl⟩
  | step _ hp hs ih =>
    obtain ⟨lp, le, a, h1, h2, h3, h4, h5, h6, h7⟩ := ih
    obtain ⟨a', h8, h9, h10⟩ := s_step hc h6 h7 (hP _ _ hp).1 (hP _ _ hp).2.1 (hP _ _ hp).2.2 hs
    exact ⟨lp, le, a', h1, h2, h3, h4, h5.trans h8, h9, h10⟩

end Verif.Buffered
