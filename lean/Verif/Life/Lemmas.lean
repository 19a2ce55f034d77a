import Verif.Life.Spec
import Verif.Pending.Lemmas

/-!
# Lemmas for C74 and C75
-/

namespace Verif.Life

open Verif.Py Spec

variable {Q : Type}

theorem openedIn_append (a b : List Ev) : openedIn (a ++ b) = openedIn a ++ openedIn b := by
  induction a with
  | nil => rfl
  | cons x a ih => cases x <;> simp [openedIn, ih]

theorem savedIn_append (a b : List Ev) : savedIn (a ++ b) = savedIn a ++ savedIn b := by
  induction a with
  | nil => rfl
  | cons x a ih => cases x <;> simp [savedIn, ih]

/-- The components, from number `i` on, after an attempt to set them all up: the first `k` have a queue; `done`: all are complete. -/
inductive Shape (E : Env Q) (f : Nat → Q → Q) : Nat → Nat → Bool → List (Comp Q) → Prop where
  | nil (i) : Shape E f i 0 true []
  | fresh (i m) : Shape E f i 0 false (List.replicate (m + 1) Comp.fresh)
  | half (i q m) : E.opens i = .ok q →
      Shape E f i 1 false ({ (Comp.fresh : Comp Q) with queue := some (f i q) } :: List.replicate m Comp.fresh)
  | full (i q k d cs) : E.opens i = .ok q → Shape E f (i + 1) k d cs →
      Shape E f i (k + 1) d ({ (Comp.fresh : Comp Q) with queue := some (f i q), future := some false } :: cs)

theorem Shape.le {E : Env Q} {f i k d cs} (h : Shape E f i k d cs) : k ≤ cs.length ∧ (d = true → k = cs.length) := by
  induction h with
  | nil => simp
  | fresh => simp
  | half => simp
  | full i q k d cs _ _ ih => exact ⟨by simp; exact ih.1, fun hd => by simp [ih.2 hd]⟩

theorem setupAll_shape (E : Env Q) : ∀ (m i : Nat) (s : Sys), ∃ k d,
    Shape E (fun _ q => q) i k d (setupAll E i (List.replicate m Comp.fresh) s).2.1 ∧
    (setupAll E i (List.replicate m Comp.fresh) s).2.1.length = m ∧
    ((setupAll E i (List.replicate m Comp.fresh) s).1 = none ↔ d = true) ∧
    openedIn (setupAll E i (List.replicate m Comp.fresh) s).2.2.log = openedIn s.log ++ List.range' i k ∧
    savedIn (setupAll E i (List.replicate m Comp.fresh) s).2.2.log = savedIn s.log ∧
    (setupAll E i (List.replicate m Comp.fresh) s).2.2.stage = s.stage := by
  intro m
  induction m with
  | zero => intro i s; exact ⟨0, true, by simp [setupAll]; exact .nil i⟩
  | succ m ih =>
    intro i s
    rw [List.replicate_succ]
    unfold setupAll
    unfold setupOne tick
    by_cases h1 : E.signal s.stage s.clock
    · refine ⟨0, false, ?_⟩
      simp only [h1, if_true]
      exact ⟨.fresh i m, by simp⟩
    · simp only [h1, if_false]
      cases ho : E.opens i with
      | error e => exact ⟨0, false, .fresh i m, by simp⟩
      | ok q =>
        simp only
        by_cases h2 : E.signal (Sys.say { s with clock := s.clock + 1 } (.opened i)).stage
            (Sys.say { s with clock := s.clock + 1 } (.opened i)).clock
        · refine ⟨1, false, ?_⟩
          simp only [h2, if_true]
          refine ⟨.half i q m ho, by simp, by simp, ?_, ?_, rfl⟩
          · simp [Sys.say, openedIn_append, openedIn]
          · simp [Sys.say, savedIn_append, savedIn]
        · simp only [h2, if_false]
          obtain ⟨k, d, g1, g2, g3, g4, g5, g6⟩ := ih (i + 1)
            { Sys.say { s with clock := s.clock + 1 } (.opened i) with clock := (Sys.say { s with clock := s.clock + 1 } (.opened i)).clock + 1 }
          refine ⟨k + 1, d, .full i q k d _ ho g1, by simp [g2], g3, ?_, ?_, ?_⟩
          · simp only [Bool.false_eq_true, if_false]
            rw [g4]
            simp [Sys.say, openedIn_append, openedIn, List.range'_succ]
          · simp only [Bool.false_eq_true, if_false]
            rw [g5]; simp [Sys.say, savedIn_append, savedIn]
          · simp only [Bool.false_eq_true, if_false]
            rw [g6]; rfl

theorem workedAll_fresh (E : Env Q) (b : Bool) : ∀ (m i : Nat),
    workedAll E b i (List.replicate m Comp.fresh) = List.replicate m Comp.fresh := by
  intro m
  induction m with
  | zero => intro i; rfl
  | succ m ih => intro i; rw [List.replicate_succ]; unfold workedAll; rw [ih]; rfl

theorem workedAll_shape {E : Env Q} {i k d cs} (h : Shape E (fun _ q => q) i k d cs) :
    Shape E E.work i k d (workedAll E false i cs) := by
  induction h with
  | nil i => exact .nil i
  | fresh i m => rw [workedAll_fresh]; exact .fresh i m
  | half i q m ho => unfold workedAll; rw [workedAll_fresh]; exact .half i q m ho
  | full i q k d cs ho _ ih => unfold workedAll; exact .full i q k d _ ho ih

theorem workedAll_length (E : Env Q) (b : Bool) (cs : List (Comp Q)) : ∀ i, (workedAll E b i cs).length = cs.length := by
  induction cs with
  | nil => intro i; rfl
  | cons c cs ih => intro i; simp [workedAll, ih]

/-- No signal arrives while the application stops. -/
def Quiet (E : Env Q) : Prop := ∀ t, E.signal .down t = false

theorem tick_quiet {E : Env Q} (hq : Quiet E) {s : Sys} (hs : s.stage = .down) : tick E s = (false, { s with clock := s.clock + 1 }) := by
  unfold tick; rw [hs, hq]

/-- What shutting down does to components of this shape, one after the other. -/
theorem shutAll_shape {E : Env Q} (hq : Quiet E) (hsave : ∀ i q, E.opens i = .ok q → (E.save (E.work i q)).1 = .ok ())
    {i k d cs} (h : Shape E E.work i k d cs) : ∀ s : Sys, s.stage = .down →
    (shutAll E i cs s).1 = (if d then none else some .attributeError) ∧
    (shutAll E i cs s).2.1.length = cs.length ∧
    (∀ j < k, ∃ q, E.opens (i + j) = .ok q ∧
      (shutAll E i cs s).2.1[j]?.bind Comp.queue = some (E.save (E.work (i + j) q)).2) ∧
    ((∀ c ∈ (shutAll E i cs s).2.1, c.future = some true) ↔ d = true) ∧
    openedIn (shutAll E i cs s).2.2.log = openedIn s.log ∧
    savedIn (shutAll E i cs s).2.2.log = savedIn s.log ++ List.range' i k ∧
    (shutAll E i cs s).2.2.stage = .down := by
  induction h with
  | nil i => intro s hs; simp [shutAll, hs]
  | fresh i m =>
    intro s hs
    rw [List.replicate_succ]
    unfold shutAll shutOne
    rw [tick_quiet hq hs]
    simp only [Bool.false_eq_true, if_false, shutDownCheck, Comp.fresh, Bool.not_false, Bool.and_self, if_true]
    simp [hs]
  | half i q m ho =>
    intro s hs
    have hv := hsave i q ho
    obtain ⟨r, q', hr⟩ : ∃ r q', E.save (E.work i q) = (r, q') := ⟨_, _, rfl⟩
    rw [hr] at hv
    simp only at hv
    unfold shutAll shutOne
    rw [tick_quiet hq hs]
    simp only [Bool.false_eq_true, if_false, shutDownCheck, Comp.fresh, Bool.not_false, Bool.and_self, if_true, hr, hv]
    refine ⟨trivial, by simp, ?_, by simp, ?_, ?_, hs⟩
    · intro j hj
      obtain rfl : j = 0 := by omega
      exact ⟨q, by simpa using ho, by simp [hr]⟩
    · simp [Sys.say, openedIn_append, openedIn]
    · simp [Sys.say, savedIn_append, savedIn]
  | full i q k d cs ho _ ih =>
    intro s hs
    have hv := hsave i q ho
    obtain ⟨r, q', hr⟩ : ∃ r q', E.save (E.work i q) = (r, q') := ⟨_, _, rfl⟩
    rw [hr] at hv
    simp only at hv
    unfold shutAll shutOne
    rw [tick_quiet hq hs]
    simp only [Bool.false_eq_true, if_false, shutDownCheck, Comp.fresh, Bool.not_false, Bool.and_self, if_true, hr, hv]
    obtain ⟨g1, g2, g3, g4, g5, g6, g7⟩ := ih (Sys.say { s with clock := s.clock + 1 } (.saved i)) hs
    refine ⟨g1, by simp [g2], ?_, ?_, ?_, ?_, g7⟩
    · intro j hj
      cases j with
      | zero => exact ⟨q, by simpa using ho, by simp [hr]⟩
      | succ j =>
        obtain ⟨q1, h1, h2⟩ := g3 j (by omega)
        have e : i + (j + 1) = i + 1 + j := by omega
        exact ⟨q1, by rw [e]; exact h1, by rw [e, List.getElem?_cons_succ]; exact h2⟩
    · simp only [List.forall_mem_cons, true_and]; exact g4
    · rw [g5]; simp [Sys.say, openedIn_append, openedIn]
    · rw [g6]; simp [Sys.say, savedIn_append, savedIn, List.range'_succ]

/-! ### servers -/

/-- `stop` will not raise. -/
def Sound (w : Which) (v : Option Srv) : Prop := ∀ x, v = some x → x.running = true → w = .udp ∨ x.server = true

theorem stopServer_sound {E : Env Q} (hq : Quiet E) {w v} {s : Sys} (hs : s.stage = .down) (hv : Sound w v) :
    (stopServer E w v s).1 = none ∧ openedIn (stopServer E w v s).2.2.log = openedIn s.log ∧
      savedIn (stopServer E w v s).2.2.log = savedIn s.log ∧ (stopServer E w v s).2.2.stage = .down := by
  unfold stopServer
  rw [tick_quiet hq hs]
  cases v with
  | none => simp [hs]
  | some x =>
    simp only [Bool.false_eq_true, if_false]
    unfold Srv.stop
    by_cases hr : x.running = true
    · have := hv x rfl hr
      have hn : ¬ (w ≠ .udp ∧ x.server = false) := by
        rintro ⟨h1, h2⟩; cases this with
        | inl h => exact h1 h
        | inr h => rw [h] at h2; cases h2
      rw [if_pos hr]
      simp only [hn, if_false]
      simp [Sys.say, openedIn_append, savedIn_append, openedIn, savedIn, hs]
    · rw [if_neg hr]; simp [hs]

theorem stopServers_sound {E : Env Q} (hq : Quiet E) {a : App Q} (hs : a.sys.stage = .down) (h1 : Sound .tcp a.tcp)
    (h2 : Sound .udp a.udp) (h3 : Sound .uds a.uds) :
    (stopServers E a).1 = none ∧ openedIn (stopServers E a).2.sys.log = openedIn a.sys.log ∧
      savedIn (stopServers E a).2.sys.log = savedIn a.sys.log ∧ (stopServers E a).2.sys.stage = .down ∧
      (stopServers E a).2.comps = a.comps := by
  unfold stopServers
  obtain ⟨a1, a2, a3, a4⟩ := stopServer_sound hq hs h1
  generalize stopServer E .tcp a.tcp a.sys = r1 at a1 a2 a3 a4
  obtain ⟨x1, v1, s1⟩ := r1
  simp only at a1 a2 a3 a4
  subst a1
  simp only
  obtain ⟨b1, b2, b3, b4⟩ := stopServer_sound hq (s := s1) a4 h2
  generalize stopServer E .udp a.udp s1 = r2 at b1 b2 b3 b4
  obtain ⟨x2, v2, s2⟩ := r2
  simp only at b1 b2 b3 b4
  subst b1
  simp only
  obtain ⟨c1, c2, c3, c4⟩ := stopServer_sound hq (s := s2) b4 h3
  generalize stopServer E .uds a.uds s2 = r3 at c1 c2 c3 c4
  obtain ⟨x3, v3, s3⟩ := r3
  simp only at c1 c2 c3 c4
  exact ⟨c1, by simp only; rw [c2, b2, a2], by simp only; rw [c3, b3, a3], c4, trivial⟩

/-! ### the body -/

/-- The context has not been started. -/
structure NotStarted (n : Nat) (a : App Q) : Prop where
  comps : a.comps = List.replicate n Comp.fresh
  stage : a.sys.stage = .up
  opened : openedIn a.sys.log = []
  saved : savedIn a.sys.log = []
  tcp : ∀ v, a.tcp = some v → v.running = false ∧ v.server = false
  udp : ∀ v, a.udp = some v → v.running = false ∧ v.server = false
  uds : ∀ v, a.uds = some v → v.running = false ∧ v.server = false

/-- Before `__do_shutdown`. -/
structure Ready (E : Env Q) (n k : Nat) (d : Bool) (a : App Q) : Prop where
  shape : Shape E E.work 0 k d a.comps
  length : a.comps.length = n
  stage : a.sys.stage = .down
  opened : openedIn a.sys.log = List.range k
  saved : savedIn a.sys.log = []
  tcp : Sound .tcp a.tcp
  udp : Sound .udp a.udp
  uds : Sound .uds a.uds

theorem sound_idle {w v} (h : ∀ x, v = some x → x.running = false ∧ x.server = false) : Sound w v := by
  intro x hx hr; rw [(h x hx).1] at hr; cases hr

theorem sound_after {w : Which} {v : Option Srv} (p : Phase) (h : ∀ x, v = some x → x.running = false ∧ x.server = false)
    (hp : w = .udp ∨ v = none ∨ p ≠ .entering) : Sound w ((v.map (p.reached w)).map Srv.cancelled) := by
  intro x hx hr
  cases v with
  | none => cases hx
  | some y =>
    simp only [Option.map_some, Option.some.injEq] at hx
    subst hx
    obtain ⟨h1, h2⟩ := h y rfl
    cases p <;> simp [Phase.reached, Srv.cancelled, h1, h2] at hr hp ⊢
    · exact .inl hp

theorem sound_cancelled {w : Which} {v : Option Srv} (h : ∀ x, v = some x → x.running = false ∧ x.server = false) :
    Sound w (v.map Srv.cancelled) := by
  intro x hx hr
  cases v with
  | none => cases hx
  | some y =>
    simp only [Option.map_some, Option.some.injEq] at hx
    subst hx
    obtain ⟨h1, h2⟩ := h y rfl
    simp [Srv.cancelled, h1, h2] at hr

theorem run_ready {E : Env Q} (hq : Quiet E) {n : Nat} {a : App Q} (h : NotStarted n a)
    (ht : a.tcp = none ∨ E.phase .tcp ≠ .entering) (hu : a.uds = none ∨ E.phase .uds ≠ .entering) :
    ∃ k d, Ready E n k d (run E a).2 := by
  obtain ⟨k, d, g1, g2, g3, g4, g5, g6⟩ := setupAll_shape E n 0 a.sys
  refine ⟨k, d, ?_⟩
  unfold run startBody
  rw [h.comps]
  generalize setupAll E 0 (List.replicate n Comp.fresh) a.sys = r at g1 g2 g3 g4 g5 g6
  obtain ⟨x, cs, s⟩ := r
  simp only at g1 g2 g3 g4 g5 g6
  have hw := workedAll_shape g1
  have hl := workedAll_length E false cs 0
  rw [h.opened, List.nil_append, ← List.range_eq_range'] at g4
  rw [h.saved] at g5
  cases x with
  | some e =>
    simp only [tick_quiet hq, Bool.false_eq_true, if_false]
    exact ⟨hw, by rw [← g2, ← hl], rfl, g4, g5, sound_cancelled h.tcp, sound_cancelled h.udp, sound_cancelled h.uds⟩
  | none =>
    simp only [tick]
    by_cases h2 : E.signal s.stage s.clock
    · simp only [h2, if_true, hq _, Bool.false_eq_true, if_false]
      exact ⟨hw, by rw [← g2, ← hl], rfl, g4, g5, sound_cancelled h.tcp, sound_cancelled h.udp, sound_cancelled h.uds⟩
    · simp only [h2, if_false, Bool.false_eq_true]
      cases E.tasks with
      | some e =>
        simp only [hq _, Bool.false_eq_true, if_false]
        exact ⟨hw, by rw [← g2, ← hl], rfl, g4, g5, sound_cancelled h.tcp, sound_cancelled h.udp, sound_cancelled h.uds⟩
      | none =>
        simp only [hq _, Bool.false_eq_true, if_false]
        refine ⟨hw, by rw [← g2, ← hl], rfl, ?_, ?_, sound_after _ h.tcp (.inr ht), sound_after _ h.udp (.inl rfl),
          sound_after _ h.uds (.inr hu)⟩
        · simp [Sys.say, openedIn_append, openedIn, g4]
        · simp [Sys.say, savedIn_append, savedIn, g5]

theorem notStarted_act {E : Env Q} {n : Nat} {a : App Q} (h : NotStarted n a) (x : Action) (hx : x ≠ .start ∨ a.context = false) :
    NotStarted n (act E a x).2 := by
  cases x with
  | start =>
    simp only [act, start]
    have : a.context = false := by simpa using hx
    rw [this]
    simp only [Bool.false_eq_true, if_false, tick]
    by_cases hs : E.signal a.sys.stage a.sys.clock = true
    · simp only [hs, if_true]; exact ⟨h.1, h.2, h.3, h.4, h.5, h.6, h.7⟩
    · simp only [hs, if_false, Bool.false_eq_true]; refine ⟨h.1, h.2, ?_, ?_, h.5, h.6, h.7⟩
      · simp [Sys.say, openedIn_append, openedIn, h.3]
      · simp [Sys.say, savedIn_append, savedIn, h.4]
  | stop => exact ⟨h.1, h.2, h.3, h.4, h.5, h.6, h.7⟩
  | code e => exact ⟨h.1, h.2, h.3, h.4, h.5, h.6, h.7⟩

theorem act_servers {E : Env Q} {a : App Q} (x : Action) (hx : x ≠ .start ∨ a.context = false) :
    (act E a x).2.tcp = a.tcp ∧ (act E a x).2.uds = a.uds := by
  cases x with
  | start =>
    have : a.context = false := by simpa using hx
    simp only [act, start, this, Bool.false_eq_true, if_false, tick]
    split <;> exact ⟨rfl, rfl⟩
  | stop => exact ⟨rfl, rfl⟩
  | code e => exact ⟨rfl, rfl⟩

theorem body_cases {E : Env Q} (hq : Quiet E) {n : Nat} (xs : List Action) : ∀ {a : App Q}, NotStarted n a →
    (a.tcp = none ∨ E.phase .tcp ≠ .entering) → (a.uds = none ∨ E.phase .uds ≠ .entering) →
    NotStarted n (body E xs a).2 ∨ ∃ k d, Ready E n k d (body E xs a).2 := by
  induction xs with
  | nil => intro a h _ _; exact .inl h
  | cons x xs ih =>
    intro a h ht hu
    unfold body
    by_cases hx : x ≠ .start ∨ a.context = false
    · have h1 := notStarted_act (E := E) h x hx
      obtain ⟨h2, h3⟩ := act_servers (E := E) (a := a) x hx
      rw [← h2] at ht
      rw [← h3] at hu
      generalize act E a x = r at h1 ht hu
      obtain ⟨e, b⟩ := r
      cases e with
      | none => exact ih h1 ht hu
      | some e => exact .inl h1
    · have hx' : x = .start ∧ a.context = true := by
        refine ⟨?_, ?_⟩
        · by_contra hc; exact hx (.inl hc)
        · cases hc : a.context with
          | true => rfl
          | false => exact absurd (.inr hc) hx
      obtain ⟨rfl, hc⟩ := hx'
      right
      have hr := run_ready hq h ht hu
      simp only [act, start, hc, if_true]
      exact hr

theorem ready_of_notStarted {E : Env Q} {n : Nat} {a : App Q} (h : NotStarted n a) :
    ∃ d, Ready E n 0 d { a with sys := a.sys.goDown } := by
  have hst : a.sys.goDown.stage = .down ∧ a.sys.goDown.log = a.sys.log := by
    unfold Sys.goDown; rw [h.stage]; exact ⟨rfl, rfl⟩
  cases n with
  | zero =>
    refine ⟨true, ?_, ?_, hst.1, ?_, ?_, sound_idle h.tcp, sound_idle h.udp, sound_idle h.uds⟩
    · have : a.comps = [] := h.comps
      rw [this]; exact .nil 0
    · simp [h.comps]
    · simp only [hst.2, h.opened]; rfl
    · simp only [hst.2, h.saved]
  | succ n =>
    refine ⟨false, ?_, ?_, hst.1, ?_, ?_, sound_idle h.tcp, sound_idle h.udp, sound_idle h.uds⟩
    · rw [h.comps]; exact .fresh 0 n
    · simp [h.comps]
    · simp only [hst.2, h.opened]; rfl
    · simp only [hst.2, h.saved]

theorem life_ready {E : Env Q} (hq : Quiet E) (xs : List Action) (tcp udp uds : Bool) (n : Nat)
    (ht : tcp = false ∨ E.phase .tcp ≠ .entering) (hu : uds = false ∨ E.phase .uds ≠ .entering) :
    ∃ k d a, Ready E n k d a ∧ life E xs (fresh tcp udp uds n) = doShutdown E a := by
  have h0 : NotStarted n { (fresh tcp udp uds n : App Q) with context := true } := by
    refine ⟨rfl, rfl, rfl, rfl, ?_, ?_, ?_⟩
    · intro v hv; cases tcp <;> simp [fresh] at hv; subst hv; exact ⟨rfl, rfl⟩
    · intro v hv; cases udp <;> simp [fresh] at hv; subst hv; exact ⟨rfl, rfl⟩
    · intro v hv; cases uds <;> simp [fresh] at hv; subst hv; exact ⟨rfl, rfl⟩
  have h1 : ({ (fresh tcp udp uds n : App Q) with context := true } : App Q).tcp = none ∨ E.phase .tcp ≠ .entering :=
    ht.imp (fun h => by subst h; rfl) id
  have h2 : ({ (fresh tcp udp uds n : App Q) with context := true } : App Q).uds = none ∨ E.phase .uds ≠ .entering :=
    hu.imp (fun h => by subst h; rfl) id
  rcases body_cases hq xs h0 h1 h2 with h | ⟨k, d, h⟩
  · obtain ⟨d, hd⟩ := ready_of_notStarted (E := E) h
    exact ⟨0, d, _, hd, rfl⟩
  · refine ⟨k, d, _, h, ?_⟩
    unfold life
    simp only
    congr 1
    have : (body E xs { (fresh tcp udp uds n : App Q) with context := true }).2.sys.goDown =
        (body E xs { (fresh tcp udp uds n : App Q) with context := true }).2.sys := by
      unfold Sys.goDown; rw [h.stage]
    rw [this]

theorem setupAll_ok {E : Env Q} (hsig : ∀ t, E.signal .up t = false) : ∀ (m i : Nat) (s : Sys), s.stage = .up →
    (∀ j, i ≤ j → j < i + m → ∃ q, E.opens j = .ok q) → (setupAll E i (List.replicate m Comp.fresh) s).1 = none := by
  intro m
  induction m with
  | zero => intro i s _ _; rfl
  | succ m ih =>
    intro i s hs ho
    obtain ⟨q, hq⟩ := ho i (by omega) (by omega)
    rw [List.replicate_succ]
    unfold setupAll setupOne tick
    simp only [hs, hsig, Bool.false_eq_true, if_false, hq, Sys.say]
    exact ih (i + 1) _ rfl (fun j h1 h2 => ho j (by omega) (by omega))

/-- The application serves: everything has been set up, nothing has been saved. -/
theorem startBody_ok {E : Env Q} (hsig : ∀ t, E.signal .up t = false) (htasks : E.tasks = none) {n : Nat}
    (hopen : ∀ i < n, ∃ q, E.opens i = .ok q) {a : App Q} (h : NotStarted n a) :
    (startBody E a).1 = E.ending ∧ Shape E (fun _ q => q) 0 n true (startBody E a).2.comps ∧
    openedIn (startBody E a).2.sys.log = List.range n ∧ savedIn (startBody E a).2.sys.log = [] ∧
    (startBody E a).2.tcp = a.tcp.map ((E.phase .tcp).reached .tcp) ∧
    (startBody E a).2.udp = a.udp.map ((E.phase .udp).reached .udp) ∧
    (startBody E a).2.uds = a.uds.map ((E.phase .uds).reached .uds) := by
  obtain ⟨k, d, g1, g2, g3, g4, g5, g6⟩ := setupAll_shape E n 0 a.sys
  have g0 := setupAll_ok hsig n 0 a.sys h.stage (fun j _ hj => hopen j (by omega))
  unfold startBody
  rw [h.comps]
  generalize setupAll E 0 (List.replicate n Comp.fresh) a.sys = r at g0 g1 g2 g3 g4 g5 g6
  obtain ⟨x, cs, s⟩ := r
  simp only at g0 g1 g2 g3 g4 g5 g6
  subst g0
  obtain rfl : d = true := g3.mp rfl
  obtain rfl : k = n := by rw [g1.le.2 rfl, g2]
  rw [h.opened, List.nil_append, ← List.range_eq_range'] at g4
  rw [h.saved] at g5
  rw [h.stage] at g6
  simp only [tick, g6, hsig, Bool.false_eq_true, if_false, htasks]
  refine ⟨trivial, g1, ?_, ?_, trivial, trivial, trivial⟩
  · simp [Sys.say, openedIn_append, openedIn, g4]
  · simp [Sys.say, savedIn_append, savedIn, g5]

/-- Code before `start` changes nothing. -/
theorem body_pre {E : Env Q} (hsig : ∀ t, E.signal .up t = false) {n : Nat} (m : Nat) : ∀ {a : App Q}, NotStarted n a → ∀ xs,
    ∃ b, NotStarted n b ∧ b.context = a.context ∧ b.tcp = a.tcp ∧ b.udp = a.udp ∧ b.uds = a.uds ∧
      body E (List.replicate m (.code none) ++ xs) a = body E xs b := by
  induction m with
  | zero => intro a h xs; exact ⟨a, h, rfl, rfl, rfl, rfl, rfl⟩
  | succ m ih =>
    intro a h xs
    have h1 : NotStarted n (act E a (.code none)).2 := notStarted_act h _ (.inl (by simp))
    obtain ⟨b, c1, c2, c3, c4, c5, c6⟩ := ih h1 xs
    refine ⟨b, c1, c2, c3, c4, c5, ?_⟩
    rw [List.replicate_succ, List.cons_append]
    conv_lhs => unfold body
    have : act E a (.code none) = (none, (act E a (.code none)).2) := by
      simp [act, tick, h.stage, hsig]
    rw [this]
    exact c6

theorem notStarted_fresh (tcp udp uds : Bool) (n : Nat) (b : Bool) : NotStarted n { (fresh tcp udp uds n : App Q) with context := b } := by
  refine ⟨rfl, rfl, rfl, rfl, ?_, ?_, ?_⟩
  · intro v hv; cases tcp <;> simp [fresh] at hv; subst hv; exact ⟨rfl, rfl⟩
  · intro v hv; cases udp <;> simp [fresh] at hv; subst hv; exact ⟨rfl, rfl⟩
  · intro v hv; cases uds <;> simp [fresh] at hv; subst hv; exact ⟨rfl, rfl⟩

/-- The state in which `__do_shutdown` finds an application that served and was then ended. -/
theorem life_started {E : Env Q} (hsig : ∀ t, E.signal .up t = false) (hq : Quiet E) (htasks : E.tasks = none) {n : Nat}
    (hopen : ∀ i < n, ∃ q, E.opens i = .ok q) (m : Nat) (xs : List Action) (tcp udp uds : Bool) :
    ∃ a, life E (List.replicate m (.code none) ++ .start :: xs) (fresh tcp udp uds n) = doShutdown E a ∧
      Shape E E.work 0 n true a.comps ∧ a.comps.length = n ∧ a.sys.stage = .down ∧ openedIn a.sys.log = List.range n ∧ savedIn a.sys.log = [] ∧
      a.tcp = (((fresh tcp udp uds n : App Q).tcp.map ((E.phase .tcp).reached .tcp)).map Srv.cancelled) ∧
      a.udp = (((fresh tcp udp uds n : App Q).udp.map ((E.phase .udp).reached .udp)).map Srv.cancelled) ∧
      a.uds = (((fresh tcp udp uds n : App Q).uds.map ((E.phase .uds).reached .uds)).map Srv.cancelled) := by
  obtain ⟨b, b1, b2, b3, b4, b5, b6⟩ := body_pre hsig m (notStarted_fresh (Q := Q) tcp udp uds n true) (.start :: xs)
  obtain ⟨c1, c2, c3, c4, c5, c6, c7⟩ := startBody_ok hsig htasks hopen b1
  have hs : body E (.start :: xs) b = (some (run E b).1, (run E b).2) := by
    unfold body act start
    rw [b2]; rfl
  refine ⟨(run E b).2, ?_, ?_⟩
  · unfold life
    simp only
    rw [b6, hs]
    congr 1
    have : (run E b).2.sys.goDown = (run E b).2.sys := by
      unfold run
      simp only [tick_quiet hq, Bool.false_eq_true, if_false]
      rfl
    simp only [this]
  · unfold run
    generalize startBody E b = r at c1 c2 c3 c4 c5 c6 c7
    obtain ⟨e, d⟩ := r
    simp only at c1 c2 c3 c4 c5 c6 c7
    simp only [tick_quiet hq, Bool.false_eq_true, if_false]
    have hw := workedAll_shape c2
    exact ⟨hw, (hw.le.2 rfl).symm, trivial, c3, c4, by rw [c5, b3], by rw [c6, b4], by rw [c7, b5]⟩

/-- What `__do_shutdown` does. -/
theorem doShutdown_ready {E : Env Q} (hq : Quiet E) (hsave : ∀ i q, E.opens i = .ok q → (E.save (E.work i q)).1 = .ok ())
    {n k d} {a : App Q} (h : Ready E n k d a) :
    (doShutdown E a).1 = (if d then none else some .attributeError) ∧
    (doShutdown E a).2.comps.length = n ∧
    (∀ j < k, ∃ q, E.opens j = .ok q ∧ (doShutdown E a).2.comps[j]?.bind Comp.queue = some (E.save (E.work j q)).2) ∧
    ((∀ c ∈ (doShutdown E a).2.comps, c.future = some true) ↔ d = true) ∧
    openedIn (doShutdown E a).2.sys.log = List.range k ∧
    savedIn (doShutdown E a).2.sys.log = List.range k ∧
    (d = true → FlushedLast (doShutdown E a).2.sys.log) := by
  obtain ⟨s1, s2, s3, s4, s5⟩ := stopServers_sound hq h.stage h.tcp h.udp h.uds
  unfold doShutdown
  generalize stopServers E a = r at s1 s2 s3 s4 s5
  obtain ⟨x, b⟩ := r
  simp only at s1 s2 s3 s4 s5
  subst s1
  simp only
  have hsh := h.shape
  rw [← s5] at hsh
  obtain ⟨g1, g2, g3, g4, g5, g6, g7⟩ := shutAll_shape hq hsave hsh b.sys s4
  generalize shutAll E 0 b.comps b.sys = r at g1 g2 g3 g4 g5 g6 g7
  obtain ⟨y, cs, s⟩ := r
  simp only at g1 g2 g3 g4 g5 g6 g7
  rw [s2, h.opened] at g5
  rw [s3, h.saved, List.nil_append, ← List.range_eq_range'] at g6
  simp only [Nat.zero_add] at g3
  have hlen : cs.length = n := by rw [g2, s5, h.length]
  cases d with
  | false =>
    subst g1
    simp only [Bool.false_eq_true, if_false]
    exact ⟨trivial, hlen, g3, by simpa using g4, g5, g6, by simp⟩
  | true =>
    subst g1
    simp only [if_true, tick_quiet hq g7, Bool.false_eq_true, if_false]
    refine ⟨trivial, hlen, g3, by simpa using g4, ?_, ?_, fun _ => ⟨_, rfl⟩⟩
    · simp [Sys.say, openedIn_append, openedIn, g5]
    · simp [Sys.say, savedIn_append, savedIn, g6]

end Verif.Life
