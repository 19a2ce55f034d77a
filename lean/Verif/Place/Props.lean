import Verif.Place.Model
import Verif.Config.Props
import Verif.Life.Props

/-!
# C105: buffers have no default place; C106: what the exit status of an application tells

documentation/buffereds/questions_and_answers.md: "Ecosystem will NEVER try to use some kind of default for the location of buffering
databases. If your application uses things like buffered_endpoint or buffered_sender, you will have to explicitly set this location, for at
least machine level. Or your application will not start." The same in documentation/configuration/through_environment_variables.md.
-/

namespace Verif.Place

open Verif.Py Verif.Config Verif.Life Verif.Life.Spec Verif.Config.Spec

variable {Q : Type}

/-! ### applications that cannot set up their first component -/

/-- Nothing has been set up, and no server has been touched. -/
structure Idle (a₀ a : App Q) : Prop where
  comps : a.comps = a₀.comps
  tcp : a.tcp = a₀.tcp
  udp : a.udp = a₀.udp
  uds : a.uds = a₀.uds
  log : ∀ e ∈ a.sys.log, e = .flushed

theorem idle_run {E : Env Q} {e : Exc} (ho : E.opens 0 = .error e) (tcp udp uds : Bool) (n : Nat) {a : App Q}
    (h : Idle (fresh tcp udp uds (n + 1)) a) : Idle (fresh tcp udp uds (n + 1)) (Life.run E a).2 := by
  obtain ⟨h1, h2, h3, h4, h5⟩ := h
  have hc : a.comps = Comp.fresh :: List.replicate n Comp.fresh := by rw [h1]; rfl
  have hs : ∃ x s, setupAll E 0 a.comps a.sys = (some x, a.comps, s) ∧ s.log = a.sys.log := by
    rw [hc]
    unfold setupAll setupOne
    simp only [tick, ho]
    by_cases hsig : E.signal a.sys.stage a.sys.clock = true
    · simp only [hsig, if_true]; exact ⟨_, _, rfl, rfl⟩
    · simp only [hsig, Bool.false_eq_true, if_false]; exact ⟨_, _, rfl, rfl⟩
  obtain ⟨x, s, he, hl⟩ := hs
  have hw : ∀ b, workedAll E b 0 a.comps = a.comps := by
    intro b; rw [h1]; exact workedAll_fresh E b (n + 1) 0
  have cancel : ∀ b : Bool, (if b then some ({ running := false, server := false } : Srv) else none).map Srv.cancelled =
      if b then some { running := false, server := false } else none := by intro b; cases b <;> rfl
  unfold Life.run startBody
  rw [he]
  simp only [tick]
  by_cases hsig : E.signal .down 0 = true
  · simp only [hsig, if_true]
    exact ⟨by rw [hw]; exact h1, h2, h3, h4, by simp only [hl]; exact h5⟩
  · simp only [hsig, Bool.false_eq_true, if_false]
    refine ⟨by rw [hw]; exact h1, ?_, ?_, ?_, by simp only [hl]; exact h5⟩
    · simp only [h2, fresh]; exact cancel tcp
    · simp only [h3, fresh]; exact cancel udp
    · simp only [h4, fresh]; exact cancel uds

theorem idle_act {E : Env Q} {e : Exc} (ho : E.opens 0 = .error e) (tcp udp uds : Bool) (n : Nat) {a : App Q}
    (h : Idle (fresh tcp udp uds (n + 1)) a) (x : Action) : Idle (fresh tcp udp uds (n + 1)) (act E a x).2 := by
  cases x with
  | start =>
    simp only [act, start]
    by_cases hc : a.context = true
    · simp only [hc, if_true]; exact idle_run ho tcp udp uds n h
    · simp only [hc, Bool.false_eq_true, if_false, tick]
      by_cases hsig : E.signal a.sys.stage a.sys.clock = true
      · simp only [hsig, if_true]; exact ⟨h.comps, h.tcp, h.udp, h.uds, h.log⟩
      · simp only [hsig, Bool.false_eq_true, if_false]
        refine ⟨h.comps, h.tcp, h.udp, h.uds, ?_⟩
        intro ev hev
        simp only [Sys.say, List.mem_append, List.mem_singleton] at hev
        rcases hev with hev | hev
        · exact h.log ev hev
        · exact hev
  | stop => exact ⟨h.comps, h.tcp, h.udp, h.uds, h.log⟩
  | code o => exact ⟨h.comps, h.tcp, h.udp, h.uds, h.log⟩

theorem idle_body {E : Env Q} {e : Exc} (ho : E.opens 0 = .error e) (tcp udp uds : Bool) (n : Nat) (xs : List Action) :
    ∀ {a : App Q}, Idle (fresh tcp udp uds (n + 1)) a → Idle (fresh tcp udp uds (n + 1)) (body E xs a).2 := by
  induction xs with
  | nil => intro a h; exact h
  | cons x xs ih =>
    intro a h
    have := idle_act ho tcp udp uds n h x
    unfold body
    cases hr : act E a x with
    | mk o a' =>
      rw [hr] at this
      cases o with
      | none => exact ih this
      | some y => exact this

theorem idle_stopServer {E : Env Q} (w : Which) (b : Bool) (s : Sys) :
    (stopServer E w (if b then some { running := false, server := false } else none) s).2.1 =
      (if b then some { running := false, server := false } else none) ∧
    (stopServer E w (if b then some { running := false, server := false } else none) s).2.2.log = s.log := by
  unfold stopServer
  simp only [tick]
  by_cases hsig : E.signal s.stage s.clock = true
  · simp only [hsig, if_true]; exact ⟨trivial, trivial⟩
  · cases b <;> simp [hsig, Srv.stop]

theorem idle_shutdown {E : Env Q} (tcp udp uds : Bool) (n : Nat) {a : App Q} (h : Idle (fresh tcp udp uds (n + 1)) a) :
    (doShutdown E a).1 ≠ none ∧ (doShutdown E a).2.tcp = a.tcp ∧ (doShutdown E a).2.udp = a.udp ∧
      (doShutdown E a).2.uds = a.uds ∧ ∀ e ∈ (doShutdown E a).2.sys.log, e = .flushed := by
  obtain ⟨h1, h2, h3, h4, h5⟩ := h
  have stop : (stopServers E a).2.tcp = a.tcp ∧ (stopServers E a).2.udp = a.udp ∧ (stopServers E a).2.uds = a.uds ∧
      (stopServers E a).2.comps = a.comps ∧ (stopServers E a).2.sys.log = a.sys.log := by
    unfold stopServers
    have k1 := idle_stopServer (E := E) .tcp tcp a.sys
    rw [show (if tcp = true then some ({ running := false, server := false } : Srv) else none) = a.tcp from h2.symm] at k1
    cases r1 : stopServer E .tcp a.tcp a.sys with
    | mk o1 p1 =>
    obtain ⟨v1, s1⟩ := p1
    rw [r1] at k1
    cases o1 with
    | some x => exact ⟨k1.1, by trivial, by trivial, by trivial, k1.2⟩
    | none =>
    simp only
    have k2 := idle_stopServer (E := E) .udp udp s1
    rw [show (if udp = true then some ({ running := false, server := false } : Srv) else none) = a.udp from h3.symm] at k2
    cases r2 : stopServer E .udp a.udp s1 with
    | mk o2 p2 =>
    obtain ⟨v2, s2⟩ := p2
    rw [r2] at k2
    cases o2 with
    | some x => exact ⟨k1.1, k2.1, rfl, rfl, k2.2.trans k1.2⟩
    | none =>
    simp only
    have k3 := idle_stopServer (E := E) .uds uds s2
    rw [show (if uds = true then some ({ running := false, server := false } : Srv) else none) = a.uds from h4.symm] at k3
    cases r3 : stopServer E .uds a.uds s2 with
    | mk o3 p3 =>
    obtain ⟨v3, s3⟩ := p3
    rw [r3] at k3
    exact ⟨k1.1, k2.1, k3.1, trivial, k3.2.trans (k2.2.trans k1.2)⟩
  unfold doShutdown
  cases r : stopServers E a with
  | mk o a' =>
  rw [r] at stop
  obtain ⟨g1, g2, g3, g4, g5⟩ := stop
  cases o with
  | some x => exact ⟨by simp, g1, g2, g3, by simp only at g5 ⊢; rw [g5]; exact h5⟩
  | none =>
    simp only at g1 g2 g3 g4 g5 ⊢
    have hc : a'.comps = Comp.fresh :: List.replicate n Comp.fresh := by rw [g4, h1]; rfl
    have hs : ∃ x cs s, shutAll E 0 a'.comps a'.sys = (some x, cs, s) ∧ s.log = a'.sys.log := by
      rw [hc]
      unfold shutAll shutOne shutDownCheck
      simp only [tick, Comp.fresh]
      by_cases hsig : E.signal a'.sys.stage a'.sys.clock = true
      · simp only [hsig, if_true]; exact ⟨_, _, _, rfl, rfl⟩
      · simp only [hsig, Bool.false_eq_true, if_false]; exact ⟨_, _, _, rfl, rfl⟩
    obtain ⟨x, cs, s, he, hl⟩ := hs
    rw [he]
    exact ⟨by simp, g1, g2, g3, by simp only; rw [hl, g5]; exact h5⟩

/-- **C105, an application whose first buffered component has no directory.** Whatever the body of the context does and whenever signals arrive:
no database is opened or saved, no server is started or stopped, and an exception leaves the context. -/
theorem not_started {E : Env Q} {e : Exc} (ho : E.opens 0 = .error e) (tcp udp uds : Bool) (n : Nat) (xs : List Action) :
    (life E xs (fresh tcp udp uds (n + 1))).1 ≠ none ∧
    (life E xs (fresh tcp udp uds (n + 1))).2.tcp = (fresh tcp udp uds (n + 1) : App Q).tcp ∧
    (life E xs (fresh tcp udp uds (n + 1))).2.udp = (fresh tcp udp uds (n + 1) : App Q).udp ∧
    (life E xs (fresh tcp udp uds (n + 1))).2.uds = (fresh tcp udp uds (n + 1) : App Q).uds ∧
    ∀ ev ∈ (life E xs (fresh tcp udp uds (n + 1))).2.sys.log, ev = .flushed := by
  have h0 : Idle (fresh tcp udp uds (n + 1)) ({ (fresh tcp udp uds (n + 1) : App Q) with context := true }) :=
    ⟨rfl, rfl, rfl, rfl, by simp [fresh]⟩
  have hb := idle_body ho tcp udp uds n xs h0
  have hg : ∀ s : Sys, s.goDown.log = s.log := by intro s; unfold Sys.goDown; cases s.stage <;> rfl
  unfold life
  simp only
  have hb' : Idle (fresh tcp udp uds (n + 1)) ({ (body E xs { (fresh tcp udp uds (n + 1) : App Q) with context := true }).2 with
      sys := (body E xs { (fresh tcp udp uds (n + 1) : App Q) with context := true }).2.sys.goDown }) :=
    ⟨hb.comps, hb.tcp, hb.udp, hb.uds, by simp only [hg]; exact hb.log⟩
  obtain ⟨k1, k2, k3, k4, k5⟩ := idle_shutdown (E := E) tcp udp uds n hb'
  exact ⟨k1, k2.trans hb.tcp, k3.trans hb.udp, k4.trans hb.uds, k5⟩

/-! ### what stopping never does -/

theorem opened_stopServer {E : Life.Env Q} (w : Which) (v : Option Srv) (s : Sys) :
    openedIn (stopServer E w v s).2.2.log = openedIn s.log := by
  unfold stopServer
  simp only [tick]
  by_cases hsig : E.signal s.stage s.clock = true
  · simp only [hsig, if_true]
  · cases v with
    | none => simp [hsig]
    | some v =>
      simp only [hsig, Bool.false_eq_true, if_false]
      unfold Srv.stop
      cases v.running
      · rfl
      · simp only [if_true]
        split
        · rfl
        · simp [Sys.say, openedIn_append, openedIn]

theorem opened_stopServers {E : Life.Env Q} (a : App Q) : openedIn (stopServers E a).2.sys.log = openedIn a.sys.log := by
  unfold stopServers
  have k1 := opened_stopServer (E := E) .tcp a.tcp a.sys
  cases r1 : stopServer E .tcp a.tcp a.sys with
  | mk o1 p1 =>
  obtain ⟨v1, s1⟩ := p1
  rw [r1] at k1
  cases o1 with
  | some x => exact k1
  | none =>
  simp only
  have k2 := opened_stopServer (E := E) .udp a.udp s1
  cases r2 : stopServer E .udp a.udp s1 with
  | mk o2 p2 =>
  obtain ⟨v2, s2⟩ := p2
  rw [r2] at k2
  cases o2 with
  | some x => exact k2.trans k1
  | none =>
  simp only
  have k3 := opened_stopServer (E := E) .uds a.uds s2
  cases r3 : stopServer E .uds a.uds s2 with
  | mk o3 p3 =>
  obtain ⟨v3, s3⟩ := p3
  rw [r3] at k3
  exact k3.trans (k2.trans k1)

theorem opened_shutOne {E : Life.Env Q} (i : Nat) (c : Comp Q) (s : Sys) : openedIn (shutOne E i c s).2.2.log = openedIn s.log := by
  unfold shutOne shutDownCheck
  simp only [tick]
  by_cases hs : E.signal s.stage s.clock = true
  · simp only [hs, if_true]
  · simp only [hs, Bool.false_eq_true, if_false]
    by_cases hr : (!c.running && true) = true
    · simp only [hr, if_true]
      cases hq : c.queue with
      | none => rfl
      | some q =>
        cases hv : E.save q with
        | mk r q' =>
          cases r with
          | error e => simp [hv]
          | ok u =>
            cases hf : c.future with
            | none => simp [hv, Sys.say, openedIn_append, openedIn]
            | some d => cases d <;> simp [hv, Sys.say, openedIn_append, openedIn]
    · simp only [hr, Bool.false_eq_true, if_false]

theorem opened_shutAll {E : Life.Env Q} (cs : List (Comp Q)) : ∀ (i : Nat) (s : Sys),
    openedIn (shutAll E i cs s).2.2.log = openedIn s.log := by
  induction cs with
  | nil => intro i s; rfl
  | cons c cs ih =>
    intro i s
    have h := opened_shutOne (E := E) i c s
    unfold shutAll
    cases r : shutOne E i c s with
    | mk o p =>
      obtain ⟨c', s'⟩ := p
      rw [r] at h
      cases o with
      | some e => exact h
      | none => exact (ih _ _).trans h

theorem opened_shutdown {E : Life.Env Q} (a : App Q) : openedIn (doShutdown E a).2.sys.log = openedIn a.sys.log := by
  have h1 := opened_stopServers (E := E) a
  unfold doShutdown
  cases r : stopServers E a with
  | mk o a' =>
  rw [r] at h1
  cases o with
  | some e => exact h1
  | none =>
    simp only at h1 ⊢
    have h2 := opened_shutAll (E := E) a'.comps 0 a'.sys
    cases r2 : shutAll E 0 a'.comps a'.sys with
    | mk o2 p =>
      obtain ⟨cs, s⟩ := p
      rw [r2] at h2
      cases o2 with
      | some e => exact h2.trans h1
      | none =>
        simp only [tick]
        by_cases hs : E.signal s.stage s.clock = true
        · simp only [hs, if_true]; exact h2.trans h1
        · simp only [hs, Bool.false_eq_true, if_false]
          simp only [Sys.say, openedIn_append, openedIn, List.append_nil]
          exact h2.trans h1

/-! ### directories -/

/-- A name without a slash. -/
def Plain (s : Str) : Prop := '/' ∉ s

theorem dirname_file {d name : Str} (hd : ∃ d' x, d = d' ++ [x] ∧ x ≠ '/') (hn : Plain name) : dirname (d ++ '/' :: name) = d := by
  obtain ⟨d', x, hd, hx⟩ := hd
  have hup : Str.uptoLast '/' (d ++ '/' :: name) = d ++ ['/'] := by
    unfold Str.uptoLast
    have : (d ++ '/' :: name).reverse = name.reverse ++ '/' :: d.reverse := by simp
    rw [this, List.dropWhile_append_of_pos (by intro y hy; simp at hy; simp; rintro rfl; exact hn hy)]
    simp [List.dropWhile]
  unfold dirname
  rw [hup, hd]
  simp [hx, List.dropWhile]

/-- The directory the two files of a component are in. -/
theorem dirname_fileOf {dir : Config.Val} {self : Self} {b : Buffered} (hd : ∃ d' x, shown dir = d' ++ [x] ∧ x ≠ '/')
    (ha : Plain self.app) (hi : Plain self.inst) (hr : Plain b.route) (q : QueueKind) : dirname (fileOf dir self b q) = shown dir := by
  unfold fileOf bufferFile
  rw [List.append_assoc, List.append_assoc, List.append_assoc, List.append_assoc, List.cons_append]
  apply dirname_file hd
  unfold Plain at *
  have h1 : '/' ∉ b.kind.text := by cases b.kind <;> decide +kernel
  have h2 : '/' ∉ q.text := by cases q <;> decide +kernel
  simp [ha, hi, hr, h1, h2]

theorem openPair_eq {isDir : Str → Bool} {dir : Config.Val} {self : Self} {b : Buffered}
    (hd : ∃ d' x, shown dir = d' ++ [x] ∧ x ≠ '/') (ha : Plain self.app) (hi : Plain self.inst) (hr : Plain b.route) :
    openPair isDir dir self b = if isDir (shown dir) then .ok (fileOf dir self b .pending, fileOf dir self b .error) else .error unableToOpen := by
  unfold openPair openFile
  rw [dirname_fileOf hd ha hi hr, dirname_fileOf hd ha hi hr]
  by_cases h : isDir (shown dir) = true <;> simp [h]

/-- None of the three variables for the directory of the buffers is set. -/
def NoBufferDir (env : Config.Env) (self : Self) : Prop :=
  ∀ name ∈ names self.app self.inst "BUFFER_DIR".toList, Unset env name

theorem unset_value {env : Config.Env} {self : Self} (h : NoBufferDir env self) : bufferDirectory env self = .none := by
  symm
  refine (C51_precedence env self "BUFFER_DIR".toList .none .none).1 ?_
  unfold NoBufferDir at h
  rw [names_eq] at h ⊢
  exact .later _ _ _ _ (h _ (by simp)) (.later _ _ _ _ (h _ (by simp)) (.later _ _ _ _ (h _ (by simp)) (.none _)))

/-- **C105**, the part that holds. An application with at least one buffered endpoint or sender, and without a directory for buffers at any level,
does not start: no database is opened, no server is started, and the process ends with an exception. Missing: that this is so in every
directory; it is assumed that the one the application runs in has no subdirectory `None` (see `C105_none_refuted`). -/
theorem C105_not_set_partial (env : Config.Env) (self : Self) (b : Buffered) (bs : List Buffered) (isDir : Str → Bool)
    (hset : NoBufferDir env self) (hnone : isDir "None".toList = false) (ha : Plain self.app) (hi : Plain self.inst) (hr : Plain b.route)
    {E : Life.Env (Str × Str)} (hE : E.opens = opens isDir (bufferDirectory env self) self (b :: bs)) (tcp udp uds : Bool)
    (xs : List Action) :
    (life E xs (fresh tcp udp uds (b :: bs).length)).1 ≠ none ∧
    (life E xs (fresh tcp udp uds (b :: bs).length)).2.tcp = (fresh tcp udp uds (b :: bs).length : App (Str × Str)).tcp ∧
    (life E xs (fresh tcp udp uds (b :: bs).length)).2.udp = (fresh tcp udp uds (b :: bs).length : App (Str × Str)).udp ∧
    (life E xs (fresh tcp udp uds (b :: bs).length)).2.uds = (fresh tcp udp uds (b :: bs).length : App (Str × Str)).uds ∧
    ∀ ev ∈ (life E xs (fresh tcp udp uds (b :: bs).length)).2.sys.log, ev = .flushed := by
  have ho : E.opens 0 = .error unableToOpen := by
    rw [hE, unset_value hset]
    show openPair isDir .none self b = _
    rw [openPair_eq ⟨"Non".toList, 'e', by decide +kernel, by decide⟩ ha hi hr]
    show (if isDir "None".toList then _ else _) = _
    rw [hnone]; rfl
  exact not_started ho tcp udp uds bs.length xs

/-- **C105, a directory that does not exist**: the same. -/
theorem C105_missing (d : Str) (self : Self) (b : Buffered) (bs : List Buffered) (isDir : Str → Bool)
    (hd : ∃ d' x, d = d' ++ [x] ∧ x ≠ '/') (hno : isDir d = false) (ha : Plain self.app) (hi : Plain self.inst) (hr : Plain b.route)
    {E : Life.Env (Str × Str)} (hE : E.opens = opens isDir (.text d) self (b :: bs)) (tcp udp uds : Bool) (xs : List Action) :
    (life E xs (fresh tcp udp uds (b :: bs).length)).1 ≠ none ∧
    (life E xs (fresh tcp udp uds (b :: bs).length)).2.tcp = (fresh tcp udp uds (b :: bs).length : App (Str × Str)).tcp ∧
    (life E xs (fresh tcp udp uds (b :: bs).length)).2.udp = (fresh tcp udp uds (b :: bs).length : App (Str × Str)).udp ∧
    (life E xs (fresh tcp udp uds (b :: bs).length)).2.uds = (fresh tcp udp uds (b :: bs).length : App (Str × Str)).uds ∧
    ∀ ev ∈ (life E xs (fresh tcp udp uds (b :: bs).length)).2.sys.log, ev = .flushed := by
  have ho : E.opens 0 = .error unableToOpen := by
    rw [hE]
    show openPair isDir (.text d) self b = _
    rw [openPair_eq (dir := .text d) hd ha hi hr]
    show (if isDir d then _ else _) = _
    rw [hno]; rfl
  exact not_started ho tcp udp uds bs.length xs

/-- **C105, a directory that exists**: the application starts, all its databases are opened, and they are in that directory under the
documented names. Shown for an application that no signal disturbs and whose `setup_tasks` does not fail. -/
theorem C105_set (d : Str) (self : Self) (bs : List Buffered) (isDir : Str → Bool)
    (hd : ∃ d' x, d = d' ++ [x] ∧ x ≠ '/') (hyes : isDir d = true) (ha : Plain self.app) (hi : Plain self.inst)
    (hr : ∀ b ∈ bs, Plain b.route)
    {E : Life.Env (Str × Str)} (hE : E.opens = opens isDir (.text d) self bs) (hsig : ∀ st t, E.signal st t = false)
    (htasks : E.tasks = none) (tcp udp uds : Bool) (m : Nat) (xs : List Action) :
    openedIn (life E (List.replicate m (.code none) ++ .start :: xs) (fresh tcp udp uds bs.length)).2.sys.log = List.range bs.length ∧
    ∀ (i : Nat) (b : Buffered), bs[i]? = some b → E.opens i =
      .ok (d ++ "/".toList ++ self.app ++ "-".toList ++ self.inst ++ "-".toList ++ b.route ++
          (match b.kind with | .endpoint => "-endpoint-pending.sqlite".toList | .sender => "-sender-pending.sqlite".toList),
        d ++ "/".toList ++ self.app ++ "-".toList ++ self.inst ++ "-".toList ++ b.route ++
          (match b.kind with | .endpoint => "-endpoint-error.sqlite".toList | .sender => "-sender-error.sqlite".toList)) := by
  have hopen : ∀ (i : Nat) (b : Buffered), bs[i]? = some b → E.opens i =
      .ok (fileOf (.text d) self b .pending, fileOf (.text d) self b .error) := by
    intro i b hb
    rw [hE]
    unfold opens
    rw [hb]
    show openPair isDir (.text d) self b = _
    rw [openPair_eq (dir := .text d) hd ha hi (hr b (List.mem_of_getElem? hb))]
    show (if isDir d then _ else _) = _
    rw [hyes]; rfl
  constructor
  · obtain ⟨a, he, _, _, _, h4, _⟩ := life_started (fun t => hsig .up t) (fun t => hsig .down t) htasks (n := bs.length)
      (fun i hi => ⟨_, hopen i bs[i] (List.getElem?_eq_getElem hi)⟩) m xs tcp udp uds
    rw [he, opened_shutdown, h4]
  · intro i b hb
    rw [hopen i b hb]
    have h1 := C65_names d self.app self.inst b.route
    obtain ⟨_, _, _, n1, n2, n3, n4⟩ := h1
    unfold fileOf
    cases hk : b.kind <;> simp only [shown]
    · rw [show self = ⟨self.app, self.inst⟩ from rfl, n1, n2]
    · rw [show self = ⟨self.app, self.inst⟩ from rfl, n3, n4]

/-- **C105, without buffers** there is nothing to be set: the application starts, whatever the directory. -/
theorem C105_unbuffered (dir : Config.Val) (self : Self) (isDir : Str → Bool) {E : Life.Env (Str × Str)}
    (_hE : E.opens = opens isDir dir self []) (hsig : ∀ st t, E.signal st t = false) (htasks : E.tasks = none) {a : App (Str × Str)}
    (ha : a.comps = []) : (startBody E a).1 = E.ending := by
  unfold startBody
  rw [ha]
  simp [setupAll, tick, hsig, htasks]

/-! ### examples and the refutation of C105 -/

def shop : Self := ⟨"shop".toList, "0".toList⟩

def order : Buffered := ⟨"app.order".toList, .endpoint⟩

def mail : Buffered := ⟨"app.mail".toList, .sender⟩

/-- Some world in which files are opened as said. -/
def world (o : Nat → Except Exc (Str × Str)) : Life.Env (Str × Str) where
  signal := fun _ _ => false
  opens := o
  tasks := none
  phase := fun _ => .serving
  ending := .termination
  work := fun _ q => q
  busy := fun _ => false
  save := fun q => (.ok (), q)

example : NoBufferDir [("HOME".toList, "/root".toList)] shop ∧ Plain shop.app ∧ Plain shop.inst ∧ Plain order.route ∧
    (life (world (opens (fun _ => false) (bufferDirectory [("HOME".toList, "/root".toList)] shop) shop [order, mail])) [.start]
      (fresh true false false 2)).1 = some .attributeError := by
  refine ⟨?_, by unfold Plain; decide +kernel, by unfold Plain; decide +kernel, by unfold Plain; decide +kernel, by decide +kernel⟩
  intro name hn
  left
  simp only [names, List.mem_cons, List.not_mem_nil, or_false] at hn
  rcases hn with rfl | rfl | rfl <;> decide +kernel

example : (∃ d' x, "/var/buffers".toList = d' ++ [x] ∧ x ≠ '/') ∧
    opens (fun d => d = "/var/buffers".toList) (.text "/var/buffers".toList) shop [order, mail] 1 =
      .ok ("/var/buffers/shop-0-app.mail-sender-pending.sqlite".toList, "/var/buffers/shop-0-app.mail-sender-error.sqlite".toList) ∧
    openedIn (life (world (opens (fun d => d = "/var/buffers".toList) (.text "/var/buffers".toList) shop [order, mail])) [.start]
      (fresh true false false 2)).2.sys.log = [0, 1] :=
  ⟨⟨"/var/buffer".toList, 's', by decide +kernel, by decide⟩, by decide +kernel, by decide +kernel⟩

/-- **C105 is false of the code.** Nothing is set, but the directory the application runs in has a subdirectory `None`: the application starts, and
its databases are in there. -/
theorem C105_none_refuted : ∃ (env : Config.Env) (isDir : Str → Bool), NoBufferDir env shop ∧
    openedIn (life (world (opens isDir (bufferDirectory env shop) shop [order])) [.start] (fresh true false false 1)).2.sys.log = [0] ∧
    opens isDir (bufferDirectory env shop) shop [order] 0 =
      .ok ("None/shop-0-app.order-endpoint-pending.sqlite".toList, "None/shop-0-app.order-endpoint-error.sqlite".toList) := by
  refine ⟨[], fun d => d = "None".toList, ?_, by decide +kernel, by decide +kernel⟩
  intro name _
  exact Or.inl rfl

/-! ### C106: the exit status -/

/-- Exit status of a program that is nothing but `with MyApplication() as app: ...`: 1 if an exception leaves the statement, 0 otherwise
(Python's `main`, Modules/main.c). -/
def exitStatus : Option Exc → Nat
  | none => 0
  | some _ => 1

/-- Nothing has been saved yet, and no worker is in the middle of an attempt. -/
structure Calm (n : Nat) (a : App Q) : Prop where
  length : a.comps.length = n
  idle : ∀ c ∈ a.comps, c.running = false
  saved : savedIn a.sys.log = []

theorem calm_setup {E : Life.Env Q} (cs : List (Comp Q)) : ∀ (i : Nat) (s : Sys), (∀ c ∈ cs, c.running = false) →
    (setupAll E i cs s).2.1.length = cs.length ∧ (∀ c ∈ (setupAll E i cs s).2.1, c.running = false) ∧
    savedIn (setupAll E i cs s).2.2.log = savedIn s.log := by
  induction cs with
  | nil => intro i s _; exact ⟨rfl, by simp [setupAll], rfl⟩
  | cons c cs ih =>
    intro i s h
    have h1 : (setupOne E i c s).2.1.running = c.running ∧ savedIn (setupOne E i c s).2.2.log = savedIn s.log := by
      unfold setupOne
      simp only [tick]
      by_cases hs : E.signal s.stage s.clock = true
      · simp only [hs, if_true]; exact ⟨trivial, trivial⟩
      · simp only [hs, Bool.false_eq_true, if_false]
        cases ho : E.opens i with
        | error e => exact ⟨rfl, rfl⟩
        | ok q =>
          simp only [Sys.say]
          by_cases hs' : E.signal s.stage (s.clock + 1) = true
          · simp only [hs', if_true]; simp [savedIn_append, savedIn]
          · simp only [hs', Bool.false_eq_true, if_false]; simp [savedIn_append, savedIn]
    unfold setupAll
    cases r : setupOne E i c s with
    | mk o p =>
      obtain ⟨c', s'⟩ := p
      rw [r] at h1
      have hc : c'.running = false := h1.1.trans (h c (by simp))
      cases o with
      | some e =>
        refine ⟨rfl, ?_, h1.2⟩
        intro x hx
        simp only [List.mem_cons] at hx
        rcases hx with rfl | hx
        · exact hc
        · exact h x (by simp [hx])
      | none =>
        obtain ⟨g1, g2, g3⟩ := ih (i + 1) s' (fun x hx => h x (by simp [hx]))
        refine ⟨by simp [g1], ?_, g3.trans h1.2⟩
        intro x hx
        simp only [List.mem_cons] at hx
        rcases hx with rfl | hx
        · exact hc
        · exact g2 x hx

theorem calm_worked {E : Life.Env Q} (hb : ∀ i, E.busy i = false) (b : Bool) (cs : List (Comp Q)) : ∀ i,
    (∀ c ∈ cs, c.running = false) → ∀ c ∈ workedAll E b i cs, c.running = false := by
  induction cs with
  | nil => intro i _; simp [workedAll]
  | cons c cs ih =>
    intro i h x hx
    simp only [workedAll, List.mem_cons] at hx
    rcases hx with rfl | hx
    · unfold Comp.worked
      cases c.queue
      · exact h c (by simp)
      · simp [hb]
    · exact ih (i + 1) (fun y hy => h y (by simp [hy])) x hx

theorem calm_act {E : Life.Env Q} (hb : ∀ i, E.busy i = false) {n : Nat} {a : App Q} (h : Calm n a) (x : Action) : Calm n (act E a x).2 := by
  cases x with
  | stop => exact ⟨h.length, h.idle, h.saved⟩
  | code e => exact ⟨h.length, h.idle, h.saved⟩
  | start =>
    simp only [act, start]
    by_cases hc : a.context = true
    · simp only [hc, if_true]
      have hbody : Calm n (startBody E a).2 := by
        obtain ⟨g1, g2, g3⟩ := calm_setup (E := E) a.comps 0 a.sys h.idle
        unfold startBody
        generalize setupAll E 0 a.comps a.sys = r at g1 g2 g3
        obtain ⟨o, cs, s⟩ := r
        simp only at g1 g2 g3
        cases o with
        | some e => exact ⟨g1.trans h.length, g2, g3.trans h.saved⟩
        | none =>
          simp only [tick]
          by_cases hs : E.signal s.stage s.clock = true
          · simp only [hs, if_true]; exact ⟨g1.trans h.length, g2, g3.trans h.saved⟩
          · simp only [hs, Bool.false_eq_true, if_false]
            cases E.tasks with
            | some e => exact ⟨g1.trans h.length, g2, g3.trans h.saved⟩
            | none =>
              refine ⟨g1.trans h.length, g2, ?_⟩
              simp only [Sys.say, savedIn_append, savedIn, List.append_nil]
              exact g3.trans h.saved
      unfold Life.run
      generalize startBody E a = r at hbody
      obtain ⟨e, d⟩ := r
      simp only [tick] at hbody ⊢
      have hl : ∀ b, (workedAll E b 0 d.comps).length = n := fun b => by rw [workedAll_length]; exact hbody.length
      by_cases hs : E.signal .down 0 = true
      · simp only [hs, if_true]; exact ⟨hl _, calm_worked hb _ _ 0 hbody.idle, hbody.saved⟩
      · simp only [hs, Bool.false_eq_true, if_false]; exact ⟨hl _, calm_worked hb _ _ 0 hbody.idle, hbody.saved⟩
    · simp only [hc, Bool.false_eq_true, if_false, tick]
      by_cases hs : E.signal a.sys.stage a.sys.clock = true
      · simp only [hs, if_true]; exact ⟨h.length, h.idle, h.saved⟩
      · simp only [hs, Bool.false_eq_true, if_false]
        refine ⟨h.length, h.idle, ?_⟩
        simp only [Sys.say, savedIn_append, savedIn, List.append_nil]
        exact h.saved

theorem calm_body {E : Life.Env Q} (hb : ∀ i, E.busy i = false) {n : Nat} (xs : List Action) : ∀ {a : App Q}, Calm n a →
    Calm n (body E xs a).2 := by
  induction xs with
  | nil => intro a h; exact h
  | cons x xs ih =>
    intro a h
    have := calm_act hb h x
    unfold body
    cases hr : act E a x with
    | mk o a' =>
      rw [hr] at this
      cases o with
      | none => exact ih this
      | some y => exact this

theorem saved_shutAll {E : Life.Env Q} (cs : List (Comp Q)) : ∀ (i : Nat) (s : Sys), (∀ c ∈ cs, c.running = false) →
    (shutAll E i cs s).1 = none → savedIn (shutAll E i cs s).2.2.log = savedIn s.log ++ List.range' i cs.length := by
  induction cs with
  | nil => intro i s _ _; simp [shutAll]
  | cons c cs ih =>
    intro i s h hok
    have h1 : (shutOne E i c s).1 = none → savedIn (shutOne E i c s).2.2.log = savedIn s.log ++ [i] := by
      intro ho
      have hrun : c.running = false := h c (by simp)
      unfold shutOne shutDownCheck at ho ⊢
      simp only [tick, hrun] at ho ⊢
      by_cases hsig : E.signal s.stage s.clock = true
      · simp only [hsig, if_true] at ho; cases ho
      · simp only [hsig, Bool.false_eq_true, if_false] at ho ⊢
        simp only [Bool.not_false, Bool.and_self, if_true] at ho ⊢
        cases hq : c.queue with
        | none => rw [hq] at ho; cases ho
        | some q =>
          rw [hq] at ho
          simp only at ho ⊢
          cases hs : E.save q with
          | mk r q' =>
            rw [hs] at ho
            cases r with
            | error e => cases ho
            | ok u =>
              simp only at ho ⊢
              cases hf : c.future with
              | none => rw [hf] at ho; cases ho
              | some d =>
                rw [hf] at ho
                cases d with
                | true => cases ho
                | false => simp [Sys.say, savedIn_append, savedIn]
    unfold shutAll at hok ⊢
    cases r : shutOne E i c s with
    | mk o p =>
      obtain ⟨c', s'⟩ := p
      rw [r] at h1 hok
      cases o with
      | some e => cases hok
      | none =>
        simp only at h1 hok ⊢
        rw [ih (i + 1) s' (fun x hx => h x (by simp [hx])) hok, h1 trivial, List.length_cons, List.range'_succ, List.append_assoc]
        rfl

theorem saved_stopServers {E : Life.Env Q} (a : App Q) (h : (stopServers E a).1 = none) :
    savedIn (stopServers E a).2.sys.log = savedIn a.sys.log ∧ (stopServers E a).2.comps = a.comps := by
  have one : ∀ (w : Which) (v : Option Srv) (s : Sys), savedIn (stopServer E w v s).2.2.log = savedIn s.log := by
    intro w v s
    unfold stopServer
    simp only [tick]
    by_cases hsig : E.signal s.stage s.clock = true
    · simp only [hsig, if_true]
    · cases v with
      | none => simp [hsig]
      | some v =>
        simp only [hsig, Bool.false_eq_true, if_false]
        unfold Srv.stop
        cases v.running
        · rfl
        · simp only [if_true]
          split
          · rfl
          · simp [Sys.say, savedIn_append, savedIn]
  unfold stopServers at h ⊢
  have k1 := one .tcp a.tcp a.sys
  cases r1 : stopServer E .tcp a.tcp a.sys with
  | mk o1 p1 =>
  obtain ⟨v1, s1⟩ := p1
  rw [r1] at k1 h
  cases o1 with
  | some x => cases h
  | none =>
  simp only at h ⊢
  have k2 := one .udp a.udp s1
  cases r2 : stopServer E .udp a.udp s1 with
  | mk o2 p2 =>
  obtain ⟨v2, s2⟩ := p2
  rw [r2] at k2 h
  cases o2 with
  | some x => cases h
  | none =>
  simp only at h ⊢
  have k3 := one .uds a.uds s2
  cases r3 : stopServer E .uds a.uds s2 with
  | mk o3 p3 =>
  obtain ⟨v3, s3⟩ := p3
  rw [r3] at k3
  exact ⟨k3.trans (k2.trans k1), trivial⟩

/-- **C106**, the part that holds. Exit status 0 means that the queues of all buffered endpoints and senders have been saved, once each, and that the log
has been flushed last: whatever the body of the context does, whenever signals arrive, whatever fails. Missing: the case that a signal
interrupts the cancelling of the tasks while a worker is busy (see `C106_busy_refuted`). -/
theorem C106_saved_partial {E : Life.Env Q} (hb : ∀ i, E.busy i = false) (xs : List Action) (tcp udp uds : Bool) (n : Nat)
    (h : exitStatus (life E xs (fresh tcp udp uds n)).1 = 0) :
    savedIn (life E xs (fresh tcp udp uds n)).2.sys.log = List.range n ∧ FlushedLast (life E xs (fresh tcp udp uds n)).2.sys.log := by
  have h' : (life E xs (fresh tcp udp uds n)).1 = none := by
    cases hl : (life E xs (fresh tcp udp uds n)).1 with
    | none => rfl
    | some e => rw [hl] at h; cases h
  have h0 : Calm n ({ (fresh tcp udp uds n : App Q) with context := true }) :=
    ⟨by simp [fresh], by intro c hc; simp [fresh, List.mem_replicate] at hc; rw [hc.2]; rfl, rfl⟩
  have hc := calm_body hb xs h0
  have hg : ∀ s : Sys, s.goDown.log = s.log := by intro s; unfold Sys.goDown; cases s.stage <;> rfl
  unfold life at h' ⊢
  simp only at h' ⊢
  generalize body E xs { (fresh tcp udp uds n : App Q) with context := true } = r at hc h'
  obtain ⟨o, a⟩ := r
  simp only at hc h' ⊢
  unfold doShutdown at h' ⊢
  have hs := saved_stopServers (E := E) { a with sys := a.sys.goDown }
  cases r1 : stopServers E { a with sys := a.sys.goDown } with
  | mk o1 a' =>
  rw [r1] at hs h'
  cases o1 with
  | some e => cases h'
  | none =>
    obtain ⟨s1, s2⟩ := hs rfl
    simp only [hg] at s1 s2 h' ⊢
    have hsh := saved_shutAll (E := E) a'.comps 0 a'.sys (by rw [s2]; exact hc.idle)
    cases r2 : shutAll E 0 a'.comps a'.sys with
    | mk o2 p =>
      obtain ⟨cs, s⟩ := p
      rw [r2] at hsh h'
      cases o2 with
      | some e => cases h'
      | none =>
        have hv := hsh rfl
        simp only [tick] at h' hv ⊢
        by_cases hsig : E.signal s.stage s.clock = true
        · simp only [hsig, if_true] at h'; cases h'
        · simp only [hsig, Bool.false_eq_true, if_false]
          refine ⟨?_, _, rfl⟩
          simp only [Sys.say, savedIn_append, savedIn, List.append_nil]
          rw [hv, s1, hc.saved, List.nil_append, s2, hc.length, List.range_eq_range']

example : (∀ i, sampleEnv.busy i = false) ∧ exitStatus (life sampleEnv [.start] (fresh true true false 2)).1 = 0 ∧
    savedIn (life sampleEnv [.start] (fresh true true false 2)).2.sys.log = [0, 1] := ⟨fun _ => rfl, by decide, by decide⟩

/-- **C106, refuted.** A signal while the tasks are cancelled and the worker of the first queue is busy: exit status 0, and that queue is
not saved. -/
theorem C106_busy_refuted :
    exitStatus (life { sampleEnv with signal := fun st t => st = .down ∧ t = 0, busy := fun i => i = 0 } [.start] (fresh false true false 2)).1 = 0 ∧
    savedIn (life { sampleEnv with signal := fun st t => st = .down ∧ t = 0, busy := fun i => i = 0 } [.start] (fresh false true false 2)).2.sys.log =
      [1] := by decide

/-- **C106, refuted.** The exit status does not tell that an application has failed: whatever exception ends one that has started, the status
is 0, as long as its queues can be saved. -/
theorem C106_failed_refuted {E : Life.Env Q} (hsig : ∀ st t, E.signal st t = false) (htasks : E.tasks = none) (k : Nat)
    (hend : E.ending = .other k) (tcp udp uds : Bool) (n : Nat) (hopen : ∀ i < n, ∃ q, E.opens i = .ok q)
    (ht : tcp = false ∨ E.phase .tcp ≠ .entering) (hu : uds = false ∨ E.phase .uds ≠ .entering)
    (hsave : ∀ i q, E.opens i = .ok q → (E.save (E.work i q)).1 = .ok ()) :
    (startBody E ({ (fresh tcp udp uds n : App Q) with context := true })).1 = .other k ∧
    exitStatus (life E [.start] (fresh tcp udp uds n)).1 = 0 := by
  refine ⟨?_, ?_⟩
  · rw [(startBody_ok (fun t => hsig .up t) htasks hopen (notStarted_fresh tcp udp uds n true)).1, hend]
  · have := (C74_started hsig htasks 0 [] tcp udp uds n hopen ht hu hsave).1
    simp only [List.replicate_zero, List.nil_append] at this
    rw [this]; rfl

example : exitStatus (life { sampleEnv with ending := .other 7 } [.start] (fresh true true false 2)).1 = 0 := by decide

/-- **C106, not started.** An application whose first buffered component cannot be set up ends with exit status 1. -/
theorem C106_not_started {E : Life.Env Q} {e : Exc} (ho : E.opens 0 = .error e) (tcp udp uds : Bool) (n : Nat) (xs : List Action) :
    exitStatus (life E xs (fresh tcp udp uds (n + 1))).1 = 1 := by
  have := (not_started ho tcp udp uds n xs).1
  cases h : (life E xs (fresh tcp udp uds (n + 1))).1 with
  | none => exact absurd h this
  | some x => rfl

example : exitStatus (life { sampleEnv with opens := fun _ => .error (.other 14) } [.start] (fresh true true false 1)).1 = 1 := by decide

end Verif.Place
