import Verif.Lock.Model

/-! Specification and invariant for C53 and C66. -/

namespace Verif.Lock

open Verif.Py

/-! ### Specification -/

/-- A process of the application instance that got past the lock check. -/
def Running (s : State) (p : Pid) : Prop := s.procs p = some .running

/-- A process in the middle of the lock check. -/
def Starting (s : State) (p : Pid) : Prop := ∃ pc, s.procs p = some pc ∧ pc ≠ .running ∧ ∀ e, pc ≠ .failed e

/-- Schedules in which no process is started while another one is in the middle of its lock check. -/
def Serial (s : State) : List Event → Prop
  | [] => True
  | e :: es => (∀ p, e = .spawn p → ∀ q, ¬ Starting s q) ∧ Serial (step s e) es

/-! ### Invariant -/

theorem not_lf_ofNat (n : Nat) : '\n' ∉ Str.ofNat n := by
  intro h; exact absurd (Str.digit_ofNat n _ h) (by decide)

theorem readline_pidLine (p : Pid) : readline (pidLine p) = pidLine p := by
  have : ∀ s : Str, '\n' ∉ s → readline (s ++ ['\n']) = s ++ ['\n'] := by
    intro s
    induction s with
    | nil => intro _; rfl
    | cons c cs ih => intro h; simp at h; simp [readline, Ne.symm h.1, ih h.2]
  exact this _ (not_lf_ofNat p)

theorem toInt_pidLine (p : Pid) : Str.toInt (pidLine p) = .ok (p : Int) :=
  Str.toInt_ofNat p (by simp [Str.isSpace])

theorem pidLine_inj {p q : Pid} (h : pidLine p = pidLine q) : p = q := by
  have hp := toInt_pidLine p
  rw [h, toInt_pidLine q] at hp
  have h' := hp.symm
  simp only [Except.ok.injEq] at h'
  exact Int.ofNat.inj h'

structure Inv (s : State) : Prop where
  lock : ∀ p, Running s p → s.lock = some (pidLine p)
  probe : ∀ p n, s.procs p = some (.probe n) → ∀ q, Running s q → n = q
  late : ∀ p, (s.procs p = some .remove ∨ s.procs p = some .create ∨ s.procs p = some .write) → ∀ q, ¬ Running s q
  one : ∀ p q, Starting s p → Starting s q → p = q

theorem procs_setPc (s : State) (p q : Pid) (pc : Option Pc) : (setPc s p pc).procs q = if q = p then pc else s.procs q := rfl

theorem starting_of (s : State) (p : Pid) (pc : Pc) (h : s.procs p = some pc) (h1 : pc ≠ .running) (h2 : ∀ e, pc ≠ .failed e) :
    Starting s p := ⟨pc, h, h1, h2⟩

/-- Moving one process that was starting to another point before or at the end of the check keeps the invariant, provided what the
invariant says about that point holds. -/
theorem inv_move (s : State) (hs : Inv s) (p : Pid) (hp : Starting s p) (lock' : Option Str) (pc : Pc)
    (hlock : (∀ q, ¬ Running s q) ∨ lock' = s.lock)
    (hrun : pc = .running → lock' = some (pidLine p) ∧ ∀ q, ¬ Running s q)
    (hprobe : ∀ n, pc = .probe n → ∀ q, Running s q → n = q)
    (hlate : (pc = .remove ∨ pc = .create ∨ pc = .write) → ∀ q, ¬ Running s q) :
    Inv (setPc { s with lock := lock' } p (some pc)) := by
  have hnp : ¬ Running s p := by
    obtain ⟨pc', h, h1, _⟩ := hp; intro hr; rw [Running, h] at hr; exact h1 (by simpa using hr)
  have hrun' : ∀ q, Running (setPc { s with lock := lock' } p (some pc)) q → (q = p ∧ pc = .running) ∨ (q ≠ p ∧ Running s q) := by
    intro q h
    rw [Running, procs_setPc] at h
    split at h
    · next e => exact .inl ⟨e, by simpa using h⟩
    · next e => exact .inr ⟨e, h⟩
  have hst : ∀ q, Starting (setPc { s with lock := lock' } p (some pc)) q → q = p := by
    rintro q ⟨pc', h, h1, h2⟩
    rw [procs_setPc] at h
    split at h
    · next e => exact e
    · exact hs.one q p ⟨pc', h, h1, h2⟩ hp
  refine ⟨?_, ?_, ?_, ?_⟩
  · intro q hq
    rcases hrun' q hq with ⟨rfl, hpc⟩ | ⟨_, hq'⟩
    · exact (hrun hpc).1
    · show lock' = _
      rcases hlock with h | h
      · exact absurd hq' (h q)
      · rw [h]; exact hs.lock q hq'
  · intro q n hq r hr
    rw [procs_setPc] at hq
    split at hq
    · have hpc : pc = .probe n := by simpa using hq
      rcases hrun' r hr with ⟨rfl, hpc'⟩ | ⟨_, hr'⟩
      · rw [hpc] at hpc'; cases hpc'
      · exact hprobe n hpc r hr'
    · next hne => exact absurd (hs.one q p (starting_of s q _ hq (by simp) (by simp)) hp) hne
  · intro q hq r hr
    rw [procs_setPc] at hq
    split at hq
    · have hpc : pc = .remove ∨ pc = .create ∨ pc = .write := by simpa using hq
      rcases hrun' r hr with ⟨rfl, hpc'⟩ | ⟨_, hr'⟩
      · rw [hpc'] at hpc; simp at hpc
      · exact hlate hpc r hr'
    · next hne =>
      refine absurd (hs.one q p ?_ hp) hne
      rcases hq with hq | hq | hq <;> exact starting_of s q _ hq (by simp) (by simp)
  · intro q r hq hr; rw [hst q hq, hst r hr]

theorem setPc_lock (s : State) (p : Pid) (pc : Option Pc) : setPc s p pc = setPc { s with lock := s.lock } p pc := rfl

theorem inv_exec (s : State) (hs : Inv s) (hperm : ∀ p n, s.permitted p n = true) (p : Pid) : Inv (exec s p) := by
  unfold exec
  cases hp : s.procs p with
  | none => exact hs
  | some pc =>
    cases pc with
    | check =>
      have hst := starting_of s p _ hp (by simp) (by simp)
      cases hl : s.lock with
      | none =>
        simp only [Option.isSome_none, Bool.false_eq_true, if_false]
        rw [setPc_lock]
        refine inv_move s hs p hst _ _ (.inr rfl) (by simp) (by simp) ?_
        intro _ q hq; have := hs.lock q hq; rw [hl] at this; cases this
      | some t =>
        simp only [Option.isSome_some, if_true]
        rw [setPc_lock]
        exact inv_move s hs p hst _ _ (.inr rfl) (by simp) (by simp) (by simp)
    | read =>
      have hst := starting_of s p _ hp (by simp) (by simp)
      cases hl : s.lock with
      | none => simp only; rw [setPc_lock]; exact inv_move s hs p hst _ _ (.inr rfl) (by simp) (by simp) (by simp)
      | some t =>
        simp only
        cases ht : Str.toInt (readline t) with
        | error e => simp only; rw [setPc_lock]; exact inv_move s hs p hst _ _ (.inr rfl) (by simp) (by simp) (by simp)
        | ok n =>
          simp only; rw [setPc_lock]
          refine inv_move s hs p hst _ _ (.inr rfl) (by simp) ?_ (by simp)
          intro m hm q hq
          have := hs.lock q hq
          rw [hl] at this
          simp only [Option.some.injEq] at this
          rw [this, readline_pidLine, toInt_pidLine] at ht
          simp only [Pc.probe.injEq] at hm
          simp only [Except.ok.injEq] at ht
          omega
    | probe n =>
      have hst := starting_of s p _ hp (by simp) (by simp)
      simp only
      split
      · rw [setPc_lock]; exact inv_move s hs p hst _ _ (.inr rfl) (by simp) (by simp) (by simp)
      · next hc =>
        rw [setPc_lock]
        refine inv_move s hs p hst _ _ (.inr rfl) (by simp) (by simp) ?_
        intro _ q hq
        have hn := hs.probe p n hp q hq
        subst hn
        refine hc ?_
        have ha : alive s q = true := by unfold alive; rw [hq]; rfl
        show (alive s q && s.permitted p _) = true
        rw [ha, hperm]; rfl
    | remove =>
      have hst := starting_of s p _ hp (by simp) (by simp)
      have hno := hs.late p (.inl hp)
      cases hl : s.lock with
      | none => simp only; rw [setPc_lock]; exact inv_move s hs p hst _ _ (.inr rfl) (by simp) (by simp) (by simp)
      | some t => exact inv_move s hs p hst _ _ (.inl hno) (by simp) (by simp) (fun _ => hno)
    | create =>
      have hst := starting_of s p _ hp (by simp) (by simp)
      have hno := hs.late p (.inr (.inl hp))
      exact inv_move s hs p hst _ _ (.inl hno) (by simp) (by simp) (fun _ => hno)
    | write =>
      have hst := starting_of s p _ hp (by simp) (by simp)
      have hno := hs.late p (.inr (.inr hp))
      exact inv_move s hs p hst _ _ (.inl hno) (fun _ => ⟨rfl, hno⟩) (by simp) (by simp)
    | running => exact hs
    | failed e => exact hs

theorem inv_spawn (s : State) (hs : Inv s) (p : Pid) (hno : ∀ q, ¬ Starting s q) :
    Inv (setPc s p (some .check)) := by
  have hrun : ∀ q, Running (setPc s p (some .check)) q → Running s q := by
    intro q h; rw [Running, procs_setPc] at h; split at h
    · simp at h
    · exact h
  have hst : ∀ q, Starting (setPc s p (some .check)) q → q = p := by
    rintro q ⟨pc, h, h1, h2⟩
    rw [procs_setPc] at h
    split at h
    · next e => exact e
    · exact absurd ⟨pc, h, h1, h2⟩ (hno q)
  refine ⟨fun q hq => hs.lock q (hrun q hq), ?_, ?_, fun q r hq hr => by rw [hst q hq, hst r hr]⟩
  · intro q n hq r hr
    rw [procs_setPc] at hq
    split at hq
    · simp at hq
    · exact hs.probe q n hq r (hrun r hr)
  · intro q hq r hr
    rw [procs_setPc] at hq
    split at hq
    · simp at hq
    · exact hs.late q hq r (hrun r hr)

theorem inv_exit (s : State) (hs : Inv s) (p : Pid) : Inv (setPc s p none) := by
  have hpr : ∀ q pc, (setPc s p none).procs q = some pc → s.procs q = some pc := by
    intro q pc h; rw [procs_setPc] at h; split at h
    · simp at h
    · exact h
  have hst : ∀ q, Starting (setPc s p none) q → Starting s q := by
    rintro q ⟨pc, h, h1, h2⟩; exact ⟨pc, hpr _ _ h, h1, h2⟩
  refine ⟨fun q hq => hs.lock q (hpr _ _ hq), fun q n hq r hr => hs.probe q n (hpr _ _ hq) r (hpr _ _ hr), ?_,
    fun q r hq hr => hs.one q r (hst q hq) (hst r hr)⟩
  intro q hq r hr
  exact hs.late q (hq.imp (hpr _ _) (Or.imp (hpr _ _) (hpr _ _))) r (hpr _ _ hr)

theorem inv_foreign (s : State) (hs : Inv s) (f : Pid → Bool) : Inv { s with foreign := f } :=
  ⟨hs.lock, hs.probe, hs.late, hs.one⟩

theorem permitted_step (s : State) (e : Event) : (step s e).permitted = s.permitted := by
  have hx : ∀ p, (exec s p).permitted = s.permitted := by
    intro p
    unfold exec
    repeat' split
    all_goals rfl
  cases e <;> simp only [step]
  · split <;> rfl
  · exact hx _
  · rfl
  · split <;> rfl

theorem inv_run (es : List Event) : ∀ s, Inv s → (∀ p n, s.permitted p n = true) → Serial s es → Inv (run s es) := by
  induction es with
  | nil => intro s hs _ _; exact hs
  | cons e es ih =>
    intro s hs hperm hser
    refine ih (step s e) ?_ (by rw [permitted_step]; exact hperm) hser.2
    cases e with
    | spawn p =>
      simp only [step]
      split
      · exact hs
      · exact inv_spawn s hs p (hser.1 p rfl)
    | exec p => exact inv_exec s hs hperm p
    | exit p => exact inv_exit s hs p
    | foreignStart p =>
      simp only [step]
      split
      · exact hs
      · exact inv_foreign s hs _
    | foreignExit p => exact inv_foreign s hs _

theorem inv_init (lock : Option Str) (foreign : Pid → Bool) (permitted : Pid → Int → Bool) :
    Inv (init lock foreign permitted) := by
  refine ⟨?_, ?_, ?_, ?_⟩ <;> intro p <;> simp [Running, Starting, init]

end Verif.Lock
