import Verif.Lock.Lemmas

/-! C53, C66: the lock file. -/

namespace Verif.Lock

open Verif.Py

/-! ### C53 -/

/-- **C53, partial.** If every process may signal every other, and no process is started while another one is in the middle of
its lock check, then at no time do two live processes run the application instance, whatever text the lock file begins with,
whenever processes end or are killed, and however other programs come and go. Missing: starts that overlap (`C53_race_refuted`)
and processes of different users (`C53_user_refuted`). -/
theorem C53_serial_partial (lock : Option Str) (foreign : Pid → Bool) (permitted : Pid → Int → Bool)
    (hperm : ∀ p n, permitted p n = true) (es : List Event) (h : Serial (init lock foreign permitted) es) (p q : Pid)
    (hp : Running (run (init lock foreign permitted) es) p) (hq : Running (run (init lock foreign permitted) es) q) : p = q := by
  have hi := inv_run es _ (inv_init lock foreign permitted) hperm h
  have h1 := hi.lock p hp
  rw [hi.lock q hq] at h1
  exact (pidLine_inj (by simpa using h1)).symm

/-- **C53, who holds the lock.** Under the same conditions the lock file names the running process. -/
theorem C53_lock_names (lock : Option Str) (foreign : Pid → Bool) (permitted : Pid → Int → Bool)
    (hperm : ∀ p n, permitted p n = true) (es : List Event) (h : Serial (init lock foreign permitted) es) (p : Pid)
    (hp : Running (run (init lock foreign permitted) es) p) :
    (run (init lock foreign permitted) es).lock = some (Str.ofNat p ++ ['\n']) :=
  (inv_run es _ (inv_init lock foreign permitted) hperm h).lock p hp

/-- **C53, refused.** While a process runs the instance, a further process that is started on its own ends with
`InstanceAlreadyRunningException` naming the running one. -/
theorem C53_refused (lock : Option Str) (foreign : Pid → Bool) (permitted : Pid → Int → Bool)
    (hperm : ∀ p n, permitted p n = true) (es : List Event) (h : Serial (init lock foreign permitted) es) (p q : Pid)
    (hp : Running (run (init lock foreign permitted) es) p) (hq : alive (run (init lock foreign permitted) es) q = false) :
    (run (run (init lock foreign permitted) es) [.spawn q, .exec q, .exec q, .exec q]).procs q =
      some (.failed (.alreadyRunning p)) := by
  have hi := inv_run es _ (inv_init lock foreign permitted) hperm h
  have hpm : ∀ es s, (run s es).permitted = s.permitted := by
    intro es
    induction es with
    | nil => intro s; rfl
    | cons e es ih => intro s; rw [run, ih, permitted_step]
  have hperm' : (run (init lock foreign permitted) es).permitted q p = true := by rw [hpm]; exact hperm q p
  generalize run (init lock foreign permitted) es = s at hi hp hq hperm'
  have hl := hi.lock p hp
  have hne : p ≠ q := by
    rintro rfl; unfold alive at hq; rw [hp] at hq; simp at hq
  have e1 : step s (.spawn q) = setPc s q (some .check) := by simp [step, hq]
  have e2 : step (setPc s q (some .check)) (.exec q) = setPc (setPc s q (some .check)) q (some .read) := by
    simp [step, exec, setPc, hl]
  have e3 : step (setPc (setPc s q (some .check)) q (some .read)) (.exec q) =
      setPc (setPc (setPc s q (some .check)) q (some .read)) q (some (.probe p)) := by
    have : (setPc (setPc s q (some .check)) q (some .read)).lock = some (pidLine p) := hl
    simp only [step, exec, procs_setPc, if_true, this, readline_pidLine, toInt_pidLine]
  have e4 : step (setPc (setPc (setPc s q (some .check)) q (some .read)) q (some (.probe p))) (.exec q) =
      setPc (setPc (setPc (setPc s q (some .check)) q (some .read)) q (some (.probe p))) q (some (.failed (.alreadyRunning p))) := by
    have hc : processIdCheck (setPc (setPc (setPc s q (some .check)) q (some .read)) q (some (.probe p))) q (p : Int) = true := by
      show (alive _ p && _) = true
      have ha : alive (setPc (setPc (setPc s q (some .check)) q (some .read)) q (some (.probe p))) p = true := by
        unfold alive
        have : (setPc (setPc (setPc s q (some .check)) q (some .read)) q (some (.probe p))).procs p = some .running := by
          simp [procs_setPc, hne, show s.procs p = some .running from hp]
        rw [this]; rfl
      rw [ha]
      exact hperm'
    simp only [step, exec, procs_setPc, if_true, hc]
  simp only [run, e1, e2, e3, e4, procs_setPc, if_true]

/-- Two processes start at the same time: both see no lock file. -/
def raceEvents : List Event := [.spawn 10, .spawn 11, .exec 10, .exec 11, .exec 10, .exec 10, .exec 11, .exec 11]

/-- **C53, refuted.** Two processes that start at the same time both run. -/
theorem C53_race_refuted :
    let s := run (init none (fun _ => false) (fun _ _ => true)) raceEvents
    Running s 10 ∧ Running s 11 := by
  simp only [Running]
  decide +kernel

/-- **C53, refuted.** Two processes of different users both run, although the second is started long after the first: a process
that may not be signalled is taken for dead. -/
theorem C53_user_refuted :
    let s := run (init none (fun _ => false) (fun p n => (p : Int) = n))
      [.spawn 10, .exec 10, .exec 10, .exec 10, .spawn 11, .exec 11, .exec 11, .exec 11, .exec 11, .exec 11, .exec 11]
    Running s 10 ∧ Running s 11 := by
  simp only [Running]
  decide +kernel

/-- A non-trivial case of the hypotheses: a first process runs and is killed, a second one takes over, a third is refused. -/
example :
    let es : List Event := [.spawn 10, .exec 10, .exec 10, .exec 10, .exit 10, .foreignStart 12,
      .spawn 11, .exec 11, .exec 11, .exec 11, .exec 11, .exec 11, .exec 11, .spawn 13, .exec 13, .exec 13, .exec 13]
    let s := run (init none (fun _ => false) (fun _ _ => true)) es
    s.procs 11 = some .running ∧ s.procs 13 = some (.failed (.alreadyRunning 11)) ∧ s.procs 10 = none := by
  decide +kernel

/-- Serial schedules exist: a process runs, is killed, and another one is started. -/
example : Serial (init none (fun _ => false) (fun _ _ => true))
    [.spawn 10, .exec 10, .exec 10, .exec 10, .exit 10, .spawn 11, .exec 11] := by
  simp only [Serial]
  refine ⟨?_, by simp, by simp, by simp, by simp, ?_, by simp, trivial⟩
  · rintro p - q ⟨pc, h, _⟩; simp [init] at h
  · rintro p - q ⟨pc, h, h1, h2⟩
    simp only [step, init, setPc, exec, alive] at h
    by_cases hq : q = 10 <;> simp [hq] at h

/-! ### C66 -/

/-- **C66, partial.** A process started on its own runs if there is no lock file, or if the lock file holds the id of a process
that is gone. Missing: `C66_same_pid_refuted`, `C66_reused_pid_refuted`, `C66_empty_refuted`. -/
theorem C66_start_partial (s : State) (p : Pid) (hp : alive s p = false)
    (h : s.lock = none ∨ ∃ q, s.lock = some (pidLine q) ∧ alive s q = false ∧ q ≠ p) :
    ∃ n, Running (run s (.spawn p :: List.replicate n (.exec p))) p := by
  have e1 : step s (.spawn p) = setPc s p (some .check) := by simp [step, hp]
  have tail : ∀ s : State, s.procs p = some .create → Running (step (step s (.exec p)) (.exec p)) p := by
    intro s hs
    have a1 : step s (.exec p) = setPc { s with lock := some [] } p (some .write) := by simp [step, exec, hs]
    rw [a1]
    simp [step, exec, procs_setPc, Running]
  rcases h with hl | ⟨q, hl, hq, hne⟩
  · refine ⟨3, ?_⟩
    have e2 : step (setPc s p (some .check)) (.exec p) = setPc (setPc s p (some .check)) p (some .create) := by
      have : (setPc s p (some .check)).lock = none := hl
      simp [step, exec, procs_setPc, this]
    simp only [List.replicate, run, e1, e2]
    exact tail _ (by simp [procs_setPc])
  · refine ⟨6, ?_⟩
    have e2 : step (setPc s p (some .check)) (.exec p) = setPc (setPc s p (some .check)) p (some .read) := by
      have : (setPc s p (some .check)).lock = some (pidLine q) := hl
      simp [step, exec, procs_setPc, this]
    have e3 : step (setPc (setPc s p (some .check)) p (some .read)) (.exec p) =
        setPc (setPc (setPc s p (some .check)) p (some .read)) p (some (.probe q)) := by
      have : (setPc (setPc s p (some .check)) p (some .read)).lock = some (pidLine q) := hl
      simp only [step, exec, procs_setPc, if_true, this, readline_pidLine, toInt_pidLine]
    have e4 : step (setPc (setPc (setPc s p (some .check)) p (some .read)) p (some (.probe q))) (.exec p) =
        setPc (setPc (setPc (setPc s p (some .check)) p (some .read)) p (some (.probe q))) p (some .remove) := by
      have hc : processIdCheck (setPc (setPc (setPc s p (some .check)) p (some .read)) p (some (.probe q))) p (q : Int) = false := by
        show (alive _ q && _) = false
        have ha : alive (setPc (setPc (setPc s p (some .check)) p (some .read)) p (some (.probe q))) q = false := by
          have hq' := hq
          unfold alive at hq' ⊢
          simp only [procs_setPc, hne, if_false]
          exact hq'
        rw [ha]; rfl
      simp only [step, exec, procs_setPc, if_true, hc, Bool.false_eq_true, if_false]
    have e5 : ∀ t : State, t.procs p = some .remove → t.lock = some (pidLine q) →
        step t (.exec p) = setPc { t with lock := none } p (some .create) := by
      intro t ht htl; simp [step, exec, ht, htl]
    simp only [List.replicate, run, e1, e2, e3, e4]
    rw [e5 (setPc (setPc (setPc (setPc s p (some .check)) p (some .read)) p (some (.probe q))) p (some .remove))
      (by simp [procs_setPc]) hl]
    exact tail _ (by simp [procs_setPc])

/-- **C66, refuted.** A process that gets the same process id as its predecessor never starts: the lock file of the one that is
gone names the new process itself. -/
theorem C66_same_pid_refuted :
    let s := run (init none (fun _ => false) (fun _ _ => true)) [.spawn 7, .exec 7, .exec 7, .exec 7, .exit 7]
    (∀ p, alive s p = false) ∧
    (run s [.spawn 7, .exec 7, .exec 7, .exec 7]).procs 7 = some (.failed (.alreadyRunning 7)) := by
  refine ⟨?_, by decide +kernel⟩
  intro p
  simp only [run, step, alive, init, setPc, exec]
  by_cases h : p = 7 <;> simp [h]

/-- **C66, refuted.** An instance that is not running cannot be started while another program has the process id its last
process had. -/
theorem C66_reused_pid_refuted :
    let s := run (init none (fun _ => false) (fun _ _ => true)) [.spawn 7, .exec 7, .exec 7, .exec 7, .exit 7, .foreignStart 7]
    s.procs 7 = none ∧ (run s [.spawn 8, .exec 8, .exec 8, .exec 8]).procs 8 = some (.failed (.alreadyRunning 7)) := by
  decide +kernel

/-- **C66, after that.** Once the other program has ended, the instance can be started. -/
theorem C66_reused_pid_gone (s : State) (p q : Pid) (hl : s.lock = some (pidLine q)) (hq : s.procs q = none) (hp : alive s p = false)
    (hne : q ≠ p) : ∃ n, Running (run s (.foreignExit q :: .spawn p :: List.replicate n (.exec p))) p := by
  have ha : alive (step s (.foreignExit q)) p = false := by
    simp only [alive, Bool.or_eq_false_iff] at hp
    simp [step, alive, hp.1, hp.2]
  have hd : alive (step s (.foreignExit q)) q = false := by simp [step, alive, hq]
  exact C66_start_partial (step s (.foreignExit q)) p ha (.inr ⟨q, hl, hd, hne⟩)

example :
    let s := run (init none (fun _ => false) (fun _ _ => true)) [.spawn 7, .exec 7, .exec 7, .exec 7, .exit 7, .foreignStart 7]
    s.lock = some (pidLine 7) ∧ s.procs 7 = none ∧ alive s 8 = false ∧ alive s 7 = true := by decide +kernel

theorem readline_nil : Str.toInt (readline []) = .error .valueError := rfl

/-- **C66, refuted.** If a process dies between creating its lock file and writing to it, no later process ever starts: each one
raises `ValueError` and leaves the file as it is. -/
theorem C66_empty_refuted :
    let s := run (init none (fun _ => false) (fun _ _ => true)) [.spawn 7, .exec 7, .exec 7, .exit 7]
    (∀ p, alive s p = false) ∧ s.lock = some [] ∧
    ∀ p, (run s [.spawn p, .exec p, .exec p]).procs p = some (.failed .valueError) ∧
      (run s [.spawn p, .exec p, .exec p, .exit p]).lock = some [] := by
  have hs : ∀ p, alive (run (init none (fun _ => false) (fun _ _ => true)) [.spawn 7, .exec 7, .exec 7, .exit 7]) p = false := by
    intro p
    simp only [run, step, alive, init, setPc, exec]
    by_cases h : p = 7 <;> simp [h]
  refine ⟨hs, by decide +kernel, ?_⟩
  intro p
  have hl : (run (init none (fun _ => false) (fun _ _ => true)) [.spawn 7, .exec 7, .exec 7, .exit 7]).lock = some [] := by
    decide +kernel
  have ha := hs p
  generalize run (init none (fun _ => false) (fun _ _ => true)) [.spawn 7, .exec 7, .exec 7, .exit 7] = s at hl ha
  have e1 : step s (.spawn p) = setPc s p (some .check) := by simp [step, ha]
  have e2 : step (setPc s p (some .check)) (.exec p) = setPc (setPc s p (some .check)) p (some .read) := by
    have : (setPc s p (some .check)).lock = some [] := hl
    simp [step, exec, procs_setPc, this]
  have e3 : step (setPc (setPc s p (some .check)) p (some .read)) (.exec p) =
      setPc (setPc (setPc s p (some .check)) p (some .read)) p (some (.failed .valueError)) := by
    have : (setPc (setPc s p (some .check)) p (some .read)).lock = some [] := hl
    simp only [step, exec, procs_setPc, if_true, this, readline_nil]
  constructor
  · simp only [run, e1, e2, e3, procs_setPc, if_true]
  · simp only [run, e1, e2, e3]
    exact hl

end Verif.Lock
