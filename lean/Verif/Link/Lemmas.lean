import Verif.Link.Spec
import Mathlib.Tactic.Linarith

/-!
# Lemmas about the connections of a persistent client
-/

namespace Verif.Link

/-! ### what the pieces change -/

@[simp] theorem goto_now (s : St) (t pc) : (s.goto t pc).now = s.now := rfl
@[simp] theorem goto_lastSend (s : St) (t pc) : (s.goto t pc).lastSend = s.lastSend := rfl
@[simp] theorem goto_connected (s : St) (t pc) : (s.goto t pc).connected = s.connected := rfl
@[simp] theorem goto_cur (s : St) (t pc) : (s.goto t pc).cur = s.cur := rfl
@[simp] theorem goto_conns (s : St) (t pc) : (s.goto t pc).conns = s.conns := rfl
@[simp] theorem goto_heart (s : St) (t pc) : (s.goto t pc).heart = s.heart := rfl
@[simp] theorem goto_sent (s : St) (t pc) : (s.goto t pc).sent = s.sent := rfl
@[simp] theorem goto_length (s : St) (t pc) : (s.goto t pc).tasks.length = s.tasks.length := by simp [St.goto]

theorem goto_self {s : St} {t pc x} (h : s.tasks[t]? = some x) : (s.goto t pc).tasks[t]? = some { x with pc := pc } := by
  simp [St.goto, h]

theorem goto_other {s : St} {t pc t'} (h : t' ≠ t) : (s.goto t pc).tasks[t']? = s.tasks[t']? := by
  simp [St.goto, Ne.symm h]

/-- `s'` differs from `s` in nothing about connections, and in nothing about tasks other than `t`. -/
structure Local (t : Nat) (s s' : St) : Prop where
  now : s'.now = s.now
  lastSend : s'.lastSend = s.lastSend
  connected : s'.connected = s.connected
  cur : s'.cur = s.cur
  conns : s'.conns = s.conns
  heart : s'.heart = s.heart
  length : s'.tasks.length = s.tasks.length
  tasks : ∀ t', t' ≠ t → s'.tasks[t']? = s.tasks[t']?
  sent : ∀ t', t' ≠ t → s'.sent.filter (·.2 = t') = s.sent.filter (·.2 = t')

theorem goto_local (s : St) (t pc) : Local t s (s.goto t pc) :=
  ⟨rfl, rfl, rfl, rfl, rfl, rfl, goto_length .., fun _ h => goto_other h, fun _ _ => rfl⟩

theorem writeRead_local (s : St) (t rc) : Local t s (s.writeRead t rc) := by
  unfold St.writeRead
  split
  · exact goto_local ..
  · dsimp only
    split
    · exact ⟨rfl, rfl, rfl, rfl, rfl, rfl, goto_length .., fun _ h => goto_other h, fun _ h => by simp [Ne.symm h]⟩
    · exact ⟨rfl, rfl, rfl, rfl, rfl, rfl, goto_length .., fun _ h => goto_other h, fun _ h => by simp [Ne.symm h]⟩

theorem exchange_local (s : St) (t rc) : Local t s (s.exchange t rc) := by
  unfold St.exchange
  split
  · exact writeRead_local ..
  · exact goto_local ..

theorem loop_local (cfg : Cfg) (s : St) (t rc) : Local t s (s.loop cfg t rc) := by
  unfold St.loop
  split
  · exact exchange_local ..
  · exact goto_local ..

theorem retry_local (cfg : Cfg) (s : St) (t rc) : Local t s (s.retry cfg t rc) := by
  unfold St.retry
  split
  · exact goto_local ..
  · exact goto_local ..

theorem beat_local (cfg : Cfg) (s : St) (t) : Local t s (s.beat cfg t) := by
  unfold St.beat
  split
  · exact exchange_local ..
  · exact goto_local ..

/-! ### attempts -/

/-- How often task `t` has written. -/
def wrote (s : St) (t : Nat) : Nat := (s.sent.filter (·.2 = t)).length

/-- How often a task that sends a message may have written, by where it is. -/
def Bound (cfg : Cfg) (n : Nat) : Pc → Prop
  | .ready => n = 0
  | .opening rc => (n : Int) ≤ rc ∧ rc < cfg.max
  | .reopening rc => (n : Int) ≤ rc + 1 ∧ rc < cfg.max
  | .queued rc => (n : Int) ≤ rc + 1 ∧ rc < cfg.max
  | .reading rc _ => (n : Int) ≤ rc + 1 ∧ rc < cfg.max
  | .pausing rc => (n : Int) ≤ rc ∧ rc < cfg.max
  | .asleep _ => False
  | .over _ => n ≤ cfg.max.toNat

/-- The task at `t`, if it sends a message, has not written too often. -/
def Good (cfg : Cfg) (s : St) (t : Nat) : Prop := ∀ pc, s.tasks[t]? = some ⟨false, pc⟩ → Bound cfg (wrote s t) pc

theorem Local.good {cfg : Cfg} {s s' t t'} (h : Local t s s') (hne : t' ≠ t) (hg : Good cfg s t') : Good cfg s' t' := by
  intro pc hpc
  rw [h.tasks t' hne] at hpc
  have := hg pc hpc
  unfold wrote at this ⊢
  rwa [h.sent t' hne]

theorem goto_good {cfg : Cfg} {s : St} {t pc} (h : Bound cfg (wrote s t) pc) : Good cfg (s.goto t pc) t := by
  intro pc' hpc
  cases hx : s.tasks[t]? with
  | none => simp [St.goto, hx] at hpc
  | some x =>
    rw [goto_self hx] at hpc
    obtain ⟨b, p⟩ := x
    simp only [Option.some.injEq, Task.mk.injEq] at hpc
    rw [← hpc.2]
    exact h

theorem writeRead_good {cfg : Cfg} {s : St} {t rc} (h : (wrote s t : Int) ≤ rc) (hm : rc < cfg.max) : Good cfg (s.writeRead t rc) t := by
  unfold St.writeRead
  split
  · exact goto_good (by simp only [Bound]; omega)
  · rename_i c _
    have hw : ∀ s' : St, s'.sent = (c, t) :: s.sent → wrote s' t = wrote s t + 1 := by
      intro s' hs'
      simp [wrote, hs']
    dsimp only
    split
    · refine goto_good ?_
      rw [hw _ rfl]
      simp only [Bound]; omega
    · refine goto_good ?_
      rw [hw _ rfl]
      simp only [Bound]; omega

theorem exchange_good {cfg : Cfg} {s : St} {t rc} (h : (wrote s t : Int) ≤ rc) (hm : rc < cfg.max) : Good cfg (s.exchange t rc) t := by
  unfold St.exchange
  split
  · exact writeRead_good h hm
  · exact goto_good ⟨h, hm⟩

theorem loop_good {cfg : Cfg} {s : St} {t rc} (h : (wrote s t : Int) ≤ rc) (hm : rc < cfg.max ∨ wrote s t ≤ cfg.max.toNat) :
    Good cfg (s.loop cfg t rc) t := by
  unfold St.loop
  split
  · rename_i hl; exact exchange_good h hl.1
  · exact goto_good (by simp only [Bound]; omega)

theorem retry_good {cfg : Cfg} {s : St} {t rc} (h : (wrote s t : Int) ≤ rc + 1) (hm : rc < cfg.max) : Good cfg (s.retry cfg t rc) t := by
  unfold St.retry
  split
  · exact goto_good (by simp only [Bound]; omega)
  · exact goto_good (by simp only [Bound]; omega)

/-! ### invariant -/

structure Inv (cfg : Cfg) (s : St) : Prop where
  cur : ∀ c, s.cur = some c → c + 1 = s.conns.length
  noCur : s.cur = none → s.conns = []
  conn : s.connected = true → s.cur ≠ none
  one : cfg.drops = true → ∀ (i : Nat) (x : Conn), s.conns[i]? = some x → x.mine = true → s.cur = some i
  good : ∀ t, Good cfg s t
  wrote : ∀ t, s.tasks.length ≤ t → wrote s t = 0
  last : s.lastSend ≤ s.now
  nap : ∀ (t : Nat) (x : Task) (u : ℚ), s.tasks[t]? = some x → x.pc = .asleep u → u ≤ s.now + cfg.period

theorem inv_new {cfg : Cfg} {now : ℚ} (h : 0 ≤ now) : Inv cfg (new now) :=
  ⟨fun _ h => (by cases h), fun _ => rfl, fun h => (by cases h), fun _ i x h => (by simp [new] at h), fun t pc h => (by simp [new] at h),
    fun _ _ => rfl, h, fun t x u h => (by simp [new] at h)⟩

/-- What a piece of code that changes only task `t` must leave it as. -/
structure Fine (cfg : Cfg) (s : St) (t : Nat) : Prop where
  good : Good cfg s t
  nap : ∀ (x : Task) (u : ℚ), s.tasks[t]? = some x → x.pc = .asleep u → u ≤ s.now + cfg.period

theorem Local.inv {cfg : Cfg} {s s' t} (h : Local t s s') (hi : Inv cfg s) (ht : t < s.tasks.length) (hf : Fine cfg s' t) : Inv cfg s' where
  cur := by rw [h.cur, h.conns]; exact hi.cur
  noCur := by rw [h.cur, h.conns]; exact hi.noCur
  conn := by rw [h.cur, h.connected]; exact hi.conn
  one := by rw [h.cur, h.conns]; exact hi.one
  good := fun t' => if e : t' = t then e ▸ hf.good else h.good e (hi.good t')
  wrote := fun t' hl => by
    rw [h.length] at hl
    have hne : t' ≠ t := by omega
    have := hi.wrote t' hl
    unfold Verif.Link.wrote at this ⊢
    rwa [h.sent t' hne]
  last := by rw [h.lastSend, h.now]; exact hi.last
  nap := fun t' x u hx hu => by
    by_cases e : t' = t
    · subst e; exact hf.nap x u hx hu
    · rw [h.tasks t' e] at hx
      rw [h.now]
      exact hi.nap t' x u hx hu

theorem goto_nap {cfg : Cfg} {s : St} {t pc} (h : ∀ u, pc = .asleep u → u ≤ s.now + cfg.period) (x : Task) (u : ℚ)
    (hx : (s.goto t pc).tasks[t]? = some x) (hu : x.pc = .asleep u) : u ≤ (s.goto t pc).now + cfg.period := by
  cases hy : s.tasks[t]? with
  | none => simp [St.goto, hy] at hx
  | some y =>
    rw [goto_self hy] at hx
    rw [← Option.some.inj hx] at hu
    exact h u hu

theorem writeRead_nap {cfg : Cfg} {s : St} {t rc} (x : Task) (u : ℚ)
    (hx : (s.writeRead t rc).tasks[t]? = some x) (hu : x.pc = .asleep u) : u ≤ (s.writeRead t rc).now + cfg.period := by
  revert hx
  unfold St.writeRead
  split
  · exact fun hx => goto_nap (by simp) x u hx hu
  · dsimp only
    split
    · exact fun hx => goto_nap (by simp) x u hx hu
    · exact fun hx => goto_nap (by simp) x u hx hu

theorem exchange_nap {cfg : Cfg} {s : St} {t rc} (x : Task) (u : ℚ)
    (hx : (s.exchange t rc).tasks[t]? = some x) (hu : x.pc = .asleep u) : u ≤ (s.exchange t rc).now + cfg.period := by
  revert hx
  unfold St.exchange
  split
  · exact fun hx => writeRead_nap x u hx hu
  · exact fun hx => goto_nap (by simp) x u hx hu

theorem loop_fine {cfg : Cfg} {s : St} {t rc} (h : (wrote s t : Int) ≤ rc) (hm : rc < cfg.max ∨ wrote s t ≤ cfg.max.toNat) :
    Fine cfg (s.loop cfg t rc) t := by
  refine ⟨loop_good h hm, fun x u => ?_⟩
  unfold St.loop
  split
  · exact fun hx hu => exchange_nap x u hx hu
  · exact fun hx hu => goto_nap (by simp) x u hx hu

theorem retry_fine {cfg : Cfg} {s : St} {t rc} (h : (wrote s t : Int) ≤ rc + 1) (hm : rc < cfg.max) : Fine cfg (s.retry cfg t rc) t := by
  refine ⟨retry_good h hm, fun x u => ?_⟩
  unfold St.retry
  split
  · exact fun hx hu => goto_nap (by simp) x u hx hu
  · exact fun hx hu => goto_nap (by simp) x u hx hu

theorem goto_fine {cfg : Cfg} {s : St} {t pc} (h : Bound cfg (wrote s t) pc) (h2 : ∀ u, pc = .asleep u → u ≤ s.now + cfg.period) :
    Fine cfg (s.goto t pc) t := ⟨goto_good h, fun x u hx hu => goto_nap h2 x u hx hu⟩

theorem writeRead_fine {cfg : Cfg} {s : St} {t rc} (h : (wrote s t : Int) ≤ rc) (hm : rc < cfg.max) : Fine cfg (s.writeRead t rc) t :=
  ⟨writeRead_good h hm, fun x u hx hu => writeRead_nap x u hx hu⟩

/-- A task that is the heartbeat cannot write too often. -/
theorem beat_good {cfg : Cfg} {s : St} {t x} (h : s.tasks[t]? = some x) (hb : x.beat = true) : Good cfg s t := by
  intro pc hpc
  rw [h] at hpc
  rw [Option.some.inj hpc] at hb
  cases hb

theorem writeRead_task {s : St} {t rc b pc} (h : s.tasks[t]? = some ⟨b, pc⟩) : ∃ pc', (s.writeRead t rc).tasks[t]? = some ⟨b, pc'⟩ := by
  unfold St.writeRead
  split
  · exact ⟨_, goto_self h⟩
  · dsimp only
    split
    · exact ⟨_, goto_self h⟩
    · exact ⟨_, goto_self h⟩

theorem exchange_task {s : St} {t rc b pc} (h : s.tasks[t]? = some ⟨b, pc⟩) : ∃ pc', (s.exchange t rc).tasks[t]? = some ⟨b, pc'⟩ := by
  unfold St.exchange
  split
  · exact writeRead_task h
  · exact ⟨_, goto_self h⟩

theorem beat_fine {cfg : Cfg} {s : St} {t pc} (h : s.tasks[t]? = some ⟨true, pc⟩) : Fine cfg (s.beat cfg t) t := by
  constructor
  · unfold St.beat
    split
    · obtain ⟨pc', h'⟩ := exchange_task (rc := 0) h
      exact beat_good h' rfl
    · exact beat_good (goto_self h) rfl
  · intro x u
    unfold St.beat
    split
    · exact fun hx hu => exchange_nap x u hx hu
    · exact fun hx hu => goto_nap (by intro u' h'; injection h' with h'; rw [← h']) x u hx hu

/-! ### a new connection -/

theorem opened_inv {cfg : Cfg} {s : St} (h : Inv cfg s) : Inv cfg (s.opened cfg) where
  cur := by
    intro c hc
    simp only [St.opened, Option.some.injEq] at hc ⊢
    subst hc
    split <;> (try split) <;> simp [shut]
  noCur := fun hc => by cases hc
  conn := fun _ hc => by cases hc
  one := by
    intro hd i x hx hm
    simp only [St.opened, hd, if_true] at hx ⊢
    cases hcur : s.cur with
    | none =>
      rw [hcur] at hx
      dsimp only at hx
      rw [h.noCur hcur] at hx ⊢
      cases i with
      | zero => rfl
      | succ i => simp at hx
    | some c =>
      rw [hcur] at hx
      dsimp only at hx
      by_cases hi : i < s.conns.length
      · rw [List.getElem?_append_left (by simpa [shut] using hi)] at hx
        simp only [shut, List.getElem?_modify] at hx
        by_cases hci : c = i
        · subst hci
          simp only [if_true, Option.map_eq_map] at hx
          cases hy : s.conns[c]? with
          | none => rw [hy] at hx; cases hx
          | some y => rw [hy] at hx; simp only [Option.map_some, Option.some.injEq] at hx; rw [← hx] at hm; cases hm
        · simp only [hci, if_false, Option.map_eq_map, Option.map_id_fun', id_eq] at hx
          have := h.one hd i x hx hm
          rw [hcur] at this
          exact absurd (Option.some.inj this) hci
      · have hlen : (shut s.conns c ++ [(⟨true, true⟩ : Conn)]).length = s.conns.length + 1 := by simp [shut]
        have : i < s.conns.length + 1 := by
          rw [← hlen]; exact (List.getElem?_eq_some_iff.mp hx).1
        congr 1; omega
  good := h.good
  wrote := h.wrote
  last := h.last
  nap := h.nap

theorem inv_lock {cfg : Cfg} {s : St} (h : Inv cfg s) (l q) : Inv cfg { s with lock := l, queue := q } :=
  ⟨h.cur, h.noCur, h.conn, h.one, h.good, h.wrote, h.last, h.nap⟩

theorem inv_lost {cfg : Cfg} {s : St} (h : Inv cfg s) : Inv cfg { s with connected := false } :=
  ⟨h.cur, h.noCur, fun hc => (by cases hc), h.one, h.good, h.wrote, h.last, h.nap⟩

theorem inv_success {cfg : Cfg} {s : St} (h : Inv cfg s) (b) : Inv cfg { s with success := b } :=
  ⟨h.cur, h.noCur, h.conn, h.one, h.good, h.wrote, h.last, h.nap⟩

theorem inv_last {cfg : Cfg} {s : St} (h : Inv cfg s) : Inv cfg { s with lastSend := s.now } :=
  ⟨h.cur, h.noCur, h.conn, h.one, h.good, h.wrote, le_refl _, h.nap⟩

theorem lt_length {s : St} {t : Nat} {x : Task} (h : s.tasks[t]? = some x) : t < s.tasks.length := (List.getElem?_eq_some_iff.mp h).1

theorem inv_goto {cfg : Cfg} {s : St} {t : Nat} {x : Task} {pc} (h : Inv cfg s) (hx : s.tasks[t]? = some x)
    (hb : x.beat = true ∨ Bound cfg (wrote s t) pc) (h2 : ∀ u, pc = .asleep u → u ≤ s.now + cfg.period) : Inv cfg (s.goto t pc) := by
  refine (goto_local s t pc).inv h (lt_length hx) ?_
  rcases hb with hb | hb
  · exact ⟨beat_good (goto_self hx) hb, fun x u hx hu => goto_nap h2 x u hx hu⟩
  · exact goto_fine hb h2

theorem inv_addTask {cfg : Cfg} {s : St} (h : Inv cfg s) (b : Bool) (hr : Option Nat) :
    Inv cfg { s with heart := hr, tasks := s.tasks ++ [⟨b, .ready⟩] } := by
  have key : ∀ (t : Nat) (x : Task), (s.tasks ++ [(⟨b, .ready⟩ : Task)])[t]? = some x → s.tasks[t]? = some x ∨ (t = s.tasks.length ∧ x = ⟨b, .ready⟩) := by
    intro t x hx
    rcases Nat.lt_trichotomy t s.tasks.length with hl | hl | hl
    · rw [List.getElem?_append_left hl] at hx; exact .inl hx
    · subst hl; simp at hx; exact .inr ⟨rfl, hx.symm⟩
    · rw [List.getElem?_eq_none (by simp; omega)] at hx; cases hx
  refine ⟨h.cur, h.noCur, h.conn, h.one, fun t pc hpc => ?_, fun t ht => h.wrote t ?_, h.last, fun t x u hx hu => ?_⟩
  · rcases key t _ hpc with hk | ⟨hk, hx⟩
    · exact h.good t pc hk
    · injection hx with _ hx
      subst hx
      exact h.wrote t (by omega)
  · simp at ht; omega
  · rcases key t x hx with hk | ⟨_, hk⟩
    · exact h.nap t x u hk hu
    · subst hk; cases hu

theorem send_inv {cfg : Cfg} {s : St} (h : Inv cfg s) : Inv cfg (s.send cfg) := by
  unfold St.send
  extract_lets s1 s2 s'
  have h1 : Inv cfg s1 := inv_success h _
  have h2 : Inv cfg s2 := by
    simp only [s2]
    split
    · exact h1
    · exact inv_addTask h1 _ _
  have h3 : Inv cfg s' := inv_addTask h2 false s2.heart
  refine (loop_local cfg s' _ 0).inv h3 (by simp [s']) (loop_fine ?_ ?_)
  · have : wrote s' s2.tasks.length = wrote s2 s2.tasks.length := rfl
    rw [this, h2.wrote _ (le_refl _)]; rfl
  · have : wrote s' s2.tasks.length = wrote s2 s2.tasks.length := rfl
    right
    rw [this, h2.wrote _ (le_refl _)]; exact Nat.zero_le _

theorem giveUp_inv {cfg : Cfg} {s : St} {t : Nat} {x rc} (h : Inv cfg s) (hx : s.tasks[t]? = some x) (hb : (wrote s t : Int) ≤ rc + 1 ∧ rc < cfg.max) :
    Inv cfg (s.giveUp t rc) :=
  inv_goto (s := { s with connected := false }) (inv_lost h) hx (.inr hb) (by simp)

theorem readEnds_inv {cfg : Cfg} {s : St} {t b rc c} (r) (h : Inv cfg s) (hx : s.tasks[t]? = some ⟨b, .reading rc c⟩) :
    Inv cfg (s.readEnds cfg t b rc r) := by
  have hb : b = true ∨ ((wrote s t : Int) ≤ rc + 1 ∧ rc < cfg.max) := by
    cases b with
    | true => exact .inl rfl
    | false => exact .inr (h.good t _ hx)
  cases r with
  | line ack =>
    simp only [St.readEnds]
    split
    · rename_i hb'
      split
      · exact inv_goto (s := { s with lastSend := s.now }) (inv_last h) hx (.inl hb') (by intro u h'; injection h' with h'; rw [← h'])
      · exact inv_goto (s := { s with connected := false }) (inv_lost h) hx (.inl hb') (by intro u h'; injection h' with h'; rw [← h'])
    · refine inv_goto (s := { s with lastSend := s.now, success := true }) (inv_success (inv_last h) true) hx ?_ (by simp)
      rcases hb with hb | hb
      · contradiction
      · exact .inr (by show wrote s t ≤ cfg.max.toNat; omega)
  | eof =>
    simp only [St.readEnds]
    split
    · rename_i hb'
      exact inv_goto (s := { s with connected := false }) (inv_lost h) hx (.inl hb') (by intro u h'; injection h' with h'; rw [← h'])
    · exact giveUp_inv h hx (hb.resolve_left (by assumption))
  | timeout =>
    simp only [St.readEnds]
    split
    · rename_i hb'; exact inv_goto h hx (.inl hb') (by simp)
    · have hb := hb.resolve_left (by assumption)
      exact (retry_local cfg s t rc).inv h (lt_length hx) (retry_fine hb.1 hb.2)
  | broken =>
    simp only [St.readEnds]
    split
    · rename_i hb'; exact inv_goto h hx (.inl hb') (by simp)
    · exact giveUp_inv h hx (hb.resolve_left (by assumption))

theorem openFails_inv {cfg : Cfg} {s : St} {t b rc} (f) (h : Inv cfg s) (hx : s.tasks[t]? = some ⟨b, .opening rc⟩) :
    Inv cfg (s.openFails cfg t b rc f) := by
  have hb : b = true ∨ ((wrote s t : Int) ≤ rc ∧ rc < cfg.max) := by
    cases b with
    | true => exact .inl rfl
    | false => exact .inr (h.good t _ hx)
  unfold St.openFails
  split
  · rename_i hb'
    split
    · exact inv_goto h hx (.inl hb') (by intro u h'; injection h' with h'; rw [← h'])
    · exact inv_goto h hx (.inl hb') (by simp)
  · have hb := hb.resolve_left (by assumption)
    split
    · exact (retry_local cfg s t rc).inv h (lt_length hx) (retry_fine (by omega) hb.2)
    · exact giveUp_inv h hx ⟨by omega, hb.2⟩
    · exact inv_goto h hx (.inr (by simp only [Bound]; omega)) (by simp)

theorem bound_over {cfg : Cfg} {n : Nat} {pc : Pc} {e} (h : Bound cfg n pc) : Bound cfg n (.over e) := by
  cases pc <;> simp only [Bound] at h ⊢ <;> omega

theorem inv_conns {cfg : Cfg} {s : St} (h : Inv cfg s) (c : Nat) (f : Conn → Conn) (hf : ∀ x, (f x).mine = true → x.mine = true) :
    Inv cfg { s with conns := s.conns.modify c f } := by
  refine ⟨fun c' hc => ?_, fun hc => ?_, h.conn, fun hd i x hx hm => ?_, h.good, h.wrote, h.last, h.nap⟩
  · simpa using h.cur c' hc
  · simp [h.noCur hc]
  · simp only [List.getElem?_modify] at hx
    cases hy : s.conns[i]? with
    | none => rw [hy] at hx; cases hx
    | some y =>
      rw [hy] at hx
      by_cases hci : c = i
      · simp only [hci, if_true, Option.map_eq_map, Option.map_some, Option.some.injEq] at hx
        exact h.one hd i y hy (hf y (by rw [hx]; exact hm))
      · simp only [hci, if_false, Option.map_eq_map, Option.map_some, Option.some.injEq] at hx
        exact h.one hd i y hy (by rw [hx]; exact hm)

theorem inv_step {cfg : Cfg} {s s' : St} {l} (h : Inv cfg s) (hs : step cfg s l = some s') : Inv cfg s' := by
  cases l with
  | tick d =>
    simp only [step] at hs
    split at hs
    · rename_i hd
      rw [← Option.some.inj hs]
      refine ⟨h.cur, h.noCur, h.conn, h.one, h.good, h.wrote, ?_, fun t x u hx hu => ?_⟩
      · have := h.last; dsimp only; linarith
      · have := h.nap t x u hx hu; dsimp only; linarith
    · cases hs
  | send => rw [← Option.some.inj hs]; exact send_inv h
  | wake t =>
    simp only [step] at hs
    split at hs
    · rename_i hx
      rw [← Option.some.inj hs]
      exact (beat_local cfg s t).inv h (lt_length hx) (beat_fine hx)
    · rename_i u hx
      split at hs
      · rw [← Option.some.inj hs]
        exact (beat_local cfg s t).inv h (lt_length hx) (beat_fine hx)
      · cases hs
    · cases hs
  | resume t =>
    simp only [step] at hs
    split at hs
    · rename_i rc hx
      rw [← Option.some.inj hs]
      have := h.good t _ hx
      exact (loop_local cfg s t rc).inv h (lt_length hx) (loop_fine this.1 (.inl this.2))
    · cases hs
  | opened t =>
    simp only [step] at hs
    have ho := opened_inv h
    split at hs
    · rename_i b rc hx
      rw [← Option.some.inj hs]
      refine (writeRead_local _ t rc).inv ho (lt_length hx) ?_
      cases b with
      | false => have := h.good t _ hx; exact writeRead_fine this.1 this.2
      | true =>
        obtain ⟨pc', h'⟩ := writeRead_task (s := s.opened cfg) (rc := rc) hx
        exact ⟨beat_good h' rfl, fun x u hx hu => writeRead_nap x u hx hu⟩
    · rename_i rc hx
      rw [← Option.some.inj hs]
      have := h.good t _ hx
      exact (retry_local cfg _ t rc).inv ho (lt_length hx) (retry_fine this.1 this.2)
    · cases hs
  | failed t f =>
    simp only [step] at hs
    split at hs
    · rename_i hx
      rw [← Option.some.inj hs]
      exact openFails_inv f h hx
    · rename_i rc hx
      rw [← Option.some.inj hs]
      exact inv_goto h hx (.inr (bound_over (h.good t _ hx))) (by simp)
    · cases hs
  | grant =>
    simp only [step] at hs
    split at hs
    · split at hs
      · rename_i t q c _ _ _ _ b rc hx
        rw [← Option.some.inj hs]
        refine inv_goto (s := { s with lock := some t, queue := q }) (inv_lock h _ _) hx ?_ (by simp)
        cases b with
        | true => exact .inl rfl
        | false => have := h.good t _ hx; exact .inr ⟨this.1, this.2⟩
      · cases hs
    · cases hs
  | read t r =>
    simp only [step] at hs
    split at hs
    · rename_i hx
      split at hs
      · rw [← Option.some.inj hs]
        exact readEnds_inv (s := { s with lock := none }) r (inv_lock h none s.queue) hx
      · cases hs
    · cases hs
  | cancel t =>
    simp only [step] at hs
    split at hs
    · cases hs
    · rename_i b rc c hx
      rw [← Option.some.inj hs]
      refine inv_goto (s := { s with lock := none }) (inv_lock h none s.queue) hx ?_ (by simp)
      cases b with
      | true => exact .inl rfl
      | false => exact .inr (bound_over (h.good t _ hx))
    · rename_i x _ _ hx
      rw [← Option.some.inj hs]
      refine inv_goto (s := { s with queue := s.queue.filter (· ≠ t) }) (inv_lock h s.lock _) hx ?_ (by simp)
      obtain ⟨b, pc⟩ := x
      cases b with
      | true => exact .inl rfl
      | false => exact .inr (bound_over (h.good t _ hx))
    · cases hs
  | drop c =>
    simp only [step] at hs
    split at hs
    · rw [← Option.some.inj hs]; exact inv_conns h c _ (fun _ h => h)
    · cases hs
  | close =>
    simp only [step] at hs
    split at hs
    · rw [← Option.some.inj hs]; exact inv_conns h _ _ (fun _ h => by cases h)
    · cases hs

theorem reach_inv {cfg : Cfg} {s : St} (h : Reach cfg s) : Inv cfg s := by
  induction h with
  | new now h => exact inv_new h
  | step _ hs ih => exact inv_step ih hs

/-! ### a settled client -/

theorem exchange_settled {s : St} {t rc b pc c} (h : s.connected = true) (hc : s.cur = some c) (hx : s.tasks[t]? = some ⟨b, pc⟩) :
    ∃ pc', (s.exchange t rc).tasks[t]? = some ⟨b, pc'⟩ ∧ Calm c pc' ∧ (s.exchange t rc).sent = (c, t) :: s.sent := by
  unfold St.exchange
  rw [if_pos h]
  unfold St.writeRead
  rw [hc]
  dsimp only
  split
  · exact ⟨_, goto_self (s := { s with sent := (c, t) :: s.sent, lock := some t, cur := some c }) hx, rfl, rfl⟩
  · exact ⟨_, goto_self (s := { s with sent := (c, t) :: s.sent, queue := s.queue ++ [t], cur := some c }) hx, trivial, rfl⟩

/-- What one clean event does to a settled client. -/
structure Kept (cfg : Cfg) (c : Nat) (s s' : St) : Prop where
  settled : Settled s' c
  conns : s'.conns = s.conns
  kind : ∀ (t : Nat) b pc, s.tasks[t]? = some ⟨b, pc⟩ → ∃ pc', s'.tasks[t]? = some ⟨b, pc'⟩
  old : ∀ t, Sends s t → writes s' t = writes s t
  fresh : ∀ t, s.tasks.length ≤ t → Sends s' t → 0 < cfg.max → writes s' t = [c]

theorem Local.kept {cfg : Cfg} {c t : Nat} {s s' : St} {b pc pc'} (h : Local t s s') (hs : Settled s c) (hx : s.tasks[t]? = some ⟨b, pc⟩)
    (hx' : s'.tasks[t]? = some ⟨b, pc'⟩) (hp : Calm c pc') (hw : b = false → s'.sent = s.sent) : Kept cfg c s s' where
  settled := by
    obtain ⟨h1, h2, h3, h4⟩ := hs
    refine ⟨by rw [h.connected, h1], by rw [h.cur, h2], by rw [h.conns, h3], fun t' x hx'' => ?_⟩
    by_cases e : t' = t
    · subst e; rw [hx'] at hx''; rw [← Option.some.inj hx'']; exact hp
    · rw [h.tasks t' e] at hx''; exact h4 t' x hx''
  conns := h.conns
  kind := fun t' b' p' hp' => by
    by_cases e : t' = t
    · subst e; rw [hx] at hp'; injection hp' with hp'; injection hp' with hb _; subst hb; exact ⟨_, hx'⟩
    · exact ⟨p', by rw [h.tasks t' e]; exact hp'⟩
  old := fun t' ⟨p', hp'⟩ => by
    unfold writes
    by_cases e : t' = t
    · subst e; rw [hx] at hp'; injection hp' with hp'; injection hp' with hb _; rw [hw hb]
    · rw [h.sent t' e]
  fresh := fun t' ht' ⟨p', hp'⟩ => by
    have := lt_length hp'
    rw [h.length] at this
    omega

theorem kept_step {cfg : Cfg} {c : Nat} {s s' : St} {l} (hi : Inv cfg s) (h : Settled s c) (hl : Clean s l) (hs : step cfg s l = some s') :
    Kept cfg c s s' := by
  obtain ⟨h1, h2, h3, h4⟩ := h
  cases l with
  | tick d =>
    simp only [step] at hs
    split at hs
    · rw [← Option.some.inj hs]
      exact ⟨⟨h1, h2, h3, h4⟩, rfl, fun _ _ pc h => ⟨pc, h⟩, fun _ _ => rfl, fun t ht ⟨pc, hp⟩ => absurd (lt_length hp) (by simpa using ht)⟩
    · cases hs
  | send =>
    rw [← Option.some.inj hs]
    unfold St.send
    extract_lets s1 s2 s3
    have e2 : s2.connected = true ∧ s2.cur = some c ∧ s2.conns = s.conns ∧ s2.sent = s.sent ∧
        (s2.tasks = s.tasks ∨ s2.tasks = s.tasks ++ [⟨true, .ready⟩]) := by
      simp only [s2]
      split
      · exact ⟨h1, h2, rfl, rfl, .inl rfl⟩
      · exact ⟨h1, h2, rfl, rfl, .inr rfl⟩
    obtain ⟨g1, g2, g3, g4, g5⟩ := e2
    have hlen : s.tasks.length ≤ s2.tasks.length := by rcases g5 with g | g <;> simp [g]
    have hold : ∀ t, t < s.tasks.length → s2.tasks[t]? = s.tasks[t]? := by
      intro t ht
      rcases g5 with g | g
      · rw [g]
      · rw [g, List.getElem?_append_left ht]
    have hcalm : ∀ (t : Nat) (x : Task), s2.tasks[t]? = some x → Calm c x.pc := by
      intro t x hx
      by_cases ht : t < s.tasks.length
      · rw [hold t ht] at hx; exact h4 t x hx
      · rcases g5 with g | g
        · have := lt_length hx; rw [g] at this; omega
        · have hl := lt_length hx
          rw [g] at hx hl
          simp at hl
          have : t = s.tasks.length := by omega
          subst this
          simp at hx
          rw [← hx]; exact trivial
    have hbeat : ∀ (t : Nat) (x : Task), s.tasks.length ≤ t → s2.tasks[t]? = some x → x.beat = true := by
      intro t x ht hx
      rcases g5 with g | g
      · have := lt_length hx; rw [g] at this; omega
      · have hl := lt_length hx
        rw [g] at hx hl
        simp at hl
        have : t = s.tasks.length := by omega
        subst this
        simp at hx
        rw [← hx]
    have h3t : s3.tasks[s2.tasks.length]? = some ⟨false, .ready⟩ := by simp [s3]
    have hloc := loop_local cfg s3 s2.tasks.length 0
    have hself : ∃ pc', (s3.loop cfg s2.tasks.length 0).tasks[s2.tasks.length]? = some ⟨false, pc'⟩ ∧ Calm c pc' ∧
        (0 < cfg.max → (s3.loop cfg s2.tasks.length 0).sent = (c, s2.tasks.length) :: s.sent) := by
      have hsuc : s3.success = false := by
        simp only [s3, s2]
        split <;> rfl
      unfold St.loop
      split
      · obtain ⟨pc', k1, k2, k3⟩ := exchange_settled (s := s3) (rc := 0) g1 g2 h3t
        exact ⟨pc', k1, k2, fun _ => by rw [k3]; show _ :: s2.sent = _; rw [g4]⟩
      · rename_i hn
        exact ⟨_, goto_self h3t, trivial, fun hm => absurd ⟨hm, hsuc⟩ hn⟩
    obtain ⟨pc', k1, k2, k3⟩ := hself
    have hlt3 : ∀ t, t < s2.tasks.length → s3.tasks[t]? = s2.tasks[t]? := fun t ht => List.getElem?_append_left ht
    refine ⟨⟨hloc.connected.trans g1, hloc.cur.trans g2, by rw [hloc.conns]; show s2.conns[c]? = _; rw [g3, h3], fun t x hx => ?_⟩,
      hloc.conns.trans g3, fun t b pc hx => ?_, fun t ht => ?_, fun t ht ⟨pc, hp⟩ hm => ?_⟩
    · by_cases e : t = s2.tasks.length
      · subst e; rw [k1] at hx; rw [← Option.some.inj hx]; exact k2
      · rw [hloc.tasks t e] at hx
        by_cases hl : t < s2.tasks.length
        · rw [hlt3 t hl] at hx; exact hcalm t x hx
        · have := lt_length hx
          simp [s3] at this
          omega
    · have hl := lt_length hx
      refine ⟨pc, ?_⟩
      rw [hloc.tasks t (by omega), hlt3 t (by omega), hold t hl, hx]
    · obtain ⟨pc, hx⟩ := ht
      have hl := lt_length hx
      unfold writes
      rw [hloc.sent t (by omega)]
      show (s2.sent.filter _).map _ = _
      rw [g4]
    · by_cases e : t = s2.tasks.length
      · subst e
        unfold writes
        rw [k3 hm]
        have := hi.wrote s2.tasks.length hlen
        unfold wrote at this
        rw [List.length_eq_zero_iff] at this
        simp only [List.filter_cons, decide_true, if_true, this, List.map_cons, List.map_nil]
      · exfalso
        rw [hloc.tasks t e] at hp
        by_cases hl : t < s2.tasks.length
        · rw [hlt3 t hl] at hp
          have := hbeat t _ ht hp
          cases this
        · have := lt_length hp
          simp [s3] at this
          omega
  | wake t =>
    have key : ∀ pc, s.tasks[t]? = some ⟨true, pc⟩ → Kept cfg c s (s.beat cfg t) := by
      intro pc hx
      have hloc := beat_local cfg s t
      have hself : ∃ pc', (s.beat cfg t).tasks[t]? = some ⟨true, pc'⟩ ∧ Calm c pc' := by
        unfold St.beat
        split
        · obtain ⟨pc', k1, k2, _⟩ := exchange_settled (rc := 0) h1 h2 hx
          exact ⟨pc', k1, k2⟩
        · exact ⟨_, goto_self hx, trivial⟩
      obtain ⟨pc', k1, k2⟩ := hself
      exact hloc.kept ⟨h1, h2, h3, h4⟩ hx k1 k2 (fun h => by cases h)
    simp only [step] at hs
    split at hs
    · rename_i hx; rw [← Option.some.inj hs]; exact key _ hx
    · rename_i u hx
      split at hs
      · rw [← Option.some.inj hs]; exact key _ hx
      · cases hs
    · cases hs
  | resume t =>
    simp only [step] at hs
    split at hs
    · rename_i rc hx; exact (h4 t _ hx).elim
    · cases hs
  | opened t =>
    simp only [step] at hs
    split at hs
    · rename_i rc hx; exact (h4 t _ hx).elim
    · rename_i rc hx; exact (h4 t _ hx).elim
    · cases hs
  | failed t f => exact hl.elim
  | grant =>
    simp only [step] at hs
    split at hs
    · rename_i t q c' hlock hq hc'
      split at hs
      · rename_i b rc hx
        rw [← Option.some.inj hs]
        rw [h2] at hc'
        have hcc : c = c' := Option.some.inj hc'
        have hloc := goto_local { s with lock := some t, queue := q } t (.reading rc c')
        have hloc' : Local t s ({ s with lock := some t, queue := q }.goto t (.reading rc c')) :=
          ⟨hloc.now, hloc.lastSend, hloc.connected, hloc.cur, hloc.conns, hloc.heart, hloc.length, hloc.tasks, hloc.sent⟩
        exact hloc'.kept ⟨h1, h2, h3, h4⟩ hx (goto_self (s := { s with lock := some t, queue := q }) hx) hcc.symm (fun _ => rfl)
      · cases hs
    · cases hs
  | read t r =>
    simp only [step] at hs
    split at hs
    · rename_i b rc c' hx
      have hc' : c' = c := h4 t _ hx
      subst hc'
      split at hs
      · rename_i hp
        rw [← Option.some.inj hs]
        cases r with
        | line ack =>
          simp only [St.readEnds]
          have sub : ∀ (s0 : St) (pc : Pc), s0.tasks = s.tasks → s0.sent = s.sent → s0.connected = s.connected → s0.cur = s.cur →
              s0.conns = s.conns → Calm c' pc → Kept cfg c' s (s0.goto t pc) := by
            intro s0 pc e1 e2 e3 e4 e5 hcalm
            have hx0 : s0.tasks[t]? = some ⟨b, .reading rc c'⟩ := by rw [e1]; exact hx
            refine ⟨⟨e3.trans h1, e4.trans h2, by show s0.conns[c']? = _; rw [e5]; exact h3, fun t' x hx' => ?_⟩, e5, fun t' b' p' hp' => ?_,
              fun t' _ => ?_, fun t' ht' ⟨p', hp'⟩ => ?_⟩
            · by_cases e : t' = t
              · subst e; rw [goto_self hx0] at hx'; rw [← Option.some.inj hx']; exact hcalm
              · rw [goto_other e, e1] at hx'; exact h4 t' x hx'
            · by_cases e : t' = t
              · subst e; rw [hx] at hp'; injection hp' with hp'; injection hp' with hb _; subst hb; exact ⟨_, goto_self hx0⟩
              · exact ⟨p', by rw [goto_other e, e1]; exact hp'⟩
            · unfold writes; rw [goto_sent, e2]
            · have := lt_length hp'
              rw [goto_length, e1] at this
              omega
          split
          · rename_i hb
            split
            · exact sub _ _ rfl rfl rfl rfl rfl trivial
            · rename_i hack
              have : ack = false := by cases ack <;> simp_all
              subst this
              obtain ⟨pc, hsend⟩ : Sends s t := hl
              rw [hx] at hsend
              injection hsend with hsend; injection hsend with hb' _
              rw [hb'] at hb; cases hb
          · exact sub _ _ rfl rfl rfl rfl rfl trivial
        | timeout => exact hl.elim
        | eof => simp [St.possible, h3] at hp
        | broken => simp [St.possible, h3] at hp
      · cases hs
    · cases hs
  | cancel t =>
    simp only [step] at hs
    split at hs
    · cases hs
    · rename_i b rc c' hx
      rw [← Option.some.inj hs]
      have hloc := goto_local { s with lock := none } t (.over .cancelled)
      have hloc' : Local t s ({ s with lock := none }.goto t (.over .cancelled)) :=
        ⟨hloc.now, hloc.lastSend, hloc.connected, hloc.cur, hloc.conns, hloc.heart, hloc.length, hloc.tasks, hloc.sent⟩
      exact hloc'.kept ⟨h1, h2, h3, h4⟩ hx (goto_self (s := { s with lock := none }) hx) trivial (fun _ => rfl)
    · rename_i x _ _ hx
      rw [← Option.some.inj hs]
      obtain ⟨b, pc⟩ := x
      have hloc := goto_local { s with queue := s.queue.filter (· ≠ t) } t (.over .cancelled)
      have hloc' : Local t s ({ s with queue := s.queue.filter (· ≠ t) }.goto t (.over .cancelled)) :=
        ⟨hloc.now, hloc.lastSend, hloc.connected, hloc.cur, hloc.conns, hloc.heart, hloc.length, hloc.tasks, hloc.sent⟩
      exact hloc'.kept ⟨h1, h2, h3, h4⟩ hx (goto_self (s := { s with queue := s.queue.filter (· ≠ t) }) hx) trivial (fun _ => rfl)
    · cases hs
  | drop c' => exact hl.elim
  | close => exact hl.elim

theorem kept_run {cfg : Cfg} {c : Nat} {s s' : St} (hi : Inv cfg s) (h : Settled s c) (hr : CleanRun cfg s s') :
    Kept cfg c s s' := by
  induction hr with
  | nil s => exact ⟨h, rfl, fun _ _ pc h => ⟨pc, h⟩, fun _ _ => rfl, fun t ht ⟨pc, hp⟩ => absurd (lt_length hp) (by omega)⟩
  | @cons s s1 s2 l hl hs _ ih =>
    have k := kept_step hi h hl hs
    have k' := ih (inv_step hi hs) k.settled
    refine ⟨k'.settled, k'.conns.trans k.conns, fun t b pc hx => ?_, fun t ht => ?_, fun t ht ht2 hm => ?_⟩
    · obtain ⟨pc', hx'⟩ := k.kind t b pc hx
      exact k'.kind t b pc' hx'
    · obtain ⟨pc, hx⟩ := ht
      rw [k'.old t (k.kind t _ _ hx), k.old t ⟨pc, hx⟩]
    · by_cases hl1 : t < s1.tasks.length
      · obtain ⟨x, hx⟩ : ∃ x, s1.tasks[t]? = some x := ⟨_, List.getElem?_eq_getElem hl1⟩
        obtain ⟨b, pc⟩ := x
        obtain ⟨pc', hx'⟩ := k'.kind t b pc hx
        obtain ⟨pc2, h2⟩ := ht2
        rw [hx'] at h2; injection h2 with h2; injection h2 with hb _
        subst hb
        rw [k'.old t ⟨pc, hx⟩, k.fresh t ht ⟨pc, hx⟩ hm]
      · exact k'.fresh t (by omega) ht2 hm

/-! ### tasks stay alive -/

/-- The task that an event is about. -/
def about (s : St) : Label → Option Nat
  | .wake t => some t
  | .resume t => some t
  | .opened t => some t
  | .failed t _ => some t
  | .read t _ => some t
  | .cancel t => some t
  | .grant => s.queue.head?
  | _ => none

theorem retry_tasks {cfg : Cfg} {s : St} {t rc t'} (h : t' ≠ t) : (s.retry cfg t rc).tasks[t']? = s.tasks[t']? := (retry_local cfg s t rc).tasks t' h

theorem readEnds_tasks {cfg : Cfg} {s : St} {t b rc r t'} (h : t' ≠ t) : (s.readEnds cfg t b rc r).tasks[t']? = s.tasks[t']? := by
  cases r with
  | line ack =>
    simp only [St.readEnds]
    split
    · split
      · exact goto_other h
      · exact goto_other h
    · exact goto_other h
  | eof =>
    simp only [St.readEnds]
    split
    · exact goto_other h
    · exact goto_other h
  | timeout =>
    simp only [St.readEnds]
    split
    · exact goto_other h
    · exact retry_tasks h
  | broken =>
    simp only [St.readEnds]
    split
    · exact goto_other h
    · exact goto_other h

theorem openFails_tasks {cfg : Cfg} {s : St} {t b rc f t'} (h : t' ≠ t) : (s.openFails cfg t b rc f).tasks[t']? = s.tasks[t']? := by
  unfold St.openFails
  split
  · split
    · exact goto_other h
    · exact goto_other h
  · split
    · exact retry_tasks h
    · exact goto_other h
    · exact goto_other h

/-- An event changes only the task it is about. -/
theorem frame {cfg : Cfg} {s s' : St} {l} {t : Nat} (hs : step cfg s l = some s') (hl : about s l ≠ some t) (ht : t < s.tasks.length) :
    s'.tasks[t]? = s.tasks[t]? := by
  cases l with
  | tick d =>
    simp only [step] at hs
    split at hs
    · rw [← Option.some.inj hs]
    · cases hs
  | send =>
    rw [← Option.some.inj hs]
    unfold St.send
    extract_lets s1 s2 s3
    have h2 : s2.tasks[t]? = s.tasks[t]? ∧ s.tasks.length ≤ s2.tasks.length := by
      simp only [s2]
      split
      · exact ⟨rfl, le_refl _⟩
      · exact ⟨List.getElem?_append_left ht, by simp [s1]⟩
    rw [(loop_local cfg s3 s2.tasks.length 0).tasks t (by omega)]
    show (s2.tasks ++ _)[t]? = _
    rw [List.getElem?_append_left (by omega), h2.1]
  | wake t' =>
    have hne : t ≠ t' := fun h => hl (by rw [h]; rfl)
    simp only [step] at hs
    split at hs
    · rw [← Option.some.inj hs]; exact (beat_local cfg s t').tasks t hne
    · split at hs
      · rw [← Option.some.inj hs]; exact (beat_local cfg s t').tasks t hne
      · cases hs
    · cases hs
  | resume t' =>
    have hne : t ≠ t' := fun h => hl (by rw [h]; rfl)
    simp only [step] at hs
    split at hs
    · rw [← Option.some.inj hs]; exact (loop_local cfg s t' _).tasks t hne
    · cases hs
  | opened t' =>
    have hne : t ≠ t' := fun h => hl (by rw [h]; rfl)
    simp only [step] at hs
    split at hs
    · rw [← Option.some.inj hs]; exact (writeRead_local _ t' _).tasks t hne
    · rw [← Option.some.inj hs]; exact (retry_local cfg _ t' _).tasks t hne
    · cases hs
  | failed t' f =>
    have hne : t ≠ t' := fun h => hl (by rw [h]; rfl)
    simp only [step] at hs
    split at hs
    · rw [← Option.some.inj hs]; exact openFails_tasks hne
    · rw [← Option.some.inj hs]; exact goto_other hne
    · cases hs
  | grant =>
    simp only [step] at hs
    split at hs
    · rename_i t' q c _ hq _
      have hne : t ≠ t' := fun h => hl (by rw [h, about, hq]; rfl)
      split at hs
      · rw [← Option.some.inj hs]; exact goto_other (s := { s with lock := some t', queue := q }) hne
      · cases hs
    · cases hs
  | read t' r =>
    have hne : t ≠ t' := fun h => hl (by rw [h]; rfl)
    simp only [step] at hs
    split at hs
    · split at hs
      · rw [← Option.some.inj hs]; exact readEnds_tasks (s := { s with lock := none }) hne
      · cases hs
    · cases hs
  | cancel t' =>
    have hne : t ≠ t' := fun h => hl (by rw [h]; rfl)
    simp only [step] at hs
    split at hs
    · cases hs
    · rw [← Option.some.inj hs]; exact goto_other (s := { s with lock := none }) hne
    · rw [← Option.some.inj hs]; exact goto_other (s := { s with queue := s.queue.filter (· ≠ t') }) hne
    · cases hs
  | drop c =>
    simp only [step] at hs
    split at hs
    · rw [← Option.some.inj hs]
    · cases hs
  | close =>
    simp only [step] at hs
    split at hs
    · rw [← Option.some.inj hs]
    · cases hs

theorem writeRead_alive {s : St} {t rc b pc} (hc : s.cur ≠ none) (h : s.tasks[t]? = some ⟨b, pc⟩) :
    ∃ pc', (s.writeRead t rc).tasks[t]? = some ⟨b, pc'⟩ ∧ ∀ e, pc' ≠ .over e := by
  unfold St.writeRead
  split
  · contradiction
  · dsimp only
    split
    · exact ⟨_, goto_self h, by simp⟩
    · exact ⟨_, goto_self h, by simp⟩

theorem beat_alive {cfg : Cfg} {s : St} {t b pc} (hc : s.connected = true → s.cur ≠ none) (h : s.tasks[t]? = some ⟨b, pc⟩) :
    ∃ pc', (s.beat cfg t).tasks[t]? = some ⟨b, pc'⟩ ∧ ∀ e, pc' ≠ .over e := by
  unfold St.beat
  split
  · unfold St.exchange
    split
    · rename_i hcon; exact writeRead_alive (hc hcon) h
    · exact ⟨_, goto_self h, by simp⟩
  · exact ⟨_, goto_self h, by simp⟩

end Verif.Link
