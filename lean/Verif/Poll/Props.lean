import Verif.Poll.Model
import Mathlib.Algebra.Order.Archimedean.Basic
import Mathlib.Data.Nat.Find
import Mathlib.Tactic.Linarith
import Mathlib.Tactic.NormNum
import Mathlib.Tactic.Ring

/-!
# C116: the exported health is current

Every push of the exporter reports on every service, from a poll made just before; pushes keep coming whatever services and gateway do; a service that goes down or comes back is
reported as such before long. Expected as well (documentation/observability.md 35-36): a poll per gather period.
-/

namespace Verif.Poll

/-! ### Specification -/

/-- Nothing takes a negative time; a poll takes at most `B`, a push at most `C`, a sleep at most `L` more than asked for. -/
structure Bounded (E : Env) (B C L : ℚ) : Prop where
  cost : ∀ i t, 0 ≤ E.cost i t ∧ E.cost i t ≤ B
  push : ∀ t, 0 ≤ E.pushCost t ∧ E.pushCost t ≤ C
  late : ∀ k, 0 ≤ E.late k ∧ E.late k ≤ L

/-- The push says that service `i` is healthy (`v`) or not, and nothing else about it. -/
def Says (p : Push) (i : Nat) (v : Bool) : Prop := ∀ f ∈ p.found, f.service = i → f.healthy = v

/-- Push `k` (from 0). -/
def IsPush (E : Env) (k : Nat) (p : Push) : Prop := ∃ m, (rounds E m).1[k]? = some p

/-! ### Lemmas -/

theorem pollAll_services (E : Env) (is : List Nat) : ∀ t, (pollAll E is t).1.map Found.service = is := by
  induction is with
  | nil => intro t; rfl
  | cons i is ih => intro t; simp [pollAll, ih]

theorem pollAll_time {E : Env} {B C L : ℚ} (hB : Bounded E B C L) (is : List Nat) :
    ∀ t, t ≤ (pollAll E is t).2 ∧ (pollAll E is t).2 ≤ t + is.length * B := by
  induction is with
  | nil => intro t; simp [pollAll]
  | cons i is ih =>
    intro t
    obtain ⟨h1, h2⟩ := ih (t + E.cost i t)
    obtain ⟨c1, c2⟩ := hB.cost i t
    simp only [pollAll, List.length_cons, Nat.cast_add, Nat.cast_one]
    constructor
    · linarith
    · linarith

theorem pollAll_found {E : Env} {B C L : ℚ} (hB : Bounded E B C L) (is : List Nat) :
    ∀ t, ∀ f ∈ (pollAll E is t).1, f.healthy = E.answers f.service f.asked ∧ t ≤ f.asked ∧ f.asked ≤ (pollAll E is t).2 := by
  induction is with
  | nil => intro t f hf; simp [pollAll] at hf
  | cons i is ih =>
    intro t f hf
    obtain ⟨c1, c2⟩ := hB.cost i t
    have ht := (pollAll_time hB is (t + E.cost i t)).1
    simp only [pollAll, List.mem_cons] at hf ⊢
    rcases hf with rfl | hf
    · refine ⟨rfl, le_refl _, ?_⟩
      show t ≤ _
      linarith
    · obtain ⟨h1, h2, h3⟩ := ih _ f hf
      exact ⟨h1, by linarith, h3⟩

theorem rounds_length (E : Env) (m : Nat) : (rounds E m).1.length = m := by
  induction m with
  | zero => rfl
  | succ m ih => simp [rounds, ih]

theorem rounds_get (E : Env) (m : Nat) : ∀ k, k < m → (rounds E m).1[k]? = some (round E k (rounds E k).2).1 := by
  induction m with
  | zero => intro k h; omega
  | succ m ih =>
    intro k h
    simp only [rounds]
    by_cases hk : k < m
    · rw [List.getElem?_append_left (by rw [rounds_length]; exact hk)]; exact ih k hk
    · have : k = m := by omega
      subst this
      rw [List.getElem?_append_right (by rw [rounds_length])]
      simp [rounds_length]

theorem isPush_iff (E : Env) (k : Nat) (p : Push) : IsPush E k p ↔ p = (round E k (rounds E k).2).1 := by
  constructor
  · rintro ⟨m, h⟩
    have hk : k < m := by
      have := (List.getElem?_eq_some_iff.1 h).1
      rwa [rounds_length] at this
    rw [rounds_get E m k hk] at h
    exact (Option.some.inj h).symm
  · rintro rfl
    exact ⟨k + 1, rounds_get E (k + 1) k (Nat.lt_succ_self k)⟩

theorem rounds_succ (E : Env) (k : Nat) : (rounds E (k + 1)).2 = (round E k (rounds E k).2).1.time + E.pushCost (round E k (rounds E k).2).1.time := rfl

/-! ### Theorems -/

/-- **C116, every push.** Whatever services and gateway do, `m` rounds make `m` pushes; each reports on every service, just once, what a poll found that was made at
most the time of a poll for each service earlier. -/
theorem C116_every {E : Env} {B C L : ℚ} (hB : Bounded E B C L) :
    (∀ m, (rounds E m).1.length = m) ∧
    ∀ k p, IsPush E k p → p.found.map Found.service = List.range E.n ∧ p.taken = E.taken p.time ∧
      ∀ f ∈ p.found, f.healthy = E.answers f.service f.asked ∧ p.time - E.n * B ≤ f.asked ∧ f.asked ≤ p.time := by
  refine ⟨rounds_length E, ?_⟩
  intro k p hp
  rw [isPush_iff] at hp
  subst hp
  refine ⟨pollAll_services _ _ _, rfl, ?_⟩
  intro f hf
  obtain ⟨h1, h2, h3⟩ := pollAll_found hB _ _ f hf
  have ht := (pollAll_time hB (List.range E.n) ((rounds E k).2 + E.interval + E.late k)).2
  rw [List.length_range] at ht
  refine ⟨h1, ?_, h3⟩
  simp only [round]
  linarith

/-- **C116, pushes keep coming.** The first push is made after the interval, each further one after the one before it and the interval; and not later than the polls of all
services, the push and a late sleep explain. -/
theorem C116_gap {E : Env} {B C L : ℚ} (hB : Bounded E B C L) :
    (∀ p, IsPush E 0 p → E.interval ≤ p.time ∧ p.time ≤ E.interval + L + E.n * B) ∧
    ∀ k p p', IsPush E k p → IsPush E (k + 1) p' → p.time + E.interval ≤ p'.time ∧ p'.time ≤ p.time + E.interval + (C + L + E.n * B) := by
  have key : ∀ k, (rounds E k).2 + E.interval ≤ (round E k (rounds E k).2).1.time ∧
      (round E k (rounds E k).2).1.time ≤ (rounds E k).2 + E.interval + L + E.n * B := by
    intro k
    have ht := pollAll_time hB (List.range E.n) ((rounds E k).2 + E.interval + E.late k)
    rw [List.length_range] at ht
    obtain ⟨l1, l2⟩ := hB.late k
    simp only [round]
    constructor
    · linarith [ht.1]
    · linarith [ht.2]
  refine ⟨?_, ?_⟩
  · intro p hp
    rw [isPush_iff] at hp
    subst hp
    have := key 0
    simp only [rounds] at this ⊢
    constructor
    · linarith [this.1]
    · linarith [this.2]
  · intro k p p' hp hp'
    rw [isPush_iff] at hp hp'
    subst hp hp'
    have := key (k + 1)
    rw [rounds_succ] at this ⊢
    obtain ⟨c1, c2⟩ := hB.push (round E k (rounds E k).2).1.time
    constructor
    · linarith [this.1]
    · linarith [this.2]

/-- **C116, changes.** When a service goes down (`v` false) at the time `T`, or comes back (`v` true), and stays so: every push made later than the polls of one round after `T` says so, and
there is such a push before two rounds of polls, the interval, a push and a late sleep are over. -/
theorem C116_detected {E : Env} {B C L : ℚ} (hB : Bounded E B C L) (hi : 0 < E.interval) {i : Nat} {v : Bool} {T : ℚ} (hT : 0 ≤ T)
    (hv : ∀ t, T ≤ t → E.answers i t = v) :
    (∀ k p, IsPush E k p → T + E.n * B ≤ p.time → Says p i v) ∧
    ∃ k p, IsPush E k p ∧ Says p i v ∧ p.time ≤ T + E.interval + (C + L + 2 * (E.n * B)) := by
  have h1 : ∀ k p, IsPush E k p → T + E.n * B ≤ p.time → Says p i v := by
    intro k p hp ht f hf hs
    obtain ⟨e1, e2, e3⟩ := (C116_every hB).2 k p hp |>.2.2 f hf
    rw [e1, hs]
    exact hv _ (by linarith)
  refine ⟨h1, ?_⟩
  let time : Nat → ℚ := fun k => (round E k (rounds E k).2).1.time
  have hpush : ∀ k, IsPush E k (round E k (rounds E k).2).1 := fun k => (isPush_iff E k _).2 rfl
  have grow : ∀ k : Nat, (k + 1 : ℚ) * E.interval ≤ time k := by
    intro k
    induction k with
    | zero => have := ((C116_gap hB).1 _ (hpush 0)).1; simpa using this
    | succ k ih =>
      have := ((C116_gap hB).2 k _ _ (hpush k) (hpush (k + 1))).1
      push_cast
      have e : time k + E.interval ≤ time (k + 1) := this
      linarith
  have hex : ∃ k, T + E.n * B ≤ time k := by
    obtain ⟨m, hm⟩ := Archimedean.arch (T + E.n * B) hi
    refine ⟨m, ?_⟩
    have := grow m
    rw [nsmul_eq_mul] at hm
    linarith
  have hBn : 0 ≤ (E.n : ℚ) * B := by
    have hb : 0 ≤ B := le_trans (hB.cost 0 0).1 (hB.cost 0 0).2
    exact mul_nonneg (Nat.cast_nonneg _) hb
  have hC : 0 ≤ C := le_trans (hB.push 0).1 (hB.push 0).2
  have hfind := Nat.find_spec hex
  refine ⟨Nat.find hex, _, hpush _, h1 _ _ (hpush _) hfind, ?_⟩
  cases hk : Nat.find hex with
  | zero =>
    have := ((C116_gap hB).1 _ (hpush 0)).2
    linarith
  | succ k =>
    have hlt : ¬ T + E.n * B ≤ time k := Nat.find_min hex (by omega)
    have := ((C116_gap hB).2 k _ _ (hpush k) (hpush (k + 1))).2
    have e : time k < T + E.n * B := lt_of_not_ge hlt
    have e' : (round E k (rounds E k).2).1.time < T + E.n * B := e
    linarith

/-- **C116, the period, partial.** If nothing takes any time, there is one push per interval, at its end. Missing: everything else, see `C116_period_refuted`. -/
theorem C116_period_partial {E : Env} (hB : Bounded E 0 0 0) (k : Nat) (p : Push) (hp : IsPush E k p) : p.time = (k + 1) * E.interval := by
  induction k generalizing p with
  | zero =>
    have := (C116_gap hB).1 p hp
    simp at this ⊢
    linarith [this.1, this.2]
  | succ k ih =>
    have h0 : IsPush E k (round E k (rounds E k).2).1 := (isPush_iff E k _).2 rfl
    have := (C116_gap hB).2 k _ p h0 hp
    have e := ih _ h0
    push_cast
    simp at this
    linarith [this.1, this.2]

/-- A number of services, one of which (number 0) does not answer any more; finding that out takes `d`. Everything else takes no time. -/
def silent (n : Nat) (interval d : ℚ) : Env where
  n := n + 1
  interval := interval
  late _ := 0
  answers i _ := i != 0
  cost i _ := if i = 0 then d else 0
  taken _ := true
  pushCost _ := 0

theorem pollAll_rest (n : Nat) (interval d : ℚ) (is : List Nat) (h : 0 ∉ is) : ∀ t, (pollAll (silent n interval d) is t).2 = t := by
  induction is with
  | nil => intro t; rfl
  | cons i is ih =>
    intro t
    simp only [List.mem_cons, not_or] at h
    have hc : (silent n interval d).cost i t = 0 := if_neg (Ne.symm h.1)
    simp only [pollAll]
    rw [ih h.2, hc, add_zero]

/-- **C116 is false of the code as to the period.** The services are polled one after the other, and only then does the next sleep begin: one service that does not answer makes the period
of all longer by the time it takes to find that out (with the default client for UDP three time-outs of 5 seconds and two delays: 15.2 seconds), in every round. The health and the
statistics of all services are pushed at multiples of `interval + d`. -/
theorem C116_period_refuted (n : Nat) (interval d : ℚ) :
    ∀ k p, IsPush (silent n interval d) k p → p.time = (k + 1) * (interval + d) ∧ p.found.length = n + 1 := by
  have hr : List.range (n + 1) = 0 :: (List.range n).map (· + 1) := by
    rw [List.range_succ_eq_map]
  have one : ∀ k now, (round (silent n interval d) k now).1.time = now + interval + d := by
    intro k now
    show (pollAll (silent n interval d) (List.range (n + 1)) (now + interval + 0)).2 = _
    rw [hr]
    simp only [pollAll]
    rw [pollAll_rest _ _ _ _ (by simp)]
    simp [silent]
  have now : ∀ k : Nat, (rounds (silent n interval d) k).2 = k * (interval + d) := by
    intro k
    induction k with
    | zero => simp [rounds]
    | succ k ih =>
      rw [rounds_succ, one, ih]
      show _ + (0 : ℚ) = _
      push_cast
      ring
  intro k p hp
  rw [isPush_iff] at hp
  subst hp
  refine ⟨?_, ?_⟩
  · rw [one, now]; ring
  · have := congrArg List.length (pollAll_services (silent n interval d) (List.range (n + 1)) ((rounds (silent n interval d) k).2 + interval + 0))
    rw [List.length_map, List.length_range] at this
    exact this

/-! ### Cases -/

/-- Two services, the first of them silent: pushed at 45.2 and 90.4 instead of 30 and 60. -/
example : (rounds (silent 1 30 (152 / 10)) 2).1 =
    [⟨452 / 10, [⟨0, 30, false⟩, ⟨1, 452 / 10, true⟩], true⟩, ⟨904 / 10, [⟨0, 752 / 10, false⟩, ⟨1, 904 / 10, true⟩], true⟩] := by decide +kernel

example : Bounded (silent 1 30 (152 / 10)) (152 / 10) 0 0 := by
  refine ⟨?_, ?_, ?_⟩
  · intro i t
    show 0 ≤ (if i = 0 then (152 / 10 : ℚ) else 0) ∧ (if i = 0 then (152 / 10 : ℚ) else 0) ≤ 152 / 10
    split <;> norm_num
  · intro t; exact ⟨le_refl _, le_refl _⟩
  · intro k; exact ⟨le_refl _, le_refl _⟩

/-- A service that goes down after a minute, polled every 30 seconds, each poll taking a second. -/
def exDown : Env where
  n := 1
  interval := 30
  late _ := 0
  answers _ t := decide (t < 60)
  cost _ _ := 1
  taken t := decide (t < 70)
  pushCost _ := 2

example : (rounds exDown 3).1 = [⟨31, [⟨0, 30, true⟩], true⟩, ⟨64, [⟨0, 63, false⟩], true⟩, ⟨97, [⟨0, 96, false⟩], false⟩] := by decide +kernel

example : Bounded exDown 1 2 0 ∧ ∀ t, (60 : ℚ) ≤ t → exDown.answers 0 t = false := by
  refine ⟨⟨fun _ _ => ⟨by norm_num [exDown], le_refl _⟩, fun _ => ⟨by norm_num [exDown], le_refl _⟩, fun _ => ⟨le_refl _, le_refl _⟩⟩, ?_⟩
  intro t ht
  simp only [exDown, decide_eq_false_iff_not, not_lt]
  exact ht

example : Bounded { exDown with cost := fun _ _ => 0, pushCost := fun _ => 0 } 0 0 0 :=
  ⟨fun _ _ => ⟨le_refl _, le_refl _⟩, fun _ => ⟨le_refl _, le_refl _⟩, fun _ => ⟨le_refl _, le_refl _⟩⟩

end Verif.Poll
