import Verif.Gather.Model
import Verif.Config.Model
import Mathlib.Algebra.BigOperators.Group.Finset.Basic
import Mathlib.Algebra.Order.BigOperators.Group.Finset
import Mathlib.Tactic.Ring
import Mathlib.Tactic.Linarith

/-!
# C108: statistics are gathered once per gather period, and others get to run in between

documentation/statistics_keeper.md: "The default gathering period for an Ecosystem application, is `300` seconds. [...] You can adjust this
by setting the `ECOENV_STAT_GP` environment variable on your system."
-/

namespace Verif.Gather

open Finset

/-! ### Specification -/

/-- `gp` seconds of sleep, then a gathering; `k` times. -/
def periods (gp : Nat) : Nat → List Out
  | 0 => []
  | k + 1 => periods gp k ++ (List.replicate gp .sleep ++ [.gather])

/-! ### Lemmas -/

/-- After `k` periods, and `m` seconds of the next one. -/
structure Within (gp : Nat) (late : Nat → ℚ) (s : St) : Prop where
  ex : ∃ k m, m ≤ gp ∧ s.times.length = k ∧ s.outs = periods gp k ++ List.replicate m .sleep ∧
    (match s.pc with
      | .outer => m = 0 ∧ s.slept = k * gp
      | .inner c => m = c ∧ s.slept = k * gp + c
      | .asleep c => m = c + 1 ∧ s.slept = k * gp + c
      | .full => m = gp ∧ s.slept = k * gp + gp)
  now : s.now = ∑ i ∈ range s.slept, (1 + late i)
  times : ∀ j, (hj : j < s.times.length) → s.times[j] = ∑ i ∈ range ((j + 1) * gp), (1 + late i)

theorem within_new (gp : Nat) (late : Nat → ℚ) : Within gp late new :=
  ⟨⟨0, 0, Nat.zero_le _, rfl, rfl, rfl, by simp [new]⟩, by simp [new], by intro j hj; simp [new] at hj⟩

theorem within_step {gp : Nat} {late : Nat → ℚ} {s : St} (h : Within gp late s) : Within gp late (step gp late s) := by
  obtain ⟨⟨k, m, hm, hk, ho, hp⟩, hn, ht⟩ := h
  obtain ⟨pc, now, slept, outs, times⟩ := s
  simp only at hk ho hp hn ht
  unfold step
  cases pc with
  | outer =>
    simp only at hp ⊢
    exact ⟨⟨k, m, hm, hk, ho, hp.1, by simpa using hp.2⟩, hn, ht⟩
  | inner c =>
    simp only at hp ⊢
    by_cases hc : (c : Int) < (gp : Int)
    · rw [if_pos hc]
      refine ⟨⟨k, m + 1, by omega, hk, ?_, by show m + 1 = c + 1; omega, hp.2⟩, hn, ht⟩
      simp only [ho, List.replicate_succ', List.append_assoc]
    · rw [if_neg hc]
      exact ⟨⟨k, m, hm, hk, ho, by omega, by show slept = _; omega⟩, hn, ht⟩
  | asleep c =>
    simp only at hp ⊢
    refine ⟨⟨k, m, hm, hk, ho, hp.1, by show slept + 1 = _; omega⟩, ?_, ht⟩
    simp only
    rw [sum_range_succ, hn]; ring
  | full =>
    simp only at hp ⊢
    refine ⟨⟨k + 1, 0, Nat.zero_le _, by simp [hk], ?_, rfl, ?_⟩, hn, ?_⟩
    · simp only [ho, periods, hp.1, List.append_assoc, List.replicate_zero, List.append_nil]
    · simp only; rw [hp.2]; ring
    · intro j hj
      simp only [List.length_append, List.length_cons, List.length_nil, zero_add] at hj
      by_cases hlt : j < times.length
      · simp only [List.getElem_append_left hlt]; exact ht j hlt
      · have hjk : j = times.length := by omega
        subst hjk
        simp only [List.getElem_concat_length]
        rw [hn, hp.2, hk]
        congr 2
        ring

theorem within_run (gp : Nat) (late : Nat → ℚ) (n : Nat) : Within gp late (run gp late n) := by
  induction n with
  | zero => exact within_new gp late
  | succ n ih => exact within_step ih

/-! ### Theorems -/

/-- **C108, order.** With a period of at least one second: whenever one looks, the loop has slept `gp` times a second, then gathered, and so on. -/
theorem C108_order (gp : Nat) (late : Nat → ℚ) (n : Nat) :
    ∃ m ≤ gp, (run gp late n).outs = periods gp (run gp late n).times.length ++ List.replicate m .sleep := by
  obtain ⟨k, m, hm, hk, ho, _⟩ := (within_run gp late n).ex
  exact ⟨m, hm, by rw [hk, ho]⟩

/-- **C108, times.** The `j`th gathering takes place `j + 1` periods after the start, and later by what the sleeps until then took longer. -/
theorem C108_times (gp : Nat) (late : Nat → ℚ) (n j : Nat) (hj : j < (run gp late n).times.length) :
    (run gp late n).times[j] = (j + 1) * gp + ∑ i ∈ range ((j + 1) * gp), late i := by
  rw [(within_run gp late n).times j hj, sum_add_distrib]
  simp

/-- **C108, distance.** Between two gatherings there is a period at least, and the period just if the sleeps are exact. -/
theorem C108_distance (gp : Nat) (late : Nat → ℚ) (hl : ∀ i, 0 ≤ late i) (n j : Nat) (hj : j + 1 < (run gp late n).times.length) :
    gp ≤ (run gp late n).times[j + 1] - (run gp late n).times[j] ∧
    ((∀ i, late i = 0) → (run gp late n).times[j + 1] - (run gp late n).times[j] = gp) := by
  rw [C108_times gp late n (j + 1) hj, C108_times gp late n j (by omega)]
  have e : range ((j + 1) * gp) ⊆ range ((j + 1 + 1) * gp) := by
    apply range_subset_range.mpr
    exact Nat.mul_le_mul_right gp (by omega)
  have hs := sum_le_sum_of_subset_of_nonneg e (fun i _ _ => hl i)
  constructor
  · push_cast
    linarith
  · intro h0
    simp only [h0, sum_const_zero, add_zero]
    push_cast
    ring

/-- **C108, going on.** It never ends: after `k` rounds of the loop statistics have been gathered `k` times. -/
theorem C108_goes_on (gp : Nat) (late : Nat → ℚ) (k : Nat) : (run gp late (k * (2 * gp + 3))).times.length = k := by
  have key : ∀ k, (run gp late (k * (2 * gp + 3))).pc = .outer ∧ (run gp late (k * (2 * gp + 3))).times.length = k := by
    intro k
    induction k with
    | zero => rw [Nat.zero_mul]; exact ⟨rfl, rfl⟩
    | succ k ih =>
      have inner : ∀ c ≤ gp, (run gp late (k * (2 * gp + 3) + (1 + 2 * c))).pc = .inner c ∧
          (run gp late (k * (2 * gp + 3) + (1 + 2 * c))).times.length = k := by
        intro c
        induction c with
        | zero =>
          intro _
          show (step gp late (run gp late (k * (2 * gp + 3)))).pc = _ ∧ (step gp late (run gp late (k * (2 * gp + 3)))).times.length = _
          unfold step
          rw [ih.1]
          exact ⟨rfl, ih.2⟩
        | succ c ihc =>
          intro hc
          obtain ⟨h1, h2⟩ := ihc (by omega)
          rw [show k * (2 * gp + 3) + (1 + 2 * (c + 1)) = k * (2 * gp + 3) + (1 + 2 * c) + 1 + 1 by ring]
          generalize k * (2 * gp + 3) + (1 + 2 * c) = n at h1 h2
          have a : (run gp late (n + 1)).pc = .asleep c ∧ (run gp late (n + 1)).times.length = k := by
            show (step gp late (run gp late n)).pc = _ ∧ (step gp late (run gp late n)).times.length = _
            unfold step
            rw [h1]
            simp only
            rw [if_pos (by omega)]
            exact ⟨rfl, h2⟩
          show (step gp late (run gp late (n + 1))).pc = _ ∧ (step gp late (run gp late (n + 1))).times.length = _
          unfold step
          rw [a.1]
          exact ⟨rfl, a.2⟩
      obtain ⟨h1, h2⟩ := inner gp (Nat.le_refl gp)
      rw [show (k + 1) * (2 * gp + 3) = k * (2 * gp + 3) + (1 + 2 * gp) + 1 + 1 by ring]
      generalize k * (2 * gp + 3) + (1 + 2 * gp) = n at h1 h2
      have a : (run gp late (n + 1)).pc = .full ∧ (run gp late (n + 1)).times.length = k := by
        show (step gp late (run gp late n)).pc = _ ∧ (step gp late (run gp late n)).times.length = _
        unfold step
        rw [h1]
        simp only
        rw [if_neg (by omega)]
        exact ⟨rfl, h2⟩
      show (step gp late (run gp late (n + 1))).pc = _ ∧ (step gp late (run gp late (n + 1))).times.length = _
      unfold step
      rw [a.1]
      exact ⟨rfl, by simp [a.2]⟩
  exact (key k).2

/-- **C108, giving way.** With a period of at least one second the loop never does more than four steps in a row without suspending. -/
theorem C108_gives_way (gp : Nat) (hg : 0 < gp) (late : Nat → ℚ) (n : Nat) :
    ∃ i ≤ 4, ∃ c, (run gp late (n + i)).pc = .asleep c := by
  have step1 : ∀ {m c : Nat}, (run gp late m).pc = .inner c → (c : Int) < gp → (run gp late (m + 1)).pc = .asleep c := by
    intro m c hp hc
    show (step gp late (run gp late m)).pc = _
    unfold step
    rw [hp]
    simp [hc]
  have stepO : ∀ {m : Nat}, (run gp late m).pc = .outer → (run gp late (m + 1)).pc = .inner 0 := by
    intro m hp
    show (step gp late (run gp late m)).pc = _
    unfold step
    rw [hp]
  have stepF : ∀ {m : Nat}, (run gp late m).pc = .full → (run gp late (m + 1)).pc = .outer := by
    intro m hp
    show (step gp late (run gp late m)).pc = _
    unfold step
    rw [hp]
  have hg' : ((0 : Nat) : Int) < gp := by omega
  cases hp : (run gp late n).pc with
  | asleep c => exact ⟨0, by omega, c, hp⟩
  | outer => exact ⟨2, by omega, 0, step1 (stepO hp) hg'⟩
  | full => exact ⟨3, by omega, 0, step1 (stepO (stepF hp)) hg'⟩
  | inner c =>
    by_cases hc : (c : Int) < gp
    · exact ⟨1, by omega, c, step1 hp hc⟩
    · have hf : (run gp late (n + 1)).pc = .full := by
        show (step gp late (run gp late n)).pc = _
        unfold step
        rw [hp]
        simp only
        rw [if_neg hc]
      exact ⟨4, by omega, 0, step1 (stepO (stepF hf)) hg'⟩

/-- **C108 is false of the code for a period of zero** (or below), which the configuration accepts: the loop never suspends. No other task of the
application runs again: no server is started, no request is answered, while statistics are gathered without end. -/
theorem C108_zero_refuted (gp : Int) (hg : gp ≤ 0) (late : Nat → ℚ) :
    (∀ n, Out.sleep ∉ (run gp late n).outs) ∧ ∀ k, (run gp late (3 * k)).outs = List.replicate k .gather := by
  have key : ∀ k, (run gp late (3 * k)).pc = .outer ∧ (run gp late (3 * k)).outs = List.replicate k .gather ∧
      (run gp late (3 * k + 1)).pc = .inner 0 ∧ (run gp late (3 * k + 1)).outs = List.replicate k .gather ∧
      (run gp late (3 * k + 2)).pc = .full ∧ (run gp late (3 * k + 2)).outs = List.replicate k .gather := by
    have two : ∀ k, (run gp late (3 * k)).pc = .outer → (run gp late (3 * k)).outs = List.replicate k .gather →
        (run gp late (3 * k + 1)).pc = .inner 0 ∧ (run gp late (3 * k + 1)).outs = List.replicate k .gather ∧
        (run gp late (3 * k + 2)).pc = .full ∧ (run gp late (3 * k + 2)).outs = List.replicate k .gather := by
      intro k h1 h2
      have a : (run gp late (3 * k + 1)).pc = .inner 0 ∧ (run gp late (3 * k + 1)).outs = List.replicate k .gather := by
        show (step gp late (run gp late (3 * k))).pc = _ ∧ (step gp late (run gp late (3 * k))).outs = _
        unfold step
        rw [h1]
        exact ⟨rfl, h2⟩
      refine ⟨a.1, a.2, ?_⟩
      show (step gp late (run gp late (3 * k + 1))).pc = _ ∧ (step gp late (run gp late (3 * k + 1))).outs = _
      unfold step
      rw [a.1]
      simp only
      rw [if_neg (by omega)]
      exact ⟨rfl, a.2⟩
    intro k
    induction k with
    | zero => exact ⟨rfl, rfl, two 0 rfl rfl⟩
    | succ k ih =>
      obtain ⟨_, _, _, _, h5, h6⟩ := ih
      have h : (run gp late (3 * (k + 1))).pc = .outer ∧ (run gp late (3 * (k + 1))).outs = List.replicate (k + 1) .gather := by
        show (step gp late (run gp late (3 * k + 2))).pc = _ ∧ (step gp late (run gp late (3 * k + 2))).outs = _
        unfold step
        rw [h5]
        exact ⟨rfl, by simp only [h6, List.replicate_succ']⟩
      exact ⟨h.1, h.2, two (k + 1) h.1 h.2⟩
  refine ⟨?_, fun k => (key k).2.1⟩
  intro n
  have hn : n = 3 * (n / 3) + n % 3 := by omega
  have h3 : n % 3 = 0 ∨ n % 3 = 1 ∨ n % 3 = 2 := by omega
  obtain ⟨_, k2, _, k4, _, k6⟩ := key (n / 3)
  rcases h3 with h | h | h <;> rw [hn, h] <;> simp [k2, k4, k6]

/-- Such a period comes from the environment without complaint. -/
theorem C108_zero_accepted_refuted : Config.statGatherPeriod [("ECOENV_STAT_GP".toList, "0".toList)] ⟨"shop".toList, "0".toList⟩ = .ok 0 := by
  decide +kernel

/-! ### Examples -/

example : (run 2 (fun _ => 0) 14).outs = [.sleep, .sleep, .gather, .sleep, .sleep, .gather] ∧ (run 2 (fun _ => 0) 14).times = [2, 4] := by
  constructor <;> decide +kernel

example : (run 2 (fun i => if i = 1 then 1 / 2 else 0) 14).times = [5 / 2, 9 / 2] := by decide +kernel

end Verif.Gather
