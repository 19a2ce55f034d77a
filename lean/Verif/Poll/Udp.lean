import Verif.Poll.Props
import Verif.Wait.Props

/-!
# C116 for services that are polled by UDP

The exporter makes one client with the default settings for each service (scraper.py 44-46, 59), and polls through it once in every round: sends through it do not overlap (C117).
-/

namespace Verif.Poll

/-- Every poll is a send through a default UDP client that is used by nobody else. -/
def ByUdp (E : Env) : Prop :=
  ∀ i t, 0 ≤ E.cost i t ∧ ∃ s x, Wait.Reach Wait.dflt 1 s ∧ x ∈ s.ended ∧ x.1.max = 3 ∧ E.cost i t = x.2 - x.1.start

/-- **C116, by UDP.** Whatever the services do, each push is made from polls of the last 15.2 seconds for each service, and a service that goes down, or comes back, and stays so is reported within the
gather period, 30.4 seconds for each service, and what a push and the lateness of the event loop take. -/
theorem C116_udp {E : Env} {C L : ℚ} (hu : ByUdp E) (hp : ∀ t, 0 ≤ E.pushCost t ∧ E.pushCost t ≤ C) (hl : ∀ k, 0 ≤ E.late k ∧ E.late k ≤ L) (hi : 0 < E.interval) :
    (∀ k p, IsPush E k p → ∀ f ∈ p.found, p.time - E.n * (152 / 10) ≤ f.asked) ∧
    ∀ i v T, 0 ≤ T → (∀ t, T ≤ t → E.answers i t = v) → ∃ k p, IsPush E k p ∧ Says p i v ∧ p.time ≤ T + E.interval + (C + L + E.n * (304 / 10)) := by
  have hB : Bounded E (152 / 10) C L := by
    refine ⟨?_, hp, hl⟩
    intro i t
    obtain ⟨h0, s, x, hr, hx, hm, e⟩ := hu i t
    refine ⟨h0, ?_⟩
    have := Wait.C117_alone (P := Wait.dflt) (by norm_num [Wait.dflt]) (by norm_num [Wait.dflt]) rfl hr x hx (by rw [hm]; decide)
    have hd : (((3 : Nat) : ℚ) * Wait.dflt.timeout + (((3 : Nat) : ℚ) - 1) * Wait.dflt.delay) = 152 / 10 := by norm_num [Wait.dflt]
    rw [hm, hd] at this
    rw [e]
    linarith
  refine ⟨?_, ?_⟩
  · intro k p hk f hf
    exact ((C116_every hB).2 k p hk |>.2.2 f hf).2.1
  · intro i v T hT hv
    obtain ⟨k, p, h1, h2, h3⟩ := (C116_detected hB hi hT hv).2
    exact ⟨k, p, h1, h2, by linarith⟩

/-- The silent service of `C116_period_refuted`, with others that answer at once. -/
example : ByUdp (silent 1 30 (152 / 10)) := by
  intro i t
  by_cases h : i = 0
  · refine ⟨by simp only [silent, h, if_true]; norm_num, ⟨152 / 10, none, [], [], [(⟨7, 0, 3, 3⟩, 152 / 10)]⟩, (⟨7, 0, 3, 3⟩, 152 / 10), ?_, by simp, rfl, by simp [silent, h]⟩
    exact Wait.reach_steps [(0, .call 7 3), (5, .timeout), (51 / 10, .wake 0), (101 / 10, .timeout), (102 / 10, .wake 0), (152 / 10, .timeout)] _ _ .init
      (by decide +kernel) (by decide +kernel)
  · refine ⟨by simp only [silent, h, if_false]; norm_num, ⟨0, none, [], [], [(⟨7, 0, 3, 0⟩, 0)]⟩, (⟨7, 0, 3, 0⟩, 0), ?_, by simp, rfl, by simp [silent, h]⟩
    exact Wait.reach_steps [(0, .call 7 3), (0, .reply)] _ _ .init (by decide +kernel) (by decide +kernel)

end Verif.Poll
