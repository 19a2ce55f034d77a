import Verif.Counted.Lemmas

/-!
# What the statistics count (C100)
-/

namespace Verif.Counted

open Verif.Py Verif.Server Verif.Server.Spec

variable {K σ : Type}

/-- **C100, told.** Whatever texts arrive: the statistics are told of exactly the requests that were answered with success, each once, in
order, under the route key of the request; texts that are no requests, unknown routes, and requests whose handling failed are not counted. -/
theorem C100_told {S : Server K σ} (hS : Each Plain S) (hb : ∀ e ∈ S.table, ∀ f msg, e.2.build f ≠ .error (.routing 0 msg))
    (hl : ∀ t msg, S.loads t ≠ .error (.routing 0 msg)) (texts : List String) (w : World K σ) :
    (session S texts w).2.served = w.served ++ successes S (session S texts w).1 := by
  induction texts generalizing w with
  | nil => simp [session, successes]
  | cons t ts ih =>
    have h1 := one hS hb hl t w
    have h2 := ih (routeRequest S t w).2
    simp only [session]
    rw [h2, h1]
    simp only [successes, List.filterMap_cons, List.append_assoc]
    congr 1
    cases (if succeeded (routeRequest S t w).1 then routeIn S t else none) <;> rfl

theorem exServer_plain : Each Plain exServer where
  before m hm kw w := by
    simp only [exServer, List.mem_cons, List.not_mem_nil, or_false] at hm
    rcases hm with rfl | rfl <;> exact ⟨rfl, fun msg h => by cases h⟩
  after m hm kw w := by
    simp only [exServer, List.mem_cons, List.not_mem_nil, or_false] at hm
    rcases hm with rfl | rfl <;> exact ⟨rfl, fun msg h => by cases h⟩
  fn e he ps f hb kw w := by
    simp only [exServer, List.mem_cons, List.not_mem_nil, or_false] at he
    rcases he with rfl | rfl <;> (cases hb; exact ⟨rfl, fun msg h => by cases h⟩)
  run e he f hb kw := by
    simp only [exServer, List.mem_cons, List.not_mem_nil, or_false] at he
    rcases he with rfl | rfl <;> cases hb

theorem exServer_builds : ∀ e ∈ exServer.table, ∀ f msg, e.2.build f ≠ .error (.routing 0 msg) := by
  intro e he f msg
  simp only [exServer, List.mem_cons, List.not_mem_nil, or_false] at he
  rcases he with rfl | rfl <;> exact fun h => by cases h

theorem exServer_loads : ∀ t msg, exServer.loads t ≠ .error (.routing 0 msg) := by
  intro t msg
  show exLoads t ≠ _
  unfold exLoads
  dsimp only
  repeat' split
  all_goals exact fun h => by cases h

/-- Two successes, a failure, an unknown route and two texts that are no requests. -/
example : successes exServer (session exServer ["a", "b", "bad", "c", "a", "[]"] exWorld).1 = ["echo", "echo"] ∧
    (session exServer ["a", "b", "bad", "c", "a", "[]"] exWorld).2.served = ["echo", "echo"] := by
  have h : successes exServer (session exServer ["a", "b", "bad", "c", "a", "[]"] exWorld).1 = ["echo", "echo"] := by decide +kernel
  exact ⟨h, by rw [C100_told exServer_plain exServer_builds exServer_loads, h]; rfl⟩

/-- **C100, totals, partial.** Whatever texts arrive and whenever statistics are read and gathered: for every endpoint the calls of all gathered
periods and of the current one add up to the requests for it that were answered with success. Assumed as for `C48_calls_partial`: the application
leaves `endpoint_data` alone, and no route extends another one by the name of a statistic (`C48_clash_refuted`). -/
theorem C100_totals_partial {S : Server K σ} (hS : Each Plain S) (hb : ∀ e ∈ S.table, ∀ f msg, e.2.build f ≠ .error (.routing 0 msg))
    (hl : ∀ t msg, S.loads t ≠ .error (.routing 0 msg)) (texts : List String) (w : World K σ) (hw : w.served = [])
    (n i : String) (st gp : ℚ) (len : Int) (es : List Stats.Ev) (ha : ∀ e ∈ es, Stats.Spec.Apart e)
    (hR : Stats.Spec.NoClash (Stats.Spec.routes es)) (ht : told es = (session S texts w).2.served) (r : String) (hr : r ∈ Stats.Spec.routes es) :
    ((Stats.Spec.gathered (Stats.Spec.trace (.new n i st gp len) es)).map (Stats.Spec.countIn · r)).sum +
      Stats.Spec.countIn (Stats.run (.new n i st gp len) es).current r = (successes S (session S texts w).1).count r := by
  rw [Stats.C48_calls_partial n i st gp len es ha hR r hr, calls_told, ht, C100_told hS hb hl, hw, List.nil_append]

/-- Endpoints are registered, the six texts arrive, with a gathering in between. -/
def exEvents (sizes : String → ℚ) : List Stats.Ev :=
  [.track "echo", .track "fail", .call "echo" 1, .gather 300 sizes, .call "echo" 2]

example (sizes : String → ℚ) : (∀ e ∈ exEvents sizes, Stats.Spec.Apart e) ∧ Stats.Spec.NoClash (Stats.Spec.routes (exEvents sizes)) ∧
    told (exEvents sizes) = (session exServer ["a", "b", "bad", "c", "a", "[]"] exWorld).2.served ∧ "fail" ∈ Stats.Spec.routes (exEvents sizes) := by
  refine ⟨?_, ?_, ?_, by simp [exEvents, Stats.Spec.routes]⟩
  · intro e he
    simp only [exEvents, List.mem_cons, List.not_mem_nil, or_false] at he
    rcases he with rfl | rfl | rfl | rfl | rfl <;> trivial
  · have h1 : Stats.split "echo" = ["echo"] := by decide +kernel
    have h2 : Stats.split "fail" = ["fail"] := by decide +kernel
    intro r hr r' hr' x hx
    simp only [exEvents, Stats.Spec.routes, List.mem_cons, List.not_mem_nil, or_false] at hr hr'
    have e1 : (Stats.split r).length = 1 := by rcases hr with rfl | rfl | rfl | rfl <;> simp [h1, h2]
    have e2 : (Stats.split r').length = 1 := by rcases hr' with rfl | rfl | rfl | rfl <;> simp [h1, h2]
    intro hp
    have := hp.length_le
    simp [e1, e2] at this
  · have h : successes exServer (session exServer ["a", "b", "bad", "c", "a", "[]"] exWorld).1 = ["echo", "echo"] := by decide +kernel
    rw [C100_told exServer_plain exServer_builds exServer_loads, h]
    rfl

/-- A handler that reports a failure with a routing exception of its own, whose status is 0. -/
def exOdd : Server Int Nat := { exServer with
  table := [("echo", { exEcho with body := .standard [] fun _ => M.raise (.routing 0 "odd") })] }

/-- **C100 is false for routing exceptions with status 0** raised by the application: the answer has the status of success, and is not counted. -/
theorem C100_status_refuted : (routeRequest exOdd "a" exWorld).1 = .ok { spanKey := some 1, status := 0, data := .other (.str "odd") } ∧
    (routeRequest exOdd "a" exWorld).2.served = [] := by
  constructor <;> rfl

end Verif.Counted
