import Verif.Stats.FlattenLemmas

/-! C85: flattened statistics. -/

namespace Verif.Stats

open Verif.Py Verif.Stats.Spec

/-- **C85, every dictionary.** Flattening any dictionary gives each key once, and under each key the last of the values whose place
has that key; nothing else. -/
theorem C85_total (d : Store) :
    (Dict.keys (flatten d)).Nodup ∧
    ∀ k, Dict.get? (flatten d) k = lastUnder k ((valuesIn [] d).map fun x => (dotted x.1, x.2)) :=
  ⟨nodup_flattenItems "" d [] (by simp [Dict.keys]), fun k => get?_flatten d k⟩

example : flatten [("a", .node [("b", .num 1), ("c", .node [("d", .num 2)])]), ("e", .num 3)] =
    [("a.b", .num 1), ("a.c.d", .num 2), ("e", .num 3)] := by rfl

/-- **C85, flat.** No value of the result is a dictionary. -/
theorem C85_flat (d : Store) (k : String) (v : Stat) (h : (k, v) ∈ flatten d) : IsValue v := by
  have h1 := Dict.get?_of_mem _ _ _ (C85_total d).1 h
  rw [get?_flatten] at h1
  obtain ⟨p, hp, _⟩ := mem_keyed.1 (lastUnder_mem h1)
  exact valuesIn_isValue d [] _ hp

/-- **C85, statistics.** Whatever was recorded, read and gathered, and whichever part of the statistics is flattened: under a key
stands the statistic recorded at that key in that part, and every statistic recorded there stands under its key. Assumed: no key in
that part begins with a dot. -/
theorem C85_recorded_partial (n i : String) (st gp : ℚ) (hl : Int) (es : List Ev) (p : List String) (c : Store)
    (hp : deepGet (run (.new n i st gp hl) es).current p = some (.node c))
    (hb : deepGet (run (.new n i st gp hl) es).current (p ++ [""]) = none) (k : String) (v : Stat) :
    (k, v) ∈ flatten c ↔ IsValue v ∧ deepGet (run (.new n i st gp hl) es).current (p ++ split k) = some v := by
  have hpl : plainStore (run (.new n i st gp hl) es).current := plain_run es (by simp [Keeper.new, plainStore])
  have hc : plainStore c := plain_deepGet p _ (.node c) hpl hp
  rw [deepGet_append_node p _ _ c hp] at hb ⊢
  have hb' : Dict.get? c "" = none := by
    simp only [deepGet] at hb
    cases hg : Dict.get? c "" with
    | none => rfl
    | some x => cases x <;> simp [hg, deepGet] at hb
  rw [← flatten_plain hc hb']
  exact ⟨Dict.get?_of_mem _ _ _ (C85_total c).1, Dict.get?_mem _ _ _⟩

/-- **C85, reports.** The endpoints' statistics in a report, flattened as the telemetry does: for every endpoint ever registered or
called, its calls in that report stand under its route followed by ".call_count"; and everything that stands in the flattened
statistics is the statistic recorded under that name. Assumed as for C48, and that no route begins with a dot. -/
theorem C85_calls_partial (n i : String) (st gp : ℚ) (hl : Int) (es : List Ev) (ha : ∀ e ∈ es, Apart e)
    (hR : NoClash (routes es)) (hb : ∀ r ∈ routes es, (split r).head? ≠ some "") (hne : routes es ≠ []) (now : ℚ) (sizes : String → ℚ)
    (e : Ev) (he : e = .read now sizes ∨ e = .gather now sizes) (d : Store)
    (hd : (step (run (.new n i st gp hl) es) e).1 = .ok (some d)) :
    ∃ c, deepGet d ["endpoint_data"] = some (.node c) ∧
      (∀ r ∈ routes es, (r ++ ".call_count", .num (countIn d r)) ∈ flatten c) ∧
      ∀ k v, (k, v) ∈ flatten c ↔ IsValue v ∧ deepGet d ("endpoint_data" :: split k) = some v := by
  have hpl : plainStore (run (.new n i st gp hl) es).current := plain_run es (by simp [Keeper.new, plainStore])
  have hbl : Blankless (run (.new n i st gp hl) es) := blankless_run es ⟨rfl, by simp [Keeper.new], by simp [Keeper.new]⟩ ha hb
  have hcur := report_update he hd
  have hdp : plainStore d := by rw [← hcur]; exact plain_update hpl now sizes
  have hdb : NoBlank d := by rw [← hcur]; exact (blankless_update hbl now sizes).store
  have hcount : ∀ r ∈ routes es, deepGet d ("endpoint_data" :: (split r ++ ["call_count"])) = some (.num (countIn d r)) := by
    intro r hr
    have := (C48_listed_partial n i st gp hl es ha hR r hr now sizes e he d hd).1
    rwa [split_count] at this
  have hnode : ∃ c, Dict.get? d "endpoint_data" = some (.node c) := by
    obtain ⟨r, hr⟩ := List.exists_mem_of_ne_nil _ hne
    have := hcount r hr
    simp only [deepGet] at this
    cases hg : Dict.get? d "endpoint_data" with
    | none => simp [hg] at this
    | some x => cases x with
      | node c => exact ⟨c, rfl⟩
      | num q => simp [hg] at this
      | text q => simp [hg] at this
  obtain ⟨c, hc⟩ := hnode
  have hdc : deepGet d ["endpoint_data"] = some (.node c) := by simp [deepGet, hc]
  have hget : ∀ q, deepGet d ("endpoint_data" :: q) = deepGet c q := fun q => deepGet_append_node ["endpoint_data"] q d c hdc
  have hb' : Dict.get? c "" = none := by
    have := hdb
    unfold NoBlank at this
    rw [hget] at this
    simp only [deepGet] at this
    cases hg : Dict.get? c "" with
    | none => rfl
    | some x => cases x <;> simp [hg, deepGet] at this
  have hiff : ∀ k v, (k, v) ∈ flatten c ↔ IsValue v ∧ deepGet d ("endpoint_data" :: split k) = some v := by
    intro k v
    rw [hget, ← flatten_plain (plain_get hdp hc).1 hb']
    exact ⟨Dict.get?_of_mem _ _ _ (C85_total c).1, Dict.get?_mem _ _ _⟩
  refine ⟨c, hdc, ?_, hiff⟩
  intro r hr
  rw [hiff]
  refine ⟨by simp [IsValue], ?_⟩
  have e2 : r ++ ".call_count" = r ++ "." ++ "call_count" := by apply String.toList_inj.1; simp
  have e3 : split "call_count" = ["call_count"] := by decide +kernel
  rw [e2, split_dot, e3]
  exact hcount r hr

example (sizes : String → ℚ) : ∃ d c, (step (run (.new "app" "0" 0 300 12) (exDay sizes)) (.gather 900 sizes)).1 = .ok (some d) ∧
    deepGet d ["endpoint_data"] = some (.node c) ∧ ("app.users.call_count", .num (countIn d "app.users")) ∈ flatten c := by
  obtain ⟨d, hd⟩ := exDay_gather sizes
  obtain ⟨c, h1, h2, _⟩ := C85_calls_partial "app" "0" 0 300 12 _ (exDay_apart sizes).1 (exDay_apart sizes).2 (by
    have h1 : (split "app.users.get").head? ≠ some "" := by decide +kernel
    have h2 : (split "app.users").head? ≠ some "" := by decide +kernel
    intro r hr
    simp only [exDay, routes, List.mem_cons, List.not_mem_nil, or_false] at hr
    rcases hr with rfl | rfl | rfl | rfl | rfl | rfl <;> assumption) (by simp [exDay, routes]) 900 sizes _ (.inr rfl) d hd
  exact ⟨d, c, hd, h1, h2 "app.users" (by simp [exDay, routes])⟩

/-- Routes "a" and ".a" are different endpoints, each with its own count; the flattened statistics have one entry for both, with the
count of the one registered last. -/
theorem C85_dot_refuted (n i : String) (st gp : ℚ) (hl : Int) :
    ∃ c, deepGet (run (.new n i st gp hl) [.track "a", .track ".a", .call "a" 1]).current ["endpoint_data"] = some (.node c) ∧
      countIn (run (.new n i st gp hl) [.track "a", .track ".a", .call "a" 1]).current "a" = 1 ∧
      countIn (run (.new n i st gp hl) [.track "a", .track ".a", .call "a" 1]).current ".a" = 0 ∧
      flatten c = [("a.call_count", .num 0)] := by
  have h1 : split ("endpoint_data." ++ "a" ++ ".call_count") = ["endpoint_data", "a", "call_count"] := by decide +kernel
  have h2 : split ("endpoint_data." ++ ".a" ++ ".call_count") = ["endpoint_data", "", "a", "call_count"] := by decide +kernel
  have h3 : split "endpoint_data.a.call_count" = ["endpoint_data", "a", "call_count"] := h1
  have h4 : split "endpoint_data..a.call_count" = ["endpoint_data", "", "a", "call_count"] := h2
  have hs : (run (.new n i st gp hl) [.track "a", .track ".a", .call "a" 1]).current =
      [("endpoint_data", .node [("a", .node [("call_count", .num 1)]), ("", .node [("a", .node [("call_count", .num 0)])])])] := by
    simp [run, step, incrementValue, h3, h4, Keeper.new, deepGet, deepSet, Dict.get?, Dict.set]
  refine ⟨[("a", .node [("call_count", .num 1)]), ("", .node [("a", .node [("call_count", .num 0)])])], ?_, ?_, ?_, rfl⟩
  · rw [hs]; rfl
  · rw [hs, countIn, h1]; rfl
  · rw [hs, countIn, h2]; rfl

/-- A part of the statistics without values leaves no trace, and neither does a value behind another one with the same key. -/
theorem C85_general_refuted :
    flatten [("a", .node [])] = [] ∧ flatten [("a.b", .num 1), ("a", .node [("b", .num 2)])] = [("a.b", .num 2)] := ⟨rfl, rfl⟩

end Verif.Stats
