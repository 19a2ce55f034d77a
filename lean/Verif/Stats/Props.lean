import Verif.Stats.Lemmas

/-! C47-C50: statistics. -/

namespace Verif.Stats

open Verif.Py Verif.Stats.Spec

/-! ### C47 -/

/-- **C47.** A statistic that was set has the value it was set to, and every statistic whose name is neither above nor below it
keeps its value. -/
theorem C47_set {d d' : Store} {key : String} {v : ℚ} (h : setValue d key v = .ok d') :
    deepGet d' (split key) = some (.num v) ∧
    ∀ other : String, ¬ split key <+: split other → ¬ split other <+: split key →
      deepGet d' (split other) = deepGet d (split other) :=
  ⟨(deepSet_written _ _ _ _ h).same, fun _ => (deepSet_written _ _ _ _ h).other _⟩

/-- **C47, success.** Setting succeeds exactly if no name above is a value: otherwise it raises and changes nothing. The same for an increment that
cannot be made. -/
theorem C47_defined (s : Keeper) (key : String) (v : ℚ) :
    ((∃ d', setValue s.current key v = .ok d') ↔
      ∀ p, p <+: split key → p ≠ split key → deepGet s.current p = none ∨ ∃ c, deepGet s.current p = some (.node c)) ∧
    (∀ e, setValue s.current key v = .error e → step s (.set key v) = (.error e, s)) ∧
    (∀ d', setValue s.current key v = .ok d' → step s (.set key v) = (.ok none, { s with current := d' })) ∧
    (∀ e, incrementValue s.current key v = .error e → step s (.increment key v) = (.error e, s)) ∧
    ∀ d', incrementValue s.current key v = .ok d' → step s (.increment key v) = (.ok none, { s with current := d' }) := by
  refine ⟨⟨?_, ?_⟩, ?_, ?_, ?_, ?_⟩
  · rintro ⟨d', h⟩; exact (deepSet_ok_conv _ _ _ _ h).2
  · intro h; exact deepSet_ok _ _ _ (split_ne_nil key) h
  all_goals intro e h; simp [step, h, put]

/-- **C47, increments.** An increment adds exactly its amount, counting a statistic never set as 0, and changes nothing else;
it succeeds whenever the statistic is a number already. -/
theorem C47_increment {d d' : Store} {key : String} {v : ℚ} (h : incrementValue d key v = .ok d') :
    ∃ q, (deepGet d (split key) = some (.num q) ∨ (deepGet d (split key) = none ∧ q = 0)) ∧
      deepGet d' (split key) = some (.num (q + v)) ∧
      ∀ other : String, ¬ split key <+: split other → ¬ split other <+: split key →
        deepGet d' (split other) = deepGet d (split other) := by
  unfold incrementValue at h
  split at h
  · next hg =>
    have hw := deepSet_written _ _ _ _ h
    exact ⟨0, .inr ⟨hg, rfl⟩, hw.same, fun _ => hw.other _⟩
  · next q hg =>
    have hw := deepSet_written _ _ _ _ h
    exact ⟨q, .inl hg, hw.same, fun _ => hw.other _⟩
  · simp at h

theorem C47_increment_again (d : Store) (key : String) (q v : ℚ) (h : deepGet d (split key) = some (.num q)) :
    ∃ d', incrementValue d key v = .ok d' ∧ deepGet d' (split key) = some (.num (q + v)) := by
  have hok : ∃ d', deepSet d (split key) (.num (q + v)) = .ok d' := by
    refine deepSet_ok _ _ _ (split_ne_nil key) ?_
    rintro p ⟨t, ht⟩ hne
    cases t with
    | nil => exact absurd (by simpa using ht) hne
    | cons a t =>
      cases hg : deepGet d p with
      | none => exact .inl rfl
      | some x =>
        cases x with
        | node c => exact .inr ⟨_, rfl⟩
        | num c => have := deepGet_append_leaf p d _ hg (by simp) a t; rw [ht, h] at this; simp at this
        | text c => have := deepGet_append_leaf p d _ hg (by simp) a t; rw [ht, h] at this; simp at this
  obtain ⟨d', hd⟩ := hok
  exact ⟨d', by simp [incrementValue, h, hd], (deepSet_written _ _ _ _ hd).same⟩

example : ∃ d d', setValue [] "jobs.done" 3 = .ok d ∧ incrementValue d "jobs.done" 2 = .ok d' ∧
    deepGet d' (split "jobs.done") = some (.num 5) := by
  have hs : split "jobs.done" = ["jobs", "done"] := by decide +kernel
  refine ⟨[("jobs", .node [("done", .num 3)])], [("jobs", .node [("done", .num 5)])], ?_, ?_, ?_⟩
  · simp [setValue, hs, deepSet, Dict.get?, Dict.set]
  · simp [incrementValue, hs, deepSet, deepGet, Dict.get?, Dict.set]; norm_num
  · simp [hs, deepGet, Dict.get?]

/-- A statistic whose name begins with a name the keeper writes itself does not last: the next report has lost it. -/
theorem C47_reserved_refuted (s : Keeper) (hd : s.durations = []) (hq : s.queues = []) (hc : s.current = []) (v now : ℚ)
    (sizes : String → ℚ) :
    ∃ s₁ s₂ d, step s (.set "application.version" v) = (.ok none, s₁) ∧ step s₁ (.read now sizes) = (.ok (some d), s₂) ∧
      deepGet s₁.current ["application", "version"] = some (.num v) ∧ deepGet d ["application", "version"] = none := by
  have hs : split "application.version" = ["application", "version"] := by decide +kernel
  have h1 : step s (.set "application.version" v) =
      (.ok none, { s with current := [("application", .node [("version", .num v)])] }) := by
    simp [step, put, setValue, hs, deepSet, hc, Dict.get?, Dict.set]
  refine ⟨_, _, stamp { s with current := [("application", .node [("version", .num v)])] } now, h1,
    (show step _ (.read now sizes) = (_, (step { s with current := [("application", .node [("version", .num v)])] } (.read now sizes)).2) from
      Prod.ext ?_ rfl), ?_, ?_⟩
  · simp [step, update, hd, hq, percentileEntries, setAll]
  · simp [deepGet, Dict.get?]
  · simp [update, hd, hq, percentileEntries, setAll, stamp, Dict.set, deepGet, Dict.get?]

/-! ### C48 -/

/-- The state of a keeper between events. -/
structure Inv (R : List String) (s : Keeper) : Prop where
  good : Good R s.current
  routes : ∀ x ∈ s.durations, x.1 ∈ R
  nodup : (Dict.keys s.durations).Nodup
  queues : ∀ k ∈ s.queues, (split k).head? ≠ some "endpoint_data"

theorem inv_new (R : List String) (n i : String) (st gp : ℚ) (hl : Int) : Inv R (.new n i st gp hl) :=
  ⟨good_new R, by simp [Keeper.new], by simp [Keeper.new, Dict.keys], by simp [Keeper.new]⟩

theorem entries_all {R : List String} {s : Keeper} (h : Inv R s) (sizes : String → ℚ) :
    ∀ x ∈ percentileEntries s.durations ++ s.queues.map (fun k => (k, sizes k)), Entry R x := by
  intro x hx
  rcases List.mem_append.1 hx with hx | hx
  · exact entries_entry _ h.routes x hx
  · obtain ⟨k, hk, rfl⟩ := List.mem_map.1 hx
    exact .inr (h.queues k hk)

theorem update_inv {R : List String} (hR : NoClash R) {s : Keeper} (h : Inv R s) (now : ℚ) (sizes : String → ℚ) :
    Inv R (update s now sizes).2 ∧
      ∀ r ∈ R, field (update s now sizes).2.current r "call_count" = field s.current r "call_count" := by
  have := setAll_good hR _ (good_agree h.good (agree_stamp s now)) (entries_all h sizes)
  exact ⟨⟨this.1, h.routes, h.nodup, h.queues⟩, fun r hr => (this.2 r hr).trans (field_agree (agree_stamp s now) _ _)⟩

theorem count_increment {R : List String} (hR : NoClash R) {d : Store} (h : Good R d) {r : String} (hr : r ∈ R) (v : ℚ) :
    ∃ d', incrementValue d ("endpoint_data." ++ r ++ ".call_count") v = .ok d' ∧ Good R d' ∧
      ∀ r' ∈ R, countIn d' r' = countIn d r' + if r' = r then v else 0 := by
  have hf := good_field hR h hr (f := "call_count") (by decide)
  have hset : ∀ x : ℚ, ∃ d', deepSet d ("endpoint_data" :: (split r ++ ["call_count"])) (.num x) = .ok d' :=
    fun x => deepSet_ok _ _ _ (by simp) (good_above hR h hr)
  have hcount : ∀ (x : ℚ) d', deepSet d ("endpoint_data" :: (split r ++ ["call_count"])) (.num x) = .ok d' →
      ∀ r' ∈ R, countIn d' r' = if r' = r then x else countIn d r' := by
    intro x d' hd r' hr'
    rw [countIn_eq, field_deepSet hR hr (by decide) hd hr' (by decide), countIn_eq d]
    by_cases e : r' = r
    · simp [e]
    · simp [e]
  unfold incrementValue
  rw [split_count]
  rcases hf with hg | ⟨q, hg⟩
  · rw [hg]
    obtain ⟨d', hd⟩ := hset (0 + v)
    refine ⟨d', hd, good_deepSet h hr (by decide) hd, fun r' hr' => ?_⟩
    rw [hcount _ _ hd r' hr']
    by_cases e : r' = r
    · have : countIn d r = 0 := by rw [countIn_eq, field, hg]
      simp [e, this]
    · simp [e]
  · rw [hg]
    obtain ⟨d', hd⟩ := hset (q + v)
    refine ⟨d', hd, good_deepSet h hr (by decide) hd, fun r' hr' => ?_⟩
    rw [hcount _ _ hd r' hr']
    by_cases e : r' = r
    · have : countIn d r = q := by rw [countIn_eq, field, hg]
      simp [e, this]
    · simp [e]

/-- The calls one event reports for a gathered period. -/
def reportedBy (r : String) (x : Ev × Except PyErr (Option Store)) : ℚ := ((gathered [x]).map (countIn · r)).sum

theorem gathered_cons (x : Ev × Except PyErr (Option Store)) (xs) : gathered (x :: xs) = gathered [x] ++ gathered xs := by
  obtain ⟨e, r⟩ := x
  cases e <;> rcases r with e | (_ | d) <;> simp [gathered]

theorem gathered_single (x : Ev × Except PyErr (Option Store)) : gathered [x] = [] ∨ ∃ d, gathered [x] = [d] := by
  obtain ⟨e, r⟩ := x
  cases e <;> rcases r with e | (_ | d) <;> simp [gathered]

theorem countIn_reset {R : List String} {d : Store} (h : Good R d) (r : String) : countIn (resetStore d) r = 0 := by
  rw [countIn_eq, field, deepGet_reset]
  cases hg : deepGet d ("endpoint_data" :: (split r ++ ["call_count"])) with
  | none => rfl
  | some x =>
    cases x with
    | num q => rfl
    | text q => exact absurd hg (h.text _ _)
    | node c => simp [Stat.reset]

theorem step_inv {R : List String} (hR : NoClash R) {s : Keeper} (h : Inv R s) (e : Ev) (ha : Apart e)
    (hr : ∀ r ∈ routes [e], r ∈ R) :
    Inv R (step s e).2 ∧ ∀ r ∈ R,
      reportedBy r (e, (step s e).1) + countIn (step s e).2.current r = countIn s.current r + (calls r [e] : ℚ) := by
  cases e with
  | track r =>
    obtain ⟨d', hd, hg, hc⟩ := count_increment hR h.good (hr r (.head _)) 0
    simp only [step, hd]
    refine ⟨⟨hg, ?_, Dict.nodup_keys_set _ _ _ h.nodup, h.queues⟩, ?_⟩
    · intro x hx
      have hx' : x.1 ∈ Dict.keys (Dict.set s.durations r []) := List.mem_map.2 ⟨x, hx, rfl⟩
      rw [← Dict.has_iff] at hx'
      by_cases e : r = x.1
      · rw [← e]; exact hr r (.head _)
      · simp only [Dict.has, Dict.get?_set, e, if_false] at hx'
        rw [show (Dict.get? s.durations x.1).isSome = Dict.has s.durations x.1 from rfl, Dict.has_iff] at hx'
        obtain ⟨y, hy, hyx⟩ := List.mem_map.1 hx'
        rw [← hyx]; exact h.routes y hy
    · intro r' hr'
      have := hc r' hr'
      simp [reportedBy, gathered, calls, this]
  | call r x =>
    obtain ⟨d', hd, hg, hc⟩ := count_increment hR h.good (hr r (.head _)) 1
    have hcalls : ∀ r' : String, ((calls r' [.call r x] : Nat) : ℚ) = if r' = r then 1 else 0 := by
      intro r'
      by_cases e : r = r'
      · simp [calls, e]
      · simp [calls, e, Ne.symm e]
    simp only [step, hd]
    cases hds : Dict.get? s.durations r with
    | some ds =>
      refine ⟨⟨hg, ?_, Dict.nodup_keys_set _ _ _ h.nodup, h.queues⟩, ?_⟩
      · intro y hy
        have hm : r ∈ Dict.keys s.durations := by rw [← Dict.has_iff]; simp [Dict.has, hds]
        have hy' : y.1 ∈ Dict.keys (Dict.set s.durations r (ds ++ [x])) := List.mem_map.2 ⟨y, hy, rfl⟩
        rw [Dict.keys_set_of_mem _ _ _ hm] at hy'
        obtain ⟨z, hz, hzy⟩ := List.mem_map.1 hy'
        rw [← hzy]; exact h.routes z hz
      · intro r' hr'
        rw [hcalls, ← hc r' hr']; simp [reportedBy, gathered]
    | none =>
      refine ⟨⟨hg, h.routes, h.nodup, h.queues⟩, ?_⟩
      intro r' hr'
      rw [hcalls, ← hc r' hr']; simp [reportedBy, gathered]
  | set k v =>
    simp only [step]
    cases hs : setValue s.current k v with
    | error e => exact ⟨h, by intro r _; simp [put, reportedBy, gathered, calls]⟩
    | ok d' =>
      have hag := agree_deepSet ha hs
      refine ⟨⟨good_agree h.good hag, h.routes, h.nodup, h.queues⟩, fun r _ => ?_⟩
      have := field_agree hag r "call_count"
      simp [put, reportedBy, gathered, calls, countIn_eq, this]
  | increment k v =>
    simp only [step]
    cases hs : incrementValue s.current k v with
    | error e => exact ⟨h, by intro r _; simp [put, reportedBy, gathered, calls]⟩
    | ok d' =>
      have hag : Agree s.current d' := by
        unfold incrementValue at hs
        split at hs
        · exact agree_deepSet ha hs
        · exact agree_deepSet ha hs
        · simp at hs
      refine ⟨⟨good_agree h.good hag, h.routes, h.nodup, h.queues⟩, fun r _ => ?_⟩
      have := field_agree hag r "call_count"
      simp [put, reportedBy, gathered, calls, countIn_eq, this]
  | addQueue k =>
    refine ⟨⟨h.good, h.routes, h.nodup, ?_⟩, by intro r _; simp [step, reportedBy, gathered, calls]⟩
    intro k' hk'
    simp only [step] at hk'
    split at hk'
    · exact h.queues _ hk'
    · rcases List.mem_append.1 hk' with hk' | hk'
      · exact h.queues _ hk'
      · rw [List.mem_singleton.1 hk']; exact ha
  | read now sizes =>
    have hu := update_inv hR h now sizes
    simp only [step]
    rcases hx : update s now sizes with ⟨r, s'⟩
    rw [hx] at hu
    cases r <;>
    · refine ⟨hu.1, fun r hr => ?_⟩
      have := hu.2 r hr
      simp only at this
      simp [reportedBy, gathered, calls, countIn_eq, this]
  | gather now sizes =>
    have hu := update_inv hR h now sizes
    simp only [step]
    rcases hx : update s now sizes with ⟨r, s'⟩
    rw [hx] at hu
    cases r with
    | error e =>
      refine ⟨hu.1, fun r hr => ?_⟩
      have := hu.2 r hr
      simp only at this
      simp [reportedBy, gathered, calls, countIn_eq, this]
    | ok _ =>
      refine ⟨⟨good_reset hu.1.good, ?_, ?_, hu.1.queues⟩, fun r hr => ?_⟩
      · intro x hx
        obtain ⟨y, hy, rfl⟩ := List.mem_map.1 hx
        exact hu.1.routes y hy
      · have e : Dict.keys (s'.durations.map fun x => (x.1, ([] : List ℚ))) = Dict.keys s'.durations := by
          simp [Dict.keys]
        simp only
        rw [e]; exact hu.1.nodup
      · have := hu.2 r hr
        simp only at this
        simp only [reportedBy, gathered, calls]
        rw [countIn_reset hu.1.good]
        simp [countIn_eq, this]
  | setLength n => exact ⟨⟨h.good, h.routes, h.nodup, h.queues⟩, by intro r _; simp [step, reportedBy, gathered, calls]⟩

theorem routes_cons (e : Ev) (es : List Ev) : routes (e :: es) = routes [e] ++ routes es := by
  cases e <;> simp [routes]

theorem calls_cons (r : String) (e : Ev) (es : List Ev) : calls r (e :: es) = calls r [e] + calls r es := by
  cases e <;> simp [calls]

theorem run_inv {R : List String} (hR : NoClash R) (es : List Ev) : ∀ {s : Keeper}, Inv R s → (∀ e ∈ es, Apart e) →
    (∀ r ∈ routes es, r ∈ R) → Inv R (run s es) ∧ ∀ r ∈ R,
      ((gathered (trace s es)).map (countIn · r)).sum + countIn (run s es).current r = countIn s.current r + (calls r es : ℚ) := by
  induction es with
  | nil => intro s h _ _; exact ⟨h, fun r _ => by simp [trace, gathered, run, calls]⟩
  | cons e es ih =>
    intro s h ha hr
    rw [routes_cons] at hr
    have h1 := step_inv hR h e (ha e (.head _)) (fun r h => hr r (List.mem_append_left _ h))
    have h2 := ih h1.1 (fun e' h => ha e' (.tail _ h)) (fun r h => hr r (List.mem_append_right _ h))
    refine ⟨h2.1, fun r hrR => ?_⟩
    have e1 := h1.2 r hrR
    have e2 := h2.2 r hrR
    simp only [trace, run]
    rw [gathered_cons, calls_cons]
    simp only [List.map_append, List.sum_append, Nat.cast_add]
    unfold reportedBy at e1
    linarith

/-- **C48.** Whatever is registered, called, set, read and gathered in whatever order: for every endpoint the calls of all
gathered periods plus those of the current one are the calls made. Assumed: the application leaves `endpoint_data` alone, and no
route extends another one by the name of a statistic. -/
theorem C48_calls_partial (n i : String) (st gp : ℚ) (hl : Int) (es : List Ev) (ha : ∀ e ∈ es, Apart e)
    (hR : NoClash (routes es)) (r : String) (hr : r ∈ routes es) :
    ((gathered (trace (.new n i st gp hl) es)).map (countIn · r)).sum + countIn (run (.new n i st gp hl) es).current r = calls r es := by
  have := (run_inv hR es (inv_new _ n i st gp hl) ha (fun r h => h)).2 r hr
  rw [this]
  simp [countIn, Keeper.new, split_count, deepGet, Dict.get?]

/-- **C48, calls succeed.** Under the same assumptions counting a call of a registered endpoint never raises. -/
theorem C48_counted_partial (n i : String) (st gp : ℚ) (hl : Int) (es : List Ev) (ha : ∀ e ∈ es, Apart e)
    (hR : NoClash (routes es)) (r : String) (hr : r ∈ Dict.keys (run (.new n i st gp hl) es).durations) (x : ℚ) :
    (step (run (.new n i st gp hl) es) (.call r x)).1 = .ok none := by
  have h := (run_inv hR es (inv_new _ n i st gp hl) ha (fun r h => h)).1
  obtain ⟨y, hy, rfl⟩ := List.mem_map.1 hr
  obtain ⟨d', hd, _⟩ := count_increment hR h.good (h.routes y hy) 1
  rw [← Dict.has_iff] at hr
  obtain ⟨ds, hds⟩ := Option.isSome_iff_exists.1 hr
  simp [step, hd, hds]

theorem count_increment_listed {R : List String} (hR : NoClash R) {d d' : Store} {r : String} (hr : r ∈ R) {v : ℚ}
    (hd : incrementValue d ("endpoint_data." ++ r ++ ".call_count") v = .ok d') {T : List String} (hT : ∀ r' ∈ T, r' ∈ R)
    (h : ∀ r' ∈ T, ∃ q, field d r' "call_count" = some (.num q)) :
    ∀ r' ∈ r :: T, ∃ q, field d' r' "call_count" = some (.num q) := by
  have key : ∀ x : ℚ, deepSet d ("endpoint_data" :: (split r ++ ["call_count"])) (.num x) = .ok d' →
      ∀ r' ∈ r :: T, ∃ q, field d' r' "call_count" = some (.num q) := by
    intro x hx r' hr'
    have hr'R : r' ∈ R := by
      rcases List.mem_cons.1 hr' with rfl | h'
      · exact hr
      · exact hT _ h'
    rw [field_deepSet hR hr (by decide) hx hr'R (by decide)]
    by_cases e : r' = r
    · exact ⟨x, by simp [e]⟩
    · simp only [e, false_and, if_false]
      exact h r' ((List.mem_cons.1 hr').resolve_left e)
  unfold incrementValue at hd
  rw [split_count] at hd
  split at hd
  · exact key _ hd
  · exact key _ hd
  · simp at hd

theorem step_listed {R : List String} (hR : NoClash R) {s : Keeper} (h : Inv R s) (e : Ev) (ha : Apart e)
    (hr : ∀ r ∈ routes [e], r ∈ R) {T : List String} (hT : ∀ r ∈ T, r ∈ R)
    (hl : ∀ r ∈ T, ∃ q, field s.current r "call_count" = some (.num q)) :
    ∀ r ∈ routes [e] ++ T, ∃ q, field (step s e).2.current r "call_count" = some (.num q) := by
  cases e with
  | track r =>
    obtain ⟨d', hd, -, -⟩ := count_increment hR h.good (hr r (.head _)) 0
    simp only [step, hd]
    exact count_increment_listed hR (hr r (.head _)) hd hT hl
  | call r x =>
    obtain ⟨d', hd, -, -⟩ := count_increment hR h.good (hr r (.head _)) 1
    simp only [step, hd]
    have := count_increment_listed hR (hr r (.head _)) hd hT hl
    cases hds : Dict.get? s.durations r <;> exact this
  | set k v =>
    simp only [step]
    cases hs : setValue s.current k v with
    | error e => exact hl
    | ok d' =>
      intro r hr'
      have := field_agree (agree_deepSet ha hs) r "call_count"
      simp only [put]
      rw [this]; exact hl r hr'
  | increment k v =>
    simp only [step]
    cases hs : incrementValue s.current k v with
    | error e => exact hl
    | ok d' =>
      have hag : Agree s.current d' := by
        unfold incrementValue at hs
        split at hs
        · exact agree_deepSet ha hs
        · exact agree_deepSet ha hs
        · simp at hs
      intro r hr'
      simp only [put]
      rw [field_agree hag r "call_count"]; exact hl r hr'
  | addQueue k => exact hl
  | read now sizes =>
    have hu := update_inv hR h now sizes
    simp only [step]
    rcases hx : update s now sizes with ⟨r, s'⟩
    rw [hx] at hu
    cases r <;>
    · intro r hr'
      have := hu.2 r (hT r hr')
      simp only at this ⊢
      rw [this]; exact hl r hr'
  | gather now sizes =>
    have hu := update_inv hR h now sizes
    simp only [step]
    rcases hx : update s now sizes with ⟨r, s'⟩
    rw [hx] at hu
    cases r with
    | error e =>
      intro r hr'
      have := hu.2 r (hT r hr')
      simp only at this ⊢
      rw [this]; exact hl r hr'
    | ok _ =>
      intro r hr'
      have := hu.2 r (hT r hr')
      obtain ⟨q, hq⟩ := hl r hr'
      rw [hq] at this
      refine ⟨0, ?_⟩
      unfold field at this ⊢
      simp only at this ⊢
      rw [deepGet_reset, this]
      rfl
  | setLength n => exact hl

theorem run_listed {R : List String} (hR : NoClash R) (es : List Ev) : ∀ {s : Keeper}, Inv R s → (∀ e ∈ es, Apart e) →
    (∀ r ∈ routes es, r ∈ R) → ∀ {T : List String}, (∀ r ∈ T, r ∈ R) →
    (∀ r ∈ T, ∃ q, field s.current r "call_count" = some (.num q)) →
    ∀ r, r ∈ routes es ∨ r ∈ T → ∃ q, field (run s es).current r "call_count" = some (.num q) := by
  induction es with
  | nil => intro s _ _ _ T _ hl r hr; exact hl r (by simpa [routes] using hr)
  | cons e es ih =>
    intro s h ha hr T hT hl r hrT
    rw [routes_cons] at hr hrT
    have he := fun r h => hr r (List.mem_append_left (routes es) h)
    have h1 := step_listed hR h e (ha e (.head _)) he hT hl
    refine ih (step_inv hR h e (ha e (.head _)) he).1 (fun e' h => ha e' (.tail _ h)) (fun r h => hr r (List.mem_append_right _ h))
      (T := routes [e] ++ T) ?_ h1 r ?_
    · intro r' hr'
      rcases List.mem_append.1 hr' with h' | h'
      · exact he r' h'
      · exact hT r' h'
    · rcases hrT with h' | h'
      · rcases List.mem_append.1 h' with h' | h'
        · exact .inr (List.mem_append_left _ h')
        · exact .inl h'
      · exact .inr (List.mem_append_right _ h')

/-- **C48, listed.** Under the same assumptions every endpoint that was ever registered or called is listed, with its number of calls, in
every report: endpoints that were not called in a period are listed with 0, they do not disappear. -/
theorem C48_listed_partial (n i : String) (st gp : ℚ) (hl : Int) (es : List Ev) (ha : ∀ e ∈ es, Apart e)
    (hR : NoClash (routes es)) (r : String) (hr : r ∈ routes es) (now : ℚ) (sizes : String → ℚ) (e : Ev)
    (he : e = .read now sizes ∨ e = .gather now sizes) (d : Store) (hd : (step (run (.new n i st gp hl) es) e).1 = .ok (some d)) :
    deepGet d (split ("endpoint_data." ++ r ++ ".call_count")) = some (.num (countIn d r)) ∧
      countIn d r = countIn (run (.new n i st gp hl) es).current r := by
  have h := (run_inv hR es (inv_new _ n i st gp hl) ha (fun r h => h)).1
  obtain ⟨q, hq⟩ := run_listed hR es (inv_new _ n i st gp hl) ha (fun r h => h) (T := []) (by simp) (by simp) r (.inl hr)
  have hu := (update_inv hR h now sizes).2 r hr
  have hc : (update (run (.new n i st gp hl) es) now sizes).2.current = d := by
    rcases he with rfl | rfl <;> simp only [step] at hd <;>
    · rcases hx : update (run (.new n i st gp hl) es) now sizes with ⟨res, s'⟩
      rw [hx] at hd
      cases res with
      | error e => simp at hd
      | ok u => simpa using hd
  rw [hc, hq] at hu
  rw [split_count]
  have h1 : countIn d r = q := by rw [countIn_eq, hu]
  have h2 : countIn (run (.new n i st gp hl) es).current r = q := by rw [countIn_eq, hq]
  rw [h1, h2]
  exact ⟨hu, rfl⟩

/-- Two endpoints, calls, two gatherings. -/
def exDay (sizes : String → ℚ) : List Ev :=
  [.track "app.users.get", .track "app.users", .call "app.users" 1, .call "app.users.get" 2, .gather 300 sizes, .call "app.users" 4,
    .increment "jobs" 2, .read 310 sizes, .gather 600 sizes, .call "app.users" 1]

theorem exDay_apart (sizes : String → ℚ) : (∀ e ∈ exDay sizes, Apart e) ∧ NoClash (routes (exDay sizes)) := by
  constructor
  · have hj : (split "jobs").head? ≠ some "endpoint_data" := by decide +kernel
    intro e he
    simp only [exDay, List.mem_cons, List.not_mem_nil, or_false] at he
    rcases he with rfl | rfl | rfl | rfl | rfl | rfl | rfl | rfl | rfl | rfl <;> first | exact hj | trivial
  · have h1 : split "app.users.get" = ["app", "users", "get"] := by decide +kernel
    have h2 : split "app.users" = ["app", "users"] := by decide +kernel
    intro r hr r' hr' x hx
    simp only [exDay, routes, List.mem_cons, List.not_mem_nil, or_false] at hr hr'
    simp only [fields, List.mem_cons, List.not_mem_nil, or_false] at hx
    rcases hr with rfl | rfl | rfl | rfl | rfl | rfl <;> rcases hr' with rfl | rfl | rfl | rfl | rfl | rfl <;>
      simp only [h1, h2, List.cons_append, List.nil_append] <;>
      rcases hx with rfl | rfl | rfl <;> decide

example (sizes : String → ℚ) :
    ((gathered (trace (.new "app" "0" 0 300 12) (exDay sizes))).map (countIn · "app.users")).sum +
      countIn (run (.new "app" "0" 0 300 12) (exDay sizes)).current "app.users" = 3 := by
  rw [C48_calls_partial _ _ _ _ _ _ (exDay_apart sizes).1 (exDay_apart sizes).2 _ (by simp [exDay, routes])]
  simp only [exDay, calls]
  rw [if_neg (by decide : ¬ "app.users.get" = "app.users")]
  norm_num

/-- Endpoints "a" and "a.p95": the first reading writes the percentile of "a" over the statistics of "a.p95" and raises; the calls
of "a.p95" are forgotten, and counting its next call raises, so that the request is answered with an error. -/
theorem C48_clash_refuted (n i : String) (st gp now : ℚ) (hl : Int) (sizes : String → ℚ) :
    let s := run (.new n i st gp hl) [.track "a", .track "a.p95", .call "a.p95" 1]
    let s' := (step s (.gather now sizes)).2
    countIn s.current "a.p95" = 1 ∧ (step s (.gather now sizes)).1 = .error .typeError ∧ countIn s'.current "a.p95" = 0 ∧
      (step s' (.call "a.p95" 1)).1 = .error .typeError := by
  have e1 : split "endpoint_data.a.call_count" = ["endpoint_data", "a", "call_count"] := by decide +kernel
  have e2 : split "endpoint_data.a.p95.call_count" = ["endpoint_data", "a", "p95", "call_count"] := by decide +kernel
  have e3 : split "endpoint_data.a.p95" = ["endpoint_data", "a", "p95"] := by decide +kernel
  have e4 : split "endpoint_data.a.p99" = ["endpoint_data", "a", "p99"] := by decide +kernel
  have e5 : split "endpoint_data.a.p95.p95" = ["endpoint_data", "a", "p95", "p95"] := by decide +kernel
  have h : run (.new n i st gp hl) [.track "a", .track "a.p95", .call "a.p95" 1] =
      { Keeper.new n i st gp hl with
        current := [("endpoint_data", .node [("a", .node [("call_count", .num 0), ("p95", .node [("call_count", .num 1)])])])],
        durations := [("a", []), ("a.p95", [1])] } := by
    simp [run, step, Keeper.new, incrementValue, e1, e2, deepGet, deepSet, Dict.get?, Dict.set]
  intro s s'
  have hs1 : s = _ := h
  have hu : step s (.gather now sizes) = (.error .typeError, { s with
      current := [("endpoint_data", .node [("a", .node [("call_count", .num 0), ("p95", .num (-1)), ("p99", .num (-1))])]),
        ("timestamp", .num now), ("uptime", .num (now - st)), ("gather_period", .num gp),
        ("application", .node [("name", .text n), ("instance", .text i)])] }) := by
    rw [hs1]
    simp [step, update, stamp, Keeper.new, percentileEntries, setAll, setValue, e3, e4, e5, deepSet, Dict.get?,
      Dict.set, percentiles]
  have hs2 : s' = _ := congrArg Prod.snd hu
  refine ⟨?_, by rw [hu], ?_, ?_⟩
  · rw [hs1]; simp [countIn, e2, deepGet, Dict.get?]
  · rw [hs2]; simp [countIn, e2, deepGet, Dict.get?]
  · rw [hs2]; simp [step, incrementValue, e2, deepGet, deepSet, Dict.get?]

/-! The percentiles of a period -/

theorem setAll_hit {R : List String} (hR : NoClash R) {r f key : String} {v : ℚ} (hr : r ∈ R) (hf : f = "p95" ∨ f = "p99")
    (hk : split key = "endpoint_data" :: (split r ++ [f])) (es : List (String × ℚ)) : ∀ {d d' : Store},
    (∀ x ∈ es, Entry R x) → setAll d es = (.ok (), d') → (key, v) ∈ es → (∀ v', (key, v') ∈ es → v' = v) →
    field d' r f = some (.num v) := by
  have hff : f ∈ fields := by rcases hf with rfl | rfl <;> decide
  have hkey : key = "endpoint_data." ++ r ++ "." ++ f := by
    apply split_injective
    rw [hk]
    rcases hf with rfl | rfl
    · have := split_p95 r; rw [← this]; congr 1; apply String.toList_inj.1; simp
    · have := split_p99 r; rw [← this]; congr 1; apply String.toList_inj.1; simp
  induction es with
  | nil => intro d d' _ _ h; simp at h
  | cons x es ih =>
    intro d d' he h hm hu
    obtain ⟨k, w⟩ := x
    simp only [setAll, setValue] at h
    cases hs : deepSet d (split k) (.num w) with
    | error e => rw [hs] at h; simp at h
    | ok d1 =>
      rw [hs] at h
      simp only at h
      by_cases htail : (key, v) ∈ es
      · exact ih (fun x hx => he x (.tail _ hx)) h htail (fun v' hv' => hu v' (.tail _ hv'))
      · have hhead : k = key ∧ w = v := by
          rcases List.mem_cons.1 hm with e | e
          · injection e with e1 e2; exact ⟨e1.symm, e2.symm⟩
          · exact absurd e htail
        obtain ⟨rfl, rfl⟩ := hhead
        rw [setAll_ok_field hR es (fun x hx => he x (.tail _ hx)) h hr hf]
        · rw [hk] at hs
          rw [field_deepSet hR hr hff hs hr hff, if_pos ⟨rfl, rfl⟩]
        · intro v' hv'
          rw [← hkey] at hv'
          have := hu v' (.tail _ hv')
          subst this
          exact htail hv'

theorem mem_entries {ds : Dict String (List ℚ)} {k : String} {v : ℚ} (h : (k, v) ∈ percentileEntries ds) :
    ∃ r l, (r, l) ∈ ds ∧ ((k = "endpoint_data." ++ r ++ ".p95" ∧ v = (percentiles l).1) ∨
      (k = "endpoint_data." ++ r ++ ".p99" ∧ v = (percentiles l).2)) := by
  induction ds with
  | nil => simp [percentileEntries] at h
  | cons a ds ih =>
    obtain ⟨r, l⟩ := a
    simp only [percentileEntries, List.mem_cons, Prod.mk.injEq] at h
    rcases h with h | h | h
    · exact ⟨r, l, .head _, .inl h⟩
    · exact ⟨r, l, .head _, .inr h⟩
    · obtain ⟨r', l', h1, h2⟩ := ih h
      exact ⟨r', l', .tail _ h1, h2⟩

theorem entries_mem {ds : Dict String (List ℚ)} {r : String} {l : List ℚ} (h : (r, l) ∈ ds) :
    ("endpoint_data." ++ r ++ ".p95", (percentiles l).1) ∈ percentileEntries ds ∧
    ("endpoint_data." ++ r ++ ".p99", (percentiles l).2) ∈ percentileEntries ds := by
  induction ds with
  | nil => simp at h
  | cons a ds ih =>
    obtain ⟨r', l'⟩ := a
    rcases List.mem_cons.1 h with e | e
    · injection e with e1 e2
      subst e1 e2
      exact ⟨.head _, .tail _ (.head _)⟩
    · exact ⟨.tail _ (.tail _ (ih e).1), .tail _ (.tail _ (ih e).2)⟩

theorem update_percentiles {R : List String} (hR : NoClash R) {s s' : Keeper} (h : Inv R s) {now : ℚ} {sizes : String → ℚ}
    (hu : update s now sizes = (.ok (), s')) {r : String} {l : List ℚ} (hl : Dict.get? s.durations r = some l) :
    field s'.current r "p95" = some (.num (percentiles l).1) ∧ field s'.current r "p99" = some (.num (percentiles l).2) := by
  have hm := Dict.get?_mem _ _ _ hl
  have hr := h.routes _ hm
  have hent := entries_all h sizes
  have hcur : setAll (stamp s now) (percentileEntries s.durations ++ s.queues.map fun k => (k, sizes k)) = (.ok (), s'.current) := by
    simp only [update] at hu
    injection hu with h1 h2
    rw [← h2, ← h1]
  have huniq : ∀ {f key : String} {v : ℚ}, split key = "endpoint_data" :: (split r ++ [f]) →
      (f = "p95" ∧ v = (percentiles l).1 ∨ f = "p99" ∧ v = (percentiles l).2) →
      ∀ v', (key, v') ∈ percentileEntries s.durations ++ s.queues.map (fun k => (k, sizes k)) → v' = v := by
    intro f key v hk hf v' hv'
    rcases List.mem_append.1 hv' with hv' | hv'
    · obtain ⟨r', l', hm', h2⟩ := mem_entries hv'
      have key2 : ∀ {f'}, split key = "endpoint_data" :: (split r' ++ [f']) → r' = r ∧ f' = f := by
        intro f' h'
        rw [hk] at h'
        have h3 := List.append_inj' (List.cons.inj h').2 rfl
        exact ⟨(split_injective h3.1).symm, by simpa using h3.2.symm⟩
      rcases h2 with ⟨rfl, rfl⟩ | ⟨rfl, rfl⟩
      · obtain ⟨rfl, rfl⟩ := key2 (split_p95 r')
        have := Dict.get?_of_mem _ _ _ h.nodup hm'
        rw [hl] at this
        injection this with this
        subst this
        rcases hf with ⟨_, rfl⟩ | ⟨hf, _⟩
        · rfl
        · exact absurd hf (by decide)
      · obtain ⟨rfl, rfl⟩ := key2 (split_p99 r')
        have := Dict.get?_of_mem _ _ _ h.nodup hm'
        rw [hl] at this
        injection this with this
        subst this
        rcases hf with ⟨hf, _⟩ | ⟨_, rfl⟩
        · exact absurd hf (by decide)
        · rfl
    · obtain ⟨k, hk', e⟩ := List.mem_map.1 hv'
      injection e with e1 e2
      subst e1
      exact absurd (by rw [hk]; rfl) (h.queues k hk')
  exact ⟨setAll_hit hR hr (.inl rfl) (split_p95 r) _ hent hcur (List.mem_append_left _ (entries_mem hm).1)
      (huniq (split_p95 r) (.inl ⟨rfl, rfl⟩)),
    setAll_hit hR hr (.inr rfl) (split_p99 r) _ hent hcur (List.mem_append_left _ (entries_mem hm).2)
      (huniq (split_p99 r) (.inr ⟨rfl, rfl⟩))⟩

theorem get?_map_nil (d : Dict String (List ℚ)) (r : String) :
    ((Dict.get? (d.map fun x => (x.1, ([] : List ℚ))) r).getD []) = [] := by
  induction d with
  | nil => rfl
  | cons a d ih =>
    simp only [List.map_cons, Dict.get?]
    split
    · rfl
    · exact ih

theorem since_cons (r : String) (ds : List ℚ) (x : Ev × Except PyErr (Option Store)) (xs) :
    since r ds (x :: xs) = since r (since r ds [x]) xs := by
  obtain ⟨e, res⟩ := x
  cases e <;> cases res <;> simp [since]

theorem step_durations (s : Keeper) (e : Ev) (r : String) :
    (Dict.get? (step s e).2.durations r).getD [] = since r ((Dict.get? s.durations r).getD []) [(e, (step s e).1)] := by
  cases e with
  | track r' =>
    simp only [step]
    split
    · simp only [since, Dict.get?_set]; split <;> rfl
    · rfl
  | call r' x =>
    simp only [step]
    split
    · split
      · next ds hds =>
        simp only [since, Dict.get?_set]
        split
        · next e => subst e; simp [hds]
        · rfl
      · rfl
    · rfl
  | set k v => simp only [step]; cases setValue s.current k v <;> rfl
  | increment k v => simp only [step]; cases incrementValue s.current k v <;> rfl
  | addQueue k => rfl
  | read now sizes =>
    simp only [step, update]
    split <;> (next h => injection h with h1 h2; subst h2; rfl)
  | gather now sizes =>
    simp only [step, update]
    split
    · next h => injection h with h1 h2; subst h2; simp only [since]; exact get?_map_nil _ _
    · next h => injection h with h1 h2; subst h2; rfl
  | setLength n => rfl

theorem run_durations (r : String) (es : List Ev) : ∀ (s : Keeper),
    (Dict.get? (run s es).durations r).getD [] = since r ((Dict.get? s.durations r).getD []) (trace s es) := by
  induction es with
  | nil => intro s; rfl
  | cons e es ih =>
    intro s
    simp only [run, trace]
    rw [since_cons, ← step_durations, ih]

/-- **C48, periods.** The percentiles reported for an endpoint are those of exactly the calls of the period reported. -/
theorem C48_percentiles_partial (n i : String) (st gp : ℚ) (hl : Int) (es : List Ev) (ha : ∀ e ∈ es, Apart e)
    (hR : NoClash (routes es)) (now : ℚ) (sizes : String → ℚ) (e : Ev) (he : e = .read now sizes ∨ e = .gather now sizes) (d : Store)
    (hd : (step (run (.new n i st gp hl) es) e).1 = .ok (some d)) (r : String)
    (hr : r ∈ Dict.keys (run (.new n i st gp hl) es).durations) :
    let ds := since r [] (trace (.new n i st gp hl) es)
    deepGet d (split ("endpoint_data." ++ r ++ ".p95")) = some (.num (percentiles ds).1) ∧
    deepGet d (split ("endpoint_data." ++ r ++ ".p99")) = some (.num (percentiles ds).2) := by
  intro ds
  have h := (run_inv hR es (inv_new _ n i st gp hl) ha (fun r h => h)).1
  rw [← Dict.has_iff] at hr
  obtain ⟨l, hl'⟩ := Option.isSome_iff_exists.1 hr
  have hds : l = ds := by
    have := run_durations r es (.new n i st gp hl)
    rw [hl'] at this
    exact this
  have hu : ∃ s', update (run (.new n i st gp hl) es) now sizes = (.ok (), s') ∧ s'.current = d := by
    rcases he with rfl | rfl <;> simp only [step] at hd <;>
    · rcases hx : update (run (.new n i st gp hl) es) now sizes with ⟨res, s'⟩
      rw [hx] at hd
      cases res with
      | error e => simp at hd
      | ok u => simp only [Except.ok.injEq, Option.some.injEq] at hd; exact ⟨s', rfl, hd⟩
  obtain ⟨s', hu, rfl⟩ := hu
  have := update_percentiles hR h hu hl'
  rw [split_p95, split_p99, ← hds]
  exact this

theorem setAll_succeeds {R : List String} (hR : NoClash R) (es : List (String × ℚ)) : ∀ {d : Store}, Good R d →
    (∀ x ∈ es, ∃ r ∈ R, ∃ f, (f = "p95" ∨ f = "p99") ∧ split x.1 = "endpoint_data" :: (split r ++ [f])) →
    (setAll d es).1 = .ok () := by
  induction es with
  | nil => intro d _ _; rfl
  | cons x es ih =>
    intro d h he
    obtain ⟨k, v⟩ := x
    obtain ⟨r, hr, f, hf, hk⟩ := he _ (.head _)
    have hff : f ∈ fields := by rcases hf with rfl | rfl <;> decide
    simp only at hk
    obtain ⟨d', hd⟩ := deepSet_ok ("endpoint_data" :: (split r ++ [f])) d (.num v) (by simp) (good_above hR h hr)
    simp only [setAll, setValue, hk, hd]
    exact ih (good_deepSet h hr hff hd) (fun x hx => he x (.tail _ hx))

/-- **C48, gathering succeeds.** Under the same assumptions gathering and reading never raise in an application without buffered
endpoints and senders, whose queue sizes are the only other statistics the keeper writes by name. -/
theorem C48_gather_partial (n i : String) (st gp : ℚ) (hl : Int) (es : List Ev) (ha : ∀ e ∈ es, Apart e)
    (hR : NoClash (routes es)) (hq : (run (.new n i st gp hl) es).queues = []) (now : ℚ) (sizes : String → ℚ) (e : Ev)
    (he : e = .read now sizes ∨ e = .gather now sizes) : ∃ d, (step (run (.new n i st gp hl) es) e).1 = .ok (some d) := by
  have h := (run_inv hR es (inv_new _ n i st gp hl) ha (fun r h => h)).1
  have hu : ∃ s', update (run (.new n i st gp hl) es) now sizes = (.ok (), s') := by
    have := setAll_succeeds hR (percentileEntries (run (.new n i st gp hl) es).durations)
      (good_agree h.good (agree_stamp _ now)) (by
        intro x hx
        obtain ⟨r, l, hm, h2⟩ := mem_entries (k := x.1) (v := x.2) hx
        rcases h2 with ⟨e, _⟩ | ⟨e, _⟩
        · exact ⟨r, h.routes _ hm, _, .inl rfl, by rw [e]; exact split_p95 r⟩
        · exact ⟨r, h.routes _ hm, _, .inr rfl, by rw [e]; exact split_p99 r⟩)
    refine ⟨_, Prod.ext ?_ rfl⟩
    simp only [update, hq, List.map_nil, List.append_nil]
    exact this
  obtain ⟨s', hu⟩ := hu
  rcases he with rfl | rfl <;> simp only [step, hu] <;> exact ⟨_, rfl⟩

theorem exDay_gather (sizes : String → ℚ) : ∃ d, (step (run (.new "app" "0" 0 300 12) (exDay sizes)) (.gather 900 sizes)).1 = .ok (some d) := by
  refine C48_gather_partial _ _ _ _ _ _ (exDay_apart sizes).1 (exDay_apart sizes).2 ?_ 900 sizes _ (.inr rfl)
  have hq : ∀ (es : List Ev) (s : Keeper), s.queues = [] → (∀ k, .addQueue k ∉ es) → (run s es).queues = [] := by
    intro es
    induction es with
    | nil => intro s h _; exact h
    | cons e es ih =>
      intro s h he
      refine ih _ ?_ (fun k hk => he k (.tail _ hk))
      cases e with
      | addQueue k => exact absurd (.head _) (he k)
      | track r => simp only [step]; split <;> exact h
      | call r x => simp only [step]; split <;> [split; skip] <;> exact h
      | set k v => simp only [step]; cases setValue s.current k v <;> exact h
      | increment k v => simp only [step]; cases incrementValue s.current k v <;> exact h
      | read now sizes => simp only [step, update]; split <;> (next h' => injection h' with h1 h2; subst h2; exact h)
      | gather now sizes => simp only [step, update]; split <;> (next h' => injection h' with h1 h2; subst h2; exact h)
      | setLength n => exact h
  exact hq _ _ rfl (by simp [exDay])

example (sizes : String → ℚ) : ∃ d, (step (run (.new "app" "0" 0 300 12) (exDay sizes)) (.gather 900 sizes)).1 = .ok (some d) ∧
    deepGet d (split ("endpoint_data." ++ "app.users.get" ++ ".call_count")) = some (.num (countIn d "app.users.get")) := by
  obtain ⟨d, hd⟩ := exDay_gather sizes
  exact ⟨d, hd, (C48_listed_partial _ _ _ _ _ _ (exDay_apart sizes).1 (exDay_apart sizes).2 "app.users.get" (by simp [exDay, routes]) 900
    sizes _ (.inr rfl) d hd).1⟩

/-! ### C49 -/

theorem trace_append (s : Keeper) (es fs : List Ev) : trace s (es ++ fs) = trace s es ++ trace (run s es) fs := by
  induction es generalizing s with
  | nil => rfl
  | cons e es ih => simp [trace, run, ih]

/-- What one event does to the history. -/
theorem step_history (s : Keeper) (e : Ev) : (step s e).2.history =
    match gathered [(e, (step s e).1)] with
    | d :: _ => remember s.history s.historyLength d
    | [] => s.history := by
  cases e with
  | track r => simp only [step, gathered]; split <;> rfl
  | call r x =>
    simp only [step, gathered]
    split
    · split <;> rfl
    · rfl
  | set k v => simp only [step, gathered]; cases setValue s.current k v <;> rfl
  | increment k v => simp only [step, gathered]; cases incrementValue s.current k v <;> rfl
  | addQueue k => rfl
  | read now sizes =>
    simp only [step, gathered, update]
    split <;> (next h => injection h with h1 h2; subst h2; rfl)
  | gather now sizes =>
    simp only [step]
    rcases hx : update s now sizes with ⟨r, s'⟩
    have hh : s'.history = s.history ∧ s'.historyLength = s.historyLength := by
      simp only [update] at hx; injection hx with h1 h2; subst h2; exact ⟨rfl, rfl⟩
    cases r with
    | error e => simp [gathered, hh]
    | ok _ => simp [gathered, hh]
  | setLength n => rfl

theorem step_length (s : Keeper) (e : Ev) (he : ∀ n, e ≠ .setLength n) : (step s e).2.historyLength = s.historyLength := by
  cases e with
  | track r => simp only [step]; split <;> rfl
  | call r x => simp only [step]; split <;> [split; skip] <;> rfl
  | set k v => simp only [step]; cases setValue s.current k v <;> rfl
  | increment k v => simp only [step]; cases incrementValue s.current k v <;> rfl
  | addQueue k => rfl
  | read now sizes =>
    simp only [step, update]
    split <;> (next h => injection h with h1 h2; subst h2; rfl)
  | gather now sizes =>
    simp only [step, update]
    split <;> (next h => injection h with h1 h2; subst h2; rfl)
  | setLength n => exact absurd rfl (he n)

theorem remember_take (l : List Store) (limit : Int) (d : Store) :
    remember (l.take limit.toNat) limit d = (d :: l).take limit.toNat := by
  unfold remember
  simp only [List.length_cons, List.length_take]
  obtain ⟨k, hk⟩ | hk := Int.le_total 0 limit |>.imp (fun h => Int.eq_ofNat_of_zero_le h) id
  · subst hk
    simp only [Int.toNat_natCast]
    cases k with
    | zero => simp
    | succ k =>
      split
      · next h =>
        have h1 : k + 1 ≤ l.length := by
          rcases Nat.lt_or_ge l.length (k + 1) with h2 | h2
          · rw [Nat.min_eq_right (by omega)] at h; push_cast at h; omega
          · exact h2
        have : (d :: l.take (k + 1)) = (d :: l).take (k + 2) := rfl
        rw [this, List.dropLast_eq_take, List.take_take]
        congr 1
        simp; omega
      · next h =>
        have h1 : l.length ≤ k := by
          rcases Nat.lt_or_ge k l.length with h2 | h2
          · rw [Nat.min_eq_left (by omega)] at h; omega
          · exact h2
        simp only [List.take_succ_cons]
        rw [List.take_of_length_le (by omega), List.take_of_length_le (by omega)]
  · have : limit.toNat = 0 := by omega
    simp [this]
    omega

/-- **C49.** As long as the history length is not changed, the history holds the `history_length` most recent gathered periods,
or all of them if there are fewer, newest first. -/
theorem C49_history_partial (n i : String) (st gp : ℚ) (hl : Int) (es : List Ev) (he : ∀ m, .setLength m ∉ es) :
    (run (.new n i st gp hl) es).history = (gathered (trace (.new n i st gp hl) es)).reverse.take hl.toNat := by
  have key : ∀ (es : List Ev) (s : Keeper) (g : List Store), (∀ m, .setLength m ∉ es) → s.history = g.reverse.take s.historyLength.toNat →
      (run s es).history = (g ++ gathered (trace s es)).reverse.take s.historyLength.toNat := by
    intro es
    induction es with
    | nil => intro s g _ h; simpa [run, trace, gathered] using h
    | cons e es ih =>
      intro s g he h
      have hl := step_length s e (fun n h => he n (h ▸ .head _))
      have hh := step_history s e
      simp only [run, trace]
      rw [gathered_cons]
      have : (step s e).2.history = (g ++ gathered [(e, (step s e).1)]).reverse.take (step s e).2.historyLength.toNat := by
        rw [hh, hl]
        rcases hg : gathered [(e, (step s e).1)] with _ | ⟨d, t⟩
        · simpa using h
        · have ht : t = [] := by
            rcases gathered_single (e, (step s e).1) with h' | ⟨d', h'⟩ <;> rw [h'] at hg <;> simp at hg
            exact hg.2
          subst ht
          simp only [List.reverse_append, List.reverse_cons, List.reverse_nil, List.nil_append, List.cons_append]
          rw [h, remember_take]
      rw [ih _ _ (fun m hm => he m (.tail _ hm)) this, hl, List.append_assoc]
  have := key es (.new n i st gp hl) [] he (by simp [Keeper.new])
  rw [List.nil_append] at this
  exact this

example (sizes : String → ℚ) : (run (.new "app" "0" 0 300 12) (exDay sizes)).history =
    (gathered (trace (.new "app" "0" 0 300 12) (exDay sizes))).reverse.take 12 :=
  C49_history_partial _ _ _ _ _ _ (by simp [exDay])

/-- **C49, always.** Also when the length changes in between, the history is the newest gathered periods, newest first. -/
theorem C49_newest (n i : String) (st gp : ℚ) (hl : Int) (es : List Ev) :
    (run (.new n i st gp hl) es).history <+: (gathered (trace (.new n i st gp hl) es)).reverse := by
  have key : ∀ (es : List Ev) (s : Keeper) (g : List Store), s.history <+: g.reverse →
      (run s es).history <+: (g ++ gathered (trace s es)).reverse := by
    intro es
    induction es with
    | nil => intro s g h; simpa [run, trace, gathered] using h
    | cons e es ih =>
      intro s g h
      have hh := step_history s e
      simp only [run, trace]
      rw [gathered_cons, ← List.append_assoc]
      apply ih
      rw [hh]
      rcases hg : gathered [(e, (step s e).1)] with _ | ⟨d, t⟩
      · simpa using h
      · have ht : t = [] := by
          rcases gathered_single (e, (step s e).1) with h' | ⟨d', h'⟩ <;> rw [h'] at hg <;> simp at hg
          exact hg.2
        subst ht
        simp only [List.reverse_append, List.reverse_cons, List.reverse_nil, List.nil_append, List.cons_append]
        have : d :: s.history <+: d :: g.reverse := List.cons_prefix_cons.2 ⟨rfl, h⟩
        unfold remember
        simp only
        split
        · exact (List.dropLast_prefix _).trans this
        · exact this
  simpa using key es (.new n i st gp hl) [] (by simp [Keeper.new])

/-- Lowering the history length does not shorten the history: it stays as long as it was, however many periods follow. -/
theorem C49_lowered_refuted (n i : String) (st gp : ℚ) (times : List ℚ) (sizes : String → ℚ) :
    (run (.new n i st gp 2) ([.gather 1 sizes, .gather 2 sizes, .setLength 1] ++ times.map (.gather · sizes))).history.length = 2 := by
  have hg : ∀ (s : Keeper), s.durations = [] → s.queues = [] → ∀ t, (step s (.gather t sizes)).2.history =
      remember s.history s.historyLength (stamp s t) ∧ (step s (.gather t sizes)).2.durations = [] ∧
      (step s (.gather t sizes)).2.queues = [] ∧ (step s (.gather t sizes)).2.historyLength = s.historyLength := by
    intro s hd hq t
    simp [step, update, hd, hq, percentileEntries, setAll]
  have key : ∀ (ts : List ℚ) (s : Keeper), s.durations = [] → s.queues = [] → s.historyLength = 1 → s.history.length = 2 →
      (run s (ts.map (.gather · sizes))).history.length = 2 := by
    intro ts
    induction ts with
    | nil => intro s _ _ _ h; exact h
    | cons t ts ih =>
      intro s hd hq hl h
      obtain ⟨h1, h2, h3, h4⟩ := hg s hd hq t
      refine ih _ h2 h3 (h4.trans hl) ?_
      rw [h1]; simp [remember, hl, h]
  have hrun : ∀ (a b : List Ev) (s : Keeper), run s (a ++ b) = run (run s a) b := by
    intro a
    induction a with
    | nil => intro b s; rfl
    | cons e a ih => intro b s; simp [run, ih]
  rw [hrun]
  obtain ⟨h1, h2, h3, h4⟩ := hg (.new n i st gp 2) rfl rfl 1
  obtain ⟨k1, k2, k3, k4⟩ := hg _ h2 h3 2
  refine key times _ k2 k3 rfl ?_
  show (step (step (.new n i st gp 2) (.gather 1 sizes)).2 (.gather 2 sizes)).2.history.length = 2
  rw [k1, h4, h1]
  rfl

end Verif.Stats
