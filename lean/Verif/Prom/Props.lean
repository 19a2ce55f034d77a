import Verif.Prom.Lemmas

/-!
# The Prometheus exporter: C58

Property theorems; the helpers are in `Verif.Prom.Lemmas`.
-/

namespace Verif.Prom

open Verif.Py Verif.Stats Verif.Stats.Spec Verif.Prom.Spec

theorem endpointMetrics_mem {service inst : Stat} {g e : String} {data : Store} {m : Metric} :
    m ∈ (endpointMetrics service inst g e data).1 → m.service = service ∧ m.instance_ = inst ∧ m.endpoint = some (g, e) ∧
      ∃ leaf, (m.name, "endpoint_data", leaf) ∈ table ∧ data.get? leaf = some (.num m.value) ∧ (leaf ≠ "call_count" → 0 ≤ m.value) := by
  intro h
  rcases append_mem h with h | h
  · obtain ⟨q, hq, rfl⟩ := emit_mem h
    exact ⟨rfl, rfl, rfl, "call_count", by simp [table], hq, by simp⟩
  · rcases append_mem h with h | h
    · obtain ⟨q, hq, h0, rfl⟩ := emitNonneg_mem h
      exact ⟨rfl, rfl, rfl, "p95", by simp [table], hq, fun _ => h0⟩
    · obtain ⟨q, hq, h0, rfl⟩ := emitNonneg_mem h
      exact ⟨rfl, rfl, rfl, "p99", by simp [table], hq, fun _ => h0⟩

theorem queueMetrics_mem {top metricPrefix : String} {service inst : Stat} {g e : String} {data : Store} {m : Metric}
    (ht : (metricPrefix ++ "_queue_pending", top, "pending") ∈ table ∧ (metricPrefix ++ "_queue_error", top, "error") ∈ table) :
    m ∈ (queueMetrics metricPrefix service inst g e data).1 → m.service = service ∧ m.instance_ = inst ∧ m.endpoint = some (g, e) ∧
      ∃ leaf, leaf ≠ "p95" ∧ leaf ≠ "p99" ∧ (m.name, top, leaf) ∈ table ∧ data.get? leaf = some (.num m.value) := by
  intro h
  rcases append_mem h with h | h
  · obtain ⟨q, hq, rfl⟩ := emit_mem h
    exact ⟨rfl, rfl, rfl, "pending", by decide, by decide, ht.1, hq⟩
  · obtain ⟨q, hq, rfl⟩ := emit_mem h
    exact ⟨rfl, rfl, rfl, "error", by decide, by decide, ht.2, hq⟩

theorem queue_names : ("ekosis_buffered_endpoint" ++ "_queue_pending", "buffered_endpoint_sizes", "pending") ∈ table ∧
    ("ekosis_buffered_endpoint" ++ "_queue_error", "buffered_endpoint_sizes", "error") ∈ table ∧
    ("ekosis_buffered_sender" ++ "_queue_pending", "buffered_sender_sizes", "pending") ∈ table ∧
    ("ekosis_buffered_sender" ++ "_queue_error", "buffered_sender_sizes", "error") ∈ table := by decide +kernel

/-- The two labels every metric has. -/
theorem translate_labels {d app : Store} (ha : d.get? "application" = some (.node app)) {n i : String}
    (hn : Dict.get? app "name" = some (.text n)) (hi : Dict.get? app "instance" = some (.text i)) {sn si : String} {exclude : List String} :
    translate d sn si exclude =
    (emit (fun q => ⟨"ekosis_uptime_seconds", q, .text n, .text i, none⟩) (d.get? "uptime")).append
    ((emit (fun q => ⟨"ekosis_gather_period_seconds", q, .text n, .text i, none⟩) (d.get? "gather_period")).append
    ((items (groups exclude (endpointMetrics (.text n) (.text i))) (getDict d "endpoint_data")).append
    ((items (groups exclude (queueMetrics "ekosis_buffered_endpoint" (.text n) (.text i))) (getDict d "buffered_endpoint_sizes")).append
    ((items (groups exclude (queueMetrics "ekosis_buffered_sender" (.text n) (.text i))) (getDict d "buffered_sender_sizes")).append
    (each (customMetrics (.text n) (.text i)) d))))) := by
  have hg : getDict d "application" = .node app := by unfold getDict; rw [ha]; rfl
  unfold translate
  simp only [hg, hn, hi, Option.getD_some]

theorem custom_mem {service inst : Stat} {d : Store} {m : Metric} (h : m ∈ (each (customMetrics service inst) d).1) :
    m.service = service ∧ m.instance_ = inst ∧ m.endpoint = none := by
  obtain ⟨x, -, hx⟩ := each_mem h
  unfold customMetrics at hx
  split at hx
  · simp at hx
  · obtain ⟨y, -, rfl⟩ := List.mem_map.1 hx
    exact ⟨rfl, rfl, rfl⟩

theorem sound_aux {d app : Store} (htd : Tidy d) (ha : d.get? "application" = some (.node app)) {n i : String}
    (hn : Dict.get? app "name" = some (.text n)) (hi : Dict.get? app "instance" = some (.text i)) (sn si : String) (exclude : List String)
    (m : Metric) (hm : m ∈ (translate d sn si exclude).1) :
    m.service = .text n ∧ m.instance_ = .text i ∧ ∀ g e, m.endpoint = some (g, e) → g ∉ exclude ∧
      ∃ top leaf, (m.name, top, leaf) ∈ table ∧ deepGet d [top, g, e, leaf] = some (.num m.value) ∧
        (leaf = "p95" ∨ leaf = "p99" → 0 ≤ m.value) := by
  rw [translate_labels ha hn hi] at hm
  rcases append_mem hm with hm | hm
  · obtain ⟨q, -, rfl⟩ := emit_mem hm
    exact ⟨rfl, rfl, by simp⟩
  rcases append_mem hm with hm | hm
  · obtain ⟨q, -, rfl⟩ := emit_mem hm
    exact ⟨rfl, rfl, by simp⟩
  rcases append_mem hm with hm | hm
  · obtain ⟨g, e, data, hg, hd, hm⟩ := groups_mem htd hm
    obtain ⟨h1, h2, h3, leaf, h4, h5, h6⟩ := endpointMetrics_mem hm
    refine ⟨h1, h2, fun g' e' he => ?_⟩
    rw [h3] at he; cases he
    refine ⟨hg, _, leaf, h4, by rw [← leaf_of hd]; exact h5, fun hl => h6 ?_⟩
    rcases hl with rfl | rfl <;> decide
  rcases append_mem hm with hm | hm
  · obtain ⟨g, e, data, hg, hd, hm⟩ := groups_mem htd hm
    obtain ⟨h1, h2, h3, leaf, h4, h4', h5, h6⟩ := queueMetrics_mem ⟨queue_names.1, queue_names.2.1⟩ hm
    refine ⟨h1, h2, fun g' e' he => ?_⟩
    rw [h3] at he; cases he
    refine ⟨hg, _, leaf, h5, by rw [← leaf_of hd]; exact h6, fun hl => ?_⟩
    rcases hl with hl | hl
    · exact absurd hl h4
    · exact absurd hl h4'
  rcases append_mem hm with hm | hm
  · obtain ⟨g, e, data, hg, hd, hm⟩ := groups_mem htd hm
    obtain ⟨h1, h2, h3, leaf, h4, h4', h5, h6⟩ := queueMetrics_mem ⟨queue_names.2.2.1, queue_names.2.2.2⟩ hm
    refine ⟨h1, h2, fun g' e' he => ?_⟩
    rw [h3] at he; cases he
    refine ⟨hg, _, leaf, h5, by rw [← leaf_of hd]; exact h6, fun hl => ?_⟩
    rcases hl with hl | hl
    · exact absurd hl h4
    · exact absurd hl h4'
  · obtain ⟨h1, h2, h3⟩ := custom_mem hm
    exact ⟨h1, h2, by rw [h3]; simp⟩

theorem emit_some {mk : ℚ → Metric} {q : ℚ} : mk q ∈ (emit mk (some (.num q))).1 := by simp [emit, toFloat]

theorem emitNonneg_some {mk : ℚ → Metric} {q : ℚ} (h : 0 ≤ q) : mk q ∈ (emitNonneg mk (some (.num q))).1 := by
  simp [emitNonneg, h]

theorem complete_aux {d app : Store} (ha : d.get? "application" = some (.node app)) {n i : String}
    (hn : Dict.get? app "name" = some (.text n)) (hi : Dict.get? app "instance" = some (.text i)) (sn si : String) (exclude : List String)
    (hok : (translate d sn si exclude).2 = none) (g e : String) (hg : g ∉ exclude) (name top leaf : String) (ht : (name, top, leaf) ∈ table)
    (q : ℚ) (hq : deepGet d [top, g, e, leaf] = some (.num q)) (hl : leaf = "p95" ∨ leaf = "p99" → 0 ≤ q) :
    (⟨name, q, .text n, .text i, some (g, e)⟩ : Metric) ∈ (translate d sn si exclude).1 := by
  obtain ⟨data, hd⟩ : ∃ data, deepGet d [top, g, e] = some (.node data) := by
    cases hx : deepGet d [top, g, e] with
    | none =>
      have : ∀ (p : List String) (d : Store), deepGet d p = none → ∀ q, deepGet d (p ++ q) = none := by
        intro p
        induction p with
        | nil => intro d h; simp [deepGet] at h
        | cons k p ih =>
          intro d h q
          simp only [deepGet, List.cons_append] at h ⊢
          cases hk : Dict.get? d k with
          | none => rfl
          | some v =>
            rw [hk] at h
            cases v with
            | node c => exact ih c h q
            | num y =>
              cases p with
              | nil => simp at h
              | cons a p => simp
            | text y =>
              cases p with
              | nil => simp at h
              | cons a p => simp
      have := this _ _ hx [leaf]
      rw [show [top, g, e] ++ [leaf] = [top, g, e, leaf] from rfl, hq] at this; cases this
    | some v =>
      cases v with
      | node c => exact ⟨c, rfl⟩
      | num y =>
        have := deepGet_append_leaf [top, g, e] d _ hx (by simp) leaf []
        rw [show [top, g, e] ++ [leaf] = [top, g, e, leaf] from rfl, hq] at this; cases this
      | text y =>
        have := deepGet_append_leaf [top, g, e] d _ hx (by simp) leaf []
        rw [show [top, g, e] ++ [leaf] = [top, g, e, leaf] from rfl, hq] at this; cases this
  rw [← leaf_of hd] at hq
  rw [translate_labels ha hn hi] at hok ⊢
  simp only [append_ok] at hok
  obtain ⟨o1, o2, o3, o4, o5, -⟩ := hok
  refine mem_append o1 (.inr (mem_append o2 (.inr ?_)))
  have ep : ∀ {m : Metric}, top = "endpoint_data" → m ∈ (endpointMetrics (.text n) (.text i) g e data).1 →
      m ∈ (items (groups exclude (endpointMetrics (.text n) (.text i))) (getDict d "endpoint_data")).1 := by
    rintro m rfl hm
    exact mem_groups o3 hg hd hm
  have o6 : (endpointMetrics (.text n) (.text i) g e data).2 = none ∨ top ≠ "endpoint_data" := by
    by_cases h : top = "endpoint_data"
    · left
      subst h
      unfold getDict at o3
      cases h1 : Dict.get? d "endpoint_data" with
      | none => simp [deepGet, h1] at hd
      | some v =>
        rw [h1] at o3
        cases v with
        | num x => simp [items] at o3
        | text x => simp [items] at o3
        | node c =>
          simp only [Option.getD_some, items] at o3
          rw [deepGet_node h1] at hd
          cases h2 : Dict.get? c g with
          | none => simp [deepGet, h2] at hd
          | some v =>
            cases v with
            | num x => simp [deepGet, h2] at hd
            | text x => simp [deepGet, h2] at hd
            | node es =>
              rw [deepGet_node h2, deepGet_one] at hd
              have o3' := each_ok.1 o3 _ (Dict.get?_mem _ _ _ h2)
              unfold groups at o3'
              simp only [if_neg hg] at o3'
              exact each_ok.1 o3' _ (Dict.get?_mem _ _ _ hd)
    · exact .inr h
  have qu : ∀ {pre : String}, (items (groups exclude (queueMetrics pre (.text n) (.text i))) (getDict d top)).2 = none →
      (queueMetrics pre (.text n) (.text i) g e data).2 = none := by
    intro pre o3
    unfold getDict at o3
    cases h1 : Dict.get? d top with
    | none => simp [deepGet, h1] at hd
    | some v =>
      rw [h1] at o3
      cases v with
      | num x => simp [items] at o3
      | text x => simp [items] at o3
      | node c =>
        simp only [Option.getD_some, items] at o3
        rw [deepGet_node h1] at hd
        cases h2 : Dict.get? c g with
        | none => simp [deepGet, h2] at hd
        | some v =>
          cases v with
          | num x => simp [deepGet, h2] at hd
          | text x => simp [deepGet, h2] at hd
          | node es =>
            rw [deepGet_node h2, deepGet_one] at hd
            have o3' := each_ok.1 o3 _ (Dict.get?_mem _ _ _ h2)
            unfold groups at o3'
            simp only [if_neg hg] at o3'
            exact each_ok.1 o3' _ (Dict.get?_mem _ _ _ hd)
  simp only [table, List.mem_cons, Prod.mk.injEq, List.not_mem_nil, or_false] at ht
  rcases ht with ⟨rfl, rfl, rfl⟩ | ⟨rfl, rfl, rfl⟩ | ⟨rfl, rfl, rfl⟩ | ⟨rfl, rfl, rfl⟩ | ⟨rfl, rfl, rfl⟩ | ⟨rfl, rfl, rfl⟩ | ⟨rfl, rfl, rfl⟩
  · refine mem_append o3 (.inl (ep rfl ?_))
    have o := o6.resolve_right (by simp)
    unfold endpointMetrics at o ⊢
    simp only [append_ok] at o
    rw [hq] at o ⊢
    exact mem_append o.1 (.inl emit_some)
  · refine mem_append o3 (.inl (ep rfl ?_))
    have o := o6.resolve_right (by simp)
    unfold endpointMetrics at o ⊢
    simp only [append_ok] at o
    rw [hq] at o ⊢
    exact mem_append o.1 (.inr (mem_append o.2.1 (.inl (emitNonneg_some (hl (.inl rfl))))))
  · refine mem_append o3 (.inl (ep rfl ?_))
    have o := o6.resolve_right (by simp)
    unfold endpointMetrics at o ⊢
    simp only [append_ok] at o
    rw [hq] at o ⊢
    exact mem_append o.1 (.inr (mem_append o.2.1 (.inr (emitNonneg_some (hl (.inr rfl))))))
  · refine mem_append o3 (.inr (mem_append o4 (.inl (mem_groups o4 hg hd ?_))))
    have o := qu o4
    unfold queueMetrics at o ⊢
    rw [hq] at o ⊢
    simp only [append_ok] at o
    refine mem_append o.1 (.inl ?_)
    simp [emit, toFloat]
  · refine mem_append o3 (.inr (mem_append o4 (.inl (mem_groups o4 hg hd ?_))))
    have o := qu o4
    unfold queueMetrics at o ⊢
    rw [hq] at o ⊢
    simp only [append_ok] at o
    refine mem_append o.1 (.inr ?_)
    simp [emit, toFloat]
  · refine mem_append o3 (.inr (mem_append o4 (.inr (mem_append o5 (.inl (mem_groups o5 hg hd ?_))))))
    have o := qu o5
    unfold queueMetrics at o ⊢
    rw [hq] at o ⊢
    simp only [append_ok] at o
    refine mem_append o.1 (.inl ?_)
    simp [emit, toFloat]
  · refine mem_append o3 (.inr (mem_append o4 (.inr (mem_append o5 (.inl (mem_groups o5 hg hd ?_))))))
    have o := qu o5
    unfold queueMetrics at o ⊢
    rw [hq] at o ⊢
    simp only [append_ok] at o
    refine mem_append o.1 (.inr ?_)
    simp [emit, toFloat]

/-! ### The snapshots of a keeper -/

theorem step_names (s : Keeper) (e : Ev) : (step s e).2.name = s.name ∧ (step s e).2.instance_ = s.instance_ := by
  cases e with
  | track r => simp only [step]; split <;> simp
  | call r x => simp only [step]; split <;> (try split) <;> simp
  | set k v => simp only [step]; cases setValue s.current k v <;> simp [put]
  | increment k v => simp only [step]; cases incrementValue s.current k v <;> simp [put]
  | addQueue k => simp only [step]; exact ⟨trivial, trivial⟩
  | setLength n => simp [step]
  | read now sizes =>
    have : (update s now sizes).2.name = s.name ∧ (update s now sizes).2.instance_ = s.instance_ := ⟨rfl, rfl⟩
    simp only [step]
    rcases hx : update s now sizes with ⟨r, s'⟩
    rw [hx] at this
    cases r <;> exact this
  | gather now sizes =>
    have : (update s now sizes).2.name = s.name ∧ (update s now sizes).2.instance_ = s.instance_ := ⟨rfl, rfl⟩
    simp only [step]
    rcases hx : update s now sizes with ⟨r, s'⟩
    rw [hx] at this
    cases r <;> exact this

theorem run_names (es : List Ev) (s : Keeper) : (run s es).name = s.name ∧ (run s es).instance_ = s.instance_ := by
  induction es generalizing s with
  | nil => exact ⟨rfl, rfl⟩
  | cons e es ih => exact ⟨(ih _).1.trans (step_names s e).1, (ih _).2.trans (step_names s e).2⟩

theorem prom_new (n i : String) (st gp : ℚ) (hl : Int) : PromInv (.new n i st gp hl) :=
  ⟨shape_nil, by simp [Keeper.new], by simp [Keeper.new]⟩

theorem snapshot_shape {n i : String} {st gp : ℚ} {hl : Int} {es : List Ev} (hp : ∀ e ∈ es, Plain e) {d : Store}
    (hd : Reported n i st gp hl es d) :
    Tidy d ∧ Shape d ∧ ∃ app, d.get? "application" = some (.node app) ∧ Dict.get? app "name" = some (.text n) ∧
      Dict.get? app "instance" = some (.text i) := by
  obtain ⟨now, sizes, e, he, hd⟩ := hd
  have hinv := prom_run es (prom_new n i st gp hl) hp
  refine ⟨(tidy_step _ e (tidy_run es _ tidy_nil)).2 d hd, ?_⟩
  obtain ⟨s', hs, rfl⟩ := snapshot he hd
  refine ⟨by have := (shape_update hinv now sizes).shape; rw [hs] at this; exact this, ?_⟩
  have h1 : s'.current = (setAll (stamp (run (.new n i st gp hl) es) now)
      (percentileEntries (run (.new n i st gp hl) es).durations ++
        (run (.new n i st gp hl) es).queues.map (fun k => (k, sizes k)))).2 := by
    have := congrArg (fun x => x.2.current) hs
    exact this.symm
  refine ⟨[("name", .text (run (.new n i st gp hl) es).name), ("instance", .text (run (.new n i st gp hl) es).instance_)], ?_, ?_, ?_⟩
  · rw [h1, setAll_head]
    · unfold stamp
      rw [Dict.get?_set, if_pos rfl]
    · intro x hx
      refine allowed_head_app ?_
      rcases List.mem_append.1 hx with hx | hx
      · exact allowed_entries _ hinv.routes x hx
      · obtain ⟨k, hk, rfl⟩ := List.mem_map.1 hx
        exact hinv.queues k hk
  · rw [(run_names es _).1]; rfl
  · rw [(run_names es _).2]; rfl

/-! ### C58 -/

/-- **C58, what is exported.** The statistics of an ordinary application are exported without an exception. The metrics with labels of an
endpoint are exactly: for every group that is not excluded and every statistic of the table found at `<branch>.<group>.<endpoint>`, its
value, unless it is an undefined (negative) percentile; under the name and the instance of the application. -/
theorem C58_exact (n i : String) (st gp : ℚ) (hl : Int) (es : List Ev) (hp : ∀ e ∈ es, Plain e) (d : Store)
    (hd : Reported n i st gp hl es d) (sn si : String) (exclude : List String) :
    (translate d sn si exclude).2 = none ∧
    (∀ m ∈ (translate d sn si exclude).1, m.service = .text n ∧ m.instance_ = .text i) ∧
    ∀ name q g e, (⟨name, q, .text n, .text i, some (g, e)⟩ : Metric) ∈ (translate d sn si exclude).1 ↔
      g ∉ exclude ∧ ∃ top leaf, (name, top, leaf) ∈ table ∧ deepGet d [top, g, e, leaf] = some (.num q) ∧
        (leaf = "p95" ∨ leaf = "p99" → 0 ≤ q) := by
  obtain ⟨ht, hs, app, ha, hn, hi⟩ := snapshot_shape hp hd
  have hok := translate_ok ht hs ha sn si exclude
  refine ⟨hok, fun m hm => ⟨(sound_aux ht ha hn hi sn si exclude m hm).1, (sound_aux ht ha hn hi sn si exclude m hm).2.1⟩, ?_⟩
  intro name q g e
  constructor
  · intro hm
    exact (sound_aux ht ha hn hi sn si exclude _ hm).2.2 g e rfl
  · rintro ⟨hg, top, leaf, h1, h2, h3⟩
    exact complete_aux ha hn hi sn si exclude hok g e hg name top leaf h1 q h2 h3

theorem exDay_plain (sizes : String → ℚ) : ∀ e ∈ exDay sizes, Plain e := by
  have h1 : split "app.users.get" = ["app", "users", "get"] := by decide +kernel
  have h2 : split "app.users" = ["app", "users"] := by decide +kernel
  have h3 : split "jobs" = ["jobs"] := by decide +kernel
  have p1 : PlainRoute "endpoint_data" (split "app.users.get") := by
    intro g e x rest h
    rw [h1] at h
    simp only [List.cons.injEq] at h
    rw [← h.2.2.1]; decide
  have p2 : PlainRoute "endpoint_data" (split "app.users") := by
    intro g e x rest h
    rw [h2] at h
    simp at h
  intro e he
  simp only [exDay, List.mem_cons, List.not_mem_nil, or_false] at he
  rcases he with rfl | rfl | rfl | rfl | rfl | rfl | rfl | rfl | rfl | rfl
  all_goals first | exact p1 | exact p2 | exact trivial | skip
  simp only [Plain, h3, List.head?_cons, Option.some.injEq]
  rintro _ rfl
  decide

theorem exDay_reported (sizes : String → ℚ) : ∃ d, Reported "app" "0" 0 300 12 (exDay sizes) d := by
  obtain ⟨d, hd⟩ := exDay_gather sizes
  exact ⟨d, 900, sizes, _, .inr rfl, hd⟩

/-- An application with two endpoints. -/
example (sizes : String → ℚ) : ∃ d, Reported "app" "0" 0 300 12 (exDay sizes) d ∧ (translate d "x" "y" defaultExclude).2 = none := by
  obtain ⟨d, hd⟩ := exDay_reported sizes
  exact ⟨d, hd, (C58_exact _ _ _ _ _ _ (exDay_plain sizes) d hd _ _ _).1⟩

/-- **C58, calls.** For every endpoint with a route of two parts, "<group>.<endpoint>", whose group is not excluded, exactly one number of
calls is exported, and it is the number of calls in the report. Missing: routes with fewer or more parts, see below. -/
theorem C58_calls_partial (n i : String) (st gp : ℚ) (hl : Int) (es : List Ev) (hp : ∀ e ∈ es, Plain e) (ha : ∀ e ∈ es, Apart e)
    (hR : NoClash (routes es)) (d : Store) (hd : Reported n i st gp hl es d) (sn si : String) (exclude : List String)
    (r g e : String) (hr : r ∈ routes es) (hs : split r = [g, e]) (hg : g ∉ exclude) :
    ∀ q, (⟨"ekosis_endpoint_call_count", q, .text n, .text i, some (g, e)⟩ : Metric) ∈ (translate d sn si exclude).1 ↔ q = countIn d r := by
  have hx := (C58_exact n i st gp hl es hp d hd sn si exclude).2.2
  obtain ⟨now, sizes, ev, he, hd'⟩ := hd
  have hc := (C48_listed_partial n i st gp hl es ha hR r hr now sizes ev he d hd').1
  rw [split_count, hs] at hc
  have hc' : deepGet d ["endpoint_data", g, e, "call_count"] = some (.num (countIn d r)) := hc
  intro q
  rw [hx]
  constructor
  · rintro ⟨-, top, leaf, h1, h2, -⟩
    simp only [table, List.mem_cons, Prod.mk.injEq, List.not_mem_nil, or_false] at h1
    rcases h1 with ⟨-, rfl, rfl⟩ | ⟨h, -⟩ | ⟨h, -⟩ | ⟨h, -⟩ | ⟨h, -⟩ | ⟨h, -⟩ | ⟨h, -⟩
    · rw [hc'] at h2
      simpa using h2.symm
    all_goals exact absurd h (by decide)
  · rintro rfl
    exact ⟨hg, "endpoint_data", "call_count", by simp [table], hc', by simp⟩

example (sizes : String → ℚ) : ∃ d q, Reported "app" "0" 0 300 12 (exDay sizes) d ∧
    (⟨"ekosis_endpoint_call_count", q, .text "app", .text "0", some ("app", "users")⟩ : Metric) ∈ (translate d "x" "y" defaultExclude).1 := by
  obtain ⟨d, hd⟩ := exDay_reported sizes
  exact ⟨d, _, hd, (C58_calls_partial _ _ _ _ _ _ (exDay_plain sizes) (exDay_apart sizes).1 (exDay_apart sizes).2 d hd _ _ _ "app.users" "app"
    "users" (by simp [exDay, routes]) (by decide +kernel) (by decide) _).2 rfl⟩

/-- **C58, by default.** Without configuration no endpoint of the framework is exported, and the calls of every other endpoint with a route
of two parts are. -/
theorem C58_default_partial (n i : String) (st gp : ℚ) (hl : Int) (es : List Ev) (hp : ∀ e ∈ es, Plain e) (ha : ∀ e ∈ es, Apart e)
    (hR : NoClash (routes es)) (d : Store) (hd : Reported n i st gp hl es d) (sn si : String) :
    (∀ m ∈ (translate d sn si defaultExclude).1, ∀ e, m.endpoint ≠ some ("eco", e)) ∧
    ∀ r ∈ routes es, ∀ g e, split r = [g, e] → g ≠ "eco" →
      (⟨"ekosis_endpoint_call_count", countIn d r, .text n, .text i, some (g, e)⟩ : Metric) ∈ (translate d sn si defaultExclude).1 := by
  refine ⟨?_, ?_⟩
  · intro m hm e he
    obtain ⟨ht, hs, app, h1, h2, h3⟩ := snapshot_shape hp hd
    exact ((sound_aux ht h1 h2 h3 sn si _ m hm).2.2 "eco" e he).1 (by simp [defaultExclude])
  · intro r hr g e hs hg
    exact (C58_calls_partial n i st gp hl es hp ha hR d hd sn si defaultExclude r g e hr hs (by simpa [defaultExclude] using hg) _).2 rfl

theorem flatten_complete : ∀ (ks : List String) (pre : String) (v : Stat) (q : ℚ),
    (match v with | .node c => deepGet c ks = some (.num q) | w => ks = [] ∧ w = .num q) → pre ≠ "" →
    (ks.foldl (fun a x => a ++ "_" ++ safeKey x) pre, q) ∈ flatten pre v
  | [], pre, v, q, h, _ => by
    cases v with
    | node c => simp [deepGet] at h
    | num x => simp only [true_and, Stat.num.injEq] at h; subst h; simp [flatten]
    | text x => simp at h
  | k :: ks, pre, v, q, h, hpre => by
    cases v with
    | num x => simp at h
    | text x => simp at h
    | node c =>
      simp only [deepGet] at h
      cases hk : Dict.get? c k with
      | none => rw [hk] at h; simp at h
      | some w =>
        rw [hk] at h
        have hm := Dict.get?_mem _ _ _ hk
        have hne : pre ++ "_" ++ safeKey k ≠ "" := by
          intro e
          have := congrArg String.toList e
          simp at this
        have hrec := flatten_complete ks (pre ++ "_" ++ safeKey k) w q (by
          cases w with
          | node c' => exact h
          | num x =>
            simp only at h ⊢
            cases ks with
            | nil => simpa using h
            | cons a as => simp at h
          | text x =>
            simp only at h ⊢
            cases ks with
            | nil => simp at h
            | cons a as => simp at h) hne
        simp only [List.foldl_cons, flatten]
        clear h hk
        induction c with
        | nil => simp at hm
        | cons y c ih =>
          obtain ⟨k', w'⟩ := y
          simp only [flattenItems, List.mem_append]
          rcases List.mem_cons.1 hm with hm | hm
          · cases hm
            left
            rw [if_neg hpre]; exact hrec
          · exact .inr (ih hm)

theorem known_reserved (k : String) (h : k ∈ knownKeys) : k ∈ reserved := by
  simp only [knownKeys, List.mem_cons, List.not_mem_nil, or_false] at h
  rcases h with rfl | rfl | rfl | rfl | rfl | rfl | rfl <;> decide

/-- The framework's own numbers are not exported again as statistics of the application. -/
theorem reserved_known (k : String) (h : k ∈ reserved) : k ∈ knownKeys := by
  simp only [reserved, List.mem_cons, List.not_mem_nil, or_false] at h
  rcases h with rfl | rfl | rfl | rfl | rfl | rfl | rfl <;> decide

theorem custom_fold (ks : List String) (pre : String) :
    ks.foldl (fun a x => a ++ "_" ++ customName.safe x) ("ekosis_custom_" ++ pre) =
      "ekosis_custom_" ++ ks.foldl (fun a x => a ++ "_" ++ safeKey x) pre := by
  induction ks generalizing pre with
  | nil => rfl
  | cons k ks ih =>
    simp only [List.foldl_cons]
    rw [← ih]
    simp only [String.append_assoc]
    rfl

/-- **C58, own statistics.** Every number an ordinary application keeps itself is exported without labels of an endpoint; its name is made
of its path. -/
theorem C58_custom (n i : String) (st gp : ℚ) (hl : Int) (es : List Ev) (hp : ∀ e ∈ es, Plain e) (d : Store)
    (hd : Reported n i st gp hl es d) (sn si : String) (exclude : List String) (k : String) (ks : List String) (hk : k ∉ reserved)
    (hne : k ≠ "") (q : ℚ) (hq : deepGet d (k :: ks) = some (.num q)) :
    (⟨customName (k :: ks), q, .text n, .text i, none⟩ : Metric) ∈ (translate d sn si exclude).1 := by
  obtain ⟨ht, hs, app, ha, hn, hi⟩ := snapshot_shape hp hd
  have hok := translate_ok ht hs ha sn si exclude
  rw [translate_labels ha hn hi] at hok ⊢
  simp only [append_ok] at hok
  obtain ⟨o1, o2, o3, o4, o5, o6⟩ := hok
  refine mem_append o1 (.inr (mem_append o2 (.inr (mem_append o3 (.inr (mem_append o4 (.inr (mem_append o5 (.inr ?_)))))))))
  simp only [deepGet] at hq
  cases hg : Dict.get? d k with
  | none => rw [hg] at hq; simp at hq
  | some v =>
    rw [hg] at hq
    refine mem_each o6 ⟨(k, v), Dict.get?_mem _ _ _ hg, ?_⟩
    unfold customMetrics
    rw [if_neg (fun h => hk (known_reserved k h))]
    refine List.mem_map.2 ⟨_, flatten_complete ks k v q ?_ hne, ?_⟩
    · cases v with
      | node c => exact hq
      | num x =>
        simp only at hq ⊢
        cases ks with
        | nil => simpa using hq
        | cons a as => simp at hq
      | text x =>
        simp only at hq ⊢
        cases ks with
        | nil => simp at hq
        | cons a as => simp at hq
    · simp only [customName]
      rw [custom_fold]

/-- **C58, nothing else.** A metric without labels of an endpoint is the uptime, the gather period, or a statistic the application keeps
itself. -/
theorem C58_custom_only (n i : String) (st gp : ℚ) (hl : Int) (es : List Ev) (hp : ∀ e ∈ es, Plain e) (d : Store)
    (hd : Reported n i st gp hl es d) (sn si : String) (exclude : List String) (m : Metric) (hm : m ∈ (translate d sn si exclude).1)
    (he : m.endpoint = none) :
    (m.name = "ekosis_uptime_seconds" ∧ deepGet d ["uptime"] = some (.num m.value)) ∨
    (m.name = "ekosis_gather_period_seconds" ∧ deepGet d ["gather_period"] = some (.num m.value)) ∨
    ∃ k v, k ∉ reserved ∧ deepGet d [k] = some v ∧ ∃ rest, m.name = "ekosis_custom_" ++ rest := by
  obtain ⟨ht, hs, app, ha, hn, hi⟩ := snapshot_shape hp hd
  rw [translate_labels ha hn hi] at hm
  rcases append_mem hm with hm | hm
  · obtain ⟨q, hq, rfl⟩ := emit_mem hm
    exact .inl ⟨rfl, by rw [deepGet_one]; exact hq⟩
  rcases append_mem hm with hm | hm
  · obtain ⟨q, hq, rfl⟩ := emit_mem hm
    exact .inr (.inl ⟨rfl, by rw [deepGet_one]; exact hq⟩)
  rcases append_mem hm with hm | hm
  · obtain ⟨g, e, data, -, -, hm⟩ := groups_mem ht hm
    rw [(endpointMetrics_mem hm).2.2.1] at he; cases he
  rcases append_mem hm with hm | hm
  · obtain ⟨g, e, data, -, -, hm⟩ := groups_mem ht hm
    rw [(queueMetrics_mem ⟨queue_names.1, queue_names.2.1⟩ hm).2.2.1] at he; cases he
  rcases append_mem hm with hm | hm
  · obtain ⟨g, e, data, -, -, hm⟩ := groups_mem ht hm
    rw [(queueMetrics_mem ⟨queue_names.2.2.1, queue_names.2.2.2⟩ hm).2.2.1] at he; cases he
  · obtain ⟨⟨k, v⟩, h1, h2⟩ := each_mem hm
    unfold customMetrics at h2
    split at h2
    · simp at h2
    · next hk =>
      obtain ⟨y, -, rfl⟩ := List.mem_map.1 h2
      exact .inr (.inr ⟨k, v, fun h => hk (reserved_known k h), by rw [deepGet_one]; exact Dict.get?_of_mem d k v (ht [] d rfl) h1, y.1, rfl⟩)

example (sizes : String → ℚ) : ∃ d, Reported "app" "0" 0 300 12 (exDay sizes) d ∧
    (∀ m ∈ (translate d "x" "y" defaultExclude).1, ∀ e, m.endpoint ≠ some ("eco", e)) ∧
    ∃ q, (⟨"ekosis_endpoint_call_count", q, .text "app", .text "0", some ("app", "users")⟩ : Metric) ∈ (translate d "x" "y" defaultExclude).1 := by
  obtain ⟨d, hd⟩ := exDay_reported sizes
  have := C58_default_partial _ _ _ _ _ _ (exDay_plain sizes) (exDay_apart sizes).1 (exDay_apart sizes).2 d hd "x" "y"
  exact ⟨d, hd, this.1, _, this.2 "app.users" (by simp [exDay, routes]) "app" "users" (by decide +kernel) (by decide)⟩

/-- A report with a statistic of the application. -/
theorem ex_custom (now x y : ℚ) (sizes : String → ℚ) :
    (step (run (.new "app" "0" 0 300 12) [.set "jobs.done" x, .set "jobs_done" y]) (.read now sizes)).1 = .ok (some
      [("jobs", .node [("done", .num x)]), ("jobs_done", .num y), ("timestamp", .num now), ("uptime", .num now), ("gather_period", .num 300),
        ("application", .node [("name", .text "app"), ("instance", .text "0")])]) := by
  have e1 : split "jobs.done" = ["jobs", "done"] := by decide +kernel
  have e2 : split "jobs_done" = ["jobs_done"] := by decide +kernel
  simp [run, step, put, Keeper.new, setValue, e1, e2, deepSet, Dict.get?, Dict.set, update, stamp, percentileEntries, setAll]

theorem ex_custom_plain (x y : ℚ) : ∀ e ∈ [Ev.set "jobs.done" x, .set "jobs_done" y], Plain e := by
  have e1 : split "jobs.done" = ["jobs", "done"] := by decide +kernel
  have e2 : split "jobs_done" = ["jobs_done"] := by decide +kernel
  intro e he
  simp only [List.mem_cons, List.not_mem_nil, or_false] at he
  rcases he with rfl | rfl
  · simp only [Plain, e1, List.head?_cons, Option.some.injEq]
    rintro _ rfl; decide
  · simp only [Plain, e2, List.head?_cons, Option.some.injEq]
    rintro _ rfl; decide

/-- Two different statistics are exported under one name; the gauge has room for one of them. The example also shows that the hypotheses of
`C58_custom` can be met. -/
theorem C58_custom_collision_refuted (now x y : ℚ) (sizes : String → ℚ) : ∃ d,
    (step (run (.new "app" "0" 0 300 12) [.set "jobs.done" x, .set "jobs_done" y]) (.read now sizes)).1 = .ok (some d) ∧
    deepGet d ["jobs", "done"] = some (.num x) ∧ deepGet d ["jobs_done"] = some (.num y) ∧
    (⟨"ekosis_custom_jobs_done", x, .text "app", .text "0", none⟩ : Metric) ∈ (translate d "x" "y" defaultExclude).1 ∧
    (⟨"ekosis_custom_jobs_done", y, .text "app", .text "0", none⟩ : Metric) ∈ (translate d "x" "y" defaultExclude).1 := by
  have h := ex_custom now x y sizes
  have hr : Reported "app" "0" 0 300 12 [.set "jobs.done" x, .set "jobs_done" y] _ := ⟨now, sizes, _, .inl rfl, h⟩
  refine ⟨_, h, by simp [deepGet, Dict.get?], by simp [deepGet, Dict.get?], ?_, ?_⟩
  · have := C58_custom _ _ _ _ _ _ (ex_custom_plain x y) _ hr "x" "y" defaultExclude "jobs" ["done"] (by decide) (by decide) x
      (by simp [deepGet, Dict.get?])
    rwa [show customName ["jobs", "done"] = "ekosis_custom_jobs_done" by decide +kernel] at this
  · have := C58_custom _ _ _ _ _ _ (ex_custom_plain x y) _ hr "x" "y" defaultExclude "jobs_done" [] (by decide) (by decide) y
      (by simp [deepGet, Dict.get?])
    rwa [show customName ["jobs_done"] = "ekosis_custom_jobs_done" by decide +kernel] at this

/-! What is not exported -/

/-- A report of one endpoint that was called once. -/
theorem ex_one (x now : ℚ) (sizes : String → ℚ) :
    (step (run (.new "app" "0" 0 300 12) [.track "status", .call "status" x]) (.gather now sizes)).1 = .ok (some
      [("endpoint_data", .node [("status", .node [("call_count", .num 1), ("p95", .num x), ("p99", .num x)])]),
        ("timestamp", .num now), ("uptime", .num now), ("gather_period", .num 300),
        ("application", .node [("name", .text "app"), ("instance", .text "0")])]) := by
  have e1 : split "endpoint_data.status.call_count" = ["endpoint_data", "status", "call_count"] := by decide +kernel
  have e2 : split "endpoint_data.status.p95" = ["endpoint_data", "status", "p95"] := by decide +kernel
  have e3 : split "endpoint_data.status.p99" = ["endpoint_data", "status", "p99"] := by decide +kernel
  simp [run, step, Keeper.new, incrementValue, setValue, e1, e2, e3, deepGet, deepSet, Dict.get?, Dict.set, update, stamp, percentileEntries,
    setAll, percentiles]

/-- The calls of an endpoint without a group, `@endpoint("status")`, are not exported. -/
theorem C58_one_part_refuted (x now : ℚ) (sizes : String → ℚ) : ∃ d,
    (step (run (.new "app" "0" 0 300 12) [.track "status", .call "status" x]) (.gather now sizes)).1 = .ok (some d) ∧
    countIn d "status" = 1 ∧ ∀ m ∈ (translate d "x" "y" defaultExclude).1, m.endpoint = none := by
  refine ⟨_, ex_one x now sizes, ?_, ?_⟩
  · have e1 : split "endpoint_data.status.call_count" = ["endpoint_data", "status", "call_count"] := by decide +kernel
    simp [countIn, e1, deepGet, Dict.get?]
  · simp [translate, getDict, Dict.get?, emit, toFloat, items, each, groups, endpointsOf, Gen.append, defaultExclude, customMetrics,
      knownKeys]

theorem ex_three (x now : ℚ) (sizes : String → ℚ) :
    (step (run (.new "app" "0" 0 300 12) [.track "app.users.get", .call "app.users.get" x]) (.gather now sizes)).1 = .ok (some
      [("endpoint_data", .node [("app", .node [("users", .node [("get", .node [("call_count", .num 1), ("p95", .num x), ("p99", .num x)])])])]),
        ("timestamp", .num now), ("uptime", .num now), ("gather_period", .num 300),
        ("application", .node [("name", .text "app"), ("instance", .text "0")])]) := by
  have e1 : split "endpoint_data.app.users.get.call_count" = ["endpoint_data", "app", "users", "get", "call_count"] := by decide +kernel
  have e2 : split "endpoint_data.app.users.get.p95" = ["endpoint_data", "app", "users", "get", "p95"] := by decide +kernel
  have e3 : split "endpoint_data.app.users.get.p99" = ["endpoint_data", "app", "users", "get", "p99"] := by decide +kernel
  simp [run, step, Keeper.new, incrementValue, setValue, e1, e2, e3, deepGet, deepSet, Dict.get?, Dict.set, update, stamp, percentileEntries,
    setAll, percentiles]

/-- Nor are those of an endpoint with a route of three parts. -/
theorem C58_three_parts_refuted (x now : ℚ) (sizes : String → ℚ) : ∃ d,
    (step (run (.new "app" "0" 0 300 12) [.track "app.users.get", .call "app.users.get" x]) (.gather now sizes)).1 = .ok (some d) ∧
    countIn d "app.users.get" = 1 ∧ ∀ m ∈ (translate d "x" "y" defaultExclude).1, m.endpoint = none := by
  refine ⟨_, ex_three x now sizes, ?_, ?_⟩
  · have e1 : split "endpoint_data.app.users.get.call_count" = ["endpoint_data", "app", "users", "get", "call_count"] := by decide +kernel
    simp [countIn, e1, deepGet, Dict.get?]
  · simp [translate, getDict, Dict.get?, emit, emitNonneg, toFloat, items, each, groups, endpointsOf, endpointMetrics, Gen.append,
      defaultExclude, customMetrics, knownKeys]

/-- An endpoint whose route has the name of a statistic as its third part ends the export: nothing after it is exported, here the calls of
"app.users" and the statistics of the application itself. -/
theorem C58_clash_refuted (x now : ℚ) (sizes : String → ℚ) : ∃ d,
    (step (run (.new "app" "0" 0 300 12) [.track "app.latency.p95", .track "app.users", .call "app.users" x, .set "jobs" 1])
      (.gather now sizes)).1 = .ok (some d) ∧
    countIn d "app.users" = 1 ∧ (translate d "x" "y" defaultExclude).2 = some .typeError ∧
    ∀ m ∈ (translate d "x" "y" defaultExclude).1, m.endpoint = none ∧ m.name ≠ "ekosis_custom_jobs" := by
  have e1 : split "endpoint_data.app.latency.p95.call_count" = ["endpoint_data", "app", "latency", "p95", "call_count"] := by decide +kernel
  have e2 : split "endpoint_data.app.latency.p95.p95" = ["endpoint_data", "app", "latency", "p95", "p95"] := by decide +kernel
  have e3 : split "endpoint_data.app.latency.p95.p99" = ["endpoint_data", "app", "latency", "p95", "p99"] := by decide +kernel
  have f1 : split "endpoint_data.app.users.call_count" = ["endpoint_data", "app", "users", "call_count"] := by decide +kernel
  have f2 : split "endpoint_data.app.users.p95" = ["endpoint_data", "app", "users", "p95"] := by decide +kernel
  have f3 : split "endpoint_data.app.users.p99" = ["endpoint_data", "app", "users", "p99"] := by decide +kernel
  have f4 : split "jobs" = ["jobs"] := by decide +kernel
  have h : (step (run (.new "app" "0" 0 300 12) [.track "app.latency.p95", .track "app.users", .call "app.users" x, .set "jobs" 1])
      (.gather now sizes)).1 = .ok (some
      [("endpoint_data", .node [("app", .node [
        ("latency", .node [("p95", .node [("call_count", .num 0), ("p95", .num (-1)), ("p99", .num (-1))])]),
        ("users", .node [("call_count", .num 1), ("p95", .num x), ("p99", .num x)])])]),
        ("jobs", .num 1), ("timestamp", .num now), ("uptime", .num now), ("gather_period", .num 300),
        ("application", .node [("name", .text "app"), ("instance", .text "0")])]) := by
    simp [run, step, put, Keeper.new, incrementValue, setValue, e1, e2, e3, f1, f2, f3, f4, deepGet, deepSet, Dict.get?, Dict.set, update, stamp,
      percentileEntries, setAll, percentiles]
  refine ⟨_, h, ?_, ?_, ?_⟩
  · simp [countIn, f1, deepGet, Dict.get?]
  · simp [translate, getDict, Dict.get?, emit, emitNonneg, toFloat, items, each, groups, endpointsOf, endpointMetrics, Gen.append,
      defaultExclude]
  · simp [translate, getDict, Dict.get?, emit, emitNonneg, toFloat, items, each, groups, endpointsOf, endpointMetrics, Gen.append,
      defaultExclude]

end Verif.Prom
