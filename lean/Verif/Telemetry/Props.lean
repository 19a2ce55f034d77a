import Verif.Telemetry.Lemmas
import Verif.Address.Props

/-! C89: what the telemetry writes. C90: where it asks. -/

namespace Verif.Telemetry

open Verif.Py Verif.Stats Verif.Stats.Spec Verif.Telemetry.Spec

/-- The sizes of the queues of one kind. -/
theorem sizes_part {es : List Ev} (hf : ∀ e ∈ es, AsFramework e) {d : Store} (hF : Fits (always ++ es.flatMap places) d) (hpl : plainStore d)
    {kind tag : String} (hkt : (kind, tag) ∈ [("buffered_endpoint_sizes", "buffered_endpoint"), ("buffered_sender_sizes", "buffered_sender")])
    {sizes : String → ℚ} (hv : ∀ k, .addQueue k ∈ es → deepGet d (split k) = some (.num (sizes k)))
    (hb : ∀ r f, f ∈ queueFields → .addQueue (queueKey kind r f) ∈ es → Started r ∧ Tellable queueFields r) (b : Common) :
    ∃ o, sizesIn d kind = .ok o ∧ (extend b tag o).Nodup ∧
      (∀ pt, pt ∈ extend b tag o ↔
        ∃ r, ∃ f ∈ queueFields, .addQueue (queueKey kind r f) ∈ es ∧ pt = datum b tag r f (.num (sizes (queueKey kind r f)))) := by
  have hk : kind ∈ kinds := by
    simp only [List.mem_cons, Prod.mk.injEq, List.not_mem_nil, or_false] at hkt
    rcases hkt with ⟨rfl, _⟩ | ⟨rfl, _⟩ <;> simp [kinds]
  have ht : tag = "buffered_endpoint" ∨ tag = "buffered_sender" := by
    simp only [List.mem_cons, Prod.mk.injEq, List.not_mem_nil, or_false] at hkt
    rcases hkt with ⟨_, rfl⟩ | ⟨_, rfl⟩ <;> simp
  have hplace : ∀ q ∈ always ++ es.flatMap places, q.head? = some kind →
      ∃ r, ∃ f ∈ queueFields, .addQueue (queueKey kind r f) ∈ es ∧ q = kind :: (split r ++ [f]) := by
    intro q hq hh
    rcases place_cases hf hq with h | ⟨r, _, f, _, rfl⟩ | ⟨kind', _, r, f, h1, h2, rfl⟩ | ⟨_, h⟩
    · exact absurd hh ((always_heads h).2 kind hk)
    · simp only [List.head?_cons, Option.some.injEq] at hh
      exact absurd hh (kind_ne hk)
    · simp only [List.head?_cons, Option.some.injEq] at hh
      subst hh
      exact ⟨r, f, h1, h2, rfl⟩
    · exact absurd hh (h kind hk)
  unfold sizesIn
  cases hg : Dict.get? d kind with
  | none =>
    refine ⟨none, rfl, by simp [extend], ?_⟩
    intro pt
    simp only [extend, List.not_mem_nil, false_iff]
    rintro ⟨r, f, h1, h2, -⟩
    have := hv _ h2
    rw [split_queueKey kind r f (split_kind hk) (split_field (.inr h1))] at this
    simp [deepGet, hg] at this
  | some x =>
    have hx : ∃ c, x = .node c := by
      have hd : deepGet d [kind] = some x := by
        simp only [deepGet, hg]; cases x <;> simp
      cases x with
      | node c => exact ⟨c, rfl⟩
      | num q =>
        obtain ⟨r, f, _, _, e⟩ := hplace _ (hF.num _ _ hd) rfl
        simp at e
      | text q =>
        obtain ⟨r, f, _, _, e⟩ := hplace _ (hF.text _ _ hd).1 rfl
        simp at e
    obtain ⟨c, rfl⟩ := hx
    have hflat := flat_part hF hpl hg (by
      intro q hq hp
      obtain ⟨w, hw⟩ := hp
      obtain ⟨r, f, h1, h2, e⟩ := hplace q hq (by rw [← hw]; rfl)
      have := started_split (hb r f h1 h2).1
      rw [e] at hw
      cases hs : split r with
      | nil => exact split_ne_nil r hs
      | cons a as =>
        rw [hs] at hw this
        simp only [List.cons_append, List.nil_append, List.cons.injEq, true_and] at hw
        exact this (by rw [← hw.1]; rfl))
    have hnodup : (Dict.keys (flatten c)).Nodup := nodup_flattenItems "" c [] (by simp [Dict.keys])
    have hmem : ∀ x, x ∈ flatten c → ∃ r, ∃ f ∈ queueFields, .addQueue (queueKey kind r f) ∈ es ∧ x.1 = r ++ "." ++ f ∧
        x.2 = .num (sizes (queueKey kind r f)) := by
      rintro ⟨k, v⟩ hx
      obtain ⟨h1, h2⟩ := (hflat k v).1 hx
      obtain ⟨r, f, h3, h4, e⟩ := hplace _ (fits_place hF h1 h2) rfl
      simp only [List.cons.injEq, true_and] at e
      have ek : k = r ++ "." ++ f := split_injective (by rw [e, split_dot, split_field (.inr h3)])
      have hvk := hv _ h4
      rw [split_queueKey kind r f (split_kind hk) (split_field (.inr h3)), ← e, h2] at hvk
      exact ⟨r, f, h3, h4, ek, Option.some.inj hvk⟩
    have hpt : ∀ r f v, f ∈ queueFields → .addQueue (queueKey kind r f) ∈ es → sizePoint b tag (r ++ "." ++ f) v = datum b tag r f v := by
      intro r f v h1 h2
      rw [sizePoint_of b tag ht r v h1, (remove_iff r f (nodot_field (.inr h1))).2 ((hb r f h1 h2).2 f h1)]
    have hext : extend b tag (some (flatten c)) = logSizes b tag (flatten c) := by
      simp only [extend]
      split
      · next h => rw [h]; rfl
      · rfl
    refine ⟨some (flatten c), rfl, ?_, ?_⟩
    · rw [hext]
      refine nodup_part (b := b) (tag := tag) (l := flatten c) hnodup ?_
      intro x hx
      obtain ⟨r, f, h1, h2, h3, -⟩ := hmem x hx
      exact ⟨r, f, h3, by simp only [h3, hpt r f x.2 h1 h2]⟩
    · intro pt
      rw [hext, logSizes, List.mem_map]
      constructor
      · rintro ⟨x, hx, rfl⟩
        obtain ⟨r, f, h1, h2, h3, h4⟩ := hmem x hx
        exact ⟨r, f, h1, h2, by rw [h3, h4, hpt r f _ h1 h2]⟩
      · rintro ⟨r, f, h1, h2, rfl⟩
        refine ⟨(r ++ "." ++ f, .num (sizes (queueKey kind r f))), ?_, hpt r f _ h1 h2⟩
        rw [hflat]
        refine ⟨by simp [IsValue], ?_⟩
        rw [split_dot, split_field (.inr h1), ← split_queueKey kind r f (split_kind hk) (split_field (.inr h1))]
        exact hv _ h2

/-- **C89, data points.** Whatever happened to an application, and whenever it is asked for its statistics: the telemetry writes one
data point for each statistic of each endpoint that is not the framework's own and one for the size of each queue of a buffered
endpoint or sender, tagged with the route and with the host, name and instance of the application, with the value that was reported;
and no others. Assumed: as for C48 that no operation raises, that only the framework writes where the telemetry reads, and that no
route is empty, begins with a dot or contains the name of a statistic behind a dot. -/
theorem C89_points_partial (n i : String) (st gp : ℚ) (hl : Int) (es : List Ev) (hc : Compatible (always ++ es.flatMap places))
    (hs : ∀ e ∈ es, Sensible e) (hr : Registered es) (hf : ∀ e ∈ es, AsFramework e) (hne : routes es ≠ [])
    (hb : ∀ r ∈ routes es, Started r ∧ Tellable endpointFields r)
    (hq : ∀ kind ∈ kinds, ∀ r f, f ∈ queueFields → .addQueue (queueKey kind r f) ∈ es → Started r ∧ Tellable queueFields r)
    (now : ℚ) (sizes : String → ℚ) (e : Ev) (he : e = .read now sizes ∨ e = .gather now sizes) (d : Store)
    (hd : (step (run (.new n i st gp hl) es) e).1 = .ok (some d)) (host t : String) (iso : ℚ → Except PyErr String) (hi : iso now = .ok t) :
    let b : Common := { host := host, name := .text n, inst := .text i, time := t }
    ∃ pts, points host iso d = .ok pts ∧ pts.Nodup ∧ ∀ pt, pt ∈ pts ↔
      (∃ r ∈ routes es, ¬ Standard r ∧ ∃ f ∈ endpointFields, ∃ v, deepGet d ("endpoint_data" :: (split r ++ [f])) = some v ∧
        pt = datum b "endpoint_data" r f v) ∨
      (∃ r, ∃ f ∈ queueFields, .addQueue (queueKey "buffered_endpoint_sizes" r f) ∈ es ∧
        pt = datum b "buffered_endpoint" r f (.num (sizes (queueKey "buffered_endpoint_sizes" r f)))) ∨
      (∃ r, ∃ f ∈ queueFields, .addQueue (queueKey "buffered_sender_sizes" r f) ∈ es ∧
        pt = datum b "buffered_sender" r f (.num (sizes (queueKey "buffered_sender_sizes" r f)))) := by
  intro b
  have hT : Tidy (always ++ es.flatMap places) (run (.new n i st gp hl) es) :=
    tidy_run es _ hc (fun p hp => List.mem_append_left _ hp) (fun e he p hp => List.mem_append_right _ (List.mem_flatMap.2 ⟨e, he, hp⟩)) hs hr
      n i st gp hl
  have hU := tidy_update hc (fun p hp => List.mem_append_left _ hp) hT now sizes
  have hcur := report_update he hd
  have hF : Fits (always ++ es.flatMap places) d := by rw [← hcur]; exact hU.2.fits
  have hpl : plainStore d := by
    rw [← hcur]
    exact plain_update (plain_run es (by simp [Keeper.new, plainStore])) now sizes
  -- the entries that are set when reporting
  have hset : setAll (stamp (run (.new n i st gp hl) es) now) (percentileEntries (run (.new n i st gp hl) es).durations ++
      (run (.new n i st gp hl) es).queues.map fun k => (k, sizes k)) = (.ok (), d) := by
    have h1 := hU.1
    unfold update at h1 hcur
    rcases hx : setAll (stamp (run (.new n i st gp hl) es) now) (percentileEntries (run (.new n i st gp hl) es).durations ++
      (run (.new n i st gp hl) es).queues.map fun k => (k, sizes k)) with ⟨r, d'⟩
    rw [hx] at h1 hcur
    simp only at h1 hcur
    rw [h1, hcur]
  have hentries : ∀ x ∈ percentileEntries (run (.new n i st gp hl) es).durations ++
      (run (.new n i st gp hl) es).queues.map (fun k => (k, sizes k)),
      (split x.1).head? = some "endpoint_data" ∨ ((split x.1).head? ∈ kinds.map some ∧ .addQueue x.1 ∈ es ∧ x.2 = sizes x.1) := by
    intro x hx
    rcases List.mem_append.1 hx with hx | hx
    · obtain ⟨r, l, hm, h2⟩ := mem_entries (k := x.1) (v := x.2) hx
      left
      rcases h2 with ⟨e, _⟩ | ⟨e, _⟩
      · rw [e, split_p95]; rfl
      · rw [e, split_p99]; rfl
    · obtain ⟨k, hk, rfl⟩ := List.mem_map.1 hx
      rw [run_queues] at hk
      rcases hk with hk | hk
      · simp [Keeper.new] at hk
      · obtain ⟨kind, h1, r, f, h2, e⟩ := hf _ hk
        refine .inr ⟨?_, hk, rfl⟩
        show (split k).head? ∈ _
        rw [e, split_queueKey kind r f (split_kind h1) (split_field (.inr h2))]
        exact List.mem_map.2 ⟨kind, h1, rfl⟩
  have hkeep : ∀ h : String, h ≠ "endpoint_data" → h ∉ kinds → ∀ ps,
      deepGet d (h :: ps) = deepGet (stamp (run (.new n i st gp hl) es) now) (h :: ps) := by
    intro h h1 h2 ps
    have := setAll_head (h := h) _ (stamp (run (.new n i st gp hl) es) now) (fun x hx hh => by
      rcases hentries x hx with h3 | ⟨h3, _⟩
      · rw [hh] at h3; exact h1 (Option.some.inj h3)
      · rw [hh] at h3
        obtain ⟨y, hy, e⟩ := List.mem_map.1 h3
        exact h2 (Option.some.inj e ▸ hy)) ps
    rw [hset] at this
    exact this
  have happ : Dict.get? d "application" = some (.node [("name", .text n), ("instance", .text i)]) := by
    have h1 := hkeep "application" (by decide) (by decide) []
    have hn := run_name es (.new n i st gp hl)
    have : deepGet (stamp (run (.new n i st gp hl) es) now) ["application"] = some (.node [("name", .text n), ("instance", .text i)]) := by
      unfold stamp
      simp only
      rw [deepGet_set, if_pos rfl, hn.1, hn.2]
      simp [deepGet, Keeper.new]
    rw [this] at h1
    simp only [deepGet] at h1
    cases hg : Dict.get? d "application" with
    | none => rw [hg] at h1; simp at h1
    | some x => rw [hg] at h1; cases x <;> simp at h1 ⊢ <;> exact h1
  have htime : Dict.get? d "timestamp" = some (.num now) := by
    have h1 := hkeep "timestamp" (by decide) (by decide) []
    have : deepGet (stamp (run (.new n i st gp hl) es) now) ["timestamp"] = some (.num now) := by
      unfold stamp
      simp only
      rw [deepGet_set, if_neg (by decide), deepGet_set, if_neg (by decide), deepGet_set, if_neg (by decide), deepGet_set, if_pos rfl]
      rfl
    rw [this] at h1
    simp only [deepGet] at h1
    cases hg : Dict.get? d "timestamp" with
    | none => rw [hg] at h1; simp at h1
    | some x => rw [hg] at h1; cases x <;> simp at h1 ⊢ <;> exact h1
  have hsizes : ∀ k, .addQueue k ∈ es → deepGet d (split k) = some (.num (sizes k)) := by
    intro k hk
    have hkP : split k ∈ always ++ es.flatMap places :=
      List.mem_append_right _ (List.mem_flatMap.2 ⟨_, hk, by simp [places]⟩)
    refine setAll_value hc hkP _ _ d hset ?_ ?_ (.inl ?_)
    · intro x hx
      rcases List.mem_append.1 hx with hx | hx
      · obtain ⟨r, l, hm, h2⟩ := mem_entries (k := x.1) (v := x.2) hx
        rcases h2 with ⟨e, _⟩ | ⟨e, _⟩
        · rw [e, split_p95]; exact hT.durations _ hm "p95" (by simp [fields])
        · rw [e, split_p99]; exact hT.durations _ hm "p99" (by simp [fields])
      · obtain ⟨k', hk', rfl⟩ := List.mem_map.1 hx
        exact hT.queues _ hk'
    · intro v' hv'
      rcases hentries _ hv' with h3 | ⟨_, _, h3⟩
      · obtain ⟨kind, h1, r, f, h2, e⟩ := hf _ hk
        simp only at h3
        rw [e, split_queueKey kind r f (split_kind h1) (split_field (.inr h2))] at h3
        exact absurd (Option.some.inj h3).symm (kind_ne h1)
      · exact h3
    · exact List.mem_append_right _ (List.mem_map.2 ⟨k, (run_queues es _ k).2 (.inr hk), rfl⟩)
  -- the endpoints
  have hplace : ∀ q ∈ always ++ es.flatMap places, q.head? = some "endpoint_data" →
      ∃ r ∈ routes es, ∃ f ∈ endpointFields, q = "endpoint_data" :: (split r ++ [f]) := by
    intro q hq hh
    rcases place_cases hf hq with h | h | ⟨kind', h0, r, f, h1, h2, rfl⟩ | ⟨h, _⟩
    · exact absurd hh (always_heads h).1
    · exact h
    · simp only [List.head?_cons, Option.some.injEq] at hh
      exact absurd hh.symm (kind_ne h0)
    · exact absurd hh h
  have hnode : ∃ c, Dict.get? d "endpoint_data" = some (.node c) := by
    obtain ⟨r, hrm⟩ := List.exists_mem_of_ne_nil _ hne
    have hx := (C48_listed_partial n i st gp hl es (apart_of hf) (noClash_of hc) r hrm now sizes e he d hd).1
    rw [split_count] at hx
    simp only [deepGet] at hx
    cases hg : Dict.get? d "endpoint_data" with
    | none => simp [hg] at hx
    | some y => cases y with
      | node c => exact ⟨c, rfl⟩
      | num q => simp [hg] at hx
      | text q => simp [hg] at hx
  obtain ⟨c, hcn⟩ := hnode
  have hflat := flat_part hF hpl hcn (by
    intro q hq hp
    obtain ⟨w, hw⟩ := hp
    obtain ⟨r, hr1, f, h1, e⟩ := hplace q hq (by rw [← hw]; rfl)
    have := started_split (hb r hr1).1
    rw [e] at hw
    cases hs : split r with
    | nil => exact split_ne_nil r hs
    | cons a as =>
      rw [hs] at hw this
      simp only [List.cons_append, List.nil_append, List.cons.injEq, true_and] at hw
      exact this (by rw [← hw.1]; rfl))
  have hnodup : (Dict.keys (flatten c)).Nodup := nodup_flattenItems "" c [] (by simp [Dict.keys])
  obtain ⟨l, hl1, hl2, -, hl4⟩ := logEndpoints_ok b (flatten c) hnodup
  have hpt : ∀ r f v, r ∈ routes es → f ∈ endpointFields → endpointPoint b (r ++ "." ++ f) v = datum b "endpoint_data" r f v := by
    intro r f v h1 h2
    rw [endpointPoint_of b r v h2, (remove_iff r f (nodot_field (.inl h2))).2 ((hb r h1).2 f h2)]
  have hmem : ∀ x ∈ l, ∃ r ∈ routes es, ¬ Standard r ∧ ∃ f ∈ endpointFields, x.1 = r ++ "." ++ f ∧
      deepGet d ("endpoint_data" :: (split r ++ [f])) = some x.2 := by
    rintro ⟨k, v⟩ hx
    obtain ⟨hx, hst⟩ := (hl4 _).1 hx
    obtain ⟨h1, h2⟩ := (hflat k v).1 hx
    obtain ⟨r, h3, f, h4, e⟩ := hplace _ (fits_place hF h1 h2) rfl
    have h2' := h2
    rw [e] at h2'
    simp only [List.cons.injEq, true_and] at e
    have ek : k = r ++ "." ++ f := split_injective (by rw [e, split_dot, split_field (.inl h4)])
    refine ⟨r, h3, ?_, f, h4, ek, h2'⟩
    rw [← standard_key r f, ← ek]
    exact hst
  obtain ⟨o1, ho1, hn1, hm1⟩ := sizes_part hf hF hpl (kind := "buffered_endpoint_sizes") (tag := "buffered_endpoint") (by simp) hsizes
    (fun r f h1 h2 => hq _ (by simp [kinds]) r f h1 h2) b
  obtain ⟨o2, ho2, hn2, hm2⟩ := sizes_part hf hF hpl (kind := "buffered_sender_sizes") (tag := "buffered_sender") (by simp) hsizes
    (fun r f h1 h2 => hq _ (by simp [kinds]) r f h1 h2) b
  have hme : ∀ pt, pt ∈ l.map (fun x => endpointPoint b x.1 x.2) ↔
      ∃ r ∈ routes es, ¬ Standard r ∧ ∃ f ∈ endpointFields, ∃ v, deepGet d ("endpoint_data" :: (split r ++ [f])) = some v ∧
        pt = datum b "endpoint_data" r f v := by
    intro pt
    rw [List.mem_map]
    constructor
    · rintro ⟨x, hx, rfl⟩
      obtain ⟨r, h1, h2, f, h3, h4, h5⟩ := hmem x hx
      exact ⟨r, h1, h2, f, h3, x.2, h5, by rw [h4, hpt r f _ h1 h3]⟩
    · rintro ⟨r, h1, h2, f, h3, v, h4, rfl⟩
      have hv : IsValue v := by
        cases v with
        | num q => simp [IsValue]
        | text q => simp [IsValue]
        | node c' =>
          exfalso
          obtain ⟨q, hq1, hq2, hq3⟩ := hF.node _ _ (by simp) h4
          have hin : "endpoint_data" :: (split r ++ [f]) ∈ always ++ es.flatMap places := by
            obtain ⟨ev, hev, hp⟩ := route_place h1 f h3
            exact List.mem_append_right _ (List.mem_flatMap.2 ⟨ev, hev, hp⟩)
          exact hq3 (hc _ hin _ hq1 hq2)
      refine ⟨(r ++ "." ++ f, v), ?_, hpt r f v h1 h3⟩
      rw [hl4, hflat, split_dot, split_field (.inl h3)]
      refine ⟨⟨hv, h4⟩, ?_⟩
      rw [standard_key]
      exact h2
  refine ⟨l.map (fun x => endpointPoint b x.1 x.2) ++ extend b "buffered_endpoint" o1 ++ extend b "buffered_sender" o2, ?_, ?_, ?_⟩
  · have e1 : subscript (.node d) "application" = .ok (.node [("name", .text n), ("instance", .text i)]) := by simp [subscript, happ]
    have e2 : subscript (.node [("name", .text n), ("instance", .text i)]) "name" = .ok (.text n) := by simp [subscript, Dict.get?]
    have e3 : subscript (.node [("name", .text n), ("instance", .text i)]) "instance" = .ok (.text i) := by simp [subscript, Dict.get?]
    have e4 : subscript (.node d) "timestamp" = .ok (.num now) := by simp [subscript, htime]
    have e5 : timeToLog iso (.num now) = .ok t := hi
    have e6 : subscript (.node d) "endpoint_data" = .ok (.node c) := by simp [subscript, hcn]
    have e7 : flattened (.node c) = .ok (flatten c) := rfl
    unfold points
    simp only [e1, e2, e3, e4, e5, e6, e7, ho1, ho2, bind, Except.bind]
    rw [show logEndpoints { host := host, name := .text n, inst := .text i, time := t } (flatten c) = _ from hl1]
  · refine List.Nodup.append (List.Nodup.append ?_ hn1 ?_) hn2 ?_
    · refine nodup_part (b := b) (tag := "endpoint_data") hl2 ?_
      intro x hx
      obtain ⟨r, h1, -, f, h3, h4, -⟩ := hmem x hx
      exact ⟨r, f, h4, by simp only [h4, hpt r f x.2 h1 h3]⟩
    · intro pt h1 h2
      obtain ⟨r, -, -, f, -, v, -, e1⟩ := (hme pt).1 h1
      obtain ⟨r', f', -, -, e2⟩ := (hm1 pt).1 h2
      rw [e1] at e2
      exact absurd (datum_inj e2).1 (by decide)
    · intro pt h1 h2
      obtain ⟨r', f', -, -, e2⟩ := (hm2 pt).1 h2
      rcases List.mem_append.1 h1 with h1 | h1
      · obtain ⟨r, -, -, f, -, v, -, e1⟩ := (hme pt).1 h1
        rw [e1] at e2
        exact absurd (datum_inj e2).1 (by decide)
      · obtain ⟨r, f, -, -, e1⟩ := (hm1 pt).1 h1
        rw [e1] at e2
        exact absurd (datum_inj e2).1 (by decide)
  · intro pt
    rw [List.mem_append, List.mem_append, hme, hm1, hm2, or_assoc]

/-- An application with a buffered endpoint and a plain one besides one of the framework's own. -/
def exShop : List Ev :=
  [.track "eco.statistics.get", .track "shop.orders", .track "shop.orders.count",
    .addQueue (queueKey "buffered_endpoint_sizes" "shop.orders" "pending"), .addQueue (queueKey "buffered_endpoint_sizes" "shop.orders" "error"),
    .addQueue (queueKey "buffered_sender_sizes" "mail.send" "pending"), .addQueue (queueKey "buffered_sender_sizes" "mail.send" "error"),
    .call "shop.orders" 2, .call "shop.orders.count" 1, .call "shop.orders" 3]

theorem exShop_ok : Compatible (always ++ exShop.flatMap places) ∧ (∀ e ∈ exShop, Sensible e) ∧ Registered exShop ∧
    (∀ e ∈ exShop, AsFramework e) ∧ (∀ r ∈ routes exShop, Started r ∧ Tellable endpointFields r) ∧
    ∀ kind ∈ kinds, ∀ r f, f ∈ queueFields → .addQueue (queueKey kind r f) ∈ exShop → Started r ∧ Tellable queueFields r := by
  have s1 : split "eco.statistics.get" = ["eco", "statistics", "get"] := by decide +kernel
  have s2 : split "shop.orders" = ["shop", "orders"] := by decide +kernel
  have s3 : split "shop.orders.count" = ["shop", "orders", "count"] := by decide +kernel
  have s4 : split "mail.send" = ["mail", "send"] := by decide +kernel
  have qk : ∀ kind ∈ kinds, ∀ r, ∀ f ∈ queueFields, split (queueKey kind r f) = kind :: (split r ++ [f]) :=
    fun kind hk r f hf => split_queueKey kind r f (split_kind hk) (split_field (.inr hf))
  have q1 := qk "buffered_endpoint_sizes" (by decide) "shop.orders" "pending" (by decide)
  have q2 := qk "buffered_endpoint_sizes" (by decide) "shop.orders" "error" (by decide)
  have q3 := qk "buffered_sender_sizes" (by decide) "mail.send" "pending" (by decide)
  have q4 := qk "buffered_sender_sizes" (by decide) "mail.send" "error" (by decide)
  rw [s2] at q1 q2
  rw [s4] at q3 q4
  refine ⟨?_, ?_, ?_, ?_, ?_, ?_⟩
  · have : always ++ exShop.flatMap places = always ++ ([["eco", "statistics", "get"], ["shop", "orders"], ["shop", "orders", "count"]].flatMap
        (fun r => fields.map fun f => "endpoint_data" :: (r ++ [f]))) ++ [["buffered_endpoint_sizes", "shop", "orders", "pending"],
        ["buffered_endpoint_sizes", "shop", "orders", "error"], ["buffered_sender_sizes", "mail", "send", "pending"],
        ["buffered_sender_sizes", "mail", "send", "error"]] ++ ([["shop", "orders"], ["shop", "orders", "count"], ["shop", "orders"]].flatMap
        (fun r => fields.map fun f => "endpoint_data" :: (r ++ [f]))) := by
      simp [exShop, places, s1, s2, s3, q1, q2, q3, q4, fields]
    rw [this]
    unfold Compatible
    decide
  · intro e he
    simp only [exShop, List.mem_cons, List.not_mem_nil, or_false] at he
    rcases he with rfl | rfl | rfl | rfl | rfl | rfl | rfl | rfl | rfl | rfl <;> trivial
  · intro a r x b h
    have hlen : a.length < exShop.length := by rw [h]; simp
    have hget : exShop[a.length]? = some (.call r x) := by rw [h]; simp
    have ha : a = exShop.take a.length := by rw [h]; simp
    rw [ha]
    have hl : exShop.length = 10 := rfl
    generalize a.length = m at hget hlen
    rw [hl] at hlen
    match m, hlen with
    | 0, _ | 1, _ | 2, _ | 3, _ | 4, _ | 5, _ | 6, _ => simp [exShop] at hget
    | 7, _ | 8, _ | 9, _ =>
      simp only [exShop, List.getElem?_cons_succ, List.getElem?_cons_zero, Option.some.injEq, Ev.call.injEq] at hget
      obtain ⟨rfl, -⟩ := hget
      simp [exShop]
  · intro e he
    simp only [exShop, List.mem_cons, List.not_mem_nil, or_false] at he
    rcases he with rfl | rfl | rfl | rfl | rfl | rfl | rfl | rfl | rfl | rfl
    all_goals first | trivial | exact ⟨_, by decide, _, _, by decide, rfl⟩
  · intro r hr
    simp only [exShop, routes, List.mem_cons, List.not_mem_nil, or_false] at hr
    rcases hr with rfl | rfl | rfl | rfl | rfl | rfl <;>
    · refine ⟨⟨by decide, by decide +kernel⟩, ?_⟩
      intro f hf
      simp only [endpointFields, List.mem_cons, List.not_mem_nil, or_false] at hf
      unfold Occurs
      rcases hf with rfl | rfl | rfl <;> decide +kernel
  · intro kind hk r f hf hm
    have hr : r = "shop.orders" ∨ r = "mail.send" := by
      simp only [exShop, List.mem_cons, List.not_mem_nil, or_false, reduceCtorEq, false_or, Ev.addQueue.injEq] at hm
      have inj : ∀ kind' ∈ kinds, ∀ r' f', f' ∈ queueFields → queueKey kind r f = queueKey kind' r' f' → r = r' := by
        intro kind' hk' r' f' hf' e
        have e' := congrArg split e
        rw [qk kind hk r f hf, qk kind' hk' r' f' hf'] at e'
        simp only [List.cons.injEq] at e'
        exact split_injective (List.append_inj_left' e'.2 rfl)
      rcases hm with h | h | h | h
      · exact .inl (inj _ (by decide) _ _ (by decide) h)
      · exact .inl (inj _ (by decide) _ _ (by decide) h)
      · exact .inr (inj _ (by decide) _ _ (by decide) h)
      · exact .inr (inj _ (by decide) _ _ (by decide) h)
    rcases hr with rfl | rfl <;>
    · refine ⟨⟨by decide, by decide +kernel⟩, ?_⟩
      intro f hf
      simp only [queueFields, List.mem_cons, List.not_mem_nil, or_false] at hf
      unfold Occurs
      rcases hf with rfl | rfl <;> decide +kernel

example (sizes : String → ℚ) : ∃ d pts, (step (run (.new "shop" "0" 0 300 12) exShop) (.read 60 sizes)).1 = .ok (some d) ∧
    points "host" (fun _ => .ok "now") d = .ok pts ∧
    datum ⟨"host", .text "shop", .text "0", "now"⟩ "endpoint_data" "shop.orders" "call_count" (.num (countIn d "shop.orders")) ∈ pts ∧
    datum ⟨"host", .text "shop", .text "0", "now"⟩ "buffered_sender" "mail.send" "error"
      (.num (sizes (queueKey "buffered_sender_sizes" "mail.send" "error"))) ∈ pts ∧
    ∀ f v, datum ⟨"host", .text "shop", .text "0", "now"⟩ "endpoint_data" "eco.statistics.get" f v ∉ pts := by
  obtain ⟨h1, h2, h3, h4, h5, h6⟩ := exShop_ok
  have hd : ∃ d, (step (run (.new "shop" "0" 0 300 12) exShop) (.read 60 sizes)).1 = .ok (some d) := by
    have hT := tidy_run exShop _ h1 (fun p hp => List.mem_append_left _ hp)
      (fun e he p hp => List.mem_append_right _ (List.mem_flatMap.2 ⟨e, he, hp⟩)) h2 h3 "shop" "0" 0 300 12
    have hU := (tidy_update h1 (fun p hp => List.mem_append_left _ hp) hT 60 sizes).1
    simp only [step]
    rcases hx : update (run (.new "shop" "0" 0 300 12) exShop) 60 sizes with ⟨r, s'⟩
    rw [hx] at hU
    simp only at hU
    subst hU
    exact ⟨_, rfl⟩
  obtain ⟨d, hd⟩ := hd
  obtain ⟨pts, e1, _, e3⟩ := C89_points_partial "shop" "0" 0 300 12 exShop h1 h2 h3 h4 (by simp [exShop, routes]) h5 h6 60 sizes _ (.inl rfl) d hd
    "host" "now" (fun _ => .ok "now") rfl
  refine ⟨d, pts, hd, e1, (e3 _).2 (.inl ⟨"shop.orders", by simp [exShop, routes], ?_, "call_count", by decide, _, ?_, rfl⟩),
    (e3 _).2 (.inr (.inr ⟨"mail.send", "error", by decide, by simp [exShop], rfl⟩)), ?_⟩
  · unfold Standard; decide +kernel
  · have := (C48_listed_partial "shop" "0" 0 300 12 exShop (apart_of h4) (noClash_of h1) "shop.orders" (by simp [exShop, routes]) 60 sizes _
      (.inl rfl) d hd).1
    rwa [split_count] at this
  · intro f v hm
    rcases (e3 _).1 hm with ⟨r, _, hst, f', _, v', _, e⟩ | ⟨r, f', _, _, e⟩ | ⟨r, f', _, _, e⟩
    · obtain ⟨-, rfl, -, -⟩ := datum_inj e
      exact hst (by unfold Standard; decide +kernel)
    · exact absurd (datum_inj e).1 (by decide)
    · exact absurd (datum_inj e).1 (by decide)

/-- **C89, every endpoint.** Under the same assumptions there are, for every endpoint that was registered and is not the framework's,
three data points with its route: the number of its calls in the report, and the 95th and the 99th percentile of how long they took. -/
theorem C89_endpoints_partial (n i : String) (st gp : ℚ) (hl : Int) (es : List Ev) (hc : Compatible (always ++ es.flatMap places))
    (hs : ∀ e ∈ es, Sensible e) (hr : Registered es) (hf : ∀ e ∈ es, AsFramework e)
    (hb : ∀ r ∈ routes es, Started r ∧ Tellable endpointFields r)
    (hq : ∀ kind ∈ kinds, ∀ r f, f ∈ queueFields → .addQueue (queueKey kind r f) ∈ es → Started r ∧ Tellable queueFields r)
    (now : ℚ) (sizes : String → ℚ) (e : Ev) (he : e = .read now sizes ∨ e = .gather now sizes) (d : Store)
    (hd : (step (run (.new n i st gp hl) es) e).1 = .ok (some d)) (host t : String) (iso : ℚ → Except PyErr String) (hi : iso now = .ok t)
    (r : String) (hreg : .track r ∈ es) (hst : ¬ Standard r) :
    let b : Common := { host := host, name := .text n, inst := .text i, time := t }
    let ds := since r [] (trace (.new n i st gp hl) es)
    ∃ pts, points host iso d = .ok pts ∧ datum b "endpoint_data" r "call_count" (.num (countIn d r)) ∈ pts ∧
      datum b "endpoint_data" r "p95" (.num (percentiles ds).1) ∈ pts ∧ datum b "endpoint_data" r "p99" (.num (percentiles ds).2) ∈ pts := by
  intro b ds
  have hrt : r ∈ routes es := by
    clear hc hs hr hf hb hq hd
    induction es with
    | nil => cases hreg
    | cons e es ih =>
      rw [routes_cons]
      rcases List.mem_cons.1 hreg with rfl | h
      · exact List.mem_append_left _ (.head _)
      · exact List.mem_append_right _ (ih h)
  obtain ⟨pts, e1, -, e3⟩ := C89_points_partial n i st gp hl es hc hs hr hf (List.ne_nil_of_mem hrt) hb hq now sizes e he d hd host t iso hi
  have hkey : r ∈ Dict.keys (run (.new n i st gp hl) es).durations :=
    tracked_run es _ hc (fun p hp => List.mem_append_left _ hp) (fun e he p hp => List.mem_append_right _ (List.mem_flatMap.2 ⟨e, he, hp⟩)) hs hr
      n i st gp hl r hreg
  have hcount := (C48_listed_partial n i st gp hl es (apart_of hf) (noClash_of hc) r hrt now sizes e he d hd).1
  obtain ⟨hp1, hp2⟩ := C48_percentiles_partial n i st gp hl es (apart_of hf) (noClash_of hc) now sizes e he d hd r hkey
  rw [split_count] at hcount
  rw [split_p95] at hp1
  rw [split_p99] at hp2
  exact ⟨pts, e1, (e3 _).2 (.inl ⟨r, hrt, hst, "call_count", by decide, _, hcount, rfl⟩),
    (e3 _).2 (.inl ⟨r, hrt, hst, "p95", by decide, _, hp1, rfl⟩), (e3 _).2 (.inl ⟨r, hrt, hst, "p99", by decide, _, hp2, rfl⟩)⟩

/-- The endpoints of the shop after three calls. -/
example (d : Store) (now : ℚ) (sizes : String → ℚ) (hd : (step (run (.new "shop" "0" 0 60 5) exShop) (.read now sizes)).1 = .ok (some d)) :
    ∃ pts, points "h" (fun _ => .ok "t") d = .ok pts ∧
      datum { host := "h", name := .text "shop", inst := .text "0", time := "t" } "endpoint_data" "shop.orders" "call_count"
        (.num (countIn d "shop.orders")) ∈ pts := by
  obtain ⟨h1, h2, h3, h4, h5, h6⟩ := exShop_ok
  obtain ⟨pts, a, b, -⟩ := C89_endpoints_partial "shop" "0" 0 60 5 exShop h1 h2 h3 h4 h5 h6 now sizes _ (.inl rfl) d hd "h" "t"
    (fun _ => .ok "t") rfl "shop.orders" (by simp [exShop]) (by unfold Standard; decide +kernel)
  exact ⟨pts, a, b⟩

/-- **C89, which report.** Whatever happened to the application: if there are gathered statistics, the telemetry writes those gathered
last, and otherwise the current ones. -/
theorem C89_source (n i : String) (st gp : ℚ) (hl : Int) (es : List Ev) (current : Store) (host : String) (iso : ℚ → Except PyErr String) :
    written host iso ((run (.new n i st gp hl) es).history.headD []) current =
      points host iso ((run (.new n i st gp hl) es).history.headD current) := by
  cases hh : (run (.new n i st gp hl) es).history with
  | nil => rfl
  | cons d ds =>
    have hd := history_uptime es (.new n i st gp hl) (by simp [Keeper.new]) d (by rw [hh]; exact .head _)
    simp [written, getStatistics, hd]

example : ∃ d, (run (.new "app" "0" 0 300 12) [.track "a", .call "a" 1, .gather 300 (fun _ => 0), .call "a" 1]).history = [d] ∧
    countIn d "a" = 1 := by
  have e1 : split "endpoint_data.a.call_count" = ["endpoint_data", "a", "call_count"] := by decide +kernel
  have e2 : split "endpoint_data.a.p95" = ["endpoint_data", "a", "p95"] := by decide +kernel
  have e3 : split "endpoint_data.a.p99" = ["endpoint_data", "a", "p99"] := by decide +kernel
  refine ⟨[("endpoint_data", .node [("a", .node [("call_count", .num 1), ("p95", .num 1), ("p99", .num 1)])]), ("timestamp", .num 300),
    ("uptime", .num 300), ("gather_period", .num 300), ("application", .node [("name", .text "app"), ("instance", .text "0")])], ?_, ?_⟩
  · simp [run, step, update, stamp, setAll, setValue, percentileEntries, percentiles, incrementValue, e1, e2, e3, Keeper.new, deepGet, deepSet,
      Dict.get?, Dict.set, remember, resetStore, Stat.reset]
  · rw [countIn, split_count]
    have : split "a" = ["a"] := by decide +kernel
    simp [this, deepGet, Dict.get?]

/-- Two endpoints whose routes differ by the name of a statistic are written under one route. -/
theorem C89_name_refuted (host t : String) (n i : String) (st gp now : ℚ) (hl : Int) (sizes : String → ℚ) :
    let b : Common := { host := host, name := .text n, inst := .text i, time := t }
    ∃ d pts, (step (run (.new n i st gp hl) [.track "a.b", .track "a.call_count.b", .call "a.b" 1]) (.read now sizes)).1 = .ok (some d) ∧
      countIn d "a.b" = 1 ∧ countIn d "a.call_count.b" = 0 ∧
      points host (fun _ => .ok t) d = .ok pts ∧
      datum b "endpoint_data" "a.b" "call_count" (.num 1) ∈ pts ∧ datum b "endpoint_data" "a.b" "call_count" (.num 0) ∈ pts ∧
      ∀ v, datum b "endpoint_data" "a.call_count.b" "call_count" v ∉ pts := by
  intro b
  have e1 : split "endpoint_data.a.b.call_count" = ["endpoint_data", "a", "b", "call_count"] := by decide +kernel
  have e2 : split "endpoint_data.a.b.p95" = ["endpoint_data", "a", "b", "p95"] := by decide +kernel
  have e3 : split "endpoint_data.a.b.p99" = ["endpoint_data", "a", "b", "p99"] := by decide +kernel
  have e4 : split "endpoint_data.a.call_count.b.call_count" = ["endpoint_data", "a", "call_count", "b", "call_count"] := by decide +kernel
  have e5 : split "endpoint_data.a.call_count.b.p95" = ["endpoint_data", "a", "call_count", "b", "p95"] := by decide +kernel
  have e6 : split "endpoint_data.a.call_count.b.p99" = ["endpoint_data", "a", "call_count", "b", "p99"] := by decide +kernel
  have e7 : split "a.b" = ["a", "b"] := by decide +kernel
  have e8 : split "a.call_count.b" = ["a", "call_count", "b"] := by decide +kernel
  let c : Store := [("a", .node [("b", .node [("call_count", .num 1), ("p95", .num 1), ("p99", .num 1)]),
    ("call_count", .node [("b", .node [("call_count", .num 0), ("p95", .num (-1)), ("p99", .num (-1))])])])]
  let d : Store := [("endpoint_data", .node c), ("timestamp", .num now), ("uptime", .num (now - st)), ("gather_period", .num gp),
    ("application", .node [("name", .text n), ("instance", .text i)])]
  have hflat : flatten c = [("a.b.call_count", .num 1), ("a.b.p95", .num 1), ("a.b.p99", .num 1), ("a.call_count.b.call_count", .num 0),
      ("a.call_count.b.p95", .num (-1)), ("a.call_count.b.p99", .num (-1))] := by rfl
  obtain ⟨l, hl1, -, -, hl4⟩ := logEndpoints_ok b (flatten c) (by rw [hflat]; simp [Dict.keys])
  have p1 : endpointPoint b "a.b.call_count" (.num 1) = datum b "endpoint_data" "a.b" "call_count" (.num 1) := by
    have := endpointPoint_of b "a.b" (.num 1) (f := "call_count") (by decide)
    have h2 : remove ("." ++ "call_count") ("a.b" ++ "." ++ "call_count") = "a.b" := by decide +kernel
    rwa [h2] at this
  have p2 : endpointPoint b "a.call_count.b.call_count" (.num 0) = datum b "endpoint_data" "a.b" "call_count" (.num 0) := by
    have := endpointPoint_of b "a.call_count.b" (.num 0) (f := "call_count") (by decide)
    have h2 : remove ("." ++ "call_count") ("a.call_count.b" ++ "." ++ "call_count") = "a.b" := by decide +kernel
    rwa [h2] at this
  refine ⟨d, l.map (fun x => endpointPoint b x.1 x.2), ?_, ?_, ?_, ?_, ?_, ?_, ?_⟩
  · simp [run, step, update, stamp, setAll, setValue, percentileEntries, percentiles, incrementValue, e1, e2, e3, e4, e5, e6, Keeper.new, deepGet,
      deepSet, Dict.get?, Dict.set, d, c]
  · rw [countIn, split_count, e7]; rfl
  · rw [countIn, split_count, e8]; rfl
  · unfold points
    have h1 : subscript (.node d) "application" = .ok (.node [("name", .text n), ("instance", .text i)]) := rfl
    have h2 : subscript (.node [("name", .text n), ("instance", .text i)]) "name" = .ok (.text n) := rfl
    have h3 : subscript (.node [("name", .text n), ("instance", .text i)]) "instance" = .ok (.text i) := rfl
    have h4 : subscript (.node d) "timestamp" = .ok (.num now) := rfl
    have h6 : subscript (.node d) "endpoint_data" = .ok (.node c) := rfl
    have h8 : sizesIn d "buffered_endpoint_sizes" = .ok none := rfl
    have h9 : sizesIn d "buffered_sender_sizes" = .ok none := rfl
    simp only [h1, h2, h3, h4, h6, h8, h9, timeToLog, flattened, bind, Except.bind]
    rw [show logEndpoints { host := host, name := .text n, inst := .text i, time := t } (flatten c) = _ from hl1]
    simp [extend]
  · rw [← p1]
    exact List.mem_map.2 ⟨("a.b.call_count", .num 1), (hl4 _).2 ⟨by rw [hflat]; simp, by decide +kernel⟩, rfl⟩
  · rw [← p2]
    exact List.mem_map.2 ⟨("a.call_count.b.call_count", .num 0), (hl4 _).2 ⟨by rw [hflat]; simp, by decide +kernel⟩, rfl⟩
  · intro v hm
    obtain ⟨x, hx, e⟩ := List.mem_map.1 hm
    have hx := ((hl4 x).1 hx).1
    rw [hflat] at hx
    have q : ∀ r f v, f ∈ endpointFields → endpointPoint b (r ++ "." ++ f) v = datum b "endpoint_data" "a.call_count.b" "call_count" v →
        f = "call_count" := by
      intro r f v hf h
      rw [endpointPoint_of b r v hf] at h
      exact (datum_inj h).2.2.1
    simp only [List.mem_cons, List.not_mem_nil, or_false] at hx
    rcases hx with rfl | rfl | rfl | rfl | rfl | rfl
    · simp only [p1] at e; exact absurd (datum_inj e).2.1 (by decide)
    · have h := endpointPoint_of b "a.b" (.num 1) (f := "p95") (by decide)
      exact absurd (datum_inj (h.symm.trans e)).2.2.1 (by decide)
    · have h := endpointPoint_of b "a.b" (.num 1) (f := "p99") (by decide)
      exact absurd (datum_inj (h.symm.trans e)).2.2.1 (by decide)
    · simp only [p2] at e; exact absurd (datum_inj e).2.1 (by decide)
    · have h := endpointPoint_of b "a.call_count.b" (.num (-1)) (f := "p95") (by decide)
      exact absurd (datum_inj (h.symm.trans e)).2.2.1 (by decide)
    · have h := endpointPoint_of b "a.call_count.b" (.num (-1)) (f := "p99") (by decide)
      exact absurd (datum_inj (h.symm.trans e)).2.2.1 (by decide)

/-- The calls of an application's own endpoints below "eco" are not written. -/
theorem C89_standard_refuted (host t : String) (n i : String) (st gp now : ℚ) (hl : Int) (sizes : String → ℚ) :
    ∃ d, (step (run (.new n i st gp hl) [.track "eco.mine", .call "eco.mine" 1]) (.read now sizes)).1 = .ok (some d) ∧
      countIn d "eco.mine" = 1 ∧ points host (fun _ => .ok t) d = .ok [] := by
  have e1 : split "endpoint_data.eco.mine.call_count" = ["endpoint_data", "eco", "mine", "call_count"] := by decide +kernel
  have e2 : split "endpoint_data.eco.mine.p95" = ["endpoint_data", "eco", "mine", "p95"] := by decide +kernel
  have e3 : split "endpoint_data.eco.mine.p99" = ["endpoint_data", "eco", "mine", "p99"] := by decide +kernel
  have e7 : split "eco.mine" = ["eco", "mine"] := by decide +kernel
  let c : Store := [("eco", .node [("mine", .node [("call_count", .num 1), ("p95", .num 1), ("p99", .num 1)])])]
  let d : Store := [("endpoint_data", .node c), ("timestamp", .num now), ("uptime", .num (now - st)), ("gather_period", .num gp),
    ("application", .node [("name", .text n), ("instance", .text i)])]
  have hflat : flatten c = [("eco.mine.call_count", .num 1), ("eco.mine.p95", .num 1), ("eco.mine.p99", .num 1)] := by rfl
  refine ⟨d, ?_, ?_, ?_⟩
  · simp [run, step, update, stamp, setAll, setValue, percentileEntries, percentiles, incrementValue, e1, e2, e3, Keeper.new, deepGet,
      deepSet, Dict.get?, Dict.set, d, c]
  · rw [countIn, split_count, e7]; rfl
  · obtain ⟨l, hl1, -, -, hl4⟩ := logEndpoints_ok { host := host, name := .text n, inst := .text i, time := t } (flatten c)
      (by rw [hflat]; simp [Dict.keys])
    have hl : l = [] := by
      rw [List.eq_nil_iff_forall_not_mem]
      intro x hx
      obtain ⟨h1, h2⟩ := (hl4 x).1 hx
      rw [hflat] at h1
      simp only [List.mem_cons, List.not_mem_nil, or_false] at h1
      rcases h1 with rfl | rfl | rfl <;> exact h2 (by decide +kernel)
    unfold points
    have h1 : subscript (.node d) "application" = .ok (.node [("name", .text n), ("instance", .text i)]) := rfl
    have h2 : subscript (.node [("name", .text n), ("instance", .text i)]) "name" = .ok (.text n) := rfl
    have h3 : subscript (.node [("name", .text n), ("instance", .text i)]) "instance" = .ok (.text i) := rfl
    have h4 : subscript (.node d) "timestamp" = .ok (.num now) := rfl
    have h6 : subscript (.node d) "endpoint_data" = .ok (.node c) := rfl
    have h8 : sizesIn d "buffered_endpoint_sizes" = .ok none := rfl
    have h9 : sizesIn d "buffered_sender_sizes" = .ok none := rfl
    simp only [h1, h2, h3, h4, h6, h8, h9, timeToLog, flattened, bind, Except.bind]
    rw [hl1, hl]
    simp [extend]

/-- **C90, host and port.** A host name, a colon and a port number are where the telemetry asks, with the protocol that was chosen; its
name for the machine is this machine's own for the two local names, what the resolver says for another IPv4 address, and the host name
itself otherwise. -/
theorem C90_network (u : Address.Beyond) (own : Str) (byName : Str → Str) (ex : Str → Bool) (h : Str) (n : Nat)
    (hh : Address.Spec.Hostname h) (hn : n ≤ 65535) :
    ∃ m, makeClient u own byName ex .tcp (h ++ ':' :: Address.Spec.decimal n) = .ready (some m) (.tcp h n) ∧
      makeClient u own byName ex .udp (h ++ ':' :: Address.Spec.decimal n) = .ready (some m) (.udp h n) ∧
      (h = "127.0.0.1".toList ∨ h = "localhost".toList → m = own) ∧
      (h ≠ "127.0.0.1".toList → Address.Spec.IPv4 h → m = byName h) ∧
      (h ≠ "localhost".toList → ¬ Address.Spec.IPv4 h → m = h) := by
  have hp := Address.C86_given u h n hh hn
  obtain ⟨m1, m2, m3, -⟩ := Address.C86_machine u own byName h
  have hv : Address.isHostname u h = .ok true := by
    rw [Address.isHostname_eq]; exact Address.isIetf_true hh
  have hlocal : Address.Spec.IPv4 "127.0.0.1".toList := (Address.isIPv4_iff _).1 (by decide +kernel)
  have hnotip : ¬ Address.Spec.IPv4 "localhost".toList := fun h => absurd ((Address.isIPv4_iff _).2 h) (by decide +kernel)
  have key : ∀ m, Address.machineHostname u own byName h = .ok (some m) →
      makeClient u own byName ex .tcp (h ++ ':' :: Address.Spec.decimal n) = .ready (some m) (.tcp h n) ∧
      makeClient u own byName ex .udp (h ++ ':' :: Address.Spec.decimal n) = .ready (some m) (.udp h n) := by
    intro m hm
    simp only [makeClient, overNetwork, hp, hm, and_self]
  by_cases h1 : h = "127.0.0.1".toList ∨ h = "localhost".toList
  · refine ⟨own, (key own (m1 h1)).1, (key own (m1 h1)).2, fun _ => rfl, ?_, ?_⟩
    · intro h2 h3
      rcases h1 with rfl | rfl
      · exact absurd rfl h2
      · exact absurd h3 hnotip
    · intro h2 h3
      rcases h1 with rfl | rfl
      · exact absurd hlocal h3
      · exact absurd rfl h2
  · rw [not_or] at h1
    by_cases h2 : Address.Spec.IPv4 h
    · have := key _ (m2 h1.1 h2)
      exact ⟨byName h, this.1, this.2, fun h3 => absurd h3 (not_or.2 h1), fun _ _ => rfl, fun _ h3 => absurd h2 h3⟩
    · have := key _ (m3 h1.2 h2 hv)
      exact ⟨h, this.1, this.2, fun h3 => absurd h3 (not_or.2 h1), fun _ h3 => absurd h3 h2, fun _ _ => rfl⟩

example : makeClient Address.exPlain "me".toList id (fun _ => false) .tcp "localhost:8888".toList =
      .ready (some "me".toList) (.tcp "localhost".toList 8888) ∧
    makeClient Address.exPlain "me".toList id (fun _ => false) .udp "example.org:53".toList =
      .ready (some "example.org".toList) (.udp "example.org".toList 53) := by decide +kernel

/-- **C90, nowhere else.** Whatever is given, the telemetry asks over the protocol that was chosen, and where host and port were read from what
was given; for a socket file, at the path given. -/
theorem C90_target (u : Address.Beyond) (own : Str) (byName : Str → Str) (ex : Str → Bool) (details : Str) (m : Option Str) (target : Target) :
    (makeClient u own byName ex .tcp details = .ready m target →
      ∃ h n p, details = h ++ ':' :: p ∧ ':' ∉ h ∧ ':' ∉ p ∧ p ≠ [] ∧ target = .tcp h n ∧ m ≠ none) ∧
    (makeClient u own byName ex .udp details = .ready m target →
      ∃ h n p, details = h ++ ':' :: p ∧ ':' ∉ h ∧ ':' ∉ p ∧ p ≠ [] ∧ target = .udp h n ∧ m ≠ none) ∧
    (makeClient u own byName ex .uds details = .ready m target → target = .uds details ∧ m = some own) := by
  have net : ∀ (client : Str → Nat → Target), overNetwork u own byName details client = .ready m target →
      ∃ h n p, details = h ++ ':' :: p ∧ ':' ∉ h ∧ ':' ∉ p ∧ p ≠ [] ∧ target = client h n ∧ m ≠ none := by
    intro client hh
    unfold overNetwork at hh
    cases ha : Address.hostPort u details with
    | refused => rw [ha] at hh; simp at hh
    | raised e => rw [ha] at hh; simp at hh
    | address h n =>
      rw [ha] at hh
      simp only at hh
      have hs := ha
      unfold Address.hostPort at hs
      split at hs
      · next host port hsp =>
        cases hi : Address.isHostname u host with
        | error e => rw [hi] at hs; simp at hs
        | ok v =>
          rw [hi] at hs
          cases v with
          | false => simp at hs
          | true =>
            simp only at hs
            by_cases hpt : Address.isPort u port = true
            · rw [hpt] at hs
              cases hpi : Address.portInt u port with
              | error e => rw [hpi] at hs; simp at hs
              | ok k =>
                rw [hpi] at hs
                simp only [Bool.not_true, Bool.false_eq_true, if_false, Address.Outcome.address.injEq] at hs
                obtain ⟨rfl, rfl⟩ := hs
                obtain ⟨m1, m2, m3, -⟩ := Address.C86_machine u own byName host
                have hcol : ':' ∉ host ∧ ':' ∉ port :=
                  ⟨str_split_parts ':' _ _ (by rw [hsp]; simp), str_split_parts ':' _ _ (by rw [hsp]; simp)⟩
                refine ⟨host, k, port, Address.split_pair hsp, hcol.1, hcol.2, ?_, ?_, ?_⟩
                · rintro rfl
                  simp [Address.isPort] at hpt
                · cases hmn : Address.machineHostname u own byName host with
                  | error e => rw [hmn] at hh; simp at hh
                  | ok o => rw [hmn] at hh; simp only [Setup.ready.injEq] at hh; exact hh.2.symm
                · have hsome : ∃ o, Address.machineHostname u own byName host = .ok (some o) := by
                    by_cases h1 : host = "127.0.0.1".toList ∨ host = "localhost".toList
                    · exact ⟨_, m1 h1⟩
                    · rw [not_or] at h1
                      by_cases h2 : Address.Spec.IPv4 host
                      · exact ⟨_, m2 h1.1 h2⟩
                      · exact ⟨_, m3 h1.2 h2 hi⟩
                  obtain ⟨o, ho⟩ := hsome
                  rw [ho] at hh
                  simp only [Setup.ready.injEq] at hh
                  rw [← hh.1]
                  simp
            · rw [Bool.not_eq_true] at hpt
              rw [hpt] at hs
              simp at hs
      · simp at hs
  refine ⟨fun h => net .tcp h, fun h => net .udp h, ?_⟩
  intro h
  simp only [makeClient] at h
  split at h
  · simp at h
  · simp only [Setup.ready.injEq] at h
    exact ⟨h.2.symm, h.1.symm⟩

example : makeClient Address.exPlain "me".toList id (fun _ => false) .tcp "[::1]:8888".toList = .raised .valueError := by decide +kernel

/-- **C90, socket files.** If there is a file "uds" in the current directory, the telemetry asks at the path given. -/
theorem C90_uds_partial (u : Address.Beyond) (own : Str) (byName : Str → Str) (ex : Str → Bool) (path : Str) (h : ex "uds".toList = true) :
    makeClient u own byName ex .uds path = .ready (some own) (.uds path) := by
  simp only [makeClient, ServerType.text, h, Bool.not_true, Bool.false_eq_true, if_false]

example : makeClient Address.exPlain "me".toList id (fun p => p = "uds".toList || p = "/tmp/app.sock".toList) .uds "/tmp/app.sock".toList =
    .ready (some "me".toList) (.uds "/tmp/app.sock".toList) := by decide +kernel

/-- The existence of the file "uds" is checked, not that of the socket file: without a file of that name every socket file is refused,
whether it exists or not, and with one every path is accepted, whether it exists or not. -/
theorem C90_uds_refuted (u : Address.Beyond) (own : Str) (byName : Str → Str) (path : Str) (hp : path ≠ "uds".toList) :
    (∃ ex : Str → Bool, ex path = true ∧ makeClient u own byName ex .uds path = .refused) ∧
    (∃ ex : Str → Bool, ex path = false ∧ makeClient u own byName ex .uds path = .ready (some own) (.uds path)) := by
  refine ⟨⟨fun p => p = path, by simp, ?_⟩, ⟨fun p => p = "uds".toList, by simpa using hp, ?_⟩⟩
  · have : ¬ "uds".toList = path := fun h => hp h.symm
    simp only [makeClient, ServerType.text, this, decide_false, Bool.not_false, if_true]
  · simp [makeClient, ServerType.text]

/-- The values of `--server_type` are the three texts of the documentation. -/
theorem C90_server_types : [ServerType.tcp, .udp, .uds].map (fun t => String.ofList t.text) = ["tcp", "udp", "uds"] := by decide +kernel

end Verif.Telemetry
