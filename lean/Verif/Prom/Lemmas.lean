import Verif.Prom.Spec
import Verif.Stats.Props

/-! # Helper lemmas about the exporter -/

namespace Verif.Prom

open Verif.Py Verif.Stats Verif.Stats.Spec Verif.Prom.Spec

/-! ## Generators -/

theorem append_mem {α : Type} {a b : Gen α} {x : α} (h : x ∈ (a.append b).1) : x ∈ a.1 ∨ x ∈ b.1 := by
  obtain ⟨xs, e⟩ := a
  cases e with
  | none => simpa [Gen.append] using h
  | some e => exact .inl h

theorem append_ok {α : Type} {a b : Gen α} : (a.append b).2 = none ↔ a.2 = none ∧ b.2 = none := by
  obtain ⟨xs, e⟩ := a
  cases e <;> simp [Gen.append]

theorem mem_append {α : Type} {a b : Gen α} {x : α} (ha : a.2 = none) (h : x ∈ a.1 ∨ x ∈ b.1) : x ∈ (a.append b).1 := by
  obtain ⟨xs, e⟩ := a
  simp only at ha
  subst ha
  simpa [Gen.append] using h

theorem each_mem {α β : Type} {f : α → Gen β} {y : β} : ∀ {xs : List α}, y ∈ (each f xs).1 → ∃ x ∈ xs, y ∈ (f x).1
  | [], h => by simp [each] at h
  | x :: xs, h => by
    rcases append_mem h with h | h
    · exact ⟨x, .head _, h⟩
    · obtain ⟨x', h1, h2⟩ := each_mem h
      exact ⟨x', .tail _ h1, h2⟩

theorem each_ok {α β : Type} {f : α → Gen β} : ∀ {xs : List α}, (each f xs).2 = none ↔ ∀ x ∈ xs, (f x).2 = none
  | [] => by simp [each]
  | x :: xs => by simp [each, append_ok, each_ok]

theorem mem_each {α β : Type} {f : α → Gen β} {y : β} : ∀ {xs : List α}, (each f xs).2 = none → (∃ x ∈ xs, y ∈ (f x).1) → y ∈ (each f xs).1
  | [], _, h => by simp at h
  | x :: xs, ho, ⟨x', h1, h2⟩ => by
    simp only [each, append_ok] at ho
    refine mem_append ho.1 ?_
    rcases List.mem_cons.1 h1 with h1 | h1
    · subst h1; exact .inl h2
    · exact .inr (mem_each ho.2 ⟨x', h1, h2⟩)

theorem emit_mem {mk : ℚ → Metric} {v : Option Stat} {m : Metric} (h : m ∈ (emit mk v).1) : ∃ q, v = some (.num q) ∧ m = mk q := by
  cases v with
  | none => simp [emit] at h
  | some v => cases v <;> simp [emit, toFloat] at h; exact ⟨_, rfl, h⟩

theorem emitNonneg_mem {mk : ℚ → Metric} {v : Option Stat} {m : Metric} (h : m ∈ (emitNonneg mk v).1) :
    ∃ q, v = some (.num q) ∧ 0 ≤ q ∧ m = mk q := by
  cases v with
  | none => simp [emitNonneg] at h
  | some v =>
    cases v with
    | num q =>
      simp only [emitNonneg] at h
      split at h
      · next hq => exact ⟨q, rfl, hq, by simpa using h⟩
      · simp at h
    | text s => simp [emitNonneg] at h
    | node d => simp [emitNonneg] at h

/-! ## Paths -/

/-- Python's dictionaries have every key once. -/
def Tidy (d : Store) : Prop := ∀ p c, deepGet d p = some (.node c) → (Dict.keys c).Nodup

theorem deepGet_node {d c : Store} {k : String} (h : d.get? k = some (.node c)) (ks : List String) : deepGet d (k :: ks) = deepGet c ks := by
  simp [deepGet, h]

theorem deepGet_one (d : Store) (k : String) : deepGet d [k] = d.get? k := by
  simp only [deepGet]
  cases d.get? k with
  | none => rfl
  | some v => cases v <;> simp

theorem deepGet_append {d c : Store} : ∀ {p : List String}, deepGet d p = some (.node c) → ∀ q, deepGet d (p ++ q) = deepGet c q
  | [], h, q => by simp only [deepGet, Option.some.injEq, Stat.node.injEq] at h; subst h; rfl
  | k :: p, h, q => by
    simp only [deepGet, List.cons_append] at h ⊢
    cases hg : d.get? k with
    | none => rw [hg] at h; simp at h
    | some v =>
      rw [hg] at h
      cases v with
      | node c' => exact deepGet_append (p := p) h q
      | num x => simp only at h; split at h <;> simp at h
      | text x => simp only at h; split at h <;> simp at h

theorem tidy_nil : Tidy [] := by
  intro p c h
  cases p with
  | nil => simp only [deepGet, Option.some.injEq, Stat.node.injEq] at h; subst h; simp [Dict.keys]
  | cons k p => simp [deepGet, Dict.get?] at h

theorem tidy_child {d c : Store} {k : String} (h : Tidy d) (hk : d.get? k = some (.node c)) : Tidy c := fun p c' hp =>
  h (k :: p) c' (by rw [deepGet_node hk]; exact hp)

theorem tidy_set {d : Store} (h : Tidy d) (k : String) (v : Stat) (hv : ∀ c, v = .node c → Tidy c) : Tidy (d.set k v) := by
  intro p c hp
  cases p with
  | nil =>
    simp only [deepGet, Option.some.injEq, Stat.node.injEq] at hp; subst hp
    exact Dict.nodup_keys_set _ _ _ (h [] d rfl)
  | cons a ps =>
    rw [deepGet_set] at hp
    split at hp
    · cases v with
      | node c' => exact hv c' rfl ps c hp
      | num x => simp only at hp; split at hp <;> simp at hp
      | text x => simp only at hp; split at hp <;> simp at hp
    · exact h _ _ hp

theorem tidy_deepSet (x : ℚ) : ∀ (ks : List String) {d d' : Store}, Tidy d → deepSet d ks (.num x) = .ok d' → Tidy d'
  | [], _, _, _, h => by simp [deepSet] at h
  | [k], d, d', ht, h => by
    simp only [deepSet, Except.ok.injEq] at h; subst h
    exact tidy_set ht _ _ (by simp)
  | k :: k' :: ks, d, d', ht, h => by
    simp only [deepSet] at h
    cases hg : Dict.get? d k with
    | none =>
      rw [hg] at h
      simp only at h
      cases hc : deepSet [] (k' :: ks) (.num x) with
      | error e => rw [hc] at h; simp at h
      | ok c =>
        rw [hc] at h; simp only [Except.ok.injEq] at h; subst h
        exact tidy_set ht _ _ (by intro c' e; cases e; exact tidy_deepSet x (k' :: ks) tidy_nil hc)
    | some v =>
      rw [hg] at h
      cases v with
      | num y => simp at h
      | text y => simp at h
      | node c0 =>
        simp only at h
        cases hc : deepSet c0 (k' :: ks) (.num x) with
        | error e => rw [hc] at h; simp at h
        | ok c =>
          rw [hc] at h; simp only [Except.ok.injEq] at h; subst h
          exact tidy_set ht _ _ (by intro c' e; cases e; exact tidy_deepSet x (k' :: ks) (tidy_child ht hg) hc)

theorem keys_reset (d : Store) : Dict.keys (resetStore d) = Dict.keys d := by
  induction d with
  | nil => rfl
  | cons x d ih =>
    obtain ⟨k, v⟩ := x
    simp only [resetStore, Dict.keys, List.map_cons] at ih ⊢
    rw [ih]

theorem tidy_reset {d : Store} (h : Tidy d) : Tidy (resetStore d) := by
  intro p c hp
  rw [deepGet_reset] at hp
  cases hg : deepGet d p with
  | none => rw [hg] at hp; simp at hp
  | some v =>
    rw [hg] at hp
    cases v with
    | node c' =>
      simp only [Option.map_some, Stat.reset, Option.some.injEq, Stat.node.injEq] at hp
      subst hp
      rw [keys_reset]; exact h p c' hg
    | num x => simp [Stat.reset] at hp
    | text x => simp [Stat.reset] at hp

theorem tidy_increment {d d' : Store} {k : String} {v : ℚ} (h : Tidy d) (hs : incrementValue d k v = .ok d') : Tidy d' := by
  unfold incrementValue at hs
  split at hs
  · exact tidy_deepSet _ _ h hs
  · exact tidy_deepSet _ _ h hs
  · simp at hs

theorem tidy_setAll : ∀ (es : List (String × ℚ)) {d : Store}, Tidy d → Tidy (setAll d es).2
  | [], _, h => h
  | (k, v) :: es, d, h => by
    simp only [setAll]
    cases hs : setValue d k v with
    | error e => exact h
    | ok d' => exact tidy_setAll es (tidy_deepSet _ _ h hs)

theorem tidy_stamp (s : Keeper) (now : ℚ) (h : Tidy s.current) : Tidy (stamp s now) := by
  unfold stamp
  refine tidy_set (tidy_set (tidy_set (tidy_set h _ _ (by simp)) _ _ (by simp)) _ _ (by simp)) _ _ ?_
  intro c e
  cases e
  intro p c hp
  cases p with
  | nil =>
    simp only [deepGet, Option.some.injEq, Stat.node.injEq] at hp; subst hp
    simp [Dict.keys]
  | cons a ps =>
    have h1 : ∀ c', Dict.get? [("name", Stat.text s.name), ("instance", Stat.text s.instance_)] a ≠ some (.node c') := by
      intro c' hg
      simp only [Dict.get?] at hg
      split at hg
      · simp at hg
      · split at hg <;> simp at hg
    simp only [deepGet] at hp
    cases hg : Dict.get? [("name", Stat.text s.name), ("instance", Stat.text s.instance_)] a with
    | none => rw [hg] at hp; simp at hp
    | some v =>
      rw [hg] at hp
      cases v with
      | node c' => exact absurd hg (h1 c')
      | num x => simp only at hp; split at hp <;> simp at hp
      | text x => simp only at hp; split at hp <;> simp at hp

theorem tidy_update (s : Keeper) (now : ℚ) (sizes : String → ℚ) (h : Tidy s.current) : Tidy (update s now sizes).2.current :=
  tidy_setAll _ (tidy_stamp s now h)

theorem tidy_step (s : Keeper) (e : Ev) (h : Tidy s.current) :
    Tidy (step s e).2.current ∧ ∀ d, (step s e).1 = .ok (some d) → Tidy d := by
  cases e with
  | track r =>
    simp only [step]
    cases hs : incrementValue s.current ("endpoint_data." ++ r ++ ".call_count") 0 with
    | error e => exact ⟨h, by simp⟩
    | ok d => exact ⟨tidy_increment h hs, by simp⟩
  | call r x =>
    simp only [step]
    cases hs : incrementValue s.current ("endpoint_data." ++ r ++ ".call_count") 1 with
    | error e => exact ⟨h, by simp⟩
    | ok d =>
      cases Dict.get? s.durations r with
      | none => exact ⟨tidy_increment h hs, by simp⟩
      | some ds => exact ⟨tidy_increment h hs, by simp⟩
  | set k v =>
    simp only [step]
    cases hs : setValue s.current k v with
    | error e => exact ⟨h, by simp [put]⟩
    | ok d => exact ⟨tidy_deepSet _ _ h hs, by simp [put]⟩
  | increment k v =>
    simp only [step]
    cases hs : incrementValue s.current k v with
    | error e => exact ⟨h, by simp [put]⟩
    | ok d => exact ⟨tidy_increment h hs, by simp [put]⟩
  | addQueue k => exact ⟨h, by simp [step]⟩
  | setLength n => exact ⟨h, by simp [step]⟩
  | read now sizes =>
    have hu := tidy_update s now sizes h
    simp only [step]
    rcases hx : update s now sizes with ⟨r, s'⟩
    rw [hx] at hu
    cases r with
    | error e => exact ⟨hu, by simp⟩
    | ok _ => exact ⟨hu, by intro d hd; simp only [Except.ok.injEq, Option.some.injEq] at hd; subst hd; exact hu⟩
  | gather now sizes =>
    have hu := tidy_update s now sizes h
    simp only [step]
    rcases hx : update s now sizes with ⟨r, s'⟩
    rw [hx] at hu
    cases r with
    | error e => exact ⟨hu, by simp⟩
    | ok _ =>
      exact ⟨tidy_reset hu, by intro d hd; simp only [Except.ok.injEq, Option.some.injEq] at hd; subst hd; exact hu⟩

theorem tidy_run (es : List Ev) (s : Keeper) (h : Tidy s.current) : Tidy (run s es).current := by
  induction es generalizing s with
  | nil => exact h
  | cons e es ih => exact ih _ (tidy_step s e h).1

/-! ## The loops -/

theorem groups_mem {exclude : List String} {body : String → String → Store → Gen Metric} {top : String} {d : Store} {m : Metric}
    (ht : Tidy d) (h : m ∈ (items (groups exclude body) (getDict d top)).1) :
    ∃ g e data, g ∉ exclude ∧ deepGet d [top, g, e] = some (.node data) ∧ m ∈ (body g e data).1 := by
  unfold getDict at h
  cases hg : d.get? top with
  | none => rw [hg] at h; simp [items, each] at h
  | some v =>
    rw [hg] at h
    cases v with
    | num x => simp [items] at h
    | text x => simp [items] at h
    | node c =>
      simp only [Option.getD_some, items] at h
      obtain ⟨⟨g, v⟩, h1, h2⟩ := each_mem h
      unfold groups at h2
      simp only at h2
      split at h2
      · simp at h2
      · next hne =>
        cases v with
        | num x => simp at h2
        | text x => simp at h2
        | node es =>
          simp only at h2
          obtain ⟨⟨e, v⟩, h3, h4⟩ := each_mem h2
          cases v with
          | num x => simp [endpointsOf] at h4
          | text x => simp [endpointsOf] at h4
          | node data =>
            simp only [endpointsOf] at h4
            have hc := tidy_child ht hg
            have hge := Dict.get?_of_mem c g _ (hc [] c rfl) h1
            have hee := Dict.get?_of_mem es e _ (tidy_child hc hge [] es rfl) h3
            refine ⟨g, e, data, hne, ?_, h4⟩
            rw [deepGet_node hg, deepGet_node hge, deepGet_one, hee]

theorem mem_groups {exclude : List String} {body : String → String → Store → Gen Metric} {top : String} {d : Store} {m : Metric}
    (hok : (items (groups exclude body) (getDict d top)).2 = none) {g e : String} {data : Store} (hg : g ∉ exclude)
    (hd : deepGet d [top, g, e] = some (.node data)) (hm : m ∈ (body g e data).1) :
    m ∈ (items (groups exclude body) (getDict d top)).1 := by
  unfold getDict at hok ⊢
  cases h1 : d.get? top with
  | none => simp [deepGet, h1] at hd
  | some v =>
    rw [h1] at hok
    cases v with
    | num x => simp [items] at hok
    | text x => simp [items] at hok
    | node c =>
      simp only [Option.getD_some, items] at hok ⊢
      rw [deepGet_node h1] at hd
      cases h2 : Dict.get? c g with
      | none => simp [deepGet, h2] at hd
      | some v =>
        cases v with
        | num x => simp [deepGet, h2] at hd
        | text x => simp [deepGet, h2] at hd
        | node es =>
          rw [deepGet_node h2, deepGet_one] at hd
          refine mem_each hok ⟨(g, .node es), Dict.get?_mem _ _ _ h2, ?_⟩
          have hok2 := each_ok.1 hok _ (Dict.get?_mem _ _ _ h2)
          unfold groups at hok2 ⊢
          simp only [if_neg hg] at hok2 ⊢
          exact mem_each hok2 ⟨(e, .node data), Dict.get?_mem _ _ _ hd, hm⟩

/-! ## Names that occur -/

/-- The paths at which an ordinary application has numbers. -/
def Allowed (p : List String) : Prop :=
  p = ["timestamp"] ∨ p = ["uptime"] ∨ p = ["gather_period"] ∨
  (∃ top route leaf, p = top :: (route ++ [leaf]) ∧
    (top = "endpoint_data" ∨ top = "buffered_endpoint_sizes" ∨ top = "buffered_sender_sizes") ∧ route ≠ [] ∧
    leaf ∈ leaves top ∧ PlainRoute top route) ∨
  ∃ top rest, p = top :: rest ∧ top ∉ reserved

def Shape (d : Store) : Prop :=
  ∀ p v, p.head? ≠ some "application" → deepGet d p = some v →
    match v with
    | .num _ => Allowed p
    | .text _ => False
    | .node _ => p = [] ∨ ∃ k, Allowed k ∧ p <+: k ∧ p ≠ k

theorem shape_nil : Shape [] := by
  intro p v _ h
  cases p with
  | nil => simp only [deepGet, Option.some.injEq] at h; subst h; exact .inl rfl
  | cons k p => simp [deepGet, Dict.get?] at h

theorem shape_deepSet {d d' : Store} {ks : List String} {x : ℚ} (h : Shape d) (hk : Allowed ks) (hs : deepSet d ks (.num x) = .ok d') :
    Shape d' := by
  have hw := deepSet_written _ _ _ _ hs
  intro p v hp hv
  by_cases h1 : ks <+: p
  · obtain ⟨q, rfl⟩ := h1
    cases q with
    | nil =>
      rw [List.append_nil] at hv ⊢
      rw [hw.same] at hv
      cases hv; exact hk
    | cons a q =>
      rw [deepGet_append_leaf ks d' _ hw.same (by simp) a q] at hv; cases hv
  · by_cases h2 : p <+: ks
    · have hne : p ≠ ks := by rintro rfl; exact h1 List.prefix_rfl
      obtain ⟨c, hc⟩ := hw.above p h2 hne
      rw [hc] at hv; cases hv
      exact .inr ⟨ks, hk, h2, hne⟩
    · rw [hw.other p h1 h2] at hv
      exact h p v hp hv

theorem shape_set_num {d : Store} (h : Shape d) (k : String) (x : ℚ) (hk : Allowed [k]) : Shape (d.set k (.num x)) :=
  shape_deepSet (ks := [k]) h hk rfl

theorem shape_stamp (s : Keeper) (now : ℚ) (h : Shape s.current) : Shape (stamp s now) := by
  unfold stamp
  have h1 := shape_set_num (shape_set_num (shape_set_num h "timestamp" now (.inl rfl)) "uptime" (now - s.start) (.inr (.inl rfl)))
    "gather_period" s.gatherPeriod (.inr (.inr (.inl rfl)))
  intro p v hp hv
  cases p with
  | nil => simp only [deepGet, Option.some.injEq] at hv; subst hv; exact .inl rfl
  | cons a ps =>
    have : ¬ "application" = a := by rintro rfl; exact hp rfl
    rw [deepGet_set, if_neg this] at hv
    exact h1 _ v hp hv

theorem shape_reset {d : Store} (h : Shape d) : Shape (resetStore d) := by
  intro p v hp hv
  rw [deepGet_reset] at hv
  cases hg : deepGet d p with
  | none => rw [hg] at hv; cases hv
  | some w =>
    rw [hg] at hv
    have := h p w hp hg
    cases w with
    | num x => cases hv; exact this
    | text x => exact this.elim
    | node c => cases hv; exact this

theorem shape_setAll : ∀ (es : List (String × ℚ)) {d : Store}, Shape d → (∀ x ∈ es, Allowed (split x.1)) → Shape (setAll d es).2
  | [], _, h, _ => h
  | (k, v) :: es, d, h, he => by
    simp only [setAll]
    cases hs : setValue d k v with
    | error e => exact h
    | ok d' => exact shape_setAll es (shape_deepSet h (he _ (.head _)) hs) (fun x hx => he x (.tail _ hx))

theorem shape_increment {d d' : Store} {k : String} {v : ℚ} (h : Shape d) (hk : Allowed (split k))
    (hs : incrementValue d k v = .ok d') : Shape d' := by
  unfold incrementValue at hs
  split at hs
  · exact shape_deepSet h hk hs
  · exact shape_deepSet h hk hs
  · simp at hs

structure PromInv (s : Keeper) : Prop where
  shape : Shape s.current
  routes : ∀ x ∈ s.durations, PlainRoute "endpoint_data" (split x.1)
  queues : ∀ k ∈ s.queues, Allowed (split k)

theorem allowed_count {r : String} (h : PlainRoute "endpoint_data" (split r)) : Allowed (split ("endpoint_data." ++ r ++ ".call_count")) := by
  rw [split_count]
  exact .inr (.inr (.inr (.inl ⟨_, _, _, rfl, .inl rfl, split_ne_nil r, by decide, h⟩)))

theorem allowed_entries (ds : Dict String (List ℚ)) (h : ∀ x ∈ ds, PlainRoute "endpoint_data" (split x.1)) :
    ∀ x ∈ percentileEntries ds, Allowed (split x.1) := by
  induction ds with
  | nil => simp [percentileEntries]
  | cons a ds ih =>
    obtain ⟨r, l⟩ := a
    intro x hx
    simp only [percentileEntries, List.mem_cons] at hx
    have hr := h _ (.head _)
    rcases hx with rfl | rfl | hx
    · simp only; rw [split_p95]
      exact .inr (.inr (.inr (.inl ⟨_, _, _, rfl, .inl rfl, split_ne_nil r, by decide, hr⟩)))
    · simp only; rw [split_p99]
      exact .inr (.inr (.inr (.inl ⟨_, _, _, rfl, .inl rfl, split_ne_nil r, by decide, hr⟩)))
    · exact ih (fun x hx => h x (.tail _ hx)) x hx

theorem shape_update {s : Keeper} (h : PromInv s) (now : ℚ) (sizes : String → ℚ) : PromInv (update s now sizes).2 := by
  refine ⟨shape_setAll _ (shape_stamp s now h.shape) ?_, h.routes, h.queues⟩
  intro x hx
  rcases List.mem_append.1 hx with hx | hx
  · exact allowed_entries _ h.routes x hx
  · obtain ⟨k, hk, rfl⟩ := List.mem_map.1 hx
    exact h.queues k hk

theorem allowed_user {k : String} (h : ∀ top, (split k).head? = some top → top ∉ reserved) : Allowed (split k) := by
  cases hs : split k with
  | nil => exact absurd hs (split_ne_nil k)
  | cons a as => exact .inr (.inr (.inr (.inr ⟨a, as, rfl, h a (by rw [hs]; rfl)⟩)))

theorem allowed_queue {k : String} (h : Plain (.addQueue k)) : Allowed (split k) := by
  obtain ⟨top, route, leaf, h1, h2, rfl, h4⟩ := h
  have htop : split top = [top] ∧ leaves top = ["pending", "error"] := by
    rcases h1 with rfl | rfl <;> exact ⟨by decide +kernel, by decide⟩
  have hleaf : split leaf = [leaf] := by
    simp only [List.mem_cons, List.not_mem_nil, or_false] at h2
    rcases h2 with rfl | rfl <;> decide +kernel
  rw [split_dot, split_dot, htop.1, hleaf]
  refine .inr (.inr (.inr (.inl ⟨top, split route, leaf, by simp, .inr h1, split_ne_nil _, ?_, h4⟩)))
  rw [htop.2]; exact h2

theorem prom_step {s : Keeper} (h : PromInv s) (e : Ev) (hp : Plain e) : PromInv (step s e).2 := by
  cases e with
  | track r =>
    simp only [step]
    cases hs : incrementValue s.current ("endpoint_data." ++ r ++ ".call_count") 0 with
    | error e => exact h
    | ok d =>
      refine ⟨shape_increment h.shape (allowed_count hp) hs, ?_, h.queues⟩
      intro x hx
      have hx' : x.1 ∈ Dict.keys (Dict.set s.durations r []) := List.mem_map.2 ⟨x, hx, rfl⟩
      rw [Dict.keys_set] at hx'
      have hx2 : x.1 ∈ Dict.keys s.durations ∨ x.1 = r := by
        split at hx'
        · exact .inl hx'
        · simpa using hx'
      rcases hx2 with h1 | h1
      · obtain ⟨y, hy, hyx⟩ := List.mem_map.1 h1
        rw [← hyx]; exact h.routes y hy
      · rw [h1]; exact hp
  | call r x =>
    simp only [step]
    cases hs : incrementValue s.current ("endpoint_data." ++ r ++ ".call_count") 1 with
    | error e => exact h
    | ok d =>
      have hd := shape_increment h.shape (allowed_count hp) hs
      cases hds : Dict.get? s.durations r with
      | none => exact ⟨hd, h.routes, h.queues⟩
      | some ds =>
        refine ⟨hd, ?_, h.queues⟩
        intro y hy
        have hm : r ∈ Dict.keys s.durations := by rw [← Dict.has_iff]; simp [Dict.has, hds]
        have hy' : y.1 ∈ Dict.keys (Dict.set s.durations r (ds ++ [x])) := List.mem_map.2 ⟨y, hy, rfl⟩
        rw [Dict.keys_set_of_mem _ _ _ hm] at hy'
        obtain ⟨z, hz, hzy⟩ := List.mem_map.1 hy'
        rw [← hzy]; exact h.routes z hz
  | set k v =>
    simp only [step]
    cases hs : setValue s.current k v with
    | error e => exact h
    | ok d => exact ⟨shape_deepSet h.shape (allowed_user hp) hs, h.routes, h.queues⟩
  | increment k v =>
    simp only [step]
    cases hs : incrementValue s.current k v with
    | error e => exact h
    | ok d => exact ⟨shape_increment h.shape (allowed_user hp) hs, h.routes, h.queues⟩
  | addQueue k =>
    refine ⟨h.shape, h.routes, ?_⟩
    intro k' hk'
    simp only [step] at hk'
    split at hk'
    · exact h.queues _ hk'
    · rcases List.mem_append.1 hk' with hk' | hk'
      · exact h.queues _ hk'
      · rw [List.mem_singleton.1 hk']; exact allowed_queue hp
  | setLength n => exact ⟨h.shape, h.routes, h.queues⟩
  | read now sizes =>
    have hu := shape_update h now sizes
    simp only [step]
    rcases hx : update s now sizes with ⟨r, s'⟩
    rw [hx] at hu
    cases r <;> exact hu
  | gather now sizes =>
    have hu := shape_update h now sizes
    simp only [step]
    rcases hx : update s now sizes with ⟨r, s'⟩
    rw [hx] at hu
    cases r with
    | error e => exact hu
    | ok _ =>
      refine ⟨shape_reset hu.shape, ?_, hu.queues⟩
      intro x hx
      obtain ⟨y, hy, rfl⟩ := List.mem_map.1 hx
      exact hu.routes y hy

theorem prom_run (es : List Ev) {s : Keeper} (h : PromInv s) (hp : ∀ e ∈ es, Plain e) : PromInv (run s es) := by
  induction es generalizing s with
  | nil => exact h
  | cons e es ih => exact ih (prom_step h e (hp e (.head _))) (fun e' he => hp e' (.tail _ he))

/-- What a snapshot looks like. -/
theorem snapshot {s : Keeper} {e : Ev} {now : ℚ} {sizes : String → ℚ} (he : e = .read now sizes ∨ e = .gather now sizes) {d : Store}
    (hd : (step s e).1 = .ok (some d)) : ∃ s', update s now sizes = (.ok (), s') ∧ s'.current = d := by
  rcases he with rfl | rfl <;> simp only [step] at hd <;>
  · rcases hx : update s now sizes with ⟨res, s'⟩
    rw [hx] at hd
    cases res with
    | error e => simp at hd
    | ok u => exact ⟨s', rfl, by simpa using hd⟩

theorem setAll_head (top : String) : ∀ (es : List (String × ℚ)) (d : Store), (∀ x ∈ es, (split x.1).head? ≠ some top) →
    (setAll d es).2.get? top = d.get? top
  | [], _, _ => rfl
  | (k, v) :: es, d, h => by
    simp only [setAll]
    cases hs : setValue d k v with
    | error e => rfl
    | ok d' =>
      rw [setAll_head top es d' (fun x hx => h x (.tail _ hx))]
      have hk := h (k, v) (.head _)
      simp only at hk
      have hw := deepSet_written _ _ _ _ hs
      rw [← deepGet_one, ← deepGet_one]
      cases hsk : split k with
      | nil => exact absurd hsk (split_ne_nil k)
      | cons a as =>
        rw [hsk] at hw hk
        have : a ≠ top := by simpa using hk
        refine hw.other [top] ?_ ?_
        · intro hp; exact this (List.cons_prefix_cons.1 hp).1
        · intro hp; exact this (List.cons_prefix_cons.1 hp).1.symm

theorem allowed_head_app {p : List String} (h : Allowed p) : p.head? ≠ some "application" := by
  rcases h with rfl | rfl | rfl | ⟨top, route, leaf, rfl, ht, -⟩ | ⟨top, rest, rfl, ht⟩
  · decide
  · decide
  · decide
  · rcases ht with rfl | rfl | rfl <;> simp
  · intro e
    simp only [List.head?_cons, Option.some.injEq] at e
    subst e; exact ht (by decide)

/-- The numbers the exporter reads unguarded. -/
theorem shape_leaf {d : Store} (h : Shape d) {top g e leaf : String}
    (ht : top = "endpoint_data" ∨ top = "buffered_endpoint_sizes" ∨ top = "buffered_sender_sizes") (hl : leaf ∈ leaves top) :
    deepGet d [top, g, e, leaf] = none ∨ ∃ x, deepGet d [top, g, e, leaf] = some (.num x) := by
  have hta : ([top, g, e, leaf] : List String).head? ≠ some "application" := by rcases ht with rfl | rfl | rfl <;> simp
  cases hg : deepGet d [top, g, e, leaf] with
  | none => exact .inl rfl
  | some v =>
    have := h _ v hta hg
    cases v with
    | num x => exact .inr ⟨x, rfl⟩
    | text x => exact this.elim
    | node c =>
      exfalso
      rcases this with h' | ⟨k, hk, hp, hne⟩
      · cases h'
      · rcases hk with rfl | rfl | rfl | ⟨top', route, leaf', rfl, -, -, -, hpl⟩ | ⟨top', rest, rfl, hnk⟩
        · simp at hp
        · simp at hp
        · simp at hp
        · obtain ⟨rfl, hp⟩ := List.cons_prefix_cons.1 hp
          obtain ⟨q, hq⟩ := hp
          rcases List.eq_nil_or_concat q with rfl | ⟨q', z, rfl⟩
          · rw [List.append_nil] at hq
            exact hne (by rw [hq])
          · have : [g, e, leaf] ++ q' = route := by
              simp only [List.concat_eq_append, ← List.append_assoc, List.cons_append, List.nil_append, List.cons.injEq, true_and] at hq
              exact (List.append_inj' (s₁ := g :: e :: leaf :: q') hq rfl).1
            exact hpl g e leaf q' (by rw [← this]; rfl) hl
        · have := (List.cons_prefix_cons.1 hp).1
          subst this
          rcases ht with rfl | rfl | rfl <;> exact hnk (by decide)

theorem shape_top {d : Store} (h : Shape d) {top : String}
    (ht : top = "endpoint_data" ∨ top = "buffered_endpoint_sizes" ∨ top = "buffered_sender_sizes") : ∃ c, getDict d top = .node c := by
  have hta : ([top] : List String).head? ≠ some "application" := by rcases ht with rfl | rfl | rfl <;> simp
  unfold getDict
  cases hg : d.get? top with
  | none => exact ⟨[], rfl⟩
  | some v =>
    have := h [top] v hta (by rw [deepGet_one]; exact hg)
    cases v with
    | node c => exact ⟨c, rfl⟩
    | text x => exact this.elim
    | num x =>
      exfalso
      rcases this with h' | h' | h' | ⟨top', route, leaf', h', -⟩ | ⟨top', rest, h', hnk⟩
      · rcases ht with rfl | rfl | rfl <;> simp at h'
      · rcases ht with rfl | rfl | rfl <;> simp at h'
      · rcases ht with rfl | rfl | rfl <;> simp at h'
      · simp at h'
      · simp only [List.cons.injEq] at h'
        rw [← h'.1] at hnk
        rcases ht with rfl | rfl | rfl <;> exact hnk (by decide)

theorem shape_gauge {d : Store} (h : Shape d) {top : String} (ht : top = "uptime" ∨ top = "gather_period") :
    d.get? top = none ∨ ∃ x, d.get? top = some (.num x) := by
  have hta : ([top] : List String).head? ≠ some "application" := by rcases ht with rfl | rfl <;> simp
  cases hg : d.get? top with
  | none => exact .inl rfl
  | some v =>
    have := h [top] v hta (by rw [deepGet_one]; exact hg)
    cases v with
    | num x => exact .inr ⟨x, rfl⟩
    | text x => exact this.elim
    | node c =>
      exfalso
      rcases this with h' | ⟨k, hk, hp, hne⟩
      · cases h'
      · rcases hk with rfl | rfl | rfl | ⟨top', route, leaf', rfl, ht', -⟩ | ⟨top', rest, rfl, hnk⟩
        · rcases ht with rfl | rfl <;> simp at hp
        · rcases ht with rfl | rfl
          · exact hne rfl
          · simp at hp
        · rcases ht with rfl | rfl
          · simp at hp
          · exact hne rfl
        · have := (List.cons_prefix_cons.1 hp).1
          subst this
          rcases ht with rfl | rfl <;> simp at ht'
        · have := (List.cons_prefix_cons.1 hp).1
          subst this
          rcases ht with rfl | rfl <;> exact hnk (by decide)

theorem items_ok {d : Store} (htd : Tidy d) {top : String} {c : Store} (hc : getDict d top = .node c) {exclude : List String}
    {body : String → String → Store → Gen Metric}
    (h : ∀ g e data, deepGet d [top, g, e] = some (.node data) → (body g e data).2 = none) :
    (items (groups exclude body) (getDict d top)).2 = none := by
  rw [hc]
  simp only [items]
  rw [each_ok]
  rintro ⟨g, v⟩ hx
  have hgt : d.get? top = some (.node c) := by
    unfold getDict at hc
    cases hg : d.get? top with
    | none => rw [hg] at hc; simp only [Option.getD_none, Stat.node.injEq] at hc; subst hc; simp at hx
    | some w => rw [hg] at hc; simp only [Option.getD_some] at hc; rw [hc]
  unfold groups
  simp only
  split
  · rfl
  · cases v with
    | num x => rfl
    | text x => rfl
    | node es =>
      simp only
      rw [each_ok]
      rintro ⟨e, v⟩ hy
      cases v with
      | num x => rfl
      | text x => rfl
      | node data =>
        simp only [endpointsOf]
        have hct := tidy_child htd hgt
        have hge := Dict.get?_of_mem c g _ (hct [] c rfl) hx
        have hee := Dict.get?_of_mem es e _ (tidy_child hct hge [] es rfl) hy
        exact h g e data (by rw [deepGet_node hgt, deepGet_node hge, deepGet_one, hee])

theorem emit_ok {mk : ℚ → Metric} {v : Option Stat} (h : v = none ∨ ∃ x, v = some (.num x)) : (emit mk v).2 = none := by
  rcases h with rfl | ⟨x, rfl⟩ <;> rfl

theorem emitNonneg_ok {mk : ℚ → Metric} {v : Option Stat} (h : v = none ∨ ∃ x, v = some (.num x)) : (emitNonneg mk v).2 = none := by
  rcases h with rfl | ⟨x, rfl⟩
  · rfl
  · simp only [emitNonneg]; split <;> rfl

theorem leaf_of {d data : Store} {top g e : String} (h : deepGet d [top, g, e] = some (.node data)) (leaf : String) :
    data.get? leaf = deepGet d [top, g, e, leaf] := by
  rw [← deepGet_one, ← deepGet_append h [leaf]]; rfl

theorem translate_ok {d : Store} (htd : Tidy d) (hs : Shape d) {app : Store} (ha : d.get? "application" = some (.node app))
    (sn si : String) (exclude : List String) : (translate d sn si exclude).2 = none := by
  have hg : getDict d "application" = .node app := by unfold getDict; rw [ha]; rfl
  unfold translate
  simp only [hg]
  simp only [append_ok]
  refine ⟨emit_ok (shape_gauge hs (.inl rfl)), emit_ok (shape_gauge hs (.inr rfl)), ?_, ?_, ?_, ?_⟩
  · obtain ⟨c, hc⟩ := shape_top hs (top := "endpoint_data") (.inl rfl)
    refine items_ok htd hc ?_
    intro g e data h
    unfold endpointMetrics
    simp only [append_ok, leaf_of h]
    exact ⟨emit_ok (shape_leaf hs (.inl rfl) (by decide)), emitNonneg_ok (shape_leaf hs (.inl rfl) (by decide)),
      emitNonneg_ok (shape_leaf hs (.inl rfl) (by decide))⟩
  · obtain ⟨c, hc⟩ := shape_top hs (top := "buffered_endpoint_sizes") (.inr (.inl rfl))
    refine items_ok htd hc ?_
    intro g e data h
    unfold queueMetrics
    simp only [append_ok, leaf_of h]
    exact ⟨emit_ok (shape_leaf hs (.inr (.inl rfl)) (by decide)), emit_ok (shape_leaf hs (.inr (.inl rfl)) (by decide))⟩
  · obtain ⟨c, hc⟩ := shape_top hs (top := "buffered_sender_sizes") (.inr (.inr rfl))
    refine items_ok htd hc ?_
    intro g e data h
    unfold queueMetrics
    simp only [append_ok, leaf_of h]
    exact ⟨emit_ok (shape_leaf hs (.inr (.inr rfl)) (by decide)), emit_ok (shape_leaf hs (.inr (.inr rfl)) (by decide))⟩
  · rw [each_ok]
    intro x _
    unfold customMetrics
    split <;> rfl

end Verif.Prom
