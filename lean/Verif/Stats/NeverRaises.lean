import Verif.Stats.Props

/-!
# C48: when the statistics keeper never raises
-/

namespace Verif.Stats

open Verif.Py Spec

/-- Numbers and texts stand at the places in `P`, dictionaries above them. -/
structure Fits (P : List (List String)) (d : Store) : Prop where
  num : ∀ p x, deepGet d p = some (.num x) → p ∈ P
  text : ∀ p t, deepGet d p = some (.text t) → p ∈ P ∧ p ∈ identity
  node : ∀ p c, p ≠ [] → deepGet d p = some (.node c) → ∃ q ∈ P, p <+: q ∧ p ≠ q

theorem fits_nil (P : List (List String)) : Fits P [] := by
  constructor
  · intro p x h; cases p <;> simp [deepGet, Dict.get?] at h
  · intro p x h; cases p <;> simp [deepGet, Dict.get?] at h
  · intro p x hne h; cases p <;> simp [deepGet, Dict.get?] at h hne

theorem fits_reset {P : List (List String)} {d : Store} (h : Fits P d) : Fits P (resetStore d) := by
  constructor
  · intro p x hp
    rw [deepGet_reset] at hp
    cases hg : deepGet d p with
    | none => rw [hg] at hp; simp at hp
    | some y =>
      cases y with
      | num y => exact h.num _ _ hg
      | text y => exact (h.text _ _ hg).1
      | node y => rw [hg] at hp; simp [Stat.reset] at hp
  · intro p x hp
    rw [deepGet_reset] at hp
    cases hg : deepGet d p with
    | none => rw [hg] at hp; simp at hp
    | some y => rw [hg] at hp; cases y <;> simp [Stat.reset] at hp
  · intro p c hne hp
    rw [deepGet_reset] at hp
    cases hg : deepGet d p with
    | none => rw [hg] at hp; simp at hp
    | some y =>
      cases y with
      | num y => rw [hg] at hp; simp [Stat.reset] at hp
      | text y => rw [hg] at hp; simp [Stat.reset] at hp
      | node y => exact h.node _ _ hne hg

theorem fits_deepSet {P : List (List String)} {d d' : Store} (h : Fits P d) {ks : List String} (hk : ks ∈ P) {v : ℚ}
    (hs : deepSet d ks (.num v) = .ok d') : Fits P d' := by
  have w := deepSet_written ks d d' _ hs
  have hcases : ∀ p, p = ks ∨ deepGet d' p = none ∨ (p <+: ks ∧ p ≠ ks) ∨ deepGet d' p = deepGet d p := by
    intro p
    by_cases e : p = ks
    · exact .inl e
    by_cases h1 : ks <+: p
    · obtain ⟨t, rfl⟩ := h1
      cases t with
      | nil => simp at e
      | cons a t => exact .inr (.inl (deepGet_append_leaf ks d' _ w.same (by simp) a t))
    by_cases h2 : p <+: ks
    · exact .inr (.inr (.inl ⟨h2, e⟩))
    · exact .inr (.inr (.inr (w.other p h1 h2)))
  constructor
  · intro p x hp
    rcases hcases p with e | e | e | e
    · rw [e]; exact hk
    · rw [e] at hp; simp at hp
    · obtain ⟨c, hc⟩ := w.above p e.1 e.2; rw [hc] at hp; simp at hp
    · rw [e] at hp; exact h.num _ _ hp
  · intro p x hp
    rcases hcases p with e | e | e | e
    · rw [e, w.same] at hp; simp at hp
    · rw [e] at hp; simp at hp
    · obtain ⟨c, hc⟩ := w.above p e.1 e.2; rw [hc] at hp; simp at hp
    · rw [e] at hp; exact h.text _ _ hp
  · intro p c hne hp
    rcases hcases p with e | e | e | e
    · rw [e, w.same] at hp; simp at hp
    · rw [e] at hp; simp at hp
    · exact ⟨ks, hk, e.1, e.2⟩
    · rw [e] at hp; exact h.node _ _ hne hp

theorem fits_ok {P : List (List String)} (hP : Compatible P) {d : Store} (h : Fits P d) {ks : List String} (hk : ks ∈ P) (hne : ks ≠ [])
    (v : ℚ) : ∃ d', deepSet d ks (.num v) = .ok d' ∧ Fits P d' := by
  obtain ⟨d', hd⟩ := deepSet_ok ks d (.num v) hne (by
    intro p hp hpk
    cases hg : deepGet d p with
    | none => exact .inl rfl
    | some x =>
      cases x with
      | node c => exact .inr ⟨c, rfl⟩
      | num x => exact absurd (hP p (h.num _ _ hg) ks hk hp) hpk
      | text x => exact absurd (hP p (h.text _ _ hg).1 ks hk hp) hpk)
  exact ⟨d', hd, fits_deepSet h hk hd⟩

theorem fits_increment {P : List (List String)} (hP : Compatible P) {d : Store} (h : Fits P d) {key : String} (hk : split key ∈ P)
    (hi : split key ∉ identity) (v : ℚ) : ∃ d', incrementValue d key v = .ok d' ∧ Fits P d' := by
  unfold incrementValue
  cases hg : deepGet d (split key) with
  | none => exact fits_ok hP h hk (split_ne_nil _) _
  | some x =>
    cases x with
    | num x => exact fits_ok hP h hk (split_ne_nil _) _
    | text t => exact absurd (h.text _ _ hg).2 hi
    | node c =>
      obtain ⟨q, hq, hpq, hne⟩ := h.node _ _ (split_ne_nil _) hg
      exact absurd (hP _ hk q hq hpq) hne

theorem fits_set_one {P : List (List String)} {d : Store} (h : Fits P d) {k : String} (hk : [k] ∈ P) (v : ℚ) :
    Fits P (d.set k (.num v)) := fits_deepSet (ks := [k]) h hk rfl

theorem fits_stamp {P : List (List String)} (hA : ∀ p ∈ always, p ∈ P) {s : Keeper} (h : Fits P s.current) (now : ℚ) :
    Fits P (stamp s now) := by
  have h3 : Fits P (((s.current.set "timestamp" (.num now)).set "uptime" (.num (now - s.start))).set "gather_period" (.num s.gatherPeriod)) :=
    fits_set_one (fits_set_one (fits_set_one h (hA _ (by decide)) _) (hA _ (by decide)) _) (hA _ (by decide)) _
  unfold stamp
  simp only
  generalize ((s.current.set "timestamp" (.num now)).set "uptime" (.num (now - s.start))).set "gather_period" (.num s.gatherPeriod) = d at h3 ⊢
  have hn : ["application", "name"] ∈ P := hA _ (by decide)
  have hi : ["application", "instance"] ∈ P := hA _ (by decide)
  have key : ∀ p, (∃ ps, p = "application" :: ps) ∨
      deepGet (d.set "application" (.node [("name", .text s.name), ("instance", .text s.instance_)])) p = deepGet d p ∨ p = [] := by
    intro p
    cases p with
    | nil => exact .inr (.inr rfl)
    | cons a ps =>
      by_cases e : "application" = a
      · exact .inl ⟨ps, by rw [e]⟩
      · refine .inr (.inl ?_)
        rw [deepGet_set, if_neg e]
  have app : ∀ ps, deepGet (d.set "application" (.node [("name", .text s.name), ("instance", .text s.instance_)])) ("application" :: ps) =
      deepGet [("name", .text s.name), ("instance", .text s.instance_)] ps := by
    intro ps; rw [deepGet_set, if_pos rfl]
  have two : ∀ ps, ps = [] ∨ (ps = ["name"] ∧ deepGet [("name", .text s.name), ("instance", .text s.instance_)] ps = some (.text s.name)) ∨
      (ps = ["instance"] ∧ deepGet [("name", .text s.name), ("instance", .text s.instance_)] ps = some (.text s.instance_)) ∨
      deepGet [("name", .text s.name), ("instance", .text s.instance_)] ps = none := by
    intro ps
    cases ps with
    | nil => exact .inl rfl
    | cons a ps =>
      right
      simp only [deepGet, Dict.get?]
      by_cases e : "name" = a
      · cases ps with
        | nil => left; simp [e]
        | cons b ps => right; right; simp [e]
      · by_cases e' : "instance" = a
        · cases ps with
          | nil => right; left; subst e'; simp
          | cons b ps => right; right; subst e'; simp
        · right; right; simp [e, e']
  constructor
  · intro p x hp
    rcases key p with ⟨ps, rfl⟩ | e | rfl
    · rw [app] at hp
      rcases two ps with rfl | ⟨_, e⟩ | ⟨_, e⟩ | e
      · simp [deepGet] at hp
      all_goals rw [e] at hp; simp at hp
    · rw [e] at hp; exact h3.num _ _ hp
    · simp [deepGet] at hp
  · intro p x hp
    rcases key p with ⟨ps, rfl⟩ | e | rfl
    · rw [app] at hp
      rcases two ps with rfl | ⟨rfl, e⟩ | ⟨rfl, e⟩ | e
      · simp [deepGet] at hp
      · exact ⟨hn, by decide⟩
      · exact ⟨hi, by decide⟩
      · rw [e] at hp; simp at hp
    · rw [e] at hp; exact h3.text _ _ hp
    · simp [deepGet] at hp
  · intro p c hne hp
    rcases key p with ⟨ps, rfl⟩ | e | rfl
    · rw [app] at hp
      rcases two ps with rfl | ⟨_, e⟩ | ⟨_, e⟩ | e
      · exact ⟨_, hn, by simp, by simp⟩
      all_goals rw [e] at hp; simp at hp
    · rw [e] at hp; exact h3.node _ _ hne hp
    · exact absurd rfl hne

theorem fits_setAll {P : List (List String)} (hP : Compatible P) (es : List (String × ℚ)) : ∀ {d : Store}, Fits P d →
    (∀ x ∈ es, split x.1 ∈ P) → (setAll d es).1 = .ok () ∧ Fits P (setAll d es).2 := by
  induction es with
  | nil => intro d h _; exact ⟨rfl, h⟩
  | cons x es ih =>
    intro d h he
    obtain ⟨k, v⟩ := x
    obtain ⟨d', h1, h2⟩ := fits_ok hP h (he (k, v) (.head _)) (split_ne_nil k) v
    simp only [setAll, setValue, h1]
    exact ih h2 (fun x hx => he x (.tail _ hx))

/-- The keeper writes at places in `P` only. -/
structure Tidy (P : List (List String)) (s : Keeper) : Prop where
  fits : Fits P s.current
  durations : ∀ x ∈ s.durations, ∀ f ∈ fields, "endpoint_data" :: (split x.1 ++ [f]) ∈ P
  queues : ∀ k ∈ s.queues, split k ∈ P

theorem tidy_update {P : List (List String)} (hP : Compatible P) (hA : ∀ p ∈ always, p ∈ P) {s : Keeper} (h : Tidy P s) (now : ℚ)
    (sizes : String → ℚ) : (update s now sizes).1 = .ok () ∧ Tidy P (update s now sizes).2 := by
  have := fits_setAll hP (percentileEntries s.durations ++ s.queues.map fun k => (k, sizes k)) (fits_stamp hA h.fits now) (by
    intro x hx
    rcases List.mem_append.1 hx with hx | hx
    · obtain ⟨r, l, hm, h2⟩ := mem_entries (k := x.1) (v := x.2) hx
      rcases h2 with ⟨e, _⟩ | ⟨e, _⟩
      · rw [e, split_p95]; exact h.durations _ hm _ (by decide)
      · rw [e, split_p99]; exact h.durations _ hm _ (by decide)
    · obtain ⟨k, hk, rfl⟩ := List.mem_map.1 hx
      exact h.queues k hk)
  exact ⟨this.1, this.2, h.durations, h.queues⟩

theorem mem_set {β : Type} {d : Dict String β} {r : String} {v : β} {x : String × β} (hx : x ∈ Dict.set d r v) :
    x.1 = r ∨ ∃ y ∈ d, y.1 = x.1 := by
  have hx' : x.1 ∈ Dict.keys (Dict.set d r v) := List.mem_map.2 ⟨x, hx, rfl⟩
  rw [← Dict.has_iff] at hx'
  by_cases e : r = x.1
  · exact .inl e.symm
  · simp only [Dict.has, Dict.get?_set, e, if_false] at hx'
    rw [show (Dict.get? d x.1).isSome = Dict.has d x.1 from rfl, Dict.has_iff] at hx'
    obtain ⟨y, hy, hyx⟩ := List.mem_map.1 hx'
    exact .inr ⟨y, hy, hyx⟩

/-- One event. -/
theorem tidy_step {P : List (List String)} (hP : Compatible P) (hA : ∀ p ∈ always, p ∈ P) {s : Keeper} (h : Tidy P s) (e : Ev)
    (he : ∀ p ∈ places e, p ∈ P) (hs : Sensible e) (hr : ∀ r x, e = .call r x → r ∈ Dict.keys s.durations) :
    (∃ o, (step s e).1 = .ok o) ∧ Tidy P (step s e).2 := by
  have count : ∀ r : String, (∀ f ∈ fields, "endpoint_data" :: (split r ++ [f]) ∈ P) → ∀ v, ∃ d',
      incrementValue s.current ("endpoint_data." ++ r ++ ".call_count") v = .ok d' ∧ Fits P d' := by
    intro r hp v
    refine fits_increment hP h.fits (by rw [split_count]; exact hp _ (by decide)) ?_ v
    rw [split_count]; simp [identity]
  cases e with
  | track r =>
    have hp : ∀ f ∈ fields, "endpoint_data" :: (split r ++ [f]) ∈ P := fun f hf => he _ (List.mem_map.2 ⟨f, hf, rfl⟩)
    obtain ⟨d', h1, h2⟩ := count r hp 0
    simp only [step, h1]
    refine ⟨⟨_, rfl⟩, h2, ?_, h.queues⟩
    intro x hx f hf
    rcases mem_set hx with e | ⟨y, hy, e⟩
    · rw [e]; exact hp f hf
    · rw [← e]; exact h.durations y hy f hf
  | call r x =>
    have hp : ∀ f ∈ fields, "endpoint_data" :: (split r ++ [f]) ∈ P := fun f hf => he _ (List.mem_map.2 ⟨f, hf, rfl⟩)
    obtain ⟨d', h1, h2⟩ := count r hp 1
    have hk := hr r x rfl
    rw [← Dict.has_iff] at hk
    obtain ⟨l, hl⟩ := Option.isSome_iff_exists.1 hk
    simp only [step, h1, hl]
    refine ⟨⟨_, rfl⟩, h2, ?_, h.queues⟩
    intro x hx f hf
    rcases mem_set hx with e | ⟨y, hy, e⟩
    · rw [e]; exact hp f hf
    · rw [← e]; exact h.durations y hy f hf
  | set k v =>
    obtain ⟨d', h1, h2⟩ := fits_ok hP h.fits (he (split k) (.head _)) (split_ne_nil k) v
    simp only [step, setValue, h1]
    exact ⟨⟨_, rfl⟩, h2, h.durations, h.queues⟩
  | increment k v =>
    obtain ⟨d', h1, h2⟩ := fits_increment hP h.fits (he (split k) (.head _)) hs v
    simp only [step, h1]
    exact ⟨⟨_, rfl⟩, h2, h.durations, h.queues⟩
  | addQueue k =>
    refine ⟨⟨_, rfl⟩, h.fits, h.durations, ?_⟩
    intro k' hk'
    simp only [step] at hk'
    split at hk'
    · exact h.queues _ hk'
    · rcases List.mem_append.1 hk' with hk' | hk'
      · exact h.queues _ hk'
      · rw [List.mem_singleton.1 hk']; exact he _ (.head _)
  | read now sizes =>
    obtain ⟨h1, h2⟩ := tidy_update hP hA h now sizes
    simp only [step]
    rcases hx : update s now sizes with ⟨r, s'⟩
    rw [hx] at h1 h2
    simp only at h1 h2
    subst h1
    exact ⟨⟨_, rfl⟩, h2⟩
  | gather now sizes =>
    obtain ⟨h1, h2⟩ := tidy_update hP hA h now sizes
    simp only [step]
    rcases hx : update s now sizes with ⟨r, s'⟩
    rw [hx] at h1 h2
    simp only at h1 h2
    subst h1
    refine ⟨⟨_, rfl⟩, fits_reset h2.fits, ?_, h2.queues⟩
    intro x hx f hf
    obtain ⟨y, hy, rfl⟩ := List.mem_map.1 hx
    exact h2.durations y hy f hf
  | setLength n => exact ⟨⟨_, rfl⟩, h.fits, h.durations, h.queues⟩

/-- Registered endpoints have their durations. -/
theorem keys_step {s : Keeper} {e : Ev} (hok : ∃ o, (step s e).1 = .ok o) {r : String} (h : r ∈ Dict.keys s.durations ∨ e = .track r) :
    r ∈ Dict.keys (step s e).2.durations := by
  have hset : ∀ (a : String) (l : List ℚ), r ∈ Dict.keys s.durations ∨ r = a → r ∈ Dict.keys (Dict.set s.durations a l) := by
    intro a l h
    rw [← Dict.has_iff]
    simp only [Dict.has, Dict.get?_set]
    by_cases e : a = r
    · simp [e]
    · simp only [e, if_false]
      rcases h with h | h
      · rw [← Dict.has_iff] at h; exact h
      · exact absurd h.symm e
  obtain ⟨o, ho⟩ := hok
  cases e with
  | track a =>
    cases hd : incrementValue s.current ("endpoint_data." ++ a ++ ".call_count") 0 with
    | error e => simp [step, hd] at ho
    | ok d => simp only [step, hd]; exact hset a _ (h.imp id (fun h => by injection h with h; exact h.symm))
  | call a x =>
    have h' : r ∈ Dict.keys s.durations := by simpa using h
    cases hd : incrementValue s.current ("endpoint_data." ++ a ++ ".call_count") 1 with
    | error e => simp [step, hd] at ho
    | ok d =>
      cases hds : Dict.get? s.durations a with
      | none => simp [step, hd, hds] at ho
      | some ds => simp only [step, hd, hds]; exact hset a _ (.inl h')
  | set k v =>
    have h' : r ∈ Dict.keys s.durations := by simpa using h
    simp only [step]; cases setValue s.current k v <;> exact h'
  | increment k v =>
    have h' : r ∈ Dict.keys s.durations := by simpa using h
    simp only [step]; cases incrementValue s.current k v <;> exact h'
  | addQueue k => simpa [step] using h
  | setLength n => simpa [step] using h
  | read now sizes =>
    have h' : r ∈ Dict.keys s.durations := by simpa using h
    simp only [step, update]; split <;> (next h'' => injection h'' with h1 h2; subst h2; exact h')
  | gather now sizes =>
    have h' : r ∈ Dict.keys s.durations := by simpa using h
    simp only [step, update]
    split
    · next h'' =>
      injection h'' with h1 h2; subst h2
      have e : Dict.keys (s.durations.map fun x => (x.1, ([] : List ℚ))) = Dict.keys s.durations := by simp [Dict.keys]
      simp only
      rw [e]; exact h'
    · next h'' => injection h'' with h1 h2; subst h2; exact h'

/-- **C48, nothing raises.** If no statistic stands where another one needs a dictionary (endpoints, buffered queues and the application's own
statistics taken together), the application does not increment its name, and only registered endpoints are called, then no operation of the
keeper ever raises, in any history, and so no gathering is skipped and no request fails because of statistics. -/
theorem C48_never_raises (n i : String) (st gp : ℚ) (hl : Int) (es : List Ev) (hc : Compatible (always ++ es.flatMap places))
    (hs : ∀ e ∈ es, Sensible e) (hr : Registered es) : ∀ x ∈ trace (.new n i st gp hl) es, ∃ o, x.2 = .ok o := by
  suffices H : ∀ (fs pre : List Ev) (s : Keeper), es = pre ++ fs → Tidy (always ++ es.flatMap places) s →
      (∀ r, .track r ∈ pre → r ∈ Dict.keys s.durations) → ∀ x ∈ trace s fs, ∃ o, x.2 = .ok o from
    H es [] _ rfl ⟨fits_nil _, by simp [Keeper.new], by simp [Keeper.new]⟩ (by simp)
  intro fs
  induction fs with
  | nil => intro pre s _ _ _ x hx; simp [trace] at hx
  | cons e fs ih =>
    intro pre s he ht hk x hx
    have hm : e ∈ es := by rw [he]; simp
    have h1 := tidy_step hc (fun p hp => List.mem_append_left _ hp) ht e
      (fun p hp => List.mem_append_right _ (List.mem_flatMap.2 ⟨e, hm, hp⟩)) (hs e hm)
      (fun r x hx => hk r (hr pre r x fs (by rw [he, hx])))
    simp only [trace, List.mem_cons] at hx
    rcases hx with rfl | hx
    · exact h1.1
    · refine ih (pre ++ [e]) _ (by rw [he]; simp) h1.2 ?_ x hx
      intro r hmem
      rcases List.mem_append.1 hmem with h | h
      · exact keys_step h1.1 (.inl (hk r h))
      · exact keys_step h1.1 (.inr (List.mem_singleton.1 h).symm)

/-- A day with two endpoints, one of them buffered, and a statistic of the application. -/
def exBuffered (sizes : String → ℚ) : List Ev :=
  [.track "users", .track "users.get", .addQueue "buffered_endpoint_sizes.users.pending", .call "users" 1, .gather 300 sizes,
    .increment "jobs.done" 2, .call "users.get" 4, .read 310 sizes, .gather 600 sizes]

theorem exBuffered_ok (sizes : String → ℚ) : Compatible (always ++ (exBuffered sizes).flatMap places) ∧
    (∀ e ∈ exBuffered sizes, Sensible e) ∧ Registered (exBuffered sizes) := by
  have h1 : split "users" = ["users"] := by decide +kernel
  have h2 : split "users.get" = ["users", "get"] := by decide +kernel
  have h3 : split "buffered_endpoint_sizes.users.pending" = ["buffered_endpoint_sizes", "users", "pending"] := by decide +kernel
  have h4 : split "jobs.done" = ["jobs", "done"] := by decide +kernel
  refine ⟨?_, ?_, ?_⟩
  · have : always ++ (exBuffered sizes).flatMap places =
        always ++ ((fields.map fun f => "endpoint_data" :: (["users"] ++ [f])) ++ (fields.map fun f => "endpoint_data" :: (["users", "get"] ++ [f])) ++
          [["buffered_endpoint_sizes", "users", "pending"]] ++ (fields.map fun f => "endpoint_data" :: (["users"] ++ [f])) ++
          [["jobs", "done"]] ++ (fields.map fun f => "endpoint_data" :: (["users", "get"] ++ [f]))) := by
      simp [exBuffered, places, h1, h2, h3, h4]
    rw [this]
    unfold Compatible
    decide +kernel
  · intro e he
    simp only [exBuffered, List.mem_cons, List.not_mem_nil, or_false] at he
    rcases he with rfl | rfl | rfl | rfl | rfl | rfl | rfl | rfl | rfl <;>
      first | trivial | (simp only [Sensible, h4]; decide)
  · intro a r x b h
    have key : ∀ (l a b : List Ev) (e : Ev), l = a ++ e :: b → a = l.take a.length ∧ l[a.length]? = some e := by
      rintro l a b e rfl; simp
    obtain ⟨ha, hx⟩ := key _ _ _ _ h
    rw [ha]
    generalize a.length = m at hx
    match m with
    | 0 | 1 | 2 | 4 | 5 | 7 | 8 => simp [exBuffered] at hx
    | 3 => simp [exBuffered] at hx ⊢; simp [hx.1]
    | 6 => simp [exBuffered] at hx ⊢; simp [hx.1]
    | m + 9 => simp [exBuffered] at hx

example (sizes : String → ℚ) : (∀ x ∈ trace (.new "app" "0" 0 300 12) (exBuffered sizes), ∃ o, x.2 = .ok o) :=
  C48_never_raises _ _ _ _ _ _ (exBuffered_ok sizes).1 (exBuffered_ok sizes).2.1 (exBuffered_ok sizes).2.2

end Verif.Stats
