import Verif.Buffered.Abstract

/-!
# What stays true under `Micro`
-/

set_option linter.unusedSectionVars false

namespace Verif.Buffered

open Verif.Py Verif.Queue Verif.Queue.Spec Verif.Pending

variable {K D M R S : Type} [DecidableEq K]

theorem micros_ind {cfg : Cfg K D M R S} {b : Allow} {P : Abs K D M R → Prop} (hs : ∀ x y, P x → Micro cfg b x y → P y)
    {x y} (h : Micros cfg b x y) (h0 : P x) : P y := by
  induction h with
  | nil => exact h0
  | cons h1 _ ih => exact ih (hs _ _ h0 h1)

/-! ### logs -/

theorem known_append (l1 l2 : List (Ev K D M R)) : known (l1 ++ l2) = known l1 ++ known l2 := by
  induction l1 with
  | nil => rfl
  | cons e l ih => cases e <;> simp [known, ih]

theorem micro_log {cfg : Cfg K D M R S} {b : Allow} {x y} (h : Micro cfg b x y) : y.log = x.log ∨ ∃ e, y.log = e :: x.log := by
  cases h <;> first | exact .inl rfl | exact .inr ⟨_, rfl⟩

theorem micro_fresh {cfg : Cfg K D M R S} {b : Allow} {x y} (h : Micro cfg b x y) (hf : Fresh y.log) : Fresh x.log := by
  rcases micro_log h with e | ⟨ev, e⟩
  · rwa [e] at hf
  · rw [e, Fresh, ← List.singleton_append, known_append] at hf
    exact (List.nodup_append.mp hf).2.1

theorem micro_mem {cfg : Cfg K D M R S} {b : Allow} {x y} (h : Micro cfg b x y) {e} (he : e ∈ x.log) : e ∈ y.log := by
  rcases micro_log h with e' | ⟨ev, e'⟩ <;> rw [e']
  · exact he
  · exact List.mem_cons_of_mem _ he

theorem handled_mem {k : K} {log : List (Ev K D M R)} : k ∈ handled log ↔ .succeeded k ∈ log := by
  induction log with
  | nil => simp [handled]
  | cons e l ih => cases e <;> simp [handled, ih]

theorem settled_cons {log : List (Ev K D M R)} (h : Settled log) (ev : Ev K D M R)
    (hev : ∀ e, ev = .started e → e.key ∉ handled log) : Settled (ev :: log) := by
  intro newer older k heq e he
  cases newer with
  | nil => simp at he
  | cons n newer =>
    simp only [List.cons_append, List.cons.injEq] at heq
    obtain ⟨rfl, heq⟩ := heq
    simp only [List.mem_cons] at he
    rcases he with he | he
    · intro hk
      apply hev e he.symm
      rw [handled_mem, heq, hk]
      simp
    · exact h newer older k heq e he

/-! ### lists -/

theorem keys_push {V : Type} (l : Fifo K V) (v : V) (k : K) : keys (Spec.push l v k) = if k ∈ keys l then keys l else keys l ++ [k] := by
  unfold Spec.push; split <;> simp [keys]

theorem nodup_push {V : Type} {l : Fifo K V} (h : (keys l).Nodup) (v : V) (k : K) : (keys (Spec.push l v k)).Nodup := by
  rw [keys_push]; split
  · exact h
  · rename_i hk
    rw [List.nodup_append]
    refine ⟨h, by simp, ?_⟩
    intro a ha b hb; simp at hb; subst hb; intro e; subst e; exact hk ha

theorem keys_without {V : Type} (l : Fifo K V) (k : K) : keys (without l k) = (keys l).filter (fun x => x ≠ k) := by
  simp only [keys, without, List.filter_map]; rfl

theorem nodup_without {V : Type} {l : Fifo K V} (h : (keys l).Nodup) (k : K) : (keys (without l k)).Nodup := by
  rw [keys_without]; exact h.filter _

theorem nodup_moved {lp : List (K × PEntry K D M)} {le : List (K × EEntry K D M R)} (h : (keys lp).Nodup) : (keys (moved lp le)).Nodup := by
  induction le generalizing lp with
  | nil => exact h
  | cons x le ih => exact ih (nodup_push h _ _)

theorem moved_mem {lp : List (K × PEntry K D M)} {le : List (K × EEntry K D M R)} {x} (h : x ∈ moved lp le) :
    x ∈ lp ∨ ∃ y ∈ le, x = revive y := by
  induction le generalizing lp with
  | nil => exact .inl h
  | cons y le ih =>
    rcases ih (lp := Spec.push lp (revive y).2 y.1) h with h | ⟨z, hz, e⟩
    · rcases push_mem h with h | h
      · exact .inl h
      · exact .inr ⟨y, by simp, h⟩
    · exact .inr ⟨z, by simp [hz], e⟩

theorem keys_moved_mem {lp : List (K × PEntry K D M)} {le : List (K × EEntry K D M R)} {k : K} (h : k ∈ keys lp ∨ k ∈ keys le) :
    k ∈ keys (moved lp le) := by
  induction le generalizing lp with
  | nil => rcases h with h | h; exact h; simp [keys] at h
  | cons y le ih =>
    apply ih (lp := Spec.push lp (revive y).2 y.1)
    rw [keys_push]
    rcases h with h | h
    · left; split <;> simp [h]
    · simp only [keys, List.map_cons, List.mem_cons] at h
      rcases h with h | h
      · left; subst h; split <;> simp_all
      · exact .inr h

theorem count_eq_zero {l : List K} {k : K} : l.count k = 0 ↔ k ∉ l := List.count_eq_zero

theorem count_pos {l : List K} {k : K} : 0 < l.count k ↔ k ∈ l := List.count_pos_iff

theorem mem_keys_of {V : Type} {l : Fifo K V} {x : K × V} (h : x ∈ l) : x.1 ∈ keys l := List.mem_map.mpr ⟨x, h, rfl⟩

/-! ### well-formed contents -/

structure WF (a : Abs K D M R) : Prop where
  lp : (keys a.lp).Nodup
  le : (keys a.le).Nodup
  pKeys : ∀ x ∈ a.lp, x.2.key = x.1
  eKeys : ∀ x ∈ a.le, x.2.key = x.1

theorem wf_micro {cfg : Cfg K D M R S} {b : Allow} (x y : Abs K D M R) (h : WF x) (hm : Micro cfg b x y) : WF y := by
  have hpush : ∀ (e : PEntry K D M) (k : K), e.key = k → ∀ z ∈ Spec.push x.lp e k, z.2.key = z.1 := by
    intro e k he z hz
    rcases push_mem hz with hz | rfl
    · exact h.pKeys z hz
    · exact he
  have hpushe : ∀ (e : EEntry K D M R) (k : K), e.key = k → ∀ z ∈ Spec.push x.le e k, z.2.key = z.1 := by
    intro e k he z hz
    rcases push_mem hz with hz | rfl
    · exact h.eKeys z hz
    · exact he
  cases hm with
  | refused k => exact ⟨h.lp, h.le, h.pKeys, h.eKeys⟩
  | rejected k => exact ⟨h.lp, h.le, h.pKeys, h.eKeys⟩
  | ack k d m _ => exact ⟨h.lp, h.le, h.pKeys, h.eKeys⟩
  | store _ => exact ⟨nodup_push h.lp _ _, h.le, hpush _ _ rfl, h.eKeys⟩
  | take hl _ _ =>
    have h1 := h.lp; rw [hl] at h1
    exact ⟨(List.nodup_cons.mp h1).2, h.le, fun z hz => h.pKeys z (by rw [hl]; simp [hz]), h.eKeys⟩
  | takeBad hl _ _ =>
    have h1 := h.lp; rw [hl] at h1
    exact ⟨(List.nodup_cons.mp h1).2, h.le, fun z hz => h.pKeys z (by rw [hl]; simp [hz]), h.eKeys⟩
  | ok _ => exact ⟨h.lp, h.le, h.pKeys, h.eKeys⟩
  | retryError _ _ => exact ⟨h.lp, nodup_push h.le _ _, h.pKeys, hpushe _ _ rfl⟩
  | retry _ _ => exact ⟨nodup_push h.lp _ _, h.le, hpush _ _ rfl, h.eKeys⟩
  | fatal _ _ _ => exact ⟨h.lp, nodup_push h.le _ _, h.pKeys, hpushe _ _ rfl⟩
  | crash _ _ => exact ⟨h.lp, h.le, h.pKeys, h.eKeys⟩
  | clear => exact ⟨h.lp, by simp [keys], h.pKeys, by simp⟩
  | pop _ => exact ⟨h.lp, nodup_without h.le _, h.pKeys, fun z hz => h.eKeys z (List.mem_of_mem_filter hz)⟩
  | reOne _ => exact ⟨nodup_push h.lp _ _, nodup_without h.le _, hpush _ _ rfl, fun z hz => h.eKeys z (List.mem_of_mem_filter hz)⟩
  | reAll =>
    refine ⟨nodup_moved h.lp, by simp [keys], ?_, by simp⟩
    intro z hz
    rcases moved_mem hz with hz | ⟨y, _, rfl⟩
    · exact h.pKeys z hz
    · rfl

/-! ### where a key is -/

/-- Everywhere a key can be. -/
def Abs.places (a : Abs K D M R) : List K :=
  a.ext.map Prod.fst ++ (keys a.lp ++ (a.fl.map PEntry.key ++ (keys a.le ++ (handled a.log ++ (removed a.log ++ lostKeys a.log)))))

theorem places_micro {cfg : Cfg K D M R S} {b : Allow} (x y : Abs K D M R)
    (h : WF x ∧ ∀ k ∈ known x.log, k ∈ x.places) (hm : Micro cfg b x y) : WF y ∧ ∀ k ∈ known y.log, k ∈ y.places := by
  refine ⟨wf_micro x y h.1 hm, ?_⟩
  obtain ⟨hw, h⟩ := h
  intro k' hk'
  cases hm with
  | refused k =>
    have := h k' (by simpa [known] using hk')
    simpa [Abs.places, handled, removed, lostKeys] using this
  | rejected k =>
    have := h k' (by simpa [known] using hk')
    simpa [Abs.places, handled, removed, lostKeys] using this
  | ack k d m _ =>
    simp only [known, List.mem_cons] at hk'
    rcases hk' with rfl | hk'
    · simp [Abs.places]
    · have := h k' hk'
      simp only [Abs.places, handled, removed, lostKeys, List.map_append, List.mem_append] at this ⊢
      tauto
  | store hx =>
    have := h k' hk'
    simp only [Abs.places, hx, keys_push, List.map_append, List.map_cons, List.mem_append, List.mem_cons] at this ⊢
    split
    · rcases this with (h | h | h) | h | h | h | h | h | h <;> first | tauto | (subst h; tauto)
    · simp only [List.mem_append, List.mem_cons, List.not_mem_nil, or_false]; tauto
  | @take k e rest d hl hf _ =>
    have := h k' (by simpa [known] using hk')
    have hk := hw.pKeys (k, e) (by rw [hl]; simp)
    simp only at hk
    simp only [Abs.places, hl, hf, keys, List.map_cons, handled, removed, lostKeys, List.mem_append, List.mem_cons, List.map_nil,
      List.not_mem_nil, false_or, or_false, hk] at this ⊢
    tauto
  | takeBad hl hf _ =>
    have := h k' (by simpa [known] using hk')
    simp only [Abs.places, hl, keys, List.map_cons, handled, removed, lostKeys, List.mem_append, List.mem_cons] at this ⊢
    tauto
  | ok hf =>
    have := h k' (by simpa [known] using hk')
    simp only [Abs.places, hf, List.map_cons, List.map_nil, handled, removed, lostKeys, List.mem_append, List.mem_cons,
      List.not_mem_nil, false_or, or_false] at this ⊢
    tauto
  | retryError hf _ =>
    have := h k' (by simpa [known] using hk')
    simp only [Abs.places, hf, keys_push, List.map_cons, List.map_nil, handled, removed, lostKeys, List.mem_append, List.mem_cons,
      List.not_mem_nil, false_or, or_false] at this ⊢
    split <;> try simp only [List.mem_append, List.mem_cons, List.not_mem_nil, or_false] at this ⊢
    · rename_i hin
      rcases this with h | h | h | h | h | h | h <;> first | tauto | (subst h; tauto)
    · tauto
  | retry hf _ =>
    have := h k' (by simpa [known] using hk')
    simp only [Abs.places, hf, keys_push, List.map_cons, List.map_nil, handled, removed, lostKeys, List.mem_append, List.mem_cons,
      List.not_mem_nil, false_or, or_false] at this ⊢
    split <;> try simp only [List.mem_append, List.mem_cons, List.not_mem_nil, or_false] at this ⊢
    · rename_i hin
      rcases this with h | h | h | h | h | h | h <;> first | tauto | (subst h; tauto)
    · tauto
  | fatal r _ hf =>
    have := h k' (by simpa [known] using hk')
    simp only [Abs.places, hf, keys_push, List.map_cons, List.map_nil, handled, removed, lostKeys, List.mem_append, List.mem_cons,
      List.not_mem_nil, false_or, or_false] at this ⊢
    split <;> try simp only [List.mem_append, List.mem_cons, List.not_mem_nil, or_false] at this ⊢
    · rename_i hin
      rcases this with h | h | h | h | h | h | h <;> first | tauto | (subst h; tauto)
    · tauto
  | crash _ hf =>
    have := h k' (by simpa [known] using hk')
    simp only [Abs.places, hf, List.map_cons, List.map_nil, handled, removed, lostKeys, List.mem_append, List.mem_cons,
      List.not_mem_nil, false_or, or_false] at this ⊢
    tauto
  | clear =>
    have := h k' (by simpa [known] using hk')
    simp only [Abs.places, handled, removed, lostKeys, List.mem_append] at this ⊢
    tauto
  | @pop k _ =>
    have := h k' (by simpa [known] using hk')
    simp only [Abs.places, keys_without, handled, removed, lostKeys, List.mem_append, List.mem_filter, List.mem_cons, decide_eq_true_eq] at this ⊢
    by_cases e : k' = k <;> tauto
  | @reOne k v _ =>
    have := h k' (by simpa [known] using hk')
    simp only [Abs.places, keys_without, keys_push, handled, removed, lostKeys, List.mem_append, List.mem_filter, decide_eq_true_eq] at this ⊢
    by_cases e : k' = k
    · subst e; split <;> (try simp only [List.mem_append, List.mem_singleton]) <;> tauto
    · split <;> (try simp only [List.mem_append, List.mem_singleton]) <;> tauto
  | reAll =>
    have := h k' (by simpa [known] using hk')
    simp only [Abs.places, handled, removed, lostKeys, List.mem_append] at this ⊢
    rcases this with h | h | h | h | h | h | h
    · tauto
    · exact .inr (.inl (keys_moved_mem (.inl h)))
    · tauto
    · exact .inr (.inl (keys_moved_mem (.inr h)))
    · tauto
    · tauto
    · tauto

theorem known_ofLists {lp : List (K × PEntry K D M)} {le : List (K × EEntry K D M R)} (hp : ∀ x ∈ lp, x.2.key = x.1)
    (he : ∀ x ∈ le, x.2.key = x.1) : known (Abs.ofLists lp le).log = keys lp ++ keys le := by
  have h2 : known (le.map (fun x => (.foundFailed x.2 : Ev K D M R))) = keys le := by
    induction le with
    | nil => rfl
    | cons x le ih =>
      simp only [List.map_cons, known, keys, List.cons.injEq]
      exact ⟨he x (by simp), ih fun y hy => he y (by simp [hy])⟩
  have h1 : known (lp.map (fun x => (.found x.2 : Ev K D M R))) = keys lp := by
    induction lp with
    | nil => rfl
    | cons x lp ih =>
      simp only [List.map_cons, known, keys, List.cons.injEq]
      exact ⟨hp x (by simp), ih fun y hy => hp y (by simp [hy])⟩
  simp only [Abs.ofLists, known_append, h1, h2]

theorem ofLists_events {lp : List (K × PEntry K D M)} {le : List (K × EEntry K D M R)} {e : Ev K D M R}
    (h : e ∈ (Abs.ofLists lp le).log) : (∃ x ∈ lp, e = .found x.2) ∨ ∃ x ∈ le, e = .foundFailed x.2 := by
  simp only [Abs.ofLists, List.mem_append, List.mem_map] at h
  rcases h with ⟨x, hx, rfl⟩ | ⟨x, hx, rfl⟩
  · exact .inl ⟨x, hx, rfl⟩
  · exact .inr ⟨x, hx, rfl⟩

theorem ofLists_keys (lp : List (K × PEntry K D M)) (le : List (K × EEntry K D M R)) :
    handled (Abs.ofLists lp le).log = [] ∧ removed (Abs.ofLists lp le).log = [] ∧ lostKeys (Abs.ofLists lp le).log = [] := by
  simp only [Abs.ofLists]
  induction lp with
  | nil =>
    induction le with
    | nil => exact ⟨rfl, rfl, rfl⟩
    | cons x le ih => exact ih
  | cons x lp ih => exact ih

/-! ### one place only, and counting attempts -/

/-- What holds as long as every message has its own span key. -/
structure Facts (cfg : Cfg K D M R S) (b : Allow) (a : Abs K D M R) : Prop where
  tally : ∀ k, (known a.log).count k = (a.places).count k
  settled : Settled a.log
  ret : ∀ x ∈ a.lp, x.2.retries = attempts x.1 a.log
  fly : ∀ e ∈ a.fl, e.retries + 1 = attempts e.key a.log
  new : ∀ x ∈ a.ext, attempts x.1 a.log = 0
  bound : (∀ e, .found e ∈ a.log → e.retries < cap cfg) →
    (∀ x ∈ a.lp, x.2.retries < cap cfg) ∧ (∀ e ∈ a.fl, e.retries < cap cfg) ∧ (∀ k, attempts k a.log ≤ cap cfg) ∧
    ∀ x ∈ a.le, .foundFailed x.2 ∈ a.log ∨ b.fatal = true ∨ (x.2.reason = cfg.reason ∧ attempts x.1 a.log = cap cfg)

theorem count_places (a : Abs K D M R) (k : K) : a.places.count k =
    (a.ext.map Prod.fst).count k + ((keys a.lp).count k + ((a.fl.map PEntry.key).count k + ((keys a.le).count k +
      ((handled a.log).count k + ((removed a.log).count k + (lostKeys a.log).count k))))) := by
  simp only [Abs.places, List.count_append]

section step

variable {cfg : Cfg K D M R S} {b : Allow} {x y : Abs K D M R}

theorem Facts.one (h : Facts cfg b x) (hf : Fresh x.log) (k : K) :
    (a : Nat) → a = (x.ext.map Prod.fst).count k + ((keys x.lp).count k + ((x.fl.map PEntry.key).count k + ((keys x.le).count k +
      ((handled x.log).count k + ((removed x.log).count k + (lostKeys x.log).count k))))) → a ≤ 1 := by
  intro a ha
  rw [ha, ← count_places, ← h.tally]
  exact List.nodup_iff_count_le_one.mp hf k

/-- Not in the pending queue if elsewhere. -/
theorem Facts.notPending (h : Facts cfg b x) (hf : Fresh x.log) {k : K}
    (hk : k ∈ x.ext.map Prod.fst ∨ k ∈ x.fl.map PEntry.key ∨ k ∈ keys x.le ∨ k ∈ handled x.log) : k ∉ keys x.lp := by
  have := h.one hf k _ rfl
  rw [← count_eq_zero]
  rcases hk with hk | hk | hk | hk <;> have := count_pos.mpr hk <;> omega

theorem Facts.notFailed (h : Facts cfg b x) (hf : Fresh x.log) {k : K}
    (hk : k ∈ x.ext.map Prod.fst ∨ k ∈ x.fl.map PEntry.key ∨ k ∈ keys x.lp) : k ∉ keys x.le := by
  have := h.one hf k _ rfl
  rw [← count_eq_zero]
  rcases hk with hk | hk | hk <;> have := count_pos.mpr hk <;> omega

theorem Facts.notFlying (h : Facts cfg b x) (hf : Fresh x.log) {k : K}
    (hk : k ∈ x.ext.map Prod.fst ∨ k ∈ keys x.lp ∨ k ∈ keys x.le) : k ∉ x.fl.map PEntry.key := by
  have := h.one hf k _ rfl
  rw [← count_eq_zero]
  rcases hk with hk | hk | hk <;> have := count_pos.mpr hk <;> omega

theorem Facts.notOutside (h : Facts cfg b x) (hf : Fresh x.log) {k : K}
    (hk : k ∈ x.fl.map PEntry.key ∨ k ∈ keys x.lp ∨ k ∈ keys x.le) : k ∉ x.ext.map Prod.fst := by
  have := h.one hf k _ rfl
  rw [← count_eq_zero]
  rcases hk with hk | hk | hk <;> have := count_pos.mpr hk <;> omega

theorem Facts.unknown (h : Facts cfg b x) {k : K} (hk : k ∉ known x.log) :
    k ∉ x.ext.map Prod.fst ∧ k ∉ keys x.lp ∧ k ∉ x.fl.map PEntry.key ∧ k ∉ keys x.le := by
  have h1 := h.tally k
  rw [count_eq_zero.mpr hk, count_places] at h1
  simp only [← count_eq_zero]
  omega

/-- Events that concern no message in the system leave the counts alone. -/
theorem Facts.quiet (h : Facts cfg b x) (ev : Ev K D M R) (h1 : known [ev] = []) (h2 : handled [ev] = []) (h3 : removed [ev] = [])
    (h4 : lostKeys [ev] = []) (h5 : ∀ k l, attempts k (ev :: l) = attempts k l) (h6 : ∀ e, ev ≠ .started e)
    (h7 : ∀ e, ev ≠ .found e) : Facts cfg b { x with log := ev :: x.log } := by
  have e1 : known (ev :: x.log) = known x.log := by
    rw [← List.singleton_append, known_append, h1]; rfl
  have e2 : handled (ev :: x.log) = handled x.log := by cases ev <;> simp_all [handled]
  have e3 : removed (ev :: x.log) = removed x.log := by cases ev <;> simp_all [removed]
  have e4 : lostKeys (ev :: x.log) = lostKeys x.log := by cases ev <;> simp_all [lostKeys]
  refine ⟨?_, settled_cons h.settled _ (fun e he => absurd he (h6 e)), ?_, ?_, ?_, ?_⟩
  · intro k; have := h.tally k; rw [count_places] at this ⊢; simp only [e1, e2, e3, e4]; exact this
  · intro z hz; simp only [h5]; exact h.ret z hz
  · intro z hz; simp only [h5]; exact h.fly z hz
  · intro z hz; simp only [h5]; exact h.new z hz
  · intro hb
    obtain ⟨g1, g2, g3, g4⟩ := h.bound fun e he => hb e (List.mem_cons_of_mem _ he)
    refine ⟨g1, g2, fun k => by simp only [h5]; exact g3 k, fun z hz => ?_⟩
    simp only [h5]
    rcases g4 z hz with g | g
    · exact .inl (List.mem_cons_of_mem _ g)
    · exact .inr g

theorem facts_ack (h : Facts cfg b x) (k d m) (hf : Fresh (.acked k d m :: x.log)) :
    Facts cfg b { x with ext := x.ext ++ [(k, d, m)], log := .acked k d m :: x.log } := by
  have hk : k ∉ known x.log := by
    have := hf; simp only [Fresh, known, List.nodup_cons] at this; exact this.1
  obtain ⟨u1, u2, u3, u4⟩ := h.unknown hk
  have hne : ∀ z, z ≠ k → attempts z (.acked k d m :: x.log) = attempts z x.log := by
    intro z hz; simp only [attempts]; rw [if_neg (fun e => hz e.symm)]
  refine ⟨?_, settled_cons h.settled _ (by simp), ?_, ?_, ?_, ?_⟩
  · intro z; have := h.tally z; rw [count_places] at this ⊢
    simp only [known, handled, removed, lostKeys, List.map_append, List.map_cons, List.map_nil, List.count_append, List.count_cons,
      List.count_nil, this]
    omega
  · intro z hz
    rw [hne]; exact h.ret z hz
    rintro rfl; exact u2 (mem_keys_of hz)
  · intro z hz
    rw [hne]; exact h.fly z hz
    rintro rfl; exact u3 (List.mem_map.mpr ⟨z, hz, rfl⟩)
  · intro z hz
    simp only [List.mem_append, List.mem_singleton] at hz
    rcases hz with hz | rfl
    · rw [hne]; exact h.new z hz
      rintro rfl; exact u1 (List.mem_map.mpr ⟨z, hz, rfl⟩)
    · simp [attempts]
  · intro hb
    obtain ⟨g1, g2, g3, g4⟩ := h.bound fun e he => hb e (List.mem_cons_of_mem _ he)
    refine ⟨g1, g2, ?_, ?_⟩
    · intro z; simp only [attempts]; split
      · omega
      · exact g3 z
    · intro z hz
      rw [hne _ (by rintro rfl; exact u4 (mem_keys_of hz))]
      rcases g4 z hz with g | g
      · exact .inl (List.mem_cons_of_mem _ g)
      · exact .inr g

theorem facts_store (h : Facts cfg b x) (hf : Fresh x.log) {p q k d m} (hx : x.ext = p ++ (k, d, m) :: q) :
    Facts cfg b { x with ext := p ++ q, lp := Spec.push x.lp ⟨k, 0, d, m⟩ k } := by
  have hk : k ∉ keys x.lp := h.notPending hf (.inl (by rw [hx]; simp))
  rw [Spec.push, if_neg hk]
  have h0 : attempts k x.log = 0 := h.new (k, d, m) (by rw [hx]; simp)
  refine ⟨?_, h.settled, ?_, h.fly, ?_, ?_⟩
  · intro z; have := h.tally z; rw [count_places] at this ⊢
    rw [this, hx]
    simp only [keys, List.map_append, List.map_cons, List.map_nil, List.count_append, List.count_cons, List.count_nil]
    omega
  · intro z hz
    simp only [List.mem_append, List.mem_singleton] at hz
    rcases hz with hz | rfl
    · exact h.ret z hz
    · exact h0.symm
  · intro z hz; apply h.new; rw [hx]; simp only [List.mem_append, List.mem_cons] at hz ⊢; tauto
  · intro hb
    obtain ⟨g1, g2, g3, g4⟩ := h.bound hb
    refine ⟨?_, g2, g3, g4⟩
    intro z hz
    simp only [List.mem_append, List.mem_singleton] at hz
    rcases hz with hz | rfl
    · exact g1 z hz
    · simp [cap]

theorem facts_take (hw : WF x) (h : Facts cfg b x) (hf : Fresh x.log) {k e rest d} (hl : x.lp = (k, e) :: rest) (hfl : x.fl = []) :
    Facts cfg b { x with lp := rest, fl := [{ e with data := d }], log := .started { e with data := d } :: x.log } := by
  have hk : e.key = k := hw.pKeys (k, e) (by rw [hl]; simp)
  have hin : k ∈ keys x.lp := by rw [hl]; simp [keys]
  have hrest : k ∉ keys rest := by
    have := hw.lp; rw [hl] at this; exact (List.nodup_cons.mp this).1
  have hret := h.ret (k, e) (by rw [hl]; simp)
  simp only at hret
  have hne : ∀ z, z ≠ k → attempts z (.started { e with data := d } :: x.log) = attempts z x.log := by
    intro z hz; simp only [attempts, hk]; rw [if_neg (fun e => hz e.symm)]
  have hself : attempts k (.started { e with data := d } :: x.log) = e.retries + 1 := by simp [attempts, hk, hret]
  refine ⟨?_, settled_cons h.settled _ ?_, ?_, ?_, ?_, ?_⟩
  · intro z; have := h.tally z; rw [count_places] at this ⊢
    simp only [known, handled, removed, lostKeys]
    rw [this, hl, hfl]
    simp only [keys, List.map_cons, List.map_nil, List.count_cons, List.count_nil, hk]
    omega
  · intro e' he'
    simp only [Ev.started.injEq] at he'
    subst he'
    simp only [hk]
    intro hh
    exact h.notPending hf (.inr (.inr (.inr hh))) hin
  · intro z hz
    rw [hne _ (by rintro rfl; exact hrest (mem_keys_of hz))]
    exact h.ret z (by rw [hl]; simp [hz])
  · intro z hz
    simp only [List.mem_singleton] at hz
    subst hz
    rw [← hself, ← hk]
  · intro z hz
    rw [hne _ (by rintro rfl; exact h.notOutside hf (.inr (.inl hin)) (List.mem_map.mpr ⟨z, hz, rfl⟩))]
    exact h.new z hz
  · intro hb
    obtain ⟨g1, g2, g3, g4⟩ := h.bound fun e he => hb e (List.mem_cons_of_mem _ he)
    have hlt := g1 (k, e) (by rw [hl]; simp)
    simp only at hlt
    refine ⟨fun z hz => g1 z (by rw [hl]; simp [hz]), ?_, ?_, ?_⟩
    · intro z hz; simp only [List.mem_singleton] at hz; subst hz; exact hlt
    · intro z
      by_cases hz : z = k
      · subst hz; rw [hself]; omega
      · rw [hne z hz]; exact g3 z
    · intro z hz
      rw [hne _ (by rintro rfl; exact h.notFailed hf (.inr (.inr hin)) (mem_keys_of hz))]
      rcases g4 z hz with g | g
      · exact .inl (List.mem_cons_of_mem _ g)
      · exact .inr g

theorem facts_drop (h : Facts cfg b x) {k e rest} (hl : x.lp = (k, e) :: rest) :
    Facts cfg b { x with lp := rest, log := .lost k :: x.log } := by
  refine ⟨?_, settled_cons h.settled _ (by simp), ?_, h.fly, h.new, ?_⟩
  · intro z; have := h.tally z; rw [count_places] at this ⊢
    simp only [known, handled, removed, lostKeys]
    rw [this, hl]
    simp only [keys, List.map_cons, List.count_cons]
    omega
  · intro z hz; exact h.ret z (by rw [hl]; simp [hz])
  · intro hb
    obtain ⟨g1, g2, g3, g4⟩ := h.bound fun e he => hb e (List.mem_cons_of_mem _ he)
    refine ⟨fun z hz => g1 z (by rw [hl]; simp [hz]), g2, g3, fun z hz => ?_⟩
    rcases g4 z hz with g | g
    · exact .inl (List.mem_cons_of_mem _ g)
    · exact .inr g

/-- The attempt under way ends and the message leaves, as handled or lost. -/
theorem facts_leave (h : Facts cfg b x) {e} (hfl : x.fl = [e]) (ev : Ev K D M R) (hev : ev = .succeeded e.key ∨ ev = .lost e.key) :
    Facts cfg b { x with fl := [], log := ev :: x.log } := by
  have hat : ∀ k, attempts k (ev :: x.log) = attempts k x.log := by rcases hev with rfl | rfl <;> intro k <;> rfl
  refine ⟨?_, settled_cons h.settled _ (by rcases hev with rfl | rfl <;> simp), ?_, by simp, ?_, ?_⟩
  · intro z; have := h.tally z; rw [count_places] at this ⊢
    rw [hfl] at this
    rcases hev with rfl | rfl <;>
    · simp only [known, handled, removed, lostKeys]
      rw [this]
      simp only [List.map_cons, List.map_nil, List.count_cons, List.count_nil]
      omega
  · intro z hz; simp only [hat]; exact h.ret z hz
  · intro z hz; simp only [hat]; exact h.new z hz
  · intro hb
    obtain ⟨g1, g2, g3, g4⟩ := h.bound fun e he => hb e (List.mem_cons_of_mem _ he)
    refine ⟨g1, by simp, fun k => by simp only [hat]; exact g3 k, fun z hz => ?_⟩
    simp only [hat]
    rcases g4 z hz with g | g
    · exact .inl (List.mem_cons_of_mem _ g)
    · exact .inr g

/-- The attempt under way fails and the message goes to the error queue. -/
theorem facts_toError (h : Facts cfg b x) (hf : Fresh x.log) {e} (hfl : x.fl = [e]) (v : EEntry K D M R)
    (hv : b.fatal = true ∨ (v.reason = cfg.reason ∧ ((e.retries + 1 : Nat) : Int) ≥ cfg.maxRetries)) :
    Facts cfg b { x with fl := [], le := Spec.push x.le v e.key, log := .failed e.key :: x.log } := by
  have hk : e.key ∉ keys x.le := h.notFailed hf (.inr (.inl (by rw [hfl]; simp)))
  rw [Spec.push, if_neg hk]
  refine ⟨?_, settled_cons h.settled _ (by simp), h.ret, by simp, h.new, ?_⟩
  · intro z; have := h.tally z; rw [count_places] at this ⊢
    rw [hfl] at this
    simp only [known, handled, removed, lostKeys]
    rw [this]
    simp only [keys, List.map_append, List.map_cons, List.map_nil, List.count_append, List.count_cons, List.count_nil]
    omega
  · intro hb
    obtain ⟨g1, g2, g3, g4⟩ := h.bound fun e he => hb e (List.mem_cons_of_mem _ he)
    refine ⟨g1, by simp, g3, fun z hz => ?_⟩
    simp only [List.mem_append, List.mem_singleton] at hz
    rcases hz with hz | rfl
    · rcases g4 z hz with g | g
      · exact .inl (List.mem_cons_of_mem _ g)
      · exact .inr g
    · rcases hv with hv | ⟨hv1, hv2⟩
      · exact .inr (.inl hv)
      · refine .inr (.inr ⟨hv1, ?_⟩)
        have h1 := h.fly e (by rw [hfl]; simp)
        have h2 := g2 e (by rw [hfl]; simp)
        show attempts e.key x.log = cap cfg
        unfold cap at h2 ⊢
        omega

/-- The attempt under way fails and the message is queued again. -/
theorem facts_again (h : Facts cfg b x) (hf : Fresh x.log) {e} (hfl : x.fl = [e]) (v : PEntry K D M)
    (hv : v.retries = e.retries + 1) (hlt : ¬ ((e.retries + 1 : Nat) : Int) ≥ cfg.maxRetries) :
    Facts cfg b { x with fl := [], lp := Spec.push x.lp v e.key, log := .failed e.key :: x.log } := by
  have hk : e.key ∉ keys x.lp := h.notPending hf (.inr (.inl (by rw [hfl]; simp)))
  rw [Spec.push, if_neg hk]
  refine ⟨?_, settled_cons h.settled _ (by simp), ?_, by simp, h.new, ?_⟩
  · intro z; have := h.tally z; rw [count_places] at this ⊢
    rw [hfl] at this
    simp only [known, handled, removed, lostKeys]
    rw [this]
    simp only [keys, List.map_append, List.map_cons, List.map_nil, List.count_append, List.count_cons, List.count_nil]
    omega
  · intro z hz
    simp only [List.mem_append, List.mem_singleton] at hz
    rcases hz with hz | rfl
    · exact h.ret z hz
    · show v.retries = attempts e.key x.log
      rw [hv]; exact h.fly e (by rw [hfl]; simp)
  · intro hb
    obtain ⟨g1, g2, g3, g4⟩ := h.bound fun e he => hb e (List.mem_cons_of_mem _ he)
    refine ⟨?_, by simp, g3, fun z hz => ?_⟩
    · intro z hz
      simp only [List.mem_append, List.mem_singleton] at hz
      rcases hz with hz | rfl
      · exact g1 z hz
      · show v.retries < cap cfg
        unfold cap; omega
    · rcases g4 z hz with g | g
      · exact .inl (List.mem_cons_of_mem _ g)
      · exact .inr g

theorem facts_clear (h : Facts cfg b x) : Facts cfg b { x with le := [], log := .cleared (keys x.le) :: x.log } := by
  refine ⟨?_, settled_cons h.settled _ (by simp), h.ret, h.fly, h.new, ?_⟩
  · intro z; have := h.tally z; rw [count_places] at this ⊢
    simp only [known, handled, removed, lostKeys]
    rw [this]
    simp only [keys, List.map_nil, List.count_append, List.count_nil]
    omega
  · intro hb
    obtain ⟨g1, g2, g3, g4⟩ := h.bound fun e he => hb e (List.mem_cons_of_mem _ he)
    exact ⟨g1, g2, g3, by simp⟩

theorem count_without {V : Type} {l : Fifo K V} (hn : (keys l).Nodup) {k : K} (hk : k ∈ keys l) (z : K) :
    (keys l).count z = (keys (without l k)).count z + (if k = z then 1 else 0) := by
  rw [keys_without]
  split
  · rename_i e; subst e
    have h1 : (keys l).count k = 1 := List.count_eq_one_of_mem hn hk
    have h2 : ((keys l).filter (fun x => x ≠ k)).count k = 0 := by
      rw [count_eq_zero]; simp
    rw [h1, h2]
  · rename_i e
    rw [List.count_filter]
    · rfl
    · simp only [ne_eq, decide_eq_true_eq]; exact fun h => e h.symm

theorem facts_pop (hw : WF x) (h : Facts cfg b x) {k} (hk : k ∈ keys x.le) :
    Facts cfg b { x with le := without x.le k, log := .popped k :: x.log } := by
  refine ⟨?_, settled_cons h.settled _ (by simp), h.ret, h.fly, h.new, ?_⟩
  · intro z; have := h.tally z; rw [count_places] at this ⊢
    simp only [known, handled, removed, lostKeys]
    rw [this, count_without hw.le hk z]
    simp only [List.count_cons, beq_iff_eq]
    omega
  · intro hb
    obtain ⟨g1, g2, g3, g4⟩ := h.bound fun e he => hb e (List.mem_cons_of_mem _ he)
    refine ⟨g1, g2, g3, fun z hz => ?_⟩
    rcases g4 z (List.mem_of_mem_filter hz) with g | g
    · exact .inl (List.mem_cons_of_mem _ g)
    · exact .inr g

theorem facts_reOne (hw : WF x) (h : Facts cfg b x) (hf : Fresh x.log) {k} {v : EEntry K D M R} (hk : (k, v) ∈ x.le) :
    Facts cfg b { x with le := without x.le k, lp := Spec.push x.lp ⟨k, 0, v.data, v.md⟩ k, log := .requeued [k] :: x.log } := by
  have hke : k ∈ keys x.le := mem_keys_of hk
  have hkp : k ∉ keys x.lp := h.notPending hf (.inr (.inr (.inl hke)))
  rw [Spec.push, if_neg hkp]
  have hne : ∀ z, z ≠ k → attempts z (.requeued [k] :: x.log) = attempts z x.log := by
    intro z hz; simp [attempts, hz]
  refine ⟨?_, settled_cons h.settled _ (by simp), ?_, ?_, ?_, ?_⟩
  · intro z; have := h.tally z; rw [count_places] at this ⊢
    simp only [known, handled, removed, lostKeys]
    rw [this, count_without hw.le hke z]
    simp only [keys, List.map_append, List.map_cons, List.map_nil, List.count_append, List.count_cons, List.count_nil, beq_iff_eq]
    omega
  · intro z hz
    simp only [List.mem_append, List.mem_singleton] at hz
    rcases hz with hz | rfl
    · rw [hne _ (by rintro rfl; exact hkp (mem_keys_of hz))]; exact h.ret z hz
    · simp [attempts]
  · intro z hz
    rw [hne _ (by rintro rfl; exact h.notFlying hf (.inr (.inr hke)) (List.mem_map.mpr ⟨z, hz, rfl⟩))]; exact h.fly z hz
  · intro z hz
    rw [hne _ (by rintro rfl; exact h.notOutside hf (.inr (.inr hke)) (List.mem_map.mpr ⟨z, hz, rfl⟩))]; exact h.new z hz
  · intro hb
    obtain ⟨g1, g2, g3, g4⟩ := h.bound fun e he => hb e (List.mem_cons_of_mem _ he)
    refine ⟨?_, g2, ?_, fun z hz => ?_⟩
    · intro z hz
      simp only [List.mem_append, List.mem_singleton] at hz
      rcases hz with hz | rfl
      · exact g1 z hz
      · simp [cap]
    · intro z; simp only [attempts]; split
      · omega
      · exact g3 z
    · have hz' := List.mem_filter.mp hz
      simp only [ne_eq, decide_eq_true_eq] at hz'
      rw [hne _ hz'.2]
      rcases g4 z hz'.1 with g | g
      · exact .inl (List.mem_cons_of_mem _ g)
      · exact .inr g

theorem facts_reAll (hw : WF x) (h : Facts cfg b x) (hf : Fresh x.log) :
    Facts cfg b { x with le := [], lp := moved x.lp x.le, log := .requeued (keys x.le) :: x.log } := by
  have hd : ∀ z ∈ x.le, z.1 ∉ keys x.lp := fun z hz => h.notPending hf (.inr (.inr (.inl (mem_keys_of hz))))
  rw [moved_eq hw.le hd]
  have hkr : (x.le.map revive).map Prod.fst = keys x.le := by simp [keys, revive]
  have hne : ∀ z, z ∉ keys x.le → attempts z (.requeued (keys x.le) :: x.log) = attempts z x.log := by
    intro z hz; simp [attempts, hz]
  refine ⟨?_, settled_cons h.settled _ (by simp), ?_, ?_, ?_, ?_⟩
  · intro z; have := h.tally z; rw [count_places] at this ⊢
    simp only [known, handled, removed, lostKeys]
    rw [this]
    have : keys (x.lp ++ x.le.map revive) = keys x.lp ++ keys x.le := by rw [← hkr]; simp [keys]
    rw [this, List.count_append]
    simp only [keys, List.map_nil, List.count_nil]
    omega
  · intro z hz
    simp only [List.mem_append, List.mem_map] at hz
    rcases hz with hz | ⟨w, hw', rfl⟩
    · rw [hne _ (h.notFailed hf (.inr (.inr (mem_keys_of hz))))]; exact h.ret z hz
    · have : w.1 ∈ keys x.le := mem_keys_of hw'
      simp [attempts, revive, this]
  · intro z hz
    rw [hne _ (h.notFailed hf (.inr (.inl (List.mem_map.mpr ⟨z, hz, rfl⟩))))]; exact h.fly z hz
  · intro z hz
    rw [hne _ (h.notFailed hf (.inl (List.mem_map.mpr ⟨z, hz, rfl⟩)))]; exact h.new z hz
  · intro hb
    obtain ⟨g1, g2, g3, g4⟩ := h.bound fun e he => hb e (List.mem_cons_of_mem _ he)
    refine ⟨?_, g2, ?_, by simp⟩
    · intro z hz
      simp only [List.mem_append, List.mem_map] at hz
      rcases hz with hz | ⟨w, hw', rfl⟩
      · exact g1 z hz
      · simp [cap, revive]
    · intro z; simp only [attempts]; split
      · omega
      · exact g3 z

end step

theorem facts_micro {cfg : Cfg K D M R S} {b : Allow} (x y : Abs K D M R) (h : WF x ∧ (Fresh x.log → Facts cfg b x))
    (hm : Micro cfg b x y) : WF y ∧ (Fresh y.log → Facts cfg b y) := by
  refine ⟨wf_micro x y h.1 hm, fun hf' => ?_⟩
  have hf := micro_fresh hm hf'
  obtain ⟨hw, h⟩ := h
  have h := h hf
  cases hm with
  | refused k => exact h.quiet _ rfl rfl rfl rfl (fun _ _ => rfl) (by simp) (by simp)
  | rejected k => exact h.quiet _ rfl rfl rfl rfl (fun _ _ => rfl) (by simp) (by simp)
  | ack k d m _ => exact facts_ack h k d m hf'
  | store hx => exact facts_store h hf hx
  | take hl hfl _ => exact facts_take hw h hf hl hfl
  | takeBad hl _ _ => exact facts_drop h hl
  | ok hfl => exact facts_leave h hfl _ (.inl rfl)
  | retryError hfl hge => exact facts_toError h hf hfl _ (.inr ⟨rfl, hge⟩)
  | retry hfl hlt => exact facts_again h hf hfl _ rfl hlt
  | fatal r hb hfl => exact facts_toError h hf hfl _ (.inl hb)
  | crash _ hfl => exact facts_leave h hfl _ (.inr rfl)
  | clear => exact facts_clear h
  | pop hk => exact facts_pop hw h hk
  | reOne hk => exact facts_reOne hw h hf hk
  | reAll => exact facts_reAll hw h hf

theorem attempts_found {lp : List (K × PEntry K D M)} (tail : List (Ev K D M R)) (hn : (keys lp).Nodup) (hk : ∀ x ∈ lp, x.2.key = x.1) :
    ∀ x ∈ lp, attempts x.1 (lp.map (fun x => (.found x.2 : Ev K D M R)) ++ tail) = x.2.retries := by
  induction lp with
  | nil => simp
  | cons y lp ih =>
    intro x hx
    simp only [List.map_cons, List.cons_append, attempts]
    simp only [keys, List.map_cons, List.nodup_cons] at hn
    simp only [List.mem_cons] at hx
    rcases hx with rfl | hx
    · rw [if_pos (hk x (by simp))]
    · rw [if_neg, ih hn.2 (fun z hz => hk z (by simp [hz])) x hx]
      rw [hk y (by simp)]
      intro e; exact hn.1 (e ▸ mem_keys_of hx)

theorem attempts_ofLists (lp : List (K × PEntry K D M)) (le : List (K × EEntry K D M R)) (k : K) :
    attempts k (Abs.ofLists lp le).log = 0 ∨ ∃ x ∈ lp, attempts k (Abs.ofLists lp le).log = x.2.retries := by
  simp only [Abs.ofLists]
  induction lp with
  | nil =>
    left
    induction le with
    | nil => rfl
    | cons x le ih => simpa [attempts] using ih
  | cons y lp ih =>
    simp only [List.map_cons, List.cons_append, attempts]
    split
    · exact .inr ⟨y, by simp, rfl⟩
    · rcases ih with h | ⟨x, hx, h⟩
      · exact .inl h
      · exact .inr ⟨x, by simp [hx], h⟩

theorem facts_ofLists {cfg : Cfg K D M R S} {b : Allow} {lp : List (K × PEntry K D M)} {le : List (K × EEntry K D M R)}
    (h1 : (keys lp).Nodup) (h2 : (keys le).Nodup) (h3 : ∀ x ∈ lp, x.2.key = x.1) (h4 : ∀ x ∈ le, x.2.key = x.1) :
    WF (Abs.ofLists lp le) ∧ Facts cfg b (Abs.ofLists lp le) := by
  obtain ⟨e1, e2, e3⟩ := ofLists_keys lp le
  refine ⟨⟨h1, h2, h3, h4⟩, ?_, ?_, ?_, by simp [Abs.ofLists], by simp [Abs.ofLists], ?_⟩
  · intro k
    rw [known_ofLists h3 h4, count_places, e1, e2, e3]
    simp [Abs.ofLists]
  · intro newer older k heq e he
    have : Ev.started e ∈ (Abs.ofLists lp le).log := by rw [heq]; simp [he]
    rcases ofLists_events this with ⟨_, _, h⟩ | ⟨_, _, h⟩ <;> cases h
  · intro x hx; exact (attempts_found _ h1 h3 x hx).symm
  · intro hb
    have hlp : ∀ x ∈ lp, x.2.retries < cap cfg := fun x hx => hb x.2 (by
      simp only [Abs.ofLists, List.mem_append, List.mem_map]; exact .inl ⟨x, hx, rfl⟩)
    refine ⟨hlp, by simp [Abs.ofLists], ?_, ?_⟩
    · intro k
      rcases attempts_ofLists lp le k with h | ⟨x, hx, h⟩
      · omega
      · have := hlp x hx; omega
    · intro x hx
      left
      simp only [Abs.ofLists, List.mem_append, List.mem_map]
      exact .inr ⟨x, hx, rfl⟩

/-! ### payloads and metadata -/

/-- Payload and metadata of everything in the system are those it came in with. -/
structure Carried (cfg : Cfg K D M R S) (a : Abs K D M R) : Prop where
  fixed : ∀ k d m, .acked k d m ∈ a.log → cfg.build d = some d
  ext : ∀ x ∈ a.ext, .acked x.1 x.2.1 x.2.2 ∈ a.log
  lp : ∀ x ∈ a.lp, ∀ d, cfg.build x.2.data = some d → CameIn cfg.build a.log x.1 d x.2.md
  fl : ∀ e ∈ a.fl, CameIn cfg.build a.log e.key e.data e.md ∧ cfg.build e.data = some e.data
  le : ∀ x ∈ a.le, ∀ d, cfg.build x.2.data = some d → CameIn cfg.build a.log x.1 d x.2.md
  started : ∀ e, .started e ∈ a.log → CameIn cfg.build a.log e.key e.data e.md

theorem CameIn.mono {build : D → Option D} {l l' : List (Ev K D M R)} (hs : ∀ e ∈ l, e ∈ l') {k d m} (h : CameIn build l k d m) :
    CameIn build l' k d m := by
  rcases h with h | ⟨e, h, h'⟩ | ⟨e, h, h'⟩
  · exact .inl (hs _ h)
  · exact .inr (.inl ⟨e, hs _ h, h'⟩)
  · exact .inr (.inr ⟨e, hs _ h, h'⟩)

theorem carried_micro {cfg : Cfg K D M R S} {b : Allow} (hb : b.odd = false) (hkeep : ∀ m, cfg.keep m = m)
    (hid : ∀ d d', cfg.build d = some d' → cfg.build d' = some d') (x y : Abs K D M R) (h : WF x ∧ Carried cfg x)
    (hm : Micro cfg b x y) : WF y ∧ Carried cfg y := by
  refine ⟨wf_micro x y h.1 hm, ?_⟩
  have hmono : ∀ {k d m}, CameIn cfg.build x.log k d m → CameIn cfg.build y.log k d m :=
    fun h => h.mono fun e he => micro_mem hm he
  obtain ⟨hw, h⟩ := h
  have base : (∀ ev, y.log = ev :: x.log → (∀ k d m, ev ≠ .acked k d m) ∧ ∀ e, ev ≠ .started e) →
      (∀ k d m, .acked k d m ∈ y.log → cfg.build d = some d) ∧
      (∀ e, .started e ∈ y.log → CameIn cfg.build y.log e.key e.data e.md) := by
    intro hev
    rcases micro_log hm with e' | ⟨ev, e'⟩
    · rw [e']; exact ⟨h.fixed, h.started⟩
    · obtain ⟨n1, n2⟩ := hev ev e'
      constructor
      · intro k d m hk
        rw [e', List.mem_cons] at hk
        rcases hk with hk | hk
        · exact absurd hk.symm (n1 k d m)
        · exact h.fixed k d m hk
      · intro e he
        rw [e', List.mem_cons] at he
        rcases he with he | he
        · exact absurd he.symm (n2 e)
        · exact hmono (h.started e he)
  cases hm with
  | refused k =>
    obtain ⟨b1, b2⟩ := base (by intro ev he; cases he; simp)
    exact ⟨b1, fun z hz => List.mem_cons_of_mem _ (h.ext z hz), fun z hz d hd => hmono (h.lp z hz d hd),
      fun z hz => ⟨hmono (h.fl z hz).1, (h.fl z hz).2⟩, fun z hz d hd => hmono (h.le z hz d hd), b2⟩
  | rejected k =>
    obtain ⟨b1, b2⟩ := base (by intro ev he; cases he; simp)
    exact ⟨b1, fun z hz => List.mem_cons_of_mem _ (h.ext z hz), fun z hz d hd => hmono (h.lp z hz d hd),
      fun z hz => ⟨hmono (h.fl z hz).1, (h.fl z hz).2⟩, fun z hz d hd => hmono (h.le z hz d hd), b2⟩
  | ack k d m hraw =>
    have hbd : cfg.build d = some d := by
      rcases hraw with ⟨raw, hr⟩ | ho
      · exact hid raw d hr
      · rw [hb] at ho; cases ho
    refine ⟨?_, ?_, fun z hz d hd => hmono (h.lp z hz d hd), fun z hz => ⟨hmono (h.fl z hz).1, (h.fl z hz).2⟩,
      fun z hz d hd => hmono (h.le z hz d hd), ?_⟩
    · intro k' d' m' hk
      simp only [List.mem_cons, Ev.acked.injEq] at hk
      rcases hk with ⟨_, rfl, _⟩ | hk
      · exact hbd
      · exact h.fixed k' d' m' hk
    · intro z hz
      simp only [List.mem_append, List.mem_singleton] at hz
      rcases hz with hz | rfl
      · exact List.mem_cons_of_mem _ (h.ext z hz)
      · simp
    · intro e he
      simp only [List.mem_cons, reduceCtorEq, false_or] at he
      exact hmono (h.started e he)
  | @store p q k d m hx =>
    refine ⟨h.fixed, fun z hz => h.ext z (by rw [hx]; simp only [List.mem_append, List.mem_cons] at hz ⊢; tauto), ?_,
      h.fl, h.le, h.started⟩
    intro z hz d' hd'
    rcases push_mem hz with hz | rfl
    · exact h.lp z hz d' hd'
    · have ha := h.ext (k, d, m) (by rw [hx]; simp)
      simp only at ha hd'
      rw [h.fixed k d m ha, Option.some.injEq] at hd'
      subst hd'
      exact .inl ha
  | @take k e rest d hl hfl hbd =>
    have hk : e.key = k := hw.pKeys (k, e) (by rw [hl]; simp)
    have hci := h.lp (k, e) (by rw [hl]; simp) d hbd
    simp only at hci
    refine ⟨?_, fun z hz => List.mem_cons_of_mem _ (h.ext z hz), fun z hz d hd => hmono (h.lp z (by rw [hl]; simp [hz]) d hd), ?_,
      fun z hz d hd => hmono (h.le z hz d hd), ?_⟩
    · intro k' d' m' hk'
      simp only [List.mem_cons, reduceCtorEq, false_or] at hk'
      exact h.fixed k' d' m' hk'
    · intro z hz
      simp only [List.mem_singleton] at hz
      subst hz
      refine ⟨?_, hid _ _ hbd⟩
      have := hmono hci
      rw [← hk] at this
      exact this
    · intro e' he'
      simp only [List.mem_cons, Ev.started.injEq] at he'
      rcases he' with rfl | he'
      · have := hmono hci
        rw [← hk] at this
        exact this
      · exact hmono (h.started e' he')
  | takeBad hl hfl _ =>
    obtain ⟨b1, b2⟩ := base (by intro ev he; cases he; simp)
    exact ⟨b1, fun z hz => List.mem_cons_of_mem _ (h.ext z hz), fun z hz d hd => hmono (h.lp z (by rw [hl]; simp [hz]) d hd),
      fun z hz => ⟨hmono (h.fl z hz).1, (h.fl z hz).2⟩, fun z hz d hd => hmono (h.le z hz d hd), b2⟩
  | ok hfl =>
    obtain ⟨b1, b2⟩ := base (by intro ev he; cases he; simp)
    exact ⟨b1, fun z hz => List.mem_cons_of_mem _ (h.ext z hz), fun z hz d hd => hmono (h.lp z hz d hd),
      by simp, fun z hz d hd => hmono (h.le z hz d hd), b2⟩
  | @retryError e hfl _ =>
    obtain ⟨b1, b2⟩ := base (by intro ev he; cases he; simp)
    refine ⟨b1, fun z hz => List.mem_cons_of_mem _ (h.ext z hz), fun z hz d hd => hmono (h.lp z hz d hd),
      by simp, ?_, b2⟩
    intro z hz d hd
    obtain ⟨f1, f2⟩ := h.fl e (by rw [hfl]; simp)
    rcases push_mem hz with hz | rfl
    · exact hmono (h.le z hz d hd)
    · simp only [f2, Option.some.injEq] at hd; subst hd; simp only [hkeep]; exact hmono f1
  | @retry e hfl _ =>
    obtain ⟨b1, b2⟩ := base (by intro ev he; cases he; simp)
    refine ⟨b1, fun z hz => List.mem_cons_of_mem _ (h.ext z hz), ?_,
      by simp, fun z hz d hd => hmono (h.le z hz d hd), b2⟩
    intro z hz d hd
    obtain ⟨f1, f2⟩ := h.fl e (by rw [hfl]; simp)
    rcases push_mem hz with hz | rfl
    · exact hmono (h.lp z hz d hd)
    · simp only [f2, Option.some.injEq] at hd; subst hd; simp only [hkeep]; exact hmono f1
  | @fatal e r _ hfl =>
    obtain ⟨b1, b2⟩ := base (by intro ev he; cases he; simp)
    refine ⟨b1, fun z hz => List.mem_cons_of_mem _ (h.ext z hz), fun z hz d hd => hmono (h.lp z hz d hd),
      by simp, ?_, b2⟩
    intro z hz d hd
    obtain ⟨f1, f2⟩ := h.fl e (by rw [hfl]; simp)
    rcases push_mem hz with hz | rfl
    · exact hmono (h.le z hz d hd)
    · simp only [f2, Option.some.injEq] at hd; subst hd; simp only [hkeep]; exact hmono f1
  | crash _ hfl =>
    obtain ⟨b1, b2⟩ := base (by intro ev he; cases he; simp)
    exact ⟨b1, fun z hz => List.mem_cons_of_mem _ (h.ext z hz), fun z hz d hd => hmono (h.lp z hz d hd),
      by simp, fun z hz d hd => hmono (h.le z hz d hd), b2⟩
  | clear =>
    obtain ⟨b1, b2⟩ := base (by intro ev he; cases he; simp)
    exact ⟨b1, fun z hz => List.mem_cons_of_mem _ (h.ext z hz), fun z hz d hd => hmono (h.lp z hz d hd),
      fun z hz => ⟨hmono (h.fl z hz).1, (h.fl z hz).2⟩, by simp, b2⟩
  | pop _ =>
    obtain ⟨b1, b2⟩ := base (by intro ev he; cases he; simp)
    exact ⟨b1, fun z hz => List.mem_cons_of_mem _ (h.ext z hz), fun z hz d hd => hmono (h.lp z hz d hd),
      fun z hz => ⟨hmono (h.fl z hz).1, (h.fl z hz).2⟩, fun z hz d hd => hmono (h.le z (List.mem_of_mem_filter hz) d hd), b2⟩
  | @reOne k v hk =>
    obtain ⟨b1, b2⟩ := base (by intro ev he; cases he; simp)
    refine ⟨b1, fun z hz => List.mem_cons_of_mem _ (h.ext z hz), ?_,
      fun z hz => ⟨hmono (h.fl z hz).1, (h.fl z hz).2⟩, fun z hz d hd => hmono (h.le z (List.mem_of_mem_filter hz) d hd), b2⟩
    intro z hz d hd
    rcases push_mem hz with hz | rfl
    · exact hmono (h.lp z hz d hd)
    · exact hmono (h.le (k, v) hk d hd)
  | reAll =>
    obtain ⟨b1, b2⟩ := base (by intro ev he; cases he; simp)
    refine ⟨b1, fun z hz => List.mem_cons_of_mem _ (h.ext z hz), ?_,
      fun z hz => ⟨hmono (h.fl z hz).1, (h.fl z hz).2⟩, by simp, b2⟩
    intro z hz d hd
    rcases moved_mem hz with hz | ⟨w, hw', rfl⟩
    · exact hmono (h.lp z hz d hd)
    · exact hmono (h.le w hw' d hd)

theorem carried_ofLists {cfg : Cfg K D M R S} {lp : List (K × PEntry K D M)} {le : List (K × EEntry K D M R)}
    (h3 : ∀ x ∈ lp, x.2.key = x.1) (h4 : ∀ x ∈ le, x.2.key = x.1) : Carried cfg (Abs.ofLists lp le) := by
  refine ⟨?_, by simp [Abs.ofLists], ?_, by simp [Abs.ofLists], ?_, ?_⟩
  · intro k d m h
    rcases ofLists_events h with ⟨_, _, h⟩ | ⟨_, _, h⟩ <;> cases h
  · intro x hx d hd
    refine .inr (.inl ⟨x.2, ?_, h3 x hx, rfl, hd⟩)
    simp only [Abs.ofLists, List.mem_append, List.mem_map]
    exact .inl ⟨x, hx, rfl⟩
  · intro x hx d hd
    refine .inr (.inr ⟨x.2, ?_, h4 x hx, rfl, hd⟩)
    simp only [Abs.ofLists, List.mem_append, List.mem_map]
    exact .inr ⟨x, hx, rfl⟩
  · intro e h
    rcases ofLists_events h with ⟨_, _, h⟩ | ⟨_, _, h⟩ <;> cases h

/-! ### nothing is lost without an exception -/

/-- Every payload in the system can be read back. -/
structure Readable (cfg : Cfg K D M R S) (a : Abs K D M R) : Prop where
  ext : ∀ x ∈ a.ext, cfg.build x.2.1 ≠ none
  lp : ∀ x ∈ a.lp, cfg.build x.2.data ≠ none
  fl : ∀ e ∈ a.fl, cfg.build e.data ≠ none
  le : ∀ x ∈ a.le, cfg.build x.2.data ≠ none
  none : lostKeys a.log = []

theorem readable_micro {cfg : Cfg K D M R S} {b : Allow} (hb : b.odd = false) (hcr : b.crash = false)
    (hid : ∀ d d', cfg.build d = some d' → cfg.build d' ≠ none) (x y : Abs K D M R) (h : Readable cfg x)
    (hm : Micro cfg b x y) : Readable cfg y := by
  cases hm with
  | refused k => exact ⟨h.ext, h.lp, h.fl, h.le, h.none⟩
  | rejected k => exact ⟨h.ext, h.lp, h.fl, h.le, h.none⟩
  | ack k d m hraw =>
    refine ⟨?_, h.lp, h.fl, h.le, h.none⟩
    intro z hz
    simp only [List.mem_append, List.mem_singleton] at hz
    rcases hz with hz | rfl
    · exact h.ext z hz
    · rcases hraw with ⟨raw, hr⟩ | ho
      · exact hid raw d hr
      · rw [hb] at ho; cases ho
  | @store p q k d m hx =>
    refine ⟨fun z hz => h.ext z (by rw [hx]; simp only [List.mem_append, List.mem_cons] at hz ⊢; tauto), ?_, h.fl, h.le, h.none⟩
    intro z hz
    rcases push_mem hz with hz | rfl
    · exact h.lp z hz
    · exact h.ext (k, d, m) (by rw [hx]; simp)
  | @take k e rest d hl hfl hbd =>
    refine ⟨h.ext, fun z hz => h.lp z (by rw [hl]; simp [hz]), ?_, h.le, h.none⟩
    intro z hz; simp only [List.mem_singleton] at hz; subst hz; exact hid _ _ hbd
  | @takeBad k e rest hl _ hbd => exact absurd hbd (h.lp (k, e) (by rw [hl]; simp))
  | ok hfl => exact ⟨h.ext, h.lp, by simp, h.le, h.none⟩
  | @retryError e hfl _ =>
    refine ⟨h.ext, h.lp, by simp, ?_, h.none⟩
    intro z hz
    rcases push_mem hz with hz | rfl
    · exact h.le z hz
    · exact h.fl e (by rw [hfl]; simp)
  | @retry e hfl _ =>
    refine ⟨h.ext, ?_, by simp, h.le, h.none⟩
    intro z hz
    rcases push_mem hz with hz | rfl
    · exact h.lp z hz
    · exact h.fl e (by rw [hfl]; simp)
  | @fatal e r _ hfl =>
    refine ⟨h.ext, h.lp, by simp, ?_, h.none⟩
    intro z hz
    rcases push_mem hz with hz | rfl
    · exact h.le z hz
    · exact h.fl e (by rw [hfl]; simp)
  | crash hc _ => rw [hcr] at hc; cases hc
  | clear => exact ⟨h.ext, h.lp, h.fl, by simp, h.none⟩
  | pop _ => exact ⟨h.ext, h.lp, h.fl, fun z hz => h.le z (List.mem_of_mem_filter hz), h.none⟩
  | @reOne k v hk =>
    refine ⟨h.ext, ?_, h.fl, fun z hz => h.le z (List.mem_of_mem_filter hz), h.none⟩
    intro z hz
    rcases push_mem hz with hz | rfl
    · exact h.lp z hz
    · exact h.le (k, v) hk
  | reAll =>
    refine ⟨h.ext, ?_, h.fl, by simp, h.none⟩
    intro z hz
    rcases moved_mem hz with hz | ⟨w, hw', rfl⟩
    · exact h.lp z hz
    · exact h.le w hw'

theorem readable_ofLists {cfg : Cfg K D M R S} {lp : List (K × PEntry K D M)} {le : List (K × EEntry K D M R)}
    (h1 : ∀ e, .found e ∈ (Abs.ofLists lp le).log → cfg.build e.data ≠ none)
    (h2 : ∀ e, .foundFailed e ∈ (Abs.ofLists lp le).log → cfg.build e.data ≠ none) : Readable cfg (Abs.ofLists lp le) := by
  refine ⟨by simp [Abs.ofLists], ?_, by simp [Abs.ofLists], ?_, (ofLists_keys lp le).2.2⟩
  · intro x hx; apply h1; simp only [Abs.ofLists, List.mem_append, List.mem_map]; exact .inl ⟨x, hx, rfl⟩
  · intro x hx; apply h2; simp only [Abs.ofLists, List.mem_append, List.mem_map]; exact .inr ⟨x, hx, rfl⟩

theorem micros_mem {cfg : Cfg K D M R S} {b : Allow} {x y} (h : Micros cfg b x y) {e} (he : e ∈ x.log) : e ∈ y.log := by
  induction h with
  | nil => exact he
  | cons h1 _ ih => exact ih (micro_mem h1 he)

end Verif.Buffered
