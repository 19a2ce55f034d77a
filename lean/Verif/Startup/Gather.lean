import Verif.Startup.Before

namespace Verif.Startup

/-! ## What `gather` waits for -/

/-- How task `t` has ended, if it has. -/
def overOf (s : St) (t : Nat) : Option (Option Nat) := s.tasks[t]?.bind Task.over

/-- Number of a task of the application. -/
def ownOf (x : Task) : Option Nat := match x.kind with
  | .own j => some j
  | _ => none

/-- One more, if it is a task of the application. -/
def bump (k : Kind) (n : Nat) : Nat := match k with
  | .own _ => n + 1
  | _ => n

/-- Code that does not raise. -/
def Calm (code : List Cmd) : Prop := ∀ e, Cmd.raise e ∉ code

/-- Tasks, list and trace belong together. -/
structure Base (code : List Cmd) (s : St) : Prop where
  ended_of : ∀ (t : Nat) (x : Task) (r : Option Nat), s.tasks[t]? = some x → x.over = some r → Ev.ended x.kind r ∈ s.trace
  of_ended : ∀ (k : Kind) (r : Option Nat), Ev.ended k r ∈ s.trace → ∃ (t : Nat) (x : Task), s.tasks[t]? = some x ∧ x.kind = k ∧ x.over = some r
  kept_iff : ∀ (t : Nat) (x : Task), s.tasks[t]? = some x → (t ∈ s.kept ↔ Belongs code x.kind)
  owns : s.tasks.filterMap ownOf = List.range s.own
  kept_lt : ∀ t ∈ s.kept, t < s.tasks.length
  nodup : s.kept.Nodup
  calm : Ev.gathered ∈ s.trace → Calm code

/-- What is left of the code of `setup_tasks`. -/
def Rest (code rest : List Cmd) (s : St) : Prop := ∃ p, code = p ++ rest ∧ (flags p).length = s.own ∧ Calm p

/-- The code that `__start` has still to run. -/
def Todo (code : List Cmd) (s : St) : Prop := match s.main with
  | .fresh => s.own = 0
  | .waiting rest => Rest code rest s
  | .resumed rest => Rest code rest s
  | .gathering => s.own = (flags code).length ∧ Calm code
  | .over r => s.own ≤ (flags code).length ∧ (r = none → s.own = (flags code).length) ∧
    (Calm code ∨ ∃ p e q, code = p ++ .raise e :: q ∧ Calm p ∧ r = some e)

theorem base_same {code : List Cmd} {s s' : St} (h : Base code s) (h1 : s'.tasks = s.tasks) (h2 : s'.trace = s.trace) (h3 : s'.kept = s.kept)
    (h4 : s'.own = s.own) : Base code s' := by
  constructor
  · rw [h1, h2]; exact h.ended_of
  · rw [h1, h2]; exact h.of_ended
  · rw [h1, h3]; exact h.kept_iff
  · rw [h1, h4]; exact h.owns
  · rw [h1, h3]; exact h.kept_lt
  · rw [h3]; exact h.nodup
  · rw [h2]; exact h.calm

theorem base_say {code : List Cmd} {s s' : St} {e : Ev} (h : Base code s) (h1 : s'.tasks = s.tasks) (h2 : s'.trace = s.trace ++ [e])
    (h3 : s'.kept = s.kept) (h4 : s'.own = s.own) (he : ∀ k r, e ≠ .ended k r)
    (hg : e = .gathered → Calm code) : Base code s' := by
  constructor
  · rw [h1, h2]; exact fun t x r hx ho => List.mem_append_left _ (h.ended_of t x r hx ho)
  · rw [h1, h2]
    intro k r hk
    rcases List.mem_append.1 hk with g | g
    · exact h.of_ended k r g
    · exact absurd (List.mem_singleton.1 g).symm (he k r)
  · rw [h1, h3]; exact h.kept_iff
  · rw [h1, h4]; exact h.owns
  · rw [h1, h3]; exact h.kept_lt
  · rw [h3]; exact h.nodup
  · rw [h2]
    intro g
    rcases List.mem_append.1 g with g | g
    · exact h.calm g
    · exact hg (List.mem_singleton.1 g).symm

theorem getElem?_snoc_some {α : Type} {l : List α} {a x : α} {t : Nat} (h : (l ++ [a])[t]? = some x) : l[t]? = some x ∨ (t = l.length ∧ x = a) := by
  rcases Nat.lt_trichotomy t l.length with h1 | h1 | h1
  · rw [List.getElem?_append_left h1] at h; exact .inl h
  · right
    subst h1
    simp at h
    exact ⟨rfl, h.symm⟩
  · rw [List.getElem?_eq_none (by simp; omega)] at h; cases h

theorem base_spawn {code : List Cmd} {s : St} (k : Kind) (b : Bool) (o : Nat) (h : Base code s) (hb : b = true ↔ Belongs code k)
    (ho : o = bump k s.own) (hk : ∀ j, k = .own j → j = s.own) :
    Base code { spawn k b s with own := o } := by
  have hlt : s.tasks.length ∉ s.kept := fun hm => Nat.lt_irrefl _ (h.kept_lt _ hm)
  constructor
  · intro t x r hx hov
    rcases getElem?_snoc_some hx with g | ⟨_, g⟩
    · exact h.ended_of t x r g hov
    · rw [g] at hov; cases hov
  · intro k' r hk'
    obtain ⟨t, x, h1, h2, h3⟩ := h.of_ended k' r hk'
    refine ⟨t, x, ?_, h2, h3⟩
    simp only [spawn]
    rw [List.getElem?_append_left (List.getElem?_eq_some_iff.1 h1).1]; exact h1
  · intro t x hx
    rcases getElem?_snoc_some hx with g | ⟨g1, g⟩
    · rw [← h.kept_iff t x g]
      have : t < s.tasks.length := (List.getElem?_eq_some_iff.1 g).1
      simp only [spawn]
      cases b with
      | false => simp
      | true =>
        simp only [if_true, List.mem_append, List.mem_singleton]
        constructor
        · rintro (g | g)
          · exact g
          · omega
        · exact .inl
    · rw [g]
      simp only [spawn]
      subst g1
      rw [← hb]
      cases b with
      | false => simp [hlt]
      | true => simp
  · simp only [spawn, List.filterMap_append, h.owns]
    rw [ho]
    cases k with
    | own j =>
      rw [hk j rfl]; simp only [bump, List.range_succ]; rfl
    | _ => simp [ownOf, bump]
  · intro t ht
    simp only [spawn, List.length_append, List.length_singleton] at ht ⊢
    cases b with
    | false => exact Nat.lt_succ_of_lt (h.kept_lt t ht)
    | true =>
      simp only [if_true, List.mem_append, List.mem_singleton] at ht
      rcases ht with g | g
      · exact Nat.lt_succ_of_lt (h.kept_lt t g)
      · omega
  · simp only [spawn]
    cases b with
    | false => exact h.nodup
    | true =>
      simp only [if_true]
      rw [List.nodup_append]
      refine ⟨h.nodup, by simp, ?_⟩
      intro a ha b hb
      rw [List.mem_singleton.1 hb]
      rintro rfl
      exact hlt ha
  · exact h.calm

theorem filterMap_modify_own (l : List Task) (t : Nat) (f : Task → Task) (hf : ∀ x, (f x).kind = x.kind) :
    (l.modify t f).filterMap ownOf = l.filterMap ownOf := by
  induction l generalizing t with
  | nil => simp
  | cons a l ih =>
    cases t with
    | zero =>
      simp only [List.modify_zero_cons, List.filterMap_cons]
      rw [show ownOf (f a) = ownOf a by unfold ownOf; rw [hf]]
    | succ t => simp only [List.modify_succ_cons, List.filterMap_cons, ih]

theorem base_wait {code : List Cmd} {s s' : St} (t : Nat) (b : Bool) (h : Base code s)
    (h1 : s'.tasks = s.tasks.modify t fun x => { x with waiting := b }) (h2 : s'.trace = s.trace) (h3 : s'.kept = s.kept) (h4 : s'.own = s.own) :
    Base code s' := by
  have key : ∀ (i : Nat) (x : Task), s'.tasks[i]? = some x → ∃ y, s.tasks[i]? = some y ∧ y.kind = x.kind ∧ y.over = x.over := by
    intro i x hx
    rw [h1, List.getElem?_modify] at hx
    cases hs : s.tasks[i]? with
    | none => rw [hs] at hx; simp at hx
    | some y =>
      rw [hs] at hx
      simp only [Option.map_eq_map, Option.map_some, Option.some.injEq] at hx
      refine ⟨y, rfl, ?_⟩
      rw [← hx]; split <;> exact ⟨rfl, rfl⟩
  constructor
  · intro i x r hx ho
    obtain ⟨y, g1, g2, g3⟩ := key i x hx
    rw [h2, ← g2]; exact h.ended_of i y r g1 (by rw [g3]; exact ho)
  · intro k r hk
    rw [h2] at hk
    obtain ⟨i, y, g1, g2, g3⟩ := h.of_ended k r hk
    rw [h1]
    refine ⟨i, if t = i then { y with waiting := b } else y, ?_, ?_, ?_⟩
    · rw [List.getElem?_modify, g1]; simp only [Option.map_eq_map, Option.map_some]
    · split <;> exact g2
    · split <;> exact g3
  · intro i x hx
    obtain ⟨y, g1, g2, g3⟩ := key i x hx
    rw [h3, ← g2]; exact h.kept_iff i y g1
  · rw [h1, h4, filterMap_modify_own _ _ _ (by intro x; rfl)]; exact h.owns
  · rw [h1, h3, List.length_modify]; exact h.kept_lt
  · rw [h3]; exact h.nodup
  · rw [h2]; exact h.calm

theorem base_over {code : List Cmd} {s s' : St} {t : Nat} {x : Task} (r : Option Nat) (h : Base code s) (hx : s.tasks[t]? = some x) (ho : x.over = none)
    (h1 : s'.tasks = s.tasks.modify t fun x => { x with over := some r }) (h2 : s'.trace = s.trace ++ [.ended x.kind r]) (h3 : s'.kept = s.kept)
    (h4 : s'.own = s.own) : Base code s' := by
  have look : ∀ (i : Nat), s'.tasks[i]? = if t = i then some { x with over := some r } else s.tasks[i]? := by
    intro i
    rw [h1, List.getElem?_modify]
    split
    · rename_i h; subst h; rw [hx]; rfl
    · cases s.tasks[i]? <;> rfl
  constructor
  · intro i y q hy hq
    rw [look i] at hy
    rw [h2]
    split at hy
    · cases hy; cases hq; exact List.mem_append_right _ (List.mem_singleton.2 rfl)
    · exact List.mem_append_left _ (h.ended_of i y q hy hq)
  · intro k q hk
    rw [h2] at hk
    rcases List.mem_append.1 hk with g | g
    · obtain ⟨i, y, g1, g2, g3⟩ := h.of_ended k q g
      refine ⟨i, y, ?_, g2, g3⟩
      rw [look i]
      split
      · rename_i h; subst h
        rw [hx] at g1; cases g1
        rw [ho] at g3; cases g3
      · exact g1
    · have := List.mem_singleton.1 g
      simp only [Ev.ended.injEq] at this
      obtain ⟨rfl, rfl⟩ := this
      exact ⟨t, { x with over := some q }, by rw [look t, if_pos rfl], rfl, rfl⟩
  · intro i y hy
    rw [look i] at hy
    rw [h3]
    split at hy
    · rename_i h'; subst h'
      cases hy
      exact h.kept_iff t x hx
    · exact h.kept_iff i y hy
  · rw [h1, h4, filterMap_modify_own _ _ _ (by intro x; rfl)]; exact h.owns
  · rw [h1, h3, List.length_modify]; exact h.kept_lt
  · rw [h3]; exact h.nodup
  · rw [h2]
    intro g
    rcases List.mem_append.1 g with g | g
    · exact h.calm g
    · cases List.mem_singleton.1 g

theorem calm_snoc {p : List Cmd} {c : Cmd} (h : Calm p) (hc : ∀ e, c ≠ .raise e) : Calm (p ++ [c]) := by
  intro e g
  rcases List.mem_append.1 g with g | g
  · exact h e g
  · exact hc e (List.mem_singleton.1 g).symm

theorem flags_append (a b : List Cmd) : flags (a ++ b) = flags a ++ flags b := by simp [flags]

/-- `Base` and `Todo` through the code of `setup_tasks`. -/
theorem base_exec {code : List Cmd} : ∀ (cs : List Cmd) (s : St), Base code s → Rest code cs s → Base code (exec cs s) ∧ Todo code (exec cs s)
  | [], s, h, ⟨p, hp, hl, hc⟩ => by
    rw [List.append_nil] at hp
    subst hp
    exact ⟨base_say (e := .gathered) h rfl rfl rfl rfl (by simp) (fun _ => hc), hl.symm, hc⟩
  | .create b :: cs, s, h, ⟨p, hp, hl, hc⟩ => by
    simp only [exec]
    have hb : (flags code)[s.own]? = some b := by
      rw [hp, flags_append, List.getElem?_append_right (by omega), hl, Nat.sub_self]; rfl
    refine base_exec cs _ (base_spawn (.own s.own) b (s.own + 1) h ?_ rfl (by simp)) ⟨p ++ [.create b], by simp [hp], ?_, calm_snoc hc (by simp)⟩
    · simp only [Belongs, hb, Option.some.injEq]
    · rw [flags_append, List.length_append, hl]; rfl
  | .wait :: cs, s, h, ⟨p, hp, hl, hc⟩ =>
    ⟨base_same h rfl rfl rfl rfl, p ++ [.wait], by simp [hp], by rw [flags_append, List.length_append, hl]; rfl, calm_snoc hc (by simp)⟩
  | .raise e :: cs, s, h, ⟨p, hp, hl, hc⟩ => ⟨base_say (e := .over (some e)) h rfl rfl rfl rfl (by simp) (by simp), by
    refine ⟨?_, fun h => (by cases h), .inr ⟨p, e, cs, hp, hc, rfl⟩⟩
    show s.own ≤ _
    rw [hp, flags_append, List.length_append]; omega⟩

theorem internals_belong {code : List Cmd} {c : Nat} {p : Kind × Bool} (h : p ∈ internals c) : p.2 = true ↔ Belongs code p.1 := by
  simp only [internals, List.mem_append, List.mem_replicate, List.mem_cons, List.not_mem_nil, or_false] at h
  rcases h with (⟨_, rfl⟩ | ⟨_, rfl⟩) | rfl | rfl | rfl | rfl <;> simp [Belongs]

theorem base_internals {code : List Cmd} : ∀ (l : List (Kind × Bool)) (s : St), (∀ p ∈ l, p.2 = true ↔ Belongs code p.1) → (∀ p ∈ l, ∀ j, p.1 ≠ .own j) →
    Base code s → Base code (l.foldl (fun s p => spawn p.1 p.2 s) s) ∧ (l.foldl (fun s p => spawn p.1 p.2 s) s).own = s.own
  | [], s, _, _, h => ⟨h, rfl⟩
  | p :: l, s, h1, h2, h => by
    have hp := h2 p List.mem_cons_self
    have h3 : Base code (spawn p.1 p.2 s) := by
      have := base_spawn (code := code) p.1 p.2 s.own h (h1 p List.mem_cons_self) (by cases hk : p.1 <;> simp_all [bump]) (fun j hj => absurd hj (hp j))
      exact this
    exact base_internals l _ (fun q hq => h1 q (List.mem_cons_of_mem _ hq)) (fun q hq => h2 q (List.mem_cons_of_mem _ hq)) h3

theorem base_main {code : List Cmd} (c : Nat) {s : St} (h : Base code s) (ht : Todo code s) :
    Base code (mainStep c code s) ∧ Todo code (mainStep c code s) := by
  unfold mainStep
  unfold Todo at ht
  cases hm : s.main with
  | fresh =>
    rw [hm] at ht
    have hi := base_internals (internals c) s (fun p hp => internals_belong hp) (fun p hp => internals_own hp) h
    exact base_exec code _ hi.1 ⟨[], rfl, by rw [hi.2, ht]; rfl, by intro e g; cases g⟩
  | resumed rest =>
    rw [hm] at ht
    exact base_exec rest s h ht
  | gathering =>
    simp only
    rw [hm] at ht
    cases s.outer with
    | some r => exact ⟨base_say (e := .over r) h rfl rfl rfl rfl (by simp) (by simp), Nat.le_of_eq ht.1, fun _ => ht.1, .inl ht.2⟩
    | none => exact ⟨h, by unfold Todo; rw [hm]; exact ht⟩
  | waiting rest => exact ⟨h, by unfold Todo; exact ht⟩
  | over r => exact ⟨h, by unfold Todo; exact ht⟩

theorem base_finish {code : List Cmd} (t : Nat) (r : Option Nat) {s : St} (h : Base code s) : Base code (finish t r s) := by
  unfold finish
  cases hx : s.tasks[t]? with
  | none => exact h
  | some x =>
    simp only
    cases ho : x.over with
    | some q => exact h
    | none =>
      simp only [Option.isSome_none, Bool.false_eq_true, if_false]
      by_cases hc : s.main = .gathering ∧ t ∈ s.kept
      · rw [if_pos hc]; exact base_over r h hx ho rfl rfl rfl rfl
      · rw [if_neg hc]; exact base_over r h hx ho rfl rfl rfl rfl

/-- A step of a task leaves `__start` where it is. -/
theorem finish_main (t : Nat) (r : Option Nat) (s : St) : (finish t r s).main = s.main ∧ (finish t r s).own = s.own := by
  unfold finish
  cases hx : s.tasks[t]? with
  | none => exact ⟨rfl, rfl⟩
  | some x =>
    simp only
    cases ho : x.over with
    | some q => exact ⟨rfl, rfl⟩
    | none =>
      simp only [Option.isSome_none, Bool.false_eq_true, if_false]
      by_cases hc : s.main = .gathering ∧ t ∈ s.kept
      · rw [if_pos hc]; exact ⟨rfl, rfl⟩
      · rw [if_neg hc]; exact ⟨rfl, rfl⟩

theorem base_act {code : List Cmd} (a : Act) (t : Nat) (k : Kind) {s : St} (h : Base code s) : Base code (act a t k s) := by
  have h1 : Base code (handle a k s) := by
    unfold handle
    split
    · exact base_say (e := .handled k) h rfl rfl rfl rfl (by simp) (by simp)
    · exact h
  have h2 : Base code (listen a t k (handle a k s)) := by
    unfold listen
    split
    · exact base_same h1 rfl rfl rfl rfl
    · exact h1
  unfold act
  simp only
  cases a.next with
  | suspend => exact base_wait t true h2 rfl rfl rfl rfl
  | again => exact base_same h2 rfl rfl rfl rfl
  | finish => exact base_finish _ _ h2
  | fail e => exact base_finish _ _ h2

end Verif.Startup
