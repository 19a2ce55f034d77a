import Mathlib.Data.List.Perm.Subperm
import Verif.Startup.Gather

namespace Verif.Startup

/-! ## How `__start` ends -/

/-- Callbacks of `gather` that are scheduled. -/
def dones (js : List Job) : List Nat := js.filterMap fun j => match j with
  | .done t => some t
  | _ => none

@[simp] theorem dones_append (a b : List Job) : dones (a ++ b) = dones a ++ dones b := by simp [dones]

theorem dones_dones (l : List Nat) : dones (l.map Job.done) = l := by
  simp [dones, List.filterMap_map, Function.comp_def]

/-- What ends `gather`: a task that raised, or all have returned. -/
def Res (s : St) : Option Nat → Prop
  | some e => ∃ t ∈ s.kept, overOf s t = some (some e)
  | none => ∀ t ∈ s.kept, overOf s t = some none

/-- `gather` has been called. -/
def Past (s : St) : Prop := s.main = .gathering ∨ ∃ r, s.main = .over r

/-- The callbacks of `gather`; `js` are the handles of this turn that are still to be run. -/
structure Gath (code : List Cmd) (js : List Job) (s : St) : Prop where
  pre : ¬ Past s → s.counted = [] ∧ dones (js ++ s.ready) = [] ∧ s.outer = none
  nodup : (s.counted ++ dones (js ++ s.ready)).Nodup
  real : ∀ t ∈ s.counted ++ dones (js ++ s.ready), t ∈ s.kept ∧ (overOf s t).isSome
  all : s.main = .gathering → ∀ t ∈ s.kept, (overOf s t).isSome → t ∈ s.counted ++ dones (js ++ s.ready)
  told : ∀ t ∈ s.counted, ∀ e, overOf s t = some (some e) → s.outer.isSome
  res : ∀ r, s.outer = some r → Res s r
  woken : s.outer.isSome → s.main = .gathering → Job.main ∈ js ++ s.ready
  ending : ∀ r, s.main = .over r → Job.stop ∈ js ++ s.ready ∨ s.stopping = true
  why : ∀ r, s.main = .over r → Ev.over r ∈ s.trace ∧ ((∃ e, r = some e ∧ Cmd.raise e ∈ code) ∨ Res s r)
  only : ∀ r, Ev.over r ∈ s.trace → s.main = .over r
  begun : Ev.gathered ∈ s.trace → Past s

theorem res_mono {s s' : St} {r : Option Nat} (h : Res s r) (hk : s'.kept = s.kept) (ho : ∀ t q, overOf s t = some q → overOf s' t = some q) : Res s' r := by
  cases r with
  | some e =>
    obtain ⟨t, h1, h2⟩ := h
    exact ⟨t, by rw [hk]; exact h1, ho _ _ h2⟩
  | none =>
    intro t ht
    rw [hk] at ht
    exact ho _ _ (h t ht)

/-- Changes that do not concern `gather`: what is scheduled are no callbacks, the tasks' ends stay. -/
theorem gath_same {code : List Cmd} {js js' : List Job} {s s' : St} (h : Gath code js s) (hm : s'.main = s.main) (hk : s'.kept = s.kept)
    (hc : s'.counted = s.counted) (ho : s'.outer = s.outer) (hv : ∀ t, overOf s' t = overOf s t)
    (hd : dones (js' ++ s'.ready) = dones (js ++ s.ready)) (h1 : Job.main ∈ js ++ s.ready → Job.main ∈ js' ++ s'.ready)
    (h2 : Job.stop ∈ js ++ s.ready ∨ s.stopping = true → Job.stop ∈ js' ++ s'.ready ∨ s'.stopping = true)
    (ht : ∀ r, Ev.over r ∈ s'.trace ↔ Ev.over r ∈ s.trace) (hq : Ev.gathered ∈ s'.trace → Ev.gathered ∈ s.trace) : Gath code js' s' := by
  have hr : ∀ r, Res s r → Res s' r := fun r h => res_mono h hk (fun t q g => by rw [hv]; exact g)
  have hp : Past s' ↔ Past s := by unfold Past; rw [hm]
  constructor
  · intro g; rw [hc, hd, ho]; exact h.pre (fun k => g (hp.2 k))
  · rw [hc, hd]; exact h.nodup
  · rw [hc, hd, hk]; intro t g; rw [hv]; exact h.real t g
  · rw [hm, hc, hd, hk]; intro g t; rw [hv]; exact h.all g t
  · rw [hc, ho]; intro t g e; rw [hv]; exact h.told t g e
  · rw [ho]; intro r g; exact hr r (h.res r g)
  · rw [ho, hm]; intro a b; exact h1 (h.woken a b)
  · rw [hm]; intro r g; exact h2 (h.ending r g)
  · rw [hm]; intro r g; rw [ht]; exact ⟨(h.why r g).1, (h.why r g).2.imp id (hr r)⟩
  · intro r g; rw [hm]; exact h.only r ((ht r).1 g)
  · intro g; exact hp.2 (h.begun (hq g))

theorem overOf_snoc {l : List Task} {k : Kind} {w : Bool} (t : Nat) :
    (l ++ [{ kind := k, waiting := w, over := none }])[t]?.bind Task.over = l[t]?.bind Task.over := by
  rcases Nat.lt_trichotomy t l.length with h | h | h
  · rw [List.getElem?_append_left h]
  · subst h; simp
  · rw [List.getElem?_eq_none (by simp; omega), List.getElem?_eq_none (by omega)]

theorem gath_spawn {code : List Cmd} {js : List Job} {s : St} (k : Kind) (b : Bool) (o : Nat) (h : Gath code js s) (hb : b = true → ¬ Past s) :
    Gath code js { spawn k b s with own := o } := by
  have hv : ∀ t, overOf { spawn k b s with own := o } t = overOf s t := fun t => overOf_snoc t
  have hd : dones (js ++ { spawn k b s with own := o }.ready) = dones (js ++ s.ready) := by
    simp only [spawn]
    rw [← List.append_assoc, dones_append]; simp [dones]
  cases b with
  | false =>
    refine gath_same h rfl rfl rfl rfl hv hd ?_ ?_ (fun r => Iff.rfl) id
    · intro g; simp only [spawn]; rw [← List.append_assoc]; exact List.mem_append_left _ g
    · rintro (g | g)
      · left; simp only [spawn]; rw [← List.append_assoc]; exact List.mem_append_left _ g
      · exact .inr g
  | true =>
    have hp := h.pre (hb rfl)
    have hn := hb rfl
    have hg : s.main ≠ .gathering := fun g => hn (.inl g)
    have hov : ∀ r, s.main ≠ .over r := fun r g => hn (.inr ⟨r, g⟩)
    constructor
    · intro _; rw [hd]; exact hp
    · rw [hd]; exact h.nodup
    · rw [hd]
      intro t g
      have g' : t ∈ s.counted ++ dones (js ++ s.ready) := g
      rw [hp.1, hp.2.1] at g'; cases g'
    · intro g; exact absurd g hg
    · intro t g
      have g' : t ∈ s.counted := g
      rw [hp.1] at g'; cases g'
    · intro r g
      have g' : s.outer = some r := g
      rw [hp.2.2] at g'; cases g'
    · intro _ g; exact absurd g hg
    · intro r g; exact absurd g (hov r)
    · intro r g; exact absurd g (hov r)
    · intro r g; exact absurd (h.only r g) (hov r)
    · intro g; exact h.begun g

theorem gath_gather {code : List Cmd} {js : List Job} {s : St} (h : Gath code js s) (hb : Base code s) (hn : ¬ Past s) : Gath code js (gather s) := by
  obtain ⟨h1, h2, h3⟩ := h.pre hn
  have hov : ∀ r, s.main ≠ .over r := fun r g => hn (.inr ⟨r, g⟩)
  have hd : dones (js ++ (gather s).ready) = s.kept.filter fun t => (s.tasks[t]?.any fun x => x.over.isSome) := by
    simp only [gather, St.say]
    rw [← List.append_assoc, dones_append, h2, dones_dones, List.nil_append]
  have hf : ∀ t, (s.tasks[t]?.any fun x => x.over.isSome) = (overOf s t).isSome := by
    intro t; unfold overOf; cases s.tasks[t]? <;> rfl
  have hc : (gather s).counted = [] := h1
  have hm : (gather s).main = .gathering := rfl
  constructor
  · intro g; exact absurd (Or.inl rfl) g
  · rw [hc, hd, List.nil_append]; exact hb.nodup.filter _
  · rw [hc, hd, List.nil_append]
    intro t g
    rw [List.mem_filter, hf] at g
    exact g
  · intro _ t ht g
    rw [hc, hd, List.nil_append, List.mem_filter, hf]
    exact ⟨ht, g⟩
  · rw [hc]; intro t g; cases g
  · intro r g
    have g' : s.outer = some r := g
    rw [h3] at g'; cases g'
  · intro g
    have g' : s.outer.isSome = true := g
    rw [h3] at g'; cases g'
  · intro r g; rw [hm] at g; cases g
  · intro r g; rw [hm] at g; cases g
  · intro r g
    simp only [gather, St.say, List.mem_append, List.mem_singleton] at g
    rcases g with g | g
    · exact absurd (h.only r g) (hov r)
    · cases g
  · intro _; exact .inl rfl

theorem gath_endMain {code : List Cmd} {js : List Job} {s : St} (r : Option Nat) (h : Gath code js s) (hn : ∀ q, s.main ≠ .over q)
    (hr : (∃ e, r = some e ∧ Cmd.raise e ∈ code) ∨ Res s r) : Gath code js (endMain r s) := by
  have hd : dones (js ++ (endMain r s).ready) = dones (js ++ s.ready) := by
    simp only [endMain, St.say]
    rw [← List.append_assoc, dones_append]; simp [dones]
  constructor
  · intro g; exact absurd (Or.inr ⟨r, rfl⟩) g
  · rw [hd]; exact h.nodup
  · rw [hd]; exact h.real
  · intro g; cases g
  · exact h.told
  · exact h.res
  · intro _ g; cases g
  · intro q _; left; simp [endMain]
  · intro q g
    cases g
    exact ⟨by simp [endMain, St.say], hr⟩
  · intro q g
    simp only [endMain, St.say, List.mem_append, List.mem_singleton] at g
    rcases g with g | g
    · exact absurd (h.only q g) (hn q)
    · cases g; rfl
  · intro _; exact .inr ⟨r, rfl⟩

theorem gath_exec {code : List Cmd} {js : List Job} : ∀ (cs : List Cmd) (s : St), Gath code js s → Base code s → Rest code cs s → ¬ Past s →
    Gath code js (exec cs s)
  | [], s, h, hb, _, hn => gath_gather h hb hn
  | .create b :: cs, s, h, hb, ⟨p, hp, hl, hc⟩, hn => by
    simp only [exec]
    have hf : (flags code)[s.own]? = some b := by
      rw [hp, flags_append, List.getElem?_append_right (by omega), hl, Nat.sub_self]; rfl
    refine gath_exec cs _ (gath_spawn _ b _ h (fun _ => hn)) (base_spawn (.own s.own) b (s.own + 1) hb ?_ rfl (by simp)) ⟨p ++ [.create b], by simp [hp], ?_, calm_snoc hc (by simp)⟩ hn
    · simp only [Belongs, hf, Option.some.injEq]
    · rw [flags_append, List.length_append, hl]; rfl
  | .wait :: cs, s, h, hb, _, hn => by
    have hp := h.pre hn
    have hov : ∀ r, s.main ≠ .over r := fun r g => hn (.inr ⟨r, g⟩)
    constructor
    · exact fun _ => hp
    · exact h.nodup
    · exact h.real
    · intro g; cases g
    · exact h.told
    · exact h.res
    · intro _ g; cases g
    · intro r g; cases g
    · intro r g; cases g
    · exact fun r g => absurd (h.only r g) (hov r)
    · exact fun g => absurd (h.begun g) hn
  | .raise e :: cs, s, h, hb, ⟨p, hp, _⟩, hn =>
    gath_endMain (some e) h (fun r g => hn (.inr ⟨r, g⟩)) (.inl ⟨e, rfl, by rw [hp]; simp⟩)

theorem gath_internals {code : List Cmd} {js : List Job} : ∀ (l : List (Kind × Bool)) (s : St), Gath code js s → ¬ Past s →
    Gath code js (l.foldl (fun s p => spawn p.1 p.2 s) s) ∧ (l.foldl (fun s p => spawn p.1 p.2 s) s).main = s.main
  | [], s, h, _ => ⟨h, rfl⟩
  | p :: l, s, h, hn => gath_internals l _ (gath_spawn p.1 p.2 s.own h (fun _ => hn)) hn

/-- A step of `__start` has been taken from the handles. -/
theorem gath_main {code : List Cmd} {js : List Job} (c : Nat) {s : St} (h : Gath code (.main :: js) s) (hb : Base code s) (ht : Todo code s) :
    Gath code js (mainStep c code s) := by
  have drop (hw : s.main = .gathering → s.outer = none) : Gath code js s := by
    refine ⟨h.pre, h.nodup, h.real, h.all, h.told, h.res, ?_, ?_, h.why, h.only, h.begun⟩
    · intro a b; rw [hw b] at a; cases a
    · intro r g
      rcases h.ending r g with k | k
      · rw [List.cons_append, List.mem_cons] at k
        rcases k with k | k
        · cases k
        · exact .inl k
      · exact .inr k
  unfold mainStep
  unfold Todo at ht
  cases hm : s.main with
  | fresh =>
    rw [hm] at ht
    have hn : ¬ Past s := by unfold Past; rw [hm]; simp
    have hi := base_internals (internals c) s (fun p hp => internals_belong hp) (fun p hp => internals_own hp) hb
    have hg := gath_internals (internals c) s (drop (by rw [hm]; simp)) hn
    refine gath_exec code _ hg.1 hi.1 ⟨[], rfl, by rw [hi.2, ht]; rfl, by intro e g; cases g⟩ ?_
    unfold Past; rw [hg.2, hm]; simp
  | resumed rest =>
    rw [hm] at ht
    exact gath_exec rest s (drop (by rw [hm]; simp)) hb ht (by unfold Past; rw [hm]; simp)
  | gathering =>
    simp only
    cases ho : s.outer with
    | some r =>
      have h2 : (∃ e, r = some e ∧ Cmd.raise e ∈ code) ∨ Res s r := .inr (h.res r ho)
      have hdn : dones (js ++ (endMain r s).ready) = dones (.main :: js ++ s.ready) := by
        simp only [endMain, St.say]
        rw [← List.append_assoc, dones_append, List.cons_append]; simp [dones]
      constructor
      · intro g; exact absurd (Or.inr ⟨r, rfl⟩) g
      · rw [hdn]; exact h.nodup
      · rw [hdn]; exact h.real
      · intro g; cases g
      · exact h.told
      · exact h.res
      · intro _ g; cases g
      · intro q _; left; simp [endMain]
      · intro q g
        cases g
        exact ⟨by simp [endMain, St.say], h2⟩
      · intro q g
        simp only [endMain, St.say, List.mem_append, List.mem_singleton] at g
        rcases g with g | g
        · have := h.only q g; rw [hm] at this; cases this
        · cases g; rfl
      · intro _; exact .inr ⟨r, rfl⟩
    | none => exact drop (fun _ => ho)
  | waiting rest => exact drop (by rw [hm]; simp)
  | over r => exact drop (by rw [hm]; simp)

theorem overOf_modify {s s' : St} {t : Nat} {x : Task} {r : Option Nat} (hx : s.tasks[t]? = some x)
    (h1 : s'.tasks = s.tasks.modify t fun x => { x with over := some r }) (i : Nat) : overOf s' i = if t = i then some r else overOf s i := by
  unfold overOf
  rw [h1, List.getElem?_modify]
  split
  · rename_i h; subst h; rw [hx]; rfl
  · cases s.tasks[i]? <;> rfl

theorem overOf_wait {s s' : St} {t : Nat} {b : Bool} (h1 : s'.tasks = s.tasks.modify t fun x => { x with waiting := b }) (i : Nat) :
    overOf s' i = overOf s i := by
  unfold overOf
  rw [h1, List.getElem?_modify]
  cases s.tasks[i]? with
  | none => rfl
  | some y => simp only [Option.map_eq_map, Option.map_some, Option.bind_some]; split <;> rfl

theorem gath_finish {code : List Cmd} {js : List Job} (t : Nat) (r : Option Nat) {s : St} (h : Gath code js s) : Gath code js (finish t r s) := by
  unfold finish
  cases hx : s.tasks[t]? with
  | none => exact h
  | some x =>
    simp only
    cases ho : x.over with
    | some q => exact h
    | none =>
      simp only [Option.isSome_none, Bool.false_eq_true, if_false]
      have h0 : overOf s t = none := by unfold overOf; rw [hx]; exact ho
      generalize hs' : ({ s with tasks := s.tasks.modify t fun x => { x with over := some r }, trace := s.trace ++ [.ended x.kind r] } : St) = s'
      have hv : ∀ i, overOf s' i = if t = i then some r else overOf s i := fun i => overOf_modify hx (by rw [← hs']) i
      have hm : s'.main = s.main := by rw [← hs']
      have hk : s'.kept = s.kept := by rw [← hs']
      have hc : s'.counted = s.counted := by rw [← hs']
      have hou : s'.outer = s.outer := by rw [← hs']
      have hr : s'.ready = s.ready := by rw [← hs']
      have hst : s'.stopping = s.stopping := by rw [← hs']
      have htr : ∀ q, Ev.over q ∈ s'.trace ↔ Ev.over q ∈ s.trace := by
        intro q; rw [← hs']; simp
      have hgt : Ev.gathered ∈ s'.trace → Ev.gathered ∈ s.trace := by
        rw [← hs']; simp
      have hmono : ∀ i q, overOf s i = some q → overOf s' i = some q := by
        intro i q g
        rw [hv]
        split
        · rename_i hi; subst hi; rw [h0] at g; cases g
        · exact g
      have hres : ∀ q, Res s q → Res s' q := fun q g => res_mono g hk hmono
      have hnot : t ∉ s.counted ++ dones (js ++ s.ready) := by
        intro g; have := (h.real t g).2; rw [h0] at this; cases this
      have hp : Past s' ↔ Past s := by unfold Past; rw [hm]
      by_cases hg : s.main = .gathering ∧ t ∈ s.kept
      · rw [if_pos hg]
        have hd : dones (js ++ (s'.soon (.done t)).ready) = dones (js ++ s.ready) ++ [t] := by
          simp only [St.soon]
          rw [← List.append_assoc, dones_append, hr]; rfl
        constructor
        · intro g; exact absurd (hp.2 (.inl hg.1)) g
        · rw [hd]
          show (s'.counted ++ (dones (js ++ s.ready) ++ [t])).Nodup
          rw [hc, ← List.append_assoc, List.nodup_append]
          refine ⟨h.nodup, by simp, ?_⟩
          intro a ha b hb
          rw [List.mem_singleton.1 hb]
          rintro rfl
          exact hnot ha
        · rw [hd]
          intro i g
          have g' : i ∈ s'.counted ++ (dones (js ++ s.ready) ++ [t]) := g
          rw [hc, ← List.append_assoc] at g'
          show i ∈ s'.kept ∧ (overOf s' i).isSome
          rw [hk, hv]
          rcases List.mem_append.1 g' with g' | g'
          · refine ⟨(h.real i g').1, ?_⟩
            split
            · rfl
            · exact (h.real i g').2
          · rw [List.mem_singleton.1 g']
            exact ⟨hg.2, by simp⟩
        · intro _ i hi g
          rw [hd]
          show i ∈ s'.counted ++ (dones (js ++ s.ready) ++ [t])
          rw [hc, ← List.append_assoc]
          by_cases hti : t = i
          · subst hti; simp
          · refine List.mem_append_left _ (h.all hg.1 i (by rw [← hk]; exact hi) ?_)
            have g' : (overOf s' i).isSome := g
            rw [hv, if_neg hti] at g'
            exact g'
        · intro i gi e ge
          have gi' : i ∈ s'.counted := gi
          rw [hc] at gi'
          have ge' : overOf s' i = some (some e) := ge
          show s'.outer.isSome = true
          rw [hou]
          by_cases hti : t = i
          · subst hti; exact absurd (List.mem_append_left _ gi') hnot
          · rw [hv, if_neg hti] at ge'
            exact h.told i gi' e ge'
        · intro q g
          have g' : s'.outer = some q := g
          rw [hou] at g'
          exact hres q (h.res q g')
        · intro a b
          have a' : s'.outer.isSome = true := a
          rw [hou] at a'
          simp only [St.soon]
          rw [← List.append_assoc, hr]
          exact List.mem_append_left _ (h.woken a' hg.1)
        · intro q g
          have g' : s'.main = .over q := g
          rw [hm, hg.1] at g'; cases g'
        · intro q g
          have g' : s'.main = .over q := g
          rw [hm, hg.1] at g'; cases g'
        · intro q g
          show s'.main = .over q
          rw [hm]; exact h.only q ((htr q).1 g)
        · intro _; exact hp.2 (.inl hg.1)
      · rw [if_neg hg]
        constructor
        · intro g; rw [hc, hr, hou]; exact h.pre (fun k => g (hp.2 k))
        · rw [hc, hr]; exact h.nodup
        · rw [hc, hr, hk]
          intro i g
          refine ⟨(h.real i g).1, ?_⟩
          rw [hv]; split
          · rfl
          · exact (h.real i g).2
        · rw [hm, hc, hr, hk]
          intro g i hi go
          rw [hv] at go
          split at go
          · rename_i hti; subst hti; exact absurd ⟨g, hi⟩ hg
          · exact h.all g i hi go
        · rw [hc, hou]
          intro i gi e ge
          by_cases hti : t = i
          · subst hti; exact absurd (List.mem_append_left _ gi) hnot
          · rw [hv, if_neg hti] at ge
            exact h.told i gi e ge
        · rw [hou]; intro q g; exact hres q (h.res q g)
        · rw [hou, hm, hr]; exact h.woken
        · rw [hm, hr, hst]; exact h.ending
        · rw [hm]; intro q g; rw [htr]; exact ⟨(h.why q g).1, (h.why q g).2.imp id (hres q)⟩
        · intro q g; rw [hm]; exact h.only q ((htr q).1 g)
        · intro g; exact hp.2 (h.begun (hgt g))

theorem gath_act {code : List Cmd} {js : List Job} (a : Act) (t : Nat) (k : Kind) {s : St} (h : Gath code js s) : Gath code js (act a t k s) := by
  have h1 : Gath code js (handle a k s) := by
    unfold handle
    split
    · exact gath_same h rfl rfl rfl rfl (fun _ => rfl) rfl id id (fun r => by simp [St.say]) (by simp [St.say])
    · exact h
  have h2 : Gath code js (listen a t k (handle a k s)) := by
    unfold listen
    split
    · exact gath_same h1 rfl rfl rfl rfl (fun _ => rfl) rfl id id (fun r => Iff.rfl) id
    · exact h1
  unfold act
  simp only
  cases a.next with
  | suspend => exact gath_same h2 rfl rfl rfl rfl (fun i => overOf_wait rfl i) rfl id id (fun r => Iff.rfl) id
  | again =>
    refine gath_same h2 rfl rfl rfl rfl (fun _ => rfl) ?_ ?_ ?_ (fun r => Iff.rfl) id
    · simp only [St.soon]; rw [← List.append_assoc, dones_append]; simp [dones]
    · intro g; simp only [St.soon]; rw [← List.append_assoc]; exact List.mem_append_left _ g
    · rintro (g | g)
      · left; simp only [St.soon]; rw [← List.append_assoc]; exact List.mem_append_left _ g
      · exact .inr g
  | finish => exact gath_finish _ _ h2
  | fail e => exact gath_finish _ _ h2

theorem full_of_length {l k : List Nat} (hl : l.Nodup) (hs : ∀ t ∈ l, t ∈ k) (hn : l.length = k.length) : ∀ t ∈ k, t ∈ l := by
  intro t ht
  have hsub : l.Subperm k := hl.subperm hs
  exact (hsub.perm_of_length_le (by omega)).mem_iff.2 ht

theorem gath_done {code : List Cmd} {js : List Job} (t : Nat) {s : St} (h : Gath code (.done t :: js) s) : Gath code js (doneCallback t s) := by
  have hdn : dones (.done t :: js ++ s.ready) = t :: dones (js ++ s.ready) := rfl
  have hper : ((s.counted ++ [t]) ++ dones (js ++ s.ready)) = s.counted ++ dones (.done t :: js ++ s.ready) := by
    rw [hdn, List.append_assoc]; rfl
  have hpast : Past s := by
    by_contra hn
    have := (h.pre hn).2.1
    rw [hdn] at this; cases this
  have hmain : Job.main ∈ Job.done t :: js ++ s.ready → Job.main ∈ js ++ s.ready := by
    intro g
    rw [List.cons_append, List.mem_cons] at g
    rcases g with g | g
    · cases g
    · exact g
  have hstop : ∀ r, s.main = .over r → Job.stop ∈ js ++ s.ready ∨ s.stopping = true := by
    intro r g
    rcases h.ending r g with k | k
    · rw [List.cons_append, List.mem_cons] at k
      rcases k with k | k
      · cases k
      · exact .inl k
    · exact .inr k
  have hreal := h.real
  have hnd := h.nodup
  have hall := h.all
  rw [← hper] at hreal hnd hall
  have ht := hreal t (by simp)
  have hcnd : (s.counted ++ [t]).Nodup := (List.nodup_append.1 hnd).1
  unfold doneCallback
  simp only
  by_cases hou : s.outer.isSome
  · rw [if_pos hou]
    exact ⟨fun g => absurd hpast g, hnd, hreal, hall, fun _ _ _ _ => hou, h.res, fun a b => hmain (h.woken a b), hstop, h.why, h.only, fun _ => hpast⟩
  · rw [if_neg hou]
    have hout : s.outer = none := by simpa using hou
    -- the callback sets `outer`
    have settle (r : Option Nat) (hr : Res s r) :
        Gath code js { s with counted := s.counted ++ [t], outer := some r, ready := s.ready ++ [.main] } := by
      have hd : dones (js ++ (s.ready ++ [.main])) = dones (js ++ s.ready) := by
        rw [← List.append_assoc, dones_append]; simp [dones]
      refine ⟨fun g => absurd hpast g, ?_, ?_, ?_, fun _ _ _ _ => rfl, ?_, fun _ _ => by simp, ?_, h.why, h.only, fun _ => hpast⟩
      · simp only [hd]; exact hnd
      · simp only [hd]; exact hreal
      · simp only [hd]; exact hall
      · intro q g; cases g; exact hr
      · intro q g
        rcases hstop q g with k | k
        · left; simp only; rw [← List.append_assoc]; exact List.mem_append_left _ k
        · exact .inr k
    cases hx : s.tasks[t]? with
    | none =>
      have := ht.2; unfold overOf at this; rw [hx] at this; cases this
    | some x =>
      obtain ⟨k, w, o⟩ := x
      cases o with
      | none => have := ht.2; unfold overOf at this; rw [hx] at this; cases this
      | some o =>
        have hov : overOf s t = some o := by unfold overOf; rw [hx]; rfl
        cases o with
        | some e => exact settle (some e) ⟨t, ht.1, hov⟩
        | none =>
          simp only
          have hfine : ∀ i ∈ s.counted ++ [t], overOf s i = some none := by
            intro i hi
            rcases List.mem_append.1 hi with g | g
            · have hs := (hreal i (List.mem_append_left _ hi)).2
              cases hq : overOf s i with
              | none => rw [hq] at hs; cases hs
              | some q =>
                cases q with
                | none => rfl
                | some e => exact absurd (h.told i g e hq) hou
            · rw [List.mem_singleton.1 g]; exact hov
          by_cases hlen : (s.counted ++ [t]).length = s.kept.length
          · rw [if_pos hlen]
            refine settle none ?_
            intro i hi
            exact hfine i (full_of_length hcnd (fun j hj => (hreal j (List.mem_append_left _ hj)).1) hlen i hi)
          · rw [if_neg hlen]
            refine ⟨fun g => absurd hpast g, hnd, hreal, hall, ?_, h.res, fun a b => hmain (h.woken a b), hstop, h.why, h.only, fun _ => hpast⟩
            intro i gi e ge
            have ge' : overOf s i = some (some e) := ge
            rw [hfine i gi] at ge'; cases ge'

/-! ### All together -/

/-- The invariant. -/
structure Inv (code : List Cmd) (js : List Job) (s : St) : Prop where
  base : Base code s
  todo : Todo code s
  gath : Gath code js s

theorem todo_same {code : List Cmd} {s s' : St} (h : Todo code s) (h1 : s'.main = s.main) (h2 : s'.own = s.own) :
    Todo code s' := by
  unfold Todo at h ⊢
  rw [h1]
  cases hm : s.main with
  | fresh => rw [hm] at h; exact h2.trans h
  | waiting rest => rw [hm] at h; obtain ⟨p, a, b, c⟩ := h; exact ⟨p, a, by rw [h2]; exact b, c⟩
  | resumed rest => rw [hm] at h; obtain ⟨p, a, b, c⟩ := h; exact ⟨p, a, by rw [h2]; exact b, c⟩
  | gathering => rw [hm] at h; rw [h2]; exact h
  | over r => rw [hm] at h; rw [h2]; exact h

theorem todo_act {code : List Cmd} {s : St} (a : Act) (t : Nat) (k : Kind) (h : Todo code s) : Todo code (act a t k s) := by
  have h1 : (listen a t k (handle a k s)).main = s.main ∧ (listen a t k (handle a k s)).own = s.own := by
    unfold listen handle
    split <;> split <;> exact ⟨rfl, rfl⟩
  generalize hl : listen a t k (handle a k s) = s1 at h1
  have fin (r : Option Nat) : Todo code (finish t r s1) :=
    todo_same h ((finish_main t r s1).1.trans h1.1) ((finish_main t r s1).2.trans h1.2)
  unfold act
  simp only [hl]
  cases a.next with
  | suspend => exact todo_same h h1.1 h1.2
  | again => exact todo_same h h1.1 h1.2
  | finish => exact fin none
  | fail e => exact fin (some e)

theorem done_same (t : Nat) (s : St) : (doneCallback t s).tasks = s.tasks ∧ (doneCallback t s).trace = s.trace ∧ (doneCallback t s).kept = s.kept ∧
    (doneCallback t s).own = s.own ∧ (doneCallback t s).main = s.main := by
  unfold doneCallback
  simp only
  split
  · exact ⟨rfl, rfl, rfl, rfl, rfl⟩
  · split
    · exact ⟨rfl, rfl, rfl, rfl, rfl⟩
    · split <;> exact ⟨rfl, rfl, rfl, rfl, rfl⟩

/-- Handles that do not concern `gather`. -/
theorem gath_drop {code : List Cmd} {js : List Job} {s : St} {j : Job} (h : Gath code (j :: js) s) (h1 : j ≠ .main) (h2 : j ≠ .stop)
    (h3 : dones [j] = []) : Gath code js s := by
  refine gath_same h rfl rfl rfl rfl (fun _ => rfl) ?_ ?_ ?_ (fun r => Iff.rfl) id
  · rw [List.cons_append, show j :: (js ++ s.ready) = [j] ++ (js ++ s.ready) from rfl, dones_append [j], h3, List.nil_append]
  · intro g
    rw [List.cons_append, List.mem_cons] at g
    exact g.resolve_left h1.symm
  · rintro (g | g)
    · rw [List.cons_append, List.mem_cons] at g
      exact .inl (g.resolve_left h2.symm)
    · exact .inr g

theorem inv_run {code : List Cmd} {js : List Job} {s : St} (c : Nat) (acts : Nat → Act) (j : Job) (h : Inv code (j :: js) s) :
    Inv code js (run c code acts s j) := by
  cases j with
  | main => exact ⟨(base_main c h.base h.todo).1, (base_main c h.base h.todo).2, gath_main c h.gath h.base h.todo⟩
  | first t k =>
    have hg := gath_drop h.gath (by simp) (by simp) rfl
    simp only [run]
    cases k with
    | own j =>
      have h1 : Base code (s.say (.started j)) := base_say (e := .started j) h.base rfl rfl rfl rfl (by simp) (by simp)
      have h2 : Gath code js (s.say (.started j)) :=
        gath_same hg rfl rfl rfl rfl (fun _ => rfl) rfl id id (fun r => by simp [St.say]) (by simp [St.say])
      have h3 : Todo code (s.say (.started j)) := todo_same h.todo rfl rfl
      exact ⟨base_act _ _ _ h1, todo_act _ _ _ h3, gath_act _ _ _ h2⟩
    | _ => exact ⟨base_act _ _ _ h.base, todo_act _ _ _ h.todo, gath_act _ _ _ hg⟩
  | step t =>
    have hg := gath_drop h.gath (by simp) (by simp) rfl
    simp only [run]
    split
    · split
      · exact ⟨h.base, h.todo, hg⟩
      · exact ⟨base_act _ _ _ h.base, todo_act _ _ _ h.todo, gath_act _ _ _ hg⟩
    · exact ⟨h.base, h.todo, hg⟩
  | accept t =>
    have hg := gath_drop h.gath (by simp) (by simp) rfl
    have h1 : Base code (s.say .accepted) := base_say (e := .accepted) h.base rfl rfl rfl rfl (by simp) (by simp)
    have h2 : Gath code js (s.say .accepted) :=
      gath_same hg rfl rfl rfl rfl (fun _ => rfl) rfl id id (fun r => by simp [St.say]) (by simp [St.say])
    exact ⟨base_spawn .conn false s.own h1 (by simp [Belongs]) rfl (by simp), todo_same h.todo rfl rfl, gath_spawn .conn false s.own h2 (by simp)⟩
  | done t =>
    obtain ⟨h1, h2, h3, h4, h5⟩ := done_same t s
    exact ⟨base_same h.base h1 h2 h3 h4, todo_same h.todo h5 h4, gath_done t h.gath⟩
  | stop =>
    refine ⟨base_same h.base rfl rfl rfl rfl, todo_same h.todo rfl rfl, ?_⟩
    refine gath_same h.gath rfl rfl rfl rfl (fun _ => rfl) rfl ?_ (fun _ => .inr rfl) (fun r => Iff.rfl) id
    intro g
    rw [List.cons_append, List.mem_cons] at g
    exact g.resolve_left (by simp)

theorem inv_jobs {code : List Cmd} (c : Nat) (acts : Nat → Act) : ∀ (js : List Job) {s : St}, Inv code js s → Inv code [] (js.foldl (run c code acts) s)
  | [], _, h => h
  | j :: js, _, h => inv_jobs c acts js (inv_run c acts j h)

theorem gath_soon {code : List Cmd} {s s' : St} {j : Job} (h : Gath code [] s) (hm : s'.main = s.main) (hk : s'.kept = s.kept)
    (hc : s'.counted = s.counted) (ho : s'.outer = s.outer) (hv : ∀ t, overOf s' t = overOf s t) (hr : s'.ready = s.ready ++ [j])
    (hs : s'.stopping = s.stopping) (hj : dones [j] = []) (ht : s'.trace = s.trace) : Gath code [] s' := by
  refine gath_same h hm hk hc ho hv ?_ ?_ ?_ (fun r => by rw [ht]) (by rw [ht]; exact id)
  · rw [hr, List.nil_append, List.nil_append, dones_append, hj, List.append_nil]
  · intro g; rw [hr, List.nil_append]; exact List.mem_append_left _ g
  · rintro (g | g)
    · left; rw [hr, List.nil_append]; exact List.mem_append_left _ g
    · right; rw [hs]; exact g

theorem inv_admit {code : List Cmd} {s : St} (p : Poll) (h : Inv code [] s) : Inv code [] (admit s p) := by
  cases p with
  | accept t =>
    simp only [admit]
    split
    · exact ⟨base_same h.base rfl rfl rfl rfl, todo_same h.todo rfl rfl, gath_soon h.gath rfl rfl rfl rfl (fun _ => rfl) rfl rfl rfl rfl⟩
    · exact h
  | wake t =>
    simp only [admit]
    split
    · split
      · exact ⟨base_wait t false h.base rfl rfl rfl rfl, todo_same h.todo rfl rfl,
          gath_soon h.gath rfl rfl rfl rfl (fun i => overOf_wait rfl i) rfl rfl rfl rfl⟩
      · exact h
    · exact h
  | wakeMain =>
    simp only [admit]
    cases hm : s.main with
    | waiting rest =>
      simp only
      have hn : ¬ Past s := by unfold Past; rw [hm]; simp
      have hp := h.gath.pre hn
      have hd : dones ([] ++ (s.ready ++ [Job.main])) = dones ([] ++ s.ready) := by simp [dones]
      refine ⟨base_same h.base rfl rfl rfl rfl, ?_, ?_⟩
      · have := h.todo
        unfold Todo at this
        rw [hm] at this
        exact this
      · have g := h.gath
        constructor
        · intro _; exact ⟨hp.1, hd.trans hp.2.1, hp.2.2⟩
        · simp only [St.soon, hd]; exact g.nodup
        · simp only [St.soon, hd]; exact g.real
        · intro k; cases k
        · exact g.told
        · exact g.res
        · intro _ k; cases k
        · intro r k; cases k
        · intro r k; cases k
        · intro r k; have := g.only r k; rw [hm] at this; cases this
        · intro k; exact absurd (g.begun k) hn
    | fresh => exact h
    | resumed rest => exact h
    | gathering => exact h
    | over r => exact h

theorem inv_admits {code : List Cmd} : ∀ (ps : List Poll) {s : St}, Inv code [] s → Inv code [] (ps.foldl admit s)
  | [], _, h => h
  | p :: ps, _, h => inv_admits ps (inv_admit p h)

theorem inv_body {code : List Cmd} {s : St} (c : Nat) (w : Turn) (h : Inv code [] s) :
    Inv code [] ((w.polls.foldl admit s).ready.foldl (run c code w.acts) { w.polls.foldl admit s with ready := [] }) := by
  have h1 := inv_admits w.polls h
  refine inv_jobs c w.acts _ ⟨base_same h1.base rfl rfl rfl rfl, todo_same h1.todo rfl rfl, ?_⟩
  refine gath_same h1.gath rfl rfl rfl rfl (fun _ => rfl) ?_ ?_ ?_ (fun _ => Iff.rfl) id
  · simp
  · simp
  · simp

theorem left_over {l : List Task} {r : Option Nat} : Ev.over r ∉ l.filterMap left := by
  intro h
  obtain ⟨x, _, hx⟩ := List.mem_filterMap.1 h
  unfold left at hx
  split at hx <;> cases hx

theorem left_gathered {l : List Task} : Ev.gathered ∉ l.filterMap left := by
  intro h
  obtain ⟨x, _, hx⟩ := List.mem_filterMap.1 h
  unfold left at hx
  split at hx <;> cases hx

theorem left_ended {l : List Task} {k : Kind} {r : Option Nat} : Ev.ended k r ∉ l.filterMap left := by
  intro h
  obtain ⟨x, _, hx⟩ := List.mem_filterMap.1 h
  unfold left at hx
  split at hx <;> cases hx

theorem inv_close {code : List Cmd} {s : St} (h : Inv code [] s) : Inv code [] (close s) := by
  refine ⟨?_, todo_same h.todo rfl rfl, ?_⟩
  · refine ⟨?_, ?_, h.base.kept_iff, h.base.owns, h.base.kept_lt, h.base.nodup, ?_⟩
    · intro t x r hx ho
      simp only [close]
      exact List.mem_append_left _ (List.mem_append_left _ (h.base.ended_of t x r hx ho))
    · intro k r hk
      simp only [close, List.mem_append, List.mem_singleton] at hk
      rcases hk with (hk | hk) | hk
      · exact h.base.of_ended k r hk
      · exact absurd hk left_ended
      · cases hk
    · simp only [close, List.mem_append, List.mem_singleton, left_gathered, or_false, reduceCtorEq]
      exact h.base.calm
  · refine gath_same h.gath rfl rfl rfl rfl (fun _ => rfl) rfl id id ?_ ?_
    · intro r
      simp only [close, List.mem_append, List.mem_singleton, left_over, or_false, reduceCtorEq]
    · simp only [close, List.mem_append, List.mem_singleton, left_gathered, or_false, reduceCtorEq]
      exact id

theorem inv_turn {code : List Cmd} {s : St} (c : Nat) (w : Turn) (h : Inv code [] s) : Inv code [] (turn c code s w) := by
  unfold turn
  split
  · exact h
  · simp only
    split
    · exact inv_close (inv_body c w h)
    · exact inv_body c w h

theorem inv_init (code : List Cmd) : Inv code [] init := by
  refine ⟨⟨?_, ?_, ?_, rfl, ?_, List.nodup_nil, fun g => (by cases g)⟩, rfl, ⟨?_, List.nodup_nil, ?_, ?_, ?_, ?_, ?_, ?_, ?_, ?_, ?_⟩⟩
  · intro t x r hx; simp [init] at hx
  · intro k r hk; cases hk
  · intro t x hx; simp [init] at hx
  · intro t ht; cases ht
  · intro _; exact ⟨rfl, rfl, rfl⟩
  · intro t ht; cases ht
  · intro h; cases h
  · intro t ht; cases ht
  · intro r h; cases h
  · intro h; cases h
  · intro r h; cases h
  · intro r h; cases h
  · intro r h; cases h
  · intro h; cases h

theorem inv_turns (c : Nat) (code : List Cmd) (ws : List Turn) : Inv code [] (turns c code ws) := by
  unfold turns
  have : ∀ (ws : List Turn) (s : St), Inv code [] s → Inv code [] (ws.foldl (turn c code) s) := by
    intro ws
    induction ws with
    | nil => exact fun _ h => h
    | cons w ws ih => exact fun s h => ih _ (inv_turn c w h)
  exact this ws _ (inv_init code)

end Verif.Startup
