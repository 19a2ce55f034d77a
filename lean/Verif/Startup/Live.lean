import Verif.Startup.Ending

namespace Verif.Startup

/-! ## What has happened stays, and what is scheduled happens -/

/-- Nothing is closed yet. -/
def Open (tr : List Ev) : Prop := ∀ e ∈ tr, e ≠ .closed ∧ ∀ j, e ≠ .cancelled j

/-- What stays. -/
structure Keep (s s' : St) : Prop where
  over : ∀ t q, overOf s t = some q → overOf s' t = some q
  outer : s.outer.isSome → s'.outer.isSome
  stopping : s.stopping = true → s'.stopping = true
  main : ∀ r, s.main = .over r → s'.main = .over r
  past : Past s → Past s'
  opened : Open s.trace → Open s'.trace

theorem Keep.refl (s : St) : Keep s s := ⟨fun _ _ => id, id, id, fun _ => id, id, id⟩

theorem Keep.trans {a b c : St} (h : Keep a b) (g : Keep b c) : Keep a c :=
  ⟨fun t q k => g.over t q (h.over t q k), g.outer ∘ h.outer, g.stopping ∘ h.stopping, fun r k => g.main r (h.main r k), g.past ∘ h.past, g.opened ∘ h.opened⟩

theorem open_snoc {tr : List Ev} {e : Ev} (h : Open tr) (h1 : e ≠ .closed) (h2 : ∀ j, e ≠ .cancelled j) : Open (tr ++ [e]) := by
  intro x hx
  rcases List.mem_append.1 hx with g | g
  · exact h x g
  · rw [List.mem_singleton.1 g]; exact ⟨h1, h2⟩

theorem keep_spawn (k : Kind) (b : Bool) (o : Nat) (s : St) : Keep s { spawn k b s with own := o } :=
  ⟨fun t q h => by rw [← h]; exact overOf_snoc t, id, id, fun _ => id, id, id⟩

theorem keep_exec : ∀ (cs : List Cmd) (s : St), ¬ Past s → Keep s (exec cs s)
  | [], s, hn => ⟨fun _ _ => id, id, id, fun r h => absurd (.inr ⟨r, h⟩) hn, fun h => absurd h hn, fun h => open_snoc h (by simp) (by simp)⟩
  | .create b :: cs, s, hn => by
    simp only [exec]
    exact (keep_spawn _ _ _ s).trans (keep_exec cs _ hn)
  | .wait :: cs, s, hn => ⟨fun _ _ => id, id, id, fun r h => absurd (.inr ⟨r, h⟩) hn, fun h => absurd h hn, id⟩
  | .raise e :: _, s, hn => ⟨fun _ _ => id, id, id, fun r h => absurd (.inr ⟨r, h⟩) hn, fun h => absurd h hn, fun h => open_snoc h (by simp) (by simp)⟩

theorem keep_internals : ∀ (l : List (Kind × Bool)) (s : St), Keep s (l.foldl (fun s p => spawn p.1 p.2 s) s) ∧
    (l.foldl (fun s p => spawn p.1 p.2 s) s).main = s.main
  | [], s => ⟨Keep.refl s, rfl⟩
  | p :: l, s => ⟨(keep_spawn p.1 p.2 s.own s).trans (keep_internals l _).1, (keep_internals l _).2⟩

theorem keep_main (c : Nat) (code : List Cmd) (s : St) : Keep s (mainStep c code s) := by
  unfold mainStep
  cases hm : s.main with
  | fresh =>
    have h := keep_internals (internals c) s
    exact h.1.trans (keep_exec _ _ (by unfold Past; rw [h.2, hm]; simp))
  | resumed rest => exact keep_exec _ _ (by unfold Past; rw [hm]; simp)
  | gathering =>
    simp only
    cases s.outer with
    | some r =>
      exact ⟨fun _ _ => id, id, id, fun q h => (by rw [hm] at h; cases h), fun _ => .inr ⟨r, rfl⟩, fun h => open_snoc h (by simp) (by simp)⟩
    | none => exact Keep.refl s
  | waiting rest => exact Keep.refl s
  | over r => exact Keep.refl s

theorem keep_finish (t : Nat) (r : Option Nat) (s : St) : Keep s (finish t r s) := by
  unfold finish
  cases hx : s.tasks[t]? with
  | none => exact Keep.refl s
  | some x =>
    simp only
    cases ho : x.over with
    | some q => exact Keep.refl s
    | none =>
      simp only [Option.isSome_none, Bool.false_eq_true, if_false]
      have h0 : overOf s t = none := by unfold overOf; rw [hx]; exact ho
      have h : Keep s { s with tasks := s.tasks.modify t fun x => { x with over := some r }, trace := s.trace ++ [.ended x.kind r] } := by
        refine ⟨?_, id, id, fun _ => id, id, fun h => open_snoc h (by simp) (by simp)⟩
        intro i q g
        rw [overOf_modify hx rfl]
        split
        · rename_i hi; subst hi; rw [h0] at g; cases g
        · exact g
      by_cases hc : s.main = .gathering ∧ t ∈ s.kept
      · rw [if_pos hc]; exact ⟨h.over, h.outer, h.stopping, h.main, h.past, h.opened⟩
      · rw [if_neg hc]; exact h

theorem keep_act (a : Act) (t : Nat) (k : Kind) (s : St) : Keep s (act a t k s) := by
  have h1 : Keep s (handle a k s) := by
    unfold handle
    split
    · exact ⟨fun _ _ => id, id, id, fun _ => id, id, fun h => open_snoc h (by simp) (by simp)⟩
    · exact Keep.refl s
  have h2 : Keep s (listen a t k (handle a k s)) := by
    unfold listen
    split
    · exact ⟨h1.over, h1.outer, h1.stopping, h1.main, h1.past, h1.opened⟩
    · exact h1
  unfold act
  simp only
  cases a.next with
  | suspend => exact h2.trans ⟨fun i q g => by rw [← g]; exact overOf_wait rfl i, id, id, fun _ => id, id, id⟩
  | again => exact ⟨h2.over, h2.outer, h2.stopping, h2.main, h2.past, h2.opened⟩
  | finish => exact h2.trans (keep_finish _ _ _)
  | fail e => exact h2.trans (keep_finish _ _ _)

theorem keep_done (t : Nat) (s : St) : Keep s (doneCallback t s) := by
  unfold doneCallback
  simp only
  split
  · exact ⟨fun _ _ => id, id, id, fun _ => id, id, id⟩
  · split
    · exact ⟨fun _ _ => id, fun _ => rfl, id, fun _ => id, id, id⟩
    · split
      · exact ⟨fun _ _ => id, fun _ => rfl, id, fun _ => id, id, id⟩
      · exact ⟨fun _ _ => id, id, id, fun _ => id, id, id⟩

theorem keep_run (c : Nat) (code : List Cmd) (acts : Nat → Act) (s : St) (j : Job) : Keep s (run c code acts s j) := by
  cases j with
  | main => exact keep_main c code s
  | first t k =>
    simp only [run]
    cases k with
    | own j =>
      have h : Keep s (s.say (.started j)) := ⟨fun _ _ => id, id, id, fun _ => id, id, fun h => open_snoc h (by simp) (by simp)⟩
      exact h.trans (keep_act _ _ _ _)
    | _ => exact keep_act _ _ _ _
  | step t =>
    simp only [run]
    split
    · split
      · exact Keep.refl s
      · exact keep_act _ _ _ _
    · exact Keep.refl s
  | accept t =>
    have h : Keep s (s.say .accepted) := ⟨fun _ _ => id, id, id, fun _ => id, id, fun h => open_snoc h (by simp) (by simp)⟩
    exact h.trans (keep_spawn .conn false s.own _)
  | done t => exact keep_done t s
  | stop => exact ⟨fun _ _ => id, id, fun _ => rfl, fun _ => id, id, id⟩

theorem keep_admit (s : St) (p : Poll) : Keep s (admit s p) := by
  cases p with
  | accept t =>
    simp only [admit]; split
    · exact ⟨fun _ _ => id, id, id, fun _ => id, id, id⟩
    · exact Keep.refl s
  | wake t =>
    simp only [admit]; split
    · split
      · exact ⟨fun i q g => by rw [← g]; exact overOf_wait rfl i, id, id, fun _ => id, id, id⟩
      · exact Keep.refl s
    · exact Keep.refl s
  | wakeMain =>
    simp only [admit]
    cases hm : s.main with
    | waiting rest => exact ⟨fun _ _ => id, id, id, fun r h => (by rw [hm] at h; cases h), fun h => (by unfold Past at h; rw [hm] at h; simp at h), id⟩
    | _ => exact Keep.refl s

theorem keep_foldl {α : Type} (f : St → α → St) (hf : ∀ s a, Keep s (f s a)) : ∀ (l : List α) (s : St), Keep s (l.foldl f s)
  | [], s => Keep.refl s
  | a :: l, s => (hf s a).trans (keep_foldl f hf l _)

/-- What a handle brings about has happened after the turn. -/
theorem happens {P : St → Prop} (c : Nat) (code : List Cmd) (acts : Nat → Act) (hP : ∀ s s', Keep s s' → P s → P s') {js : List Job} {s : St} {j : Job}
    (hj : j ∈ js) (h : ∀ s', Keep s s' → P (run c code acts s' j)) : P (js.foldl (run c code acts) s) := by
  obtain ⟨a, b, rfl⟩ := List.append_of_mem hj
  rw [List.foldl_append, List.foldl_cons]
  exact hP _ _ (keep_foldl _ (keep_run c code acts) b _) (h _ (keep_foldl _ (keep_run c code acts) a s))

theorem admit_ready (s : St) (p : Poll) : s.ready <+: (admit s p).ready := by
  cases p with
  | accept t =>
    simp only [admit]; split
    · exact List.prefix_append _ _
    · exact List.prefix_refl _
  | wake t =>
    simp only [admit]; split
    · split
      · exact List.prefix_append _ _
      · exact List.prefix_refl _
    · exact List.prefix_refl _
  | wakeMain =>
    simp only [admit]; split
    · exact List.prefix_append _ _
    · exact List.prefix_refl _

theorem admits_ready : ∀ (ps : List Poll) (s : St), s.ready <+: (ps.foldl admit s).ready
  | [], _ => List.prefix_refl _
  | p :: ps, s => (admit_ready s p).trans (admits_ready ps _)

/-- The end of a turn. -/
def body (c : Nat) (code : List Cmd) (s : St) (w : Turn) : St :=
  (w.polls.foldl admit s).ready.foldl (run c code w.acts) { w.polls.foldl admit s with ready := [] }

theorem keep_body (c : Nat) (code : List Cmd) (s : St) (w : Turn) : Keep s (body c code s w) := by
  have h1 := keep_foldl _ keep_admit w.polls s
  have h2 : Keep s { w.polls.foldl admit s with ready := [] } := ⟨h1.over, h1.outer, h1.stopping, h1.main, h1.past, h1.opened⟩
  exact h2.trans (keep_foldl _ (keep_run c code w.acts) _ _)

theorem body_happens {P : St → Prop} (c : Nat) (code : List Cmd) (hP : ∀ s s', Keep s s' → P s → P s') {s : St} {w : Turn} {j : Job}
    (hj : j ∈ s.ready) (h : ∀ s', Keep s s' → P (run c code w.acts s' j)) : P (body c code s w) := by
  refine happens c code w.acts hP ((admits_ready w.polls s).subset hj) ?_
  intro s' hs'
  have h1 := keep_foldl _ keep_admit w.polls s
  have h2 : Keep s { w.polls.foldl admit s with ready := [] } := ⟨h1.over, h1.outer, h1.stopping, h1.main, h1.past, h1.opened⟩
  exact h s' (h2.trans hs')

theorem turn_body {c : Nat} {code : List Cmd} {s : St} {w : Turn} (hs : s.stopping = false) :
    turn c code s w = if (body c code s w).stopping then close (body c code s w) else body c code s w := by
  unfold turn body
  rw [hs]; rfl

/-- Between turns: the trace says whether the loop has stopped, and then what has been cancelled. -/
structure Shut (s : St) : Prop where
  opened : s.stopping = false → Open s.trace
  closed : s.stopping = true → Ev.closed ∈ s.trace ∧ ∃ tr, Open tr ∧ s.trace = tr ++ s.tasks.filterMap left ++ [.closed]

theorem shut_turn {s : St} (c : Nat) (code : List Cmd) (w : Turn) (h : Shut s) : Shut (turn c code s w) := by
  cases hs : s.stopping with
  | true => unfold turn; rw [hs]; exact h
  | false =>
    rw [turn_body hs]
    have ho := (keep_body c code s w).opened (h.opened hs)
    cases hb : (body c code s w).stopping with
    | true =>
      rw [if_pos rfl]
      refine ⟨fun g => ?_, fun _ => ⟨by simp [close], _, ho, rfl⟩⟩
      have g' : (body c code s w).stopping = false := g
      rw [hb] at g'; cases g'
    | false =>
      rw [if_neg (by simp)]
      exact ⟨fun _ => ho, fun g => by rw [hb] at g; cases g⟩

theorem shut_turns (c : Nat) (code : List Cmd) (ws : List Turn) : Shut (turns c code ws) := by
  unfold turns
  have : ∀ (ws : List Turn) (s : St), Shut s → Shut (ws.foldl (turn c code) s) := by
    intro ws
    induction ws with
    | nil => exact fun _ h => h
    | cons w ws ih => exact fun s h => ih _ (shut_turn c code w h)
  exact this ws _ ⟨fun _ e he => (by cases he), fun h => (by cases h)⟩

/-! ### Three turns -/

theorem turn_keep {s : St} (c : Nat) (code : List Cmd) (w : Turn) {P : St → Prop} (hc : ∀ s, P s → P (close s)) (h : s.stopping = true → P s)
    (hb : s.stopping = false → P (body c code s w)) : P (turn c code s w) := by
  cases hs : s.stopping with
  | true => unfold turn; rw [hs]; exact h hs
  | false =>
    rw [turn_body hs]
    split
    · exact hc _ (hb hs)
    · exact hb hs

/-- A task of the list has raised: after a turn `gather` has ended. -/
theorem one_turn {code : List Cmd} {s : St} (c : Nat) (w : Turn) (h : Inv code [] s) (hp : Past s) {t e : Nat} (ht : t ∈ s.kept)
    (ho : overOf s t = some (some e)) : let s' := turn c code s w
    Past s' ∧ (s'.outer.isSome ∨ (∃ r, s'.main = .over r) ∨ s'.stopping = true) := by
  refine turn_keep c code w (P := fun s' => Past s' ∧ (s'.outer.isSome ∨ (∃ r, s'.main = .over r) ∨ s'.stopping = true)) (fun _ h => h)
    (fun hs => ⟨hp, .inr (.inr hs)⟩) ?_
  intro _
  refine ⟨(keep_body c code s w).past hp, ?_⟩
  rcases hp with hm | ⟨r, hm⟩
  · left
    rcases List.mem_append.1 (h.gath.all hm t ht (by rw [ho]; rfl)) with g | g
    · exact (keep_body c code s w).outer (h.gath.told t g e ho)
    · have hj : Job.done t ∈ s.ready := by
        rw [List.nil_append] at g
        obtain ⟨j, h1, h2⟩ := List.mem_filterMap.1 g
        cases j <;> simp at h2
        subst h2; exact h1
      refine body_happens (P := fun s => s.outer.isSome = true) c code (fun s s' k => k.outer) hj ?_
      intro s' k
      have hov := k.over t _ ho
      simp only [run, doneCallback]
      by_cases hou : s'.outer.isSome
      · rw [if_pos hou]; exact hou
      · rw [if_neg hou]
        unfold overOf at hov
        cases hx : s'.tasks[t]? with
        | none => rw [hx] at hov; cases hov
        | some x =>
          rw [hx] at hov
          obtain ⟨k, w, o⟩ := x
          have : o = some (some e) := hov
          subst this
          rfl
  · right; left; exact ⟨r, (keep_body c code s w).main r hm⟩

/-- `gather` has ended: after a turn `__start` has. -/
theorem two_turn {code : List Cmd} {s : St} (c : Nat) (w : Turn) (h : Inv code [] s) (hp : Past s)
    (ho : s.outer.isSome ∨ (∃ r, s.main = .over r) ∨ s.stopping = true) : let s' := turn c code s w
    (∃ r, s'.main = .over r) ∨ s'.stopping = true := by
  refine turn_keep c code w (P := fun s' => (∃ r, s'.main = .over r) ∨ s'.stopping = true) (fun _ h => h) .inr ?_
  intro hs
  rcases ho with ho | ⟨r, hm⟩ | ho
  · rcases hp with hm | ⟨r, hm⟩
    · left
      have hj := h.gath.woken ho hm
      rw [List.nil_append] at hj
      refine body_happens (P := fun s => ∃ r, s.main = .over r) c code (fun s s' k ⟨r, hr⟩ => ⟨r, k.main r hr⟩) hj ?_
      intro s' k
      have hou := k.outer ho
      have hpa := k.past (.inl hm)
      simp only [run, mainStep]
      rcases hpa with g | ⟨r, g⟩
      · rw [g]
        simp only
        cases hq : s'.outer with
        | none => rw [hq] at hou; cases hou
        | some r => exact ⟨r, rfl⟩
      · rw [g]; exact ⟨r, g⟩
    · exact .inl ⟨r, (keep_body c code s w).main r hm⟩
  · exact .inl ⟨r, (keep_body c code s w).main r hm⟩
  · rw [hs] at ho; cases ho

/-- `__start` has ended: after a turn the loop has stopped. -/
theorem three_turn {code : List Cmd} {s : St} (c : Nat) (w : Turn) (h : Inv code [] s) (ho : (∃ r, s.main = .over r) ∨ s.stopping = true) :
    (turn c code s w).stopping = true := by
  refine turn_keep c code w (P := fun s' => s'.stopping = true) (fun _ h => h) id ?_
  intro hs
  rcases ho with ⟨r, hm⟩ | ho
  · rcases h.gath.ending r hm with g | g
    · exact body_happens (P := fun s => s.stopping = true) c code (fun s s' k => k.stopping) g (fun s' _ => rfl)
    · exact (keep_body c code s w).stopping g
  · rw [hs] at ho; cases ho

/-- The loop stops only when `__start` has ended. -/
structure Halt (js : List Job) (s : St) : Prop where
  job : Job.stop ∈ js ++ s.ready → ∃ r, s.main = .over r
  flag : s.stopping = true → ∃ r, s.main = .over r

theorem own_unique {l : List Task} (h : (l.filterMap ownOf).Nodup) {x y : Task} (hx : x ∈ l) (hy : y ∈ l) {j : Nat} (h1 : x.kind = .own j)
    (h2 : y.kind = .own j) : x = y := by
  have e1 : ownOf x = some j := by unfold ownOf; rw [h1]
  have e2 : ownOf y = some j := by unfold ownOf; rw [h2]
  induction l with
  | nil => cases hx
  | cons a l ih =>
    rw [List.filterMap_cons] at h
    rcases List.mem_cons.1 hx with rfl | gx <;> rcases List.mem_cons.1 hy with rfl | gy
    · rfl
    · rw [e1] at h
      exact absurd (List.mem_filterMap.2 ⟨y, gy, e2⟩) (List.nodup_cons.1 h).1
    · rw [e2] at h
      exact absurd (List.mem_filterMap.2 ⟨x, gx, e1⟩) (List.nodup_cons.1 h).1
    · refine ih ?_ gx gy
      cases ha : ownOf a with
      | none => rw [ha] at h; exact h
      | some b => rw [ha] at h; exact (List.nodup_cons.1 h).2

/-- New handles are not `stop`, or `__start` has ended. -/
theorem halt_of {js : List Job} {s s' : St} (h : Halt js s) (k : Keep s s') (hr : ∀ j ∈ s'.ready, j ∈ s.ready ∨ j ≠ .stop ∨ ∃ r, s'.main = .over r)
    (hs : s'.stopping = s.stopping) : Halt js s' := by
  have m : (∃ r, s.main = .over r) → ∃ r, s'.main = .over r := fun ⟨r, g⟩ => ⟨r, k.main r g⟩
  constructor
  · intro g
    rcases List.mem_append.1 g with g | g
    · exact m (h.job (List.mem_append_left _ g))
    · rcases hr _ g with g | g | g
      · exact m (h.job (List.mem_append_right _ g))
      · exact absurd rfl g
      · exact g
  · rw [hs]; exact fun g => m (h.flag g)

/-- Ready handles afterwards. -/
def New (s s' : St) : Prop := (∀ j ∈ s'.ready, j ∈ s.ready ∨ j ≠ .stop ∨ ∃ r, s'.main = .over r) ∧ s'.stopping = s.stopping

theorem new_exec : ∀ (cs : List Cmd) (s : St), New s (exec cs s)
  | [], s => by
    refine ⟨?_, rfl⟩
    intro j hj
    simp only [exec, gather, St.say, List.mem_append, List.mem_map] at hj
    rcases hj with g | ⟨t, _, rfl⟩
    · exact .inl g
    · exact .inr (.inl (by simp))
  | .create b :: cs, s => by
    simp only [exec]
    have h := new_exec cs { spawn (.own s.own) b s with own := s.own + 1 }
    refine ⟨?_, h.2⟩
    intro j hj
    rcases h.1 j hj with g | g | g
    · rcases List.mem_append.1 g with g | g
      · exact .inl g
      · rw [List.mem_singleton.1 g]; exact .inr (.inl (by simp))
    · exact .inr (.inl g)
    · exact .inr (.inr g)
  | .wait :: cs, s => ⟨fun j hj => .inl hj, rfl⟩
  | .raise e :: cs, s => ⟨fun j _ => .inr (.inr ⟨some e, rfl⟩), rfl⟩

theorem new_internals : ∀ (l : List (Kind × Bool)) (s : St), (∀ j ∈ (l.foldl (fun s p => spawn p.1 p.2 s) s).ready, j ∈ s.ready ∨ j ≠ .stop) ∧
    (l.foldl (fun s p => spawn p.1 p.2 s) s).stopping = s.stopping
  | [], s => ⟨fun j hj => .inl hj, rfl⟩
  | p :: l, s => by
    have h := new_internals l (spawn p.1 p.2 s)
    refine ⟨?_, h.2⟩
    intro j hj
    rcases h.1 j hj with g | g
    · rcases List.mem_append.1 g with g | g
      · exact .inl g
      · rw [List.mem_singleton.1 g]; exact .inr (by simp)
    · exact .inr g

theorem new_main (c : Nat) (code : List Cmd) (s : St) : New s (mainStep c code s) := by
  unfold mainStep
  cases hm : s.main with
  | fresh =>
    have h := new_internals (internals c) s
    have g := new_exec code ((internals c).foldl (fun s p => spawn p.1 p.2 s) s)
    refine ⟨?_, g.2.trans h.2⟩
    intro j hj
    rcases g.1 j hj with k | k
    · rcases h.1 j k with k | k
      · exact .inl k
      · exact .inr (.inl k)
    · exact .inr k
  | resumed rest => exact new_exec rest s
  | gathering =>
    simp only
    cases s.outer with
    | some r => exact ⟨fun j _ => .inr (.inr ⟨r, rfl⟩), rfl⟩
    | none => exact ⟨fun j hj => .inl hj, rfl⟩
  | waiting rest => exact ⟨fun j hj => .inl hj, rfl⟩
  | over r => exact ⟨fun j hj => .inl hj, rfl⟩

theorem new_snoc {s s' : St} {j : Job} (hr : s'.ready = s.ready ++ [j]) (hj : j ≠ .stop) (hs : s'.stopping = s.stopping) : New s s' := by
  refine ⟨?_, hs⟩
  intro i hi
  rw [hr] at hi
  rcases List.mem_append.1 hi with g | g
  · exact .inl g
  · rw [List.mem_singleton.1 g]; exact .inr (.inl hj)

theorem new_same {s s' : St} (hr : s'.ready = s.ready) (hs : s'.stopping = s.stopping) : New s s' :=
  ⟨fun j hj => .inl (by rw [hr] at hj; exact hj), hs⟩

theorem new_act (a : Act) (t : Nat) (k : Kind) (s : St) : New s (act a t k s) := by
  have h1 : (listen a t k (handle a k s)).ready = s.ready ∧ (listen a t k (handle a k s)).stopping = s.stopping := by
    unfold listen handle
    split <;> split <;> exact ⟨rfl, rfl⟩
  generalize hl : listen a t k (handle a k s) = s1 at h1
  have fin (r : Option Nat) : New s (finish t r s1) := by
    unfold finish
    cases hx : s1.tasks[t]? with
    | none => exact new_same h1.1 h1.2
    | some x =>
      simp only
      cases ho : x.over with
      | some q => exact new_same h1.1 h1.2
      | none =>
        simp only [Option.isSome_none, Bool.false_eq_true, if_false]
        by_cases hc : s1.main = .gathering ∧ t ∈ s1.kept
        · rw [if_pos hc]; exact new_snoc (j := .done t) (by simp only [St.soon]; rw [h1.1]) (by simp) h1.2
        · rw [if_neg hc]; exact new_same h1.1 h1.2
  unfold act
  simp only [hl]
  cases a.next with
  | suspend => exact new_same h1.1 h1.2
  | again => exact new_snoc (j := .step t) (by simp only [St.soon]; rw [h1.1]) (by simp) h1.2
  | finish => exact fin none
  | fail e => exact fin (some e)

theorem halt_run {js : List Job} {s : St} (c : Nat) (code : List Cmd) (acts : Nat → Act) (j : Job) (h : Halt (j :: js) s) : Halt js (run c code acts s j) := by
  have k := keep_run c code acts s j
  have h' : Halt js s := ⟨fun g => h.job (List.mem_cons_of_mem _ g), h.flag⟩
  cases j with
  | main => exact halt_of h' k (new_main c code s).1 (new_main c code s).2
  | first t kd =>
    simp only [run] at k ⊢
    cases kd with
    | own j =>
      have n := new_act (acts t) t (.own j) (s.say (.started j))
      exact halt_of h' k n.1 n.2
    | _ => exact halt_of h' k (new_act _ _ _ s).1 (new_act _ _ _ s).2
  | step t =>
    simp only [run] at k ⊢
    cases hx : s.tasks[t]? with
    | none => exact h'
    | some x =>
      simp only
      split
      · exact h'
      · exact halt_of h' (keep_act _ _ _ s) (new_act _ _ _ s).1 (new_act _ _ _ s).2
  | accept t =>
    have n : New s (run c code acts s (.accept t)) := new_snoc (j := .first s.tasks.length .conn) rfl (by simp) rfl
    exact halt_of h' k n.1 n.2
  | done t =>
    have n : New s (doneCallback t s) := by
      unfold doneCallback
      simp only
      split
      · exact new_same rfl rfl
      · split
        · exact new_snoc (j := .main) rfl (by simp) rfl
        · split
          · exact new_snoc (j := .main) rfl (by simp) rfl
          · exact new_same rfl rfl
    exact halt_of h' k n.1 n.2
  | stop =>
    have m := h.job (by simp)
    exact ⟨fun _ => m, fun _ => m⟩

theorem halt_jobs (c : Nat) (code : List Cmd) (acts : Nat → Act) : ∀ (js : List Job) {s : St}, Halt js s → Halt [] (js.foldl (run c code acts) s)
  | [], _, h => h
  | j :: js, _, h => halt_jobs c code acts js (halt_run c code acts j h)

theorem halt_admit {s : St} (p : Poll) (h : Halt [] s) : Halt [] (admit s p) := by
  have k := keep_admit s p
  have n : New s (admit s p) := by
    cases p with
    | accept t =>
      simp only [admit]; split
      · exact new_snoc (j := .accept t) rfl (by simp) rfl
      · exact new_same rfl rfl
    | wake t =>
      simp only [admit]; split
      · split
        · exact new_snoc (j := .step t) rfl (by simp) rfl
        · exact new_same rfl rfl
      · exact new_same rfl rfl
    | wakeMain =>
      simp only [admit]; split
      · exact new_snoc (j := .main) rfl (by simp) rfl
      · exact new_same rfl rfl
  exact halt_of h k n.1 n.2

theorem halt_admits : ∀ (ps : List Poll) {s : St}, Halt [] s → Halt [] (ps.foldl admit s)
  | [], _, h => h
  | p :: ps, _, h => halt_admits ps (halt_admit p h)

theorem halt_turns (c : Nat) (code : List Cmd) (ws : List Turn) : Halt [] (turns c code ws) := by
  unfold turns
  have step : ∀ (s : St) (w : Turn), Halt [] s → Halt [] (turn c code s w) := by
    intro s w h
    refine turn_keep c code w (P := Halt []) (fun _ h => ⟨h.job, h.flag⟩) (fun _ => h) ?_
    intro _
    have h1 := halt_admits w.polls h
    refine halt_jobs c code w.acts _ ⟨?_, h1.flag⟩
    intro g
    simp only [List.append_nil] at g
    exact h1.job g
  have : ∀ (ws : List Turn) (s : St), Halt [] s → Halt [] (ws.foldl (turn c code) s) := by
    intro ws
    induction ws with
    | nil => exact fun _ h => h
    | cons w ws ih => exact fun s h => ih _ (step s w h)
  refine this ws _ ⟨?_, fun g => (by cases g)⟩
  intro g
  simp [init] at g

theorem stops (c : Nat) (code : List Cmd) (ws : List Turn) (h : (turns c code ws).stopping = true) : ∃ r, (turns c code ws).main = .over r :=
  (halt_turns c code ws).flag h

end Verif.Startup
