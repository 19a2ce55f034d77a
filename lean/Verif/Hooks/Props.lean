import Verif.Hooks.Lemmas

/-!
# C83: the hooks of buffered middleware
-/

namespace Verif.Hooks

open Verif.Py

variable {K D J E : Type}

/-- Payloads are numbers and read back as themselves; two attempts. -/
def exCfg : Cfg Nat Nat := ⟨2, some, some⟩

/-- A middleware that returns `r` and otherwise does nothing. -/
def exHook (r : Option Meta) : Hook Nat Nat String :=
  ⟨fun _ d => (.ok r, d), fun _ d md _ => (.ok (), d, md), fun _ d md _ => (.ok (), d, md)⟩

theorem exHook_reads (r) : (exHook r).Reads := ⟨fun _ _ => rfl, fun _ _ _ _ => rfl, fun _ _ _ _ => rfl⟩

/-! ### At push time -/

/-- **C83**: when a request arrives, the middlewares' `before_push` are called in registration order, each once. If one raises, the later ones are not
called and the request is refused; if none does, it is not refused. -/
theorem C83_push (cfg : Cfg D J) (hooks : List (Hook K D E)) (handler : K → D → Except E Bool × D) (key : K) (dto : D) :
    ((receive cfg hooks key dto).1 ≠ .refused ∧
      (receive cfg hooks key dto).2.map Call.who = (List.range hooks.length).map .push ∧
      ∀ c ∈ (receive cfg hooks key dto).2, ¬ c.Raises hooks handler) ∨
    ((receive cfg hooks key dto).1 = .refused ∧
      (receive cfg hooks key dto).2.map Call.who <+: (List.range hooks.length).map .push ∧
      StopsWith hooks handler (receive cfg hooks key dto).2) := by
  rw [List.range_eq_range']
  rcases collect_calls hooks handler key hooks 0 dto [] rfl with ⟨⟨m, g1⟩, g2, g3⟩ | ⟨⟨e, g1⟩, g2, g3⟩
  · refine .inl ?_
    rcases hx : collect key hooks 0 dto [] with ⟨res, d, calls⟩
    rw [hx] at g1 g2 g3
    simp only at g1; subst g1
    simp only [receive, hx]
    cases entry cfg key d 0 m with
    | none => exact ⟨by simp, g2, g3⟩
    | some e => exact ⟨by simp, g2, g3⟩
  · refine .inr ?_
    rcases hx : collect key hooks 0 dto [] with ⟨res, d, calls⟩
    rw [hx] at g1 g2 g3
    simp only at g1; subst g1
    simp only [receive, hx]
    exact ⟨trivial, g2, g3⟩

theorem collect_left (key : K) : ∀ (hs : List (Hook K D E)) (i : Nat) (d : D) (md m : Meta),
    (collect key hs i d md).1 = .ok m → (collect key hs i d md).2.1 = hs.foldl (fun d h => (h.beforePush key d).2) d
  | [], _, _, _, _, _ => rfl
  | h :: hs, i, d, md, m, hok => by
    rcases hb : h.beforePush key d with ⟨res, d'⟩
    cases res with
    | error e => simp only [collect, hb] at hok; cases hok
    | ok r =>
      cases r with
      | none =>
        simp only [collect, hb] at hok ⊢
        rw [List.foldl_cons, hb]; exact collect_left key hs (i + 1) d' md m hok
      | some r =>
        simp only [collect, hb] at hok ⊢
        rw [List.foldl_cons, hb]; exact collect_left key hs (i + 1) d' (update md r) m hok

/-- **C83**: what is queued is the payload as the `before_push` hooks left it, under the request's key, with no retries. -/
theorem C83_queued (cfg : Cfg D J) (hooks : List (Hook K D E)) (key : K) (dto : D) (e : Entry K J)
    (h : (receive cfg hooks key dto).1 = .pending e) :
    e.key = key ∧ e.retries = 0 ∧ cfg.dump (hooks.foldl (fun d h => (h.beforePush key d).2) dto) = some e.data := by
  unfold receive at h
  have hl := collect_left key hooks 0 dto []
  rcases hc : collect key hooks 0 dto [] with ⟨res, d', calls⟩
  rw [hc] at hl
  simp only [hc] at h
  cases res with
  | error x => cases h
  | ok md =>
    simp only at h hl
    rw [← hl md rfl]
    unfold entry at h
    cases h1 : cfg.dump d' with
    | none => simp only [h1] at h; cases h
    | some j =>
      cases h2 : storedFields md [] with
      | none => simp only [h1, h2] at h; cases h
      | some m =>
        simp only [h1, h2] at h
        cases h
        exact ⟨rfl, rfl, rfl⟩

example : (receive exCfg [{ exHook none with beforePush := fun _ d => (.ok none, d + 1) }, exHook none] 7 5).1 = .pending ⟨7, 6, 0, []⟩ := by
  rfl

/-- **C83**: the dictionaries that the middlewares return are merged and stored with the message: a key has the value that the last
middleware returning it gave. For hooks that leave the payload alone and return only what JSON can express. -/
theorem C83_merged_partial (cfg : Cfg D J) (hooks : List (Hook K D E)) (rs : List (Option Meta)) (key : K) (dto : D)
    (hrs : hooks.map (fun h => h.beforePush key dto) = rs.map (fun r => (.ok r, dto)))
    (hplain : ∀ r, some r ∈ rs → Plain (.dict r)) (j : J) (hj : cfg.dump dto = some j) :
    ∃ md, receive cfg hooks key dto = (.pending ⟨key, j, 0, md⟩, (List.range hooks.length).map fun i => .push i key dto) ∧
      (md.map Prod.fst).Nodup ∧ ∀ k v, (k, v) ∈ md ↔ LastSays rs k v := by
  have hpl : ∀ r, some r ∈ rs → (∀ f ∈ r, ∃ s, f.1 = .str s) ∧ (r.map Prod.fst).Nodup ∧ ∀ f ∈ r, Plain f.2 := by
    intro r hr
    cases hplain r hr with
    | dict _ hk hn h => exact ⟨hk, hn, h⟩
  obtain ⟨md, h1, h2, h3⟩ := collect_merged key dto hooks rs 0 [] hrs (fun r hr => (hpl r hr).2.1) (by simp [Dict.keys])
  have h4 : ∀ k v, (k, v) ∈ md ↔ LastSays rs k v := by
    intro k v
    rw [h3]; simp
  have hfrom : ∀ f ∈ md, ∃ r, some r ∈ rs ∧ f ∈ r := by
    rintro ⟨k, v⟩ hf
    obtain ⟨pre, r, post, rfl, hm, _⟩ := (h4 k v).1 hf
    exact ⟨r, by simp, hm⟩
  have hst : storedFields md [] = some md := by
    simpa using storedFields_id md []
      (fun f hf => by obtain ⟨r, hr, hm⟩ := hfrom f hf; exact (hpl r hr).1 f hm)
      (by simpa [Dict.keys] using h2)
      (fun f hf => by obtain ⟨r, hr, hm⟩ := hfrom f hf; exact plain_stored ((hpl r hr).2.2 f hm))
  refine ⟨md, ?_, h2, h4⟩
  simp only [receive, h1, entry, hj, hst, List.range_eq_range']

/-! ### At every attempt -/

/-- **C83**: in every attempt, all `before_process` are called in registration order, then the handler, then all `after_process` in
registration order with the handler's verdict, unless one of them raises: then the calls end with that one and the message is in no
queue any more. -/
theorem C83_order (cfg : Cfg D J) (hooks : List (Hook K D E)) (handler : K → D → Except E Bool × D) (e : Entry K J) {d : D}
    (hb : cfg.build e.data = some d) :
    (∃ b d', .handler e.key d' ∈ (attempt cfg hooks handler e).2 ∧ (handler e.key d').1 = .ok b ∧
      (attempt cfg hooks handler e).2.map Call.who = full hooks.length e.retries b ∧
      (∀ c ∈ (attempt cfg hooks handler e).2, ¬ c.Raises hooks handler) ∧
      ((attempt cfg hooks handler e).1 = .done ↔ b = true)) ∨
    ((attempt cfg hooks handler e).1 = .lost ∧ StopsWith hooks handler (attempt cfg hooks handler e).2 ∧
      ∃ b, (attempt cfg hooks handler e).2.map Call.who <+: full hooks.length e.retries b) := by
  unfold full
  rw [List.range_eq_range']
  rcases hx : runBefore e.key e.retries hooks 0 d e.md with ⟨r1, d1, md1, c1⟩
  rcases runBefore_calls hooks handler e.key e.retries hooks 0 d e.md rfl with ⟨g1, g2, g3⟩ | ⟨⟨x, g1⟩, g2, g3⟩
  swap
  · rw [hx] at g1 g2 g3
    simp only at g1 g2 g3; subst g1
    refine .inr ?_
    simp only [attempt, hb, hx]
    refine ⟨trivial, g3, true, ?_⟩
    obtain ⟨t, ht⟩ := g2
    rw [← ht]
    exact ⟨t ++ .handler :: (List.range' 0 hooks.length).map (.after · true), by simp⟩
  rw [hx] at g1 g2 g3
  simp only at g1 g2 g3; subst g1
  rcases hy : handler e.key d1 with ⟨r2, d2⟩
  cases r2 with
  | error x =>
    refine .inr ?_
    simp only [attempt, hb, hx, hy]
    refine ⟨trivial, ⟨c1, _, rfl, g3, x, by rw [hy]⟩, true, ?_⟩
    simp only [List.map_append, g2, List.map_cons, List.map_nil, Call.who]
    exact ⟨(List.range' 0 hooks.length).map (.after · true), by simp⟩
  | ok success =>
    have hnot : ¬ (Call.handler e.key d1).Raises hooks handler := by
      rintro ⟨x, hx'⟩; rw [hy] at hx'; cases hx'
    rcases hz : runAfter e.key success hooks 0 d2 md1 with ⟨r3, d3, md3, c3⟩
    rcases runAfter_calls hooks handler e.key success hooks 0 d2 md1 rfl with ⟨f1, f2, f3⟩ | ⟨⟨x, f1⟩, f2, pre, c, f3, f4, f5⟩
    · rw [hz] at f1 f2 f3
      simp only at f1 f2 f3; subst f1
      refine .inl ⟨success, d1, ?_⟩
      have hcalls : (attempt cfg hooks handler e).2 = c1 ++ .handler e.key d1 :: c3 := by
        simp only [attempt, hb, hx, hy, hz]
        cases success with
        | true => rfl
        | false => cases hen : entry cfg e.key d3 (e.retries + 1) md3 <;> simp <;> split <;> rfl
      refine ⟨?_, by rw [hy], ?_, ?_, ?_⟩
      · rw [hcalls]; simp
      · rw [hcalls]; simp only [List.map_append, g2, List.map_cons, f2, Call.who]
      · rw [hcalls]
        intro c hc
        rcases List.mem_append.1 hc with hc | hc
        · exact g3 c hc
        · rcases List.mem_cons.1 hc with rfl | hc
          · exact hnot
          · exact f3 c hc
      · simp only [attempt, hb, hx, hy, hz]
        cases success with
        | true => simp
        | false => cases hen : entry cfg e.key d3 (e.retries + 1) md3 <;> simp <;> split <;> simp
    · rw [hz] at f1 f2 f3
      simp only at f1 f2 f3; subst f1
      refine .inr ?_
      simp only [attempt, hb, hx, hy, hz]
      refine ⟨trivial, ⟨c1 ++ .handler e.key d1 :: pre, c, by rw [f3]; simp, ?_, f5⟩, success, ?_⟩
      · intro y hy'
        rcases List.mem_append.1 hy' with h | h
        · exact g3 y h
        · rcases List.mem_cons.1 h with rfl | h
          · exact hnot
          · exact f4 y h
      · simp only [List.map_append, g2, List.map_cons, Call.who]
        obtain ⟨t, ht⟩ := f2
        rw [← ht]
        exact ⟨t, by simp⟩

/-- An attempt that leaves the message pending or failed has counted itself. -/
theorem attempt_next (cfg : Cfg D J) (hooks : List (Hook K D E)) (handler : K → D → Except E Bool × D) (e e' : Entry K J) :
    ((attempt cfg hooks handler e).1 = .pending e' → e'.retries = e.retries + 1) ∧
    ∀ i k d md r, .before i k d md r ∈ (attempt cfg hooks handler e).2 → r = e.retries := by
  constructor
  · intro h
    unfold attempt at h
    cases hb : cfg.build e.data with
    | none => simp only [hb] at h; cases h
    | some d =>
      simp only [hb] at h
      rcases hx : runBefore e.key e.retries hooks 0 d e.md with ⟨r1, d1, md1, c1⟩
      simp only [hx] at h
      cases r1 with
      | error x => cases h
      | ok u =>
        rcases hy : handler e.key d1 with ⟨r2, d2⟩
        simp only [hy] at h
        cases r2 with
        | error x => cases h
        | ok success =>
          rcases hz : runAfter e.key success hooks 0 d2 md1 with ⟨r3, d3, md3, c3⟩
          simp only [hz] at h
          cases r3 with
          | error x => cases h
          | ok u =>
            cases success with
            | true => cases h
            | false =>
              simp only [Bool.false_eq_true, if_false] at h
              unfold entry at h
              cases h1 : cfg.dump d3 with
              | none => simp only [h1] at h; split at h <;> cases h
              | some j =>
                cases h2 : storedFields md3 [] with
                | none => simp only [h1, h2] at h; split at h <;> cases h
                | some m =>
                  simp only [h1, h2] at h
                  split at h
                  · cases h
                  · cases h; rfl
  · intro i k d md r hr
    cases hb : cfg.build e.data with
    | none => simp only [attempt, hb] at hr; cases hr
    | some d0 =>
      have hmem : Who.before i r ∈ (attempt cfg hooks handler e).2.map Call.who := List.mem_map_of_mem (f := Call.who) hr
      rcases C83_order cfg hooks handler e hb with ⟨b, _, _, _, h, _⟩ | ⟨_, _, b, t, h⟩
      · rw [h] at hmem
        simp [full] at hmem
        exact hmem.2.symm
      · have hm2 : Who.before i r ∈ full hooks.length e.retries b := by rw [← h]; exact List.mem_append_left _ hmem
        simp [full] at hm2
        exact hm2.2.symm

/-- **C83**: the `retries` that the hooks see counts the attempts since the message was received (or since it was last reprocessed). -/
theorem C83_retries (cfg : Cfg D J) : ∀ (evs : List (Event K D E)) (e : Entry K J) (n : Nat) (calls : List (Call K D)),
    (∀ ev ∈ evs, ev ≠ .reprocess) → (run cfg (.pending e) evs).2[n]? = some calls →
    ∀ i k d md r, .before i k d md r ∈ calls → r = e.retries + n := by
  intro evs
  induction evs with
  | nil => intro e n calls _ h; simp [run] at h
  | cons ev evs ih =>
    intro e n calls hne h i k d md r hr
    cases ev with
    | reprocess => exact absurd rfl (hne _ (List.mem_cons_self ..))
    | attempt hooks handler =>
      simp only [run, step] at h
      cases n with
      | zero =>
        simp only [List.getElem?_cons_zero, Option.some.injEq] at h
        subst h
        exact (attempt_next cfg hooks handler e e).2 i k d md r hr
      | succ n =>
        simp only [List.getElem?_cons_succ] at h
        have hrest : ∀ ev ∈ evs, ev ≠ .reprocess := fun x hx => hne x (List.mem_cons_of_mem _ hx)
        have hquiet : ∀ (evs : List (Event K D E)) (p : Place K J), (∀ ev ∈ evs, ev ≠ .reprocess) → (∀ e, p ≠ .pending e) →
            ∀ (n : Nat) (calls : List (Call K D)), (run cfg p evs).2[n]? = some calls → calls = [] := by
          intro evs
          induction evs with
          | nil => intro p _ _ n calls h; simp [run] at h
          | cons ev evs ih =>
            intro p hne hp n calls h
            have hs : step cfg p ev = (p, []) := by
              cases p with
              | pending e => exact absurd rfl (hp e)
              | failed e =>
                cases ev with
                | attempt _ _ => rfl
                | reprocess => exact absurd rfl (hne _ (List.mem_cons_self ..))
              | done => rfl
              | lost => rfl
              | refused => rfl
            simp only [run, hs] at h
            cases n with
            | zero => simpa using h.symm
            | succ n => exact ih p (fun x hx => hne x (List.mem_cons_of_mem _ hx)) hp n calls (by simpa using h)
        cases hp : (attempt cfg hooks handler e).1 with
        | pending e' =>
          rw [hp] at h
          have := ih e' n calls hrest h i k d md r hr
          rw [(attempt_next cfg hooks handler e e').1 hp] at this
          omega
        | failed e' =>
          rw [hp] at h
          have := hquiet evs _ hrest (by simp) n calls h
          subst this; cases hr
        | done =>
          rw [hp] at h
          have := hquiet evs _ hrest (by simp) n calls h
          subst this; cases hr
        | lost =>
          rw [hp] at h
          have := hquiet evs _ hrest (by simp) n calls h
          subst this; cases hr
        | refused =>
          rw [hp] at h
          have := hquiet evs _ hrest (by simp) n calls h
          subst this; cases hr

theorem entry_stored {cfg : Cfg D J} {key : K} {d : D} {n : Nat} {md : Meta} {e : Entry K J} (h : entry cfg key d n md = some e) :
    storedFields e.md [] = some e.md := by
  unfold entry at h
  cases h1 : cfg.dump d with
  | none => simp only [h1] at h; cases h
  | some j =>
    cases h2 : storedFields md [] with
    | none => simp only [h1, h2] at h; cases h
    | some m =>
      simp only [h1, h2] at h
      cases h
      exact storedFields_again h2

theorem attempt_failed_stored {cfg : Cfg D J} {hooks : List (Hook K D E)} {handler : K → D → Except E Bool × D} {e e' : Entry K J}
    (h : (attempt cfg hooks handler e).1 = .failed e') : storedFields e'.md [] = some e'.md := by
  unfold attempt at h
  cases hb : cfg.build e.data with
  | none => simp only [hb] at h; cases h
  | some d =>
    simp only [hb] at h
    rcases hx : runBefore e.key e.retries hooks 0 d e.md with ⟨r1, d1, md1, c1⟩
    simp only [hx] at h
    cases r1 with
    | error x => cases h
    | ok u =>
      rcases hy : handler e.key d1 with ⟨r2, d2⟩
      simp only [hy] at h
      cases r2 with
      | error x => cases h
      | ok success =>
        rcases hz : runAfter e.key success hooks 0 d2 md1 with ⟨r3, d3, md3, c3⟩
        simp only [hz] at h
        cases r3 with
        | error x => cases h
        | ok u =>
          cases success with
          | true => cases h
          | false =>
            simp only [Bool.false_eq_true, if_false] at h
            cases hen : entry cfg e.key d3 (e.retries + 1) md3 with
            | none => simp only [hen] at h; split at h <;> cases h
            | some e2 =>
              simp only [hen] at h
              split at h
              · cases h; exact entry_stored hen
              · cases h

/-- **C83**: reprocessing a message that failed, at any time of its life, puts it back as it is: same payload, same metadata, no retries, and
no hook is called. -/
theorem C83_reprocess (cfg : Cfg D J) (hooks : List (Hook K D E)) (key : K) (dto : D) (evs : List (Event K D E)) (e : Entry K J)
    (h : (run cfg (receive cfg hooks key dto).1 evs).1 = .failed e) :
    run cfg (.failed e) [(.reprocess : Event K D E)] = (.pending ⟨e.key, e.data, 0, e.md⟩, [[]]) := by
  have key' : ∀ (evs : List (Event K D E)) (p : Place K J), (∀ e, p = .failed e → storedFields e.md [] = some e.md) →
      ∀ e, (run cfg p evs).1 = .failed e → storedFields e.md [] = some e.md := by
    intro evs
    induction evs with
    | nil => intro p hp e h; exact hp e h
    | cons ev evs ih =>
      intro p hp e h
      refine ih (step cfg p ev).1 ?_ e h
      intro e1 h1
      cases p with
      | pending e0 =>
        cases ev with
        | attempt hooks handler => exact attempt_failed_stored h1
        | reprocess => cases h1
      | failed e0 =>
        cases ev with
        | attempt hooks handler => exact hp e1 h1
        | reprocess =>
          simp only [step] at h1
          rw [hp e0 rfl] at h1
          cases h1
      | done => cases h1
      | lost => cases h1
      | refused => cases h1
  have hst := key' evs _ (by
    intro e1 h1
    unfold receive at h1
    rcases hc : collect key hooks 0 dto [] with ⟨res, d', calls⟩
    simp only [hc] at h1
    cases res with
    | error x => cases h1
    | ok md => cases hen : entry cfg key d' 0 md <;> simp only [hen] at h1 <;> cases h1) e h
  simp only [run, step, hst]

/-! ### What the hooks see -/

/-- **C83**: what was stored with the message is what all hooks and the handler see at every attempt, retry and reprocess, whatever kind of values the
metadata held, as long as no hook and no handler changes the objects it is given. No `before_push` is called again. -/
theorem C83_unchanged_partial (cfg : Cfg D J) (hooks : List (Hook K D E)) (key : K) (dto d : D) (e : Entry K J)
    (calls0 : List (Call K D)) (hr : receive cfg hooks key dto = (.pending e, calls0)) (hb : cfg.build e.data = some d)
    (hd : ∀ j, cfg.dump d = some j → cfg.build j = some d) (evs : List (Event K D E)) (hevs : ∀ ev ∈ evs, ev.Reads) :
    ∀ calls ∈ (run cfg (.pending e) evs).2, ∀ c ∈ calls, c.Shows key d e.md := by
  have hk : e.key = key ∧ storedFields e.md [] = some e.md := by
    unfold receive at hr
    rcases hc : collect key hooks 0 dto [] with ⟨res, d', calls⟩
    simp only [hc] at hr
    cases res with
    | error x => cases hr
    | ok md =>
      simp only at hr
      unfold entry at hr
      cases h1 : cfg.dump d' with
      | none => simp only [h1] at hr; cases hr
      | some j =>
        cases h2 : storedFields md [] with
        | none => simp only [h1, h2] at hr; cases hr
        | some m =>
          simp only [h1, h2] at hr
          cases hr
          exact ⟨rfl, storedFields_again h2⟩
  exact (run_reads hk.2 hd evs (.pending e) ⟨hk.1, hb, rfl⟩ hevs).2

/-- **C83**, the whole way: what the middlewares returned from `before_push` when the message was received, merged with the last one
winning, is what they and the others see at every attempt, with the payload that was received. -/
theorem C83_life_partial (cfg : Cfg D J) (hooks : List (Hook K D E)) (rs : List (Option Meta)) (key : K) (dto : D)
    (hrs : hooks.map (fun h => h.beforePush key dto) = rs.map (fun r => (.ok r, dto)))
    (hplain : ∀ r, some r ∈ rs → Plain (.dict r)) (j : J) (hj : cfg.dump dto = some j) (hb : cfg.build j = some dto)
    (evs : List (Event K D E)) (hevs : ∀ ev ∈ evs, ev.Reads) :
    ∃ md, (∀ k v, (k, v) ∈ md ↔ LastSays rs k v) ∧ (md.map Prod.fst).Nodup ∧
      ∀ calls ∈ (run cfg (receive cfg hooks key dto).1 evs).2, ∀ c ∈ calls, c.Shows key dto md := by
  obtain ⟨md, h1, h2, h3⟩ := C83_merged_partial cfg hooks rs key dto hrs hplain j hj
  refine ⟨md, h3, h2, ?_⟩
  rw [h1]
  exact C83_unchanged_partial cfg hooks key dto dto ⟨key, j, 0, md⟩ _ h1 hb
    (fun j' hj' => by rw [hj] at hj'; cases hj'; exact hb) evs hevs

/-- **C83**: a value survives being stored exactly if JSON can express it. -/
theorem C83_stored (v : Val) : v.stored = some v ↔ Plain v :=
  ⟨stored_plain v v, plain_stored⟩

/-- **C83**: what is read back can be expressed in JSON, so that a value changes at most once: on the way to the first attempt. -/
theorem C83_stored_once (v w : Val) (h : v.stored = some w) : Plain w ∧ w.stored = some w :=
  ⟨stored_plain v w h, plain_stored (stored_plain v w h)⟩

/-! ### Examples and refutations -/

/-- What two middlewares return that both set `who`. -/
def exResults : List (Option Meta) :=
  [some [(.str "who", .str "first"), (.str "at", .list [.int 1, .float "2.5"])], none, some [(.str "who", .str "last")]]

/-- A handler that fails and changes nothing. -/
def exFails : Nat → Nat → Except String Bool × Nat := fun _ d => (.ok false, d)

example : (exResults.map exHook).map (fun h => h.beforePush 7 5) = exResults.map (fun r => (.ok r, 5)) ∧
    (∀ r, some r ∈ exResults → Plain (.dict r)) ∧ exCfg.dump 5 = some 5 ∧ exCfg.build 5 = some 5 ∧
    (∀ ev ∈ [Event.attempt (exResults.map exHook) exFails, .attempt [] exFails, .reprocess, .attempt [exHook none] exFails],
      ev.Reads) := by
  refine ⟨rfl, ?_, rfl, rfl, ?_⟩
  · intro r hr
    simp only [exResults, List.mem_cons, Option.some.injEq, reduceCtorEq, List.not_mem_nil, or_false, false_or] at hr
    rcases hr with rfl | rfl
    · refine .dict _ (by simp) (by simp) ?_
      intro f hf
      simp only [List.mem_cons, List.not_mem_nil, or_false] at hf
      rcases hf with rfl | rfl
      · exact .str _
      · refine .list _ ?_
        intro v hv
        simp only [List.mem_cons, List.not_mem_nil, or_false] at hv
        rcases hv with rfl | rfl
        · exact .int _
        · exact .float _
    · refine .dict _ (by simp) (by simp) ?_
      intro f hf
      simp only [List.mem_cons, List.not_mem_nil, or_false] at hf
      subst hf; exact .str _
  · intro ev hev
    have hr : ∀ h ∈ exResults.map exHook, h.Reads := by
      intro h hh
      obtain ⟨r, _, rfl⟩ := List.mem_map.1 hh
      exact exHook_reads r
    simp only [List.mem_cons, List.not_mem_nil, or_false] at hev
    rcases hev with rfl | rfl | rfl | rfl
    · exact ⟨hr, fun _ _ => rfl⟩
    · exact ⟨by simp, fun _ _ => rfl⟩
    · trivial
    · exact ⟨by simp [exHook_reads], fun _ _ => rfl⟩

/-- The message of the example: what was stored, and the calls of its first attempt. -/
example : (receive exCfg (exResults.map exHook) 7 5).1 =
    .pending ⟨7, 5, 0, [(.str "who", .str "last"), (.str "at", .list [.int 1, .float "2.5"])]⟩ := by rfl

example : ((run exCfg (receive exCfg (exResults.map exHook) 7 5).1
      [.attempt (exResults.map exHook) exFails, .attempt [exHook none] exFails, .attempt [] exFails, .reprocess,
        .attempt [exHook none] exFails]).2.map (·.map Call.who)) =
    [full 3 0 false, full 1 1 false, [], [], full 1 0 false] := by rfl

/-- The documentation says that the metadata of `before_push` reaches the other hooks unchanged. A tuple arrives as a list and an integer key
as a string. -/
theorem C83_tuple_refuted : ∃ (hooks : List (Hook Nat Nat String)) (r : Meta),
    hooks.map (fun h => (h.beforePush 7 5)) = [(.ok (some r), 5)] ∧
    (∃ e, (receive exCfg hooks 7 5).1 = .pending e ∧ e.md ≠ r ∧
      e.md = [(.str "size", .list [.int 3, .int 4]), (.str "1", .bool true)]) ∧
    r = [(.str "size", .tuple [.int 3, .int 4]), (.int 1, .bool true)] := by
  refine ⟨[exHook (some [(.str "size", .tuple [.int 3, .int 4]), (.int 1, .bool true)])], _, rfl, ⟨_, rfl, ?_, rfl⟩, rfl⟩
  intro h
  have h' : [((.str "size" : Key), Val.list [.int 3, .int 4]), (.str "1", .bool true)] =
      [(.str "size", .tuple [.int 3, .int 4]), (.int 1, .bool true)] := h
  simp at h'

/-- A middleware whose metadata pydantic cannot serialise: the request is acknowledged, and the message is in no queue. -/
theorem C83_object_refuted : ∃ (hooks : List (Hook Nat Nat String)) (d : Nat), (∀ h ∈ hooks, h.Reads) ∧
    exCfg.dump d = some d ∧ receive exCfg hooks 7 d = (.lost, [.push 0 7 d]) := by
  refine ⟨[exHook (some [(.str "request", .object 0)])], 5, ?_, rfl, rfl⟩
  simp [exHook_reads]

/-- A handler that changes its payload and fails: the retry is given the changed payload, not the one that was received. A hook that changes
the metadata does the same to the metadata. -/
theorem C83_in_place_refuted :
    (∃ (handler : Nat → Nat → Except String Bool × Nat),
      (run exCfg (receive (E := String) exCfg [] 7 5).1 [.attempt [] handler, .attempt [] handler]).2 = [[.handler 7 5], [.handler 7 6]]) ∧
    ∃ (hook : Hook Nat Nat String),
      (run exCfg (receive exCfg [hook] 7 5).1 [.attempt [hook] exFails, .attempt [hook] exFails]).2.map (·.head?) =
        [some (.before 0 7 5 [] 0), some (.before 0 7 5 [(.str "seen", .bool true)] 1)] :=
  ⟨⟨fun _ d => (.ok false, d + 1), rfl⟩,
    ⟨{ exHook none with beforeProcess := fun _ d md _ => (.ok (), d, Dict.set md (.str "seen") (.bool true)) }, rfl⟩⟩

/-- The documentation says that `after_process` is called after processing completes, whether it succeeded or failed. When the handler raises it is
not called, neither now nor later: the message is lost. -/
theorem C83_after_refuted : ∃ (handler : Nat → Nat → Except String Bool × Nat),
    ∀ evs, (run exCfg (receive exCfg [exHook none] 7 5).1 (.attempt [exHook none] handler :: evs)).1 = .lost ∧
      ∀ calls ∈ (run exCfg (receive exCfg [exHook none] 7 5).1 (.attempt [exHook none] handler :: evs)).2,
        ∀ i k d md b, .after i k d md b ∉ calls := by
  refine ⟨fun _ d => (.error "down", d), ?_⟩
  have hlost : ∀ (evs : List (Event Nat Nat String)), (run exCfg .lost evs).1 = .lost ∧
      ∀ calls ∈ (run exCfg .lost evs).2, calls = [] := by
    intro evs
    induction evs with
    | nil => exact ⟨rfl, by simp [run]⟩
    | cons ev evs ih =>
      have : step exCfg .lost ev = (.lost, []) := by cases ev <;> rfl
      simp only [run, this]
      exact ⟨ih.1, by simpa using ih.2⟩
  intro evs
  have h1 : step exCfg (receive exCfg [exHook none] 7 5).1 (.attempt [exHook none] fun _ d => (.error "down", d)) =
      (.lost, [.before 0 7 5 [] 0, .handler 7 5]) := rfl
  simp only [run, h1]
  refine ⟨(hlost evs).1, ?_⟩
  intro calls hc i k d md b hm
  rcases List.mem_cons.1 hc with rfl | hc
  · simp at hm
  · rw [(hlost evs).2 calls hc] at hm; cases hm

end Verif.Hooks
