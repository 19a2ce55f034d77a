import Verif.Buffered.Steps

/-!
# Workers stay awake, pauses hold: lemmas for C18 to C22
-/

set_option linter.unusedSectionVars false

namespace Verif.Buffered

open Verif.Py Verif.Queue Verif.Queue.Spec Verif.Pending

variable {K D M R S : Type} [DecidableEq K]

/-- The condition of C18 and C19. -/
def Awake (s : St K D M R S) : Prop := s.noWorker = true → s.paused = true ∨ s.pair.hasPending = false ∨ lostKeys s.log ≠ []

theorem awake_check (s : St K D M R S) : Awake s.check := fun h => by rw [noWorker_check] at h; cases h

theorem awake_start {cfg : Cfg K D M R S} (hc : cfg.codecs.Lawful) {s s' : St K D M R S} {t : Nat} {lp le} (hT : Tasks s)
    (hi : Pending.Inv cfg.codecs s.pair lp le) (hs : s.start cfg t = some s') : Awake s' := by
  obtain ⟨g1, g2, g3, g4, _⟩ := start_turn hc hT hi hs
  intro hn
  rcases g4 hn with g | g | ⟨k, g⟩
  · exact .inl (g3.trans g)
  · subst g
    right; left
    have : (turn (R := R) cfg.build s.paused ([] : List (K × PEntry K D M))).1 = [] := by cases s.paused <;> rfl
    rw [this] at g1
    cases hh : s'.pair.hasPending with
    | false => rfl
    | true => exact absurd rfl ((hasPending_iff hc g1).mp hh)
  · right; right
    rw [g2]
    intro h0
    have : k ∈ lostKeys ((turn cfg.build s.paused lp).2 ++ s.log) := lost_mem.mpr (List.mem_append_left _ g)
    rw [h0] at this; cases this

theorem awake_finish {cfg : Cfg K D M R S} (hc : cfg.codecs.Lawful) {s s' : St K D M R S} {t : Nat} {o} {lp le} (hT : Tasks s)
    (hi : Pending.Inv cfg.codecs s.pair lp le) (hs : s.finish cfg t o = some s') : Awake s' := by
  obtain ⟨e, ht⟩ := finish_flight hs
  by_cases ho : o = .raise
  · subst ho
    obtain ⟨g1, g2, g3, g4⟩ := raise_result hT ht hs
    intro _; right; right; rw [g2]; simp [lostKeys]
  · obtain ⟨g1, g2, g3, g4, _⟩ := finish_turn hc hT hi ht ho hs
    intro hn
    rcases g4 hn with g | g | ⟨k, g⟩
    · exact .inl (g3.trans g)
    · right; left
      rw [g] at g1
      have : (turn (R := R) cfg.build s.paused ([] : List (K × PEntry K D M))).1 = [] := by cases s.paused <;> rfl
      rw [this] at g1
      cases hh : s'.pair.hasPending with
      | false => rfl
      | true => exact absurd rfl ((hasPending_iff hc g1).mp hh)
    · right; right
      rw [g2]
      intro h0
      have : k ∈ lostKeys ((turn cfg.build s.paused (settle cfg e o lp le).1).2 ++ endEvent e.key o :: s.log) :=
        lost_mem.mpr (List.mem_append_left _ g)
      rw [h0] at this; cases this

theorem awake_mono {s s' : St K D M R S} (h : Awake s) (h1 : s'.noWorker = s.noWorker) (h2 : s'.paused = s.paused)
    (h3 : s'.pair.hasPending = s.pair.hasPending) (h4 : lostKeys s'.log = lostKeys s.log) : Awake s' := by
  intro hn
  rw [h2, h3, h4]
  exact h (h1 ▸ hn)

theorem awake_popError {cfg : Cfg K D M R S} {s : St K D M R S} (h : Awake s) (k : K) : Awake (s.popError cfg k) := by
  have hp : (s.pair.popError cfg.codecs k).2.hasPending = s.pair.hasPending := rfl
  unfold St.popError
  split <;> (rename_i hq; rw [hq] at hp; exact awake_mono h rfl rfl hp rfl)

theorem awake_clear {cfg : Cfg K D M R S} {s : St K D M R S} (h : Awake s) : Awake (s.clearErrors cfg) := by
  exact awake_mono h rfl rfl rfl rfl

theorem awake_reprocess {cfg : Cfg K D M R S} (hc : cfg.codecs.Lawful) {s : St K D M R S} {a : Abs K D M R} (h : Amounts cfg s a) :
    (s.reprocessAll cfg).noWorker = false ∧ (s.reprocessAll cfg).paused = false ∧ ∀ k,
    (s.reprocessOne cfg k).noWorker = false ∧ (s.reprocessOne cfg k).paused = false := by
  have hn := (C03_size hc.2 h.inv.re h.inv.holds.e).1
  obtain ⟨q', h1, h2⟩ := inv_moveAllN hc a.le (s.pair.error.size + 1) h.inv (by omega)
  refine ⟨?_, ?_, fun k => ?_⟩
  · unfold St.reprocessAll; rw [h1]; exact noWorker_check _
  · unfold St.reprocessAll; rw [h1]; exact (check_fields _).2.2.1
  · obtain ⟨h3, h4⟩ := inv_popKeyErr hc h.inv k
    unfold St.reprocessOne
    cases hl : lookup a.le k with
    | none =>
      rw [hl] at h3
      have e : s.pair.error.popKey cfg.codecs.e k = (.ok none, (s.pair.error.popKey cfg.codecs.e k).2) := by rw [← h3]
      have hm : s.pair.moveOne cfg.codecs k = (.ok none, { s.pair with error := (s.pair.error.popKey cfg.codecs.e k).2 }) := by
        unfold Pair.moveOne; rw [e]
      rw [hm]
      exact ⟨noWorker_check _, (check_fields _).2.2.1⟩
    | some v =>
      rw [hl] at h3
      have e : s.pair.error.popKey cfg.codecs.e k = (.ok (some v), (s.pair.error.popKey cfg.codecs.e k).2) := by rw [← h3]
      obtain ⟨h5, _⟩ := inv_pushPending hc h4 k v.data 0 v.md
      have e2 : Pair.pushPending cfg.codecs { s.pair with error := (s.pair.error.popKey cfg.codecs.e k).2 } k v.data 0 v.md =
          (.ok (), (Pair.pushPending cfg.codecs { s.pair with error := (s.pair.error.popKey cfg.codecs.e k).2 } k v.data 0 v.md).2) := by
        rw [← h5]
      have hm : s.pair.moveOne cfg.codecs k = (.ok (some v.data),
          (Pair.pushPending cfg.codecs { s.pair with error := (s.pair.error.popKey cfg.codecs.e k).2 } k v.data 0 v.md).2) := by
        unfold Pair.moveOne; rw [e]; simp only; rw [e2]
      rw [hm]
      exact ⟨noWorker_check _, (check_fields _).2.2.1⟩

theorem awake_h {cfg : Cfg K D M R S} (hc : cfg.codecs.Lawful) {s} (h : HReach cfg PushWhileAwake s) : Awake s.core := by
  induction h with
  | setup hq => exact awake_check ((St.init cfg _).check.unpause)
  | @step s l s' hr hP hs ih =>
    obtain ⟨lp0, le0, a, _, _, _, _, _, ha⟩ := hreach_amounts ⟨true, true, true⟩ hc (by simp) hr
    cases l with
    | arrive k raw =>
      simp only [Handler.step, Option.some.injEq] at hs
      have hem : ∀ ev : Ev K D M R, (∀ l, lostKeys (ev :: l) = lostKeys l) → Awake (s.core.emit ev) := by
        intro ev hev hn
        rcases ih hn with g | g | g
        · exact .inl g
        · exact .inr (.inl g)
        · exact .inr (.inr (by simpa [St.emit, hev] using g))
      cases hb : cfg.build raw with
      | none => rw [hb] at hs; subst hs; exact hem _ fun _ => rfl
      | some d =>
        rw [hb] at hs; simp only at hs
        split at hs
        · subst hs; exact hem _ fun _ => rfl
        · subst hs; exact ih
    | accept i m =>
      simp only [Handler.step] at hs
      split at hs
      · cases hs
      · rw [← Option.some.inj hs]; exact awake_check _
    | refuse i =>
      simp only [Handler.step] at hs
      split at hs
      · cases hs
      · rw [← Option.some.inj hs]
        intro hn
        rcases ih hn with g | g | g
        · exact .inl g
        · exact .inr (.inl g)
        · exact .inr (.inr (by simpa [St.emit, lostKeys] using g))
    | push i =>
      simp only [Handler.step] at hs
      split at hs
      · cases hs
      · rw [← Option.some.inj hs]
        intro hn
        have := hP i rfl
        change s.core.noWorker = true at hn
        rw [this] at hn; cases hn
    | start t =>
      simp only [Handler.step, Option.map_eq_some_iff] at hs
      obtain ⟨c, hcs, rfl⟩ := hs
      exact awake_start hc ha.core.tasks ha.core.inv hcs
    | finish t o =>
      have hs' : (s.core.finish cfg t o).map (fun c => { s with core := c }) = some s' := by
        cases o <;> simp only [Handler.step] at hs <;> first | exact hs | cases hs
      rw [Option.map_eq_some_iff] at hs'
      obtain ⟨c, hcs, rfl⟩ := hs'
      exact awake_finish hc ha.core.tasks ha.core.inv hcs
    | pauseReceiving => rw [← Option.some.inj hs]; exact ih
    | unpauseReceiving => rw [← Option.some.inj hs]; exact awake_check _
    | pauseProcessing => rw [← Option.some.inj hs]; exact fun _ => .inl rfl
    | unpauseProcessing => rw [← Option.some.inj hs]; exact awake_check _
    | clearErrors => rw [← Option.some.inj hs]; exact awake_clear ih
    | popError k => rw [← Option.some.inj hs]; exact awake_popError ih k
    | reprocessAll => rw [← Option.some.inj hs]; intro hn; rw [(awake_reprocess hc ha.core).1] at hn; cases hn
    | reprocessOne k => rw [← Option.some.inj hs]; intro hn; rw [((awake_reprocess hc ha.core).2.2 k).1] at hn; cases hn

theorem awake_s {cfg : Cfg K D M R S} (hc : cfg.codecs.Lawful) {s} (h : SReach cfg Any s) : Awake s := by
  induction h with
  | setup hq => exact awake_check ((St.init cfg _).unpause)
  | @step s l s' hr hP hs ih =>
    obtain ⟨lp0, le0, a, _, _, _, _, _, ha, _⟩ := sreach_amounts ⟨true, true, true⟩ hc (by simp) hr
    cases l with
    | enqueue k d =>
      simp only [Sender.step, Option.some.injEq] at hs
      obtain ⟨h1, _⟩ := inv_pushPending hc ha.inv k d 0 cfg.noMeta
      have e : s.pair.pushPending cfg.codecs k d 0 cfg.noMeta = (.ok (), (s.pair.pushPending cfg.codecs k d 0 cfg.noMeta).2) := by
        rw [← h1]
      rw [e] at hs
      rw [← hs]; exact awake_check _
    | start t => exact awake_start hc ha.tasks ha.inv hs
    | finish t o => exact awake_finish hc ha.tasks ha.inv hs
    | pause => rw [← Option.some.inj hs]; exact fun _ => .inl rfl
    | unpause => rw [← Option.some.inj hs]; exact awake_check _
    | clearErrors => rw [← Option.some.inj hs]; exact awake_clear ih
    | popError k => rw [← Option.some.inj hs]; exact awake_popError ih k
    | reprocessAll => rw [← Option.some.inj hs]; intro hn; rw [(awake_reprocess hc ha).1] at hn; cases hn
    | reprocessOne k => rw [← Option.some.inj hs]; intro hn; rw [((awake_reprocess hc ha).2.2 k).1] at hn; cases hn

/-! ### quiet operations -/

/-- Neither pauses, nor unpauses, nor hands out a message. -/
def Quiet (s s' : St K D M R S) : Prop := s'.paused = s.paused ∧ starts s'.log = starts s.log

theorem quiet_check (s : St K D M R S) : Quiet s s.check :=
  ⟨(check_fields s).2.2.1, by rw [(check_fields s).2.1]⟩

theorem quiet_popError {cfg : Cfg K D M R S} (s : St K D M R S) (k : K) : Quiet s (s.popError cfg k) := by
  unfold St.popError
  split <;> exact ⟨rfl, rfl⟩

theorem starts_reprocessAll {cfg : Cfg K D M R S} (s : St K D M R S) : starts (s.reprocessAll cfg).log = starts s.log := by
  unfold St.reprocessAll
  split
  · rw [(check_fields _).2.1]; rfl
  · rfl
  · rfl

theorem starts_reprocessOne {cfg : Cfg K D M R S} (s : St K D M R S) (k : K) : starts (s.reprocessOne cfg k).log = starts s.log := by
  unfold St.reprocessOne
  split
  · rw [(check_fields _).2.1]; rfl
  · rw [(check_fields _).2.1]
  · rfl

theorem h_quiet {cfg : Cfg K D M R S} {s s' : Handler.HSt K D M R S} {l} (hs : Handler.step cfg s l = some s') (hw : ¬ HWork l) :
    starts s'.core.log = starts s.core.log ∧ (¬ HUnpauses l → s.core.paused = true → s'.core.paused = true) := by
  cases l with
  | arrive k raw =>
    simp only [Handler.step, Option.some.injEq] at hs
    cases hb : cfg.build raw with
    | none => rw [hb] at hs; subst hs; exact ⟨rfl, fun _ h => h⟩
    | some d =>
      rw [hb] at hs; simp only at hs
      split at hs <;> (subst hs; exact ⟨rfl, fun _ h => h⟩)
  | accept i m =>
    simp only [Handler.step] at hs
    split at hs
    · cases hs
    · rw [← Option.some.inj hs]
      exact ⟨(quiet_check _).2, fun _ h => (quiet_check _).1.trans h⟩
  | refuse i =>
    simp only [Handler.step] at hs
    split at hs
    · cases hs
    · rw [← Option.some.inj hs]; exact ⟨rfl, fun _ h => h⟩
  | push i =>
    simp only [Handler.step] at hs
    split at hs
    · cases hs
    · rw [← Option.some.inj hs]; exact ⟨rfl, fun _ h => h⟩
  | start t => exact absurd trivial hw
  | finish t o => exact absurd trivial hw
  | pauseReceiving => rw [← Option.some.inj hs]; exact ⟨rfl, fun _ h => h⟩
  | unpauseReceiving => rw [← Option.some.inj hs]; exact ⟨(quiet_check _).2, fun _ h => (quiet_check _).1.trans h⟩
  | pauseProcessing => rw [← Option.some.inj hs]; exact ⟨rfl, fun _ _ => rfl⟩
  | unpauseProcessing => rw [← Option.some.inj hs]; exact ⟨(quiet_check _).2, fun h => absurd trivial h⟩
  | clearErrors => rw [← Option.some.inj hs]; exact ⟨rfl, fun _ h => h⟩
  | popError k => rw [← Option.some.inj hs]; exact ⟨(quiet_popError _ k).2, fun _ h => (quiet_popError _ k).1.trans h⟩
  | reprocessAll => rw [← Option.some.inj hs]; exact ⟨starts_reprocessAll s.core, fun h => absurd trivial h⟩
  | reprocessOne k => rw [← Option.some.inj hs]; exact ⟨starts_reprocessOne s.core k, fun h => absurd trivial h⟩

theorem s_quiet {cfg : Cfg K D M R S} {s s' : St K D M R S} {l} (hs : Sender.step cfg s l = some s') (hw : ¬ SWork l) :
    starts s'.log = starts s.log ∧ (¬ SUnpauses l → s.paused = true → s'.paused = true) := by
  cases l with
  | enqueue k d =>
    simp only [Sender.step, Option.some.injEq] at hs
    split at hs
    · rw [← hs]; exact ⟨rfl, fun _ h => h⟩
    · rw [← hs]; exact ⟨(quiet_check _).2, fun _ h => (quiet_check _).1.trans h⟩
  | start t => exact absurd trivial hw
  | finish t o => exact absurd trivial hw
  | pause => rw [← Option.some.inj hs]; exact ⟨rfl, fun _ _ => rfl⟩
  | unpause => rw [← Option.some.inj hs]; exact ⟨(quiet_check _).2, fun h => absurd trivial h⟩
  | clearErrors => rw [← Option.some.inj hs]; exact ⟨rfl, fun _ h => h⟩
  | popError k => rw [← Option.some.inj hs]; exact ⟨(quiet_popError _ k).2, fun _ h => (quiet_popError _ k).1.trans h⟩
  | reprocessAll => rw [← Option.some.inj hs]; exact ⟨starts_reprocessAll s, fun h => absurd trivial h⟩
  | reprocessOne k => rw [← Option.some.inj hs]; exact ⟨starts_reprocessOne s k, fun h => absurd trivial h⟩

/-- A paused worker hands out nothing. -/
theorem paused_start {cfg : Cfg K D M R S} (hc : cfg.codecs.Lawful) {s s' : St K D M R S} {t : Nat} {lp le} (hT : Tasks s)
    (hi : Pending.Inv cfg.codecs s.pair lp le) (hp : s.paused = true) (hs : s.start cfg t = some s') :
    s'.paused = true ∧ starts s'.log = starts s.log := by
  obtain ⟨_, g2, g3, _⟩ := start_turn hc hT hi hs
  rw [hp] at g2 g3
  exact ⟨g3, by rw [g2]; rfl⟩

theorem paused_finish {cfg : Cfg K D M R S} (hc : cfg.codecs.Lawful) {s s' : St K D M R S} {t : Nat} {o} {lp le} (hT : Tasks s)
    (hi : Pending.Inv cfg.codecs s.pair lp le) (hp : s.paused = true) (hs : s.finish cfg t o = some s') :
    s'.paused = true ∧ starts s'.log = starts s.log := by
  obtain ⟨e, ht⟩ := finish_flight hs
  by_cases ho : o = .raise
  · subst ho
    obtain ⟨_, g2, g3, _⟩ := raise_result hT ht hs
    exact ⟨g3.trans hp, by rw [g2]; rfl⟩
  · obtain ⟨_, g2, g3, _⟩ := finish_turn hc hT hi ht ho hs
    rw [hp] at g2 g3
    refine ⟨g3, ?_⟩
    rw [g2]
    cases o <;> simp [turn, endEvent, starts]

/-- A finish event of an endpoint is one of the core. -/
theorem h_finish {cfg : Cfg K D M R S} {s s' : Handler.HSt K D M R S} {t : Nat} {o} (hs : Handler.step cfg s (.finish t o) = some s') :
    ∃ c, s.core.finish cfg t o = some c ∧ s' = { s with core := c } ∧ ∀ r, o ≠ .fatal r := by
  cases o <;> simp only [Handler.step, Option.map_eq_some_iff] at hs
  case fatal => cases hs
  all_goals
    obtain ⟨c, hcs, rfl⟩ := hs
    exact ⟨c, hcs, rfl, by simp⟩

theorem order_loop {cfg : Cfg K D M R S} {log log' : List (Ev K D M R)} {q' : Pair K S} {b : Bool} {lp1 le'} {x : List (Ev K D M R)}
    (hi : Pending.Inv cfg.codecs q' (turn (R := R) cfg.build b lp1).1 le')
    (hlog : log' = (turn cfg.build b lp1).2 ++ x) (hx : starts x = starts log) :
    starts log' = starts log ∨ StartedOldest cfg log log' q' lp1 le' := by
  subst hlog
  unfold turn at hi ⊢
  split
  · exact .inl hx
  · exact .inl hx
  · rename_i k e rest
    cases hb : cfg.build e.data with
    | none => exact .inl hx
    | some d =>
      simp only [hb] at hi
      exact .inr ⟨k, e, d, rest, rfl, hb, by simp [starts, hx], hi.holds⟩

theorem order_start {cfg : Cfg K D M R S} (hc : cfg.codecs.Lawful) {s s' : St K D M R S} {t : Nat} {lp le} (hT : Tasks s)
    (hi : Pending.Inv cfg.codecs s.pair lp le) (hs : s.start cfg t = some s') : starts s'.log = starts s.log ∨
    ∃ lp1 le', NextQueue cfg s.tasks lp lp1 ∧ StartedOldest cfg s.log s'.log s'.pair lp1 le' := by
  obtain ⟨g1, g2, _⟩ := start_turn hc hT hi hs
  rcases order_loop g1 g2 rfl with g | g
  · exact .inl g
  · exact .inr ⟨_, _, .inl rfl, g⟩

theorem order_finish {cfg : Cfg K D M R S} (hc : cfg.codecs.Lawful) {s s' : St K D M R S} {t : Nat} {o} {lp le} (hT : Tasks s)
    (hi : Pending.Inv cfg.codecs s.pair lp le) (hs : s.finish cfg t o = some s') : starts s'.log = starts s.log ∨
    ∃ lp1 le', NextQueue cfg s.tasks lp lp1 ∧ StartedOldest cfg s.log s'.log s'.pair lp1 le' := by
  obtain ⟨e, ht⟩ := finish_flight hs
  have hfl := inFlight_get (hT.onlyTask ht (by simp)) ht
  by_cases ho : o = .raise
  · subst ho
    left
    obtain ⟨_, g2, _⟩ := raise_result hT ht hs
    rw [g2]; rfl
  · obtain ⟨g1, g2, _⟩ := finish_turn hc hT hi ht ho hs
    rcases order_loop (log := s.log) g1 g2 (by cases o <;> simp [endEvent, starts]) with g | g
    · exact .inl g
    · refine .inr ⟨_, _, ?_, g⟩
      cases o with
      | ok => exact .inl rfl
      | raise => exact absurd rfl ho
      | fatal r => exact .inl rfl
      | retry =>
        simp only [settle]
        split
        · exact .inl rfl
        · exact .inr ⟨e, by rw [hfl]; simp, rfl⟩

theorem inFlight_le_one {s : St K D M R S} (h : Tasks s) : (inFlight s.tasks).length ≤ 1 := by
  by_cases ha : ∃ (t : Nat) (e : PEntry K D M), s.tasks[t]? = some (.inFlight e)
  · obtain ⟨t, e, hte⟩ := ha
    rw [inFlight_get (h.onlyTask hte (by simp)) hte]; simp
  · have : inFlight s.tasks = [] := by
      clear * - ha
      generalize s.tasks = l at *
      induction l with
      | nil => rfl
      | cons y l ih =>
        cases y with
        | inFlight e => exact absurd ⟨0, e, rfl⟩ ha
        | scheduled => exact ih fun ⟨t, e, h⟩ => ha ⟨t + 1, e, by simpa using h⟩
        | done => exact ih fun ⟨t, e, h⟩ => ha ⟨t + 1, e, by simpa using h⟩
    rw [this]; simp

theorem alive_task {s : St K D M R S} (h : Tasks s) (hn : s.noWorker = false) :
    ∃ t : Nat, s.tasks[t]? = some .scheduled ∨ ∃ e, s.tasks[t]? = some (.inFlight e) := by
  unfold St.noWorker at hn
  split at hn
  · cases hn
  · rename_i t hcur
    refine ⟨t, ?_⟩
    have hlt := h.cur t hcur
    rw [List.getElem?_eq_getElem hlt] at hn ⊢
    cases hx : s.tasks[t] with
    | done => rw [hx] at hn; cases hn
    | scheduled => exact .inl rfl
    | inFlight e => exact .inr ⟨e, rfl⟩

theorem reopened {c : Codecs K D M R S} (hc : c.Lawful) {q : Pair K S} {lp le} (h : Pending.Inv c q lp le) {p : Nat} (hp : 0 < p) :
    ∃ lp' le', PairHolds c (Pair.open p q.pending.shutDown.2.db q.error.shutDown.2.db) lp' le' ∧ lp'.Perm lp ∧ le'.Perm le := by
  obtain ⟨_, _, lp', h1, h2⟩ := C06_restart hc.1 h.rp h.holds.p hp
  obtain ⟨_, _, le', h3, h4⟩ := C06_restart hc.2 h.re h.holds.e hp
  exact ⟨lp', le', ⟨h1, h3, fun x hx => h.holds.pKeys x (h2.mem_iff.mp hx), fun x hx => h.holds.eKeys x (h4.mem_iff.mp hx)⟩, h2, h4⟩

theorem known_mem_acked {log : List (Ev K D M R)} {k d m} (h : .acked k d m ∈ log) : k ∈ known log := by
  induction log with
  | nil => cases h
  | cons x l ih =>
    simp only [List.mem_cons] at h
    rcases h with rfl | h
    · simp [known]
    · cases x <;> simp [known, ih h]

theorem known_mem_found {log : List (Ev K D M R)} {e} (h : .found e ∈ log) : e.key ∈ known log := by
  induction log with
  | nil => cases h
  | cons x l ih =>
    simp only [List.mem_cons] at h
    rcases h with rfl | h
    · simp [known]
    · cases x <;> simp [known, ih h]

theorem known_mem_foundFailed {log : List (Ev K D M R)} {e} (h : .foundFailed e ∈ log) : e.key ∈ known log := by
  induction log with
  | nil => cases h
  | cons x l ih =>
    simp only [List.mem_cons] at h
    rcases h with rfl | h
    · simp [known]
    · cases x <;> simp [known, ih h]

theorem cameIn_unique {build : D → Option D} {log : List (Ev K D M R)} (hf : Fresh log) {k d m d' m'} (ha : .acked k d m ∈ log)
    (hc : CameIn build log k d' m') : d' = d ∧ m' = m := by
  induction log with
  | nil => cases ha
  | cons x l ih =>
    have hfl : Fresh l := by
      unfold Fresh at hf ⊢
      cases x <;> first | exact hf | exact (List.nodup_cons.mp hf).2
    simp only [List.mem_cons] at ha
    rcases ha with rfl | ha
    · have hn : k ∉ known l := (List.nodup_cons.mp hf).1
      rcases hc with h | ⟨e, h, hk, _⟩ | ⟨e, h, hk, _⟩
      · simp only [List.mem_cons, Ev.acked.injEq, true_and] at h
        rcases h with h | h
        · exact h
        · exact absurd (known_mem_acked h) hn
      · simp only [List.mem_cons, reduceCtorEq, false_or] at h
        exact absurd (hk ▸ known_mem_found h) hn
      · simp only [List.mem_cons, reduceCtorEq, false_or] at h
        exact absurd (hk ▸ known_mem_foundFailed h) hn
    · have hkl := known_mem_acked ha
      have hne : ∀ k', (∃ l', known (x :: l) = k' :: l' ∧ l' = known l) → k' ≠ k := by
        rintro k' ⟨l', h1, rfl⟩ rfl
        unfold Fresh at hf
        rw [h1] at hf
        exact (List.nodup_cons.mp hf).1 hkl
      apply ih hfl ha
      rcases hc with h | ⟨e, h, hk, h'⟩ | ⟨e, h, hk, h'⟩
      · simp only [List.mem_cons] at h
        rcases h with rfl | h
        · exact absurd rfl (hne k ⟨_, rfl, rfl⟩)
        · exact .inl h
      · simp only [List.mem_cons] at h
        rcases h with rfl | h
        · exact absurd hk (hne e.key ⟨_, rfl, rfl⟩)
        · exact .inr (.inl ⟨e, h, hk, h'⟩)
      · simp only [List.mem_cons] at h
        rcases h with rfl | h
        · exact absurd hk (hne e.key ⟨_, rfl, rfl⟩)
        · exact .inr (.inr ⟨e, h, hk, h'⟩)

end Verif.Buffered
