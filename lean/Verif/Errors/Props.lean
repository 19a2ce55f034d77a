import Verif.Errors.Spec
import Verif.Py.DictLemmas

/-! C46: error counters. -/

namespace Verif.Errors

open Verif.Py Verif.Errors.Spec

variable {upper : String → String}

/-! ### Helper lemmas -/

/-- The count stored for a key. -/
def stored (m : Map) (u : String) : Int := ((m.get? u).map Keeper.count).getD 0

structure Inv (m : Map) : Prop where
  nodup : (Dict.keys m).Nodup
  id : ∀ u k, m.get? u = some k → k.id = u
  nonneg : ∀ u k, m.get? u = some k → 0 ≤ k.count

theorem inv_set {m : Map} (h : Inv m) (u : String) (k : Keeper) (hid : k.id = u) (hc : 0 ≤ k.count) : Inv (m.set u k) := by
  refine ⟨Dict.nodup_keys_set _ _ _ h.nodup, ?_, ?_⟩ <;> intro u' k' hk
  all_goals
    rw [Dict.get?_set] at hk
    split at hk
    · next e => injection hk with hk; subst hk; subst e; assumption
    · first | exact h.id _ _ hk | exact h.nonneg _ _ hk

theorem clearSome_count (k : Keeper) (n : Int) (h : 0 ≤ k.count) : 0 ≤ (k.clearSome n).count := by
  unfold Keeper.clearSome; split <;> simp <;> omega

theorem clearSome_id (k : Keeper) (n : Int) : (k.clearSome n).id = k.id := by
  unfold Keeper.clearSome; split <;> rfl

theorem clearSome_description (k : Keeper) (n : Int) : (k.clearSome n).description = k.description := by
  unfold Keeper.clearSome; split <;> rfl

theorem increment_eq (m : Map) (id d : String) : increment upper m id d =
    match m.get? (upper id) with
    | some k => m.set (upper id) k.increment
    | none => (m.set (upper id) ⟨upper id, d, 0⟩).set (upper id) ⟨upper id, d, 1⟩ := by
  unfold increment Dict.has
  cases h : m.get? (upper id) with
  | some k => simp [h]
  | none => simp [h, Dict.get?_set, Keeper.increment]

theorem inv_step {m : Map} (h : Inv m) (o : Op) : Inv (step upper m o) := by
  have some' : ∀ id n, Inv (clearSome upper m id n) := by
    intro id n; unfold clearSome
    split
    · next k hk => exact inv_set h _ _ (by rw [clearSome_id]; exact h.id _ _ hk) (clearSome_count _ _ (h.nonneg _ _ hk))
    · exact h
  have all' : ∀ id, Inv (clearAll upper m id) := by
    intro id; unfold clearAll
    split
    · next k hk => exact inv_set h _ _ (show k.id = _ from h.id _ _ hk) (by simp [Keeper.clearAll])
    · exact h
  cases o with
  | raised id d =>
    simp only [step, increment_eq]
    split
    · next k hk =>
      exact inv_set h _ _ (show k.id = _ from h.id _ _ hk) (by have := h.nonneg _ _ hk; simp only [Keeper.increment]; omega)
    · exact inv_set (inv_set h _ ⟨_, d, 0⟩ rfl (Int.le_refl 0)) _ ⟨_, d, 1⟩ rfl (Int.zero_le_ofNat 1)
  | clearSome id n => exact some' id n
  | clearAll id => exact all' id
  | request id n =>
    simp only [step, clearRequest]
    split
    · split
      · exact all' id
      · exact some' id n
    · exact h

theorem inv_foldl (ops : List Op) {m : Map} (h : Inv m) : Inv (ops.foldl (step upper) m) := by
  induction ops generalizing m with
  | nil => exact h
  | cons o ops ih => exact ih (inv_step h o)

theorem inv_run (ops : List Op) : Inv (run upper ops) :=
  inv_foldl ops ⟨by simp [Dict.keys], by simp [Dict.get?], by simp [Dict.get?]⟩

theorem stored_set (m : Map) (u v : String) (k : Keeper) :
    stored (m.set u k) v = if u = v then k.count else stored m v := by
  unfold stored; rw [Dict.get?_set]; split <;> rfl

theorem stored_clearSome (m : Map) (i : String) (n : Int) (v : String) (h : Inv m) (hn : 0 ≤ n) :
    stored (clearSome upper m i n) v = if upper i = v then max 0 (stored m v - max 0 n) else stored m v := by
  unfold clearSome
  split
  · next k hk =>
    rw [stored_set]
    split
    · next e =>
      subst e
      have := h.nonneg _ _ hk
      have e : stored m (upper i) = k.count := by simp [stored, hk]
      rw [e]; unfold Keeper.clearSome
      split <;> simp only <;> omega
    · rfl
  · next hk =>
    split
    · next e => subst e; simp only [stored, hk]; simp; omega
    · rfl

theorem stored_clearAll (m : Map) (i : String) (v : String) :
    stored (clearAll upper m i) v = if upper i = v then 0 else stored m v := by
  unfold clearAll
  split
  · rw [stored_set]; rfl
  · next hk =>
    split
    · next e => subst e; simp [stored, hk]
    · rfl

theorem stored_step (m : Map) (h : Inv m) (o : Op) (ho : NonNeg o) (id : String) :
    stored (step upper m o) (upper id) = tick upper id (stored m (upper id)) o := by
  cases o with
  | raised i d =>
    simp only [step, increment_eq, tick]
    split
    · next k hk =>
      rw [stored_set]; split
      · next e => rw [← e]; simp [stored, hk, Keeper.increment]
      · rfl
    · next hk =>
      rw [stored_set, stored_set]; split
      · next e => rw [← e]; simp [stored, hk]
      · rfl
  | clearSome i n => exact stored_clearSome m i n _ h ho
  | clearAll i => exact stored_clearAll m i _
  | request i n =>
    simp only [step, clearRequest, tick]
    by_cases hh : hasId upper m i = true
    · rw [if_pos hh]
      split
      · exact stored_clearAll m i _
      · exact stored_clearSome m i n _ h ho
    · rw [if_neg hh]
      have hg : m.get? (upper i) = none := by
        simpa [hasId, Dict.has] using hh
      split
      · next e =>
        have e0 : stored m (upper id) = 0 := by rw [← e]; simp [stored, hg]
        have := (show 0 ≤ n from ho)
        rw [e0]; split <;> omega
      · rfl

theorem stored_foldl (id : String) (ops : List Op) {m : Map} (h : Inv m) (ho : ∀ o ∈ ops, NonNeg o) :
    stored (ops.foldl (step upper) m) (upper id) = ops.foldl (tick upper id) (stored m (upper id)) := by
  induction ops generalizing m with
  | nil => rfl
  | cons o ops ih =>
    simp only [List.foldl_cons]
    rw [ih (inv_step h o) (fun o' h' => ho o' (.tail _ h')), stored_step m h o (ho o (.head _))]

theorem mem_report (m : Map) (h : Inv m) (u d : String) (c : Int) :
    (u, d, c) ∈ report m ↔ 0 < c ∧ m.get? u = some ⟨u, d, c⟩ := by
  unfold report states
  simp only [List.mem_map, List.mem_filter, Keeper.isSet, decide_eq_true_eq, Keeper.toDict]
  constructor
  · rintro ⟨k, ⟨⟨⟨⟨u', k'⟩, hm, rfl⟩, hp⟩, _⟩, hk⟩
    have hg := Dict.get?_of_mem _ _ _ h.nodup hm
    have hi := h.id _ _ hg
    simp only [Prod.mk.injEq] at hk
    obtain ⟨h1, h2, h3⟩ := hk
    simp only at hi hp
    refine ⟨by omega, ?_⟩
    subst h1 h2 h3
    rw [hi, hg]
    simp [← hi]
  · rintro ⟨hp, hg⟩
    exact ⟨_, ⟨⟨⟨(u, _), Dict.get?_mem _ _ _ hg, rfl⟩, hp⟩, hp⟩, rfl⟩

theorem report_sublist : ∀ (m : Map), (∀ x ∈ m, x.2.id = x.1) → ((report m).map Prod.fst).Sublist (Dict.keys m)
  | [], _ => by simp [report, states, Dict.keys]
  | (u, k) :: m, hid => by
    have ih := report_sublist m (fun x hx => hid x (.tail _ hx))
    have := hid _ (.head _)
    simp only [report, states, Dict.keys, List.map_cons, List.filter_filter, Bool.and_self] at ih ⊢
    by_cases hs : k.isSet = true
    · rw [List.filter_cons_of_pos hs]
      simp only [List.map_cons, Keeper.toDict] at this ⊢
      rw [this]
      exact ih.cons_cons u
    · rw [List.filter_cons_of_neg hs]
      exact ih.cons u

theorem report_nodup (m : Map) (h : Inv m) : ((report m).map Prod.fst).Nodup :=
  (report_sublist m (fun x hx => h.id _ _ (Dict.get?_of_mem _ _ _ h.nodup hx))).nodup h.nodup

theorem shown_report (m : Map) (h : Inv m) (id : String) : shown upper (report m) id = stored m (upper id) := by
  unfold shown
  cases hf : (report m).find? (fun x => decide (x.1 = upper id)) with
  | some x =>
    obtain ⟨u, d, c⟩ := x
    have h1 := List.find?_some hf
    have h2 := List.mem_of_find?_eq_some hf
    simp only [decide_eq_true_eq] at h1
    subst h1
    have := ((mem_report m h _ _ _).1 h2).2
    simp [stored, this]
  | none =>
    rw [List.find?_eq_none] at hf
    simp only [stored]
    cases hg : m.get? (upper id) with
    | none => rfl
    | some k =>
      have hc := h.nonneg _ _ hg
      have hi := h.id _ _ hg
      simp only [Option.map_some, Option.getD_some]
      by_cases hz : k.count = 0
      · exact hz.symm
      · have := (mem_report m h (upper id) k.description k.count).2 ⟨by omega, by rw [hg]; simp [← hi]⟩
        exact absurd (hf _ this) (by simp)

theorem tally_bounds (id : String) (ops : List Op) : ∀ (c : Int), 0 ≤ c → (∀ o ∈ ops, NonNeg o) →
    ops.foldl (tick upper id) c ≤ c + raises upper id ops ∧ 0 ≤ ops.foldl (tick upper id) c := by
  induction ops with
  | nil => intro c h _; simp only [List.foldl_nil, raises]; omega
  | cons o ops ih =>
    intro c h ho
    have hstep : 0 ≤ tick upper id c o ∧ tick upper id c o + raises upper id ops ≤ c + raises upper id (o :: ops) := by
      cases o <;> simp only [tick, raises] <;> (repeat' split) <;> omega
    have := ih _ hstep.1 (fun o' h' => ho o' (.tail _ h'))
    simp only [List.foldl_cons]
    omega

theorem tally_lower (id : String) (ops : List Op) : ∀ (c : Int), 0 ≤ c → (∀ o ∈ ops, NonNeg o ∧ NotAll o) →
    c + raises upper id ops - cleared upper id ops ≤ ops.foldl (tick upper id) c := by
  induction ops with
  | nil => intro c h _; simp only [List.foldl_nil, raises, cleared]; omega
  | cons o ops ih =>
    intro c h ho
    have h0 := ho o (.head _)
    have hstep : 0 ≤ tick upper id c o ∧
        c + raises upper id (o :: ops) - cleared upper id (o :: ops) ≤
          tick upper id c o + raises upper id ops - cleared upper id ops := by
      cases o <;> simp only [tick, raises, cleared, NonNeg, NotAll] at h0 ⊢ <;> (repeat' split) <;> first | omega | simp at h0
    have := ih _ hstep.1 (fun o' h' => ho o' (.tail _ h'))
    simp only [List.foldl_cons]
    omega

/-! ### C46 -/

/-- **C46, counts.** After every history that clears no negative number, the report shows for every error, under any spelling
of its id, the number of times it was raised less the number cleared, never below zero. Missing: negative numbers. -/
theorem C46_count_partial (ops : List Op) (ho : ∀ o ∈ ops, NonNeg o) (id : String) :
    shown upper (report (run upper ops)) id = tally upper id ops := by
  rw [shown_report _ (inv_run ops), run, stored_foldl id ops ⟨by simp [Dict.keys], by simp [Dict.get?], by simp [Dict.get?]⟩ ho]
  rfl

/-- **C46, bounds.** The count is at most the number of raises and, when nothing clears everything, at least the raises less the
cleared. -/
theorem C46_bounds_partial (ops : List Op) (ho : ∀ o ∈ ops, NonNeg o) (id : String) :
    0 ≤ shown upper (report (run upper ops)) id ∧
    shown upper (report (run upper ops)) id ≤ raises upper id ops ∧
    ((∀ o ∈ ops, NotAll o) →
      raises upper id ops - cleared upper id ops ≤ shown upper (report (run upper ops)) id) := by
  rw [C46_count_partial ops ho]
  have h1 := tally_bounds (upper := upper) id ops 0 (Int.le_refl _) ho
  refine ⟨h1.2, by unfold tally; omega, ?_⟩
  intro hn
  have h2 := tally_lower (upper := upper) id ops 0 (Int.le_refl _) (fun o h => ⟨ho o h, hn o h⟩)
  unfold tally; omega

example : shown (·.toUpper) (report (run (·.toUpper) [.raised "db" "down", .raised "DB" "gone", .raised "io" "", .clearSome "dB" 1]))
    "db" = 1 := by decide +kernel

/-- **C46, listing.** After every history, without exception, only errors with a positive count are listed, each once, and
only errors that were raised. -/
theorem C46_listed (ops : List Op) :
    ((report (run upper ops)).map Prod.fst).Nodup ∧
    ∀ u d c, (u, d, c) ∈ report (run upper ops) → 0 < c ∧ ∃ i e, .raised i e ∈ ops ∧ u = upper i := by
  refine ⟨report_nodup _ (inv_run ops), ?_⟩
  intro u d c h
  rw [mem_report _ (inv_run ops)] at h
  refine ⟨h.1, ?_⟩
  have key : ∀ (ops : List Op) (m : Map) (v : String), v ∈ Dict.keys (ops.foldl (step upper) m) →
      v ∈ Dict.keys m ∨ ∃ i e, .raised i e ∈ ops ∧ v = upper i := by
    intro ops
    induction ops with
    | nil => intro m v hv; exact .inl hv
    | cons o ops ih =>
      intro m v hv
      rcases ih _ _ hv with h | ⟨i, e, h, hu⟩
      · have some' : ∀ id n, Dict.keys (clearSome upper m id n) = Dict.keys m := by
          intro id n; unfold clearSome; split
          · next k hk => exact Dict.keys_set_of_mem _ _ _ (by rw [← Dict.has_iff]; simp [Dict.has, hk])
          · rfl
        have all' : ∀ id, Dict.keys (clearAll upper m id) = Dict.keys m := by
          intro id; unfold clearAll; split
          · next k hk => exact Dict.keys_set_of_mem _ _ _ (by rw [← Dict.has_iff]; simp [Dict.has, hk])
          · rfl
        cases o with
        | raised i e =>
          by_cases hu : v = upper i
          · exact .inr ⟨i, e, .head _, hu⟩
          · left
            rw [← Dict.has_iff] at h ⊢
            simp only [step, increment_eq, Dict.has] at h ⊢
            split at h <;> simpa [Dict.get?_set, Ne.symm hu] using h
        | clearSome i n => left; simp only [step] at h; rwa [some'] at h
        | clearAll i => left; simp only [step] at h; rwa [all'] at h
        | request i n =>
          left
          simp only [step, clearRequest] at h
          split at h
          · split at h
            · rwa [all'] at h
            · rwa [some'] at h
          · exact h
      · exact .inr ⟨i, e, .tail _ h, hu⟩
  rcases key ops [] u (by rw [← Dict.has_iff]; unfold run at h; simp [Dict.has, h.2]) with h | h
  · simp [Dict.keys] at h
  · exact h

/-- **C46, completeness.** Every error with a positive count is listed, with the description it was first raised with. -/
theorem C46_described_partial (ops : List Op) (ho : ∀ o ∈ ops, NonNeg o) (id : String) (hp : 0 < tally upper id ops) :
    ∃ d, firstDescription upper id ops = some d ∧ (upper id, d, tally upper id ops) ∈ report (run upper ops) := by
  have hdesc : ∀ (ops : List Op) (m : Map), ((ops.foldl (step upper) m).get? (upper id)).map Keeper.description =
      ((m.get? (upper id)).map Keeper.description).or (firstDescription upper id ops) := by
    intro ops
    induction ops with
    | nil => intro m; simp [firstDescription]
    | cons o ops ih =>
      intro m
      simp only [List.foldl_cons]
      rw [ih]
      have some' : ∀ i n, ((clearSome upper m i n).get? (upper id)).map Keeper.description =
          (m.get? (upper id)).map Keeper.description := by
        intro i n; unfold clearSome; split
        · next k hk => rw [Dict.get?_set]; split
                       · next e => rw [← e, hk]; simp [clearSome_description]
                       · rfl
        · rfl
      have all' : ∀ i, ((clearAll upper m i).get? (upper id)).map Keeper.description =
          (m.get? (upper id)).map Keeper.description := by
        intro i; unfold clearAll; split
        · next k hk => rw [Dict.get?_set]; split
                       · next e => rw [← e, hk]; simp [Keeper.clearAll]
                       · rfl
        · rfl
      cases o with
      | raised i d =>
        simp only [step, increment_eq, firstDescription]
        split
        · next k hk =>
          rw [Dict.get?_set]; split
          · next e => rw [← e, hk]; simp [Keeper.increment]
          · rfl
        · next hk =>
          simp only [Dict.get?_set]; split
          · next e => rw [← e, hk]; simp
          · rfl
      | clearSome i n => simp only [step]; rw [some']; rfl
      | clearAll i => simp only [step]; rw [all']; rfl
      | request i n =>
        simp only [step, clearRequest, firstDescription]
        split
        · split
          · rw [all']
          · rw [some']
        · rfl
  have hcount := C46_count_partial (upper := upper) ops ho id
  rw [shown_report _ (inv_run ops)] at hcount
  have hd := hdesc ops []
  unfold stored at hcount
  cases hg : (run upper ops).get? (upper id) with
  | none => rw [hg] at hcount; simp at hcount; omega
  | some k =>
    rw [hg] at hcount
    simp only [Option.map_some, Option.getD_some] at hcount
    unfold run at hg
    rw [hg] at hd
    have hi := (inv_run (upper := upper) ops).id _ _ hg
    refine ⟨k.description, by simpa [Dict.get?] using hd.symm, ?_⟩
    rw [mem_report _ (inv_run ops)]
    refine ⟨hp, ?_⟩
    unfold run
    rw [hg, ← hcount, ← hi]

/-- **C46, clearing.** After every history, also one with negative numbers, clearing raises no count if its number is not
negative, and changes no other error. -/
theorem C46_clearing_partial (ops : List Op) (i : String) (n : Int) (hn : 0 ≤ n) (id : String) (o : Op)
    (ho : o = .clearSome i n ∨ o = .clearAll i ∨ o = .request i n) :
    let before := shown upper (report (run upper ops)) id
    let after := shown upper (report (run upper (ops ++ [o]))) id
    after ≤ before ∧ 0 ≤ after ∧ (upper i ≠ upper id → after = before) := by
  intro before after
  have h := inv_run (upper := upper) ops
  have hb : 0 ≤ before := by
    show 0 ≤ shown upper _ id
    rw [shown_report _ h, stored]
    cases hg : (run upper ops).get? (upper id) with
    | none => simp
    | some k => simpa using h.nonneg _ _ hg
  have ha : after = tick upper id before o := by
    show shown upper _ id = tick upper id (shown upper _ id) o
    rw [shown_report _ h, shown_report _ (inv_run _)]
    have : run upper (ops ++ [o]) = step upper (run upper ops) o := by simp [run]
    rw [this]
    refine stored_step _ h _ ?_ _
    rcases ho with rfl | rfl | rfl
    · exact hn
    · trivial
    · exact hn
  rcases ho with rfl | rfl | rfl <;> simp only [tick] at ha <;> (repeat' split at ha) <;> refine ⟨by omega, by omega, ?_⟩ <;>
    intro hne <;> first | omega | (rename_i hx _; exact absurd hx hne) | (rename_i hx; exact absurd hx hne)

/-- **C46, case.** Ids that differ only in case are the same error: operations under either spelling have the same effect. -/
theorem C46_case (m : Map) (i j : String) (h : upper i = upper j) (d : String) (n : Int) :
    step upper m (.raised i d) = step upper m (.raised j d) ∧ step upper m (.clearSome i n) = step upper m (.clearSome j n) ∧
    step upper m (.clearAll i) = step upper m (.clearAll j) ∧ step upper m (.request i n) = step upper m (.request j n) := by
  have h1 : clearSome upper m i n = clearSome upper m j n := by simp only [clearSome, h]
  have h2 : clearAll upper m i = clearAll upper m j := by simp only [clearAll, h]
  have h3 : hasId upper m i = hasId upper m j := by simp only [hasId, h]
  refine ⟨?_, h1, h2, ?_⟩
  · simp only [step, increment, h]
  · simp only [step, clearRequest, h1, h2, h3]

/-- A request to clear a negative number raises the count: an error raised once is reported six times. -/
theorem C46_negative_refuted (i d : String) (n : Nat) :
    report (run upper [.raised i d, .request i (-(n + 1))]) = [(upper i, d, (n : Int) + 2)] ∧
    raises upper i [.raised i d, .request i (-(n + 1))] = 1 := by
  have h1 : run upper [.raised i d] = [(upper i, ⟨upper i, d, 1⟩)] := by
    simp [run, step, increment, Dict.has, Dict.get?, Dict.set, Keeper.increment]
  have h2 : run upper [.raised i d, .request i (-(n + 1))] = step upper (run upper [.raised i d]) (.request i (-(n + 1))) := rfl
  rw [h2, h1]
  have hz : ¬ (-((n : Int) + 1) = 0) := by omega
  have hge : (1 : Int) ≥ -((n : Int) + 1) := by omega
  have h3 : step upper [(upper i, ⟨upper i, d, 1⟩)] (.request i (-(n + 1))) = [(upper i, ⟨upper i, d, (n : Int) + 2⟩)] := by
    have e : (1 : Int) - -((n : Int) + 1) = n + 2 := by omega
    simp [step, clearRequest, hasId, Dict.has, Dict.get?, hz, clearSome, Keeper.clearSome, hge, Dict.set, e]
  rw [h3]
  constructor
  · have hs : (⟨upper i, d, (n : Int) + 2⟩ : Keeper).isSet = true := by simp only [Keeper.isSet, decide_eq_true_eq]; omega
    simp [report, states, hs, Keeper.toDict]
  · simp [raises]

end Verif.Errors
