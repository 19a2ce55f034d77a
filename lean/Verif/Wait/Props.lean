import Verif.Wait.Model
import Mathlib.Tactic.Linarith
import Mathlib.Tactic.NormNum
import Mathlib.Tactic.Ring

/-!
# C117: a send through a datagram client, or a persistent client that is connected, ends in time

Whatever the server does, `send_message` returns or raises within `max_retries` times `timeout` and the delays between the attempts.
-/

namespace Verif.Wait

/-! ### Specification -/

/-- The sends that have begun and not ended. -/
def active (s : St) : List Send := (s.holder.map Prod.fst).toList ++ s.waiting ++ s.sleeping.map Prod.fst

/-- `s` comes about with never more than `n` sends at a time. -/
inductive Reach (P : Par) (n : Nat) : St → Prop
  | init : Reach P n init
  | step {s s' : St} {t : ℚ} {e : Ev} : Reach P n s → step P s t e = some s' → (active s').length ≤ n → Reach P n s'

/-- How long a send may take when each of its attempts has to wait for `n - 1` others. -/
def limit (P : Par) (n max : Nat) : ℚ := max * (n * (P.timeout + P.late)) + (max - 1 : ℚ) * (P.delay + P.late)

/-! ### Invariant -/

/-- What `r` failed attempts may have taken, with the sleeps after them. -/
def upTo (P : Par) (n : Nat) (j : Send) : ℚ := j.start + j.tries * (n * (P.timeout + P.late) + (P.delay + P.late))

structure Inv (P : Par) (n : Nat) (s : St) : Prop where
  free : s.holder = none → s.waiting = []
  since : ∀ j h, s.holder = some (j, h) → h ≤ s.now ∧ h + (P.timeout + P.late) ≤ upTo P n j + n * (P.timeout + P.late)
  wait : ∀ j h, s.holder = some (j, h) → ∀ (i : Nat) (j' : Send), s.waiting[i]? = some j' → h + (i + 1) * (P.timeout + P.late) + (P.timeout + P.late) ≤ upTo P n j' + n * (P.timeout + P.late)
  sleep : ∀ x ∈ s.sleeping, x.2 + P.late ≤ upTo P n x.1
  few : ∀ j ∈ active s, j.tries < j.max
  ended : ∀ x ∈ s.ended, x.2 ≤ x.1.start + (if x.1.max = 0 then 0 else limit P n x.1.max)

theorem active_acquire (s : St) (j : Send) (hf : s.holder = none → s.waiting = []) : (active (acquire s j)).Perm (j :: active s) := by
  unfold acquire active
  cases h : s.holder with
  | none => simp [hf h]
  | some x =>
    simp only [Option.map_some, Option.toList_some, List.cons_append, List.append_assoc]
    refine (List.Perm.cons _ ?_).trans (List.Perm.swap _ _ _)
    exact List.perm_middle

theorem upTo_limit {P : Par} {n : Nat} {j : Send} (hT : 0 ≤ P.timeout) (hD : 0 ≤ P.delay) (hL : 0 ≤ P.late) (h : j.tries + 1 ≤ j.max) :
    upTo P n j + n * (P.timeout + P.late) ≤ j.start + limit P n j.max := by
  unfold upTo limit
  have h1 : ((j.tries : ℚ) + 1) ≤ j.max := by exact_mod_cast h
  have hn : (0 : ℚ) ≤ n * (P.timeout + P.late) := mul_nonneg (Nat.cast_nonneg _) (by linarith)
  have hd : 0 ≤ P.delay + P.late := by linarith
  nlinarith [mul_le_mul_of_nonneg_right h1 hn, mul_le_mul_of_nonneg_right h1 hd]

/-- Taking the lock. -/
theorem inv_acquire {P : Par} {n : Nat} {s : St} {j : Send} (hT : 0 ≤ P.timeout) (hL : 0 ≤ P.late) (h : Inv P n s)
    (hj : s.now ≤ upTo P n j) (hr : j.tries < j.max) (hn : (active (acquire s j)).length ≤ n) : Inv P n (acquire s j) := by
  have hTL : 0 ≤ P.timeout + P.late := by linarith
  have hfew : ∀ x ∈ active (acquire s j), x.tries < x.max := by
    intro x hx
    rw [(active_acquire s j h.free).mem_iff, List.mem_cons] at hx
    rcases hx with rfl | hx
    · exact hr
    · exact h.few x hx
  have hlen := hn
  rw [(active_acquire s j h.free).length_eq] at hlen
  cases hh : s.holder with
  | none =>
    have e : acquire s j = { s with holder := some (j, s.now) } := by unfold acquire; rw [hh]
    have h1 : (1 : ℚ) ≤ n := by
      have : 1 ≤ n := le_trans (by simp) hlen
      exact_mod_cast this
    rw [e] at hfew ⊢
    refine ⟨by intro hc; simp at hc, ?_, ?_, h.sleep, hfew, h.ended⟩
    · intro j' h' he
      simp only [Option.some.injEq, Prod.mk.injEq] at he
      obtain ⟨rfl, rfl⟩ := he
      refine ⟨le_refl _, ?_⟩
      have := mul_le_mul_of_nonneg_right h1 hTL
      show s.now + _ ≤ _
      linarith
    · intro j' h' _ i x hx
      simp [h.free hh] at hx
  | some y =>
    obtain ⟨k, hk⟩ := y
    have e : acquire s j = { s with waiting := s.waiting ++ [j] } := by unfold acquire; rw [hh]
    rw [e] at hfew ⊢
    refine ⟨by intro hc; simp [hh] at hc, h.since, ?_, h.sleep, hfew, h.ended⟩
    intro j' h' he i x hx
    by_cases hi : i < s.waiting.length
    · simp only [List.getElem?_append_left hi] at hx
      exact h.wait j' h' he i x hx
    · simp only [List.getElem?_append_right (Nat.le_of_not_lt hi)] at hx
      have hi0 : i - s.waiting.length = 0 := by
        have := (List.getElem?_eq_some_iff.1 hx).1
        simpa using this
      rw [hi0] at hx
      simp only [List.getElem?_cons_zero, Option.some.injEq] at hx
      subst hx
      have hi' : i = s.waiting.length := by omega
      have hcount : s.waiting.length + 2 ≤ n := by
        have : s.waiting.length + 1 ≤ (active s).length := by simp [active, hh]
        simp only [List.length_cons] at hlen
        omega
      have hq : ((i : ℚ) + 1 + 1) ≤ n := by rw [hi']; exact_mod_cast (by omega : s.waiting.length + 1 + 1 ≤ n)
      have hnow := (h.since j' h' he).1
      have := mul_le_mul_of_nonneg_right hq hTL
      have e1 : ((i : ℚ) + 1 + 1) * (P.timeout + P.late) = (i + 1) * (P.timeout + P.late) + (P.timeout + P.late) := by ring
      linarith

/-- Giving the lock back, when the time allowed for holding it is not over. -/
theorem inv_release {P : Par} {n : Nat} {s : St} {j : Send} {h : ℚ} (hI : Inv P n s) (hh : s.holder = some (j, h)) (ht : s.now ≤ h + (P.timeout + P.late)) :
    Inv P n (release s) := by
  cases hw : s.waiting with
  | nil =>
    have e : release s = { s with holder := none } := by unfold release; rw [hw]
    rw [e]
    refine ⟨fun _ => hw, by intro _ _ hc; simp at hc, by intro _ _ hc; simp at hc, hI.sleep, ?_, hI.ended⟩
    intro x hx
    exact hI.few x (by simp [active, hw, hh] at hx ⊢; exact Or.inr hx)
  | cons k ks =>
    have e : release s = { s with holder := some (k, s.now), waiting := ks } := by unfold release; rw [hw]
    rw [e]
    refine ⟨by intro hc; simp at hc, ?_, ?_, hI.sleep, ?_, hI.ended⟩
    · intro j' h' he
      simp only [Option.some.injEq, Prod.mk.injEq] at he
      obtain ⟨rfl, rfl⟩ := he
      refine ⟨le_refl _, ?_⟩
      have := hI.wait j h hh 0 k (by rw [hw]; rfl)
      simp only [Nat.cast_zero, zero_add, one_mul] at this
      show s.now + _ ≤ _
      linarith
    · intro j' h' he i x hx
      simp only [Option.some.injEq, Prod.mk.injEq] at he
      obtain ⟨rfl, rfl⟩ := he
      have := hI.wait j h hh (i + 1) x (by rw [hw]; exact hx)
      push_cast at this
      have e1 : ((i : ℚ) + 1 + 1) * (P.timeout + P.late) = (i + 1) * (P.timeout + P.late) + (P.timeout + P.late) := by ring
      linarith
    · intro x hx
      refine hI.few x ?_
      simp only [active, hw, hh, Option.map_some, Option.toList_some, List.mem_cons, List.mem_append, List.not_mem_nil, or_false] at hx ⊢
      rcases hx with (hx | hx) | hx
      · exact Or.inl (Or.inr (Or.inl hx))
      · exact Or.inl (Or.inr (Or.inr hx))
      · exact Or.inr hx

theorem inTime_iff (P : Par) (s : St) (t : ℚ) :
    inTime P s t = true ↔ s.now ≤ t ∧ (∀ j h, s.holder = some (j, h) → t ≤ h + P.timeout + P.late) ∧ ∀ x ∈ s.sleeping, t ≤ x.2 + P.late := by
  unfold inTime
  simp only [Bool.and_eq_true, decide_eq_true_eq, Option.all_eq_true, List.all_eq_true, and_assoc, Prod.forall]

theorem inv_step {P : Par} {n : Nat} (hT : 0 ≤ P.timeout) (hD : 0 ≤ P.delay) (hL : 0 ≤ P.late) {s s' : St} {t : ℚ} {e : Ev} (hI : Inv P n s)
    (h : step P s t e = some s') (hn : (active s').length ≤ n) : Inv P n s' := by
  unfold step at h
  split at h
  case isFalse => cases h
  case isTrue hin =>
  rw [inTime_iff] at hin
  obtain ⟨h1, h2, h3⟩ := hin
  have hI' : Inv P n { s with now := t } := by
    refine ⟨hI.free, ?_, hI.wait, hI.sleep, hI.few, hI.ended⟩
    intro j k hk
    exact ⟨le_trans (hI.since j k hk).1 h1, (hI.since j k hk).2⟩
  cases e with
  | call id max =>
    simp only at h
    split at h
    · rename_i hm
      cases h
      refine ⟨hI'.free, hI'.since, hI'.wait, hI'.sleep, hI'.few, ?_⟩
      intro x hx
      simp only [List.mem_append, List.mem_singleton] at hx
      rcases hx with hx | rfl
      · exact hI.ended x hx
      · simp [hm]
    · rename_i hm
      cases h
      refine inv_acquire hT hL hI' ?_ (Nat.pos_of_ne_zero hm) hn
      simp [upTo]
  | reply =>
    simp only at h
    cases hh : s.holder with
    | none => rw [hh] at h; cases h
    | some y =>
      obtain ⟨j, k⟩ := y
      rw [hh] at h
      cases h
      have ht := h2 j k hh
      refine inv_release (j := j) (h := k) ⟨by intro hc; simp at hc, fun j' k' he => hI'.since j' k' (by rw [← he]; exact hh), fun j' k' he => hI'.wait j' k' (by rw [← he]; exact hh), hI'.sleep, ?_, ?_⟩ rfl (by show t ≤ _; linarith)
      · intro x hx; exact hI.few x (by simpa [active, hh] using hx)
      · intro x hx
        simp only [List.mem_append, List.mem_singleton] at hx
        rcases hx with hx | rfl
        · exact hI.ended x hx
        · have hm : j.tries < j.max := hI.few j (by simp [active, hh])
          rw [if_neg (show ¬ j.max = 0 by omega)]
          have := upTo_limit (n := n) hT hD hL (Nat.succ_le_of_lt hm)
          have := (hI.since j k hh).2
          show t ≤ _
          linarith
  | timeout =>
    simp only at h
    cases hh : s.holder with
    | none => rw [hh] at h; cases h
    | some y =>
      obtain ⟨j, k⟩ := y
      rw [hh] at h
      simp only at h
      have ht := h2 j k hh
      have hm : j.tries < j.max := hI.few j (by simp [active, hh])
      split at h
      · cases h
      · split at h
        · cases h
          refine inv_release (j := j) (h := k) ⟨by intro hc; simp at hc, fun j' k' he => hI'.since j' k' (by rw [← he]; exact hh), fun j' k' he => hI'.wait j' k' (by rw [← he]; exact hh), hI'.sleep, ?_, ?_⟩ rfl (by show t ≤ _; linarith)
          · intro x hx; exact hI.few x (by simpa [active, hh] using hx)
          · intro x hx
            simp only [List.mem_append, List.mem_singleton] at hx
            rcases hx with hx | rfl
            · exact hI.ended x hx
            · rw [if_neg (show ¬ j.max = 0 by omega)]
              have := upTo_limit (n := n) hT hD hL (Nat.succ_le_of_lt hm)
              have := (hI.since j k hh).2
              show t ≤ j.start + _
              linarith
        · rename_i hmax
          have hmax' : j.tries + 1 < j.max := Nat.lt_of_not_ge hmax
          cases h
          refine inv_release (j := j) (h := k) ⟨by intro hc; simp at hc, fun j' k' he => hI'.since j' k' (by rw [← he]; exact hh), fun j' k' he => hI'.wait j' k' (by rw [← he]; exact hh), ?_, ?_, hI.ended⟩ rfl (by show t ≤ _; linarith)
          · intro x hx
            simp only [List.mem_append, List.mem_singleton] at hx
            rcases hx with hx | rfl
            · exact hI.sleep x hx
            · have := (hI.since j k hh).2
              simp only [upTo] at this ⊢
              push_cast
              linarith
          · intro x hx
            simp only [active, Option.map_some, Option.toList_some, List.map_append, List.map_cons, List.map_nil, List.mem_append, List.mem_singleton] at hx
            rcases hx with (hx | hx) | hx | rfl
            · exact hI.few x (by simp [active, hh, hx])
            · exact hI.few x (by simp [active, hx])
            · exact hI.few x (by simp only [active, List.mem_append]; exact Or.inr hx)
            · exact hmax'
  | wake i =>
    simp only at h
    cases hs : s.sleeping[i]? with
    | none => rw [hs] at h; cases h
    | some y =>
      obtain ⟨j, w⟩ := y
      rw [hs] at h
      simp only at h
      split at h
      · cases h
      · cases h
        have hmem : (j, w) ∈ s.sleeping := List.mem_of_getElem? hs
        have hsub : ∀ x ∈ s.sleeping.eraseIdx i, x ∈ s.sleeping := fun x hx => (List.eraseIdx_sublist _ _).subset hx
        refine inv_acquire hT hL ⟨hI'.free, hI'.since, hI'.wait, fun x hx => hI.sleep x (hsub x hx), ?_, hI.ended⟩ ?_ ?_ hn
        · intro x hx
          simp only [active, List.mem_append, List.mem_map] at hx
          refine hI.few x ?_
          simp only [active, List.mem_append, List.mem_map]
          rcases hx with hx | ⟨a, ha, hb⟩
          · exact Or.inl hx
          · exact Or.inr ⟨a, hsub a ha, hb⟩
        · have := h3 _ hmem
          have := hI.sleep _ hmem
          show t ≤ _
          linarith
        · exact hI.few j (by simp only [active, List.mem_append, List.mem_map]; exact Or.inr ⟨_, hmem, rfl⟩)

  | quit i =>
    simp only at h
    cases hs : s.sleeping[i]? with
    | none => rw [hs] at h; cases h
    | some y =>
      obtain ⟨j, w⟩ := y
      rw [hs] at h
      simp only at h
      split at h
      · cases h
      · cases h
        have hmem : (j, w) ∈ s.sleeping := List.mem_of_getElem? hs
        have hsub : ∀ x ∈ s.sleeping.eraseIdx i, x ∈ s.sleeping := fun x hx => (List.eraseIdx_sublist _ _).subset hx
        refine ⟨hI'.free, hI'.since, hI'.wait, fun x hx => hI.sleep x (hsub x hx), ?_, ?_⟩
        · intro x hx
          simp only [active, List.mem_append, List.mem_map] at hx
          refine hI.few x ?_
          simp only [active, List.mem_append, List.mem_map]
          rcases hx with hx | ⟨a, ha, hb⟩
          · exact Or.inl hx
          · exact Or.inr ⟨a, hsub a ha, hb⟩
        · intro x hx
          simp only [List.mem_append, List.mem_singleton] at hx
          rcases hx with hx | rfl
          · exact hI.ended x hx
          · have hm : j.tries < j.max := hI.few j (by simp only [active, List.mem_append, List.mem_map]; exact Or.inr ⟨_, hmem, rfl⟩)
            rw [if_neg (show ¬ j.max = 0 by omega)]
            have := upTo_limit (n := n) hT hD hL (Nat.succ_le_of_lt hm)
            have h4 := hI.sleep _ hmem
            have h5 := h3 _ hmem
            have hq : 0 ≤ (n : ℚ) * (P.timeout + P.late) := mul_nonneg (by positivity) (by linarith)
            simp only at h4 h5
            show t ≤ j.start + limit P n j.max
            linarith

theorem inv_reach {P : Par} {n : Nat} (hT : 0 ≤ P.timeout) (hD : 0 ≤ P.delay) (hL : 0 ≤ P.late) {s : St} (h : Reach P n s) : Inv P n s := by
  induction h with
  | init =>
    refine ⟨fun _ => rfl, by intro _ _ h; simp [init] at h, by intro _ _ h; simp [init] at h, by simp [init], by simp [init, active], by simp [init]⟩
  | step _ hs hn ih => exact inv_step hT hD hL ih hs hn

/-! ### Theorems -/

/-- **C117, with others, partial.** Whatever replies come and however late they are: when there are never more than `n` sends at a time through a client, each ends within `max_retries` times `n`
time-outs and the delays; and as long as it has not ended, no more time than that has gone by since it began. Missing: the time does not depend on others, see `C117_others_refuted`. -/
theorem C117_ends_partial {P : Par} {n : Nat} (hT : 0 ≤ P.timeout) (hD : 0 ≤ P.delay) (hL : 0 ≤ P.late) {s : St} (h : Reach P n s) :
    (∀ x ∈ s.ended, x.2 ≤ x.1.start + (if x.1.max = 0 then 0 else limit P n x.1.max)) ∧
    ∀ t e s', step P s t e = some s' → ∀ j ∈ active s, t ≤ j.start + limit P n j.max := by
  have hI := inv_reach hT hD hL h
  refine ⟨hI.ended, ?_⟩
  intro t e s' hs j hj
  have hin : inTime P s t = true := by
    unfold step at hs
    split at hs
    · assumption
    · cases hs
  rw [inTime_iff] at hin
  obtain ⟨h1, h2, h3⟩ := hin
  have hl := upTo_limit (n := n) hT hD hL (Nat.succ_le_of_lt (hI.few j hj))
  have hTL : 0 ≤ P.timeout + P.late := by linarith
  simp only [active, List.mem_append, List.mem_map] at hj
  rcases hj with (hj | hj) | ⟨x, hx, rfl⟩
  · cases hh : s.holder with
    | none => simp [hh] at hj
    | some y =>
      obtain ⟨k, h0⟩ := y
      simp only [hh, Option.map_some, Option.toList_some, List.mem_singleton] at hj
      subst hj
      have := (hI.since j h0 hh).2
      have := h2 j h0 hh
      linarith
  · cases hh : s.holder with
    | none => rw [hI.free hh] at hj; simp at hj
    | some y =>
      obtain ⟨k, h0⟩ := y
      obtain ⟨i, hi⟩ := List.getElem?_of_mem hj
      have := hI.wait k h0 hh i j hi
      have := h2 k h0 hh
      have hq : 0 ≤ ((i : ℚ) + 1) * (P.timeout + P.late) := mul_nonneg (by positivity) hTL
      linarith
  · have := hI.sleep x hx
    have := h3 x hx
    have hq : 0 ≤ (n : ℚ) * (P.timeout + P.late) := mul_nonneg (by positivity) hTL
    linarith

/-- **C117, alone.** When no two sends go through the client at a time, and the event loop is never late, each ends within `max_retries` time-outs and the delays between them. -/
theorem C117_alone {P : Par} (hT : 0 ≤ P.timeout) (hD : 0 ≤ P.delay) (hL : P.late = 0) {s : St} (h : Reach P 1 s) :
    ∀ x ∈ s.ended, x.1.max ≠ 0 → x.2 ≤ x.1.start + (x.1.max * P.timeout + (x.1.max - 1 : ℚ) * P.delay) := by
  intro x hx hm
  have := (C117_ends_partial hT hD (le_of_eq hL.symm) h).1 x hx
  rw [if_neg hm, limit, hL] at this
  simpa using this

theorem exists_least : ∀ l : List ℚ, l ≠ [] → ∃ m ∈ l, ∀ x ∈ l, m ≤ x := by
  intro l
  induction l with
  | nil => intro h; exact absurd rfl h
  | cons a l ih =>
    intro _
    by_cases hl : l = []
    · subst hl; exact ⟨a, by simp, by simp⟩
    · obtain ⟨m, hm, hx⟩ := ih hl
      rcases le_total a m with h | h
      · refine ⟨a, by simp, ?_⟩
        intro x h'
        rcases List.mem_cons.1 h' with rfl | h'
        · exact le_refl _
        · exact le_trans h (hx x h')
      · refine ⟨m, by simp [hm], ?_⟩
        intro x h'
        rcases List.mem_cons.1 h' with rfl | h'
        · exact h
        · exact hx x h'

theorem release_holder (s : St) : ∀ j h, (release s).holder = some (j, h) → h = s.now := by
  intro j h e
  unfold release at e
  split at e
  · cases e
  · simp only [Option.some.injEq, Prod.mk.injEq] at e; exact e.2.symm

theorem release_now (s : St) : (release s).now = s.now ∧ (release s).sleeping = s.sleeping := by
  unfold release; split <;> exact ⟨rfl, rfl⟩

theorem acquire_now (s : St) (j : Send) : (acquire s j).now = s.now ∧ (acquire s j).sleeping = s.sleeping := by
  unfold acquire; split <;> exact ⟨rfl, rfl⟩

theorem acquire_holder (s : St) (j : Send) : ∀ k h, (acquire s j).holder = some (k, h) → s.holder = some (k, h) ∨ h = s.now := by
  intro k h e
  unfold acquire at e
  split at e
  · simp only [Option.some.injEq, Prod.mk.injEq] at e; exact Or.inr e.2.symm
  · exact Or.inl e

/-- No timer is overdue. -/
theorem reach_inTime {P : Par} {n : Nat} (hT : 0 ≤ P.timeout) (hD : 0 ≤ P.delay) (hL : 0 ≤ P.late) {s : St} (h : Reach P n s) : inTime P s s.now = true := by
  induction h with
  | init => simp [inTime, init]
  | @step s s' t e _ hs _ _ =>
    unfold step at hs
    split at hs
    case isFalse => cases hs
    case isTrue hin =>
    rw [inTime_iff] at hin
    obtain ⟨h1, h2, h3⟩ := hin
    have rel : ∀ s0 : St, s0.now = t → (∀ x ∈ s0.sleeping, t ≤ x.2 + P.late) → inTime P (release s0) (release s0).now = true := by
      intro s0 e0 hx
      rw [inTime_iff, (release_now s0).1, (release_now s0).2, e0]
      refine ⟨le_refl _, ?_, hx⟩
      intro j h he
      rw [release_holder s0 j h he, e0]
      linarith
    have acq : ∀ (s0 : St) (j : Send), s0.now = t → s0.holder = s.holder → (∀ x ∈ s0.sleeping, t ≤ x.2 + P.late) → inTime P (acquire s0 j) (acquire s0 j).now = true := by
      intro s0 j e0 e1 hx
      rw [inTime_iff, (acquire_now s0 j).1, (acquire_now s0 j).2, e0]
      refine ⟨le_refl _, ?_, hx⟩
      intro k h he
      rcases acquire_holder s0 j k h he with he | he
      · exact h2 k h (by rw [← e1]; exact he)
      · rw [he, e0]; linarith
    cases e with
    | call id max =>
      simp only at hs
      split at hs
      · cases hs; rw [inTime_iff]; exact ⟨le_refl _, h2, h3⟩
      · cases hs; exact acq _ _ rfl rfl h3
    | reply =>
      simp only at hs
      cases hh : s.holder with
      | none => rw [hh] at hs; cases hs
      | some y => rw [hh] at hs; cases hs; exact rel _ rfl h3
    | timeout =>
      simp only at hs
      cases hh : s.holder with
      | none => rw [hh] at hs; cases hs
      | some y =>
        rw [hh] at hs
        simp only at hs
        split at hs
        · cases hs
        · split at hs
          · cases hs; exact rel _ rfl h3
          · cases hs
            refine rel _ rfl ?_
            intro x hx
            simp only [List.mem_append, List.mem_singleton] at hx
            rcases hx with hx | rfl
            · exact h3 x hx
            · show t ≤ t + P.delay + P.late
              linarith
    | wake i =>
      simp only at hs
      cases hh : s.sleeping[i]? with
      | none => rw [hh] at hs; cases hs
      | some y =>
        rw [hh] at hs
        simp only at hs
        split at hs
        · cases hs
        · cases hs
          exact acq _ _ rfl rfl fun x hx => h3 x ((List.eraseIdx_sublist _ _).subset hx)
    | quit i =>
      simp only at hs
      cases hh : s.sleeping[i]? with
      | none => rw [hh] at hs; cases hs
      | some y =>
        rw [hh] at hs
        simp only at hs
        split at hs
        · cases hs
        · cases hs
          rw [inTime_iff]
          exact ⟨le_refl _, h2, fun x hx => h3 x ((List.eraseIdx_sublist _ _).subset hx)⟩

/-- **C117, no standstill.** As long as a send has not ended, a timer is running that will do something, without any datagram arriving. -/
theorem C117_goes_on {P : Par} {n : Nat} (hT : 0 ≤ P.timeout) (hD : 0 ≤ P.delay) (hL : 0 ≤ P.late) {s : St} (h : Reach P n s) (ha : active s ≠ []) :
    ∃ t e s', (e = .timeout ∨ ∃ i, e = .wake i) ∧ step P s t e = some s' := by
  have hI := inv_reach hT hD hL h
  have hin := reach_inTime hT hD hL h
  rw [inTime_iff] at hin
  obtain ⟨_, h2, h3⟩ := hin
  obtain ⟨m, hm, hmin⟩ := exists_least ((s.holder.map fun x => x.2 + P.timeout).toList ++ s.sleeping.map Prod.snd) (by
    intro hc
    apply ha
    simp only [List.append_eq_nil_iff, List.map_eq_nil_iff, Option.toList_eq_nil_iff, Option.map_eq_none_iff] at hc
    simp [active, hc.1, hc.2, hI.free hc.1])
  have hall : inTime P s (max s.now m) = true := by
    rw [inTime_iff]
    refine ⟨le_max_left _ _, ?_, ?_⟩
    · intro j k hk
      refine max_le (h2 j k hk) ?_
      have := hmin (k + P.timeout) (by simp [hk])
      linarith
    · intro x hx
      refine max_le (h3 x hx) ?_
      have := hmin x.2 (by simp only [List.mem_append, List.mem_map]; exact Or.inr ⟨x, hx, rfl⟩)
      linarith
  have hle : m ≤ max s.now m := le_max_right _ _
  simp only [List.mem_append, List.mem_map] at hm
  rcases hm with hm | ⟨x, hx, rfl⟩
  · cases hh : s.holder with
    | none => simp [hh] at hm
    | some y =>
      simp only [hh, Option.map_some, Option.toList_some, List.mem_singleton] at hm
      subst hm
      refine ⟨max s.now (y.2 + P.timeout), .timeout, ?_⟩
      by_cases hr : y.1.tries + 1 ≥ y.1.max
      · exact ⟨_, Or.inl rfl, by simp only [step, hall, if_true, hh, if_neg (not_lt.2 hle), if_pos hr]; rfl⟩
      · exact ⟨_, Or.inl rfl, by simp only [step, hall, if_true, hh, if_neg (not_lt.2 hle), if_neg hr]; rfl⟩
  · obtain ⟨i, hi⟩ := List.getElem?_of_mem hx
    exact ⟨max s.now x.2, .wake i, _, Or.inr ⟨i, rfl⟩, by simp only [step, hall, if_true, hi, if_neg (not_lt.2 hle)]; rfl⟩

theorem reach_call {P : Par} {n : Nat} (hT : 0 ≤ P.timeout) (hL : 0 ≤ P.late) : ∀ k, k ≤ n →
    ∃ s, Reach P (n + 1) s ∧ s.now = 0 ∧ s.holder = some (⟨0, 0, 1, 0⟩, 0) ∧ s.waiting = (List.range' 1 k).map (fun i => ⟨i, 0, 1, 0⟩) ∧ s.sleeping = [] := by
  intro k
  induction k with
  | zero =>
    intro _
    refine ⟨⟨0, some (⟨0, 0, 1, 0⟩, 0), [], [], []⟩, .step (t := 0) (e := .call 0 1) .init ?_ (by simp [active]), rfl, rfl, rfl, rfl⟩
    simp [step, inTime, init, acquire]
  | succ k ih =>
    intro hk
    obtain ⟨s, hr, h1, h2, h3, h4⟩ := ih (by omega)
    refine ⟨{ s with waiting := s.waiting ++ [⟨k + 1, 0, 1, 0⟩] }, .step (t := 0) (e := .call (k + 1) 1) hr ?_ ?_, h1, h2, ?_, h4⟩
    · have hz : (0 : ℚ) ≤ P.timeout + P.late := by linarith
      have hz' : (0 : ℚ) ≤ 0 + P.timeout + P.late := by linarith
      simp [step, inTime, h1, h2, h4, acquire, hz]
    · simp [active, h2, h3, h4]; omega
    · simp only [h3, List.range'_concat, List.map_append]
      simp [Nat.add_comm]

theorem reach_timeouts {P : Par} {n : Nat} (hT : 0 ≤ P.timeout) (hL : 0 ≤ P.late) : ∀ m (s : St) (a : Nat) (h : ℚ), Reach P n s →
    s.holder = some (⟨a, 0, 1, 0⟩, h) → s.now = h → s.waiting = (List.range' (a + 1) m).map (fun i => ⟨i, 0, 1, 0⟩) → s.sleeping = [] →
    ∃ s', Reach P n s' ∧ (⟨a + m, 0, 1, 1⟩, h + (m + 1) * P.timeout) ∈ s'.ended := by
  intro m
  induction m with
  | zero =>
    intro s a h hr h1 h2 h3 h4
    refine ⟨⟨h + P.timeout, none, [], [], s.ended ++ [(⟨a, 0, 1, 1⟩, h + P.timeout)]⟩, .step (t := h + P.timeout) (e := .timeout) hr ?_ (by simp [active]), by simp⟩
    simp [step, inTime, h1, h2, h3, h4, release, hT, hL]
  | succ m ih =>
    intro s a h hr h1 h2 h3 h4
    rw [List.range'_succ, List.map_cons] at h3
    have hlen : (active s).length ≤ n := by
      cases hr with
      | init => simp [init] at h1
      | step _ _ hn => exact hn
    have hr' : Reach P n ⟨h + P.timeout, some (⟨a + 1, 0, 1, 0⟩, h + P.timeout), (List.range' (a + 1 + 1) m).map (fun i => ⟨i, 0, 1, 0⟩), [], s.ended ++ [(⟨a, 0, 1, 1⟩, h + P.timeout)]⟩ := by
      refine .step (t := h + P.timeout) (e := .timeout) hr ?_ ?_
      · simp [step, inTime, h1, h2, h3, h4, release, hT, hL]
      · simp [active, h1, h3, h4] at hlen ⊢; omega
    obtain ⟨s', hs', he⟩ := ih _ (a + 1) (h + P.timeout) hr' rfl rfl rfl rfl
    refine ⟨s', hs', ?_⟩
    have e1 : a + 1 + m = a + (m + 1) := by omega
    have e2 : h + P.timeout + ((m : ℚ) + 1) * P.timeout = h + ((m + 1 : Nat) + 1) * P.timeout := by push_cast; ring
    rw [← e1, ← e2]
    exact he

/-- **C117 is false of the code with others.** The time-out begins when the lock has been taken, and the lock is held while the reply is awaited: of `n + 1` sends that begin at the same time through one
client, the last ends after `n + 1` time-outs when the server is silent, even with a single attempt each. A client that is shared can be held up for any time. -/
theorem C117_others_refuted {P : Par} (hT : 0 ≤ P.timeout) (hL : 0 ≤ P.late) (n : Nat) :
    ∃ s, Reach P (n + 1) s ∧ (⟨n, 0, 1, 1⟩, (n + 1) * P.timeout) ∈ s.ended := by
  obtain ⟨s, hr, h1, h2, h3, h4⟩ := reach_call (n := n) hT hL n (le_refl n)
  obtain ⟨s', h5, h6⟩ := reach_timeouts hT hL n s 0 0 hr h2 h1 h3 h4
  exact ⟨s', h5, by simpa using h6⟩

/-! ### Cases -/

/-- The default client, dg 42-49, with `max_retries` 3 in the calls below. -/
def dflt : Par := ⟨5, 1 / 10, 0⟩

/-- One send, a silent server: 15.2 seconds. -/
example : (steps dflt init [(0, .call 7 3), (5, .timeout), (51 / 10, .wake 0), (101 / 10, .timeout), (102 / 10, .wake 0), (152 / 10, .timeout)]).map St.ended =
    some [(⟨7, 0, 3, 3⟩, 152 / 10)] ∧ (3 : ℚ) * 5 + (3 - 1) * (1 / 10) = 152 / 10 := by
  refine ⟨?_, ?_⟩ <;> decide +kernel

/-- Two at a time, a silent server: 25 and 30 seconds. -/
example : (steps dflt init [(0, .call 1 3), (0, .call 2 3), (5, .timeout), (51 / 10, .wake 0), (10, .timeout), (101 / 10, .wake 0), (15, .timeout), (151 / 10, .wake 0),
    (20, .timeout), (201 / 10, .wake 0), (25, .timeout), (30, .timeout)]).map St.ended = some [(⟨1, 0, 3, 3⟩, 25), (⟨2, 0, 3, 3⟩, 30)] ∧ limit dflt 2 3 = 302 / 10 := by
  refine ⟨?_, ?_⟩ <;> decide +kernel

/-- The second is answered at the second attempt. -/
example : (steps dflt init [(0, .call 1 3), (1, .call 2 3), (3, .reply), (8, .timeout), (81 / 10, .wake 0), (9, .reply)]).map St.ended =
    some [(⟨1, 0, 3, 0⟩, 3), (⟨2, 1, 3, 1⟩, 9)] := by decide +kernel

/-- Whether there are never more than `n` sends at a time. -/
def never (P : Par) (n : Nat) (s : St) : List (ℚ × Ev) → Bool
  | [] => true
  | (t, e) :: es => (step P s t e).all fun s' => decide ((active s').length ≤ n) && never P n s' es

theorem reach_steps {P : Par} {n : Nat} (es : List (ℚ × Ev)) : ∀ s s', Reach P n s → steps P s es = some s' → never P n s es = true → Reach P n s' := by
  induction es with
  | nil => intro s s' hr h _; cases h; exact hr
  | cons a es ih =>
    intro s s' hr h hk
    obtain ⟨t, e⟩ := a
    simp only [steps] at h
    simp only [never] at hk
    cases h1 : step P s t e with
    | none => rw [h1] at h; cases h
    | some s1 =>
      rw [h1] at h hk
      simp only [Option.all_some, Bool.and_eq_true, decide_eq_true_eq] at hk
      exact ih s1 s' (.step hr h1 hk.1) h hk.2

/-- The bound of `C117_alone` is reached. -/
example : Reach dflt 1 ⟨152 / 10, none, [], [], [(⟨7, 0, 3, 3⟩, 152 / 10)]⟩ :=
  reach_steps [(0, .call 7 3), (5, .timeout), (51 / 10, .wake 0), (101 / 10, .timeout), (102 / 10, .wake 0), (152 / 10, .timeout)] _ _ .init (by decide +kernel) (by decide +kernel)

/-- Two at a time: one holds the lock, one waits. -/
example : Reach dflt 2 ⟨1, some (⟨1, 0, 3, 0⟩, 0), [⟨2, 1, 3, 0⟩], [], []⟩ ∧ active ⟨1, some (⟨1, 0, 3, 0⟩, 0), [⟨2, 1, 3, 0⟩], [], []⟩ ≠ [] :=
  ⟨reach_steps [(0, .call 1 3), (1, .call 2 3)] _ _ .init (by decide +kernel) (by decide +kernel), by decide⟩

end Verif.Wait
