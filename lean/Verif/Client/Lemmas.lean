import Verif.Client.Spec

/-!
# Lemmas about the clients
-/

namespace Verif.Client

open Verif.Py Verif.Client.Spec

/-! ### Retry loops -/

/-- The retry loop of each client from a given `retry_count`. -/
def loopFrom : Kind → Int → Int → List (Bool × Attempt) → End × Nat
  | .transient => transientLoop
  | .persistent => persistentLoop
  | .datagram => datagramLoop

theorem retryLoop_eq (kind : Kind) (max : Int) (as : List (Bool × Attempt)) :
    retryLoop kind max as = loopFrom kind max 0 as := by cases kind <;> rfl

/-- One round of any loop. -/
theorem loopFrom_cons (kind : Kind) (max rc : Int) (f : Bool) (a : Attempt) (rest : List (Bool × Attempt)) :
    loopFrom kind max rc ((f, a) :: rest) =
      if rc < max ∧ (kind = .datagram ∨ f = false) then
        count (if retryable kind a then
          (if rc + 1 ≥ max then (.raised .maxRetries, 0) else loopFrom kind max (rc + 1) rest)
          else (final kind a, 0))
      else (.nothing, 0) := by
  cases kind
  · simp only [loopFrom, transientLoop]
    congr 1
    · simp
    · congr 1
      cases a <;> simp [retryable, final]
  · simp only [loopFrom, persistentLoop]
    congr 1
    · simp
    · congr 1
      cases a with
      | broken re => cases re <;> simp [retryable, final]
      | empty re => cases re <;> simp [retryable, final]
      | _ => simp [retryable, final]
  · simp only [loopFrom, datagramLoop]
    congr 1
    · simp
    · congr 1
      cases a <;> simp [retryable, final]

theorem loopFrom_nil (kind : Kind) (max rc : Int) : loopFrom kind max rc [] = (.pending, 0) := by
  cases kind <;> rfl

/-- A single send: its loop condition always finds `self.success` false. -/
def solo (as : List Attempt) : List (Bool × Attempt) := as.map (fun a => (false, a))

theorem loopFrom_verdict (kind : Kind) (max : Int) (as : List Attempt) : ∀ rc : Int, rc < max →
    loopFrom kind max rc (solo as) = verdict kind (max - rc).toNat as := by
  induction as with
  | nil =>
    intro rc hrc
    have : ¬ (max - rc).toNat ≤ 0 := by omega
    simp [solo, loopFrom_nil, verdict, List.takeWhile]
    omega
  | cons a as ih =>
    intro rc hrc
    have hpos : (max - rc).toNat = (max - (rc + 1)).toNat + 1 := by omega
    simp only [solo, List.map_cons]
    rw [loopFrom_cons, if_pos ⟨hrc, .inr rfl⟩]
    by_cases hr : retryable kind a = true
    · rw [if_pos hr]
      by_cases hm : rc + 1 ≥ max
      · rw [if_pos hm]
        have h1 : (max - rc).toNat = 1 := by omega
        simp [verdict, List.takeWhile, hr, h1, count]
      · rw [if_neg hm]
        have := ih (rc + 1) (by omega)
        unfold solo at this
        rw [this, hpos]
        unfold verdict
        simp only [List.takeWhile, hr, List.length_cons, Nat.add_le_add_iff_right]
        by_cases hle : (max - (rc + 1)).toNat ≤ (as.takeWhile (retryable kind)).length
        · simp [hle, count]
        · simp only [if_neg hle, List.getElem?_cons_succ]
          cases as[(as.takeWhile (retryable kind)).length]? <;> simp [count]
    · rw [if_neg hr]
      have : ¬ (max - rc).toNat ≤ 0 := by omega
      simp [verdict, List.takeWhile, hr, count]
      omega

theorem loopFrom_bound (kind : Kind) (max : Int) (as : List (Bool × Attempt)) : ∀ rc : Int,
    (loopFrom kind max rc as).2 ≤ (max - rc).toNat := by
  induction as with
  | nil => intro rc; simp [loopFrom_nil]
  | cons a as ih =>
    intro rc
    obtain ⟨f, a⟩ := a
    rw [loopFrom_cons]
    split
    · next h =>
      split
      · split
        · simp [count]; omega
        · have := ih (rc + 1); simp [count]; omega
      · simp [count]; omega
    · simp

/-! ### Several sends -/

theorem after_eq (kind : Kind) (max rc : Int) (a : Attempt) :
    (after kind max rc a).1 = (if retryable kind a then
      (if rc + 1 ≥ max then .over (.raised .maxRetries) else .check (rc + 1)) else .over (final kind a)) := by
  cases a <;> cases kind <;> simp [after, retryable, final]

theorem after_success (kind : Kind) (max rc : Int) (a : Attempt) (h : (after kind max rc a).2 = true) :
    kind ≠ .datagram ∧ ∃ s, a = .reply s ∧ (after kind max rc a).1 = .over (.value s) := by
  cases a <;> cases kind <;> simp_all [after]

theorem outcomes_append (i : Nat) (es es' : List SEv) : outcomes i (es ++ es') = outcomes i es ++ outcomes i es' := by
  induction es with
  | nil => rfl
  | cons e es ih =>
    cases e with
    | outcome j a => simp only [List.cons_append, outcomes]; split <;> simp [ih]
    | start => simpa [outcomes] using ih
    | check j => simpa [outcomes] using ih

/-- What is known of send `i` after the outcomes `os`. -/
def Track (kind : Kind) (max : Int) (other : Prop) (os : List Attempt) : Pc → Prop
  | .check rc => rc < max ∧ (∃ a ∈ os, retryable kind a = true) ∧
      ∀ fs, (loopFrom kind max 0 (solo (os ++ fs))).1 = (loopFrom kind max rc (solo fs)).1
  | .wait rc => rc < max ∧ ∀ fs, (loopFrom kind max 0 (solo (os ++ fs))).1 = (loopFrom kind max rc (solo fs)).1
  | .over e => (e = (loopFrom kind max 0 (solo os)).1 ∧ e ≠ .pending) ∨
      (e = .nothing ∧ kind ≠ .datagram ∧ (∃ a ∈ os, retryable kind a = true) ∧ other)

/-- Some send other than `i` has got a reply. -/
def OtherWon (c : Shared) (i : Nat) : Prop := ∃ (j : Nat) (s : String), j ≠ i ∧ c.sends[j]? = some (.over (.value s))

/-- Invariant of a client object with `max > 0`. -/
structure SInv (kind : Kind) (max : Int) (es : List SEv) (c : Shared) : Prop where
  unstarted : ∀ i, c.sends.length ≤ i → outcomes i es = []
  flag : c.success = true → kind ≠ .datagram ∧ ∃ (j : Nat) (s : String), c.sends[j]? = some (.over (.value s))
  track : ∀ (i : Nat) (pc : Pc), c.sends[i]? = some pc → Track kind max (OtherWon c i) (outcomes i es) pc

theorem Track.mono {kind : Kind} {max : Int} {P Q : Prop} {os : List Attempt} {pc : Pc} (h : Track kind max P os pc)
    (hPQ : P → Q) : Track kind max Q os pc := by
  cases pc with
  | over e =>
    rcases h with h | ⟨h1, h2, h3, h4⟩
    · exact .inl h
    · exact .inr ⟨h1, h2, h3, hPQ h4⟩
  | check rc => exact h
  | wait rc => exact h

/-- Replacing the position of send `i`, which is not over with a value, keeps the values of the others. -/
theorem OtherWon.set {c : Shared} {i k : Nat} {pc pc' : Pc} (h : OtherWon c k) (hi : c.sends[i]? = some pc)
    (hn : ∀ s, pc ≠ .over (.value s)) (b : Bool) : OtherWon { success := b, sends := c.sends.set i pc' } k := by
  obtain ⟨j, s, hj, hs⟩ := h
  refine ⟨j, s, hj, ?_⟩
  have : i ≠ j := by rintro rfl; rw [hi] at hs; cases hs; exact hn s rfl
  simp [List.getElem?_set_ne this, hs]

theorem sinv_step {kind : Kind} {max : Int} (hm : 0 < max) {es : List SEv} {c c' : Shared} (hI : SInv kind max es c)
    (e : SEv) (h : sstep kind max c e = some c') : SInv kind max (es ++ [e]) c' := by
  cases e with
  | start =>
    simp only [sstep, if_pos hm, Option.some.injEq] at h
    subst h
    have ho : ∀ i, outcomes i (es ++ [SEv.start]) = outcomes i es := by intro i; simp [outcomes_append, outcomes]
    refine ⟨?_, by simp, ?_⟩
    · intro i hi
      rw [ho]; exact hI.unstarted i (by simp at hi; omega)
    · intro i pc hpc
      rw [ho]
      by_cases hi : i < c.sends.length
      · have hpc' : c.sends[i]? = some pc := by simpa [List.getElem?_append_left hi] using hpc
        refine (hI.track i pc hpc').mono ?_
        rintro ⟨j, s, hj, hs⟩
        refine ⟨j, s, hj, ?_⟩
        have hlt := (List.getElem?_eq_some_iff.1 hs).1
        simp [List.getElem?_append_left hlt, hs]
      · have hi' : i = c.sends.length := by
          have := (List.getElem?_eq_some_iff.1 hpc).1
          simp at this; omega
        subst hi'
        simp at hpc
        subst hpc
        rw [hI.unstarted _ (Nat.le_refl _)]
        exact ⟨hm, fun fs => by simp⟩
  | check i =>
    have ho : ∀ k, outcomes k (es ++ [SEv.check i]) = outcomes k es := by intro k; simp [outcomes_append, outcomes]
    simp only [sstep] at h
    split at h
    · next rc hrc =>
      have hlt := (List.getElem?_eq_some_iff.1 hrc).1
      have ht := hI.track i _ hrc
      have hflag : ∀ pc' : Pc, c.success = true → kind ≠ .datagram ∧
          ∃ (j : Nat) (s : String), (c.sends.set i pc')[j]? = some (.over (.value s)) := by
        intro pc' hs
        obtain ⟨h1, j, s, hj⟩ := hI.flag hs
        refine ⟨h1, j, s, ?_⟩
        have : i ≠ j := by rintro rfl; rw [hrc] at hj; cases hj
        rw [List.getElem?_set_ne this]; exact hj
      split at h
      · next hc =>
        cases h
        refine ⟨by intro k hk; rw [ho]; exact hI.unstarted k (by simpa using hk), hflag _, ?_⟩
        intro k pc hpc
        rw [ho]
        by_cases hk : i = k
        · subst hk
          simp [List.getElem?_set_self hlt] at hpc
          subst hpc
          exact ⟨ht.1, ht.2.2⟩
        · rw [List.getElem?_set_ne hk] at hpc
          exact (hI.track k pc hpc).mono (fun hw => hw.set hrc (by simp) _)
      · next hc =>
        cases h
        refine ⟨by intro k hk; rw [ho]; exact hI.unstarted k (by simpa using hk), hflag _, ?_⟩
        intro k pc hpc
        rw [ho]
        by_cases hk : i = k
        · subst hk
          simp [List.getElem?_set_self hlt] at hpc
          subst hpc
          have hsuc : kind ≠ .datagram ∧ c.success = true := by
            constructor
            · intro hd; exact hc ⟨ht.1, .inl hd⟩
            · cases hs : c.success with
              | true => rfl
              | false => exact absurd ⟨ht.1, .inr hs⟩ hc
          obtain ⟨_, j, s, hj⟩ := hI.flag hsuc.2
          refine .inr ⟨rfl, hsuc.1, ht.2.1, j, s, ?_, ?_⟩
          · rintro rfl; rw [hrc] at hj; cases hj
          · have : i ≠ j := by rintro rfl; rw [hrc] at hj; cases hj
            rw [List.getElem?_set_ne this]; exact hj
        · rw [List.getElem?_set_ne hk] at hpc
          exact (hI.track k pc hpc).mono (fun hw => hw.set hrc (by simp) _)
    · cases h
  | outcome i a =>
    simp only [sstep] at h
    split at h
    · next rc hrc =>
      have hlt := (List.getElem?_eq_some_iff.1 hrc).1
      have ht := hI.track i _ hrc
      simp only [Option.some.injEq] at h
      subst h
      have hoi : outcomes i (es ++ [SEv.outcome i a]) = outcomes i es ++ [a] := by simp [outcomes_append, outcomes]
      have hok : ∀ k, i ≠ k → outcomes k (es ++ [SEv.outcome i a]) = outcomes k es := by
        intro k hk; simp [outcomes_append, outcomes, hk]
      refine ⟨?_, ?_, ?_⟩
      · intro k hk
        have : i ≠ k := by rintro rfl; simp at hk; omega
        rw [hok k this]; exact hI.unstarted k (by simpa using hk)
      · intro hs
        simp only [Bool.or_eq_true] at hs
        rcases hs with hs | hs
        · obtain ⟨h1, j, s, hj⟩ := hI.flag hs
          refine ⟨h1, j, s, ?_⟩
          have : i ≠ j := by rintro rfl; rw [hrc] at hj; cases hj
          rw [List.getElem?_set_ne this]; exact hj
        · obtain ⟨h1, s, _, h2⟩ := after_success _ _ _ _ hs
          exact ⟨h1, i, s, by rw [List.getElem?_set_self hlt, h2]⟩
      · intro k pc hpc
        by_cases hk : i = k
        · subst hk
          rw [List.getElem?_set_self hlt] at hpc
          cases hpc
          rw [hoi, after_eq]
          have hround : ∀ fs, (loopFrom kind max 0 (solo (outcomes i es ++ [a] ++ fs))).1 =
              (loopFrom kind max rc ((false, a) :: solo fs)).1 := by
            intro fs
            have := ht.2 (a :: fs)
            simpa [solo] using this
          by_cases hr : retryable kind a = true
          · rw [if_pos hr]
            by_cases hmx : rc + 1 ≥ max
            · rw [if_pos hmx]
              left
              refine ⟨?_, by simp⟩
              have := hround []
              simp only [List.append_nil] at this
              rw [this, loopFrom_cons, if_pos ⟨ht.1, .inr rfl⟩, if_pos hr, if_pos hmx]; rfl
            · rw [if_neg hmx]
              refine ⟨by omega, ⟨a, by simp, hr⟩, ?_⟩
              intro fs
              rw [hround, loopFrom_cons, if_pos ⟨ht.1, .inr rfl⟩, if_pos hr, if_neg hmx]; rfl
          · rw [if_neg hr]
            left
            constructor
            · have := hround []
              simp only [List.append_nil] at this
              rw [this, loopFrom_cons, if_pos ⟨ht.1, .inr rfl⟩, if_neg hr]; rfl
            · cases kind <;> cases a <;> simp [final]
        · rw [List.getElem?_set_ne hk] at hpc
          rw [hok k hk]
          exact (hI.track k pc hpc).mono (fun hw => hw.set hrc (by simp) _)
    · cases h

theorem sinv_steps {kind : Kind} {max : Int} (hm : 0 < max) (es : List SEv) : ∀ {pre : List SEv} {c c' : Shared},
    SInv kind max pre c → ssteps kind max c es = some c' → SInv kind max (pre ++ es) c' := by
  induction es with
  | nil => intro pre c c' hI h; cases h; simpa using hI
  | cons e es ih =>
    intro pre c c' hI h
    unfold ssteps at h
    split at h
    · cases h
    · next c1 hc1 =>
      have := ih (sinv_step hm hI e hc1) h
      simpa using this

/-- A client object before its first use. -/
def Shared.new : Shared := ⟨false, []⟩

theorem sinv_reach {kind : Kind} {max : Int} (hm : 0 < max) {es : List SEv} {c : Shared}
    (h : ssteps kind max Shared.new es = some c) : SInv kind max es c := by
  have h0 : SInv kind max [] Shared.new := ⟨by simp [outcomes], by simp [Shared.new], by simp [Shared.new]⟩
  simpa using sinv_steps hm es h0 h

/-! ### Persistent connections -/

/-- Readers and replies in step. -/
structure Aligned (p : Pipe) : Prop where
  step : p.connected = true → p.pipe = p.waiting.map (·.line)
  idle : p.connected = false → p.waiting = []
  got : Correct p.got

theorem aligned_step {p p' : Pipe} (hA : Aligned p) (e : PEv) (hc : Calm p e) (h : pstep p e = some p') : Aligned p' := by
  cases e with
  | send w =>
    simp only [pstep] at h
    split at h
    · next hcon =>
      cases h
      exact ⟨fun _ => by simp [hA.step hcon], fun hn => absurd (hcon.symm.trans hn) (by decide), hA.got⟩
    · next hcon =>
      cases h
      have hidle := hA.idle (by simpa using hcon)
      exact ⟨fun _ => by simp [hidle], by simp, hA.got⟩
  | reply =>
    simp only [pstep] at h
    split at h
    · next w ws l ls hw hl =>
      cases h
      have hcon : p.connected = true := by
        cases hcn : p.connected with
        | true => rfl
        | false => have := hA.idle hcn; rw [hw] at this; cases this
      have hs := hA.step hcon
      rw [hw, hl] at hs
      simp only [List.map_cons, List.cons.injEq] at hs
      refine ⟨fun _ => hs.2, ?_, ?_⟩
      · intro hf
        rw [hcon, ← hs.1] at hf
        by_cases hq : l = .enq <;> simp [hq] at hf
      · intro x hx
        simp only [List.mem_append, List.mem_singleton] at hx
        rcases hx with hx | rfl
        · exact hA.got x hx
        · exact hs.1
    · cases h
  | timeout => exact absurd hc (by simp [Calm])
  | lost =>
    simp only [pstep] at h
    split at h
    · next w ws hw =>
      cases h
      simp only [Calm, hw, List.length_cons] at hc
      have hz : ws = [] := List.eq_nil_of_length_eq_zero (by omega)
      exact ⟨by simp, fun _ => hz, hA.got⟩
    · cases h
  | reconnect =>
    simp only [pstep] at h
    split at h
    · cases h
    · cases h
      simp only [Calm] at hc
      exact ⟨fun _ => by simp [hc], by simp, hA.got⟩

theorem aligned_along (es : List PEv) : ∀ {p p' : Pipe}, Aligned p → Along Calm p es → psteps p es = some p' → Aligned p' := by
  induction es with
  | nil => intro p p' hA _ h; cases h; exact hA
  | cons e es ih =>
    intro p p' hA hal h
    obtain ⟨hc, hal⟩ := hal
    unfold psteps at h
    split at h
    · cases h
    · next p1 hp1 =>
      rw [hp1] at hal
      exact ih (aligned_step hA e hc hp1) hal h

/-- On one connection, replies are read in the order in which the lines were written. -/
theorem fifo_steps (es : List PEv) (hes : ∀ e ∈ es, e ≠ .lost ∧ e ≠ .reconnect ∧ ∀ w, e = .send w → w.line ≠ .enq) :
    ∀ {p p' : Pipe}, p.connected = true → (∀ w ∈ p.waiting, w.line ≠ .enq) → psteps p es = some p' →
      p'.connected = true ∧ p'.got.map Prod.snd ++ p'.pipe = p.got.map Prod.snd ++ p.pipe ++ written es := by
  induction es with
  | nil => intro p p' hc _ h; cases h; exact ⟨hc, by simp [written]⟩
  | cons e es ih =>
    intro p p' hc hw h
    have he := hes e (by simp)
    have ih := @ih (fun e he => hes e (by simp [he]))
    unfold psteps at h
    split at h
    · cases h
    · next p1 hp1 =>
      cases e with
      | send w =>
        simp only [pstep, hc, if_true, Option.some.injEq] at hp1
        subst hp1
        obtain ⟨h1, h2⟩ := ih rfl (by
          intro w' hw'
          simp only [List.mem_append, List.mem_singleton] at hw'
          rcases hw' with hw' | rfl
          · exact hw w' hw'
          · exact he.2.2 _ rfl) h
        exact ⟨h1, by rw [h2]; simp [written]⟩
      | reply =>
        simp only [pstep] at hp1
        split at hp1
        · next w ws l ls hwt hl =>
          cases hp1
          have hn : w.line ≠ .enq := hw w (by rw [hwt]; simp)
          obtain ⟨h1, h2⟩ := ih (by simp [hc, hn]) (by intro w' hw'; exact hw w' (by rw [hwt]; simp [hw'])) h
          exact ⟨h1, by rw [h2, hl]; simp [written]⟩
        · cases hp1
      | timeout =>
        simp only [pstep] at hp1
        split at hp1
        · next w ws hwt =>
          cases hp1
          obtain ⟨h1, h2⟩ := ih (by exact hc) (by intro w' hw'; exact hw w' (by rw [hwt]; simp [hw'])) h
          exact ⟨h1, by rw [h2]; simp [written]⟩
        · cases hp1
      | lost => exact absurd rfl he.1
      | reconnect => exact absurd rfl he.2.1

/-! ### Datagrams -/

/-- Without time-outs only the reply that is waited for can be under way. -/
structure GInv (d : Dg) : Prop where
  net : ∀ q ∈ d.net, d.response = .live q
  dup : d.net.length ≤ 1
  idle : d.busy = false → d.net = []
  live : ∀ r, d.response = .live r → d.busy = true
  calm : d.response ≠ .cancelled
  got : ∀ x ∈ d.got, x.1 = x.2

theorem ginv_step {d d' : Dg} (hI : GInv d) (e : GEv) (he : e ≠ .timeout) (h : gstep d e = some d') : GInv d' := by
  cases e with
  | timeout => exact absurd rfl he
  | send r =>
    simp only [gstep] at h
    split at h
    · cases h
    · next hb =>
      cases h
      have := hI.idle (by simpa using hb)
      exact ⟨by simp [this], by simp [this], by simp, by simp, by simp, hI.got⟩
  | deliver i =>
    simp only [gstep] at h
    split at h
    · cases h
    · next q hq =>
      have hmem := List.mem_of_getElem? hq
      have hr := hI.net q hmem
      rw [hr] at h
      cases h
      have hnil : d.net.eraseIdx i = [] := by
        apply List.eq_nil_of_length_eq_zero
        have hlt := (List.getElem?_eq_some_iff.1 hq).1
        have := hI.dup
        rw [List.length_eraseIdx, if_pos hlt]; omega
      refine ⟨by simp [hnil], by simp [hnil], by simp [hnil], by simp, by simp, ?_⟩
      intro x hx
      simp only [List.mem_append, List.mem_singleton] at hx
      rcases hx with hx | rfl
      · exact hI.got x hx
      · rfl
  | drop i =>
    simp only [gstep] at h
    split at h
    · cases h
      refine ⟨fun q hq => hI.net q (List.mem_of_mem_eraseIdx hq), ?_, ?_, hI.live, hI.calm, hI.got⟩
      · have := hI.dup; have := List.length_eraseIdx_le d.net i; dsimp only; omega
      · intro hb; simp [hI.idle hb]
    · cases h

theorem ginv_steps (es : List GEv) (hes : GEv.timeout ∉ es) : ∀ {d d' : Dg}, GInv d → gsteps d es = some d' → GInv d' := by
  induction es with
  | nil => intro d d' hI h; cases h; exact hI
  | cons e es ih =>
    intro d d' hI h
    unfold gsteps at h
    split at h
    · cases h
    · next d1 hd1 =>
      exact ih (by intro e1; exact hes (by simp [e1])) (ginv_step hI e (by intro e1; exact hes (by simp [e1])) hd1) h

end Verif.Client
