import Verif.Long.Model

/-!
# C107: what a response too long for the client does

Every response is one line. A client takes lines up to a limit; a request whose response is longer fails. That is all it should do: the other
requests of the connection should get their own responses.
-/

namespace Verif.Long

open Verif.Stream

/-! ### Specification -/

/-- What request `k` should come to: its own response with the newline, if the client can take it. -/
def Right (P : Setup) (k : Nat) : Got := if (P.answer k).length ≤ P.limit then .line (P.answer k ++ [LF]) else .failed

/-- The answers are lines: the newline is at their end only. -/
def Lines (P : Setup) : Prop := ∀ k, LF ∉ P.answer k

/-- All answers are short enough for the client. -/
def Short (P : Setup) : Prop := ∀ k, (P.answer k).length ≤ P.limit

/-! ### Lemmas -/

theorem readline_full {limit : Nat} {x : Bytes} (h : LF ∉ x) (rest : Bytes) :
    readline limit (x ++ LF :: rest) = if x.length ≤ limit then .line (x ++ [LF]) rest else .overrun rest := by
  have hf : (x ++ LF :: rest).findIdx? (· = LF) = some x.length := by
    rw [List.findIdx?_eq_some_iff_getElem]
    refine ⟨by simp, by simp, ?_⟩
    intro j hj
    rw [List.getElem_append_left hj]
    simp only [decide_eq_true_eq]
    rintro he
    exact h (he ▸ List.getElem_mem hj)
  unfold readline
  rw [hf]
  have e1 : (x ++ LF :: rest).take (x.length + 1) = x ++ [LF] := by
    rw [List.take_append, List.take_of_length_le (Nat.le_succ _)]; simp
  have e2 : (x ++ LF :: rest).drop (x.length + 1) = rest := by
    rw [List.drop_append]; simp
  simp only [e1, e2]
  by_cases hl : x.length ≤ limit
  · rw [if_neg (by omega), if_pos hl]
  · rw [if_pos (by omega), if_neg hl]

theorem readline_part {limit : Nat} {x : Bytes} (h : LF ∉ x) : readline limit x = if x.length > limit then .overrun [] else .wait := by
  have hf : x.findIdx? (· = LF) = none := by
    rw [List.findIdx?_eq_none_iff]
    intro y hy
    simp only [decide_eq_false_iff_not]
    rintro rfl
    exact h hy
  unfold readline
  rw [hf]

/-- `buf ++ wire` is what is left of the answer waited for; all that was got is right. -/
structure Sync (P : Setup) (s : St) : Prop where
  bytes : s.buf ++ s.wire = if s.waiting then P.answer (s.sent - 1) ++ [LF] else []
  pos : s.waiting = true → 0 < s.sent
  got : s.got = (List.range (if s.waiting then s.sent - 1 else s.sent)).map (Right P)

theorem sync_new (P : Setup) : Sync P new := ⟨rfl, nofun, rfl⟩

theorem sync_send {P : Setup} {s s' : St} (h : Sync P s) (hs : step P s .send = some s') : Sync P s' := by
  simp only [step] at hs
  cases hw : s.waiting with
  | true => rw [hw] at hs; cases hs
  | false =>
    rw [hw] at hs
    simp only [Bool.false_eq_true, if_false, Option.some.injEq] at hs
    subst hs
    have hb := h.bytes
    have hg := h.got
    rw [hw] at hb hg
    simp only [Bool.false_eq_true, if_false, List.append_eq_nil_iff] at hb hg
    refine ⟨?_, by intro _; simp, ?_⟩
    · simp [hb.1, hb.2]
    · simpa using hg

theorem sync_arrive {P : Setup} {s s' : St} {n : Nat} (h : Sync P s) (hs : step P s (.arrive n) = some s') : Sync P s' := by
  simp only [step] at hs
  split at hs
  · cases hs
  · simp only [Option.some.injEq] at hs
    subst hs
    refine ⟨?_, h.pos, h.got⟩
    have := h.bytes
    simp only [List.append_assoc, List.take_append_drop]
    exact this

/-- A read, as long as the answer is short or has arrived completely. -/
theorem sync_read {P : Setup} (hL : Lines P) {s s' : St} (h : Sync P s) (hs : step P s .read = some s')
    (hw : (P.answer (s.sent - 1)).length ≤ P.limit ∨ s.wire = []) : Sync P s' := by
  simp only [step] at hs
  cases hwt : s.waiting with
  | false => rw [hwt] at hs; cases hs
  | true =>
    have hp := h.pos hwt
    have hb := h.bytes
    have hg := h.got
    rw [hwt] at hs hb hg
    simp only [if_true] at hs hb hg
    by_cases hc : s.wire = []
    · rw [hc, List.append_nil] at hb
      rw [hb, readline_full (hL _) []] at hs
      have hr : List.range s.sent = List.range (s.sent - 1) ++ [s.sent - 1] := by
        rw [← List.range_succ]; congr 1; omega
      by_cases hl : (P.answer (s.sent - 1)).length ≤ P.limit
      · rw [if_pos hl] at hs
        simp only [Option.some.injEq] at hs
        subst hs
        refine ⟨by simp [hc], nofun, ?_⟩
        simp only [Bool.false_eq_true, if_false]
        rw [hr, List.map_append, ← hg]
        simp [Right, hl]
      · rw [if_neg hl] at hs
        simp only [Option.some.injEq] at hs
        subst hs
        refine ⟨by simp [hc], nofun, ?_⟩
        simp only [Bool.false_eq_true, if_false]
        rw [hr, List.map_append, ← hg]
        simp [Right, hl]
    · have hl := hw.resolve_right hc
      -- part of the answer has arrived: no newline in it
      obtain ⟨w, x, hx⟩ : ∃ w x, s.wire = w ++ [x] := by
        rcases List.eq_nil_or_concat s.wire with h0 | ⟨w, x, h0⟩
        · exact absurd h0 hc
        · exact ⟨w, x, by simpa using h0⟩
      rw [hx, ← List.append_assoc] at hb
      have hb' := List.append_inj' hb rfl
      have hnot : LF ∉ s.buf := fun hm => hL (s.sent - 1) (by rw [← hb'.1]; simp [hm])
      have hlen : s.buf.length ≤ P.limit := by
        have := congrArg List.length hb'.1
        simp only [List.length_append] at this
        omega
      rw [readline_part hnot, if_neg (by omega)] at hs
      cases hs

theorem steps_append (P : Setup) (es fs : List Ev) : ∀ s, steps P s (es ++ fs) = (steps P s es).bind fun s' => steps P s' fs := by
  induction es with
  | nil => intro s; rfl
  | cons e es ih =>
    intro s
    simp only [List.cons_append, steps]
    cases step P s e with
    | none => rfl
    | some s' => exact ih s'

/-- Requests whose turn has not come are not in `got`. -/
theorem got_length {P : Setup} (es : List Ev) : ∀ {s s' : St}, s.got.length + (if s.waiting then 1 else 0) = s.sent → steps P s es = some s' →
    s'.got.length + (if s'.waiting then 1 else 0) = s'.sent := by
  induction es with
  | nil => intro s s' h hs; cases hs; exact h
  | cons e es ih =>
    intro s s' h hs
    simp only [steps] at hs
    cases hst : step P s e with
    | none => rw [hst] at hs; cases hs
    | some t =>
      rw [hst] at hs
      refine ih ?_ hs
      cases e with
      | send =>
        simp only [step] at hst
        split at hst
        · cases hst
        · next hw => simp only [Option.some.injEq] at hst; subst hst; simp [hw] at h ⊢; omega
      | arrive n =>
        simp only [step] at hst
        split at hst
        · cases hst
        · simp only [Option.some.injEq] at hst; subst hst; exact h
      | read =>
        simp only [step] at hst
        split at hst
        · next hw =>
          cases hr : readline P.limit s.buf with
          | wait => rw [hr] at hst; cases hst
          | line l rest => rw [hr] at hst; simp only [Option.some.injEq] at hst; subst hst; simp [hw] at h ⊢; omega
          | overrun rest => rw [hr] at hst; simp only [Option.some.injEq] at hst; subst hst; simp [hw] at h ⊢; omega
        · cases hst

/-! ### Theorems -/

/-- **C107, short responses.** As long as all responses are short enough, every request gets its own response, byte for byte, however the bytes
arrive. -/
theorem C107_short {P : Setup} (hL : Lines P) (hS : Short P) (es : List Ev) {s : St} (h : steps P new es = some s) :
    s.got = (List.range s.got.length).map (fun k => .line (P.answer k ++ [LF])) := by
  have key : ∀ (es : List Ev) {s s' : St}, Sync P s → steps P s es = some s' → Sync P s' := by
    intro es
    induction es with
    | nil => intro s s' h hs; cases hs; exact h
    | cons e es ih =>
      intro s s' h hs
      simp only [steps] at hs
      cases hst : step P s e with
      | none => rw [hst] at hs; cases hs
      | some t =>
        rw [hst] at hs
        refine ih ?_ hs
        cases e with
        | send => exact sync_send h hst
        | arrive n => exact sync_arrive h hst
        | read => exact sync_read hL h hst (Or.inl (hS _))
  have hg := (key es (sync_new P) h).got
  have : s.got.length = if s.waiting then s.sent - 1 else s.sent := by
    have := congrArg List.length hg
    simpa using this
  rw [this]
  rw [hg]
  apply List.map_congr_left
  intro k _
  simp [Right, hS k]

/-- **C107, up to the first long response.** Whatever the lengths and however the bytes arrive: all requests before the first one that fails got
their own responses, and that one's response was longer than the limit. -/
theorem C107_until {P : Setup} (hL : Lines P) (es : List Ev) {s : St} (h : steps P new es = some s) :
    (∃ k, s.got = (List.range k).map (fun i => .line (P.answer i ++ [LF])) ∧ ∀ i < k, (P.answer i).length ≤ P.limit) ∨
    (∃ k rest, s.got = (List.range k).map (fun i => .line (P.answer i ++ [LF])) ++ .failed :: rest ∧ P.limit < (P.answer k).length ∧
      ∀ i < k, (P.answer i).length ≤ P.limit) := by
  -- as long as nothing failed the state is in step
  have key : ∀ (es : List Ev) {s s' : St}, Sync P s → Got.failed ∉ s.got → steps P s es = some s' →
      (Sync P s' ∧ Got.failed ∉ s'.got) ∨
      (∃ k rest, s'.got = (List.range k).map (Right P) ++ .failed :: rest ∧ Got.failed ∉ (List.range k).map (Right P) ∧
        P.limit < (P.answer k).length) := by
    intro es
    induction es with
    | nil => intro s s' h hn hs; cases hs; exact Or.inl ⟨h, hn⟩
    | cons e es ih =>
      intro s s' h hn hs
      simp only [steps] at hs
      cases hst : step P s e with
      | none => rw [hst] at hs; cases hs
      | some t =>
        rw [hst] at hs
        have grow : ∀ (es : List Ev) {a b : St}, steps P a es = some b → ∃ r, b.got = a.got ++ r := by
          intro es
          induction es with
          | nil => intro a b hab; cases hab; exact ⟨[], by simp⟩
          | cons e es ih' =>
            intro a b hab
            simp only [steps] at hab
            cases hst : step P a e with
            | none => rw [hst] at hab; cases hab
            | some c =>
              rw [hst] at hab
              obtain ⟨r, hr⟩ := ih' hab
              have : ∃ r, c.got = a.got ++ r := by
                cases e with
                | send =>
                  simp only [step] at hst
                  split at hst
                  · cases hst
                  · simp only [Option.some.injEq] at hst; subst hst; exact ⟨[], by simp⟩
                | arrive n =>
                  simp only [step] at hst
                  split at hst
                  · cases hst
                  · simp only [Option.some.injEq] at hst; subst hst; exact ⟨[], by simp⟩
                | read =>
                  simp only [step] at hst
                  split at hst
                  · cases hr : readline P.limit a.buf with
                    | wait => rw [hr] at hst; cases hst
                    | line l rest => rw [hr] at hst; simp only [Option.some.injEq] at hst; subst hst; exact ⟨_, rfl⟩
                    | overrun rest => rw [hr] at hst; simp only [Option.some.injEq] at hst; subst hst; exact ⟨_, rfl⟩
                  · cases hst
              obtain ⟨r', hr'⟩ := this
              exact ⟨r' ++ r, by rw [hr, hr', List.append_assoc]⟩
        cases e with
        | send =>
          refine ih (sync_send h hst) ?_ hs
          simp only [step] at hst
          split at hst
          · cases hst
          · simp only [Option.some.injEq] at hst; subst hst; exact hn
        | arrive n =>
          refine ih (sync_arrive h hst) ?_ hs
          simp only [step] at hst
          split at hst
          · cases hst
          · simp only [Option.some.injEq] at hst; subst hst; exact hn
        | read =>
          have hwt : s.waiting = true := by
            simp only [step] at hst
            cases hw : s.waiting with
            | true => rfl
            | false => rw [hw] at hst; cases hst
          by_cases hl : (P.answer (s.sent - 1)).length ≤ P.limit
          · have hy := sync_read hL h hst (Or.inl hl)
            refine ih hy ?_ hs
            have hp := h.pos hwt
            have hg := h.got
            rw [hwt] at hg
            simp only [if_true] at hg
            have hw' : t.waiting = false ∧ t.sent = s.sent := by
              simp only [step, hwt, if_true] at hst
              cases hr : readline P.limit s.buf with
              | wait => rw [hr] at hst; cases hst
              | line l rest => rw [hr] at hst; simp only [Option.some.injEq] at hst; subst hst; exact ⟨rfl, rfl⟩
              | overrun rest => rw [hr] at hst; simp only [Option.some.injEq] at hst; subst hst; exact ⟨rfl, rfl⟩
            have hg' := hy.got
            rw [hw'.1, hw'.2] at hg'
            simp only [Bool.false_eq_true, if_false] at hg'
            have hr : List.range s.sent = List.range (s.sent - 1) ++ [s.sent - 1] := by
              rw [← List.range_succ]; congr 1; omega
            rw [hg', hr, List.map_append, ← hg]
            simp [Right, hl, hn]
          · -- this one fails
            right
            have hp := h.pos hwt
            have hb := h.bytes
            have hg := h.got
            rw [hwt] at hb hg
            simp only [if_true] at hb hg
            have hf : t.got = s.got ++ [.failed] := by
              simp only [step, hwt, if_true] at hst
              by_cases hc : s.wire = []
              · rw [hc, List.append_nil] at hb
                rw [hb, readline_full (hL _) [], if_neg hl] at hst
                simp only [Option.some.injEq] at hst; subst hst; rfl
              · obtain ⟨w, x, hx⟩ : ∃ w x, s.wire = w ++ [x] := by
                  rcases List.eq_nil_or_concat s.wire with h0 | ⟨w, x, h0⟩
                  · exact absurd h0 hc
                  · exact ⟨w, x, by simpa using h0⟩
                rw [hx, ← List.append_assoc] at hb
                have hb' := List.append_inj' hb rfl
                have hnot : LF ∉ s.buf := fun hm => hL (s.sent - 1) (by rw [← hb'.1]; simp [hm])
                rw [readline_part hnot] at hst
                by_cases hbig : s.buf.length > P.limit
                · rw [if_pos hbig] at hst
                  simp only [Option.some.injEq] at hst; subst hst; rfl
                · rw [if_neg hbig] at hst; cases hst
            obtain ⟨r, hr⟩ := grow es hs
            refine ⟨s.sent - 1, r, ?_, ?_, by omega⟩
            · rw [hr, hf, hg, List.append_assoc]; rfl
            · rw [← hg]; exact hn
  have right : ∀ k, Got.failed ∉ (List.range k).map (Right P) → (∀ i < k, (P.answer i).length ≤ P.limit) ∧
      (List.range k).map (Right P) = (List.range k).map (fun i => .line (P.answer i ++ [LF])) := by
    intro k hk
    have h1 : ∀ i < k, (P.answer i).length ≤ P.limit := by
      intro i hi
      refine Decidable.byContradiction fun hc => ?_
      refine hk (List.mem_map.mpr ⟨i, List.mem_range.mpr hi, ?_⟩)
      simp [Right, hc]
    refine ⟨h1, List.map_congr_left ?_⟩
    intro i hi
    simp [Right, h1 i (List.mem_range.mp hi)]
  rcases key es (sync_new P) (by simp [new]) h with ⟨hy, hn⟩ | ⟨k, rest, h1, h2, h3⟩
  · left
    have hg := hy.got
    rw [hg] at hn
    exact ⟨_, hg.trans (right _ hn).2, (right _ hn).1⟩
  · right
    exact ⟨k, rest, by rw [h1, (right k h2).2], h3, (right k h2).1⟩

/-- **C107, transient clients.** A client that uses a connection for one request only (sc 34-45) gets the response to its request, or a failure just
if the response is too long, however the bytes arrive. -/
theorem C107_transient {P : Setup} (hL : Lines P) (es : List Ev) {s : St} (h : steps P new es = some s) (h1 : s.sent ≤ 1) :
    s.got = [] ∨ s.got = [Right P 0] := by
  have hlen := got_length es (s := new) (by rfl) h
  rcases C107_until hL es h with ⟨k, hk, hf⟩ | ⟨k, rest, hk, hl, _⟩
  · have : k ≤ 1 := by rw [hk] at hlen; simp at hlen; omega
    match k, this with
    | 0, _ => left; simpa using hk
    | 1, _ => right; rw [hk]; simp [Right, hf 0 (by omega)]
  · have hk0 : k = 0 ∧ rest = [] := by
      rw [hk] at hlen
      simp at hlen
      exact ⟨by omega, List.eq_nil_of_length_eq_zero (by omega)⟩
    obtain ⟨rfl, rfl⟩ := hk0
    right
    rw [hk]
    simp [Right, hl]

/-- The bytes of a response arrive at once, as seen by the reading task. -/
def WholeRun (P : Setup) : St → List Ev → Prop
  | _, [] => True
  | s, e :: es => (e = .read → s.wire = []) ∧ ∀ s', step P s e = some s' → WholeRun P s' es

/-- **C107**, the part that holds of long responses. If no response is read before its end has arrived, a request with too long a response fails,
and all others get their own responses. Missing: responses that arrive in pieces (see `C107_shift_refuted`). -/
theorem C107_whole_partial {P : Setup} (hL : Lines P) (es : List Ev) (hw : WholeRun P new es) {s : St} (h : steps P new es = some s) :
    s.got = (List.range s.got.length).map (Right P) := by
  have key : ∀ (es : List Ev) {s s' : St}, Sync P s → WholeRun P s es → steps P s es = some s' → Sync P s' := by
    intro es
    induction es with
    | nil => intro s s' h _ hs; cases hs; exact h
    | cons e es ih =>
      intro s s' h hw hs
      simp only [steps] at hs
      cases hst : step P s e with
      | none => rw [hst] at hs; cases hs
      | some t =>
        rw [hst] at hs
        refine ih ?_ (hw.2 t hst) hs
        cases e with
        | send => exact sync_send h hst
        | arrive n => exact sync_arrive h hst
        | read => exact sync_read hL h hst (Or.inr (hw.1 rfl))
  have hg := (key es (sync_new P) hw h).got
  have : s.got.length = if s.waiting then s.sent - 1 else s.sent := by
    have := congrArg List.length hg
    simpa using this
  rw [this]
  exact hg

/-- The requests after the first one, each answered in one piece. -/
def follow (P : Setup) : Nat → Nat → Nat → List Ev
  | _, _, 0 => []
  | rest, k, n + 1 => .send :: .arrive (rest + (P.answer k).length + 1) :: .read :: follow P 0 (k + 1) n

theorem follow_run {P : Setup} (hL : Lines P) (n : Nat) : ∀ (k : Nat) (w b x : Bytes) (g : List Got), LF ∉ x → x.length ≤ P.limit → b ++ w = x ++ [LF] →
    (∀ i, k ≤ i → (P.answer i).length ≤ P.limit) →
    ∃ s, steps P ⟨w, b, k, false, g⟩ (follow P w.length k (n + 1)) = some s ∧
      s.got = g ++ .line (x ++ [LF]) :: (List.range' k n).map (fun i => .line (P.answer i ++ [LF])) := by
  induction n with
  | zero =>
    intro k w b x g hx hl hb hs
    have hbuf : b ++ List.take (w.length + (P.answer k).length + 1) (w ++ P.answer k ++ [LF]) = x ++ LF :: (P.answer k ++ [LF]) := by
      rw [List.take_of_length_le (by simp [Nat.add_assoc]), List.append_assoc, ← List.append_assoc b, hb]; simp
    have hr := readline_full (limit := P.limit) hx (P.answer k ++ [LF])
    rw [if_pos hl] at hr
    refine ⟨⟨[], P.answer k ++ [LF], k + 1, false, g ++ [.line (x ++ [LF])]⟩, ?_, by simp⟩
    simp only [follow, steps, step, Bool.false_eq_true, if_false, hbuf]
    rw [if_neg (by simp; omega)]
    simp only [hr, if_true]
    rw [List.drop_of_length_le (by simp [Nat.add_assoc])]
  | succ n ih =>
    intro k w b x g hx hl hb hs
    have hbuf : b ++ List.take (w.length + (P.answer k).length + 1) (w ++ P.answer k ++ [LF]) = x ++ LF :: (P.answer k ++ [LF]) := by
      rw [List.take_of_length_le (by simp [Nat.add_assoc]), List.append_assoc, ← List.append_assoc b, hb]; simp
    have hr := readline_full (limit := P.limit) hx (P.answer k ++ [LF])
    rw [if_pos hl] at hr
    obtain ⟨s, h1, h2⟩ := ih (k + 1) [] (P.answer k ++ [LF]) (P.answer k) (g ++ [.line (x ++ [LF])]) (hL k) (hs k (Nat.le_refl k)) (by simp)
      (fun i hi => hs i (by omega))
    refine ⟨s, ?_, ?_⟩
    · rw [← h1]
      rw [follow]
      simp only [steps, step, Bool.false_eq_true, if_false]
      rw [if_neg (by simp; omega)]
      simp only [hbuf, hr, if_true]
      rw [List.drop_of_length_le (by simp [Nat.add_assoc])]
      rfl
    · rw [h2, List.append_assoc]
      simp [List.range'_succ]

/-- **C107 is false of the code for clients that keep their connection.** A response too long for the client, of which `m` bytes, more than the
limit, arrive first: its request fails, what has arrived is thrown away, and the connection stays in use. The next request gets the rest of
that response; the one after it gets the response to the request before it, and so on for all that follow: none of them gets its own. -/
theorem C107_shift_refuted {P : Setup} (hL : Lines P) (m : Nat) (hm : P.limit < m) (hlen : m ≤ (P.answer 0).length)
    (hrest : (P.answer 0).length ≤ m + P.limit) (hs : ∀ k, 1 ≤ k → (P.answer k).length ≤ P.limit) (n : Nat) :
    ∃ es s, steps P new es = some s ∧
      s.got = .failed :: .line ((P.answer 0).drop m ++ [LF]) :: (List.range' 1 n).map (fun i => .line (P.answer i ++ [LF])) := by
  obtain ⟨s, h1, h2⟩ := follow_run hL n 1 ((P.answer 0).drop m ++ [LF]) [] ((P.answer 0).drop m) [.failed]
    (fun h => hL 0 (List.mem_of_mem_drop h)) (by rw [List.length_drop]; omega) (by simp) hs
  refine ⟨[.send, .arrive m, .read] ++ follow P ((P.answer 0).drop m ++ [LF]).length 1 (n + 1), s, ?_, by rw [h2]; simp⟩
  rw [steps_append]
  have : steps P new [.send, .arrive m, .read] = some ⟨(P.answer 0).drop m ++ [LF], [], 1, false, [.failed]⟩ := by
    have ht : List.take m (P.answer 0 ++ [LF]) = (P.answer 0).take m := by
      rw [List.take_append, show m - (P.answer 0).length = 0 by omega]; simp
    have hd : List.drop m (P.answer 0 ++ [LF]) = (P.answer 0).drop m ++ [LF] := by
      rw [List.drop_append, show m - (P.answer 0).length = 0 by omega]; simp
    have hr : readline P.limit ((P.answer 0).take m) = .overrun [] := by
      rw [readline_part (fun h => hL 0 (List.mem_of_mem_take h)), if_pos (by rw [List.length_take]; omega)]
    simp only [steps, step, new, List.nil_append, Bool.false_eq_true, if_false]
    rw [if_neg (by simp; omega)]
    simp only [ht, hd, hr, if_true, List.nil_append]
  rw [this]
  exact h1

/-! ### Examples -/

/-- A reader with a limit of 3; the given responses, then "Z". -/
def sample (ls : List Bytes) : Setup := ⟨3, fun k => ls.getD k [90]⟩

theorem sample_all {ls : List Bytes} {p : Bytes → Prop} (h : ∀ x ∈ ls, p x) (h' : p [90]) : ∀ k, p ((sample ls).answer k) := by
  intro k
  unfold sample
  simp only [List.getD_eq_getElem?_getD]
  cases hk : ls[k]? with
  | none => exact h'
  | some x => exact h x (List.mem_of_getElem? hk)

example : Lines (sample [[65, 65, 65], [66, 66]]) ∧ Short (sample [[65, 65, 65], [66, 66]]) :=
  ⟨sample_all (p := fun x => LF ∉ x) (by decide) (by decide), sample_all (p := fun x => x.length ≤ 3) (by decide) (by decide)⟩

example : ∃ s, steps (sample [[65, 65, 65], [66, 66]]) new [.send, .arrive 2, .arrive 2, .read, .send, .arrive 3, .read] = some s ∧
    s.got = [.line [65, 65, 65, 10], .line [66, 66, 10]] := ⟨_, rfl, by decide⟩

example : ∃ s, steps (sample [[65, 65, 65, 65, 65], [66, 66]]) new [.send, .arrive 4, .read, .send, .arrive 5, .read, .send, .arrive 2, .read] = some s ∧
    s.got = [.failed, .line [65, 10], .line [66, 66, 10]] := ⟨_, rfl, by decide⟩

example : ∃ s, steps (sample [[65, 65, 65, 65, 65], [66, 66]]) new [.send, .arrive 6, .read, .send, .arrive 3, .read] = some s ∧ s.got = [.failed, .line [66, 66, 10]] :=
  ⟨_, rfl, by decide⟩

example : WholeRun (sample [[65, 65, 65, 65, 65], [66, 66]]) new [.send, .arrive 6, .read, .send, .arrive 3, .read] := by
  refine ⟨nofun, fun s1 h1 => ?_⟩
  cases h1
  refine ⟨nofun, fun s2 h2 => ?_⟩
  cases h2
  refine ⟨fun _ => by decide, fun s3 h3 => ?_⟩
  cases h3
  refine ⟨nofun, fun s4 h4 => ?_⟩
  cases h4
  refine ⟨nofun, fun s5 h5 => ?_⟩
  cases h5
  exact ⟨fun _ => by decide, fun _ _ => trivial⟩

/-- The hypotheses of `C107_shift_refuted` are met with the limit of the code: 70000 letters, of which 65537 arrive first. -/
example : ∃ P : Setup, P.limit = 65536 ∧ Lines P ∧ P.limit < 65537 ∧ 65537 ≤ (P.answer 0).length ∧ (P.answer 0).length ≤ 65537 + P.limit ∧
    ∀ k, 1 ≤ k → (P.answer k).length ≤ P.limit := by
  refine ⟨⟨65536, fun k => List.replicate (if k = 0 then 70000 else 2) 65⟩, rfl, ?_, by show 65536 < 65537; omega, ?_, ?_, ?_⟩
  · intro k h
    exact absurd (List.eq_of_mem_replicate h) (by decide)
  · simp only [List.length_replicate, if_true]; omega
  · simp only [List.length_replicate, if_true]; omega
  · intro k hk
    simp only [List.length_replicate]
    rw [if_neg (by omega)]
    omega

end Verif.Long
