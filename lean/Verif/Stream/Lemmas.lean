import Verif.Stream.Spec

/-!
# Lemmas about the connection loops
-/

namespace Verif.Stream

open Verif.Py Verif.Server Verif.Stream.Spec

variable {K σ A : Type}

/-! ### Lines -/

/-- A line: ends in a newline, which occurs nowhere else. -/
def IsLine (l : Bytes) : Prop := ∃ x : Bytes, l = x ++ [10] ∧ (10 : UInt8) ∉ x

theorem lines_of_not_mem (b : Bytes) (h : (10 : UInt8) ∉ b) : lines b = ([], b) := by
  induction b with
  | nil => rfl
  | cons a b ih =>
    have h1 : a ≠ 10 := by intro e; exact h (by simp [e])
    have h2 := ih (by intro e; exact h (by simp [e]))
    simp [lines, h1, h2]

theorem lines_line (x bs : Bytes) (h : (10 : UInt8) ∉ x) :
    lines (x ++ 10 :: bs) = ((x ++ [10]) :: (lines bs).1, (lines bs).2) := by
  induction x with
  | nil => simp [lines]
  | cons a x ih =>
    have h1 : a ≠ 10 := by intro e; exact h (by simp [e])
    have h2 := ih (by intro e; exact h (by simp [e]))
    simp [lines, h1, h2]

theorem lines_append (l bs : Bytes) (h : IsLine l) : lines (l ++ bs) = (l :: (lines bs).1, (lines bs).2) := by
  obtain ⟨x, rfl, hx⟩ := h
  have := lines_line x bs hx
  simpa using this

theorem lines_flatten (done : List Bytes) (h : ∀ l ∈ done, IsLine l) (bs : Bytes) :
    lines (done.flatten ++ bs) = (done ++ (lines bs).1, (lines bs).2) := by
  induction done with
  | nil => simp
  | cons l done ih =>
    have h1 := lines_append l (done.flatten ++ bs) (h l (by simp))
    have h2 := ih (fun l hl => h l (by simp [hl]))
    simp [List.append_assoc, h1, h2]

theorem split_line (b : Bytes) : (10 : UInt8) ∉ b ∨ ∃ x rest, b = x ++ 10 :: rest ∧ (10 : UInt8) ∉ x := by
  induction b with
  | nil => left; simp
  | cons a b ih =>
    by_cases ha : a = 10
    · right; exact ⟨[], b, by simp [ha], by simp⟩
    · rcases ih with h | ⟨x, rest, e, hx⟩
      · left; simp [h, Ne.symm ha]
      · right; exact ⟨a :: x, rest, by simp [e], by simp [hx, Ne.symm ha]⟩

theorem findIdx_none (b : Bytes) (h : (10 : UInt8) ∉ b) : b.findIdx? (· = LF) = none := by
  rw [List.findIdx?_eq_none_iff]
  intro x hx
  have : x ≠ 10 := by intro e; exact h (e ▸ hx)
  simp [LF, this]

theorem findIdx_some (x rest : Bytes) (h : (10 : UInt8) ∉ x) :
    (x ++ 10 :: rest).findIdx? (· = LF) = some x.length := by
  rw [List.findIdx?_append, findIdx_none x h]
  simp [List.findIdx?_cons, LF]

theorem readline_line (limit : Nat) (x rest : Bytes) (h : (10 : UInt8) ∉ x) (eof : Bool) :
    readline limit (x ++ 10 :: rest) eof =
      if x.length > limit then .overrun else .line (x ++ [10]) rest := by
  unfold readline
  rw [findIdx_some x rest h]
  have h1 : (x ++ 10 :: rest).take (x.length + 1) = x ++ [10] := by
    rw [List.take_append]; simp [List.take_of_length_le]
  have h2 : (x ++ 10 :: rest).drop (x.length + 1) = rest := by
    rw [List.drop_append]; simp
  simp only [h1, h2]

theorem readline_none (limit : Nat) (b : Bytes) (h : (10 : UInt8) ∉ b) (eof : Bool) :
    readline limit b eof = if b.length ≥ 1 ∧ b.length > limit then .overrun else if eof then .tail b else .wait := by
  unfold readline
  rw [findIdx_none b h]

/-! ### Answers -/

theorem heartbeat_iff (l : Bytes) : l.head? = some ENQ ↔ Heartbeat l := by
  cases l with
  | nil => simp [Heartbeat]
  | cons b t => simp [Heartbeat, ENQ]

theorem answer_some {E : Endpoint K σ} {l : Bytes} {w w' : World K σ} {o : Bytes}
    (h : answer E l w = (some o, w')) : Replied E l w o w' := by
  unfold answer at h
  split at h
  · next hh => cases h; exact .heartbeat _ _ ((heartbeat_iff l).1 hh)
  · next hh =>
    split at h
    · cases h
    · next text ht =>
      split at h
      · cases h
      · next resp w1 hr =>
        split at h
        · cases h
        · next s hs =>
          cases h
          exact .request _ _ text resp s _ (fun e => hh ((heartbeat_iff l).2 e)) ht hr hs

theorem answer_none {E : Endpoint K σ} {l : Bytes} {w w' : World K σ}
    (h : answer E l w = (none, w')) (o : Bytes) (w'' : World K σ) : ¬ Replied E l w o w'' := by
  intro hr
  unfold answer at h
  cases hr with
  | heartbeat hb => rw [if_pos ((heartbeat_iff l).2 hb)] at h; cases h
  | request text resp s _ hb ht hr hs =>
    rw [if_neg (fun e => hb ((heartbeat_iff l).1 e))] at h
    simp [ht, hr, hs] at h

theorem Spec.Replied.det {E : Endpoint K σ} {l : Bytes} {w : World K σ} {o o' : Bytes} {w1 w2 : World K σ}
    (h : Replied E l w o w1) (h' : Replied E l w o' w2) : o = o' ∧ w1 = w2 := by
  cases h with
  | heartbeat hb =>
    cases h' with
    | heartbeat => exact ⟨rfl, rfl⟩
    | request _ _ _ _ hb' => exact absurd hb hb'
  | request text resp s _ hb ht hr hs =>
    cases h' with
    | heartbeat hb' => exact absurd hb' hb
    | request text' resp' s' _ hb' ht' hr' hs' =>
      rw [ht] at ht'; cases ht'
      rw [hr] at hr'; cases hr'
      rw [hs] at hs'; cases hs'
      exact ⟨rfl, rfl⟩

theorem Spec.Exchange.snoc {E : Endpoint K σ} {ls : List Bytes} {w w' w'' : World K σ} {os : List Bytes} {l o : Bytes}
    (h : Exchange E ls w os w') (h' : Replied E l w' o w'') : Exchange E (ls ++ [l]) w (os ++ [o]) w'' := by
  induction h with
  | nil w => exact .cons _ _ _ _ _ _ _ h' (.nil _)
  | cons l ls w o w1 os w2 hr _ ih => exact .cons _ _ _ _ _ _ _ hr (ih h')

/-- An exchange over a longer list starts with the exchange over its front. -/
theorem Spec.Exchange.front {E : Endpoint K σ} {ls ls' : List Bytes} {w w1 w2 : World K σ} {os os' : List Bytes}
    (h : Exchange E ls w os w1) (h' : Exchange E (ls ++ ls') w os' w2) :
    ∃ rest, os' = os ++ rest ∧ Exchange E ls' w1 rest w2 := by
  induction h generalizing os' with
  | nil w => exact ⟨os', rfl, h'⟩
  | cons l ls w o w3 os w4 hr _ ih =>
    cases h' with
    | cons _ _ _ o' w5 os'' _ hr' hx =>
      obtain ⟨rfl, rfl⟩ := hr.det hr'
      obtain ⟨rest, rfl, hrest⟩ := ih hx
      exact ⟨rest, rfl, hrest⟩

theorem Spec.Exchange.length {E : Endpoint K σ} {ls : List Bytes} {w w1 : World K σ} {os : List Bytes}
    (h : Exchange E ls w os w1) : os.length = ls.length := by
  induction h with
  | nil => rfl
  | cons _ _ _ _ _ _ _ _ _ ih => simp [ih]

theorem Spec.Exchange.get {E : Endpoint K σ} {ls : List Bytes} {w w1 : World K σ} {os : List Bytes}
    (h : Exchange E ls w os w1) (i : Nat) (l o : Bytes) (hl : ls[i]? = some l) (ho : os[i]? = some o) :
    ∃ w2 w3, Replied E l w2 o w3 := by
  induction h generalizing i with
  | nil => simp at hl
  | cons l' ls w o' w' os w'' hr _ ih =>
    cases i with
    | zero => simp at hl ho; subst hl ho; exact ⟨_, _, hr⟩
    | succ i => simp at hl ho; exact ih i hl ho

/-! ### Invariants of a connection -/

/-- Data that ends the loop by an exception: an over-long line, or a line without reply. -/
def Fatal (E : Endpoint K σ) (tail : Bytes) (w : World K σ) : Prop :=
  (∃ x rest : Bytes, tail = x ++ rest ∧ (10 : UInt8) ∉ x ∧ x.length > E.limit) ∨
  (∃ l rest : Bytes, tail = l ++ rest ∧ IsLine l ∧ ∀ o w', ¬ Replied E l w o w')

theorem Fatal.append {E : Endpoint K σ} {tail : Bytes} {w : World K σ} (h : Fatal E tail w) (c : Bytes) :
    Fatal E (tail ++ c) w := by
  rcases h with ⟨x, rest, rfl, h1, h2⟩ | ⟨l, rest, rfl, h1, h2⟩
  · exact .inl ⟨x, rest ++ c, by simp, h1, h2⟩
  · exact .inr ⟨l, rest ++ c, by simp, h1, h2⟩

/-- What holds after the bytes `fed` have arrived, no write having been lost. -/
structure Inv (E : Endpoint K σ) (w0 : World K σ) (fed : Bytes) (c : Conn K σ) (done : List Bytes)
    (w : World K σ) : Prop where
  lines : ∀ l ∈ done, IsLine l ∧ l.length ≤ E.limit + 1
  exch : Exchange E done w0 c.out w
  serving : c.phase = .serving → fed = done.flatten ++ c.buf ∧ c.world = w
  closed : c.phase = .closed → c.eof = true ∧ c.world = w ∧ ∃ rest : Bytes, fed = done.flatten ++ rest ∧ (10 : UInt8) ∉ rest ∧
    rest.length ≤ E.limit
  crashed : c.phase = .crashed → ∃ tail, fed = done.flatten ++ tail ∧ Fatal E tail w
  ignored : c.phase ≠ .ignored

theorem line_ok (x : Bytes) : ((x ++ [10]).isEmpty || decide ((x ++ [10]).getLast? ≠ some LF)) = false := by
  simp [LF]

/-- One turn, on each kind of buffer. -/
theorem turn_line {E : Endpoint K σ} {lost : Bool} {c : Conn K σ} (hp : c.phase = .serving) {x rest : Bytes}
    (hb : c.buf = x ++ 10 :: rest) (hx : (10 : UInt8) ∉ x) :
    turn E lost c = if x.length > E.limit then some { c with phase := .crashed }
      else match answer E (x ++ [10]) c.world with
        | (none, w) => some { c with buf := rest, world := w, phase := .crashed }
        | (some o, w) =>
          if lost then some { c with buf := rest, world := w, phase := .closed }
          else some { c with buf := rest, world := w, out := c.out ++ [o] } := by
  unfold turn
  rw [hp]; dsimp only
  rw [hb, readline_line E.limit x rest hx]
  by_cases hl : x.length > E.limit
  · simp [if_pos hl]
  · simp only [if_neg hl]
    rw [line_ok]; rfl

theorem turn_none {E : Endpoint K σ} {lost : Bool} {c : Conn K σ} (hp : c.phase = .serving)
    (hb : (10 : UInt8) ∉ c.buf) :
    turn E lost c = if c.buf.length ≥ 1 ∧ c.buf.length > E.limit then some { c with phase := .crashed }
      else if c.eof then some { c with buf := [], phase := .closed } else none := by
  unfold turn
  rw [hp]; dsimp only
  rw [readline_none E.limit c.buf hb]
  by_cases hl : c.buf.length ≥ 1 ∧ c.buf.length > E.limit
  · simp only [if_pos hl]
  · simp only [if_neg hl]
    cases c.eof <;> rfl

theorem turn_phase {E : Endpoint K σ} {lost : Bool} {c c' : Conn K σ} (h : turn E lost c = some c') :
    c.phase = .serving := by
  unfold turn at h
  split at h
  · assumption
  · cases h

theorem inv_step {E : Endpoint K σ} {w0 : World K σ} {fed : Bytes} {c c' : Conn K σ} {done : List Bytes}
    {w : World K σ} (hI : Inv E w0 fed c done w) (e : Ev) (he : e ≠ .turnReset) (h : step E c e = some c') :
    ∃ done' w', Inv E w0 (fed ++ received [e]) c' done' w' := by
  cases e with
  | turnReset => exact absurd rfl he
  | feed chunk =>
    simp only [step] at h
    split at h
    · cases h
    · next heof =>
      cases h
      refine ⟨done, w, hI.lines, hI.exch, ?_, ?_, ?_, hI.ignored⟩
      · intro hp
        obtain ⟨h1, h2⟩ := hI.serving hp
        exact ⟨by simp [received, h1], h2⟩
      · intro hp; exact absurd (hI.closed hp).1 (by simpa using heof)
      · intro hp
        obtain ⟨tail, h1, h2⟩ := hI.crashed hp
        exact ⟨tail ++ chunk, by simp [received, h1], h2.append chunk⟩
  | eof =>
    simp only [step] at h
    split at h
    · cases h
    · next heof =>
      cases h
      refine ⟨done, w, hI.lines, hI.exch, ?_, ?_, ?_, hI.ignored⟩
      · intro hp; simpa [received] using hI.serving hp
      · intro hp; exact absurd (hI.closed hp).1 (by simpa using heof)
      · intro hp; simpa [received] using hI.crashed hp
  | turn =>
    simp only [step] at h
    have hp := turn_phase h
    obtain ⟨h1, h2⟩ := hI.serving hp
    have hfed : fed ++ received [Ev.turn] = fed := by simp [received]
    rw [hfed]
    rcases split_line c.buf with hb | ⟨x, rest, hb, hx⟩
    · rw [turn_none hp hb] at h
      split at h
      · next hl =>
        cases h
        exact ⟨done, w, hI.lines, hI.exch, by simp, by simp,
          fun _ => ⟨c.buf, h1, .inl ⟨c.buf, [], by simp, hb, hl.2⟩⟩, by simp⟩
      · next hl =>
        split at h
        · next heof =>
          cases h
          exact ⟨done, w, hI.lines, hI.exch, by simp, fun _ => ⟨heof, h2, c.buf, h1, hb, by omega⟩, by simp, by simp⟩
        · cases h
    · rw [turn_line hp hb hx] at h
      split at h
      · next hl =>
        cases h
        exact ⟨done, w, hI.lines, hI.exch, by simp, by simp,
          fun _ => ⟨c.buf, h1, .inl ⟨x, 10 :: rest, hb, hx, hl⟩⟩, by simp⟩
      · next hl =>
        rcases ha : answer E (x ++ [10]) c.world with ⟨o | o, w1⟩
        · rw [ha] at h
          cases h
          refine ⟨done, w, hI.lines, hI.exch, by simp, by simp, fun _ => ⟨c.buf, h1, .inr ⟨x ++ [10], rest, by simp [hb], ⟨x, rfl, hx⟩, ?_⟩⟩, by simp⟩
          rw [← h2]; exact answer_none ha
        · rw [ha] at h
          simp only [Bool.false_eq_true, if_false] at h
          cases h
          have hr := answer_some ha
          rw [h2] at hr
          refine ⟨done ++ [x ++ [10]], w1, ?_, hI.exch.snoc hr, ?_, ?_, ?_, hI.ignored⟩
          · intro l hl
            rcases List.mem_append.1 hl with hl | hl
            · exact hI.lines l hl
            · simp at hl; exact ⟨⟨x, hl, hx⟩, by simp [hl]; omega⟩
          · intro _; exact ⟨by simp [h1, hb], rfl⟩
          · intro hq; rw [hp] at hq; cases hq
          · intro hq; rw [hp] at hq; cases hq

theorem received_append (es es' : List Ev) : received (es ++ es') = received es ++ received es' := by
  induction es with
  | nil => rfl
  | cons e es ih => cases e <;> simp [received, ih]

theorem received_cons (e : Ev) (es : List Ev) : received (e :: es) = received [e] ++ received es :=
  received_append [e] es

theorem inv_steps {E : Endpoint K σ} {w0 : World K σ} (es : List Ev) (hes : Ev.turnReset ∉ es) :
    ∀ {fed : Bytes} {c c' : Conn K σ} {done : List Bytes} {w : World K σ}, Inv E w0 fed c done w →
      steps E c es = some c' → ∃ done' w', Inv E w0 (fed ++ received es) c' done' w' := by
  induction es with
  | nil => intro fed c c' done w hI h; cases h; exact ⟨done, w, by simpa [received] using hI⟩
  | cons e es ih =>
    intro fed c c' done w hI h
    unfold steps at h
    split at h
    · cases h
    · next c1 hc1 =>
      obtain ⟨d1, w1, hI1⟩ := inv_step hI e (by intro e1; exact hes (by simp [e1])) hc1
      obtain ⟨d2, w2, hI2⟩ := ih (by intro e1; exact hes (by simp [e1])) hI1 h
      exact ⟨d2, w2, by rw [received_cons, ← List.append_assoc]; exact hI2⟩

theorem inv_accept (E : Endpoint K σ) (w : World K σ) : Inv E w [] (accept true w) [] w :=
  ⟨by simp, .nil _, fun _ => ⟨rfl, rfl⟩, by simp [accept], by simp [accept], by simp [accept]⟩

theorem inv_reach {E : Endpoint K σ} {w : World K σ} {es : List Ev} {c : Conn K σ} (hes : Ev.turnReset ∉ es)
    (h : steps E (accept true w) es = some c) : ∃ done w', Inv E w (received es) c done w' := by
  simpa using inv_steps es hes (inv_accept E w) h

/-- What is written always answers the first lines, whatever is lost at the end. -/
structure Safe (E : Endpoint K σ) (w0 : World K σ) (fed : Bytes) (c : Conn K σ) (done : List Bytes)
    (w : World K σ) : Prop where
  lines : ∀ l ∈ done, IsLine l
  exch : Exchange E done w0 c.out w
  serving : c.phase = .serving → fed = done.flatten ++ c.buf ∧ c.world = w
  rest : ∃ rest, fed = done.flatten ++ rest

theorem safe_step {E : Endpoint K σ} {w0 : World K σ} {fed : Bytes} {c c' : Conn K σ} {done : List Bytes}
    {w : World K σ} (hI : Safe E w0 fed c done w) (e : Ev) (h : step E c e = some c') :
    ∃ done' w', Safe E w0 (fed ++ received [e]) c' done' w' := by
  have key : ∀ lost, turn E lost c = some c' → ∃ done' w', Safe E w0 fed c' done' w' := by
    intro lost h
    have hp := turn_phase h
    obtain ⟨h1, h2⟩ := hI.serving hp
    rcases split_line c.buf with hb | ⟨x, rest, hb, hx⟩
    · rw [turn_none hp hb] at h
      split at h
      · cases h; exact ⟨done, w, hI.lines, hI.exch, by simp, hI.rest⟩
      · split at h
        · cases h; exact ⟨done, w, hI.lines, hI.exch, by simp, hI.rest⟩
        · cases h
    · rw [turn_line hp hb hx] at h
      split at h
      · cases h; exact ⟨done, w, hI.lines, hI.exch, by simp, hI.rest⟩
      · rcases ha : answer E (x ++ [10]) c.world with ⟨o | o, w1⟩
        · rw [ha] at h
          cases h; exact ⟨done, w, hI.lines, hI.exch, by simp, hI.rest⟩
        · rw [ha] at h
          have hr := answer_some ha
          rw [h2] at hr
          cases lost with
          | true => simp only [if_true] at h; cases h; exact ⟨done, w, hI.lines, hI.exch, by simp, hI.rest⟩
          | false =>
            simp only [Bool.false_eq_true, if_false] at h
            cases h
            refine ⟨done ++ [x ++ [10]], w1, ?_, hI.exch.snoc hr, ?_, ⟨rest, by simp [h1, hb]⟩⟩
            · intro l hl
              rcases List.mem_append.1 hl with hl | hl
              · exact hI.lines l hl
              · simp at hl; exact ⟨x, hl, hx⟩
            · intro _; exact ⟨by simp [h1, hb], rfl⟩
  cases e with
  | feed chunk =>
    simp only [step] at h
    split at h
    · cases h
    · cases h
      obtain ⟨rest, hr⟩ := hI.rest
      refine ⟨done, w, hI.lines, hI.exch, ?_, ⟨rest ++ chunk, by simp [received, hr]⟩⟩
      intro hp
      obtain ⟨h1, h2⟩ := hI.serving hp
      exact ⟨by simp [received, h1], h2⟩
  | eof =>
    simp only [step] at h
    split at h
    · cases h
    · cases h; exact ⟨done, w, hI.lines, hI.exch, by simpa [received] using hI.serving, by simpa [received] using hI.rest⟩
  | turn => simpa [received] using key false h
  | turnReset => simpa [received] using key true h

theorem safe_steps {E : Endpoint K σ} {w0 : World K σ} (es : List Ev) :
    ∀ {fed : Bytes} {c c' : Conn K σ} {done : List Bytes} {w : World K σ}, Safe E w0 fed c done w →
      steps E c es = some c' → ∃ done' w', Safe E w0 (fed ++ received es) c' done' w' := by
  induction es with
  | nil => intro fed c c' done w hI h; cases h; exact ⟨done, w, by simpa [received] using hI⟩
  | cons e es ih =>
    intro fed c c' done w hI h
    unfold steps at h
    split at h
    · cases h
    · next c1 hc1 =>
      obtain ⟨d1, w1, hI1⟩ := safe_step hI e hc1
      obtain ⟨d2, w2, hI2⟩ := ih hI1 h
      exact ⟨d2, w2, by rw [received_cons, ← List.append_assoc]; exact hI2⟩

theorem safe_reach {E : Endpoint K σ} {w : World K σ} {es : List Ev} {c : Conn K σ}
    (h : steps E (accept true w) es = some c) : ∃ done w', Safe E w (received es) c done w' := by
  simpa using safe_steps es (⟨by simp, .nil _, fun _ => ⟨rfl, rfl⟩, ⟨[], rfl⟩⟩ : Safe E w [] (accept true w) [] w) h

/-- Nothing fatal is left when the remaining lines can be answered and fit. -/
theorem not_fatal {E : Endpoint K σ} {tail : Bytes} {w w' : World K σ} {os : List Bytes}
    (hf : Fits E.limit tail) (hx : Exchange E (lines tail).1 w os w') : ¬ Fatal E tail w := by
  rintro (⟨x, rest, rfl, h1, h2⟩ | ⟨l, rest, rfl, h1, h2⟩)
  · rcases split_line rest with hr | ⟨y, rest', rfl, hy⟩
    · have := hf.2
      rw [lines_of_not_mem (x ++ rest) (by simp [h1, hr])] at this
      simp at this; omega
    · have := hf.1
      rw [show x ++ (y ++ 10 :: rest') = (x ++ y) ++ 10 :: rest' by simp,
        lines_line (x ++ y) rest' (by simp [h1, hy])] at this
      have := this _ (List.mem_cons_self ..)
      simp at this; omega
  · rw [lines_append l rest h1] at hx
    cases hx with
    | cons _ _ _ o w1 _ _ hr _ => exact h2 _ _ hr

theorem Spec.Fits.tail {limit : Nat} {done : List Bytes} {tail : Bytes} (hd : ∀ l ∈ done, IsLine l)
    (hf : Fits limit (done.flatten ++ tail)) : Fits limit tail := by
  unfold Fits at hf ⊢
  rw [lines_flatten done hd] at hf
  exact ⟨fun l hl => hf.1 l (by simp [hl]), hf.2⟩

/-! ### Two runs over the same bytes -/

/-- When the task is quiet, what it has not answered is fatal exactly if the task died. -/
theorem Inv.quiet {E : Endpoint K σ} {w0 : World K σ} {fed : Bytes} {c : Conn K σ} {done : List Bytes}
    {w : World K σ} (hI : Inv E w0 fed c done w) (hq : Quiet E c) :
    ∃ tail, fed = done.flatten ++ tail ∧
      ((c.phase = .crashed ∧ Fatal E tail w) ∨
       ((10 : UInt8) ∉ tail ∧ tail.length ≤ E.limit ∧ c.world = w ∧ ((c.phase = .closed ∧ c.eof = true) ∨
        (c.phase = .serving ∧ c.eof = false)))) := by
  cases hp : c.phase with
  | crashed =>
    obtain ⟨tail, h1, h2⟩ := hI.crashed hp
    exact ⟨tail, h1, .inl ⟨rfl, h2⟩⟩
  | ignored => exact absurd hp hI.ignored
  | closed =>
    obtain ⟨h1, h2, tail, h3, h4, h5⟩ := hI.closed hp
    exact ⟨tail, h3, .inr ⟨h4, h5, h2, .inl ⟨rfl, h1⟩⟩⟩
  | serving =>
    obtain ⟨h1, h2⟩ := hI.serving hp
    refine ⟨c.buf, h1, .inr ?_⟩
    have hq' : turn E false c = none := hq
    rcases split_line c.buf with hb | ⟨x, rest, hb, hx⟩
    · rw [turn_none hp hb] at hq'
      split at hq'
      · cases hq'
      · next hl =>
        split at hq'
        · cases hq'
        · next he => exact ⟨hb, by omega, h2, .inr ⟨rfl, by simpa using he⟩⟩
    · rw [turn_line hp hb hx] at hq'
      split at hq'
      · cases hq'
      · rcases ha : answer E (x ++ [10]) c.world with ⟨o | o, w1⟩
        · rw [ha] at hq'; cases hq'
        · rw [ha] at hq'; simp at hq'

theorem IsLine.mem {l : Bytes} (h : IsLine l) : (10 : UInt8) ∈ l := by
  obtain ⟨x, rfl, _⟩ := h; simp

/-- A line that can be answered and fits is not the beginning of fatal data. -/
theorem not_fatal_line {E : Endpoint K σ} {l rest : Bytes} {w w' : World K σ} {o : Bytes} (hl : IsLine l)
    (hlen : l.length ≤ E.limit + 1) (hr : Replied E l w o w') : ¬ Fatal E (l ++ rest) w := by
  rintro (⟨x, r, he, h1, h2⟩ | ⟨l', r, he, h1, h2⟩)
  · obtain ⟨y, rfl, hy⟩ := hl
    have hlen' : y.length < x.length := by simp at hlen; omega
    have : (10 : UInt8) ∈ x := by
      have hg : ((y ++ [10]) ++ rest)[y.length]? = some 10 := by simp
      rw [he, List.getElem?_append_left hlen'] at hg
      exact List.mem_of_getElem? hg
    exact h1 this
  · have e1 := lines_append l rest hl
    rw [he, lines_append l' r h1] at e1
    have : l' = l := by simpa using (congrArg (fun p => p.1.head?) e1)
    subst this
    exact h2 _ _ hr

/-- A quiet run has answered at least what any run over the same bytes has. -/
theorem quiet_max {E : Endpoint K σ} {w0 : World K σ} {fed : Bytes} {c1 c2 : Conn K σ} {d1 d2 : List Bytes}
    {w1 w2 : World K σ} (h1 : Inv E w0 fed c1 d1 w1) (h2 : Inv E w0 fed c2 d2 w2) (hq : Quiet E c1)
    (t2 : Bytes) (ht2 : fed = d2.flatten ++ t2) : ∃ more, d1 = d2 ++ more := by
  obtain ⟨t1, ht1, hcase⟩ := h1.quiet hq
  have e1 := lines_flatten d1 (fun l hl => (h1.lines l hl).1) t1
  have e2 := lines_flatten d2 (fun l hl => (h2.lines l hl).1) t2
  rw [← ht1] at e1
  rw [← ht2] at e2
  have he : d1 ++ (lines t1).1 = d2 ++ (lines t2).1 := by rw [e1] at e2; exact congrArg Prod.fst e2
  rcases List.append_eq_append_iff.1 he with ⟨a, ha, _⟩ | ⟨a, ha, _⟩
  · cases a with
    | nil => exact ⟨[], by simp [ha]⟩
    | cons l a =>
      exfalso
      have hl := h2.lines l (by simp [ha])
      have hx := h2.exch
      rw [ha] at hx
      obtain ⟨rest, _, hx'⟩ := h1.exch.front hx
      have hr : ∃ o w', Replied E l w1 o w' := by
        cases hx' with
        | cons _ _ _ o w' _ _ hr _ => exact ⟨o, w', hr⟩
      obtain ⟨o, w', hr⟩ := hr
      have ht : t1 = l ++ (a.flatten ++ t2) := by
        have : d1.flatten ++ t1 = d1.flatten ++ (l ++ (a.flatten ++ t2)) := by
          rw [← ht1, ht2, ha]; simp
        exact List.append_cancel_left this
      rcases hcase with ⟨_, hf⟩ | ⟨hn, _⟩
      · rw [ht] at hf; exact not_fatal_line hl.1 hl.2 hr hf
      · exact hn (by rw [ht]; simp [hl.1.mem])
  · exact ⟨a, ha⟩

theorem Spec.Exchange.det {E : Endpoint K σ} {ls : List Bytes} {w w1 w2 : World K σ} {os os' : List Bytes}
    (h : Exchange E ls w os w1) (h' : Exchange E ls w os' w2) : os' = os ∧ w2 = w1 := by
  have h'' : Exchange E (ls ++ []) w os' w2 := by simpa using h'
  obtain ⟨rest, h1, h2⟩ := h.front h''
  cases h2
  exact ⟨by simpa using h1, rfl⟩

theorem quiet_det {E : Endpoint K σ} {w0 : World K σ} {fed : Bytes} {c1 c2 : Conn K σ} {d1 d2 : List Bytes}
    {w1 w2 : World K σ} (h1 : Inv E w0 fed c1 d1 w1) (h2 : Inv E w0 fed c2 d2 w2) (hq1 : Quiet E c1)
    (hq2 : Quiet E c2) (he : c1.eof = c2.eof) :
    c1.out = c2.out ∧ c1.phase = c2.phase ∧ (c1.phase ≠ .crashed → c1.world = c2.world) := by
  obtain ⟨t1, ht1, hc1⟩ := h1.quiet hq1
  obtain ⟨t2, ht2, hc2⟩ := h2.quiet hq2
  obtain ⟨m1, hm1⟩ := quiet_max h1 h2 hq1 t2 ht2
  obtain ⟨m2, hm2⟩ := quiet_max h2 h1 hq2 t1 ht1
  have hm : m1 = [] := by
    have := congrArg List.length hm1
    have := congrArg List.length hm2
    simp at *
    apply List.eq_nil_of_length_eq_zero; omega
  subst hm
  simp at hm1
  subst hm1
  obtain ⟨ho, hw⟩ := h1.exch.det h2.exch
  subst hw
  have ht : t1 = t2 := List.append_cancel_left (ht1.symm.trans ht2)
  subst ht
  have key : (10 : UInt8) ∉ t1 → t1.length ≤ E.limit → ¬ Fatal E t1 w2 := by
    intro hn hs hf
    rcases hf with ⟨x, r, e, _, hx⟩ | ⟨l, r, e, hl, _⟩
    · have := congrArg List.length e; simp at this; omega
    · exact hn (by rw [e]; simp [hl.mem])
  refine ⟨ho.symm, ?_⟩
  rcases hc1 with ⟨hp1, hf1⟩ | ⟨hn1, hl1, hw1, hs1⟩ <;> rcases hc2 with ⟨hp2, hf2⟩ | ⟨hn2, hl2, hw2, hs2⟩
  · exact ⟨by rw [hp1, hp2], by simp [hp1]⟩
  · exact (key hn2 hl2 hf1).elim
  · exact (key hn1 hl1 hf2).elim
  · refine ⟨?_, fun _ => by rw [hw1, hw2]⟩
    rcases hs1 with ⟨hp1, he1⟩ | ⟨hp1, he1⟩ <;> rcases hs2 with ⟨hp2, he2⟩ | ⟨hp2, he2⟩ <;> rw [hp1, hp2] <;>
      rw [he1, he2] at he <;> cases he

/-! ### Termination of turns -/

theorem turn_buf {E : Endpoint K σ} {c c' : Conn K σ} (h : turn E false c = some c') :
    c'.phase ≠ .serving ∨ c'.buf.length < c.buf.length := by
  have hp := turn_phase h
  rcases split_line c.buf with hb | ⟨x, rest, hb, hx⟩
  · rw [turn_none hp hb] at h
    split at h
    · cases h; left; simp
    · split at h
      · cases h; left; simp
      · cases h
  · rw [turn_line hp hb hx] at h
    split at h
    · cases h; left; simp
    · rcases ha : answer E (x ++ [10]) c.world with ⟨o | o, w1⟩
      · rw [ha] at h; cases h; left; simp
      · rw [ha] at h
        simp only [Bool.false_eq_true, if_false] at h
        cases h; right; simp [hb]; omega

theorem quiet_of_phase {E : Endpoint K σ} {c : Conn K σ} (h : c.phase ≠ .serving) : Quiet E c := by
  unfold Quiet step turn
  cases hp : c.phase <;> simp_all

theorem turns_exist (E : Endpoint K σ) (n : Nat) : ∀ c : Conn K σ, c.buf.length ≤ n →
    ∃ k c', steps E c (List.replicate k .turn) = some c' ∧ Quiet E c' := by
  induction n with
  | zero =>
    intro c hn
    cases ht : turn E false c with
    | none => exact ⟨0, c, rfl, ht⟩
    | some c1 =>
      have hq : c1.phase ≠ .serving := by
        rcases turn_buf ht with h | h
        · exact h
        · omega
      exact ⟨1, c1, by simp [steps, step, ht], quiet_of_phase hq⟩
  | succ n ih =>
    intro c hn
    cases ht : turn E false c with
    | none => exact ⟨0, c, rfl, ht⟩
    | some c1 =>
      rcases turn_buf ht with h | h
      · exact ⟨1, c1, by simp [steps, step, ht], quiet_of_phase h⟩
      · obtain ⟨k, c2, h1, h2⟩ := ih c1 (by omega)
        exact ⟨k + 1, c2, by simp [List.replicate_succ, steps, step, ht, h1], h2⟩

theorem steps_append (E : Endpoint K σ) (es es' : List Ev) : ∀ c : Conn K σ,
    steps E c (es ++ es') = (steps E c es).bind (fun c' => steps E c' es') := by
  induction es with
  | nil => intro c; rfl
  | cons e es ih =>
    intro c
    simp only [List.cons_append, steps]
    cases step E c e with
    | none => rfl
    | some c' => exact ih c'

theorem received_turns (k : Nat) : received (List.replicate k Ev.turn) = [] := by
  induction k with
  | zero => rfl
  | succ k ih => simpa [List.replicate_succ, received] using ih

/-- A task that has ended stays ended. -/
theorem ended_stays {E : Endpoint K σ} (es : List Ev) : ∀ {c c' : Conn K σ}, c.phase ≠ .serving →
    steps E c es = some c' → c'.phase = c.phase ∧ c'.out = c.out ∧ c'.world = c.world := by
  induction es with
  | nil => intro c c' _ h; cases h; exact ⟨rfl, rfl, rfl⟩
  | cons e es ih =>
    intro c c' hp h
    unfold steps at h
    split at h
    · cases h
    · next c1 hc1 =>
      have : c1.phase = c.phase ∧ c1.out = c.out ∧ c1.world = c.world := by
        cases e with
        | feed chunk => simp only [step] at hc1; split at hc1 <;> cases hc1; exact ⟨rfl, rfl, rfl⟩
        | eof => simp only [step] at hc1; split at hc1 <;> cases hc1; exact ⟨rfl, rfl, rfl⟩
        | turn => exact absurd (turn_phase hc1) hp
        | turnReset => exact absurd (turn_phase hc1) hp
      obtain ⟨h1, h2, h3⟩ := ih (by rw [this.1]; exact hp) h
      exact ⟨h1.trans this.1, h2.trans this.2.1, h3.trans this.2.2⟩

/-! ### Datagrams -/

theorem Spec.Answered.snoc {E : Endpoint K σ} {rs : List (String × A)} {w w' : World K σ} {out : List (Bytes × A)}
    (h : Answered E rs w out w') {text : String} {a : A} {resp : Resp K} {w'' : World K σ} {s : String}
    (hr : routeRequest E.server text w' = (.ok resp, w'')) (hs : E.dumps resp = some s) :
    Answered E (rs ++ [(text, a)]) w (out ++ [(encode s, a)]) w'' := by
  induction h with
  | nil w => exact .response _ _ _ _ _ _ _ _ _ hr hs (.nil _)
  | response text a rs w resp w1 s out w2 h1 h2 _ ih => exact .response _ _ _ _ _ _ _ _ _ h1 h2 (ih hr)
  | silent text a rs w r w1 out w2 h1 h2 _ ih => exact .silent _ _ _ _ _ _ _ _ h1 h2 (ih hr)

theorem Spec.Answered.snocSilent {E : Endpoint K σ} {rs : List (String × A)} {w w' : World K σ} {out : List (Bytes × A)}
    (h : Answered E rs w out w') {text : String} {a : A} {r : Except Exc (Resp K)} {w'' : World K σ}
    (hr : routeRequest E.server text w' = (r, w'')) (hs : ∀ resp, r = .ok resp → E.dumps resp = none) :
    Answered E (rs ++ [(text, a)]) w out w'' := by
  induction h with
  | nil w => exact .silent _ _ _ _ _ _ _ _ hr hs (.nil _)
  | response text a rs w resp w1 s out w2 h1 h2 _ ih => exact .response _ _ _ _ _ _ _ _ _ h1 h2 (ih hr)
  | silent text a rs w r w1 out w2 h1 h2 _ ih => exact .silent _ _ _ _ _ _ _ _ h1 h2 (ih hr)

theorem Spec.Merged.snocLeft {α : Type} {xs ys zs : List α} (h : Merged xs ys zs) (x : α) :
    Merged (xs ++ [x]) ys (zs ++ [x]) := by
  induction h with
  | nil => exact .left _ _ _ _ .nil
  | left _ _ _ _ _ ih => exact .left _ _ _ _ ih
  | right _ _ _ _ _ ih => exact .right _ _ _ _ ih

theorem Spec.Merged.snocRight {α : Type} {xs ys zs : List α} (h : Merged xs ys zs) (x : α) :
    Merged xs (ys ++ [x]) (zs ++ [x]) := by
  induction h with
  | nil => exact .right _ _ _ _ .nil
  | left _ _ _ _ _ ih => exact .left _ _ _ _ ih
  | right _ _ _ _ _ ih => exact .right _ _ _ _ ih

theorem requests_append (es es' : List (DEv A)) : requests (es ++ es') = requests es ++ requests es' := by
  induction es with
  | nil => rfl
  | cons e es ih =>
    cases e with
    | receive b a =>
      simp only [List.cons_append, requests]
      split
      · split <;> simp [ih]
      · exact ih
    | respond => simpa [requests] using ih
    | cancel => simpa [requests] using ih

theorem pings_append (es es' : List (DEv A)) : pings (es ++ es') = pings es ++ pings es' := by
  induction es with
  | nil => rfl
  | cons e es ih =>
    cases e with
    | receive b a =>
      simp only [List.cons_append, pings]
      split <;> simp [ih]
    | respond => simpa [pings] using ih
    | cancel => simpa [pings] using ih

/-- What holds after the events `es`, none of which cancels a task. -/
def DInv (E : Endpoint K σ) (w0 : World K σ) (es : List (DEv A)) (d : Dgram A K σ) : Prop :=
  ∃ done out, requests es = done ++ d.tasks ∧ Answered E done w0 out d.world ∧
    Merged out ((pings es).map (fun a => (([6, 10] : Bytes), a))) d.sent

theorem dinv_step {E : Endpoint K σ} {w0 : World K σ} {es : List (DEv A)} {d d' : Dgram A K σ}
    (hI : DInv E w0 es d) (e : DEv A) (he : e ≠ .cancel) (h : dstep E d e = some d') :
    DInv E w0 (es ++ [e]) d' := by
  obtain ⟨done, out, h1, h2, h3⟩ := hI
  unfold DInv
  rw [requests_append, pings_append]
  cases e with
  | cancel => exact absurd rfl he
  | receive b a =>
    simp only [dstep, Option.some.injEq] at h
    by_cases hl : b.getLast? = some 10
    · have hne : b.isEmpty = false := by cases b <;> simp_all
      have hc : (!b.isEmpty && decide (b.getLast? = some LF)) = true := by simp [hne, LF, hl]
      rw [if_pos hc] at h
      by_cases hh : b.head? = some 6
      · rw [if_pos (by simpa [ACK] using hh)] at h
        subst h
        refine ⟨done, out, ?_, h2, ?_⟩
        · simp [requests, hh, h1]
        · have : pings [DEv.receive b a] = [a] := by simp [pings, hl, hh]
          rw [this, List.map_append]
          exact h3.snocRight _
      · rw [if_neg (by simpa [ACK] using hh)] at h
        have hpg : pings [DEv.receive b a] = [] := by simp [pings, hh]
        rw [hpg, List.append_nil]
        cases hd : decode b with
        | none =>
          rw [hd] at h; subst h
          exact ⟨done, out, by simp [requests, hl, hh, hd, h1], h2, h3⟩
        | some text =>
          rw [hd] at h; subst h
          exact ⟨done, out, by simp [requests, hl, hh, hd, h1], h2, h3⟩
    · have hc : ¬ (!b.isEmpty && decide (b.getLast? = some LF)) = true := by simp [LF, hl]
      rw [if_neg hc] at h
      subst h
      exact ⟨done, out, by simp [requests, hl, h1], h2, by simpa [pings, hl] using h3⟩
  | respond =>
    simp only [requests, pings, List.append_nil]
    simp only [dstep] at h
    split at h
    · cases h
    · next text a rest ht =>
      rcases hr : routeRequest E.server text d.world with ⟨r, w⟩
      rw [hr] at h
      cases r with
      | error x =>
        cases h
        exact ⟨done ++ [(text, a)], out, by simp [h1, ht],
          h2.snocSilent hr (by intro resp e; cases e), h3⟩
      | ok resp =>
        dsimp only at h
        cases hs : E.dumps resp with
        | none =>
          rw [hs] at h; cases h
          exact ⟨done ++ [(text, a)], out, by simp [h1, ht],
            h2.snocSilent hr (by intro resp' e; cases e; exact hs), h3⟩
        | some s =>
          rw [hs] at h; cases h
          exact ⟨done ++ [(text, a)], out ++ [(encode s, a)], by simp [h1, ht], h2.snoc hr hs, h3.snocLeft _⟩

theorem dinv_steps {E : Endpoint K σ} {w0 : World K σ} (es : List (DEv A)) (hes : DEv.cancel ∉ es) :
    ∀ {pre : List (DEv A)} {d d' : Dgram A K σ}, DInv E w0 pre d → dsteps E d es = some d' →
      DInv E w0 (pre ++ es) d' := by
  induction es with
  | nil => intro pre d d' hI h; cases h; simpa using hI
  | cons e es ih =>
    intro pre d d' hI h
    unfold dsteps at h
    split at h
    · cases h
    · next d1 hd1 =>
      have h1 := dinv_step hI e (by intro e1; exact hes (by simp [e1])) hd1
      have h2 := ih (by intro e1; exact hes (by simp [e1])) h1 h
      simpa using h2

end Verif.Stream
