import Verif.Stream.Props

/-!
# C113: what a stream server acts on

Whatever bytes a peer sends, however they are cut into pieces, and however the connection ends: the application acts on complete lines only, in their order, each at
most once, on none that is longer than the limit, and on nothing behind a line that ended the connection.
-/

namespace Verif.Stream

open Verif.Py Verif.Server Spec

variable {K σ : Type}

/-- `Trace E ls w out serving w'`: from the state `w`, some first lines of `ls` were acted on and answered with `out`, and then at most one more was acted
on (the reply to which could not be made, or not be written; the connection is over then), which leads to `w'`. None of these lines is longer than the limit, its
newline not counted. -/
def Trace (E : Endpoint K σ) (ls : List Bytes) (w : World K σ) (out : List Bytes) (serving : Bool) (w' : World K σ) : Prop :=
  ∃ done w1, done <+: ls ∧ Exchange E done w out w1 ∧ (∀ l ∈ done, l.length ≤ E.limit + 1) ∧
    (w' = w1 ∨ serving = false ∧ ∃ l text, done ++ [l] <+: ls ∧ l.length ≤ E.limit + 1 ∧ ¬ Heartbeat l ∧ decode l = some text ∧
      w' = (routeRequest E.server text w1).2)

/-- What holds after the bytes `fed` have arrived. -/
structure Act (E : Endpoint K σ) (w0 : World K σ) (fed : Bytes) (c : Conn K σ) (done : List Bytes) (w : World K σ) : Prop where
  lines : ∀ l ∈ done, IsLine l ∧ l.length ≤ E.limit + 1
  exch : Exchange E done w0 c.out w
  serving : c.phase = .serving → fed = done.flatten ++ c.buf ∧ c.world = w
  rest : ∃ rest, fed = done.flatten ++ rest
  world : c.world = w ∨ c.phase ≠ .serving ∧ ∃ l text rest, fed = done.flatten ++ (l ++ rest) ∧ IsLine l ∧ l.length ≤ E.limit + 1 ∧ ¬ Heartbeat l ∧
    decode l = some text ∧ c.world = (routeRequest E.server text w).2

/-- The state that answering a line leaves. -/
theorem answer_world {E : Endpoint K σ} {l : Bytes} {w w' : World K σ} {o : Option Bytes} (h : answer E l w = (o, w')) :
    w' = w ∨ ¬ Heartbeat l ∧ ∃ text, decode l = some text ∧ w' = (routeRequest E.server text w).2 := by
  unfold answer at h
  by_cases hh : l.head? = some ENQ
  · rw [if_pos hh] at h; cases h; exact .inl rfl
  · rw [if_neg hh] at h
    have hn : ¬ Heartbeat l := fun k => hh ((heartbeat_iff l).2 k)
    cases hd : decode l with
    | none => rw [hd] at h; cases h; exact .inl rfl
    | some text =>
      rw [hd] at h
      refine .inr ⟨hn, text, rfl, ?_⟩
      rcases hr : routeRequest E.server text w with ⟨r, w2⟩
      simp only [hr] at h
      cases r with
      | error e => cases h; rfl
      | ok resp =>
        simp only at h
        cases hd2 : E.dumps resp with
        | none => rw [hd2] at h; cases h; rfl
        | some s => rw [hd2] at h; cases h; rfl

theorem act_step {E : Endpoint K σ} {w0 : World K σ} {fed : Bytes} {c c' : Conn K σ} {done : List Bytes}
    {w : World K σ} (hI : Act E w0 fed c done w) (e : Ev) (h : step E c e = some c') :
    ∃ done' w', Act E w0 (fed ++ received [e]) c' done' w' := by
  have key : ∀ lost, turn E lost c = some c' → ∃ done' w', Act E w0 fed c' done' w' := by
    intro lost h
    have hp := turn_phase h
    obtain ⟨h1, h2⟩ := hI.serving hp
    rcases split_line c.buf with hb | ⟨x, rest, hb, hx⟩
    · rw [turn_none hp hb] at h
      split at h
      · cases h; exact ⟨done, w, hI.lines, hI.exch, by simp, hI.rest, .inl h2⟩
      · split at h
        · cases h; exact ⟨done, w, hI.lines, hI.exch, by simp, hI.rest, .inl h2⟩
        · cases h
    · rw [turn_line hp hb hx] at h
      have hfed : fed = done.flatten ++ ((x ++ [10]) ++ rest) := by rw [h1, hb]; simp
      split at h
      · cases h; exact ⟨done, w, hI.lines, hI.exch, by simp, hI.rest, .inl h2⟩
      · next hlen =>
        have hlen' : (x ++ [(10 : UInt8)]).length ≤ E.limit + 1 := by simp; omega
        have hline : IsLine (x ++ [10]) := ⟨x, rfl, hx⟩
        rcases ha : answer E (x ++ [10]) c.world with ⟨o | o, w1⟩
        · rw [ha] at h
          have hw := answer_world ha
          rw [h2] at hw
          cases h
          refine ⟨done, w, hI.lines, hI.exch, by simp, hI.rest, ?_⟩
          rcases hw with hw | ⟨hn, text, hd, hw⟩
          · exact .inl hw
          · exact .inr ⟨by simp, _, text, rest, hfed, hline, hlen', hn, hd, hw⟩
        · rw [ha] at h
          have hr := answer_some ha
          have hw := answer_world ha
          rw [h2] at hr hw
          cases lost with
          | true =>
            simp only [if_true] at h
            cases h
            refine ⟨done, w, hI.lines, hI.exch, by simp, hI.rest, ?_⟩
            rcases hw with hw | ⟨hn, text, hd, hw⟩
            · exact .inl hw
            · exact .inr ⟨by simp, _, text, rest, hfed, hline, hlen', hn, hd, hw⟩
          | false =>
            simp only [Bool.false_eq_true, if_false] at h
            cases h
            refine ⟨done ++ [x ++ [10]], w1, ?_, hI.exch.snoc hr, ?_, ⟨rest, by simp [h1, hb]⟩, .inl rfl⟩
            · intro l hl
              rcases List.mem_append.1 hl with hl | hl
              · exact hI.lines l hl
              · rw [List.mem_singleton.1 hl]; exact ⟨hline, hlen'⟩
            · intro _; exact ⟨by simp [h1, hb], rfl⟩
  cases e with
  | feed chunk =>
    simp only [step] at h
    split at h
    · cases h
    · cases h
      obtain ⟨rest, hr⟩ := hI.rest
      refine ⟨done, w, hI.lines, hI.exch, ?_, ⟨rest ++ chunk, by simp [received, hr]⟩, ?_⟩
      · intro hp
        obtain ⟨h1, h2⟩ := hI.serving hp
        exact ⟨by simp [received, h1], h2⟩
      · rcases hI.world with hw | ⟨hp, l, text, rest', hf, hw⟩
        · exact .inl hw
        · exact .inr ⟨hp, l, text, rest' ++ chunk, by simp [received, hf], hw⟩
  | eof =>
    simp only [step] at h
    split at h
    · cases h
    · cases h
      exact ⟨done, w, hI.lines, hI.exch, by simpa [received] using hI.serving, by simpa [received] using hI.rest, by simpa [received] using hI.world⟩
  | turn => simpa [received] using key false h
  | turnReset => simpa [received] using key true h

theorem act_steps {E : Endpoint K σ} {w0 : World K σ} (es : List Ev) :
    ∀ {fed : Bytes} {c c' : Conn K σ} {done : List Bytes} {w : World K σ}, Act E w0 fed c done w →
      steps E c es = some c' → ∃ done' w', Act E w0 (fed ++ received es) c' done' w' := by
  induction es with
  | nil => intro fed c c' done w hI h; cases h; exact ⟨done, w, by simpa [received] using hI⟩
  | cons e es ih =>
    intro fed c c' done w hI h
    unfold steps at h
    split at h
    · cases h
    · next c1 hc1 =>
      obtain ⟨d1, w1, hI1⟩ := act_step hI e hc1
      obtain ⟨d2, w2, hI2⟩ := ih hI1 h
      exact ⟨d2, w2, by rw [received_cons, ← List.append_assoc]; exact hI2⟩

/-- **C113.** Whatever bytes a peer sends, in whatever pieces, and whether or not the connection is reset or the task dies: what was done to the application was done for
the first lines of what arrived. All but the last have been answered, and none is longer than the limit. -/
theorem C113_acted {E : Endpoint K σ} (running : Bool) {w : World K σ} {es : List Ev} {c : Conn K σ} (h : steps E (accept running w) es = some c) :
    Trace E (Spec.lines (received es)).1 w c.out (decide (c.phase = .serving)) c.world := by
  have h0 : Act E w [] (accept running w) [] w :=
    ⟨by simp, .nil _, fun _ => ⟨by simp [accept], rfl⟩, ⟨[], rfl⟩, .inl rfl⟩
  obtain ⟨done, w1, hA⟩ := act_steps es h0 h
  simp only [List.nil_append] at hA
  have pre : ∀ (d : List Bytes) (rest : Bytes), (∀ l ∈ d, IsLine l) → received es = d.flatten ++ rest → d <+: (Spec.lines (received es)).1 := by
    intro d rest hd hf
    rw [hf, lines_flatten d hd]
    exact List.prefix_append _ _
  obtain ⟨rest, hrest⟩ := hA.rest
  refine ⟨done, w1, pre done rest (fun l hl => (hA.lines l hl).1) hrest, hA.exch, fun l hl => (hA.lines l hl).2, ?_⟩
  rcases hA.world with hw | ⟨hp, l, text, rest', hf, hl, hlen, hn, hd, hw⟩
  · exact .inl hw
  · refine .inr ⟨by simp [hp], l, text, ?_, hlen, hn, hd, hw⟩
    refine pre (done ++ [l]) rest' ?_ (by rw [hf]; simp)
    intro l' hl'
    rcases List.mem_append.1 hl' with hl' | hl'
    · exact (hA.lines l' hl').1
    · rw [List.mem_singleton.1 hl']; exact hl

/-- **C113, long lines.** When the line number `i` (from 0) of what arrives is longer than the limit, what was done to the application was done for the `i` lines before
it: neither it, nor a part of it, nor anything that follows is acted on or answered. -/
theorem C113_long {E : Endpoint K σ} (running : Bool) {w : World K σ} {es : List Ev} {c : Conn K σ} (h : steps E (accept running w) es = some c)
    {i : Nat} {l : Bytes} (hi : (Spec.lines (received es)).1[i]? = some l) (hl : l.length > E.limit + 1) :
    c.out.length ≤ i ∧ Trace E ((Spec.lines (received es)).1.take i) w c.out (decide (c.phase = .serving)) c.world := by
  obtain ⟨done, w1, hp, hx, hlen, hw⟩ := C113_acted running h
  have short : ∀ d : List Bytes, d <+: (Spec.lines (received es)).1 → (∀ x ∈ d, x.length ≤ E.limit + 1) → d.length ≤ i := by
    intro d hd hs
    refine Nat.le_of_not_lt fun hlt => ?_
    obtain ⟨t, ht⟩ := hd
    rw [← ht, List.getElem?_append_left hlt] at hi
    have := hs l (List.mem_of_getElem? hi)
    omega
  have cut : ∀ d : List Bytes, d <+: (Spec.lines (received es)).1 → (∀ x ∈ d, x.length ≤ E.limit + 1) → d <+: (Spec.lines (received es)).1.take i :=
    fun d hd hs => List.prefix_take_iff.2 ⟨hd, short d hd hs⟩
  refine ⟨?_, done, w1, cut done hp hlen, hx, hlen, ?_⟩
  · rw [hx.length]; exact short done hp hlen
  · rcases hw with hw | ⟨hs, l', text, hp', hl', hw⟩
    · exact .inl hw
    · refine .inr ⟨hs, l', text, cut _ hp' ?_, hl', hw⟩
      intro x hx'
      rcases List.mem_append.1 hx' with hx' | hx'
      · exact hlen x hx'
      · rw [List.mem_singleton.1 hx']; exact hl'

/-- **C113, a request of its own.** A connection on which only one line is sent, longer than the limit: the application is as it was, and nothing is answered. -/
theorem C113_alone {E : Endpoint K σ} (running : Bool) {w : World K σ} {es : List Ev} {c : Conn K σ} (h : steps E (accept running w) es = some c)
    {x rest : Bytes} (hb : received es = x ++ rest) (hx : (10 : UInt8) ∉ x) (hl : x.length > E.limit) : c.world = w ∧ c.out = [] := by
  have hlines : ∀ l, (Spec.lines (received es)).1[0]? = some l → l.length > E.limit + 1 := by
    intro l hl0
    rw [hb] at hl0
    rcases split_line rest with hr | ⟨y, r, rfl, hy⟩
    · rw [lines_of_not_mem _ (by simp [hx, hr])] at hl0; simp at hl0
    · rw [← List.append_assoc, lines_line (x ++ y) r (by simp [hx, hy])] at hl0
      simp only [List.getElem?_cons_zero, Option.some.injEq] at hl0
      rw [← hl0]; simp; omega
  have fin : Trace E [] w c.out (decide (c.phase = .serving)) c.world → c.world = w ∧ c.out = [] := by
    rintro ⟨done, w1, hp, hx, _, hw⟩
    have hd : done = [] := List.prefix_nil.1 hp
    subst hd
    have hx' : c.out = [] ∧ w1 = w := by
      generalize c.out = o at hx
      cases hx
      exact ⟨rfl, rfl⟩
    obtain ⟨ho, rfl⟩ := hx'
    rcases hw with hw | ⟨_, l, _, hp', _⟩
    · exact ⟨hw, ho⟩
    · have := hp'.length_le; simp at this
  cases h0 : (Spec.lines (received es)).1 with
  | nil => exact fin (by have := C113_acted running h; rw [h0] at this; exact this)
  | cons l ls =>
    have hi : (Spec.lines (received es)).1[0]? = some l := by rw [h0]; rfl
    have := (C113_long running h hi (hlines l hi)).2
    rw [List.take_zero] at this
    exact fin this

/-- **C113, no server.** A connection that is accepted when the server is stopped acts on nothing. -/
theorem C113_stopped {E : Endpoint K σ} {w : World K σ} {es : List Ev} {c : Conn K σ} (h : steps E (accept false w) es = some c) :
    c.world = w ∧ c.out = [] := by
  obtain ⟨_, h2, h3⟩ := ended_stays es (by simp [accept]) h
  exact ⟨h3, h2⟩

/-! ### Cases -/

/-- A request, a line of ten bytes whose end looks like a request (limit: 8), and another request; the long line arrives in pieces, the task taking its turns in
between. Only the first request is acted on. -/
def exLong : List Ev := [.feed [97, 10, 98, 98, 98], .turn, .feed [98, 98, 98, 98, 98, 98], .turn, .feed [10, 97, 10], .feed [97, 10]]

example : (lines (received exLong)).1 = [[97, 10], [98, 98, 98, 98, 98, 98, 98, 98, 98, 10], [97, 10], [97, 10]] := by decide

example : ((steps exEnd (accept true exWorld) exLong).map (fun c => (c.out, c.phase, c.world.app))) =
    ((steps exEnd (accept true exWorld) [.feed [97, 10], .turn]).map (fun c => (c.out, .crashed, c.world.app))) := by decide +kernel

example : ((steps exEnd (accept true exWorld) exLong).map (fun c => c.out)) = some [[123, 48, 125, 10]] := by decide +kernel

/-- A line that is longer than the limit comes second. -/
example : (lines (received exLong)).1[1]? = some [98, 98, 98, 98, 98, 98, 98, 98, 98, 10] ∧ [98, 98, 98, 98, 98, 98, 98, 98, 98, 10].length > exEnd.limit + 1 := by
  decide

/-- A connection that is reset when its reply is written: the request has been acted on. -/
example : ((steps exEnd (accept true exWorld) [.feed [97, 10], .turnReset]).map (fun c => (c.out, c.phase))) = some ([], .closed) ∧
    ((steps exEnd (accept true exWorld) [.feed [97, 10], .turnReset]).map (fun c => c.world.app)) =
    ((steps exEnd (accept true exWorld) [.feed [97, 10], .turn]).map (fun c => c.world.app)) := by
  refine ⟨?_, ?_⟩ <;> decide +kernel

end Verif.Stream
