import Verif.Serve.Model

/-!
# C109: a slow request holds up nobody else

An endpoint may take its time (that is what `async def` is for). Other clients should get their answers meanwhile.
-/

namespace Verif.Serve

/-! ### Connections -/

/-- **C109, connections (partial: datagrams are missing, see `C109_datagram_refuted`).** What can happen on a connection whose endpoint waits for no other request depends on nothing but that connection: however
long the endpoints of the other connections take, a line can be read as soon as its own connection is free, and answered as soon as
its own endpoint ends. -/
theorem C109_connections_partial (conns : List Nat) (needs : Nat → Option Nat) (s : Streams) (c : Nat) :
    (∀ r rest, (s c).current = none → (s c).inbox = r :: rest →
      ∃ s', sstep conns needs s (.take c) = some s' ∧ (s' c).current = some r ∧ (s' c).inbox = rest ∧ ∀ i, i ≠ c → s' i = s i) ∧
    (∀ r, (s c).current = some r → needs r = none →
      ∃ s', sstep conns needs s (.finish c) = some s' ∧ (s' c).current = none ∧ (s' c).sent = (s c).sent ++ [r] ∧ ∀ i, i ≠ c → s' i = s i) := by
  constructor
  · intro r rest h1 h2
    refine ⟨s.put c { (s c) with current := some r, inbox := rest }, ?_, ?_, ?_, ?_⟩
    · simp only [sstep, SEv.lane, lstep, h1, h2]
    · simp [Streams.put]
    · simp [Streams.put]
    · intro i hi; simp [Streams.put, hi]
  · intro r h1 h2
    refine ⟨s.put c { (s c) with current := none, sent := (s c).sent ++ [r] }, ?_, ?_, ?_, ?_⟩
    · simp only [sstep, SEv.lane, lstep, h1, mayEnd, h2, if_true]
    · simp [Streams.put]
    · simp [Streams.put]
    · intro i hi; simp [Streams.put, hi]

/-- The lines that arrived on connection `c`. -/
def linesOn (c : Nat) (es : List SEv) : List Nat :=
  es.filterMap fun e => match e with | .line c' r => if c' = c then some r else none | _ => none

/-- **C109, order.** On each connection the answers come in the order of the lines, each once. -/
theorem C109_order (conns : List Nat) (needs : Nat → Option Nat) (es : List SEv) {s : Streams} (h : ssteps conns needs Streams.new es = some s) (c : Nat) :
    (s c).sent ++ (s c).current.toList ++ (s c).inbox = linesOn c es := by
  have key : ∀ (es : List SEv) {s s' : Streams} (done : List Nat), (s c).sent ++ (s c).current.toList ++ (s c).inbox = done →
      ssteps conns needs s es = some s' → (s' c).sent ++ (s' c).current.toList ++ (s' c).inbox = done ++ linesOn c es := by
    intro es
    induction es with
    | nil => intro s s' done hd hs; cases hs; simpa [linesOn] using hd
    | cons e es ih =>
      intro s s' done hd hs
      simp only [ssteps] at hs
      cases hst : sstep conns needs s e with
      | none => rw [hst] at hs; cases hs
      | some t =>
        rw [hst] at hs
        have one : (t c).sent ++ (t c).current.toList ++ (t c).inbox = done ++ linesOn c [e] := by
          unfold sstep at hst
          cases hl : lstep needs (fun q => conns.any fun c => (s c).sent.contains q) (s e.lane) e with
          | none => rw [hl] at hst; cases hst
          | some l =>
            rw [hl] at hst
            simp only [Option.some.injEq] at hst
            subst hst
            by_cases hc : c = e.lane
            · subst hc
              simp only [Streams.put, if_true]
              cases e with
              | line c' r =>
                simp only [lstep, Option.some.injEq] at hl
                subst hl
                simp only [SEv.lane] at hd ⊢
                simp [linesOn, ← hd]
              | take c' =>
                simp only [lstep, SEv.lane] at hl hd ⊢
                cases hcur : (s c').current with
                | some x => rw [hcur] at hl; cases hl
                | none =>
                  cases hin : (s c').inbox with
                  | nil => rw [hcur, hin] at hl; cases hl
                  | cons r rest =>
                    rw [hcur, hin] at hl
                    simp only [Option.some.injEq] at hl
                    subst hl
                    simp [linesOn, ← hd, hcur, hin]
              | finish c' =>
                simp only [lstep, SEv.lane] at hl hd ⊢
                cases hcur : (s c').current with
                | none => rw [hcur] at hl; cases hl
                | some r =>
                  rw [hcur] at hl
                  simp only at hl
                  split at hl
                  · simp only [Option.some.injEq] at hl
                    subst hl
                    simp [linesOn, ← hd, hcur]
                  · cases hl
            · simp only [Streams.put, hc, if_false]
              have : linesOn c [e] = [] := by
                cases e with
                | line c' r => simp only [SEv.lane] at hc; simp [linesOn, Ne.symm hc]
                | take c' => rfl
                | finish c' => rfl
              rw [this, List.append_nil]
              exact hd
        have := ih _ one hs
        rw [this, List.append_assoc]
        congr 1
        simp only [linesOn, ← List.filterMap_append, List.cons_append, List.nil_append]
  have := key es (s := Streams.new) [] (by rfl) h
  simpa using this

/-- **C109, calls within the application.** An endpoint of connection `c` that waits for the answer to a request `q` of another connection of the same
application gets it: `q` can be answered while the first endpoint waits, and then the first one can end. -/
theorem C109_nested (conns : List Nat) (needs : Nat → Option Nat) (s : Streams) {c c' r q : Nat} (hc : c ≠ c') (hm : c' ∈ conns)
    (hr : (s c).current = some r) (hn : needs r = some q) (hi : (s c').current = none) {rest : List Nat} (hin : (s c').inbox = q :: rest)
    (hq : needs q = none) :
    ∃ s', ssteps conns needs s [.take c', .finish c', .finish c] = some s' ∧ q ∈ (s' c').sent ∧ r ∈ (s' c).sent := by
  obtain ⟨s1, h1, h2, h3, h4⟩ := (C109_connections_partial conns needs s c').1 q rest hi hin
  obtain ⟨s2, g1, g2, g3, g4⟩ := (C109_connections_partial conns needs s1 c').2 q h2 hq
  have hcur : (s2 c).current = some r := by rw [g4 c hc, h4 c hc]; exact hr
  have hready : (conns.any fun x => (s2 x).sent.contains q) = true := by
    rw [List.any_eq_true]; exact ⟨c', hm, by rw [g3]; simp⟩
  have h5 : sstep conns needs s2 (.finish c) = some (s2.put c { (s2 c) with current := none, sent := (s2 c).sent ++ [r] }) := by
    simp only [sstep, SEv.lane, lstep, hcur, mayEnd, hn, hready, if_true]
  refine ⟨s2.put c { (s2 c) with current := none, sent := (s2 c).sent ++ [r] }, ?_, ?_, ?_⟩
  · simp only [ssteps, h1, g1, h5]
  · simp only [Streams.put, if_neg (Ne.symm hc)]; rw [g3]; simp
  · simp [Streams.put]

/-! ### Datagrams -/

/-- The datagrams that arrived. -/
def arrived (es : List UEv) : List Nat := es.filterMap fun e => match e with | .datagram r => some r | _ => none

/-- Answered, being answered, waiting: in the order of arrival. -/
theorem udp_order (needs : Nat → Option Nat) (es : List UEv) {u : Udp} (h : usteps needs Udp.new es = some u) :
    u.sent ++ u.holder.toList ++ u.queue ++ u.created = arrived es := by
  have key : ∀ (es : List UEv) {u u' : Udp} (done : List Nat), u.sent ++ u.holder.toList ++ u.queue ++ u.created = done →
      usteps needs u es = some u' → u'.sent ++ u'.holder.toList ++ u'.queue ++ u'.created = done ++ arrived es := by
    intro es
    induction es with
    | nil => intro u u' done hd hs; cases hs; simpa [arrived] using hd
    | cons e es ih =>
      intro u u' done hd hs
      simp only [usteps] at hs
      cases hst : ustep needs u e with
      | none => rw [hst] at hs; cases hs
      | some t =>
        rw [hst] at hs
        have one : t.sent ++ t.holder.toList ++ t.queue ++ t.created = done ++ arrived [e] := by
          cases e with
          | datagram r => simp only [ustep, Option.some.injEq] at hst; subst hst; simp [arrived, ← hd]
          | start =>
            simp only [ustep] at hst
            cases hcr : u.created with
            | nil => rw [hcr] at hst; cases hst
            | cons r rest =>
              rw [hcr] at hst
              simp only at hst
              split at hst
              · next hc =>
                simp only [Bool.and_eq_true, Option.isNone_iff_eq_none, List.isEmpty_iff] at hc
                simp only [Option.some.injEq] at hst; subst hst; simp [arrived, ← hd, hcr, hc.1, hc.2]
              · simp only [Option.some.injEq] at hst; subst hst; simp [arrived, ← hd, hcr]
          | grant =>
            simp only [ustep] at hst
            cases hh : u.holder with
            | some x => rw [hh] at hst; cases hst
            | none =>
              cases hq : u.queue with
              | nil => rw [hh, hq] at hst; cases hst
              | cons r rest =>
                rw [hh, hq] at hst
                simp only [Option.some.injEq] at hst; subst hst; simp [arrived, ← hd, hh, hq]
          | finish =>
            simp only [ustep] at hst
            cases hh : u.holder with
            | none => rw [hh] at hst; cases hst
            | some r =>
              rw [hh] at hst
              simp only at hst
              split at hst
              · simp only [Option.some.injEq] at hst; subst hst; simp [arrived, ← hd, hh]
              · cases hst
        have := ih _ one hs
        rw [this, List.append_assoc]
        congr 1
        simp only [arrived, ← List.filterMap_append, List.cons_append, List.nil_append]
  have := key es (u := Udp.new) [] (by rfl) h
  simpa using this

/-- **C109 is false of the code for datagrams.** The lock is held while an endpoint runs, so a datagram is answered only after all that arrived before it:
as long as the endpoint of one takes its time, nobody who asks later is answered. -/
theorem C109_datagram_refuted (needs : Nat → Option Nat) (before after : List UEv) (r : Nat) {u : Udp}
    (h : usteps needs Udp.new (before ++ .datagram r :: after) = some u) (hr : r ∉ u.sent) :
    ∀ i, (arrived before).length ≤ i → u.sent[i]? = none := by
  have ho := udp_order needs _ h
  have harr : arrived (before ++ .datagram r :: after) = arrived before ++ r :: arrived after := by
    simp [arrived, List.filterMap_append]
  rw [harr, List.append_assoc, List.append_assoc] at ho
  intro i hi
  rw [List.getElem?_eq_none_iff]
  refine Decidable.byContradiction fun hc => ?_
  have hlt : (arrived before).length < u.sent.length := by omega
  have e1 : (arrived before ++ r :: arrived after)[(arrived before).length]? = some r := by simp
  rw [← ho, List.getElem?_append_left hlt] at e1
  exact hr (List.mem_of_getElem? e1)

/-- Whoever is answered and waited for another request: that one was answered before. -/
theorem udp_needs (needs : Nat → Option Nat) (es : List UEv) {u u' : Udp} (h : usteps needs u es = some u')
    (hu : ∀ r q, r ∈ u.sent → needs r = some q → ∃ pre post, u.sent = pre ++ r :: post ∧ q ∈ pre) :
    ∀ r q, r ∈ u'.sent → needs r = some q → ∃ pre post, u'.sent = pre ++ r :: post ∧ q ∈ pre := by
  induction es generalizing u with
  | nil => cases h; exact hu
  | cons e es ih =>
    simp only [usteps] at h
    cases hst : ustep needs u e with
    | none => rw [hst] at h; cases h
    | some t =>
      rw [hst] at h
      refine ih h ?_
      cases e with
      | datagram r => simp only [ustep, Option.some.injEq] at hst; subst hst; exact hu
      | start =>
        simp only [ustep] at hst
        cases hcr : u.created with
        | nil => rw [hcr] at hst; cases hst
        | cons r rest =>
          rw [hcr] at hst
          simp only at hst
          split at hst <;> (simp only [Option.some.injEq] at hst; subst hst; exact hu)
      | grant =>
        simp only [ustep] at hst
        cases hh : u.holder with
        | some x => rw [hh] at hst; cases hst
        | none =>
          cases hq : u.queue with
          | nil => rw [hh, hq] at hst; cases hst
          | cons r rest => rw [hh, hq] at hst; simp only [Option.some.injEq] at hst; subst hst; exact hu
      | finish =>
        simp only [ustep] at hst
        cases hh : u.holder with
        | none => rw [hh] at hst; cases hst
        | some x =>
          rw [hh] at hst
          simp only at hst
          by_cases hm : mayEnd needs (fun q => u.sent.contains q) x = true
          · simp only [hm, if_true, Option.some.injEq] at hst
            subst hst
            intro r q hr hn
            simp only [List.mem_append, List.mem_singleton] at hr
            rcases hr with hr | hr
            · obtain ⟨pre, post, h1, h2⟩ := hu r q hr hn
              exact ⟨pre, post ++ [x], by simp [h1], h2⟩
            · subst hr
              simp only [mayEnd, hn, List.contains_eq_mem, decide_eq_true_eq] at hm
              exact ⟨u.sent, [], rfl, hm⟩
          · simp only [hm, Bool.false_eq_true, if_false] at hst
            cases hst

/-- A list that has `r` once is split at `r` in one way. -/
theorem split_once {r : Nat} : ∀ {a b c d : List Nat}, r ∉ a → r ∉ b → a ++ r :: b = c ++ r :: d → a = c
  | [], b, [], d, _, _, _ => rfl
  | [], b, x :: c, d, _, hb, h => by
    simp only [List.nil_append, List.cons_append, List.cons.injEq] at h
    exact absurd (by rw [h.2]; simp) hb
  | y :: a, b, [], d, ha, _, h => by
    simp only [List.nil_append, List.cons_append, List.cons.injEq] at h
    exact absurd (by rw [h.1]; simp) ha
  | y :: a, b, x :: c, d, ha, hb, h => by
    simp only [List.cons_append, List.cons.injEq] at h
    rw [h.1, split_once (fun m => ha (List.mem_cons_of_mem _ m)) hb h.2]

/-- **C109 is false of the code for datagrams**, within one application. An endpoint that was asked by datagram (`r`) and asks its own application by
datagram (`q`, which did not arrive before `r`) waits for ever (that is, until its client gives up): it is not answered, and nor is any
datagram that arrived after it, `q` among them. -/
theorem C109_self_refuted (needs : Nat → Option Nat) (before after : List UEv) (r q : Nat) (hn : needs r = some q) {u : Udp}
    (hq : q ∉ arrived before) (hr : r ∉ arrived before) (hra : r ∉ arrived after)
    (h : usteps needs Udp.new (before ++ .datagram r :: after) = some u) :
    r ∉ u.sent ∧ ∀ i, (arrived before).length ≤ i → u.sent[i]? = none := by
  suffices hs : r ∉ u.sent from ⟨hs, C109_datagram_refuted needs before _ r h hs⟩
  intro hs
  obtain ⟨pre, post, h1, h2⟩ := udp_needs needs _ h (by simp [Udp.new]) r q hs hn
  have ho := udp_order needs _ h
  have harr : arrived (before ++ .datagram r :: after) = arrived before ++ r :: arrived after := by
    simp [arrived, List.filterMap_append]
  rw [harr, h1] at ho
  have := split_once hr hra (c := pre) (d := post ++ (u.holder.toList ++ (u.queue ++ u.created))) (by rw [← ho]; simp)
  exact hq (this ▸ h2)

/-- Two connections. The endpoint of request 1 takes its time; request 2, of the other connection, is answered meanwhile. -/
example : ∃ s, ssteps [0, 1] (fun _ => none) Streams.new [.line 0 1, .take 0, .line 1 2, .take 1, .finish 1] = some s ∧
    (s 0).current = some 1 ∧ (s 0).sent = [] ∧ (s 1).sent = [2] := ⟨_, rfl, rfl, rfl, rfl⟩

/-- The endpoint of request 1 waits for the answer to request 2, asked on another connection: both are answered. -/
example : ∃ s, ssteps [0, 1] (fun r => if r = 1 then some 2 else none) Streams.new
      [.line 0 1, .take 0, .line 1 2, .take 1, .finish 1, .finish 0] = some s ∧ (s 0).sent = [1] ∧ (s 1).sent = [2] := ⟨_, rfl, rfl, rfl⟩

/-- By datagram the same application can do nothing more: request 1 holds the lock and waits for 2, which waits for the lock. -/
example : ∃ u, usteps (fun r => if r = 1 then some 2 else none) Udp.new [.datagram 1, .start, .datagram 2, .start] = some u ∧
    u = ⟨[], [2], some 1, []⟩ ∧ ustep (fun r => if r = 1 then some 2 else none) u .finish = none ∧
    ustep (fun r => if r = 1 then some 2 else none) u .grant = none ∧ ustep (fun r => if r = 1 then some 2 else none) u .start = none :=
  ⟨_, rfl, rfl, rfl, rfl, rfl⟩

/-- Datagrams whose endpoints wait for nothing are answered in the order they came. -/
example : ∃ u, usteps (fun _ => none) Udp.new [.datagram 1, .start, .datagram 2, .start, .finish, .grant, .finish] = some u ∧ u.sent = [1, 2] :=
  ⟨_, rfl, rfl⟩

end Verif.Serve
