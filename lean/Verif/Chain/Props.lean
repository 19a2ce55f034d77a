import Verif.Chain.Spec
import Verif.Wire.Bytes
import Verif.Queue.Props

/-!
# C80: the span key of a request goes through the whole chain of communications
-/

namespace Verif.Chain

open Verif.Py Verif.Span Verif.Wire Verif.Queue Verif.Queue.Spec

variable {D : Type}

theorem carry_self {k : SpanKey} (h : Proper k) (n : Nat) : carry n k = some k := by
  induction n with
  | zero => rfl
  | succ n ih => simp only [carry, spanOf_spanJson (k := k) h, ih]

theorem wrapperKey_lookup {a : Args D} {v : Val D} (h : a.kw.lookup "span_key" = some v) : wrapperKey a = v := by
  unfold wrapperKey
  cases a with
  | mk pos kw =>
    simp only at h ⊢
    induction kw with
    | nil => simp at h
    | cons x kw ih =>
      by_cases e : x.1 = "span_key"
      · rw [List.find?_cons_of_pos (by simpa using e)]
        rw [List.lookup_cons, e] at h
        simpa using h
      · rw [List.find?_cons_of_neg (by simpa using e)]
        rw [List.lookup_cons] at h
        have : ("span_key" == x.1) = false := by simpa using Ne.symm e
        rw [this] at h
        exact ih h

theorem sends_key {truthy : D → Bool} {k : SpanKey} (hk : Proper k) {p : Prog D} (hp : PassesOn k p) {r : Req D} (h : Sends truthy p r) :
    r.key = k := by
  induction h with
  | here h1 h2 =>
    have hw := wrapperKey_lookup hp.1
    unfold callSender at h1
    split at h1
    · cases h1
    · rw [hw] at h1
      simp only [useKey, Except.ok.injEq, Prod.mk.injEq] at h1
      rw [← h1.1, carry_self hk] at h2
      exact (Option.some.inj h2).symm
  | next _ ih => exact ih (hp.2 _)
  | soonBody _ ih => exact ih hp.1
  | soonNext _ ih => exact ih hp.2

/-- **C80, partial.** When every endpoint passes its `span_key` on to every sender it calls, as a keyword argument, every request that comes about
because of a request, over any number of applications, through ordinary and buffered senders and endpoints, carries the key of the first,
and therefore shows the same text in the logs. What is missing: that messages with one key do not stand in each other's way
(`C80_merged_refuted`), and other ways of passing the key (`C80_positional_refuted`). -/
theorem C80_chain_partial {truthy : D → Bool} {apps : String → Option (Handler D)} (ha : Documented apps) {r r' : Req D} (hk : Proper r.key)
    (h : Chain truthy apps r r') : r'.key = r.key ∧ r'.key.text = r.key.text := by
  have : r'.key = r.key := by
    induction h with
    | start => rfl
    | more _ hc ih =>
      obtain ⟨h, h1, h2⟩ := hc
      obtain ⟨hw, hp⟩ := ha _ h h1
      simp only [Handler.code, hw, if_true, ih] at h2
      exact sends_key hk (hp _ _) h2
  exact ⟨this, by rw [this]⟩

/-- **C80, partial.** Chains do not mix: when every endpoint passes its key on, what comes about because of one request never carries the key of
another. -/
theorem C80_apart_partial {truthy : D → Bool} {apps : String → Option (Handler D)} (ha : Documented apps) {r s r' s' : Req D} (hr : Proper r.key)
    (hs : Proper s.key) (hne : r.key ≠ s.key) (h : Chain truthy apps r r') (h' : Chain truthy apps s s') :
    r'.key ≠ s'.key ∧ r'.key.text ≠ s'.key.text := by
  have e := (C80_chain_partial ha hr h).1
  have e' := (C80_chain_partial ha hs h').1
  refine ⟨by rw [e, e']; exact hne, fun ht => ?_⟩
  rw [e, e'] at ht
  exact hne (C31_text_injective _ _ hr hs ht)

/-- **C80.** A sender function with `**kwargs`, or with a parameter `span_key` that is not taken by a positional argument, takes the keyword
argument; what is sent is what the function returns, under that key. -/
theorem C80_sent {truthy : D → Bool} {fresh k : SpanKey} {f : Fn D} {a : Args D} (hn : ∀ x ∈ a.kw, x.1 ≠ "span_key") (hf : f.binds a = true)
    (hp : f.starstar = true ∧ "span_key" ∉ f.params ∨ "span_key" ∈ f.params ∧ "span_key" ∉ f.params.take a.pos.length) :
    callSender truthy fresh f { a with kw := a.kw ++ [("span_key", .key k)] } =
      (f.body { a with kw := a.kw ++ [("span_key", .key k)] }).map fun d => (k, d) := by
  have hb : f.binds { a with kw := a.kw ++ [("span_key", .key k)] } = true := by
    unfold Fn.binds at hf ⊢
    simp only [Bool.and_eq_true] at hf ⊢
    obtain ⟨⟨h1, h2⟩, h3⟩ := hf
    refine ⟨⟨h1, ?_⟩, ?_⟩
    · rw [List.all_append, h2]
      rcases hp with ⟨h4, h5⟩ | ⟨h4, h5⟩
      · simp [h4, h5]
      · simp [h4, h5]
    · rw [List.all_eq_true] at h3 ⊢
      intro p hp'
      have := h3 p hp'
      rw [List.any_append]
      revert this
      cases List.contains (List.take a.pos.length f.params) p <;> cases (a.kw.any fun x => decide (x.1 = p)) <;> simp
  have hw : wrapperKey ({ a with kw := a.kw ++ [("span_key", .key k)] } : Args D) = .key k := by
    unfold wrapperKey
    rw [List.find?_append, List.find?_eq_none.mpr (fun x hx => by simpa using hn x hx)]
    rfl
  unfold callSender Fn.call
  simp only [hb, if_true, hw]
  cases f.body { a with kw := a.kw ++ [("span_key", .key k)] } <;> rfl

/-- **C80.** Without a key, or with something in its place that counts as nothing, what the function returns is sent under the new key; with
anything else in its place nothing is sent and `ValueError` is raised. -/
theorem C80_no_key {truthy : D → Bool} {fresh : SpanKey} {f : Fn D} {a : Args D} {d : D} (hb : f.binds a = true) (hd : f.body a = .ok d) :
    (a.kw.lookup "span_key" = none → callSender truthy fresh f a = .ok (fresh, d)) ∧
    (a.kw.lookup "span_key" = some .none → callSender truthy fresh f a = .ok (fresh, d)) ∧
    (∀ x, a.kw.lookup "span_key" = some (.other x) → truthy x = false → callSender truthy fresh f a = .ok (fresh, d)) ∧
    (∀ x, a.kw.lookup "span_key" = some (.other x) → truthy x = true → callSender truthy fresh f a = .error .valueError) := by
  have hcall : f.call a = .ok d := by simp only [Fn.call, hb, if_true, hd]
  refine ⟨fun h => ?_, fun h => ?_, fun x h ht => ?_, fun x h ht => ?_⟩
  · have hw : wrapperKey a = .none := by
      have hf : (a.kw.find? fun x => decide (x.1 = "span_key")) = none := by
        rw [List.find?_eq_none]
        intro x hx he
        have he : x.1 = "span_key" := by simpa using he
        rw [List.lookup_eq_none_iff] at h
        have := h x hx
        rw [he] at this
        simp at this
      simp only [wrapperKey, hf]
    simp only [callSender, hcall, hw, useKey]
  · simp only [callSender, hcall, wrapperKey_lookup h, useKey]
  · simp only [callSender, hcall, wrapperKey_lookup h, useKey, ht, Bool.false_eq_true, if_false]
  · simp only [callSender, hcall, wrapperKey_lookup h, useKey, ht, if_true]

/-- **C80.** A sender function with neither cannot be given the key: the call raises `TypeError` and nothing is sent. -/
theorem C80_not_taken {truthy : D → Bool} {fresh k : SpanKey} {f : Fn D} {a : Args D} (ha : ("span_key", Val.key k) ∈ a.kw)
    (hf : "span_key" ∉ f.params) (hs : f.starstar = false) : callSender truthy fresh f a = .error .typeError := by
  have : f.binds a = false := by
    unfold Fn.binds
    have : (a.kw.all fun x => (f.params.contains x.1 && !(f.params.take a.pos.length).contains x.1) || (!f.params.contains x.1 && f.starstar)) = false := by
      rw [List.all_eq_false]
      exact ⟨_, ha, by simp [hf, hs]⟩
    rw [this]
    simp
  unfold callSender Fn.call
  simp [this]

/-! ### A case: a router that asks one service and leaves a message for another, as in documentation/examples/fun_factory -/

/-- A sender function `(*args, **kwargs)` that sends `d`. -/
def anyFn (d : Nat) : Fn Nat := ⟨[], [], true, true, fun _ => .ok d⟩

/-- Calls a sender with `span_key=key`. -/
def passing (key : Val Nat) : Args Nat := { kw := [("span_key", key)] }

def funApps : String → Option (Handler Nat)
  | "router" => some ⟨true, fun key _ => .soon (.call (anyFn 1) (passing key) "tracker" fun _ => .ret)
      (.call (anyFn 2) (passing key) "fortunes" fun res => match res with
        | .ok _ => .ret
        | .error _ => .call (anyFn 3) (passing key) "tracker" fun _ => .ret)⟩
  | "tracker" => some ⟨true, fun key d => .call (anyFn d) (passing key) "archive" fun _ => .ret⟩
  | "fortunes" => some ⟨true, fun _ _ => .ret⟩
  | "archive" => some ⟨true, fun _ _ => .ret⟩
  | _ => none

theorem funApps_documented : Documented funApps := by
  intro route h hh
  unfold funApps at hh
  split at hh <;> first | (cases hh; done) | skip
  all_goals
    rw [Option.some.injEq] at hh
    subst hh
    refine ⟨rfl, fun k d => ?_⟩
  · refine ⟨⟨rfl, fun _ => trivial⟩, rfl, fun res => ?_⟩
    cases res with
    | ok _ => trivial
    | error _ => exact ⟨rfl, fun _ => trivial⟩
  · exact ⟨rfl, fun _ => trivial⟩
  · trivial
  · trivial

theorem funApps_chain : Chain (fun _ => true) funApps ⟨"router", sampleKey, 0⟩ ⟨"archive", sampleKey, 1⟩ := by
  refine .more (r' := ⟨"tracker", sampleKey, 1⟩) (.more .start ?_) ?_
  · exact ⟨_, rfl, .soonBody (.here (fresh := sampleKey) (k := sampleKey) (n := 3) rfl (carry_self sampleKey_valid 3))⟩
  · exact ⟨_, rfl, .here (fresh := sampleKey) (k := sampleKey) (n := 2) rfl (carry_self sampleKey_valid 2)⟩

/-- The message that reaches the archive over the tracker has the key of the router's request. -/
example : (⟨"archive", sampleKey, 1⟩ : Req Nat).key.text = sampleKey.text :=
  (C80_chain_partial (r := ⟨"router", sampleKey, 0⟩) funApps_documented sampleKey_valid funApps_chain).2
/-- `C80_sent`, `C80_not_taken`: a function `(*args, **kwargs)` and one without parameters. -/
example : callSender (fun _ => true) ⟨0, ⟨0⟩⟩ (anyFn 5) (passing (.key sampleKey)) = .ok (sampleKey, 5) :=
  C80_sent (a := {}) (k := sampleKey) (by simp) rfl (.inl ⟨rfl, by simp [anyFn]⟩)
example : callSender (fun _ => true) ⟨0, ⟨0⟩⟩ ⟨[], [], false, false, fun _ => .ok 5⟩ (passing (.key sampleKey)) = .error .typeError :=
  C80_not_taken (k := sampleKey) (by simp [passing]) (by simp) rfl

/-- `C80_no_key`: an empty value and another one in place of the key. -/
example : callSender (fun d => decide (d ≠ 0)) sampleKey (anyFn 5) (passing (.other 0)) = .ok (sampleKey, 5) ∧
    callSender (fun d => decide (d ≠ 0)) sampleKey (anyFn 5) (passing (.other 3)) = .error .valueError :=
  have h := C80_no_key (truthy := fun d => decide (d ≠ 0)) (fresh := sampleKey) (f := anyFn 5) (d := 5) (a := passing (.other 0)) rfl rfl
  have h' := C80_no_key (truthy := fun d => decide (d ≠ 0)) (fresh := sampleKey) (f := anyFn 5) (d := 5) (a := passing (.other 3)) rfl rfl
  ⟨h.2.2.1 0 rfl rfl, h'.2.2.2 3 rfl rfl⟩

/-! ### Where the chain breaks -/

/-- An endpoint that hands its key to the sender as a positional argument, to a sender function that has a parameter `span_key`. -/
def positionalApps : String → Option (Handler Nat)
  | "a" => some ⟨true, fun key _ => .call ⟨["span_key"], ["span_key"], false, false, fun _ => .ok 0⟩ { pos := [key] } "b" fun _ => .ret⟩
  | _ => none

/-- **C80, refuted for positional arguments.** The wrappers look for `span_key` among the keyword arguments only. A key that is handed over as
the positional argument `span_key` of the sender function is not used; the request goes out under a new key. -/
theorem C80_positional_refuted : ∃ (apps : String → Option (Handler Nat)) (r r' : Req Nat), Proper r.key ∧
    (∀ route h, apps route = some h → h.wants = true ∧ ∀ k d, ∃ f a route next, h.run (.key k) d = .call f a route next ∧
      f.params = ["span_key"] ∧ a.pos = [.key k] ∧ f.binds a = true) ∧
    Chain (fun _ => true) apps r r' ∧ r'.key ≠ r.key := by
  refine ⟨positionalApps, ⟨"a", sampleKey, 0⟩, ⟨"b", ⟨7, ⟨7⟩⟩, 0⟩, sampleKey_valid, ?_, .more .start ⟨_, rfl, .here (fresh := ⟨7, ⟨7⟩⟩) (k := ⟨7, ⟨7⟩⟩) (n := 0) rfl rfl⟩,
    by decide⟩
  intro route h hh
  unfold positionalApps at hh
  split at hh
  · rw [Option.some.injEq] at hh
    subst hh
    exact ⟨rfl, fun k d => ⟨_, _, _, _, rfl, rfl, rfl, rfl⟩⟩
  · cases hh

/-- **C80, refuted for several messages of one chain through one buffered sender.** All of them have the same key, and a queue holds one item per
key (C02): while the first message waits, a second, different one is taken without complaint and is not queued. This holds for every key,
any two payloads and every queue that does not hold the key before. -/
theorem C80_merged_refuted {V S : Type} {c : Codec V S} (hc : c.Lawful) {q : PQ SpanKey S} (h : Reach c q) {l : Fifo SpanKey V} (hl : Holds c q l)
    (k : SpanKey) (hk : k ∉ keys l) (first second : V) (hne : first ≠ second) :
    let q1 := q.push c first k
    let q2 := q1.2.push c second k
    q1.1 = .ok k ∧ q2.1 = .ok k ∧ Holds c q2.2 (l ++ [(k, first)]) ∧ (k, second) ∉ l ++ [(k, first)] := by
  obtain ⟨h1, _, h2⟩ := C02_push hc h hl first k
  have hr : Reach c (q.push c first k).2 := Reach.step h (.push first k)
  obtain ⟨h3, h4, _⟩ := C02_push hc hr (h2 hk) second k
  refine ⟨h1, h3, h4 (by simp [keys]), ?_⟩
  intro hm
  rcases List.mem_append.mp hm with h5 | h5
  · exact hk (List.mem_map_of_mem (f := Prod.fst) h5)
  · simp only [List.mem_singleton, Prod.mk.injEq, true_and] at h5
    exact hne h5.symm

/-- An empty queue, as opened for the first time. -/
example : ∃ l, Holds (⟨id, some⟩ : Codec Nat Nat) (PQ.open 100 [] : PQ SpanKey Nat) l ∧ sampleKey ∉ keys l := by
  have h : Reach (⟨id, some⟩ : Codec Nat Nat) (PQ.open 100 [] : PQ SpanKey Nat) := ⟨[], 100, [], .new, by decide, rfl⟩
  have hc : (⟨id, some⟩ : Codec Nat Nat).Lawful := fun _ => rfl
  obtain ⟨l, hl, _⟩ := C01_content hc h
  have hs := (C03_size hc h hl).1
  have : (PQ.open 100 [] : PQ SpanKey Nat).size = 0 := by decide +kernel
  rw [this] at hs
  have : l = [] := List.length_eq_zero_iff.mp hs.symm
  exact ⟨l, hl, by simp [this, keys]⟩

end Verif.Chain
