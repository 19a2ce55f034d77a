import Verif.Cli.Spec
import Verif.Buffered.Props
import Verif.Pending.Props
import Verif.Config.Props
import Mathlib.Data.List.Dedup

namespace Verif.Cli

open Verif.Py Verif.Span Verif.Queue Verif.Queue.Spec Verif.Pending Verif.Buffered Verif.Cli.Spec

variable {D M R S : Type}

theorem getClient_addressed {st : String} {d : Str} {c : Client} (h : Addressed st d c) :
    st ∈ ["tcp", "udp", "uds"] ∧ getClient st d = .ok c := by
  have key : ∀ (host : Str) (port : Nat), host ≠ [] → ':' ∉ host → hostPort (host ++ ':' :: Str.ofNat port) = .ok (host, (port : Int)) := by
    intro host port h hc
    have hp : ':' ∉ Str.ofNat port := by
      intro hm
      exact absurd (Str.digit_ofNat port _ hm) (by decide)
    have hne : Str.ofNat port ≠ [] := Nat.toDigits_ne_nil
    have hi : Str.toInt (Str.ofNat port) = .ok port := by simpa using Str.toInt_ofNat port (t := []) (by simp)
    unfold hostPort
    rw [Str.split_append hc, Str.split_free hp]
    simp only [h, hne, if_false, hi]
  cases h with
  | tcp host port h1 h2 => exact ⟨by simp, by unfold getClient; rw [if_pos rfl, key host port h1 h2]⟩
  | udp host port h1 h2 => exact ⟨by simp, by unfold getClient; rw [if_neg (by decide), if_pos rfl, key host port h1 h2]⟩
  | uds path => exact ⟨by simp, by unfold getClient; rw [if_neg (by decide), if_neg (by decide)]⟩

/-- What the tool does once the options are parsed and the address is understood. -/
theorem tool_eq {group : List String} {action : Namespace → Run Request} {t : Typed} {c : Client} (ha : Addressed t.serverType t.details c)
    (ho : ∀ o ∈ t.options, o ∈ group) (h1 : t.options.length ≤ 1) (hr : t.routeKey ≠ []) :
    tool group action t =
      match action ⟨t.serverType, t.details, t.routeKey, t.spanKey, group.map fun o => (o, decide (o ∈ t.options))⟩ with
      | .exit n => .exit n
      | .raised e => .raised e
      | .sent r => .sent (c, r) := by
  obtain ⟨h2, h3⟩ := getClient_addressed ha
  have hp : parse group t = some ⟨t.serverType, t.details, t.routeKey, t.spanKey, group.map fun o => (o, decide (o ∈ t.options))⟩ := by
    unfold parse
    rw [if_neg (not_not_intro h2), if_neg (by simpa using ho), if_neg]
    have := List.Sublist.length_le (List.dedup_sublist t.options)
    omega
  unfold tool
  rw [hp]
  simp only [h3, if_neg hr]
  rfl

/-- The results of the three operator calls on a reachable pair. -/
theorem inv_calls {c : Codecs SpanKey D M R S} (hc : c.Lawful) (truthy : D → Bool) {q : Pair SpanKey S} {lp le} (hi : Inv c q lp le) (k : SpanKey) :
    (opPop truthy c q k).1 = .ok (orNone truthy ((lookup le k).map EEntry.data)) ∧
    opInspect truthy c q k = .ok (orNone truthy ((lookup le k).map EEntry.data)) ∧
    (opReprocess truthy c q k).1 = .ok (orNone truthy ((lookup le k).map EEntry.data)) := by
  obtain ⟨h1, h2⟩ := inv_popKeyErr hc hi k
  have hins := holds_inspect hi.holds.e k
  refine ⟨?_, ?_, ?_⟩
  · simp only [opPop, Pair.popError, h1, Except.map]
  · simp only [opInspect, Pair.inspectError, hins, Except.map]
  · have hm : (q.moveOne c k).1 = .ok ((lookup le k).map EEntry.data) := by
      cases hlk : lookup le k with
      | none =>
        rw [hlk] at h1
        have e : q.error.popKey c.e k = (.ok none, (q.error.popKey c.e k).2) := by rw [← h1]
        unfold Pair.moveOne; rw [e]; rfl
      | some v =>
        rw [hlk] at h1
        have e : q.error.popKey c.e k = (.ok (some v), (q.error.popKey c.e k).2) := by rw [← h1]
        obtain ⟨h3, h4⟩ := inv_pushPending hc h2 k v.data 0 v.md
        have e2 : Pair.pushPending c { q with error := (q.error.popKey c.e k).2 } k v.data 0 v.md =
          (.ok (), (Pair.pushPending c { q with error := (q.error.popKey c.e k).2 } k v.data 0 v.md).2) := by rw [← h3]
        unfold Pair.moveOne; rw [e]; simp only; rw [e2]; rfl
    simp only [opReprocess, hm, Except.map]

theorem told_item {I : Type} {truthy : D → Bool} {shows_ : I → Prop} {le : List (SpanKey × EEntry SpanKey D M R)} (hn : (keys le).Nodup)
    (k : SpanKey) {i : I} (hi : shows_ i) :
    Told truthy shows_ le k false true (itemAnswer i (.ok (orNone truthy ((lookup le k).map EEntry.data)))) := by
  unfold Told
  rw [if_neg (by simp), if_pos rfl]
  constructor
  · intro v hv ht
    rw [(lookup_some_iff hn k v).mpr hv]
    exact ⟨i, hi, by simp [orNone, ht, itemAnswer]⟩
  · intro hk
    rw [(lookup_none_iff le k).mpr hk]
    rfl

theorem told_info {I : Type} {truthy : D → Bool} {shows_ : I → Prop} {le : List (SpanKey × EEntry SpanKey D M R)} (k : SpanKey) {i : I}
    (hi : shows_ i) : Told truthy shows_ le k false false (.info i) := by
  unfold Told
  rw [if_neg (by simp), if_neg (by simp)]
  exact ⟨i, hi, rfl⟩

theorem told_keys {I : Type} {truthy : D → Bool} {shows_ : I → Prop} {c : Codecs SpanKey D M R S} (hc : c.Lawful) {q : Pair SpanKey S}
    {lp le} (hi : Inv c q lp le) (k : SpanKey) :
    Told (I := I) truthy shows_ le k true false (.keys ((q.error.firstKeys 10).map SpanKey.text)) := by
  unfold Told
  rw [if_pos rfl]
  obtain ⟨l, h1, h2⟩ := C10_first_keys_partial hc.2 hi.re
  rw [holds_unique h1 hi.holds.e] at h2
  exact ⟨_, rfl, h2 10⟩

theorem hShows {cfg : Cfg SpanKey D M R S} (hc : cfg.codecs.Lawful) {h} (hr : HReach cfg Any h) : HShows cfg h (hInfo h) := by
  obtain ⟨_, lp, le, h'⟩ := hr.core hc
  exact ⟨rfl, rfl, lp, le, h'.holds, (C03_size hc.1 h'.rp h'.holds.p).1, (C03_size hc.2 h'.re h'.holds.e).1⟩

theorem sShows {cfg : Cfg SpanKey D M R S} (hc : cfg.codecs.Lawful) {s} (hr : SReach cfg Any s) : SShows cfg s (sInfo s) := by
  obtain ⟨_, lp, le, h'⟩ := hr.core hc
  exact ⟨rfl, lp, le, h'.holds, (C03_size hc.1 h'.rp h'.holds.p).1, (C03_size hc.2 h'.re h'.holds.e).1⟩

theorem text_ne_nil (k : SpanKey) : k.text ≠ [] := by unfold SpanKey.text; simp

/-- The request that `bem` sends for a command. -/
def request (queue : Str) (k : SpanKey) : Cmd → Request
  | .data => ⟨"eco.buffered_handler.data", queue, none⟩
  | .pauseReceiving => ⟨"eco.buffered_handler.receiving.pause", queue, none⟩
  | .pauseProcessing => ⟨"eco.buffered_handler.processing.pause", queue, none⟩
  | .pauseAll => ⟨"eco.buffered_handler.all.pause", queue, none⟩
  | .unpauseReceiving => ⟨"eco.buffered_handler.receiving.unpause", queue, none⟩
  | .unpauseProcessing => ⟨"eco.buffered_handler.processing.unpause", queue, none⟩
  | .unpauseAll => ⟨"eco.buffered_handler.all.unpause", queue, none⟩
  | .first10 => ⟨"eco.buffered_handler.errors.get_first_10", queue, none⟩
  | .reprocessAll => ⟨"eco.buffered_handler.errors.reprocess.all", queue, none⟩
  | .clear => ⟨"eco.buffered_handler.errors.clear", queue, none⟩
  | .reprocessOne => ⟨"eco.buffered_handler.errors.reprocess.one", queue, some k⟩
  | .inspect => ⟨"eco.buffered_handler.errors.inspect_request", queue, some k⟩
  | .pop => ⟨"eco.buffered_handler.errors.pop_request", queue, some k⟩

theorem bem_sends {t : Typed} {c : Client} (ha : Addressed t.serverType t.details c) (hr : t.routeKey ≠ []) (cmd : Cmd)
    (ho : t.options = cmd.option) (k : SpanKey) (hk : k.Valid) (hkey : cmd.needsKey = true → t.spanKey = some k.text) :
    bem t = .sent (c, request t.routeKey k cmd) := by
  have hx : endpointAction ⟨t.serverType, t.details, t.routeKey, t.spanKey, endpointGroup.map fun o => (o, decide (o ∈ t.options))⟩ =
      .sent (request t.routeKey k cmd) := by
    obtain ⟨st, d, rk, sk, os⟩ := t
    simp only at ho hkey
    subst ho
    cases hn : cmd.needsKey with
    | false => cases cmd <;> first | (simp [Cmd.needsKey] at hn; done) | rfl
    | true =>
      have := hkey hn
      subst this
      obtain ⟨x, xs, hx⟩ := List.exists_cons_of_ne_nil (text_ne_nil k)
      have ht := C31_text_round_trip k hk
      rw [hx] at ht
      cases cmd <;> first
        | (simp [Cmd.needsKey] at hn; done)
        | (unfold endpointAction; simp only [hx, ht]; rfl)
  unfold bem
  rw [tool_eq ha (by rw [ho]; cases cmd <;> simp [Cmd.option, endpointGroup]) (by rw [ho]; cases cmd <;> simp [Cmd.option]) hr, hx]

theorem keeper_some {H I : Type} {ks : Dict Str H} {q : Str} {h : H} (hg : ks.get? q = some h) (f : H → Answer I D × H) :
    keeper ks q f = ((f h).1, ks.set q (f h).2) := by unfold keeper; rw [hg]

/-- The request that `bsm` would send for a command. -/
def srequest (queue : Str) (k : SpanKey) : SCmd → Request
  | .data => ⟨"eco.buffered_sender.data", queue, none⟩
  | .pause => ⟨"eco.buffered_sender.send_process.pause", queue, none⟩
  | .unpause => ⟨"eco.buffered_sender.send_process.unpause", queue, none⟩
  | .first10 => ⟨"eco.buffered_sender.errors.get_first_10", queue, none⟩
  | .reprocessAll => ⟨"eco.buffered_sender.errors.reprocess.all", queue, none⟩
  | .clear => ⟨"eco.buffered_sender.errors.clear", queue, none⟩
  | .reprocessOne => ⟨"eco.buffered_sender.errors.reprocess.one", queue, some k⟩
  | .inspect => ⟨"eco.buffered_sender.errors.inspect_request", queue, some k⟩
  | .pop => ⟨"eco.buffered_sender.errors.pop_request", queue, some k⟩

theorem senderAction_sends {ns : Namespace} (cmd : SCmd) (k : SpanKey) (hk : k.Valid) (hkey : cmd.needsKey = true → ns.spanKey = some k.text)
    (hf : ∀ n ∈ attributesRead, ns.flags.get? n = some (decide (n ∈ cmd.attribute))) :
    senderAction ns = .sent (srequest ns.routeKey k cmd) := by
  have h : ∀ n ∈ attributesRead, ns.attr n = .ok (decide (n ∈ cmd.attribute)) := fun n hn => by unfold Namespace.attr; rw [hf n hn]
  simp only [attributesRead, List.forall_mem_cons, List.not_mem_nil, false_implies, implies_true, and_true] at h
  obtain ⟨h1, h2, h3, h4, h5, h6, h7, h8, h9, h10, h11, h12, h13⟩ := h
  unfold senderAction
  simp only [anyTrue, branch, h1, h2, h3, h4, h5, h6, h7, h8, h9, h10, h11, h12, h13]
  cases hn : cmd.needsKey with
  | false => cases cmd <;> first | (simp [SCmd.needsKey] at hn; done) | rfl
  | true =>
    have := hkey hn
    obtain ⟨x, xs, hx⟩ := List.exists_cons_of_ne_nil (text_ne_nil k)
    have ht := C31_text_round_trip k hk
    rw [hx] at ht this
    cases cmd <;> first
      | (simp [SCmd.needsKey] at hn; done)
      | (simp only [this, ht]; rfl)

end Verif.Cli
