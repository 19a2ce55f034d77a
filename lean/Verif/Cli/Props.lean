import Verif.Cli.Lemmas
import Verif.Stats.Props

/-!
# The command line tools (C59, C70)
-/

namespace Verif.Cli

open Verif.Py Verif.Span Verif.Queue Verif.Queue.Spec Verif.Pending Verif.Buffered Verif.Stats Verif.Cli.Spec

variable {D M R S : Type}

/-- **C59.** For every option of the endpoint tool (or none): the tool sends one request to the server addressed, and there exactly the
intended thing happens to the endpoint named, nothing to any other, and the operator is told the truth. -/
theorem C59_endpoint {cfg : Cfg SpanKey D M R S} (hc : cfg.codecs.Lawful) (truthy : D → Bool) (ks : Dict Str (Handler.HSt SpanKey D M R S))
    (t : Typed) (c : Client) (ha : Addressed t.serverType t.details c) (hr : t.routeKey ≠ []) (cmd : Cmd) (ho : t.options = cmd.option)
    (k : SpanKey) (hk : k.Valid) (hkey : cmd.needsKey = true → t.spanKey = some k.text)
    (h : Handler.HSt SpanKey D M R S) (hh : ks.get? t.routeKey = some h) (hreach : HReach cfg Any h) {lp le}
    (hl : PairHolds cfg.codecs h.core.pair lp le) :
    ∃ r h', bem t = .sent (c, r) ∧ hrun cfg h (cmd.events k) = some h' ∧ (serveHandlers cfg truthy ks r).2.get? t.routeKey = some h' ∧
      (∀ q, q ≠ t.routeKey → (serveHandlers cfg truthy ks r).2.get? q = ks.get? q) ∧
      Told truthy (HShows cfg h') le k (decide (cmd = .first10)) cmd.needsKey (serveHandlers cfg truthy ks r).1 := by
  obtain ⟨_, lp', le', hinv⟩ := hreach.core hc
  have e1 := holds_unique hl.e hinv.holds.e
  subst e1
  have hn : (keys le).Nodup := hl.e.1
  obtain ⟨hpop, hins, hre⟩ := inv_calls hc truthy hinv k
  have hset : ∀ (h' : Handler.HSt SpanKey D M R S), (ks.set t.routeKey h').get? t.routeKey = some h' ∧
      ∀ q, q ≠ t.routeKey → (ks.set t.routeKey h').get? q = ks.get? q := by
    intro h'
    refine ⟨by rw [Dict.get?_set, if_pos rfl], fun q hq => by rw [Dict.get?_set, if_neg (Ne.symm hq)]⟩
  have hsh : ∀ {ls h'}, hrun cfg h ls = some h' → HShows cfg h' (hInfo h') := fun hrn => hShows hc (hrun_reach hreach hrn)
  refine ⟨request t.routeKey k cmd, ?_⟩
  have hsend := bem_sends ha hr cmd ho k hk hkey
  have fin : ∀ h' a, hrun cfg h (cmd.events k) = some h' →
      serveHandlers cfg truthy ks (request t.routeKey k cmd) = (a, ks.set t.routeKey h') →
      Told truthy (HShows cfg h') le k (decide (cmd = .first10)) cmd.needsKey a →
      ∃ h', bem t = .sent (c, request t.routeKey k cmd) ∧ hrun cfg h (cmd.events k) = some h' ∧
        (serveHandlers cfg truthy ks (request t.routeKey k cmd)).2.get? t.routeKey = some h' ∧
        (∀ q, q ≠ t.routeKey → (serveHandlers cfg truthy ks (request t.routeKey k cmd)).2.get? q = ks.get? q) ∧
        Told truthy (HShows cfg h') le k (decide (cmd = .first10)) cmd.needsKey (serveHandlers cfg truthy ks (request t.routeKey k cmd)).1 := by
    intro h' a h1 h2 h3
    rw [h2]
    exact ⟨h', hsend, h1, (hset h').1, (hset h').2, h3⟩
  cases cmd with
  | data =>
    refine fin h (.info (hInfo h)) rfl ?_ (told_info k (hsh (ls := []) rfl))
    simp only [serveHandlers, request, if_true, keeper_some hh]
  | pauseReceiving =>
    refine fin _ (.info (hInfo _)) rfl ?_ (told_info k (hsh (ls := [.pauseReceiving]) rfl))
    simp only [serveHandlers, request, if_true, keeper_some hh, String.reduceEq, if_false]
  | pauseProcessing =>
    refine fin _ (.info (hInfo _)) rfl ?_ (told_info k (hsh (ls := [.pauseProcessing]) rfl))
    simp only [serveHandlers, request, if_true, keeper_some hh, String.reduceEq, if_false]
  | pauseAll =>
    refine fin _ (.info (hInfo _)) rfl ?_ (told_info k (hsh (ls := [.pauseReceiving, .pauseProcessing]) rfl))
    simp only [serveHandlers, request, if_true, keeper_some hh, String.reduceEq, if_false]
  | unpauseReceiving =>
    refine fin _ (.info (hInfo _)) rfl ?_ (told_info k (hsh (ls := [.unpauseReceiving]) rfl))
    simp only [serveHandlers, request, if_true, keeper_some hh, String.reduceEq, if_false]
  | unpauseProcessing =>
    refine fin _ (.info (hInfo _)) rfl ?_ (told_info k (hsh (ls := [.unpauseProcessing]) rfl))
    simp only [serveHandlers, request, if_true, keeper_some hh, String.reduceEq, if_false]
  | unpauseAll =>
    refine fin _ (.info (hInfo _)) rfl ?_ (told_info k (hsh (ls := [.unpauseReceiving, .unpauseProcessing]) rfl))
    simp only [serveHandlers, request, if_true, keeper_some hh, String.reduceEq, if_false]
  | first10 =>
    refine fin h _ rfl ?_ (told_keys hc hinv k)
    simp only [serveHandlers, request, if_true, keeper_some hh, String.reduceEq, if_false]
  | reprocessAll =>
    refine fin _ (.info (hInfo _)) rfl ?_ (told_info k (hsh (ls := [.reprocessAll]) rfl))
    obtain ⟨q', hm, -⟩ := inv_moveAllN hc le (h.core.pair.error.size + 1) hinv (by rw [(C03_size hc.2 hinv.re hinv.holds.e).1]; omega)
    simp only [serveHandlers, request, if_true, keeper_some hh, String.reduceEq, if_false, hm]
  | clear =>
    refine fin _ (.info (hInfo _)) rfl ?_ (told_info k (hsh (ls := [.clearErrors]) rfl))
    simp only [serveHandlers, request, if_true, keeper_some hh, String.reduceEq, if_false]
  | reprocessOne =>
    refine fin _ (itemAnswer (hInfo _) _) rfl ?_ (told_item hn k (hsh (ls := [.reprocessOne k]) rfl))
    simp only [serveHandlers, request, if_true, keeper_some hh, String.reduceEq, if_false, item, hre]
  | inspect =>
    refine fin _ (itemAnswer (hInfo _) _) rfl ?_ (told_item hn k (hsh (ls := []) rfl))
    simp only [serveHandlers, request, if_true, keeper_some hh, String.reduceEq, if_false, item, hins]
  | pop =>
    refine fin _ (itemAnswer (hInfo _) _) rfl ?_ (told_item hn k (hsh (ls := [.popError k]) rfl))
    simp only [serveHandlers, request, if_true, keeper_some hh, String.reduceEq, if_false, item, hpop]

/-! An endpoint with one pending and two failed requests. -/

def exC : Cfg SpanKey (List Nat) Nat Nat (PEntry SpanKey (List Nat) Nat ⊕ EEntry SpanKey (List Nat) Nat Nat) where
  codecs := ⟨⟨Sum.inl, fun s => s.getLeft?⟩, ⟨Sum.inr, fun s => s.getRight?⟩⟩
  maxRetries := 3
  build := some
  keep := id
  noMeta := 0
  reason := 77

theorem exC_lawful : exC.codecs.Lawful := ⟨fun _ => rfl, fun _ => rfl⟩

def key1 : SpanKey := ⟨5, ⟨6⟩⟩
def key2 : SpanKey := ⟨5, ⟨7⟩⟩

def exPair : Pair SpanKey (PEntry SpanKey (List Nat) Nat ⊕ EEntry SpanKey (List Nat) Nat Nat) :=
  let q := (Pair.open 2 [] []).pushPending exC.codecs key1 [11] 0 101 |>.2
  let q := q.pushError exC.codecs sampleKey [13] 7 103 |>.2
  q.pushError exC.codecs key2 [14] 7 104 |>.2

theorem exPair_reach : PReach exC.codecs exPair := .pushError _ _ _ _ (.pushError _ _ _ _ (.pushPending _ _ _ _ (.new (by decide))))

def exKept : Dict Str (Handler.HSt SpanKey (List Nat) Nat Nat (PEntry SpanKey (List Nat) Nat ⊕ EEntry SpanKey (List Nat) Nat Nat)) :=
  [("a.b".toList, Handler.setup exC exPair), ("a.c".toList, Handler.setup exC (Pair.open 2 [] []))]

def exTyped : Typed :=
  { serverType := "tcp", details := "localhost:8888".toList, routeKey := "a.b".toList,
    spanKey := some "01234567-89ab-cdef-0000-0000deadbeef:fedcba9876543210".toList, options := ["pop_request"] }

theorem exTyped_addressed : Addressed exTyped.serverType exTyped.details (.tcp "localhost".toList 8888) := by
  have h : exTyped.details = "localhost".toList ++ ':' :: Str.ofNat 8888 := by decide +kernel
  rw [h]
  exact .tcp _ 8888 (by decide) (by decide)

/-- Non-vacuity of `C59_endpoint`. -/
example : Addressed exTyped.serverType exTyped.details (.tcp "localhost".toList 8888) ∧ exTyped.options = Cmd.pop.option ∧
    exTyped.spanKey = some sampleKey.text ∧ sampleKey.Valid ∧ HReach exC Any (Handler.setup exC exPair) ∧
    exKept.get? exTyped.routeKey = some (Handler.setup exC exPair) ∧
    (∃ lp le, PairHolds exC.codecs (Handler.setup exC exPair).core.pair lp le) ∧
    (serveHandlers exC (· ≠ []) exKept ⟨"eco.buffered_handler.errors.pop_request", "a.b".toList, some sampleKey⟩).1 =
      .request ⟨false, false, 1, 1⟩ [13] := by
  refine ⟨exTyped_addressed, rfl, by decide +kernel, sampleKey_valid, .setup exPair_reach, rfl, ?_, by decide +kernel⟩
  obtain ⟨_, lp, le, h⟩ := (HReach.setup exPair_reach : HReach exC Any _).core exC_lawful
  exact ⟨lp, le, h.holds⟩

/-- **C59, unknown queue.** For a route key under which nothing is kept, nothing changes, and every command is answered so. -/
theorem C59_unknown_queue (cfg : Cfg SpanKey D M R S) (truthy : D → Bool) (ks : Dict Str (Handler.HSt SpanKey D M R S))
    (t : Typed) (c : Client) (ha : Addressed t.serverType t.details c) (hr : t.routeKey ≠ []) (cmd : Cmd) (ho : t.options = cmd.option)
    (k : SpanKey) (hk : k.Valid) (hkey : cmd.needsKey = true → t.spanKey = some k.text) (hh : ks.get? t.routeKey = none) :
    ∃ r, bem t = .sent (c, r) ∧ serveHandlers cfg truthy ks r = (.noQueue, ks) := by
  refine ⟨_, bem_sends ha hr cmd ho k hk hkey, ?_⟩
  have hkp : ∀ f : _ → Answer HInfo D × _, keeper ks t.routeKey f = (.noQueue, ks) := fun f => by unfold keeper; rw [hh]
  cases cmd <;> simp only [serveHandlers, request, String.reduceEq, if_true, if_false, hkp, item]

example : Dict.get? exKept "nowhere".toList = none := rfl

/-- **C59, the key is required.** Without `-sk`, or with an empty or unreadable one, the options that need it send nothing. -/
theorem C59_needs_key (t : Typed) (cmd : Cmd) (ho : t.options = cmd.option) (hn : cmd.needsKey = true)
    (hk : ∀ x, t.spanKey = some x → x = [] ∨ ∃ e, SpanKey.ofHex x = .error e) : ∀ m, bem t ≠ .sent m := by
  intro m h
  unfold bem tool at h
  split at h
  · cases h
  next ns hp =>
    split at h
    · cases h
    split at h
    · cases h
    unfold parse at hp
    repeat' split at hp
    all_goals first | (cases hp; done) | skip
    cases hp
    obtain ⟨st, d, rk, sk, os⟩ := t
    simp only at ho hk h
    subst ho
    have : ∀ ns : Namespace, ns.flags = endpointGroup.map (fun o => (o, decide (o ∈ cmd.option))) →
        (∀ x, ns.spanKey = some x → x = [] ∨ ∃ e, SpanKey.ofHex x = .error e) → ∀ r, endpointAction ns ≠ .sent r := by
      rintro ⟨a, b, c, sk, fl⟩ hf hk r hr
      simp only at hf hk
      subst hf
      cases cmd <;> first
        | (simp [Cmd.needsKey] at hn; done)
        | (rcases sk with _ | _ | ⟨x, xs⟩
           · cases hr
           · cases hr
           · rcases hk _ rfl with h0 | ⟨e, he⟩
             · cases h0
             · unfold endpointAction at hr
               simp only [he] at hr
               cases hr)
    split at h
    · cases h
    · cases h
    next r hr => exact this _ rfl hk r hr

/-- … with the text that none was given. -/
theorem C59_needs_key_exit (t : Typed) (c : Client) (ha : Addressed t.serverType t.details c) (hr : t.routeKey ≠ []) (cmd : Cmd)
    (ho : t.options = cmd.option) (hn : cmd.needsKey = true) (hk : t.spanKey = none ∨ t.spanKey = some []) : bem t = .exit 1 := by
  unfold bem
  rw [tool_eq ha (by rw [ho]; cases cmd <;> simp [Cmd.option, endpointGroup]) (by rw [ho]; cases cmd <;> simp [Cmd.option]) hr]
  have hx : endpointAction ⟨t.serverType, t.details, t.routeKey, t.spanKey, endpointGroup.map fun o => (o, decide (o ∈ t.options))⟩ =
      .exit 1 := by
    obtain ⟨st, d, rk, sk, os⟩ := t
    simp only at ho hk
    subst ho
    cases cmd <;> first
      | (simp [Cmd.needsKey] at hn; done)
      | (rcases hk with rfl | rfl <;> rfl)
  rw [hx]

example : bem { exTyped with spanKey := none } = .exit 1 ∧ bem { exTyped with spanKey := some "0123".toList } = .raised .valueError := by
  decide +kernel

/-- **C59, one thing at a time.** Two different options are refused by both tools. -/
theorem C59_exclusive (t : Typed) (a b : String) (ha : a ∈ t.options) (hb : b ∈ t.options) (hab : a ≠ b) : bem t = .exit 2 ∧ bsm t = .exit 2 := by
  have hp : ∀ g, parse g t = none := by
    intro g
    unfold parse
    repeat' split
    all_goals first | rfl | skip
    next h =>
      exfalso
      apply h
      have h1 := List.mem_dedup.2 ha
      have h2 := List.mem_dedup.2 hb
      rcases hd : t.options.dedup with _ | ⟨x, _ | ⟨y, l⟩⟩
      · rw [hd] at h1; cases h1
      · rw [hd] at h1 h2
        exact absurd ((List.mem_singleton.1 h1).trans (List.mem_singleton.1 h2).symm) hab
      · simp
  exact ⟨by unfold bem tool; rw [hp], by unfold bsm tool; rw [hp]⟩

example : bem { exTyped with options := ["pop_request", "clear"] } = .exit 2 := by decide +kernel

/-- **C59, listed keys work.** Every text that `-e10` lists can be given to `-ins`, which then shows the failed request of that key. -/
theorem C59_listed {cfg : Cfg SpanKey D M R S} (hc : cfg.codecs.Lawful) (truthy : D → Bool) (ks : Dict Str (Handler.HSt SpanKey D M R S))
    (t : Typed) (c : Client) (ha : Addressed t.serverType t.details c) (hr : t.routeKey ≠ []) (ho : t.options = ["error_10"])
    (h : Handler.HSt SpanKey D M R S) (hh : ks.get? t.routeKey = some h) (hreach : HReach cfg Any h) {lp le}
    (hl : PairHolds cfg.codecs h.core.pair lp le) (hv : ∀ k ∈ keys le, k.Valid) (ht : ∀ x ∈ le, truthy x.2.data = true) :
    ∃ r texts, bem t = .sent (c, r) ∧ (serveHandlers cfg truthy ks r).1 = .keys texts ∧
      ∀ x ∈ texts, ∃ r' i k v, bem { t with options := ["inspect_request"], spanKey := some x } = .sent (c, r') ∧
        (k, v) ∈ le ∧ k.text = x ∧ (serveHandlers cfg truthy ks r').1 = .request i v.data := by
  obtain ⟨r, h', h1, -, -, -, h5⟩ := C59_endpoint hc truthy ks t c ha hr .first10 ho sampleKey sampleKey_valid (by simp [Cmd.needsKey]) h hh hreach hl
  simp only [Told, decide_true, if_true] at h5
  obtain ⟨l, h6, h7⟩ := h5
  refine ⟨r, _, h1, h6, ?_⟩
  intro x hx
  obtain ⟨k, hk, rfl⟩ := List.mem_map.1 hx
  have hkl : k ∈ keys le := List.mem_of_mem_take (h7.subset hk)
  obtain ⟨⟨k', v⟩, hm, e⟩ := List.mem_map.1 hkl
  simp only at e
  subst e
  obtain ⟨r', h'', g1, -, -, -, g5⟩ := C59_endpoint hc truthy ks { t with options := ["inspect_request"], spanKey := some k'.text } c ha hr
    .inspect rfl k' (hv _ hkl) (fun _ => rfl) h hh hreach hl
  simp only [Told, Cmd.needsKey, if_true] at g5
  obtain ⟨i, -, g6⟩ := g5.1 v hm (ht _ hm)
  exact ⟨r', i, k', v, g1, hm, rfl, g6⟩

example : (serveHandlers exC (· ≠ []) exKept ⟨"eco.buffered_handler.errors.get_first_10", "a.b".toList, none⟩).1 =
    .keys ["01234567-89ab-cdef-0000-0000deadbeef:fedcba9876543210".toList, "00000000-0000-0000-0000-000000000005:0000000000000007".toList] := by
  decide +kernel

/-- **C59, the list after a restart.** Right after the endpoint was opened over any databases left behind, the first ten failed requests are
listed, all of them if there are at most ten (pages of at least ten assumed; later see C10). -/
theorem C59_listed_restart_partial {cfg : Cfg SpanKey D M R S} (hc : cfg.codecs.Lawful) (truthy : D → Bool)
    (ks : Dict Str (Handler.HSt SpanKey D M R S)) (t : Typed) (c : Client) (ha : Addressed t.serverType t.details c) (hr : t.routeKey ≠ [])
    (ho : t.options = ["error_10"]) {tp te : Table SpanKey S} (hq : OnDisk cfg.codecs.e te) {p : Nat} (hp : 10 ≤ p)
    (hh : ks.get? t.routeKey = some (Handler.setup cfg (Pair.open p tp te))) {lp le} (hl : PairHolds cfg.codecs (Pair.open p tp te) lp le) :
    ∃ r, bem t = .sent (c, r) ∧ (serveHandlers cfg truthy ks r).1 = .keys (((keys le).take 10).map SpanKey.text) := by
  refine ⟨_, bem_sends ha hr .first10 ho sampleKey sampleKey_valid (by simp [Cmd.needsKey]), ?_⟩
  have := C10_after_open_partial hc.2 hq (p := p) (by omega) hl.e 10 (by omega)
  have e : (Handler.setup cfg (Pair.open p tp te)).core.pair = Pair.open p tp te := by
    have hck : ∀ s : St SpanKey D M R S, s.check.pair = s.pair := fun s => by unfold St.check; split <;> rfl
    simp only [Handler.setup, St.unpause, hck]
    rfl
  simp only [serveHandlers, request, if_true, keeper_some hh, String.reduceEq, if_false, e]
  rw [show (Pair.open p tp te).error = PQ.open p te from rfl, this]
  rfl

/-- Non-vacuity of `C59_listed_restart_partial`. -/
example : OnDisk exC.codecs.e exPair.shutDown.2.error.db ∧ (Pair.open 10 [] exPair.shutDown.2.error.db).error.firstKeys 10 = [sampleKey, key2] := by
  refine ⟨?_, by decide +kernel⟩
  obtain ⟨_, _, h⟩ := preach_inv exC_lawful exPair_reach
  obtain ⟨t, p', ops, ht, hp', e⟩ := h.re
  have : exPair.shutDown.2.error.db = exPair.error.shutDown.2.db := by decide +kernel
  rw [this, e]
  exact .stopping (ops := ops) ht hp' (by simp [PQ.shutDownStates])

/-- **C59 is false of the sender tool**: whatever is typed, it sends nothing. If the command line is accepted and the address is understood it
fails with an `AttributeError`, because it reads options that only the endpoint tool has. -/
theorem C59_bsm_refuted (t : Typed) :
    (∀ m, bsm t ≠ .sent m) ∧
    ∀ c, Addressed t.serverType t.details c → t.routeKey ≠ [] → ∀ cmd : SCmd, t.options = cmd.option → bsm t = .raised .attributeError := by
  have key : ∀ ns : Namespace, (∃ f : String → Bool, ns.flags = senderGroup.map fun o => (o, f o)) → senderAction ns = .raised .attributeError := by
    rintro ⟨a, b, c, sk, fl⟩ ⟨f, hf⟩
    simp only at hf
    subst hf
    have : Dict.get? (senderGroup.map fun o => (o, f o)) "pause_receiving" = none := by
      simp [Dict.get?, senderGroup]
    unfold senderAction Namespace.attr
    rw [this]
  constructor
  · intro m h
    unfold bsm tool at h
    split at h
    · cases h
    next ns hp =>
      split at h
      · cases h
      split at h
      · cases h
      have hx : senderAction ns = .raised .attributeError := by
        apply key
        unfold parse at hp
        repeat' split at hp
        all_goals first | (cases hp; done) | skip
        cases hp
        exact ⟨fun o => decide (o ∈ t.options), rfl⟩
      rw [hx] at h
      cases h
  · intro c ha hr cmd ho
    unfold bsm
    rw [tool_eq ha (by rw [ho]; cases cmd <;> simp [SCmd.option, senderGroup]) (by rw [ho]; cases cmd <;> simp [SCmd.option]) hr,
      key _ ⟨fun o => decide (o ∈ t.options), rfl⟩]

/-- **C59, part that holds for senders**: if the command line had the attributes that the tool reads, then each command would be carried out on
the sender named and no other, and answered truthfully; the server's side is right. Missing: the tool never gets there (`C59_bsm_refuted`). -/
theorem C59_sender_partial {cfg : Cfg SpanKey D M R S} (hc : cfg.codecs.Lawful) (truthy : D → Bool) (ks : Dict Str (St SpanKey D M R S))
    (ns : Namespace) (cmd : SCmd) (hf : ∀ n ∈ attributesRead, ns.flags.get? n = some (decide (n ∈ cmd.attribute)))
    (k : SpanKey) (hk : k.Valid) (hkey : cmd.needsKey = true → ns.spanKey = some k.text)
    (s : St SpanKey D M R S) (hh : ks.get? ns.routeKey = some s) (hreach : SReach cfg Any s) {lp le}
    (hl : PairHolds cfg.codecs s.pair lp le) :
    ∃ r s', senderAction ns = .sent r ∧ srun cfg s (cmd.events k) = some s' ∧ (serveSenders cfg truthy ks r).2.get? ns.routeKey = some s' ∧
      (∀ q, q ≠ ns.routeKey → (serveSenders cfg truthy ks r).2.get? q = ks.get? q) ∧
      Told truthy (SShows cfg s') le k (decide (cmd = .first10)) cmd.needsKey (serveSenders cfg truthy ks r).1 := by
  obtain ⟨_, lp', le', hinv⟩ := hreach.core hc
  have e1 := holds_unique hl.e hinv.holds.e
  subst e1
  have hn : (keys le).Nodup := hl.e.1
  obtain ⟨hpop, hins, hre⟩ := inv_calls hc truthy hinv k
  have hset : ∀ (s' : St SpanKey D M R S), (ks.set ns.routeKey s').get? ns.routeKey = some s' ∧
      ∀ q, q ≠ ns.routeKey → (ks.set ns.routeKey s').get? q = ks.get? q := by
    intro s'
    refine ⟨by rw [Dict.get?_set, if_pos rfl], fun q hq => by rw [Dict.get?_set, if_neg (Ne.symm hq)]⟩
  have hsh : ∀ {ls s'}, srun cfg s ls = some s' → SShows cfg s' (sInfo s') := fun hrn => sShows hc (srun_reach hreach hrn)
  have hsend := senderAction_sends cmd k hk hkey hf
  refine ⟨srequest ns.routeKey k cmd, ?_⟩
  have fin : ∀ s' a, srun cfg s (cmd.events k) = some s' →
      serveSenders cfg truthy ks (srequest ns.routeKey k cmd) = (a, ks.set ns.routeKey s') →
      Told truthy (SShows cfg s') le k (decide (cmd = .first10)) cmd.needsKey a →
      ∃ s', senderAction ns = .sent (srequest ns.routeKey k cmd) ∧ srun cfg s (cmd.events k) = some s' ∧
        (serveSenders cfg truthy ks (srequest ns.routeKey k cmd)).2.get? ns.routeKey = some s' ∧
        (∀ q, q ≠ ns.routeKey → (serveSenders cfg truthy ks (srequest ns.routeKey k cmd)).2.get? q = ks.get? q) ∧
        Told truthy (SShows cfg s') le k (decide (cmd = .first10)) cmd.needsKey (serveSenders cfg truthy ks (srequest ns.routeKey k cmd)).1 := by
    intro s' a h1 h2 h3
    rw [h2]
    exact ⟨s', hsend, h1, (hset s').1, (hset s').2, h3⟩
  cases cmd with
  | data =>
    refine fin s (.info (sInfo s)) rfl ?_ (told_info k (hsh (ls := []) rfl))
    simp only [serveSenders, srequest, if_true, keeper_some hh]
  | pause =>
    refine fin _ (.info (sInfo _)) rfl ?_ (told_info k (hsh (ls := [.pause]) rfl))
    simp only [serveSenders, srequest, if_true, keeper_some hh, String.reduceEq, if_false]
  | unpause =>
    refine fin _ (.info (sInfo _)) rfl ?_ (told_info k (hsh (ls := [.unpause]) rfl))
    simp only [serveSenders, srequest, if_true, keeper_some hh, String.reduceEq, if_false]
  | first10 =>
    refine fin s _ rfl ?_ (told_keys hc hinv k)
    simp only [serveSenders, srequest, if_true, keeper_some hh, String.reduceEq, if_false]
  | reprocessAll =>
    refine fin _ (.info (sInfo _)) rfl ?_ (told_info k (hsh (ls := [.reprocessAll]) rfl))
    obtain ⟨q', hm, -⟩ := inv_moveAllN hc le (s.pair.error.size + 1) hinv (by rw [(C03_size hc.2 hinv.re hinv.holds.e).1]; omega)
    simp only [serveSenders, srequest, if_true, keeper_some hh, String.reduceEq, if_false, hm]
  | clear =>
    refine fin _ (.info (sInfo _)) rfl ?_ (told_info k (hsh (ls := [.clearErrors]) rfl))
    simp only [serveSenders, srequest, if_true, keeper_some hh, String.reduceEq, if_false]
  | reprocessOne =>
    refine fin _ (itemAnswer (sInfo _) _) rfl ?_ (told_item hn k (hsh (ls := [.reprocessOne k]) rfl))
    simp only [serveSenders, srequest, if_true, keeper_some hh, String.reduceEq, if_false, item, hre]
  | inspect =>
    refine fin _ (itemAnswer (sInfo _) _) rfl ?_ (told_item hn k (hsh (ls := []) rfl))
    simp only [serveSenders, srequest, if_true, keeper_some hh, String.reduceEq, if_false, item, hins]
  | pop =>
    refine fin _ (itemAnswer (sInfo _) _) rfl ?_ (told_item hn k (hsh (ls := [.popError k]) rfl))
    simp only [serveSenders, srequest, if_true, keeper_some hh, String.reduceEq, if_false, item, hpop]

/-- A command line as the tool expects it, and a reachable sender. -/
example : (∀ n ∈ attributesRead, Dict.get? (attributesRead.map fun n => (n, decide (n ∈ SCmd.pause.attribute))) n =
      some (decide (n ∈ SCmd.pause.attribute))) ∧ SReach exC Any (Sender.setup exC exPair) ∧
    (serveSenders exC (· ≠ []) [("a.b".toList, Sender.setup exC exPair)] ⟨"eco.buffered_sender.send_process.pause", "a.b".toList, none⟩).1 =
      .info ⟨true, 1, 2⟩ :=
  ⟨by decide +kernel, .setup exPair_reach, by decide +kernel⟩

/-- **C59, addresses.** An IPv6 address ends with a `ValueError`, and where the tool means to print its help (no host, no port) with a
`TypeError`. -/
theorem C59_address_refuted :
    bem { exTyped with details := "[::1]:8888".toList } = .raised .valueError ∧
    bem { exTyped with details := ":8888".toList } = .raised .typeError ∧
    bem { exTyped with details := "localhost:".toList } = .raised .typeError ∧
    bem { exTyped with details := "localhost".toList } = .raised .valueError := by decide +kernel

/-- **C59, usage.** A kind of server that does not exist ends both tools with exit code 2, and nothing is sent. -/
theorem C59_unknown_server (t : Typed) (h1 : t.serverType ≠ "tcp") (h2 : t.serverType ≠ "udp") (h3 : t.serverType ≠ "uds") :
    bem t = .exit 2 ∧ bsm t = .exit 2 := by
  have hp : ∀ g, parse g t = none := fun g => by unfold parse; rw [if_pos (by simp [h1, h2, h3])]
  constructor
  · unfold bem tool; rw [hp]
  · unfold bsm tool; rw [hp]

example : bem { exTyped with serverType := "http" } = .exit 2 := (C59_unknown_server _ (by decide) (by decide) (by decide)).1

/-- **C59, the queue is required.** With an empty route key both tools end with exit code 1 and send nothing. -/
theorem C59_needs_queue (t : Typed) (c : Client) (ha : Addressed t.serverType t.details c) (hr : t.routeKey = []) :
    (∀ cmd : Cmd, t.options = cmd.option → bem t = .exit 1) ∧ ∀ cmd : SCmd, t.options = cmd.option → bsm t = .exit 1 := by
  obtain ⟨h1, h2⟩ := getClient_addressed ha
  constructor
  · intro cmd ho
    unfold bem tool parse
    rw [if_neg (not_not.2 h1), if_neg (by rw [ho]; cases cmd <;> simp [Cmd.option, endpointGroup]),
      if_neg (by rw [ho]; cases cmd <;> simp [Cmd.option])]
    simp only [h2, hr, if_true]
  · intro cmd ho
    unfold bsm tool parse
    rw [if_neg (not_not.2 h1), if_neg (by rw [ho]; cases cmd <;> simp [SCmd.option, senderGroup]),
      if_neg (by rw [ho]; cases cmd <;> simp [SCmd.option])]
    simp only [h2, hr, if_true]

example : bem { exTyped with routeKey := [] } = .exit 1 := by decide +kernel

/-! ### C70 -/

open Verif.Stats.Spec

/-- **C70.** The statistics tool shows the current period, the newest gathered one or the gathered history, whichever is asked for, and the
current one by default; asking changes nothing gathered. Missing: a history of length 0 (`C70_gathered_refuted`) or changed later (C49). -/
theorem C70_stat_partial (n i : String) (st gp : ℚ) (hl : Int) (es : List Ev) (he : ∀ m, .setLength m ∉ es) (hpos : 0 < hl)
    (t : StatTyped) (c : Client) (ha : Addressed t.serverType t.details c) (now : ℚ) (sizes : String → ℚ) :
    let s := run (.new n i st gp hl) es
    let past := gathered (trace (.new n i st gp hl) es)
    (t.type = none ∨ t.type = some "current" → stat t = .sent (c, "current")) ∧
    (t.type = some "gathered" → stat t = .sent (c, "gathered")) ∧
    (t.type = some "full" → stat t = .sent (c, "full")) ∧
    (∀ x, t.type = some x → x ∉ ["current", "gathered", "full"] → stat t = .exit 2) ∧
    (∀ d s', step s (.read now sizes) = (.ok (some d), s') → serveStatistics s now sizes "current" = (.one d, s')) ∧
    (∀ e s', step s (.read now sizes) = (.error e, s') → serveStatistics s now sizes "current" = (.raised e, s')) ∧
    (∀ d, past.getLast? = some d → serveStatistics s now sizes "gathered" = (.one d, s)) ∧
    (past = [] → serveStatistics s now sizes "gathered" = (.one [], s)) ∧
    serveStatistics s now sizes "full" = (.all (past.reverse.take hl.toNat), s) := by
  intro s past
  obtain ⟨h1, h2⟩ := getClient_addressed ha
  have hh : s.history = past.reverse.take hl.toNat := C49_history_partial n i st gp hl es he
  have hg : serveStatistics s now sizes "gathered" = (.one (s.history.headD []), s) := by
    unfold serveStatistics; rw [if_neg (by decide), if_neg (by decide)]
  have h0 : 0 < hl.toNat := by omega
  refine ⟨?_, ?_, ?_, ?_, ?_, ?_, ?_, ?_, ?_⟩
  · rintro (ht | ht) <;> (unfold stat; simp only [ht, Option.getD]; rw [if_neg (not_not_intro h1), if_neg (by decide), h2])
  · intro ht; unfold stat; simp only [ht, Option.getD]; rw [if_neg (not_not_intro h1), if_neg (by decide), h2]
  · intro ht; unfold stat; simp only [ht, Option.getD]; rw [if_neg (not_not_intro h1), if_neg (by decide), h2]
  · intro x ht hx; unfold stat; simp only [ht, Option.getD]; rw [if_neg (not_not_intro h1), if_pos hx]
  · intro d s' hs
    unfold serveStatistics
    rw [if_pos rfl]
    simp only [Stats.step] at hs
    rcases hu : update s now sizes with ⟨_ | u, s''⟩
    · rw [hu] at hs; simp at hs
    · rw [hu] at hs; simp only [Prod.mk.injEq, Except.ok.injEq, Option.some.injEq] at hs; obtain ⟨rfl, rfl⟩ := hs; rfl
  · intro e s' hs
    unfold serveStatistics
    rw [if_pos rfl]
    simp only [Stats.step] at hs
    rcases hu : update s now sizes with ⟨_ | u, s''⟩
    · rw [hu] at hs; simp only [Prod.mk.injEq, Except.error.injEq] at hs; obtain ⟨rfl, rfl⟩ := hs; rfl
    · rw [hu] at hs; simp at hs
  · intro d hd
    rw [hg, hh]
    rw [List.getLast?_eq_head?_reverse] at hd
    cases hr : past.reverse with
    | nil => rw [hr] at hd; simp at hd
    | cons a l =>
      rw [hr] at hd
      simp only [List.head?_cons, Option.some.injEq] at hd
      subst hd
      obtain ⟨m, hm⟩ := Nat.exists_eq_succ_of_ne_zero (Nat.pos_iff_ne_zero.1 h0)
      rw [hm]; rfl
  · intro hp
    rw [hg, hh, hp]
    simp
  · unfold serveStatistics
    rw [if_neg (by decide), if_pos rfl, hh]

/-- Non-vacuity of `C70_stat_partial`: two periods were gathered, the second is shown. -/
example : ∃ d : Store, (gathered (trace (.new "x" "0" 0 60 1) [.gather 5 fun _ => 0, .gather 9 fun _ => 0])).getLast? = some d ∧
    deepGet d ["timestamp"] = some (.num 9) ∧
    (gathered (trace (.new "x" "0" 0 60 1) [.gather 5 fun _ => 0, .gather 9 fun _ => 0])).length = 2 :=
  ⟨_, rfl, by simp [trace, gathered, Stats.step, update, Keeper.new, percentileEntries, setAll, stamp, resetStore, Stat.reset, Dict.set, deepGet, Dict.get?], rfl⟩

/-- **C70, usage.** A kind of server that does not exist ends the tool with exit code 2. -/
theorem C70_usage (t : StatTyped) (h1 : t.serverType ≠ "tcp") (h2 : t.serverType ≠ "udp") (h3 : t.serverType ≠ "uds") : stat t = .exit 2 := by
  unfold stat
  simp [h1, h2, h3]

example : stat { serverType := "http", details := [] } = .exit 2 := by decide +kernel

/-- **C70 is false for a history of length 0**: a period was gathered and its statistics are gone. -/
theorem C70_gathered_refuted (n i : String) (st gp now : ℚ) (sizes : String → ℚ) :
    let es : List Ev := [.gather 5 sizes]
    (gathered (trace (.new n i st gp 0) es)).length = 1 ∧
      serveStatistics (run (.new n i st gp 0) es) now sizes "gathered" = (.one [], run (.new n i st gp 0) es) := by
  intro es
  constructor
  · simp [es, trace, Stats.step, update, Keeper.new, percentileEntries, setAll, gathered]
  · unfold serveStatistics
    rw [if_neg (by decide), if_neg (by decide)]
    have : (run (.new n i st gp 0) es).history = [] := by
      rw [C49_history_partial n i st gp 0 es (by simp [es])]; simp
    rw [this]
    rfl

end Verif.Cli
