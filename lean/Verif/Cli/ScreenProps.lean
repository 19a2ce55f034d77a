import Verif.Cli.ScreenLemmas
import Verif.Cli.Props

/-!
# What an operator reads (C88)
-/

namespace Verif.Cli

open Verif.Py Verif.Span Verif.Wire Verif.Wire.Spec Verif.Queue Verif.Queue.Spec Verif.Pending Verif.Buffered Verif.Cli.Spec

variable {M R S : Type}

/-! ### JSON with indentation -/

theorem printable_head (P : Floats) {S : Style} {fl : String → Prop} (hf : FloatOk P S fl) (hb : ∀ r, fl r → (S.float r).head? ≠ some '\ufeff')
    {j : Json} (hj : Fine fl j) : ∃ c r, pretty S 0 j = c :: r ∧ isWs c = false ∧ c ≠ '\ufeff' := by
  obtain ⟨c, r, h, h1, -⟩ := pretty_head hf 0 j hj
  refine ⟨c, r, h, h1, ?_⟩
  rintro rfl
  cases j with
  | null => rw [pretty] at h; exact absurd (congrArg List.head? h) (by rw [List.head?_cons]; decide)
  | bool b => cases b <;> rw [pretty] at h <;> exact absurd (congrArg List.head? h) (by rw [List.head?_cons]; decide)
  | int i =>
    obtain ⟨c, r, e, h'⟩ := number_not_bom (.inr ⟨i, rfl⟩)
    rw [pretty, e] at h
    exact h' (List.cons.inj h).1
  | float x =>
    rw [pretty] at h; rw [Fine] at hj
    exact hb x hj (by rw [h]; rfl)
  | str s => rw [pretty, quoted] at h; exact absurd (List.cons.inj h).1 (by decide)
  | arr a =>
    cases a with
    | nil => rw [pretty] at h; exact absurd (congrArg List.head? h) (by rw [List.head?_cons]; decide)
    | cons v vs => rw [pretty] at h; exact absurd (List.cons.inj h).1 (by decide)
  | obj a =>
    cases a with
    | nil => rw [pretty] at h; exact absurd (congrArg List.head? h) (by rw [List.head?_cons]; decide)
    | cons v vs => rw [pretty] at h; exact absurd (List.cons.inj h).1 (by decide)

theorem loads_dumps (P : Floats) {j : Json} (hj : Printable P j) {t : Str} (ht : ∀ c ∈ t, isWs c = true) : loads P (dumps P j ++ t) = .ok j := by
  refine loads_of_scan (printable_head P (ascii_float P) ?_ hj) (fun n r hn hr => scan_dumps P j hj n r hn hr) ht
  intro r hr he
  change (floatText P r).head? = _ at he
  have : ∀ c ∈ floatText P r, c ≠ '\ufeff' := fun c hc => by
    rintro rfl
    exact absurd (floatFine_plain hr _ hc).2 (by decide)
  cases hx : floatText P r with
  | nil => rw [hx] at he; cases he
  | cons c t =>
    rw [hx] at he this
    exact this c (.head _) (Option.some.inj he)

theorem loads_dumpModel (P : Floats) {j : Json} (hj : Fine (fun _ => False) j) : loads P (dumpModel P j) = .ok j := by
  have := loads_of_scan (printable_head P (no_float P _) (fun _ h => h.elim) hj) (fun n r hn hr => scan_dumpModel P j hj n r hn hr)
    (t := []) (fun _ h => absurd h (by simp))
  rwa [List.append_nil] at this

/-- **C88, JSON.** What is printed with an indentation reads back as the value, whatever blanks and line feeds follow, and is printable ASCII
but for line feeds. This includes NaN and the infinities. -/
theorem C88_json (P : Floats) (j : Json) (hj : Printable P j) :
    (∀ blanks : Str, (∀ c ∈ blanks, c = ' ' ∨ c = '\n') → loads P (dumps P j ++ blanks) = .ok j) ∧
    ∀ c ∈ dumps P j, c = '\n' ∨ (32 ≤ c.toNat ∧ c.toNat ≤ 126) :=
  ⟨fun _ hb => loads_dumps P hj fun c hc => by rcases hb c hc with rfl | rfl <;> decide, dumps_plain P j hj⟩

/-- A float library that knows one number. -/
def exP : Floats where
  text r := if r = "1.5" then some "1.5".toList else none
  parse t := if t = "1.5".toList then "1.5" else "0.0"

def exData : Json :=
  .obj [("name", .str "Zoë\n😀\""), ("n", .arr [.int (-7), .float "1.5", .float "nan", .null, .bool true]), ("e", .obj []), ("l", .arr [])]

theorem exData_printable : Printable exP exData := by
  unfold Printable exData
  simp only [Fine, FineFields, FineItems]
  refine ⟨by decide, trivial, ⟨by decide, ?_, ?_, trivial, trivial, trivial⟩, ⟨by decide, trivial⟩, trivial, trivial⟩
  · exact .inl ⟨"1.5".toList, rfl, ⟨[], ['1'], ['.', '5'], [], rfl, .inl rfl, .inr ⟨by decide, by decide, by decide⟩,
      .inr ⟨['5'], rfl, by decide, by decide⟩, .inl rfl, .inl (by decide)⟩, rfl⟩
  · exact .inr ⟨rfl, .inl rfl⟩

/-- Non-vacuity of `C88_json`, and the text itself. -/
example : Printable exP exData ∧ String.ofList (dumps exP exData) =
    "{\n    \"name\": \"Zo\\u00eb\\n\\ud83d\\ude00\\\"\",\n    \"n\": [\n        -7,\n        1.5,\n        NaN,\n        null,\n        true\n    ],\n    \"e\": {},\n    \"l\": []\n}" :=
  ⟨exData_printable, by decide +kernel⟩

/-! ### The screen -/

/-- **C88, the answer reaches the tool.** What the server writes about a queue is what the tool's validation builds. -/
theorem C88_answer (r : Shown) : readShown r.fields = some r := by
  obtain ⟨q, d, m⟩ := r
  have e1 : Dict.get? (Shown.fields ⟨q, d, m⟩) "message" = some (.str m) := rfl
  have e2 : Dict.get? (Shown.fields ⟨q, d, m⟩) "request_data" = some d := rfl
  unfold readShown
  rw [e1, e2]
  cases q with
  | none => rfl
  | some x =>
    rw [show Dict.get? (Shown.fields ⟨some x, d, m⟩) "queue_data" = some x.json from rfl]
    simp only [Option.getD_some, read_json]

/-- **C88, the screen tells all.** Two answers that look the same on the screen have the same message, the same data of the queue and the same
request, whatever characters the message has; only requests that count as nothing cannot be told apart. -/
theorem C88_screen (P : Floats) (r r' : Shown) (hq : ∀ d, r.queueData = some d → Sized d) (hq' : ∀ d, r'.queueData = some d → Sized d)
    (hr : Printable P r.requestData) (hr' : Printable P r'.requestData) (h : screen P r = screen P r') :
    r.message = r'.message ∧ r.queueData = r'.queueData ∧
      (r.requestData = r'.requestData ∨ (Nothing r.requestData ∧ Nothing r'.requestData)) := by
  rw [screen_eq, screen_eq] at h
  have h := (List.cons.inj (List.append_cancel_left h)).2
  have hs := congrArg (Str.split '\n') h
  rw [split_newline r.message.toList, split_newline r'.message.toList, split_dash, split_dash] at hs
  have key : Str.split '\n' r.message.toList = Str.split '\n' r'.message.toList ∧ Str.split '\n' (below P r) = Str.split '\n' (below P r') := by
    rcases List.append_eq_append_iff.1 hs with ⟨z, h1, h2⟩ | ⟨z, h1, h2⟩
    · cases z with
      | nil => exact ⟨by simpa using h1.symm, (List.cons.inj h2).2⟩
      | cons y z =>
        have h3 := (List.cons.inj h2).2
        exact absurd (below_dashes P r hq hr h3) (below_head P r' hq')
    · cases z with
      | nil => exact ⟨by simpa using h1, (List.cons.inj h2).2.symm⟩
      | cons y z =>
        have h3 := (List.cons.inj h2).2
        exact absurd (below_dashes P r' hq' hr' h3) (below_head P r hq)
  refine ⟨?_, below_inj P hq hq' hr hr' (split_inj key.2)⟩
  have := split_inj key.1
  rw [← String.ofList_toList (s := r.message), this, String.ofList_toList]

/-- An answer with everything. -/
def exShown : Shown := ⟨some (.endpoint "a.b" true false 3 1), exData, "Buffered Endpoint[a.b]: Data retrieved."⟩

/-- Non-vacuity of `C88_screen`: an answer meeting its hypotheses, with a message that imitates a screen. -/
example : (∀ d, exShown.queueData = some d → Sized d) ∧ Printable exP exShown.requestData ∧
    screen exP exShown ≠ screen exP ⟨none, .null, "x\n----\nQueue information:\n{}"⟩ :=
  ⟨fun d h => by cases h; exact ⟨by decide, by decide⟩, exData_printable, by decide +kernel⟩

theorem reads_queue (P : Floats) (r : Shown) (d : QueueData) (hd : r.queueData = some d) (hs : Sized d) : Reads P (screen P r) d.heading d.json := by
  refine ⟨rule '=' ++ '\n' :: (r.message.toList ++ '\n' :: rule '-'), d.shown P, requestPart P r.requestData ++ printed (rule '='), ?_, ?_⟩
  · rw [screen_eq, below, hd, queuePart_some]
    simp only [List.append_assoc, List.cons_append, List.nil_append]
  · cases d with
    | keys ks =>
      have := loads_dumps P (j := QueueData.json (.keys ks)) (fine_data _ hs) (t := []) (fun _ h => absurd h (by simp))
      rwa [List.append_nil] at this
    | endpoint r a b p e => exact loads_dumpModel P (fine_data _ hs)
    | sender r a p e => exact loads_dumpModel P (fine_data _ hs)

theorem reads_request (P : Floats) (r : Shown) (hd : ¬ Nothing r.requestData) (hs : Printable P r.requestData) :
    Reads P (screen P r) "Request information:" r.requestData := by
  have ht : Json.truthy r.requestData = true := by
    cases ht : Json.truthy r.requestData with
    | true => rfl
    | false => exact absurd ((truthy_iff _).1 ht) hd
  refine ⟨rule '=' ++ '\n' :: (r.message.toList ++ '\n' :: (rule '-' ++ '\n' :: (queuePart P r.queueData ++ rule '-'))), dumps P r.requestData,
    printed (rule '='), ?_, ?_⟩
  · rw [screen_eq, below, requestPart_some P ht]
    simp only [List.append_assoc, List.cons_append, List.nil_append]
  · have := loads_dumps P hs (t := []) (fun _ h => absurd h (by simp))
    rwa [List.append_nil] at this

/-! ### What the operator of an endpoint reads -/

/-- **C88, endpoints.** After a command for a known queue the screen shows: the endpoint's state after the command; for the list of failures,
keys of failed requests; for a request with data, the state and the request; for a key that is not among the failures, that there is none. -/
theorem C88_endpoint (P : Floats) {cfg : Cfg SpanKey Json M R S} (hc : cfg.codecs.Lawful) (ks : Dict Str (Handler.HSt SpanKey Json M R S))
    (t : Typed) (c : Client) (ha : Addressed t.serverType t.details c) (hr : t.routeKey ≠ []) (cmd : Cmd) (ho : t.options = cmd.option)
    (k : SpanKey) (hk : k.Valid) (hkey : cmd.needsKey = true → t.spanKey = some k.text)
    (h : Handler.HSt SpanKey Json M R S) (hh : ks.get? t.routeKey = some h) (hreach : HReach cfg Any h) {lp le}
    (hl : PairHolds cfg.codecs h.core.pair lp le) (hp : ∀ x ∈ le, Printable P x.2.data) :
    ∃ r h', bem t = .sent (c, r) ∧ hrun cfg h (cmd.events k) = some h' ∧
      (cmd.needsKey = false → cmd ≠ .first10 → ∃ i shown, HShows cfg h' i ∧ handlerShown r (serveHandlers cfg Json.truthy ks r).1 = some shown ∧
        (Sized (.endpoint "" false false i.pending i.error) → Reads P (screen P shown) "Queue information:" (infoJson t.routeKey i))) ∧
      (cmd = .first10 → ∃ ks' shown, ks' <+: (keys le).take 10 ∧ handlerShown r (serveHandlers cfg Json.truthy ks r).1 = some shown ∧
        Reads P (screen P shown) "First 10 error span-keys:" (.arr (ks'.map fun k => .str (String.ofList k.text)))) ∧
      (cmd.needsKey = true → ∀ v, (k, v) ∈ le → ¬ Nothing v.data → ∃ i shown, HShows cfg h' i ∧
        handlerShown r (serveHandlers cfg Json.truthy ks r).1 = some shown ∧
        (Sized (.endpoint "" false false i.pending i.error) → Reads P (screen P shown) "Queue information:" (infoJson t.routeKey i)) ∧
        Reads P (screen P shown) "Request information:" v.data) ∧
      (cmd.needsKey = true → k ∉ keys le → verdict (serveHandlers cfg Json.truthy ks r).1 = some .noRequest) := by
  obtain ⟨r, h', h1, h2, -, -, h5⟩ := C59_endpoint hc Json.truthy ks t c ha hr cmd ho k hk hkey h hh hreach hl
  have hq : r.queue = t.routeKey := by
    have := bem_sends ha hr cmd ho k hk hkey
    rw [h1] at this
    injection this with this
    rw [(Prod.mk.inj this).2]
    cases cmd <;> rfl
  unfold Told at h5
  refine ⟨r, h', h1, h2, ?_, ?_, ?_, ?_⟩
  · intro hn hf
    rw [if_neg (by simpa using hf), if_neg (by rw [hn]; decide)] at h5
    obtain ⟨i, hi, ei⟩ := h5
    rw [ei, ← hq]
    exact ⟨i, _, hi, rfl, fun hs => reads_queue P _ (.endpoint (String.ofList r.queue) i.receivingPaused i.processingPaused i.pending i.error) rfl hs⟩
  · intro hf
    rw [if_pos (by simpa using hf)] at h5
    obtain ⟨ks', ei, hk'⟩ := h5
    rw [ei]
    refine ⟨ks', _, hk', rfl, ?_⟩
    have := reads_queue P (d := .keys ((ks'.map SpanKey.text).map String.ofList)) (r := ⟨some (.keys ((ks'.map SpanKey.text).map String.ofList)), .null,
      String.ofList ("Buffered Endpoint[".toList ++ r.queue ++ "]: ".toList ++ handlerDone r.route r.keyText)⟩) rfl trivial
    rwa [show QueueData.json (.keys ((ks'.map SpanKey.text).map String.ofList)) = .arr (ks'.map fun k => .str (String.ofList k.text)) by
      simp [QueueData.json]] at this
  · intro hn v hv hd
    have hf : cmd ≠ .first10 := by rintro rfl; exact absurd hn (by decide)
    rw [if_neg (by simpa using hf), if_pos hn] at h5
    have ht : Json.truthy v.data = true := by
      cases ht : Json.truthy v.data with
      | true => rfl
      | false => exact absurd ((truthy_iff _).1 ht) hd
    obtain ⟨i, hi, ei⟩ := h5.1 v hv ht
    rw [ei, ← hq]
    refine ⟨i, _, hi, rfl, fun hs => reads_queue P _ (.endpoint (String.ofList r.queue) i.receivingPaused i.processingPaused i.pending i.error) rfl hs, ?_⟩
    exact reads_request P ⟨some (.endpoint (String.ofList r.queue) i.receivingPaused i.processingPaused i.pending i.error), v.data, _⟩ hd (hp _ hv)
  · intro hn hx
    have hf : cmd ≠ .first10 := by rintro rfl; exact absurd hn (by decide)
    rw [if_neg (by simpa using hf), if_pos hn] at h5
    rw [h5.2 hx]
    rfl

/-- **C88, senders**: the same, for requests as the tool would send them (`C59_bsm_refuted`: it sends none). -/
theorem C88_sender_partial (P : Floats) {cfg : Cfg SpanKey Json M R S} (hc : cfg.codecs.Lawful) (ks : Dict Str (St SpanKey Json M R S))
    (ns : Namespace) (cmd : SCmd) (hf : ∀ n ∈ attributesRead, ns.flags.get? n = some (decide (n ∈ cmd.attribute)))
    (k : SpanKey) (hk : k.Valid) (hkey : cmd.needsKey = true → ns.spanKey = some k.text)
    (s : St SpanKey Json M R S) (hh : ks.get? ns.routeKey = some s) (hreach : SReach cfg Any s) {lp le}
    (hl : PairHolds cfg.codecs s.pair lp le) (hp : ∀ x ∈ le, Printable P x.2.data) :
    ∃ r s', senderAction ns = .sent r ∧ srun cfg s (cmd.events k) = some s' ∧
      (cmd.needsKey = false → cmd ≠ .first10 → ∃ i shown, SShows cfg s' i ∧ senderShown r (serveSenders cfg Json.truthy ks r).1 = some shown ∧
        (Sized (.sender "" false i.pending i.error) → Reads P (screen P shown) "Queue information:" (sInfoJson ns.routeKey i))) ∧
      (cmd = .first10 → ∃ ks' shown, ks' <+: (keys le).take 10 ∧ senderShown r (serveSenders cfg Json.truthy ks r).1 = some shown ∧
        Reads P (screen P shown) "First 10 error span-keys:" (.arr (ks'.map fun k => .str (String.ofList k.text)))) ∧
      (cmd.needsKey = true → ∀ v, (k, v) ∈ le → ¬ Nothing v.data → ∃ i shown, SShows cfg s' i ∧
        senderShown r (serveSenders cfg Json.truthy ks r).1 = some shown ∧
        (Sized (.sender "" false i.pending i.error) → Reads P (screen P shown) "Queue information:" (sInfoJson ns.routeKey i)) ∧
        Reads P (screen P shown) "Request information:" v.data) ∧
      (cmd.needsKey = true → k ∉ keys le → verdict (serveSenders cfg Json.truthy ks r).1 = some .noRequest) := by
  obtain ⟨r, s', h1, h2, -, -, h5⟩ := C59_sender_partial hc Json.truthy ks ns cmd hf k hk hkey s hh hreach hl
  have hq : r.queue = ns.routeKey := by
    have := senderAction_sends cmd k hk hkey hf
    rw [h1] at this
    injection this with this
    rw [this]
    cases cmd <;> rfl
  unfold Told at h5
  refine ⟨r, s', h1, h2, ?_, ?_, ?_, ?_⟩
  · intro hn hf
    rw [if_neg (by simpa using hf), if_neg (by rw [hn]; decide)] at h5
    obtain ⟨i, hi, ei⟩ := h5
    rw [ei, ← hq]
    exact ⟨i, _, hi, rfl, fun hs => reads_queue P _ (.sender (String.ofList r.queue) i.paused i.pending i.error) rfl hs⟩
  · intro hf
    rw [if_pos (by simpa using hf)] at h5
    obtain ⟨ks', ei, hk'⟩ := h5
    rw [ei]
    refine ⟨ks', _, hk', rfl, ?_⟩
    have := reads_queue P (d := .keys ((ks'.map SpanKey.text).map String.ofList)) (r := ⟨some (.keys ((ks'.map SpanKey.text).map String.ofList)), .null,
      String.ofList ("Buffered Sender[".toList ++ r.queue ++ "]: ".toList ++ senderDone r.route r.keyText)⟩) rfl trivial
    rwa [show QueueData.json (.keys ((ks'.map SpanKey.text).map String.ofList)) = .arr (ks'.map fun k => .str (String.ofList k.text)) by
      simp [QueueData.json]] at this
  · intro hn v hv hd
    have hf : cmd ≠ .first10 := by rintro rfl; exact absurd hn (by decide)
    rw [if_neg (by simpa using hf), if_pos hn] at h5
    have ht : Json.truthy v.data = true := by
      cases ht : Json.truthy v.data with
      | true => rfl
      | false => exact absurd ((truthy_iff _).1 ht) hd
    obtain ⟨i, hi, ei⟩ := h5.1 v hv ht
    rw [ei, ← hq]
    refine ⟨i, _, hi, rfl, fun hs => reads_queue P _ (.sender (String.ofList r.queue) i.paused i.pending i.error) rfl hs, ?_⟩
    exact reads_request P ⟨some (.sender (String.ofList r.queue) i.paused i.pending i.error), v.data, _⟩ hd (hp _ hv)
  · intro hn hx
    have hf : cmd ≠ .first10 := by rintro rfl; exact absurd hn (by decide)
    rw [if_neg (by simpa using hf), if_pos hn] at h5
    rw [h5.2 hx]
    rfl

/-! An endpoint with a failed request that carries data. -/

def exJ : Cfg SpanKey Json Nat Nat (PEntry SpanKey Json Nat ⊕ EEntry SpanKey Json Nat Nat) where
  codecs := ⟨⟨Sum.inl, fun s => s.getLeft?⟩, ⟨Sum.inr, fun s => s.getRight?⟩⟩
  maxRetries := 3
  build := some
  keep := id
  noMeta := 0
  reason := 77

theorem exJ_lawful : exJ.codecs.Lawful := ⟨fun _ => rfl, fun _ => rfl⟩

def exJPair : Pair SpanKey (PEntry SpanKey Json Nat ⊕ EEntry SpanKey Json Nat Nat) :=
  let q := (Pair.open 2 [] []).pushPending exJ.codecs key1 (.int 3) 0 101 |>.2
  q.pushError exJ.codecs sampleKey exData 7 103 |>.2

theorem exJPair_reach : PReach exJ.codecs exJPair := .pushError _ _ _ _ (.pushPending _ _ _ _ (.new (by decide)))

/-- Non-vacuity of `C88_endpoint` (with `exTyped_addressed`): the request popped. -/
example : HReach exJ Any (Handler.setup exJ exJPair) ∧ ¬ Nothing exData ∧ Printable exP exData ∧
    handlerShown ⟨"eco.buffered_handler.errors.pop_request", "a.b".toList, some sampleKey⟩
      (serveHandlers exJ Json.truthy [("a.b".toList, Handler.setup exJ exJPair)]
        ⟨"eco.buffered_handler.errors.pop_request", "a.b".toList, some sampleKey⟩).1 =
      some ⟨some (.endpoint "a.b" false false 1 0), exData,
        "Buffered Endpoint[a.b]: POPPED Error database entry[01234567-89ab-cdef-0000-0000deadbeef:fedcba9876543210]."⟩ :=
  ⟨.setup exJPair_reach, by unfold Nothing exData; decide, exData_printable, by decide +kernel⟩

/-- The first twenty characters of what an endpoint says it did. -/
def lead : Cmd → String
  | .data => "Data retrieved."
  | .pauseReceiving => "Paused RECEIVING."
  | .pauseProcessing => "Paused PROCESSING."
  | .pauseAll => "Paused ALL."
  | .unpauseReceiving => "UN-Paused RECEIVING."
  | .unpauseProcessing => "UN-Paused PROCESSING"
  | .unpauseAll => "UN-Paused ALL."
  | .first10 => "Retrieved first 10 s"
  | .reprocessAll => "Error database entri"
  | .clear => "Error database clear"
  | .reprocessOne => "Error database entry"
  | .inspect => "INSPECTING Error dat"
  | .pop => "POPPED Error databas"

theorem lead_done (q : Str) (k : SpanKey) (cmd : Cmd) :
    (handlerDone (request q k cmd).route (request q k cmd).keyText).take 20 = (lead cmd).toList := by
  have h1 : (request q k .reprocessOne).keyText = k.text := rfl
  cases cmd <;> simp only [request, handlerDone, String.reduceEq, if_true, if_false, lead, List.append_assoc] <;> first
    | decide +kernel
    | (rw [List.take_append_of_le_length (by decide +kernel)]; decide +kernel)

theorem lead_inj {a b : Cmd} (h : (lead a).toList = (lead b).toList) : a = b := by
  revert a b
  intro a b
  cases a <;> cases b <;> first | (intro; rfl) | (intro h; exact absurd h (by decide +kernel))

def sLead : SCmd → String
  | .data => "Data retrieved."
  | .pause => "Paused SEND PROCESS."
  | .unpause => "UN-Paused SEND PROCE"
  | .first10 => "Retrieved first 10 s"
  | .reprocessAll => "Error database entri"
  | .clear => "Error database clear"
  | .reprocessOne => "Error database entry"
  | .inspect => "INSPECTING Error dat"
  | .pop => "POPPED Error databas"

theorem sLead_done (q : Str) (k : SpanKey) (cmd : SCmd) :
    (senderDone (srequest q k cmd).route (srequest q k cmd).keyText).take 20 = (sLead cmd).toList := by
  cases cmd <;> simp only [srequest, senderDone, String.reduceEq, if_true, if_false, sLead, List.append_assoc] <;> first
    | decide +kernel
    | (rw [List.take_append_of_le_length (by decide +kernel)]; decide +kernel)

theorem sLead_inj {a b : SCmd} (h : (sLead a).toList = (sLead b).toList) : a = b := by
  revert a b
  intro a b
  cases a <;> cases b <;> first | (intro; rfl) | (intro h; exact absurd h (by decide +kernel))

/-- How the messages begin. -/
def opening (who none_ : String) : Verdict → String
  | .noQueue => none_
  | .noRequest => "No request"
  | .done => who

theorem handler_message {r : Request} {a : Answer HInfo Json} {s : Shown} (h : handlerShown r a = some s) :
    ∃ v, verdict a = some v ∧ (s.message.toList.take 10) = (opening "Buffered E" "No queue f" v).toList ∧
      (v = .done → s.message.toList = "Buffered Endpoint[".toList ++ r.queue ++ "]: ".toList ++ handlerDone r.route r.keyText) := by
  cases a <;> cases h
  · refine ⟨.noQueue, rfl, ?_, fun h => by cases h⟩
    rw [String.toList_ofList, List.append_assoc, List.take_append_of_le_length (by decide +kernel)]; decide +kernel
  · refine ⟨.done, rfl, ?_, fun _ => String.toList_ofList⟩
    rw [String.toList_ofList, List.append_assoc, List.append_assoc, List.take_append_of_le_length (by decide +kernel)]; decide +kernel
  · refine ⟨.done, rfl, ?_, fun _ => String.toList_ofList⟩
    rw [String.toList_ofList, List.append_assoc, List.append_assoc, List.take_append_of_le_length (by decide +kernel)]; decide +kernel
  · refine ⟨.done, rfl, ?_, fun _ => String.toList_ofList⟩
    rw [String.toList_ofList, List.append_assoc, List.append_assoc, List.take_append_of_le_length (by decide +kernel)]; decide +kernel
  · refine ⟨.noRequest, rfl, ?_, fun h => by cases h⟩
    rw [String.toList_ofList]
    simp only [List.append_assoc]
    rw [List.take_append_of_le_length (by decide +kernel)]; decide +kernel

theorem sender_message {r : Request} {a : Answer SInfo Json} {s : Shown} (h : senderShown r a = some s) :
    ∃ v, verdict a = some v ∧ (s.message.toList.take 10) = (opening "Buffered S" "No buffere" v).toList ∧
      (v = .done → s.message.toList = "Buffered Sender[".toList ++ r.queue ++ "]: ".toList ++ senderDone r.route r.keyText) := by
  cases a <;> cases h
  · refine ⟨.noQueue, rfl, ?_, fun h => by cases h⟩
    rw [String.toList_ofList, List.append_assoc, List.take_append_of_le_length (by decide +kernel)]; decide +kernel
  · refine ⟨.done, rfl, ?_, fun _ => String.toList_ofList⟩
    rw [String.toList_ofList, List.append_assoc, List.append_assoc, List.take_append_of_le_length (by decide +kernel)]; decide +kernel
  · refine ⟨.done, rfl, ?_, fun _ => String.toList_ofList⟩
    rw [String.toList_ofList, List.append_assoc, List.append_assoc, List.take_append_of_le_length (by decide +kernel)]; decide +kernel
  · refine ⟨.done, rfl, ?_, fun _ => String.toList_ofList⟩
    rw [String.toList_ofList, List.append_assoc, List.append_assoc, List.take_append_of_le_length (by decide +kernel)]; decide +kernel
  · refine ⟨.noRequest, rfl, ?_, fun h => by cases h⟩
    rw [String.toList_ofList]
    simp only [List.append_assoc]
    rw [List.take_append_of_le_length (by decide +kernel)]; decide +kernel

theorem opening_inj {v w : Verdict} (h : (opening "Buffered E" "No queue f" v).toList = (opening "Buffered E" "No queue f" w).toList) : v = w := by
  cases v <;> cases w <;> first | rfl | exact absurd h (by decide +kernel)

theorem sOpening_inj {v w : Verdict} (h : (opening "Buffered S" "No buffere" v).toList = (opening "Buffered S" "No buffere" w).toList) : v = w := by
  cases v <;> cases w <;> first | rfl | exact absurd h (by decide +kernel)

/-- **C88, messages of endpoints.** For the same queue, the messages of two answers differ if one did its work and the other found no queue or no
request, and if both did their work for different commands. -/
theorem C88_messages (t t' : Typed) (c c' : Client) (ha : Addressed t.serverType t.details c) (ha' : Addressed t'.serverType t'.details c')
    (hr : t.routeKey ≠ []) (hr' : t'.routeKey = t.routeKey) (cmd cmd' : Cmd) (ho : t.options = cmd.option) (ho' : t'.options = cmd'.option)
    (k k' : SpanKey) (hk : k.Valid) (hk' : k'.Valid) (hkey : cmd.needsKey = true → t.spanKey = some k.text)
    (hkey' : cmd'.needsKey = true → t'.spanKey = some k'.text) (r r' : Request) (h : bem t = .sent (c, r)) (h' : bem t' = .sent (c', r'))
    (a a' : Answer HInfo Json) (s s' : Shown) (hs : handlerShown r a = some s) (hs' : handlerShown r' a' = some s')
    (hd : verdict a ≠ verdict a' ∨ (verdict a = some .done ∧ cmd ≠ cmd')) : s.message ≠ s'.message := by
  intro he
  obtain ⟨v, e1, e2, e3⟩ := handler_message hs
  obtain ⟨w, f1, f2, f3⟩ := handler_message hs'
  rw [he, f2] at e2
  have := opening_inj e2
  subst this
  rcases hd with hd | ⟨hv, hd⟩
  · exact hd (by rw [e1, f1])
  · rw [e1] at hv
    have := Option.some.inj hv
    subst this
    have g := e3 rfl
    rw [he, f3 rfl] at g
    rw [bem_sends ha hr cmd ho k hk hkey] at h
    rw [bem_sends ha' (by rw [hr']; exact hr) cmd' ho' k' hk' hkey'] at h'
    injection h with h
    injection h' with h'
    rw [← (Prod.mk.inj h).2, ← (Prod.mk.inj h').2, hr'] at g
    have hq : ∀ k cmd, (request t.routeKey k cmd).queue = t.routeKey := fun k cmd => by cases cmd <;> rfl
    rw [hq, hq] at g
    have g := List.append_cancel_left g
    have := congrArg (List.take 20) g
    rw [lead_done, lead_done] at this
    exact hd (lead_inj this).symm

theorem done_key (q : Str) (k : SpanKey) (cmd : Cmd) (hn : cmd.needsKey = true) :
    '[' :: (k.text ++ [']']) <:+: handlerDone (request q k cmd).route (request q k cmd).keyText := by
  cases cmd <;> first | exact absurd hn (by decide) | skip
  · exact ⟨"Error database entry".toList, " moved to incoming database.".toList, by
      simp [handlerDone, request, Request.keyText]⟩
  · exact ⟨"INSPECTING Error database entry".toList, ".".toList, by simp [handlerDone, request, Request.keyText]⟩
  · exact ⟨"POPPED Error database entry".toList, ".".toList, by simp [handlerDone, request, Request.keyText]⟩

/-- **C88, the key in the messages of endpoints.** When a command about one entry did its work, the message names the queue and the key that were asked for, in brackets. -/
theorem C88_names (t : Typed) (c : Client) (ha : Addressed t.serverType t.details c) (hr : t.routeKey ≠ []) (cmd : Cmd) (ho : t.options = cmd.option)
    (hn : cmd.needsKey = true) (k : SpanKey) (hk : k.Valid) (hkey : t.spanKey = some k.text) (r : Request) (h : bem t = .sent (c, r))
    (a : Answer HInfo Json) (s : Shown) (hs : handlerShown r a = some s) (hd : verdict a = some .done) :
    '[' :: (t.routeKey ++ [']']) <:+: s.message.toList ∧ '[' :: (k.text ++ [']']) <:+: s.message.toList := by
  obtain ⟨v, e1, e2, e3⟩ := handler_message hs
  rw [hd] at e1
  have := Option.some.inj e1
  subst this
  rw [bem_sends ha hr cmd ho k hk (fun _ => hkey)] at h
  injection h with h
  have hq : (request t.routeKey k cmd).queue = t.routeKey := by cases cmd <;> rfl
  rw [e3 rfl, ← (Prod.mk.inj h).2, hq]
  refine ⟨⟨"Buffered Endpoint".toList, ": ".toList ++ handlerDone (request t.routeKey k cmd).route (request t.routeKey k cmd).keyText, by simp⟩, ?_⟩
  exact (done_key t.routeKey k cmd hn).trans (List.suffix_append _ _).isInfix

/-- Such an answer: an entry was removed and is shown. -/
example : (handlerShown ⟨"eco.buffered_handler.errors.pop_request", "a.b".toList, some sampleKey⟩ (.request ⟨true, true, 0, 0⟩ (.int 3))).map Shown.message =
    some (String.ofList ("Buffered Endpoint[a.b]: POPPED Error database entry[".toList ++ sampleKey.text ++ "].".toList)) ∧
    verdict (.request ⟨true, true, 0, 0⟩ (.int 3) : Answer HInfo Json) = some .done := by
  refine ⟨?_, ?_⟩ <;> decide +kernel

example : Cmd.pauseAll ≠ Cmd.unpauseAll ∧ verdict (.noQueue : Answer HInfo Json) ≠ verdict (.info ⟨true, true, 0, 0⟩ : Answer HInfo Json) := by decide

/-- Non-vacuity of `C88_sender_partial`: a reachable sender, paused by the request that the tool would send. -/
example : SReach exJ Any (Sender.setup exJ exJPair) ∧
    senderShown ⟨"eco.buffered_sender.send_process.pause", "a.b".toList, none⟩
      (serveSenders exJ Json.truthy [("a.b".toList, Sender.setup exJ exJPair)] ⟨"eco.buffered_sender.send_process.pause", "a.b".toList, none⟩).1 =
      some ⟨some (.sender "a.b" true 1 1), .null, "Buffered Sender[a.b]: Paused SEND PROCESS."⟩ :=
  ⟨.setup exJPair_reach, by decide +kernel⟩

theorem sDone_key (q : Str) (k : SpanKey) (cmd : SCmd) (hn : cmd.needsKey = true) :
    '[' :: (k.text ++ [']']) <:+: senderDone (srequest q k cmd).route (srequest q k cmd).keyText := by
  cases cmd <;> first | exact absurd hn (by decide) | skip
  · exact ⟨"Error database entry".toList, " moved to Retry database.".toList, by
      simp [senderDone, srequest, Request.keyText]⟩
  · exact ⟨"INSPECTING Error database entry".toList, ".".toList, by simp [senderDone, srequest, Request.keyText]⟩
  · exact ⟨"POPPED Error database entry".toList, ".".toList, by simp [senderDone, srequest, Request.keyText]⟩

/-- **C88, the key in the messages of senders**: the same as `C88_names`, for requests as the tool would send them. -/
theorem C88_sender_names_partial (ns : Namespace) (cmd : SCmd) (hf : ∀ n ∈ attributesRead, ns.flags.get? n = some (decide (n ∈ cmd.attribute)))
    (hn : cmd.needsKey = true) (k : SpanKey) (hk : k.Valid) (hkey : ns.spanKey = some k.text) (r : Request) (h : senderAction ns = .sent r)
    (a : Answer SInfo Json) (s : Shown) (hs : senderShown r a = some s) (hd : verdict a = some .done) :
    '[' :: (ns.routeKey ++ [']']) <:+: s.message.toList ∧ '[' :: (k.text ++ [']']) <:+: s.message.toList := by
  obtain ⟨v, e1, e2, e3⟩ := sender_message hs
  rw [hd] at e1
  have := Option.some.inj e1
  subst this
  rw [senderAction_sends cmd k hk (fun _ => hkey) hf] at h
  injection h with h
  have hq : (srequest ns.routeKey k cmd).queue = ns.routeKey := by cases cmd <;> rfl
  rw [e3 rfl, ← h, hq]
  refine ⟨⟨"Buffered Sender".toList, ": ".toList ++ senderDone (srequest ns.routeKey k cmd).route (srequest ns.routeKey k cmd).keyText, by simp⟩, ?_⟩
  exact (sDone_key ns.routeKey k cmd hn).trans (List.suffix_append _ _).isInfix

/-- **C88, messages of senders**: the same, for requests as the tool would send them. -/
theorem C88_sender_messages_partial (ns ns' : Namespace) (hr : ns'.routeKey = ns.routeKey) (cmd cmd' : SCmd)
    (hf : ∀ n ∈ attributesRead, ns.flags.get? n = some (decide (n ∈ cmd.attribute)))
    (hf' : ∀ n ∈ attributesRead, ns'.flags.get? n = some (decide (n ∈ cmd'.attribute)))
    (k k' : SpanKey) (hk : k.Valid) (hk' : k'.Valid) (hkey : cmd.needsKey = true → ns.spanKey = some k.text)
    (hkey' : cmd'.needsKey = true → ns'.spanKey = some k'.text) (r r' : Request) (h : senderAction ns = .sent r) (h' : senderAction ns' = .sent r')
    (a a' : Answer SInfo Json) (s s' : Shown) (hs : senderShown r a = some s) (hs' : senderShown r' a' = some s')
    (hd : verdict a ≠ verdict a' ∨ (verdict a = some .done ∧ cmd ≠ cmd')) : s.message ≠ s'.message := by
  intro he
  obtain ⟨v, e1, e2, e3⟩ := sender_message hs
  obtain ⟨w, f1, f2, f3⟩ := sender_message hs'
  rw [he, f2] at e2
  have := sOpening_inj e2
  subst this
  rcases hd with hd | ⟨hv, hd⟩
  · exact hd (by rw [e1, f1])
  · rw [e1] at hv
    have := Option.some.inj hv
    subst this
    have g := e3 rfl
    rw [he, f3 rfl] at g
    rw [senderAction_sends cmd k hk hkey hf] at h
    rw [senderAction_sends cmd' k' hk' hkey' hf'] at h'
    injection h with h
    injection h' with h'
    rw [← h, ← h', hr] at g
    have hq : ∀ k cmd, (srequest ns.routeKey k cmd).queue = ns.routeKey := fun k cmd => by cases cmd <;> rfl
    rw [hq, hq] at g
    have g := List.append_cancel_left g
    have := congrArg (List.take 20) g
    rw [sLead_done, sLead_done] at this
    exact hd (sLead_inj this).symm

/-- **C88, no such request.** The message names the key and the queue, and there is no data. -/
theorem C88_no_request (q : Str) (k : SpanKey) (route : String) :
    (∃ s, handlerShown ⟨route, q, some k⟩ .noRequest = some s ∧ s.queueData = none ∧ s.requestData = .null ∧
      ∃ a b c, s.message.toList = a ++ ('[' :: k.text ++ ']' :: b) ++ ('[' :: q ++ ']' :: c)) ∧
    ∃ s, senderShown ⟨route, q, some k⟩ .noRequest = some s ∧ s.queueData = none ∧ s.requestData = .null ∧
      ∃ a b c, s.message.toList = a ++ ('[' :: k.text ++ ']' :: b) ++ ('[' :: q ++ ']' :: c) := by
  refine ⟨⟨_, rfl, rfl, rfl, "No request with span-key ".toList, " in error queue for route key: ".toList, [], ?_⟩,
    ⟨_, rfl, rfl, rfl, "No request with span-key ".toList, " in buffered sender error database, for route key: ".toList, [], ?_⟩⟩
  · rw [String.toList_ofList]
    simp [Request.keyText]
  · rw [String.toList_ofList]
    simp [Request.keyText]

example : (handlerShown ⟨"eco.buffered_handler.errors.pop_request", "a.b".toList, some sampleKey⟩ .noRequest).map Shown.message =
    some (String.ofList ("No request with span-key [".toList ++ sampleKey.text ++ "] in error queue for route key: [a.b]".toList)) := by
  decide +kernel

/-- **C88, unknown queue.** The screen names the queue that is not there, shows no data, and is different for different names. -/
theorem C88_unknown (P : Floats) (cfg : Cfg SpanKey Json M R S) (ks : Dict Str (Handler.HSt SpanKey Json M R S))
    (t t' : Typed) (c c' : Client) (ha : Addressed t.serverType t.details c) (ha' : Addressed t'.serverType t'.details c')
    (hr : t.routeKey ≠ []) (hr' : t'.routeKey ≠ []) (cmd cmd' : Cmd) (ho : t.options = cmd.option) (ho' : t'.options = cmd'.option)
    (k k' : SpanKey) (hk : k.Valid) (hk' : k'.Valid) (hkey : cmd.needsKey = true → t.spanKey = some k.text)
    (hkey' : cmd'.needsKey = true → t'.spanKey = some k'.text) (hh : ks.get? t.routeKey = none) (hh' : ks.get? t'.routeKey = none) :
    ∃ r r' s s', bem t = .sent (c, r) ∧ bem t' = .sent (c', r') ∧ handlerShown r (serveHandlers cfg Json.truthy ks r).1 = some s ∧
      handlerShown r' (serveHandlers cfg Json.truthy ks r').1 = some s' ∧ s.queueData = none ∧ s.requestData = .null ∧
      t.routeKey <:+: screen P s ∧ (screen P s = screen P s' → t.routeKey = t'.routeKey) := by
  obtain ⟨r, h1, h2⟩ := C59_unknown_queue cfg Json.truthy ks t c ha hr cmd ho k hk hkey hh
  obtain ⟨r', h1', h2'⟩ := C59_unknown_queue cfg Json.truthy ks t' c' ha' hr' cmd' ho' k' hk' hkey' hh'
  have hq : r.queue = t.routeKey := by
    have := bem_sends ha hr cmd ho k hk hkey
    rw [h1] at this
    injection this with this
    rw [(Prod.mk.inj this).2]
    cases cmd <;> rfl
  have hq' : r'.queue = t'.routeKey := by
    have := bem_sends ha' hr' cmd' ho' k' hk' hkey'
    rw [h1'] at this
    injection this with this
    rw [(Prod.mk.inj this).2]
    cases cmd' <;> rfl
  refine ⟨r, r', ⟨none, .null, _⟩, ⟨none, .null, _⟩, h1, h1', by rw [h2]; rfl, by rw [h2']; rfl, rfl, rfl, ?_, ?_⟩
  · rw [hq, screen_eq]
    refine ⟨rule '=' ++ '\n' :: "No queue for route key: [".toList, "]".toList ++ '\n' :: (rule '-' ++ '\n' :: below P ⟨none, .null, ""⟩), ?_⟩
    simp only [String.toList_ofList, List.append_assoc, List.cons_append, below]
  · intro he
    have := (C88_screen P _ _ (fun _ h => by cases h) (fun _ h => by cases h) (by simp [Printable, Fine]) (by simp [Printable, Fine]) he).1
    have := congrArg String.toList this
    simp only [String.toList_ofList, List.append_assoc, List.append_cancel_left_eq, List.append_cancel_right_eq] at this
    rw [← hq, ← hq', this]

/-- Non-vacuity of `C88_unknown`. -/
example : Dict.get? [("a.b".toList, Handler.setup exJ exJPair)] "a.c".toList = none ∧ Dict.get? [("a.b".toList, Handler.setup exJ exJPair)] "x".toList = none :=
  ⟨rfl, rfl⟩

/-! ### Statistics and the logging tool -/

/-- **C88, statistics and logging.** Between the lines the value can be read, and the same screen with the same title means the same value. -/
theorem C88_titled (P : Floats) (title : String) (j j' : Json) (hj : Printable P j) (hj' : Printable P j') :
    Reads P (titledScreen P title j) (String.ofList (List.replicate 80 '-')) j ∧ (titledScreen P title j = titledScreen P title j' → j = j') := by
  have e : ∀ j, titledScreen P title j =
      rule '=' ++ '\n' :: (title.toList ++ '\n' :: (rule '-' ++ '\n' :: (dumps P j ++ '\n' :: printed (rule '=')))) := by
    intro j
    unfold titledScreen printed
    simp only [List.append_assoc, List.cons_append, List.nil_append]
  constructor
  · refine ⟨rule '=' ++ '\n' :: title.toList, dumps P j, printed (rule '='), ?_, ?_⟩
    · rw [e, String.toList_ofList]
      simp only [List.append_assoc, List.cons_append, rule]
    · have := loads_dumps P hj (t := []) (fun _ h => absurd h (by simp))
      rwa [List.append_nil] at this
  · intro h
    rw [e, e] at h
    simp only [List.append_cancel_left_eq, List.cons.injEq, true_and] at h
    have e1 := scan_dumps P j hj ((dumps P j).length + (dumps P j').length + 1) ('\n' :: printed (rule '=')) (by omega) (.ofHead (by decide))
    have e2 := scan_dumps P j' hj' ((dumps P j).length + (dumps P j').length + 1) ('\n' :: printed (rule '=')) (by omega) (.ofHead (by decide))
    rw [h, e2] at e1
    exact (Prod.mk.inj (Except.ok.inj e1)).1.symm

/-- Non-vacuity of `C88_titled`. -/
example : Printable exP exData ∧ Printable exP (.obj []) ∧ titledScreen exP "Statistics" exData ≠ titledScreen exP "Statistics" (.obj []) :=
  ⟨exData_printable, by simp [Printable, Fine, FineFields], by decide +kernel⟩

end Verif.Cli
