import Verif.Wire.Extend
import Verif.Client.Props

/-!
# C60: messages survive the wire
-/

namespace Verif.Wire

open Verif.Py Verif.Span Verif.Server Verif.Stream Verif.Wire.Spec
open Verif.Stream (IsLine)

variable {σ β : Type}

/-! ### Example: a float library -/

/-- A float is its own text. -/
def exF : Floats where
  text r := if r = "nan" ∨ r = "inf" ∨ r = "-inf" then none else if r = "1.5" then some "1.5".toList else if r = "-2e+30" then some "-2e+30".toList else none
  parse t := String.ofList t

theorem exF_numbers : WritesNumbers exF := by
  intro r t h
  unfold exF at h
  simp only at h
  split at h
  · cases h
  split at h
  · cases h
    exact ⟨[], ['1'], ['.', '5'], [], rfl, .inl rfl, .inr (by decide), .inr ⟨['5'], rfl, by decide, by decide⟩, .inl rfl, .inl (by decide)⟩
  split at h
  · cases h
    exact ⟨['-'], ['2'], [], ['e', '+', '3', '0'], rfl, .inr rfl, .inr (by decide), .inl rfl,
      .inr ⟨'e', ['+'], ['3', '0'], rfl, .inl rfl, .inr (.inr rfl), by decide, by decide⟩, .inr (by decide)⟩
  · cases h

/-- A value with everything in it. -/
def exJson : Json :=
  .obj [("a\"b\\\n\x01", .arr [.null, .bool true, .bool false, .int 0, .int (-120), .float "1.5", .float "-2e+30", .arr []]), ("", .obj [("é☃𝄞", .str "\x7f/\t")])]

theorem exJson_sendable : Sendable exF exJson := by
  unfold exJson
  simp only [Sendable, SendableItems, SendableFields, and_true, true_and]
  refine ⟨by simp, ⟨by decide +kernel, by decide +kernel, ⟨_, rfl, exF_numbers "1.5" _ rfl, rfl⟩, ⟨_, rfl, exF_numbers "-2e+30" _ rfl, rfl⟩⟩, by simp⟩

/-! ### Data -/

theorem blank_ws {t : Str} (h : Blank t) : ∀ c ∈ t, isWs c = true := by
  intro c hc
  rcases h c hc with rfl | rfl | rfl | rfl <;> decide

/-- **C60, data.** Data that is written and read back is the same data, whatever blanks follow. -/
theorem C60_data (F : Floats) (j : Json) (hj : Sendable F j) (t : Str) (ht : Blank t) : loads F (write F j ++ t) = .ok j :=
  loads_write F j hj (blank_ws ht)

/-- **C60, nothing is confused.** Different data has different texts. -/
theorem C60_injective (F : Floats) (a b : Json) (ha : Sendable F a) (hb : Sendable F b) (h : write F a = write F b) : a = b := by
  have h1 := C60_data F a ha [] (by intro c hc; cases hc)
  have h2 := C60_data F b hb [] (by intro c hc; cases hc)
  rw [h, h2] at h1
  cases h1
  rfl

example : Sendable exF exJson ∧ (write exF exJson).head? = some (Char.ofNat 123) ∧ loads exF (write exF exJson) = .ok exJson := by
  refine ⟨exJson_sendable, by decide +kernel, ?_⟩
  have := C60_data exF exJson exJson_sendable [] (by intro c hc; cases hc)
  rwa [List.append_nil] at this

example : write exF (.str "a\"\n\x01é") = "\"a\\\"\\n\\u0001é\"".toList := by decide +kernel

/-! ### Lines -/

theorem line_of {l : Str} (h : ∀ c ∈ l, 32 ≤ c.toNat) (hne : l ≠ []) :
    IsLine (encode (String.ofList l ++ "\n")) ∧ ¬ Stream.Spec.Heartbeat (encode (String.ofList l ++ "\n")) := by
  have hp := printable_byte h
  rw [encode_line]
  refine ⟨⟨_, rfl, fun hb => absurd (hp 10 hb) (by decide)⟩, ?_⟩
  rintro ⟨t, ht⟩
  cases hs : encode (String.ofList l) with
  | nil =>
    rw [encode_ofList] at hs
    obtain ⟨c, r, rfl⟩ := List.exists_cons_of_ne_nil hne
    rw [List.flatMap_cons, List.append_eq_nil_iff] at hs
    exact String.utf8EncodeChar_ne_nil hs.1
  | cons b bs =>
    rw [hs, List.cons_append] at ht
    have := hp b (by rw [hs]; exact .head _)
    rw [(List.cons.inj ht).1] at this
    exact absurd this (by decide)

theorem printable (F : Floats) (hF : WritesNumbers F) (j : Json) : ∀ c ∈ write F j, 32 ≤ c.toNat :=
  write_printable F (fun r t h => floatText_printable (hF r t h)) j

theorem write_obj_ne (F : Floats) (fs : List (String × Json)) : write F (.obj fs) ≠ [] := by
  rw [write]; exact List.cons_ne_nil _ _

/-- **C60, lines.** What a client sends, and what a server sends, is one line: the line feed at its end is the only one, also in bytes, and it
is not taken for a heartbeat. -/
theorem C60_line (F : Floats) (hF : WritesNumbers F) (r : Req SpanKey) (resp : Resp SpanKey) :
    (IsLine (encode (requestLine F r)) ∧ ¬ Stream.Spec.Heartbeat (encode (requestLine F r))) ∧
    (IsLine (encode (responseText F resp ++ "\n")) ∧ ¬ Stream.Spec.Heartbeat (encode (responseText F resp ++ "\n"))) :=
  ⟨line_of (printable F hF _) (write_obj_ne F _), line_of (printable F hF _) (write_obj_ne F _)⟩

/-- **C60, a connection's output.** What a connection has written is a sequence of complete lines, one per reply: the assumption of
`C37_framing` holds. -/
theorem C60_framing {F : Floats} (hF : WritesNumbers F) {E : Endpoint SpanKey σ} (hE : Speaks F E) {w : World SpanKey σ} {es : List Ev}
    {c : Conn SpanKey σ} (h : steps E (accept true w) es = some c) : Stream.Spec.lines c.out.flatten = (c.out, []) := by
  refine C37_framing ?_ h
  intro resp s hs
  rw [hE.dumps] at hs
  cases hs
  exact fun hb => absurd (printable_byte (printable F hF _) 10 hb) (by decide)

/-! ### Messages -/

theorem wrapped (F : Floats) (fs : List (String × Json)) : write F (.obj fs) = '{' :: (writeFields F fs ++ ['}']) := by rw [write]

/-- **C60, requests.** The server reads a request that a client has written as an equal request: route key, span key and data. -/
theorem C60_request {F : Floats} {E : Endpoint SpanKey σ} (hE : Speaks F E) (r : Req SpanKey) (hk : r.spanKey.Valid) (hd : Sendable F r.data) :
    decode (encode (requestLine F r)) = some (requestLine F r) ∧
    ∃ j, E.server.loads (requestLine F r) = .ok j ∧ requestDto E.server j = .ok r := by
  refine ⟨decode_encode _, requestJson r, ?_, ?_⟩
  · rw [hE.loads]
    unfold serverLoads requestLine
    rw [String.toList_append, String.toList_ofList]
    have hw : write F (requestJson r) = _ := wrapped F _
    rw [hw, strip_wrapped '{' '}' _ _ (by decide) (by decide) (by decide), ← hw]
    have := C60_data F (requestJson r) (sendable_request F hd) [] (by intro c hc; cases hc)
    rw [List.append_nil] at this
    rw [this]
  · unfold requestJson requestDto
    simp only [Dict.get?, if_true, if_neg (show ¬ "route_key" = "span_key" by decide), if_neg (show ¬ "route_key" = "data" by decide),
      if_neg (show ¬ "span_key" = "data" by decide)]
    rw [hE.span, spanOf_spanJson hk]

/-- **C60, responses.** The client reads a response that a server has written as an equal response: span key, status and data. A stream server
ends the text with a line feed, a datagram server does not. -/
theorem C60_response {F : Floats} {L : Client.Lib β} (hL : Hears F L) (resp : Resp SpanKey) (hk : ∀ k, resp.spanKey = some k → k.Valid)
    (hs : (Nat.toDigits 10 resp.status.natAbs).length ≤ 4300) (hd : Sendable F (valJson resp.data)) (t : String) (ht : t = "" ∨ t = "\n") :
    decode (encode (responseText F resp ++ t)) = some (responseText F resp ++ t) ∧
    (∃ fields, L.loads (responseText F resp ++ t) = some (.obj fields) ∧
      Client.replyDto L (.obj fields) = .ok ⟨resp.status, valJson resp.data⟩ ∧
      ∃ sk, Dict.get? fields "span_key" = some sk ∧ spanOf sk = resp.spanKey) ∧
    Client.interpret L (some (responseText F resp ++ t)) = Client.conclude L ⟨resp.status, valJson resp.data⟩ := by
  have hread : L.loads (responseText F resp ++ t) = some (responseJson resp) := by
    rw [hL.loads]
    unfold clientLoads responseText
    rw [String.toList_append, String.toList_ofList, C60_data F _ (sendable_response F hs hd)]
    rcases ht with rfl | rfl
    · intro c hc; cases hc
    · intro c hc
      right; right; left
      simpa using hc
  have hreply : Client.replyDto L (responseJson resp) = .ok ⟨resp.status, valJson resp.data⟩ := by
    unfold responseJson Client.replyDto
    simp only [Dict.get?, if_true, if_neg (show ¬ "span_key" = "status" by decide), if_neg (show ¬ "span_key" = "data" by decide),
      if_neg (show ¬ "status" = "data" by decide)]
    cases h : resp.spanKey with
    | none => rfl
    | some k =>
      have hok : L.spanOk (spanJson k) = true := by rw [hL.span, spanOf_spanJson (hk k h)]; rfl
      have : spanJson k ≠ .null := by unfold spanJson; intro h; cases h
      simp only
      rw [if_pos hok]
  refine ⟨decode_encode _, ⟨_, hread, hreply, _, rfl, ?_⟩, ?_⟩
  · cases h : resp.spanKey with
    | none => rfl
    | some k => exact spanOf_spanJson (hk k h)
  · unfold Client.interpret
    simp only [hread, hreply]

theorem handles_route {S : Server SpanKey σ} {text : String} {j : Json} {r : Req SpanKey} {w w' : World SpanKey σ} {resp : Resp SpanKey}
    (h1 : S.loads text = .ok j) (h2 : requestDto S j = .ok r) (h : Handles S r w resp w') : routeRequest S text w = (.ok resp, w') := by
  unfold routeRequest
  rw [h1]; simp only
  rw [h2]; simp only
  rcases h with h | ⟨e, h, h'⟩
  · rw [h]
  · rw [h]; simp only [h']

theorem handles_span {S : Server SpanKey σ} {r : Req SpanKey} {w w' : World SpanKey σ} {resp : Resp SpanKey} (h : Handles S r w resp w') :
    resp.spanKey = some r.spanKey := by
  rcases h with h | ⟨e, -, h⟩
  · unfold withContext serve M.bind at h
    simp only at h
    split at h
    · cases h; rfl
    · cases h
  · unfold respond at h
    split at h <;> cases h <;> rfl

theorem read_line (limit : Nat) {l : Bytes} (hl : IsLine l) (hlen : l.length ≤ limit + 1) : ∃ x, l = x ++ [10] ∧ readline limit l false = .line l [] := by
  obtain ⟨x, rfl, hx⟩ := hl
  have := readline_line limit x [] hx false
  rw [List.length_append, List.length_singleton] at hlen
  rw [if_neg (by omega)] at this
  exact ⟨x, rfl, this⟩

/-- **C60, whole calls.** A client sends a request over a stream: the server reads one line, handles an equal request, writes one line; the client
reads one line and comes to the result that belongs to the response's status and data. -/
theorem C60_call {F : Floats} (hF : WritesNumbers F) {E : Endpoint SpanKey σ} (hE : Speaks F E) {L : Client.Lib β} (hL : Hears F L)
    (r : Req SpanKey) (hk : r.spanKey.Valid) (hd : Sendable F r.data) (hlen : (encode (requestLine F r)).length ≤ E.limit + 1)
    {w w' : World SpanKey σ} {resp : Resp SpanKey} (h : Handles E.server r w resp w')
    (hs : (Nat.toDigits 10 resp.status.natAbs).length ≤ 4300) (hd' : Sendable F (valJson resp.data))
    (limit : Nat) (hlen' : (encode (responseText F resp ++ "\n")).length ≤ limit + 1) :
    ∃ line out text, readline E.limit (encode (requestLine F r)) false = .line line [] ∧ answer E line w = (some out, w') ∧
      readline limit out false = .line out [] ∧ decode out = some text ∧
      Client.interpret L (some text) = Client.conclude L ⟨resp.status, valJson resp.data⟩ := by
  obtain ⟨⟨hl1, hb1⟩, ⟨hl2, -⟩⟩ := C60_line F hF r resp
  obtain ⟨-, -, e1⟩ := read_line E.limit hl1 hlen
  obtain ⟨-, -, e2⟩ := read_line limit hl2 hlen'
  obtain ⟨d1, j, q1, q2⟩ := C60_request hE r hk hd
  have hk' : ∀ k, resp.spanKey = some k → k.Valid := by
    intro k hk2; rw [handles_span h] at hk2; cases hk2; exact hk
  obtain ⟨d2, -, i2⟩ := C60_response hL resp hk' hs hd' "\n" (.inr rfl)
  refine ⟨_, _, _, e1, ?_, e2, d2, i2⟩
  unfold answer
  rw [if_neg (by rw [heartbeat_iff]; exact hb1), d1]
  simp only
  rw [handles_route q1 q2 h]
  simp only
  rw [hE.dumps]

/-- The endpoint answers with the request's data. -/
def exHandler : Handler SpanKey Nat where
  name := "echo_function"
  route := "echo"
  build f := .ok (.obj f)
  body := .standard [{ name := "dto" }] fun kw => M.pure ((kw.get? "dto").getD .none)

/-- A server with this one route. -/
def exE : Endpoint SpanKey Nat where
  server := { loads := serverLoads exF, spanOf := spanOf, why := fun _ => "why", table := [("echo", exHandler)], middlewares := [] }
  dumps r := some (responseText exF r)
  limit := 65536

/-- A client that keeps the fields of the response. -/
def exL : Client.Lib (List (String × Json)) where
  loads := clientLoads exF
  spanOk j := (spanOf j).isSome
  text _ := "text"
  numeral _ := "n"
  build fs := some fs

theorem exE_speaks : Speaks exF exE := ⟨rfl, rfl, fun _ => rfl⟩
theorem exL_hears : Hears exF exL := ⟨rfl, fun _ => rfl⟩

def exReq : Req SpanKey := ⟨"echo", sampleKey, exJson⟩

example : ∃ resp w', Handles exE.server exReq ⟨none, [], [], 0⟩ resp w' ∧ resp.status = 0 ∧ valJson resp.data = exJson ∧
    (encode (requestLine exF exReq)).length ≤ exE.limit + 1 ∧ (encode (responseText exF resp ++ "\n")).length ≤ 65536 + 1 ∧
    Client.conclude exL ⟨resp.status, valJson resp.data⟩ = .ok (match exJson with | .obj fs => fs | _ => []) :=
  ⟨⟨some sampleKey, 0, .model exJson⟩, _, .inl rfl, rfl, rfl, by decide +kernel, by decide +kernel, rfl⟩

/-! ### Damaged messages -/

/-- **C60, cut off.** A response that is cut off anywhere before its end, as when the server dies while sending, is never taken for a response. -/
theorem C60_cut {F : Floats} {L : Client.Lib β} (hL : Hears F L) (resp : Resp SpanKey) (hs : (Nat.toDigits 10 resp.status.natAbs).length ≤ 4300)
    (hd : Sendable F (valJson resp.data)) (got lost : Bytes) (h : encode (responseText F resp) = got ++ lost) (hlost : lost ≠ []) :
    decode got = none ∨ ∃ text, decode got = some text ∧ Client.interpret L (some text) = .error .json := by
  cases hg : decode got with
  | none => exact .inl rfl
  | some text =>
    refine .inr ⟨text, rfl, ?_⟩
    have hgot : got = text.toList.flatMap String.utf8EncodeChar := by
      unfold decode String.fromUTF8? at hg
      split at hg
      · next hv =>
        cases hg
        rw [← encode_ofList, String.ofList_toList]
        unfold encode String.fromUTF8
        rfl
      · cases hg
    have hp := encode_prefix text.toList (write F (responseJson resp)) lost (by
      rw [← hgot, ← h]; unfold responseText; rw [encode_ofList])
    obtain ⟨q, hq⟩ := hp
    have hqne : q ≠ [] := by
      rintro rfl
      rw [List.append_nil] at hq
      unfold responseText at h
      rw [encode_ofList, hq, ← hgot] at h
      exact hlost (List.append_right_eq_self.1 h.symm)
    obtain ⟨e, he⟩ := loads_cut F _ (sendable_response F hs hd) hq hqne
    unfold Client.interpret
    have : L.loads text = none := by
      rw [hL.loads]; unfold clientLoads; rw [he]
    simp only [this]

/-- **C60, white space.** White space before and after a message on its line changes nothing. -/
theorem C60_white {F : Floats} {E : Endpoint SpanKey σ} (hE : Speaks F E) (r : Req SpanKey) (b t : Str) (hb : ∀ c ∈ b, White c)
    (ht : ∀ c ∈ t, White c) (w : World SpanKey σ) :
    routeRequest E.server (String.ofList (b ++ write F (requestJson r) ++ t) ++ "\n") w =
      routeRequest E.server (String.ofList (write F (requestJson r)) ++ "\n") w := by
  have hl : E.server.loads (String.ofList (b ++ write F (requestJson r) ++ t) ++ "\n") =
      E.server.loads (String.ofList (write F (requestJson r)) ++ "\n") := by
    rw [hE.loads]
    unfold serverLoads
    have e : ∀ x : Str, (String.ofList x ++ "\n").toList = x ++ "\n".toList := fun x => by rw [String.toList_append, String.toList_ofList]
    rw [e, e]
    have hw : write F (requestJson r) = _ := wrapped F _
    have key : ∀ t : Str, (∀ c ∈ t, White c) → Str.strip (write F (requestJson r) ++ t) = write F (requestJson r) := by
      intro t ht
      rw [hw]
      exact strip_wrapped '{' '}' _ t (by decide) (by decide) fun c hc => (isWhite_iff c).2 (ht c hc)
    have hn : ∀ c ∈ "\n".toList, White c := by decide
    have hdrop : Str.strip (b ++ write F (requestJson r) ++ t ++ "\n".toList) = Str.strip (write F (requestJson r) ++ (t ++ "\n".toList)) := by
      unfold Str.strip
      rw [List.append_assoc, List.append_assoc, List.dropWhile_append]
      have : b.dropWhile Str.isWhite = [] := dropWhile_all fun c hc => (isWhite_iff c).2 (hb c hc)
      simp only [this, List.isEmpty_nil, if_true]
    rw [hdrop, key _ (fun c hc => (List.mem_append.1 hc).elim (ht c) (hn c)), key _ hn]
  unfold routeRequest
  rw [hl]

/-- `C60_white`: a line that ends as over Telnet. -/
example : ∀ c ∈ "\t \r".toList, White c := by decide

/-- **C60, one message per line.** A line on which something follows the message is refused with status 100, and no handler runs. -/
theorem C60_trailing {F : Floats} {E : Endpoint SpanKey σ} (hE : Speaks F E) (r : Req SpanKey) (hd : Sendable F r.data) (t : Str) (c : Char)
    (hc : ¬ White c) (w : World SpanKey σ) :
    ∃ d, routeRequest E.server (String.ofList (write F (requestJson r) ++ t ++ [c]) ++ "\n") w = (.ok ⟨none, 100, d⟩, w) := by
  have hl : E.server.loads (String.ofList (write F (requestJson r) ++ t ++ [c]) ++ "\n") = .error (.json "") := by
    rw [hE.loads]
    unfold serverLoads
    rw [String.toList_append, String.toList_ofList]
    have hw : write F (requestJson r) = _ := wrapped F _
    have hstrip : Str.strip (write F (requestJson r) ++ t ++ [c] ++ "\n".toList) = write F (requestJson r) ++ (t ++ [c]) := by
      rw [hw]
      have := strip_wrapped '{' c (writeFields F [("route_key", .str r.routeKey), ("span_key", spanJson r.spanKey), ("data", r.data)] ++ ['}'] ++ t)
        "\n".toList (by decide) (by rw [Bool.eq_false_iff, ne_eq, isWhite_iff]; exact hc) (by decide)
      simpa only [List.cons_append, List.append_assoc, List.nil_append] using this
    have hcw : isWs c = false := by
      rw [Bool.eq_false_iff]
      intro hw
      simp only [isWs, Bool.or_eq_true, decide_eq_true_eq] at hw
      apply hc
      rcases hw with ((rfl | rfl) | rfl) | rfl <;> decide
    have := loads_more F [("route_key", .str r.routeKey), ("span_key", spanJson r.spanKey), ("data", r.data)] (sendable_request F hd) (t ++ [c])
      ⟨c, by simp, hcw⟩
    rw [hstrip, show loads F (write F (requestJson r) ++ (t ++ [c])) = .error .decode from this]
  refine ⟨.other (.str ""), ?_⟩
  unfold routeRequest
  rw [hl]
  rfl

example : ∃ got lost, encode (responseText exF ⟨some sampleKey, 0, .model exJson⟩) = got ++ lost ∧ lost ≠ [] ∧ got.length = 100 :=
  ⟨(encode (responseText exF ⟨some sampleKey, 0, .model exJson⟩)).take 100, (encode (responseText exF ⟨some sampleKey, 0, .model exJson⟩)).drop 100,
    (List.take_append_drop _ _).symm, by decide +kernel, by decide +kernel⟩

/-! ### Where messages change -/

/-- **C60 is false for NaN and the infinities**: they arrive as `None`. -/
theorem C60_nonfinite_refuted (F : Floats) (r : String) (h : F.text r = none) :
    loads F (write F (.float r)) = .ok .null := by
  have := C60_data F .null (by simp only [Sendable]) [] (by intro c hc; cases hc)
  rw [List.append_nil, write] at this
  rw [write, h, Option.getD_none]
  exact this

example : exF.text "nan" = none := by decide +kernel

theorem scanNumber_long (F : Floats) (n : Nat) (hn : 4300 < (Nat.toDigits 10 n).length) {r : Str} (hr : Ends r) :
    ∃ c t, writeInt n ++ r = c :: t ∧ c.isDigit = true ∧ scanNumber F (c :: t) = .error .digits := by
  obtain ⟨d, ds, h⟩ := List.exists_cons_of_ne_nil (Nat.toDigits_ne_nil (n := n) (b := 10))
  have hd : d.isDigit = true := Str.digit_ofNat n d (by unfold Str.ofNat; rw [h]; exact .head _)
  refine ⟨d, ds ++ r, ?_, hd, ?_⟩
  · rw [show writeInt n = Nat.toDigits 10 n from rfl, h, List.cons_append]
  · refine scanNumber_pos F (by rintro rfl; exact absurd hd (by decide)) ?_
    rw [← List.cons_append, ← h]
    unfold unsigned
    rw [whole_digits (toDigits_whole n) fun c hc => (hr c hc).1]
    simp only
    rw [fraction_none fun h => (hr _ h).2.1 rfl]
    simp only
    rw [exponent_none (fun h => (hr _ h).2.2.1 rfl) (fun h => (hr _ h).2.2.2 rfl)]
    simp only [and_self, if_true]
    unfold intOf
    rw [if_pos (by omega)]

theorem scan_long (F : Floats) (n m : Nat) (hn : 4300 < (Nat.toDigits 10 n).length) {r : Str} (hr : Ends r) :
    scan F (m + 1) (write F (.int n) ++ r) = .error .digits ∧ skip (write F (.int n) ++ r) = write F (.int n) ++ r := by
  obtain ⟨c, t, h1, h2, h3⟩ := scanNumber_long F n hn hr
  rw [write, h1, scan_number F m (.inr h2), h3]
  exact ⟨rfl, skip_of (not_ws_number (.inr h2)).1⟩

/-- The last of several fields is such a number. -/
theorem scanFields_long (F : Floats) (x : String) (n : Nat) (hn : 4300 < (Nat.toDigits 10 n).length) (r : Str) :
    ∀ (fs : List (String × Json)) (_ : SendableFields F fs) (m : Nat) (t : Str), (writeFields F (fs ++ [(x, .int n)])).length + 1 < m →
      writeFields F (fs ++ [(x, .int n)]) = '"' :: t → scanFields F m (t ++ '}' :: r) = .error .digits
  | _, _, 0, _, h, _ => absurd h (by omega)
  | [], _, m + 1, t, hm, ht => by
    rw [List.nil_append] at ht hm
    rw [writeFields] at hm ht
    simp only [List.length_append, List.length_cons] at hm
    rw [writeStr_append] at ht
    obtain rfl := (List.cons.inj ht).2
    rw [scanFields, List.append_assoc, scanStr_text]
    simp only [List.cons_append]
    rw [skip_of (by decide)]
    simp only [if_true]
    obtain ⟨k, rfl⟩ : ∃ k, m = k + 1 := ⟨m - 1, by omega⟩
    obtain ⟨e1, e2⟩ := scan_long F n k hn (r := '}' :: r) (.ofHead (by decide))
    rw [e2, e1]
  | (k, v) :: fs, hj, m + 1, t, hm, ht => by
    obtain ⟨y, ys, hy⟩ : ∃ y ys, fs ++ [(x, .int n)] = y :: ys := by
      cases fs with
      | nil => exact ⟨_, _, rfl⟩
      | cons y ys => exact ⟨_, _, rfl⟩
    have ih := scanFields_long F x n hn r fs (by rw [SendableFields] at hj; exact hj.2) m
    rw [List.cons_append, hy] at ht hm
    rw [hy] at ih
    rw [SendableFields] at hj
    rw [writeFields] at hm ht
    simp only [List.length_append, List.length_cons] at hm
    rw [writeStr_append] at ht
    obtain rfl := (List.cons.inj ht).2
    rw [scanFields, List.append_assoc, scanStr_text]
    simp only [List.cons_append, List.append_assoc]
    rw [skip_of (by decide)]
    simp only [if_true]
    obtain ⟨c, t, h1, h2, -⟩ := write_head F v hj.1
    have sv := scan_write F v hj.1 m (',' :: (writeFields F (y :: ys) ++ '}' :: r)) (by omega) (.ofHead (by decide))
    rw [h1, List.cons_append] at sv ⊢
    rw [skip_of h2, sv]
    simp only
    rw [skip_of (by decide)]
    simp only
    have hh : ∃ t, writeFields F (y :: ys) = '"' :: t := by
      cases ys with
      | nil => exact ⟨_, by rw [writeFields, writeStr]; rfl⟩
      | cons x xs => exact ⟨_, by rw [writeFields, writeStr]; rfl⟩
    obtain ⟨t', h3⟩ := hh
    have ih2 := ih t' (by omega) h3
    rw [if_neg (by decide), if_pos trivial, h3, List.cons_append, skip_of (by decide)]
    simp only [if_true]
    rw [ih2]

/-- **C60 is false for whole numbers of more than 4300 digits**: they are written, but the server cannot read them; it answers with status 999
and without a span key, and the handler is not run. -/
theorem C60_digits_refuted {F : Floats} {E : Endpoint SpanKey σ} (hE : Speaks F E) (r : Req SpanKey) (n : Nat) (hd : r.data = .int n)
    (hn : 10 ^ 4300 ≤ n) (w : World SpanKey σ) : ∃ d, routeRequest E.server (requestLine F r) w = (.ok ⟨none, 999, d⟩, w) := by
  have hlen : 4300 < (Nat.toDigits 10 n).length := by
    by_contra hc
    have := (Nat.length_toDigits_le_iff (b := 10) (by omega) (show 0 < 4300 by omega)).1 (Nat.le_of_not_lt hc)
    omega
  have hl : E.server.loads (requestLine F r) = .error (.py .valueError) := by
    rw [hE.loads]
    unfold serverLoads requestLine
    rw [String.toList_append, String.toList_ofList]
    have hw : write F (requestJson r) = _ := wrapped F _
    rw [hw, strip_wrapped '{' '}' _ _ (by decide) (by decide) (by decide)]
    have hf : [("route_key", Json.str r.routeKey), ("span_key", spanJson r.spanKey), ("data", r.data)] =
        [("route_key", Json.str r.routeKey), ("span_key", spanJson r.spanKey)] ++ [("data", .int n)] := by rw [hd]; rfl
    have hh : ∃ t, writeFields F ([("route_key", Json.str r.routeKey), ("span_key", spanJson r.spanKey)] ++ [("data", .int n)]) = '"' :: t :=
      ⟨_, by rw [List.cons_append, List.cons_append, List.nil_append, writeFields, writeStr]; rfl⟩
    obtain ⟨t, ht⟩ := hh
    rw [hf, ht]
    have := scanFields_long F "data" n hlen [] _ (by simp only [SendableFields, Sendable, true_and, and_true]; exact sendable_span F _)
      (('{' :: ('"' :: t ++ ['}'])).length) t (by rw [ht]; simp) ht
    unfold loads
    rw [if_neg (by simp), skip_of (by decide), scan, if_neg (by decide), if_pos rfl, List.cons_append, skip_of (by decide)]
    simp only
    rw [if_neg (by decide), if_pos trivial]
    rw [show ('{' :: ('"' :: (t ++ ['}']))) = '{' :: ('"' :: t ++ ['}']) from rfl, this]
  refine ⟨.other (.str ""), ?_⟩
  unfold routeRequest
  rw [hl]
  rfl

/-- **C60 is false for long responses**: a client that reads lines through a `StreamReader` cannot read a line longer than its limit, although
the server has written it. -/
theorem C60_long_refuted (F : Floats) (hF : WritesNumbers F) (resp : Resp SpanKey) (limit : Nat)
    (hlen : limit + 1 < (encode (responseText F resp ++ "\n")).length) (eof : Bool) :
    readline limit (encode (responseText F resp ++ "\n")) eof = .overrun := by
  obtain ⟨-, ⟨⟨x, hx, hx'⟩, -⟩⟩ := C60_line F hF ⟨"", ⟨0, ⟨0⟩⟩, .null⟩ resp
  rw [hx] at hlen ⊢
  rw [List.length_append, List.length_singleton] at hlen
  have := readline_line limit x [] hx' eof
  rw [if_pos (by omega)] at this
  exact this

end Verif.Wire
