import Verif.Grammar.Keys
import Verif.Grammar.Sound

/-!
# C101: messages may be written by any program that writes JSON
-/

namespace Verif.Grammar

open Verif.Py Verif.Wire Verif.Wire.Spec Verif.Grammar.Spec Verif.Span Verif.Server Verif.Stream

variable {σ : Type}

/-- **C101, texts.** Every JSON text of a value is read as that value: whatever blanks stand between its parts, whichever way characters
are spelled, whatever the order of members. -/
theorem C101_text {lax : Bool} {F : Floats} {j : Json} {t : Str} (h : Text lax F j t) {b b' : Str} (hb : Blank b) (hb' : Blank b') : loads F (b ++ (t ++ b')) = .ok j :=
  loads_text h hb hb'

local instance (t : Str) : Decidable (Blank t) := by unfold Blank; infer_instance

theorem spelling_raw : ∀ s : Str, (∀ c ∈ s, c ≠ '"' ∧ c ≠ '\\' ∧ 32 ≤ c.toNat) → Spelling s s
  | [], _ => .nil
  | c :: s, h => .cons (t := [c]) (.raw (h c (by simp)).1 (h c (by simp)).2.1 (h c (by simp)).2.2) (spelling_raw s fun x hx => h x (by simp [hx]))

/-- A list whose text has blanks, an escaped slash, a character by its number with digits of both cases, and one by a pair of surrogates. -/
theorem exText : Text false exF (.arr [.str "a/î😀", .int 0, .obj [("k", .null)]]) "[ \"a\\/\\u00eE\\uD83d\\uDE00\"\t, -0,{\"k\" :null }\r\n]".toList := by
  have sp : Spelling "a/î😀".toList "a\\/\\u00eE\\uD83d\\uDE00".toList :=
    .cons (t := ['a']) (.raw (by decide) (by decide) (by decide)) (.cons (t := ['\\', '/']) .slash
      (.cons (t := ['\\', 'u', '0', '0', 'e', 'E']) (.unit ⟨'0', '0', 'e', 'E', 0, 0, 14, 14, rfl, .inl rfl, .inl rfl, .inl rfl, .inr rfl, rfl⟩)
        (.cons (t := ['\\', 'u', 'D', '8', '3', 'd'] ++ ['\\', 'u', 'D', 'E', '0', '0'])
          (.pair (u := 0xd83d) (v := 0xde00) ⟨'D', '8', '3', 'd', 13, 8, 3, 13, rfl, .inr rfl, .inl rfl, .inl rfl, .inl rfl, rfl⟩
            ⟨'D', 'E', '0', '0', 13, 14, 0, 0, rfl, .inr rfl, .inr rfl, .inl rfl, .inl rfl, rfl⟩ (by decide) (by decide) (by decide)) .nil)))
  exact .arr (b := [' ']) (by decide) (.more (b := ['\t']) (b' := [' ']) (.str sp) (by decide) (by decide)
    (.more (v := .int 0) (t := ['-', '0']) (b := []) (b' := []) (.minus 0 (by decide)) (by decide) (by decide)
      (.one (b := ['\r', '\n']) (.obj (b := []) (by decide) (.one (s := ['k']) (b := [' ']) (b' := []) (b'' := [' '])
        (spelling_raw _ (by decide)) (by decide) (by decide) .null (by decide)) (by decide)) (by decide))))

example : loads exF "[ \"a\\/\\u00eE\\uD83d\\uDE00\"\t, -0,{\"k\" :null }\r\n]".toList = .ok (.arr [.str "a/î😀", .int 0, .obj [("k", .null)]]) := by
  have := C101_text exText (b := []) (b' := []) (by decide) (by decide)
  rwa [List.nil_append, List.append_nil] at this

/-- **C101, exactly.** What can be read is what has a text: RFC 8259, and beyond it `NaN`, `Infinity`, `-Infinity` and repeated names. -/
theorem C101_exactly {F : Floats} {s : Str} {j : Json} :
    loads F s = .ok j ↔ ∃ b t b', s = b ++ (t ++ b') ∧ Blank b ∧ Blank b' ∧ Text true F j t := by
  constructor
  · exact loads_sound
  · rintro ⟨b, t, b', rfl, hb, hb', h⟩
    exact loads_text h hb hb'

example : loads exF "{\"a\":1,\"b\":2,\"a\":NaN}".toList = .ok (.obj [("a", .float "nan"), ("b", .int 2)]) := by decide +kernel

/-- **C101, one value.** A text is the text of one value only. -/
theorem C101_unambiguous {lax : Bool} {F : Floats} {j j' : Json} {t : Str} (h : Text lax F j t) (h' : Text lax F j' t) : j = j' := by
  have e := loads_text h (b := []) (b' := []) (by simp [Blank]) (by simp [Blank])
  have e' := loads_text h' (b := []) (b' := []) (by simp [Blank]) (by simp [Blank])
  rw [e] at e'
  exact Except.ok.inj e'

/-- **C101, keys.** The span key is read from either case of digits, and from a span identifier given as a number. -/
theorem C101_key {j : Json} {k : SpanKey} (h : KeyIn j k) : spanOf j = some k := spanOf_keyIn h

/-- A key with letters of both cases and the span identifier as a number. -/
def exKeyJson : Json := .obj [("span_id", .int 7), ("trace_id", .str "0000000A-0000-0000-0000-00000000000b")]

theorem exKeyIn : KeyIn exKeyJson ⟨0xa * 2 ^ 96 + 0xb, ⟨7⟩⟩ :=
  ⟨_, rfl, ⟨"0000000A-0000-0000-0000-00000000000b", rfl, "0000000A".toList, "0000".toList, "0000".toList, "0000".toList, "00000000000b".toList,
    rfl, rfl, rfl, rfl, rfl, rfl, [0, 0, 0, 0, 0, 0, 0, 10, 0, 0, 0, 0, 0, 0, 0, 0, 0, 0, 0, 0, 0, 0, 0, 0, 0, 0, 0, 0, 0, 0, 0, 11],
    by
      have z : Hex '0' 0 := .inl rfl
      have a : Hex 'A' 10 := .inr rfl
      have b : Hex 'b' 11 := .inl rfl
      show List.Forall₂ Hex ['0', '0', '0', '0', '0', '0', '0', 'A', '0', '0', '0', '0', '0', '0', '0', '0', '0', '0', '0', '0', '0', '0', '0', '0',
        '0', '0', '0', '0', '0', '0', '0', 'b'] _
      simp only [List.forall₂_cons, z, a, b, List.forall₂_nil_left_iff, and_self], by decide +kernel⟩,
    .inr ⟨rfl, by decide, by decide⟩⟩

example : KeyIn (.obj [("trace_id", .str "0000000A-0000-0000-0000-00000000000b"), ("x", .null), ("span_id", .str "000000000000000C")])
    ⟨0xa * 2 ^ 96 + 0xb, ⟨12⟩⟩ := by
  obtain ⟨fs, hfs, ⟨t, ht, htt⟩, -⟩ := exKeyIn
  cases hfs
  have e : t = "0000000A-0000-0000-0000-00000000000b" := by have := Option.some.inj ht; cases this; rfl
  subst e
  refine ⟨_, rfl, ⟨_, rfl, htt⟩, .inl ⟨"000000000000000C", 12, rfl, rfl, ⟨[0, 0, 0, 0, 0, 0, 0, 0, 0, 0, 0, 0, 0, 0, 0, 12], ?_, rfl⟩, rfl⟩⟩
  have z : Hex '0' 0 := .inl rfl
  have c : Hex 'C' 12 := .inr rfl
  show List.Forall₂ Hex ['0', '0', '0', '0', '0', '0', '0', '0', '0', '0', '0', '0', '0', '0', '0', 'C'] _
  simp only [List.forall₂_cons, z, c, List.forall₂_nil_left_iff, and_self]

theorem obj_wrapped {lax : Bool} {F : Floats} {fs : List (String × Json)} {t : Str} (h : Text lax F (.obj fs) t) : ∃ m, t = '{' :: (m ++ ['}']) := by
  cases h with
  | noFields hb => exact ⟨_, rfl⟩
  | obj hb hf hn => rename_i b u; exact ⟨b ++ '"' :: u, by simp⟩
  | repeated _ hb hf => rename_i b u _ _; exact ⟨b ++ '"' :: u, by simp⟩

theorem blank_white {c : Char} (h : c = ' ' ∨ c = '\t' ∨ c = '\n' ∨ c = '\r') : White c := by
  rcases h with rfl | rfl | rfl | rfl <;> decide

theorem strip_parts (s : Str) : ∃ p q, s = p ++ (Str.strip s ++ q) ∧ (∀ c ∈ p, White c) ∧ ∀ c ∈ q, White c := by
  have tw : ∀ s : Str, ∀ c ∈ s.takeWhile Str.isWhite, White c := by
    intro s
    induction s with
    | nil => intro c hc; cases hc
    | cons d s ih =>
      intro c hc
      rw [List.takeWhile_cons] at hc
      split at hc
      · rename_i hd
        rcases List.mem_cons.1 hc with rfl | hc
        · exact (isWhite_iff _).1 hd
        · exact ih c hc
      · cases hc
  refine ⟨s.takeWhile Str.isWhite, ((s.dropWhile Str.isWhite).reverse.takeWhile Str.isWhite).reverse, ?_, tw s, ?_⟩
  · unfold Str.strip
    rw [← List.reverse_append, List.takeWhile_append_dropWhile, List.reverse_reverse, List.takeWhile_append_dropWhile]
  · intro c hc
    exact tw _ c (List.mem_reverse.1 hc)

/-- **C101, requests.** Every JSON text of an object with a route key, a span key and data, whoever wrote it, is read by the server as that
request: members in any order and with others among them, with white space around it. -/
theorem C101_request {lax : Bool} {F : Floats} {E : Endpoint SpanKey σ} (hE : Speaks F E) {fields : List (String × Json)} {t : Str} (h : Text lax F (.obj fields) t)
    {r : Req SpanKey} (h1 : Dict.get? fields "route_key" = some (.str r.routeKey)) {j : Json} (h2 : Dict.get? fields "span_key" = some j)
    (h3 : KeyIn j r.spanKey) (h4 : Dict.get? fields "data" = some r.data) {b b' : Str} (hb : ∀ c ∈ b, White c) (hb' : ∀ c ∈ b', White c) :
    E.server.loads (String.ofList (b ++ (t ++ b'))) = .ok (.obj fields) ∧ requestDto E.server (.obj fields) = .ok r := by
  constructor
  · rw [hE.loads]
    unfold serverLoads
    obtain ⟨m, rfl⟩ := obj_wrapped h
    have hdrop : Str.strip (b ++ ('{' :: (m ++ ['}']) ++ b')) = Str.strip ('{' :: (m ++ ['}']) ++ b') := by
      unfold Str.strip
      rw [List.dropWhile_append]
      have : b.dropWhile Str.isWhite = [] := dropWhile_all fun c hc => (isWhite_iff c).2 (hb c hc)
      simp only [this, List.isEmpty_nil, if_true]
    rw [String.toList_ofList, hdrop, strip_wrapped '{' '}' m b' (by decide) (by decide) fun c hc => (isWhite_iff c).2 (hb' c hc)]
    have := loads_text h (b := []) (b' := []) (by simp [Blank]) (by simp [Blank])
    rw [List.nil_append, List.append_nil] at this
    rw [this]
  · exact (requestDto_iff E.server fields r).2 ⟨h1, ⟨j, h2, by rw [hE.span]; exact spanOf_keyIn h3⟩, h4⟩

/-- **C101, same effect.** Such a text has exactly the effect of the line that the package's own client would write for the request. -/
theorem C101_same {lax : Bool} {F : Floats} {E : Endpoint SpanKey σ} (hE : Speaks F E) {fields : List (String × Json)} {t : Str} (h : Text lax F (.obj fields) t)
    {r : Req SpanKey} (h1 : Dict.get? fields "route_key" = some (.str r.routeKey)) {j : Json} (h2 : Dict.get? fields "span_key" = some j)
    (h3 : KeyIn j r.spanKey) (h4 : Dict.get? fields "data" = some r.data) {b b' : Str} (hb : ∀ c ∈ b, White c) (hb' : ∀ c ∈ b', White c)
    (hk : r.spanKey.Valid) (hd : Sendable F r.data) (w : World SpanKey σ) :
    routeRequest E.server (String.ofList (b ++ (t ++ b'))) w = routeRequest E.server (requestLine F r) w := by
  obtain ⟨e1, e2⟩ := C101_request hE h h1 h2 h3 h4 hb hb'
  obtain ⟨-, j', e3, e4⟩ := C60_request hE r hk hd
  unfold routeRequest
  simp only [e1, e2, e3, e4]

/-- **C101, refused.** A text that is not the text of a value is answered with a failure; no handler runs, nothing changes. -/
theorem C101_refused {F : Floats} {E : Endpoint SpanKey σ} (hE : Speaks F E) (text : String)
    (h : ¬ ∃ b t b' j, text.toList = b ++ (t ++ b') ∧ (∀ c ∈ b, White c) ∧ (∀ c ∈ b', White c) ∧ Text true F j t) (w : World SpanKey σ) :
    ∃ st d, routeRequest E.server text w = (.ok ⟨none, st, d⟩, w) ∧ st ≠ 0 := by
  have hl : ∃ e, loads F (Str.strip text.toList) = .error e := by
    cases hs : loads F (Str.strip text.toList) with
    | error e => exact ⟨e, rfl⟩
    | ok j =>
      exfalso
      obtain ⟨b, t, b', e, hb, hb', ht⟩ := loads_sound hs
      obtain ⟨p, q, e', hp, hq⟩ := strip_parts text.toList
      refine h ⟨p ++ b, t, b' ++ q, j, ?_, ?_, ?_, ht⟩
      · rw [e', e]
        simp only [List.append_assoc]
      · intro c hc
        rcases List.mem_append.1 hc with hc | hc
        · exact hp c hc
        · exact blank_white (hb c hc)
      · intro c hc
        rcases List.mem_append.1 hc with hc | hc
        · exact blank_white (hb' c hc)
        · exact hq c hc
  obtain ⟨e, he⟩ := hl
  have hsl : E.server.loads text = serverLoads F text := by rw [hE.loads]
  unfold serverLoads at hsl
  rw [he] at hsl
  unfold routeRequest
  cases e with
  | decode => exact ⟨_, _, by rw [hsl]; rfl, by decide⟩
  | digits => exact ⟨_, _, by rw [hsl]; rfl, by decide⟩
  | surrogate => exact ⟨_, _, by rw [hsl]; rfl, by decide⟩

example : ¬ ∃ b t b' j, "'a'".toList = b ++ (t ++ b') ∧ (∀ c ∈ b, White c) ∧ (∀ c ∈ b', White c) ∧ Text true exF j t := by
  rintro ⟨b, t, b', j, e, hb, hb', h⟩
  have e : ['\'', 'a', '\''] = b ++ (t ++ b') := e
  have hnil : b = [] := by
    cases b with
    | nil => rfl
    | cons x b =>
      have := hb x List.mem_cons_self
      rw [← (List.cons.inj e).1] at this
      exact absurd this (by decide)
  have hnil' : b' = [] := by
    cases b' using List.reverseRecOn with
    | nil => rfl
    | append_singleton b' x =>
      have hx := hb' x (by simp)
      have := congrArg List.getLast? e
      rw [← List.append_assoc, ← List.append_assoc, List.getLast?_append] at this
      cases this
      exact absurd hx (by decide)
  subst hnil hnil'
  have hl := C101_text h (b := []) (b' := []) (by decide) (by decide)
  rw [← e] at hl
  revert hl
  have : loads exF ['\'', 'a', '\''] = .error .decode := by decide +kernel
  rw [this]
  exact fun h => by cases h

/-- A request with its members in an order of its own, an escape in the route key and blanks. -/
theorem exRequest : Text false exF (.obj [("data", .obj []), ("route_key", .str "a.b"), ("span_key", exKeyJson)])
    "{\"data\":{ } ,\n\"route_key\": \"a\\u002Eb\",\"span_key\":{\"span_id\":7,\"trace_id\":\"0000000A-0000-0000-0000-00000000000b\"}}".toList := by
  have sp : Spelling "a.b".toList "a\\u002Eb".toList :=
    .cons (t := ['a']) (.raw (by decide) (by decide) (by decide)) (.cons (t := ['\\', 'u', '0', '0', '2', 'E'])
      (.unit ⟨'0', '0', '2', 'E', 0, 0, 2, 14, rfl, .inl rfl, .inl rfl, .inl rfl, .inr rfl, rfl⟩) (spelling_raw ['b'] (by decide)))
  have n : Blank [] := by decide
  have r : ∀ s : Str, (∀ c ∈ s, c ≠ '"' ∧ c ≠ '\\' ∧ 32 ≤ c.toNat) → Spelling s s := spelling_raw
  have key : Text false exF exKeyJson _ := .obj n (.more (b := []) (b' := []) (b'' := []) (b3 := []) (r _ (by decide)) n n (.int 7 (by decide)) n n
    (.one (b := []) (b' := []) (b'' := []) (r _ (by decide)) n n (.str (r _ (by decide))) n)) (by decide)
  exact .obj n (.more (b := []) (b' := []) (b'' := [' ']) (b3 := ['\n']) (r "data".toList (by decide)) n n (.noFields (b := [' ']) (by decide)) (by decide) (by decide)
    (.more (b := []) (b' := [' ']) (b'' := []) (b3 := []) (r "route_key".toList (by decide)) n (by decide) (.str sp) n n
      (.one (b := []) (b' := []) (b'' := []) (r "span_key".toList (by decide)) n n key n))) (by decide)

example : Dict.get? [("data", Json.obj []), ("route_key", .str "a.b"), ("span_key", exKeyJson)] "span_key" = some exKeyJson ∧
    KeyIn exKeyJson ⟨0xa * 2 ^ 96 + 0xb, ⟨7⟩⟩ ∧ (⟨0xa * 2 ^ 96 + 0xb, ⟨7⟩⟩ : SpanKey).Valid ∧ Sendable exF (.obj []) :=
  ⟨rfl, exKeyIn, by unfold SpanKey.Valid; decide +kernel, by simp [Sendable, SendableFields]⟩

/-- **C101, what is missing.** A JSON text of an object without `span_key` is answered with the validation-error status, whatever else it holds; no handler runs,
nothing changes. -/
theorem C101_keyless {F : Floats} {E : Endpoint SpanKey σ} (hE : Speaks F E) {text : String} {fields : List (String × Json)}
    (h : loads F (Str.strip text.toList) = .ok (.obj fields)) (hk : Dict.get? fields "span_key" = none) (w : World SpanKey σ) :
    ∃ d, routeRequest E.server text w = (.ok ⟨none, 300, d⟩, w) := by
  have hl : E.server.loads text = .ok (.obj fields) := by
    rw [hE.loads]; unfold serverLoads; rw [h]
  refine ⟨_, C34_schema_partial E.server text fields hl ?_ w⟩
  intro r hv
  obtain ⟨_, ⟨j, h2, _⟩, _⟩ := (requestDto_iff E.server fields r).1 ((requestDto_iff E.server fields r).2 hv)
  rw [hk] at h2
  cases h2

/-- The request of documentation/statistics_keeper.md 72, as `echo` writes it. -/
def documentedStatistics : String :=
  "{\"route_key\": \"eco.statistics.get\", \"data\": {\"type\": \"current\"}, \"uid\": \"abcdef01-abcd-abcd-abcd-abcdef012345\"}\n"

/-- **C101 and the documentation.** The requests by `netcat` that documentation/statistics_keeper.md gives (72, 216, 351) are refused by every server: they
have a `uid` and no `span_key`. (Those of documentation/examples/base.md and echo/server.md are read, see below.) -/
theorem C101_documented_refuted {E : Endpoint SpanKey σ} (hE : Speaks exF E) (w : World SpanKey σ) :
    ∃ d, routeRequest E.server documentedStatistics w = (.ok ⟨none, 300, d⟩, w) :=
  C101_keyless hE (fields := [("route_key", .str "eco.statistics.get"), ("data", .obj [("type", .str "current")]),
    ("uid", .str "abcdef01-abcd-abcd-abcd-abcdef012345")]) (by decide +kernel) (by decide +kernel) w

/-- The request of documentation/examples/base.md 29. -/
def documentedBase : String :=
  "{\"span_key\": {\"trace_id\": \"12345678-1234-1234-1234-1234567890ab\", \"span_id\": \"1234567890abcdef\"}, \"route_key\": \"eco.statistics.get\", \"data\": {\"type\": \"current\"}}\n"

/-- It is read as it is meant. -/
example {E : Endpoint SpanKey σ} (hE : Speaks exF E) : ∃ fields, E.server.loads documentedBase = .ok (.obj fields) ∧
    requestDto E.server (.obj fields) = .ok ⟨"eco.statistics.get", ⟨0x123456781234123412341234567890ab, ⟨0x1234567890abcdef⟩⟩, .obj [("type", .str "current")]⟩ := by
  refine ⟨[("span_key", .obj [("trace_id", .str "12345678-1234-1234-1234-1234567890ab"), ("span_id", .str "1234567890abcdef")]),
    ("route_key", .str "eco.statistics.get"), ("data", .obj [("type", .str "current")])], ?_, ?_⟩
  · rw [hE.loads]; decide +kernel
  · refine (requestDto_iff E.server _ _).2 ⟨by decide +kernel, ⟨_, rfl, ?_⟩, by decide +kernel⟩
    rw [hE.span]; decide +kernel

end Verif.Grammar
