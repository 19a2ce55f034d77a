import Verif.Server.Lemmas

/-!
# Properties of request handling: C34, C35, C36, C39, C40, C41
-/

namespace Verif.Server

open Verif.Py Verif.Server.Spec

variable {K σ : Type}

deriving instance DecidableEq for Except

/-! ### Examples -/

/-- Three texts: `"bad"` is not JSON, `"[]"` is not an object, `"a"`, `"b"`, `"c"`, `"d"` are requests with span
keys 1, 2, 3, 4; every other text is an object without the fields of a request. -/
def exLoads (text : String) : Except Exc Json :=
  let req (k : Int) (route : String) (data : Json) : Except Exc Json :=
    .ok (.obj [("route_key", .str route), ("span_key", .int k), ("data", data)])
  if text = "bad" then .error (.json "Expecting value")
  else if text = "[]" then .ok (.arr [])
  else if text = "a" then req 1 "echo" (.obj [("x", .int 7)])
  else if text = "b" then req 2 "fail" (.obj [])
  else if text = "c" then req 3 "nowhere" (.obj [])
  else if text = "d" then req 4 "nest" (.obj [])
  else .ok (.obj [])

/-- Span keys are numbers. -/
def exSpan : Json → Option Int
  | .int i => some i
  | _ => none

/-- A hook that counts its calls and passes its value on. -/
def exHook (name : String) : Middleware Int Nat where
  name := name
  before kw := fun w => (.ok ((kw.get? "protocol_dto").getD .none), { w with app := w.app + 1 })
  after kw := fun w => (.ok ((kw.get? "response_dto").getD .none), { w with app := w.app + 1 })

/-- Returns its data transfer object. -/
def exEcho : Handler Int Nat where
  name := "echo_function"
  route := "echo"
  build f := .ok (.obj f)
  body := .standard [{ name := "dto" }] fun kw => M.pure ((kw.get? "dto").getD .none)

/-- Reports a processing failure. -/
def exFail : Handler Int Nat where
  name := "fail_function"
  route := "fail"
  build f := .ok (.obj f)
  body := .standard [{ name := "span_key" }] fun _ => M.raise (.app "no luck")

/-- The example server. -/
def exServer : Server Int Nat where
  loads := exLoads
  spanOf := exSpan
  why _ := "fields missing"
  table := [("echo", exEcho), ("fail", exFail)]
  middlewares := [exHook "first", exHook "second"]

/-- The world before the first request. -/
def exWorld : World Int Nat where
  ctx := none
  trace := []
  served := []
  app := 0

theorem exServer_silent : Each Silent exServer where
  before m hm kw w := by
    simp only [exServer, List.mem_cons, List.not_mem_nil, or_false] at hm
    rcases hm with rfl | rfl <;> rfl
  after m hm kw w := by
    simp only [exServer, List.mem_cons, List.not_mem_nil, or_false] at hm
    rcases hm with rfl | rfl <;> rfl
  fn e he ps f hb kw w := by
    simp only [exServer, List.mem_cons, List.not_mem_nil, or_false] at he
    rcases he with rfl | rfl <;> (cases hb; rfl)
  run e he f hb kw := by
    simp only [exServer, List.mem_cons, List.not_mem_nil, or_false] at he
    rcases he with rfl | rfl <;> cases hb

/-! ### C34: every request text gets one response -/

/-- The text is a request: a JSON object with a route key, a span key and data. -/
def Parsed (S : Server K σ) (text : String) (r : Req K) : Prop :=
  ∃ fields, S.loads text = .ok (.obj fields) ∧ Valid S.spanOf fields r

theorem requestDto_iff (S : Server K σ) (fields : List (String × Json)) (r : Req K) :
    requestDto S (.obj fields) = .ok r ↔ Valid S.spanOf fields r := by
  unfold Valid
  simp only [requestDto]
  constructor
  · intro h
    split at h
    · rename_i route sk d h1 h2 h3
      split at h
      · rename_i k hk
        cases h
        exact ⟨h1, ⟨sk, h2, hk⟩, h3⟩
      · cases h
    · cases h
  · rintro ⟨h1, ⟨j, h2, h3⟩, h4⟩
    rw [h1, h2, h4]
    simp [h3]

theorem requestDto_invalid (S : Server K σ) (fields : List (String × Json)) (h : ∀ r, ¬ Valid S.spanOf fields r) :
    requestDto S (.obj fields) = .error (.validation (S.why fields)) := by
  cases hr : requestDto S (.obj fields) with
  | ok r => exact absurd ((requestDto_iff S fields r).1 hr) (h r)
  | error e =>
    simp only [requestDto] at hr
    split at hr
    · split at hr <;> cases hr; rfl
    · cases hr; rfl

/-- Malformed JSON is answered with the parse-error status; nothing else happens. -/
theorem C34_malformed (S : Server K σ) (text msg : String) (h : S.loads text = .error (.json msg)) (w : World K σ) :
    routeRequest S text w = (.ok { spanKey := none, status := 100, data := .other (.str msg) }, w) := by
  unfold routeRequest
  rw [h]
  rfl

/-- An object that is not a request is answered with the validation-error status; nothing else happens. -/
theorem C34_schema_partial (S : Server K σ) (text : String) (fields : List (String × Json))
    (h : S.loads text = .ok (.obj fields)) (hv : ∀ r, ¬ Valid S.spanOf fields r) (w : World K σ) :
    routeRequest S text w = (.ok { spanKey := none, status := 300, data := .other (.str (S.why fields)) }, w) := by
  unfold routeRequest
  simp only [h, requestDto_invalid S fields hv]
  rfl

example : routeRequest exServer "bad" exWorld =
    (.ok { spanKey := none, status := 100, data := .other (.str "Expecting value") }, exWorld) :=
  C34_malformed exServer "bad" _ rfl _

example : routeRequest exServer "{}" exWorld =
    (.ok { spanKey := none, status := 300, data := .other (.str "fields missing") }, exWorld) :=
  C34_schema_partial exServer "{}" [] rfl (by rintro r ⟨h, _⟩; simp [Dict.get?] at h) _

theorem status_catchApp (route : String) (m : M K σ (Val K)) (w : World K σ) :
    status (catchApp route m w).1 = status (m w).1 ∧ (catchApp route m w).2 = (m w).2 := by
  unfold catchApp
  rcases m w with ⟨r, w'⟩
  rcases r with e | v
  · cases e <;> exact ⟨rfl, rfl⟩
  · exact ⟨rfl, rfl⟩

theorem told_catchApp (route : String) (m : M K σ (Val K)) (w : World K σ) : told route (catchApp route m w).1 = told route (m w).1 := by
  unfold catchApp
  rcases m w with ⟨r, w'⟩
  rcases r with e | v
  · cases e <;> first | rfl | skip
    next msg =>
      simp only [told, routerProcessing, routingException, statusProcessing]
      congr 2
      simp [toString, String.append_assoc]
      rfl
  · rfl

theorem respond_status' (k : Option K) (route : String) (e : Exc) (he : ∀ m, e ≠ .app m) :
    match status (.error e : Except Exc (Val K)) with
    | none => respond k e = .error .base
    | some s => ∃ resp, respond k e = .ok resp ∧ resp.status = s ∧ resp.spanKey = k ∧ resp.data = told route (.error e) := by
  cases e <;> simp only [status] <;> first | rfl | exact ⟨_, rfl, rfl, rfl, rfl⟩ | (next m => exact absurd rfl (he m))

theorem catchApp_ne_app (route : String) (m : M K σ (Val K)) (w : World K σ) :
    ∀ msg, (catchApp route m w).1 ≠ .error (.app msg) := by
  intro msg
  unfold catchApp
  rcases m w with ⟨r, w'⟩
  rcases r with e | v
  · cases e <;> simp [routerProcessing, routingException]
  · simp

/-- The response to a parsed request, by what the router did. -/
theorem routeRequest_route {S : Server K σ} {text : String} {r : Req K} (hp : Parsed S text r) (w : World K σ) :
    let w1 : World K σ := { w with ctx := some r.spanKey, trace := w.trace ++ [.enter r.spanKey] }
    let out := route S r [("span_key", .span r.spanKey)] w1
    (routeRequest S text w).1 = (match out.1 with
      | .ok v => .ok { spanKey := some r.spanKey, status := 0, data := v }
      | .error e => respond (some r.spanKey) e) ∧
    (routeRequest S text w).2.trace = out.2.trace ++ [.leave] ∧
    (routeRequest S text w).2.app = out.2.app ∧
    (routeRequest S text w).2.ctx = w.ctx := by
  obtain ⟨f, hl, hv⟩ := hp
  have hd := (requestDto_iff S f r).2 hv
  unfold routeRequest
  simp only [hl, hd, withContext, serve, M.bind]
  rcases route S r [("span_key", .span r.spanKey)]
    { w with ctx := some r.spanKey, trace := w.trace ++ [.enter r.spanKey] } with ⟨res, w2⟩
  cases res <;> exact ⟨rfl, rfl, rfl, rfl⟩

/-- A request for a known route is answered once, with the status that belongs to the way its run through
hooks and handler ended (`Spec.status`), with the request's own key and with the result or the text of
the exception as data (`Spec.told`); only a `BaseException` in application code leaves it unanswered.
Missing from the full property: JSON that is not an object, and application code that raises
`JSONDecodeError` or `ValidationError` itself (see the refutations). -/
theorem C34_status_partial {S : Server K σ} (hS : Each Silent S) {text : String} {r : Req K} (hp : Parsed S text r)
    {h : Handler K σ} (hh : S.table.get? r.routeKey = some h) (w : World K σ) :
    ∃ es res, (routeRequest S text w).2.trace = w.trace ++ (.enter r.spanKey :: (es ++ [.leave])) ∧
      Run r.spanKey (S.middlewares.map (·.name)) h.name (Entry h r.spanKey) (.req r) es res ∧
      match status res with
      | none => (routeRequest S text w).1 = .error .base
      | some s => ∃ resp, (routeRequest S text w).1 = .ok resp ∧ resp.status = s ∧ resp.spanKey = some r.spanKey ∧
          resp.data = told r.routeKey res := by
  obtain ⟨hout, htr, _, _⟩ := routeRequest_route hp w
  have hrt : route S r [("span_key", .span r.spanKey)] =
      catchApp r.routeKey (routeBody S h r [("span_key", .span r.spanKey)]) := by
    unfold route; rw [hh]
  rw [hrt] at hout htr
  obtain ⟨es, ht, hrun⟩ := routeBody_run hS hh r.spanKey
    { w with ctx := some r.spanKey, trace := w.trace ++ [.enter r.spanKey] }
  obtain ⟨hs, hw⟩ := status_catchApp r.routeKey (routeBody S h r [("span_key", .span r.spanKey)])
    { w with ctx := some r.spanKey, trace := w.trace ++ [.enter r.spanKey] }
  have hna := catchApp_ne_app r.routeKey (routeBody S h r [("span_key", .span r.spanKey)])
    { w with ctx := some r.spanKey, trace := w.trace ++ [.enter r.spanKey] }
  refine ⟨es, _, ?_, hrun, ?_⟩
  · rw [htr, hw, ht]; simp
  · rw [← hs, hout, ← told_catchApp]
    cases hc : (catchApp r.routeKey (routeBody S h r [("span_key", .span r.spanKey)])
        { w with ctx := some r.spanKey, trace := w.trace ++ [.enter r.spanKey] }).1 with
    | ok v => exact ⟨_, rfl, rfl, rfl, rfl⟩
    | error e => exact respond_status' _ _ e (fun m hm => hna m (by rw [hc, hm]))

example : ∃ es res, (routeRequest exServer "b" exWorld).2.trace = [.enter 2] ++ (es ++ [.leave]) ∧
    Run 2 ["first", "second"] "fail_function" (Entry exFail 2) (.req ⟨"fail", 2, .obj []⟩) es res ∧
    match status res with
    | none => (routeRequest exServer "b" exWorld).1 = .error .base
    | some s => ∃ resp, (routeRequest exServer "b" exWorld).1 = .ok resp ∧ resp.status = s ∧ resp.spanKey = some 2 ∧ resp.data = told "fail" res :=
  C34_status_partial (r := ⟨"fail", 2, .obj []⟩) exServer_silent
    ⟨_, rfl, by simp [Valid, Dict.get?, exServer, exSpan]⟩ (h := exFail) (by simp [exServer, Dict.get?]) exWorld

example : (routeRequest exServer "b" exWorld).1 = .ok ⟨some 2, 600, .other (.str
    "status: [600] message: [Processing Failure 'fail', message: 'no luck']")⟩ := by rfl

/-! Every text is answered, whatever the application's code does, as long as it raises no `BaseException`. -/

/-- The code raises no `BaseException`. -/
def NoBase {α : Type} (m : M K σ α) : Prop := ∀ w, (m w).1 ≠ .error .base

theorem noBase_bind {α β : Type} {m : M K σ α} {f : α → M K σ β} (hm : NoBase m) (hf : ∀ a, NoBase (f a)) :
    NoBase (M.bind m f) := by
  intro w
  have := hm w
  unfold M.bind
  rcases hmw : m w with ⟨r, w'⟩
  rw [hmw] at this
  cases r with
  | error e => simpa using this
  | ok a => exact hf a w'

theorem noBase_invoke {who : Who} {args : Kwargs K} {m : M K σ (Val K)} (hm : NoBase m) :
    NoBase (invoke who args m) := fun _ => hm _

theorem noBase_pure {α : Type} (a : α) : NoBase (M.pure a : M K σ α) := by intro w; simp [M.pure]

theorem noBase_raise {α : Type} {e : Exc} (he : e ≠ .base) : NoBase (M.raise e : M K σ α) := by
  intro w; simpa [M.raise] using he

theorem noBase_catchApp {route : String} {m : M K σ (Val K)} (hm : NoBase m) : NoBase (catchApp route m) := by
  intro w
  have := hm w
  unfold catchApp
  rcases hmw : m w with ⟨r, w'⟩
  rw [hmw] at this
  rcases r with e | v
  · cases e <;> simp_all [routerProcessing, routingException]
  · simp

theorem noBase_beforeLoop {ms : List (Middleware K σ)} (h : ∀ m ∈ ms, ∀ kw, NoBase (m.before kw)) :
    ∀ kw p, NoBase (beforeLoop ms kw p) := by
  induction ms with
  | nil => intro kw p; exact noBase_pure p
  | cons m ms ih =>
    intro kw p
    exact noBase_bind (noBase_invoke (h m List.mem_cons_self _))
      (fun p' => ih (fun m' hm' => h m' (List.mem_cons_of_mem _ hm')) _ _)

theorem noBase_afterLoop {ms : List (Middleware K σ)} (h : ∀ m ∈ ms, ∀ kw, NoBase (m.after kw)) :
    ∀ kw p, NoBase (afterLoop ms kw p) := by
  induction ms with
  | nil => intro kw p; exact noBase_pure p
  | cons m ms ih =>
    intro kw p
    exact noBase_bind (noBase_invoke (h m List.mem_cons_self _))
      (fun p' => ih (fun m' hm' => h m' (List.mem_cons_of_mem _ hm')) _ _)

theorem noBase_attempt {S : Server K σ} (hS : Each NoBase S) {e : String × Handler K σ} (he : e ∈ S.table)
    (hb : ∀ f, e.2.build f ≠ .error .base) (kw) : NoBase (attempt e.2 kw) := by
  unfold attempt
  split
  · exact noBase_raise (by nofun)
  · split
    · split
      · rename_i f _ _ ex hex
        exact noBase_raise (fun h => hb f (by rw [hex, h]))
      · unfold run
        split
        · rename_i ps fn hbody
          unfold runStandard
          dsimp only
          split
          · exact noBase_invoke (hS.fn e he ps fn hbody _)
          · exact noBase_raise (by nofun)
        · rename_i fn hbody
          exact noBase_invoke (hS.run e he fn hbody _)
    · exact noBase_raise (by nofun)
  · exact noBase_raise (by nofun)

theorem noBase_route {S : Server K σ} (hS : Each NoBase S) (hb : ∀ e ∈ S.table, ∀ f, e.2.build f ≠ .error .base)
    (r : Req K) (kw) : NoBase (route S r kw) := by
  unfold route
  split
  · exact noBase_raise (by simp [unknownRoute, routingException])
  · rename_i h hh
    have hm := mem_of_get? hh
    refine noBase_catchApp (noBase_bind ?_ fun p => noBase_bind (noBase_attempt hS hm (hb _ hm) _) fun v => ?_)
    · unfold runBefore; split
      · exact noBase_pure _
      · exact noBase_beforeLoop hS.before _ _
    · unfold runAfter; split
      · exact noBase_pure _
      · exact noBase_afterLoop hS.after _ _

theorem respond_ok (k : Option K) (e : Exc) (he : e ≠ .base) : ∃ resp, respond k e = .ok resp := by
  cases e <;> first | exact ⟨_, rfl⟩ | exact absurd rfl he

/-- Exactly one response for every text and every application that raises no `BaseException`. -/
theorem C34_answered {S : Server K σ} (hS : Each NoBase S) (hl : ∀ t, S.loads t ≠ .error .base)
    (hb : ∀ e ∈ S.table, ∀ f, e.2.build f ≠ .error .base) (text : String) (w : World K σ) :
    ∃ resp, (routeRequest S text w).1 = .ok resp := by
  cases hj : S.loads text with
  | error e =>
    unfold routeRequest
    rw [hj]
    exact respond_ok _ e (fun h => hl text (by rw [hj, h]))
  | ok j =>
    cases hr : requestDto S j with
    | error e =>
      unfold routeRequest
      simp only [hj, hr]
      refine respond_ok _ e ?_
      rintro rfl
      unfold requestDto at hr
      repeat' split at hr
      all_goals cases hr
    | ok r =>
      have hp : Parsed S text r := by
        cases j with
        | obj f => exact ⟨f, hj, (requestDto_iff S f r).1 hr⟩
        | _ => cases hr
      obtain ⟨hout, _⟩ := routeRequest_route hp w
      rw [hout]
      have := noBase_route hS hb r [("span_key", .span r.spanKey)]
        { w with ctx := some r.spanKey, trace := w.trace ++ [.enter r.spanKey] }
      cases ho : (route S r [("span_key", .span r.spanKey)]
          { w with ctx := some r.spanKey, trace := w.trace ++ [.enter r.spanKey] }).1 with
      | ok v => exact ⟨_, rfl⟩
      | error e => exact respond_ok _ e (fun h => this (by rw [ho, h]))

example (text : String) : ∃ resp, (routeRequest exServer text exWorld).1 = .ok resp := by
  refine C34_answered ⟨?_, ?_, ?_, ?_⟩ ?_ ?_ text exWorld
  · intro m hm kw w
    simp only [exServer, List.mem_cons, List.not_mem_nil, or_false] at hm
    rcases hm with rfl | rfl <;> simp [exHook]
  · intro m hm kw w
    simp only [exServer, List.mem_cons, List.not_mem_nil, or_false] at hm
    rcases hm with rfl | rfl <;> simp [exHook]
  · intro e he ps f hb kw w
    simp only [exServer, List.mem_cons, List.not_mem_nil, or_false] at he
    rcases he with rfl | rfl <;> cases hb <;> simp [M.pure, M.raise]
  · intro e he f hb kw
    simp only [exServer, List.mem_cons, List.not_mem_nil, or_false] at he
    rcases he with rfl | rfl <;> cases hb
  · intro t
    simp only [exServer, exLoads]
    repeat' split
    all_goals nofun
  · intro e he f
    simp only [exServer, List.mem_cons, List.not_mem_nil, or_false] at he
    rcases he with rfl | rfl <;> simp [exEcho, exFail]

/-- JSON that is not an object is answered "unhandled" instead of "validation error". -/
theorem C34_not_object (S : Server K σ) (text : String) (j : Json) (h : S.loads text = .ok j)
    (hj : ∀ f, j ≠ .obj f) (w : World K σ) :
    routeRequest S text w = (.ok { spanKey := none, status := 999, data := .other (.str "") }, w) := by
  unfold routeRequest
  rw [h]
  cases j <;> first | rfl | exact absurd rfl (hj _)

/-- It is not true that JSON violating the request schema is always answered with the validation-error
status. -/
theorem C34_schema_refuted : ¬ ∀ (S : Server Int Nat) (text : String) (j : Json) (w : World Int Nat),
    S.loads text = .ok j → (∀ r, ¬ Parsed S text r) →
    ∃ resp, (routeRequest S text w).1 = .ok resp ∧ resp.status = 300 := by
  intro h
  obtain ⟨resp, h1, h2⟩ := h exServer "[]" (.arr []) exWorld rfl (by
    rintro r ⟨f, hf, _⟩
    have hf' : (Except.ok (Json.arr []) : Except Exc Json) = .ok (.obj f) := hf
    cases hf')
  rw [C34_not_object exServer "[]" (.arr []) rfl (by nofun)] at h1
  cases h1
  exact absurd h2 (by decide)

/-- A server whose only endpoint function raises `e`. -/
def exRaise (e : Exc) : Server Int Nat where
  loads := exLoads
  spanOf := exSpan
  why _ := ""
  table := [("echo", { name := "f", route := "echo", build := fun f => .ok (.obj f), body := .standard [] fun _ => M.raise e })]
  middlewares := []

/-- It is not true that an exception of an endpoint function that is neither a routing error nor a reported
processing failure always gives "unhandled": the function's own JSON and validation errors are reported
as errors of the request. -/
theorem C34_unhandled_refuted : ¬ ∀ (e : Exc), (∀ s m, e ≠ .routing s m) → (∀ m, e ≠ .app m) → e ≠ .base →
    ∃ resp, (routeRequest (exRaise e) "a" exWorld).1 = .ok resp ∧ resp.status = 999 := by
  intro h
  obtain ⟨resp, h1, h2⟩ := h (.json "") (by nofun) (by nofun) (by nofun)
  have h3 : (routeRequest (exRaise (.json "")) "a" exWorld).1 = .ok ⟨some 1, 100, .other (.str "")⟩ := rfl
  rw [h3] at h1
  cases h1
  exact absurd h2 (by decide)

/-! ### C35: responses carry the request's span key -/

/-- The response to a parsed request carries its span key; any other response carries none. -/
theorem C35_span_key (S : Server K σ) (text : String) (w : World K σ) (resp : Resp K)
    (h : (routeRequest S text w).1 = .ok resp) :
    (∀ r, Parsed S text r → resp.spanKey = some r.spanKey) ∧ ((∀ r, ¬ Parsed S text r) → resp.spanKey = none) := by
  have hresp : ∀ (k : Option K) (e : Exc), respond k e = .ok resp → resp.spanKey = k := by
    intro k e he
    cases e <;> cases he <;> rfl
  constructor
  · intro r hp
    obtain ⟨hout, _⟩ := routeRequest_route hp w
    rw [hout] at h
    revert h
    cases (route S r [("span_key", .span r.spanKey)]
      { w with ctx := some r.spanKey, trace := w.trace ++ [.enter r.spanKey] }).1 with
    | ok v => intro h; cases h; rfl
    | error e => exact hresp _ e
  · intro hn
    unfold routeRequest at h
    split at h
    · exact hresp _ _ h
    · rename_i j hl
      split at h
      · exact hresp _ _ h
      · rename_i r hr
        exfalso
        cases j with
        | obj f => exact hn r ⟨f, hl, (requestDto_iff S f r).1 hr⟩
        | _ => cases hr

example : ∀ resp, (routeRequest exServer "b" exWorld).1 = .ok resp → resp.spanKey = some 2 := fun resp h =>
  (C35_span_key exServer "b" exWorld resp h).1 ⟨"fail", 2, .obj []⟩
    ⟨_, rfl, by simp [Valid, Dict.get?, exServer, exSpan]⟩

/-! ### C36: the request context never leaks -/

/-- During a request application code sees the request's own key, and afterwards, however the request
ended, the context is what it was. `Proper` is asked of application code because requests may be nested;
`C36_nested` shows it of all code that uses the public interface. -/
theorem C36_context {S : Server K σ} (hS : Each Proper S) {text : String} {r : Req K} (hp : Parsed S text r)
    (w : World K σ) :
    (routeRequest S text w).2.ctx = w.ctx ∧
    ∃ inner, (routeRequest S text w).2.trace = w.trace ++ (.enter r.spanKey :: (inner ++ [.leave])) ∧
      InRequest (some r.spanKey) inner := by
  obtain ⟨f, hl, hv⟩ := hp
  rw [routeRequest_parsed hl ((requestDto_iff S f r).2 hv)]
  exact withContext_trace (proper_serve hS r) r.spanKey w

/-- A text that is no request changes nothing. -/
theorem C36_unparsed (S : Server K σ) {text : String} (hp : ∀ r, ¬ Parsed S text r) (w : World K σ) :
    (routeRequest S text w).2 = w := by
  unfold routeRequest
  split
  · rfl
  · rename_i j hl
    split
    · rfl
    · rename_i r hr
      exfalso
      cases j with
      | obj f => exact hp r ⟨f, hl, (requestDto_iff S f r).1 hr⟩
      | _ => cases hr

theorem proper_exec {α : Type} {handle : String → M K σ (Resp K)} (hh : ∀ t, Proper (handle t)) (c : Code K σ α) :
    Proper (c.exec handle) := by
  induction c with
  | done r => intro w; exact ⟨rfl, [], by simp [Code.exec], .nil⟩
  | look next ih =>
    intro w
    obtain ⟨hc, es, ht, hi⟩ := ih w.ctx { w with trace := w.trace ++ [.look w.ctx] }
    exact ⟨hc, .look w.ctx :: es, by simp only [Code.exec]; rw [ht]; simp, .look hi⟩
  | state f next ih =>
    intro w
    exact ih (f w.app) { w with app := f w.app }
  | request text next ih =>
    intro w
    obtain ⟨hc, es, ht, hi⟩ := hh text w
    simp only [Code.exec]
    rcases hw : handle text w with ⟨r, w'⟩
    rw [hw] at hc ht
    obtain ⟨hc', es', ht', hi'⟩ := ih r w'
    dsimp only at hc ht ⊢
    rw [hc] at hi'
    exact ⟨hc'.trans hc, es ++ es', by rw [ht', ht, List.append_assoc], hi.append hi'⟩

theorem each_server {app : App K σ} {handle : String → M K σ (Resp K)} (hh : ∀ t, Proper (handle t)) :
    Each Proper (app.server handle) where
  before m hm kw := by
    simp only [App.server, List.mem_map] at hm
    obtain ⟨e, _, rfl⟩ := hm
    exact proper_exec hh _
  after m hm kw := by
    simp only [App.server, List.mem_map] at hm
    obtain ⟨e, _, rfl⟩ := hm
    exact proper_exec hh _
  fn e he ps f hb kw := by
    simp only [App.server, List.mem_map] at he
    obtain ⟨e', _, rfl⟩ := he
    cases hb
    exact proper_exec hh _
  run e he f hb kw := by
    simp only [App.server, List.mem_map] at he
    obtain ⟨e', _, rfl⟩ := he
    cases hb

theorem proper_handle (app : App K σ) : ∀ depth text, Proper (app.handle depth text)
  | 0, _ => proper_raise _
  | depth + 1, _ => proper_routeRequest (each_server (proper_handle app depth)) _

/-- Requests handled one after the other. -/
def handleAll (app : App K σ) (depth : Nat) : List String → World K σ → World K σ
  | [], w => w
  | t :: ts, w => handleAll app depth ts (app.handle depth t w).2

/-- For every application, every sequence of request texts and every depth of nesting: whenever
application code starts or looks, the context is the innermost request under way, and in the end it is what
it was at the beginning. -/
theorem C36_nested (app : App K σ) (depth : Nat) (texts : List String) (w : World K σ) :
    (handleAll app depth texts w).ctx = w.ctx ∧
    ∃ es, (handleAll app depth texts w).trace = w.trace ++ es ∧ InRequest w.ctx es := by
  induction texts generalizing w with
  | nil => exact ⟨rfl, [], by simp [handleAll], .nil⟩
  | cons t ts ih =>
    obtain ⟨hc, es, ht, hi⟩ := proper_handle app depth t w
    obtain ⟨hc', es', ht', hi'⟩ := ih (app.handle depth t w).2
    rw [hc] at hi'
    exact ⟨hc'.trans hc, es ++ es', by rw [handleAll, ht', ht, List.append_assoc], hi.append hi'⟩

/-- Endpoint `nest` looks, has request `"a"` (key 1) handled, and looks again. -/
def exApp : App Int Nat where
  loads := exLoads
  spanOf := exSpan
  why _ := ""
  hooks := []
  endpoints := [
    ("echo", [], fun f => .ok (.obj f), fun _ => .look fun _ => .done (.error (.other "x"))),
    ("nest", [], fun f => .ok (.obj f), fun _ => .look fun _ => .request "a" fun _ => .look fun _ => .done (.ok .none))]

/-- The values seen by application code. -/
def looks : List (Event Int) → List (Option Int)
  | [] => []
  | .look c :: es => c :: looks es
  | _ :: es => looks es

example : looks (handleAll exApp 2 ["a", "d", "a"] exWorld).trace = [some 1, some 4, some 1, some 4, some 1] ∧
    (handleAll exApp 2 ["a", "d", "a"] exWorld).ctx = none := ⟨rfl, rfl⟩

/-! ### C39: requests reach the handler registered for their route -/

/-- An unknown route key is answered "route key unknown"; no hook and no handler runs, and the application's
state is unchanged. -/
theorem C39_unknown (S : Server K σ) {text : String} {r : Req K} (hp : Parsed S text r)
    (hn : S.table.get? r.routeKey = none) (w : World K σ) :
    (∃ resp, (routeRequest S text w).1 = .ok resp ∧ resp.status = 400) ∧
    (routeRequest S text w).2.trace = w.trace ++ [.enter r.spanKey, .leave] ∧
    (routeRequest S text w).2.app = w.app := by
  obtain ⟨h1, h2, h3, _⟩ := routeRequest_route hp w
  have hr : route S r [("span_key", .span r.spanKey)] = M.raise (unknownRoute r.routeKey) := by
    unfold route; rw [hn]
  rw [hr] at h1 h2 h3
  exact ⟨⟨_, h1, rfl⟩, by rw [h2]; simp [M.raise], h3⟩

example : (∃ resp, (routeRequest exServer "c" exWorld).1 = .ok resp ∧ resp.status = 400) ∧
    (routeRequest exServer "c" exWorld).2.trace = [.enter 3, .leave] ∧
    (routeRequest exServer "c" exWorld).2.app = 0 :=
  C39_unknown exServer (r := ⟨"nowhere", 3, .obj []⟩) ⟨_, rfl, by simp [Valid, Dict.get?, exServer, exSpan]⟩
    (by simp [exServer, Dict.get?]) exWorld

theorem registerAll_get (hs : List (Handler K σ)) (t : Dict String (Handler K σ)) (k : String) :
    (registerAll hs t).2.get? k = (t.get? k).or (hs.find? fun h => h.route = k) := by
  induction hs generalizing t with
  | nil => simp [registerAll]
  | cons h hs ih =>
    simp only [registerAll, ih]
    unfold register
    by_cases hh : t.has h.route = true
    · rw [if_neg (by simp [hh])]
      by_cases hk : h.route = k
      · subst hk
        obtain ⟨v, hv⟩ := Option.isSome_iff_exists.1 hh
        simp [hv]
      · rw [List.find?_cons_of_neg (by simpa using hk)]
    · rw [if_pos (by simp [hh])]
      have hn : t.get? h.route = none := by
        have : (t.get? h.route).isSome ≠ true := hh
        simpa using this
      rw [Dict.get?_set]
      by_cases hk : h.route = k
      · subst hk
        simp [hn]
      · rw [List.find?_cons_of_neg (by simpa using hk)]
        simp [hk]

theorem registerAll_results (hs : List (Handler K σ)) (t : Dict String (Handler K σ)) :
    ∀ (i : Nat) (h : Handler K σ), hs[i]? = some h →
      ((registerAll hs t).1[i]? = some (.ok ()) ↔ t.get? h.route = none ∧ ∀ (j : Nat) (h' : Handler K σ), j < i → hs[j]? = some h' → h'.route ≠ h.route) := by
  induction hs generalizing t with
  | nil => intro i h hi; simp at hi
  | cons a hs ih =>
    intro i h hi
    cases i with
    | zero =>
      simp only [List.getElem?_cons_zero, Option.some.injEq] at hi
      subst hi
      simp only [registerAll, List.getElem?_cons_zero, Option.some.injEq]
      unfold register Dict.has
      cases hg : t.get? a.route <;> simp
    | succ i =>
      simp only [List.getElem?_cons_succ] at hi
      simp only [registerAll, List.getElem?_cons_succ]
      rw [ih _ i h hi]
      have hget : (register t a).2.get? h.route = none ↔ t.get? h.route = none ∧ a.route ≠ h.route := by
        unfold register Dict.has
        cases hg : t.get? a.route with
        | none =>
          simp only [Option.isSome_none, Bool.not_false, if_true]
          rw [Dict.get?_set]
          by_cases hk : a.route = h.route
          · simp [hk]
          · simp [hk]
        | some v =>
          simp only [Option.isSome_some, Bool.not_true, Bool.false_eq_true, if_false]
          constructor
          · intro hn
            exact ⟨hn, fun hk => by rw [hk, hn] at hg; cases hg⟩
          · exact fun hn => hn.1
      rw [hget]
      constructor
      · rintro ⟨⟨h1, h2⟩, h3⟩
        refine ⟨h1, fun j h' hj hh' => ?_⟩
        cases j with
        | zero => simp only [List.getElem?_cons_zero, Option.some.injEq] at hh'; subst hh'; exact h2
        | succ j => exact h3 j h' (by omega) (by simpa using hh')
      · rintro ⟨h1, h2⟩
        exact ⟨⟨h1, h2 0 a (by omega) (by simp)⟩, fun j h' hj hh' => h2 (j + 1) h' (by omega) (by simpa using hh')⟩

/-- After any history of registrations a route key leads to the first handler registered under it, and a
registration succeeds just when its key had not been registered before. -/
theorem C39_registered (hs : List (Handler K σ)) :
    (∀ k, (registerAll hs []).2.get? k = hs.find? fun h => h.route = k) ∧
    ∀ (i : Nat) (h : Handler K σ), hs[i]? = some h →
      ((registerAll hs []).1[i]? = some (.ok ()) ↔ ∀ (j : Nat) (h' : Handler K σ), j < i → hs[j]? = some h' → h'.route ≠ h.route) := by
  refine ⟨fun k => by rw [registerAll_get]; simp [Dict.get?], fun i h hi => ?_⟩
  rw [registerAll_results hs [] i h hi]
  simp [Dict.get?]

example : (registerAll [exEcho, exFail, { exFail with route := "echo" }] []).1.map (fun r => r.toOption) = [some (), some (), none] ∧
    ((registerAll [exEcho, exFail, { exFail with route := "echo" }] []).2.get? "echo").map Handler.name = some "echo_function" :=
  ⟨rfl, rfl⟩

/-! ### C40: middleware runs in registration order around the handler -/

/-- A request for a registered route runs all before hooks in registration order, each on its
predecessor's result, then the handler registered for the route on the last result, then all after hooks in
registration order; nothing runs after a failure; the response is the last result. -/
theorem C40_chain {S : Server K σ} (hS : Each Silent S) {text : String} {r : Req K} (hp : Parsed S text r)
    {h : Handler K σ} (hh : S.table.get? r.routeKey = some h) (w : World K σ) :
    ∃ es res, (routeRequest S text w).2.trace = w.trace ++ (.enter r.spanKey :: (es ++ [.leave])) ∧
      Run r.spanKey (S.middlewares.map (·.name)) h.name (Entry h r.spanKey) (.req r) es res ∧
      (∀ v, res = .ok v → (routeRequest S text w).1 = .ok { spanKey := some r.spanKey, status := 0, data := v }) ∧
      (∀ e, res = .error e → ∀ resp, (routeRequest S text w).1 = .ok resp →
        resp.status = 0 → ∃ m, e = .routing 0 m) := by
  obtain ⟨hout, htr, _, _⟩ := routeRequest_route hp w
  have hrt : route S r [("span_key", .span r.spanKey)] =
      catchApp r.routeKey (routeBody S h r [("span_key", .span r.spanKey)]) := by
    unfold route; rw [hh]
  rw [hrt] at hout htr
  obtain ⟨es, ht, hrun⟩ := routeBody_run hS hh r.spanKey
    { w with ctx := some r.spanKey, trace := w.trace ++ [.enter r.spanKey] }
  obtain ⟨_, hw⟩ := status_catchApp r.routeKey (routeBody S h r [("span_key", .span r.spanKey)])
    { w with ctx := some r.spanKey, trace := w.trace ++ [.enter r.spanKey] }
  refine ⟨es, _, ?_, hrun, ?_, ?_⟩
  · rw [htr, hw, ht]; simp
  · intro v hv
    rw [hout]
    unfold catchApp
    rcases hb : routeBody S h r [("span_key", .span r.spanKey)]
      { w with ctx := some r.spanKey, trace := w.trace ++ [.enter r.spanKey] } with ⟨res, w2⟩
    rw [hb] at hv
    dsimp only at hv
    subst hv
    rfl
  · intro e he resp hresp hs
    rw [hout] at hresp
    unfold catchApp at hresp
    rcases hb : routeBody S h r [("span_key", .span r.spanKey)]
      { w with ctx := some r.spanKey, trace := w.trace ++ [.enter r.spanKey] } with ⟨res, w2⟩
    rw [hb] at he hresp
    dsimp only at he hresp
    subst he
    cases e with
    | routing s m => cases hresp; dsimp only at hs; subst hs; exact ⟨m, rfl⟩
    | base => cases hresp
    | _ =>
      cases hresp
      simp [statusProtocolParsing, statusValidation, statusProcessing, statusUnhandled] at hs

/-- The calls of a trace in order. -/
def calls : List (Event Int) → List Who
  | [] => []
  | .call who _ _ :: es => who :: calls es
  | _ :: es => calls es

/-! A concrete case is in `Verif.Server.Examples`. -/

/-! ### C41: handlers receive just the arguments they declare -/

/-- Whenever an endpoint function is called during a request, its arguments are those of `span_key` and
`dto` that it declares, with the request's span key and the object built from the request's data (as
left by the before hooks). -/
theorem C41_arguments {S : Server K σ} (hS : Each Silent S) {text : String} {r : Req K} (hp : Parsed S text r)
    {h : Handler K σ} (hh : S.table.get? r.routeKey = some h) {ps : List Param} {fn : Kwargs K → M K σ (Val K)}
    (hb : h.body = .standard ps fn) (w : World K σ) :
    ∃ es, (routeRequest S text w).2.trace = w.trace ++ es ∧
      ∀ n args c, Event.call (.handler n) args c ∈ es → n = h.name ∧ Callable ps ∧
        ∃ es1 r' f d, BeforeRun r.spanKey (S.middlewares.map (·.name)) (.req r) es1 (.ok (.req r')) ∧
          r'.data = .obj f ∧ h.build f = .ok d ∧ Declared ps r.spanKey d args := by
  obtain ⟨es, res, ht, hrun, _⟩ := C40_chain hS hp hh w
  refine ⟨_, ht, fun n args c hm => ?_⟩
  have hbr : ∀ {ns p es r'}, BeforeRun r.spanKey ns p es r' → Event.call (.handler n) args c ∉ es := by
    intro ns p es r' hbr
    induction hbr <;> simp_all
  have har : ∀ {p ns v es r'}, AfterRun r.spanKey p ns v es r' → Event.call (.handler n) args c ∉ es := by
    intro p ns v es r' har
    induction har <;> simp_all
  have hhr : ∀ {p' : Val K} {a es2 r2} {es1}, BeforeRun r.spanKey (S.middlewares.map (·.name)) (.req r) es1 (.ok p') →
      Entry h r.spanKey p' a → HandlerRun h.name a es2 r2 → Event.call (.handler n) args c ∈ es2 →
      n = h.name ∧ Callable ps ∧
        ∃ es1 r' f d, BeforeRun r.spanKey (S.middlewares.map (·.name)) (.req r) es1 (.ok (.req r')) ∧
          r'.data = .obj f ∧ h.build f = .ok d ∧ Declared ps r.spanKey d args := by
    intro p' a es2 r2 es1 h1 h2 h3 h4
    cases h3 with
    | refused => simp at h4
    | called =>
      simp only [List.mem_cons, Event.call.injEq, Who.handler.injEq, List.not_mem_nil, or_false, reduceCtorEq] at h4
      obtain ⟨rfl, rfl, _⟩ := h4
      cases h2 with
      | declared g1 g2 g3 g4 g5 =>
        rw [hb] at g3
        cases g3
        exact ⟨rfl, g4, es1, _, _, _, h1, g1, g2, g5⟩
      | buffered g1 g2 g3 => rw [hb] at g3; cases g3
  have hm' : Event.call (.handler n) args c ∈ es := by simpa using hm
  cases hrun with
  | before h1 => exact absurd hm' (hbr h1)
  | handler h1 h2 h3 =>
    rcases List.mem_append.1 hm' with hm' | hm'
    · exact absurd hm' (hbr h1)
    · exact hhr h1 h2 h3 hm'
  | full h1 h2 h3 h4 =>
    rcases List.mem_append.1 hm' with hm' | hm'
    · exact absurd hm' (hbr h1)
    · rcases List.mem_append.1 hm' with hm' | hm'
      · exact hhr h1 h2 h3 hm'
      · exact absurd hm' (har h4)

/-- Without hooks a valid request calls the function once, if it can be called with what it declares; if
not, the answer is "unhandled" and the function is not called. -/
theorem C41_called {S : Server K σ} (hS : Each Silent S) (hm : S.middlewares = []) {text : String} {r : Req K}
    (hp : Parsed S text r) {h : Handler K σ} (hh : S.table.get? r.routeKey = some h) {ps : List Param}
    {fn : Kwargs K → M K σ (Val K)} (hb : h.body = .standard ps fn) {f : List (String × Json)} {d : Json}
    (hf : r.data = .obj f) (hd : h.build f = .ok d) (w : World K σ) :
    (Callable ps → ∃ args c res, Declared ps r.spanKey d args ∧
      (routeRequest S text w).2.trace = w.trace ++
        [.enter r.spanKey, .call (.handler h.name) args c, .ret (.handler h.name) res, .leave]) ∧
    (¬ Callable ps → (routeRequest S text w).2.trace = w.trace ++ [.enter r.spanKey, .leave] ∧
      ∃ resp, (routeRequest S text w).1 = .ok resp ∧ resp.status = 999) := by
  obtain ⟨es, res, ht, hrun, hst⟩ := C34_status_partial hS hp hh w
  rw [hm] at hrun
  have key : ∀ {es1 : List (Event K)} {x}, BeforeRun r.spanKey [] (.req r) es1 x → es1 = [] ∧ x = .ok (.req r) := by
    intro es1 x hx; cases hx; exact ⟨rfl, rfl⟩
  have keya : ∀ {p' v} {es1 : List (Event K)} {x}, AfterRun r.spanKey p' [] v es1 x → es1 = [] ∧ x = .ok v := by
    intro p' v es1 x hx; cases hx; exact ⟨rfl, rfl⟩
  have main : ∃ a es2, Entry h r.spanKey (.req r) a ∧ HandlerRun h.name a es2 res ∧ es = es2 := by
    cases hrun with
    | before h1 => have := (key h1).2; cases this
    | handler h1 h2 h3 =>
      obtain ⟨rfl, hx⟩ := key h1
      cases hx
      exact ⟨_, _, h2, h3, rfl⟩
    | full h1 h2 h3 h4 =>
      obtain ⟨rfl, hx⟩ := key h1
      cases hx
      obtain ⟨rfl, hx⟩ := keya h4
      subst hx
      exact ⟨_, _, h2, h3, by simp⟩
  obtain ⟨a, es2, h2, h3, rfl⟩ := main
  rw [ht]
  constructor
  · intro hc
    cases h2 with
    | notRequest g => exact absurd rfl (g r)
    | notObject g => exact absurd hf (g f)
    | invalid g1 g2 => rw [hf] at g1; cases g1; rw [hd] at g2; cases g2
    | notCallable g1 g2 g3 g4 => rw [hb] at g3; cases g3; exact absurd hc g4
    | declared g1 g2 g3 g4 g5 =>
      rw [hf] at g1; cases g1; rw [hd] at g2; cases g2; rw [hb] at g3; cases g3
      cases h3
      exact ⟨_, _, _, g5, rfl⟩
    | buffered g1 g2 g3 => rw [hb] at g3; cases g3
  · intro hc
    cases h2 with
    | notRequest g => exact absurd rfl (g r)
    | notObject g => exact absurd hf (g f)
    | invalid g1 g2 => rw [hf] at g1; cases g1; rw [hd] at g2; cases g2
    | notCallable g1 g2 g3 g4 =>
      cases h3
      obtain ⟨resp, e1, e2, -⟩ := hst
      exact ⟨rfl, resp, e1, e2⟩
    | declared g1 g2 g3 g4 g5 => rw [hb] at g3; cases g3; exact absurd g4 hc
    | buffered g1 g2 g3 => rw [hb] at g3; cases g3

/-- The same for the function behind a buffered endpoint. -/
theorem C41_buffered (name : String) (ps : List Param) (fn : Kwargs K → M K σ (Val K)) (k : K) (dto : Json) :
    (Callable ps → ∃ args, Declared ps k dto args ∧
      processBuffered name ps fn k dto = invoke (.handler name) args (fn args)) ∧
    (¬ Callable ps → processBuffered name ps fn k dto = M.raise (.py .typeError)) := by
  have hx : processBuffered name ps fn k dto =
      if bindable ps ((offered k dto).filter fun e => e.1 ∈ acceptedParams ps) then
        invoke (.handler name) ((offered k dto).filter fun e => e.1 ∈ acceptedParams ps)
          (fn ((offered k dto).filter fun e => e.1 ∈ acceptedParams ps)) else M.raise (.py .typeError) := rfl
  rw [hx]
  constructor
  · intro hc
    exact ⟨_, declared_filter ps k dto, by rw [if_pos ((bindable_iff ps k dto).2 hc)]⟩
  · intro hc
    rw [if_neg (fun hh => hc ((bindable_iff ps k dto).1 hh))]

/-- **C41, endpoints with `uid`.** A function whose parameters include one without default called `uid`, as in benchmarking/ping_pong/pong.py 16 and
documentation/buffereds/technical_stuff.md 115, is never called: requests for it get status 999, and behind a buffered endpoint every attempt fails. -/
theorem C41_uid {S : Server K σ} (hS : Each Silent S) (hm : S.middlewares = []) {text : String} {r : Req K}
    (hp : Parsed S text r) {h : Handler K σ} (hh : S.table.get? r.routeKey = some h) {ps : List Param} (hu : { name := "uid" } ∈ ps)
    {fn : Kwargs K → M K σ (Val K)} (hb : h.body = .standard ps fn) {f : List (String × Json)} {d : Json}
    (hf : r.data = .obj f) (hd : h.build f = .ok d) (w : World K σ) :
    ((routeRequest S text w).2.trace = w.trace ++ [.enter r.spanKey, .leave] ∧ ∃ resp, (routeRequest S text w).1 = .ok resp ∧ resp.status = 999) ∧
    ∀ name k dto, processBuffered name ps fn k dto = M.raise (.py .typeError) := by
  have hc : ¬ Callable ps := fun hc => by simpa using hc.1 _ hu rfl rfl
  exact ⟨(C41_called hS hm hp hh hb hf hd w).2 hc, fun name k dto => (C41_buffered name _ fn k dto).2 hc⟩

/-- The endpoint of the benchmark, and a server that has it under the route `echo`. -/
def exPong : Handler Int Nat where
  name := "app_ping"
  route := "echo"
  build f := .ok (.obj f)
  body := .standard [{ name := "uid" }, { name := "dto" }] fun kw => M.pure ((kw.get? "dto").getD .none)

def exPongServer : Server Int Nat := { exServer with table := [("echo", exPong)], middlewares := [] }

example : ((routeRequest exPongServer "a" exWorld).1.toOption.map (·.status)) = some 999 ∧
    ((routeRequest { exPongServer with table := [("echo", exEcho)] } "a" exWorld).1.toOption.map (·.status)) = some 0 := by
  refine ⟨?_, ?_⟩ <;> decide +kernel

example : Callable [{ name := "dto" }, { name := "log", hasDefault := true }] ∧ ¬ Callable [{ name := "protocol_dto" }] ∧
    ¬ Callable [{ name := "dto", kind := .posOnly }] ∧
    Declared [{ name := "dto" }, { name := "log", hasDefault := true }] (5 : Int) (.int 1) [("dto", .model (.int 1))] := by
  refine ⟨by simp [Callable], by simp [Callable], by simp [Callable], ?_, by simp [Dict.keys]⟩
  intro n v
  simp only [Dict.get?, offered, List.mem_cons, List.not_mem_nil, or_false, Prod.mk.injEq]
  constructor
  · intro h
    split at h
    · rename_i hn; cases h; subst hn; exact ⟨Or.inr ⟨rfl, rfl⟩, _, Or.inl rfl, rfl⟩
    · cases h
  · rintro ⟨⟨rfl, rfl⟩ | ⟨rfl, rfl⟩, p, hp, hpn⟩
    · rcases hp with rfl | rfl <;> simp at hpn
    · simp

end Verif.Server
