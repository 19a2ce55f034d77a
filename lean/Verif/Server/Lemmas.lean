import Verif.Py.DictLemmas
import Verif.Server.Spec

/-!
# Lemmas about request handling
-/

namespace Verif.Server

open Verif.Py Verif.Server.Spec

variable {K σ α β : Type}

/-! ### Traces with the right context -/

theorem _root_.Verif.Server.Spec.InRequest.append {c : Option K} {a b : List (Event K)} (ha : InRequest c a) (hb : InRequest c b) :
    InRequest c (a ++ b) := by
  induction ha with
  | nil => exact hb
  | call _ ih => exact .call (ih hb)
  | look _ ih => exact .look (ih hb)
  | ret _ ih => exact .ret (ih hb)
  | request h1 _ _ ih => simpa using InRequest.request h1 (ih hb)

theorem proper_pure (a : α) : Proper (M.pure a : M K σ α) := fun w => ⟨rfl, [], by simp [M.pure], .nil⟩

theorem proper_raise (e : Exc) : Proper (M.raise e : M K σ α) := fun w => ⟨rfl, [], by simp [M.raise], .nil⟩

theorem proper_bind {m : M K σ α} {f : α → M K σ β} (hm : Proper m) (hf : ∀ a, Proper (f a)) :
    Proper (M.bind m f) := by
  intro w
  obtain ⟨hc, es, ht, hi⟩ := hm w
  unfold M.bind
  rcases hmw : m w with ⟨r, w1⟩
  rw [hmw] at hc ht
  cases r with
  | error e => exact ⟨hc, es, ht, hi⟩
  | ok a =>
    obtain ⟨hc', es', ht', hi'⟩ := hf a w1
    dsimp only at hc ht ⊢
    rw [hc] at hi'
    exact ⟨hc'.trans hc, es ++ es', by rw [ht', ht, List.append_assoc], hi.append hi'⟩

theorem proper_invoke {who : Who} {args : Kwargs K} {m : M K σ (Val K)} (hm : Proper m) :
    Proper (invoke who args m) := by
  intro w
  obtain ⟨hc, es, ht, hi⟩ := hm { w with trace := w.trace ++ [.call who args w.ctx] }
  unfold invoke
  rcases hmw : m { w with trace := w.trace ++ [.call who args w.ctx] } with ⟨r, w1⟩
  rw [hmw] at hc ht
  dsimp only at hc ht hi ⊢
  refine ⟨hc, .call who args w.ctx :: (es ++ [.ret who r]), by rw [ht]; simp, ?_⟩
  exact .call (hi.append (.ret .nil))

theorem proper_catchApp {route : String} {m : M K σ (Val K)} (hm : Proper m) : Proper (catchApp route m) := by
  intro w
  obtain ⟨hc, es, ht, hi⟩ := hm w
  unfold catchApp
  rcases hmw : m w with ⟨r, w1⟩
  rw [hmw] at hc ht
  rcases r with e | a
  · cases e <;> exact ⟨hc, es, ht, hi⟩
  · exact ⟨hc, es, ht, hi⟩

theorem proper_beforeLoop {ms : List (Middleware K σ)} (h : ∀ m ∈ ms, ∀ kw, Proper (m.before kw)) :
    ∀ kw p, Proper (beforeLoop ms kw p) := by
  induction ms with
  | nil => intro kw p; exact proper_pure p
  | cons m ms ih =>
    intro kw p
    exact proper_bind (proper_invoke (h m List.mem_cons_self _))
      (fun p' => ih (fun m' hm' => h m' (List.mem_cons_of_mem _ hm')) _ _)

theorem proper_afterLoop {ms : List (Middleware K σ)} (h : ∀ m ∈ ms, ∀ kw, Proper (m.after kw)) :
    ∀ kw p, Proper (afterLoop ms kw p) := by
  induction ms with
  | nil => intro kw p; exact proper_pure p
  | cons m ms ih =>
    intro kw p
    exact proper_bind (proper_invoke (h m List.mem_cons_self _))
      (fun p' => ih (fun m' hm' => h m' (List.mem_cons_of_mem _ hm')) _ _)

theorem proper_runBefore {ms : List (Middleware K σ)} (h : ∀ m ∈ ms, ∀ kw, Proper (m.before kw)) (kw) :
    Proper (runBefore ms kw) := by
  unfold runBefore
  split
  · exact proper_pure _
  · exact proper_beforeLoop h _ _

theorem proper_runAfter {ms : List (Middleware K σ)} (h : ∀ m ∈ ms, ∀ kw, Proper (m.after kw)) (kw) :
    Proper (runAfter ms kw) := by
  unfold runAfter
  split
  · exact proper_pure _
  · exact proper_afterLoop h _ _

theorem proper_run {h : Handler K σ} (h1 : ∀ ps f, h.body = .standard ps f → ∀ kw, Proper (f kw))
    (h2 : ∀ f, h.body = .buffered f → ∀ kw, Proper (f kw)) (kw) : Proper (run h kw) := by
  unfold run
  split
  · rename_i ps fn hb
    unfold runStandard
    dsimp only
    split
    · exact proper_invoke (h1 ps fn hb _)
    · exact proper_raise _
  · rename_i f hb
    exact proper_invoke (h2 f hb _)

theorem proper_attempt {h : Handler K σ} (h1 : ∀ ps f, h.body = .standard ps f → ∀ kw, Proper (f kw))
    (h2 : ∀ f, h.body = .buffered f → ∀ kw, Proper (f kw)) (kw) : Proper (attempt h kw) := by
  unfold attempt
  repeat' split
  all_goals first | exact proper_raise _ | exact proper_run h1 h2 _

theorem mem_of_get? [DecidableEq α] {d : Dict α β} {k : α} {v : β} (h : d.get? k = some v) : (k, v) ∈ d := by
  induction d with
  | nil => simp [Dict.get?] at h
  | cons e d ih =>
    obtain ⟨k', v'⟩ := e
    simp only [Dict.get?] at h
    split at h
    · rename_i hk; cases h; subst hk; exact List.mem_cons_self
    · exact List.mem_cons_of_mem _ (ih h)

theorem proper_route {S : Server K σ} (hS : Each Proper S) (r : Req K) (kw) : Proper (route S r kw) := by
  unfold route
  split
  · exact proper_raise _
  · rename_i h hh
    have hm := mem_of_get? hh
    refine proper_catchApp (proper_bind (proper_runBefore hS.before _) fun p =>
      proper_bind (proper_attempt (hS.fn _ hm) (hS.run _ hm) _) fun v => proper_runAfter hS.after _)

theorem proper_serve {S : Server K σ} (hS : Each Proper S) (r : Req K) : Proper (serve S r) :=
  proper_bind (proper_route hS r _) fun v w => ⟨rfl, [], by simp, .nil⟩

/-- A request with its brackets. -/
theorem withContext_trace {m : M K σ α} (hm : Proper m) (k : K) (w : World K σ) :
    (withContext k m w).2.ctx = w.ctx ∧
    ∃ inner, (withContext k m w).2.trace = w.trace ++ (.enter k :: (inner ++ [.leave])) ∧ InRequest (some k) inner := by
  obtain ⟨_, es, ht, hi⟩ := hm { w with ctx := some k, trace := w.trace ++ [.enter k] }
  unfold withContext
  rcases hmw : m { w with ctx := some k, trace := w.trace ++ [.enter k] } with ⟨r, w1⟩
  rw [hmw] at ht
  dsimp only at ht hi ⊢
  exact ⟨rfl, es, by rw [ht]; simp, hi⟩

theorem routeRequest_parsed {S : Server K σ} {text j r} (hl : S.loads text = .ok j)
    (hj : requestDto S j = .ok r) (w : World K σ) :
    (routeRequest S text w).2 = (withContext r.spanKey (serve S r) w).2 := by
  unfold routeRequest
  simp only [hl, hj]
  rcases withContext r.spanKey (serve S r) w with ⟨_ | _, w'⟩ <;> rfl

theorem proper_routeRequest {S : Server K σ} (hS : Each Proper S) (text : String) :
    Proper (routeRequest S text) := by
  intro w
  unfold routeRequest
  split
  · exact ⟨rfl, [], by simp, .nil⟩
  · split
    · exact ⟨rfl, [], by simp, .nil⟩
    · rename_i r _
      obtain ⟨hc, inner, ht, hi⟩ := withContext_trace (proper_serve hS r) r.spanKey w
      rcases hmw : withContext r.spanKey (serve S r) w with ⟨_ | _, w1⟩
      all_goals
        rw [hmw] at hc ht
        exact ⟨hc, _, ht, .request hi .nil⟩

/-! ### Silent code -/

theorem invoke_silent {who : Who} {args : Kwargs K} {m : M K σ (Val K)} (hm : Silent m) (w : World K σ) :
    ∃ r, (invoke who args m w).1 = r ∧
      (invoke who args m w).2.trace = w.trace ++ [.call who args w.ctx, .ret who r] := by
  unfold invoke
  have h := hm { w with trace := w.trace ++ [.call who args w.ctx] }
  rcases hmw : m { w with trace := w.trace ++ [.call who args w.ctx] } with ⟨r, w1⟩
  rw [hmw] at h
  exact ⟨r, rfl, by dsimp only at h ⊢; rw [h]; simp⟩

theorem beforeLoop_run {ms : List (Middleware K σ)} (k : K) (h : ∀ m ∈ ms, ∀ kw, Silent (m.before kw)) :
    ∀ kw p, (∀ q, kw.set "protocol_dto" q = [("span_key", .span k), ("protocol_dto", q)]) → ∀ w : World K σ,
      ∃ es, (beforeLoop ms kw p w).2.trace = w.trace ++ es ∧
        BeforeRun k (ms.map (·.name)) p es (beforeLoop ms kw p w).1 := by
  induction ms with
  | nil => intro kw p _ w; exact ⟨[], by simp [beforeLoop, M.pure], .done⟩
  | cons m ms ih =>
    intro kw p hkw w
    obtain ⟨r, hr, ht⟩ := invoke_silent (who := .before m.name) (args := kw.set "protocol_dto" p)
      (h m List.mem_cons_self (kw.set "protocol_dto" p)) w
    simp only [beforeLoop, M.bind, callBefore]
    rcases hi : invoke (.before m.name) (kw.set "protocol_dto" p) (m.before (kw.set "protocol_dto" p)) w with ⟨r', w1⟩
    rw [hi] at hr ht
    dsimp only at hr ht
    subst hr
    cases r' with
    | error e =>
      refine ⟨_, ht, ?_⟩
      rw [hkw p]
      exact .fail
    | ok p' =>
      have hkw' : ∀ q, (kw.set "protocol_dto" p).set "protocol_dto" q = [("span_key", .span k), ("protocol_dto", q)] := by
        intro q; rw [hkw p]; simp [Dict.set]
      dsimp only
      obtain ⟨es, ht', hrun⟩ := ih (fun m' hm' => h m' (List.mem_cons_of_mem _ hm')) _ p' hkw' w1
      refine ⟨.call (.before m.name) (kw.set "protocol_dto" p) w.ctx :: .ret (.before m.name) (.ok p') :: es, ?_, ?_⟩
      · rw [ht', ht]; simp
      · generalize beforeLoop ms _ p' w1 = r at hrun ⊢
        rw [hkw p]; exact .next hrun

theorem afterLoop_run {ms : List (Middleware K σ)} (k : K) (p : Val K) (h : ∀ m ∈ ms, ∀ kw, Silent (m.after kw)) :
    ∀ kw v, (∀ q, kw.set "response_dto" q = [("span_key", .span k), ("protocol_dto", p), ("response_dto", q)]) →
      ∀ w : World K σ, ∃ es, (afterLoop ms kw v w).2.trace = w.trace ++ es ∧
        AfterRun k p (ms.map (·.name)) v es (afterLoop ms kw v w).1 := by
  induction ms with
  | nil => intro kw p _ w; exact ⟨[], by simp [afterLoop, M.pure], .done⟩
  | cons m ms ih =>
    intro kw v hkw w
    obtain ⟨r, hr, ht⟩ := invoke_silent (who := .after m.name) (args := kw.set "response_dto" v)
      (h m List.mem_cons_self (kw.set "response_dto" v)) w
    simp only [afterLoop, M.bind, callAfter]
    rcases hi : invoke (.after m.name) (kw.set "response_dto" v) (m.after (kw.set "response_dto" v)) w with ⟨r', w1⟩
    rw [hi] at hr ht
    dsimp only at hr ht
    subst hr
    cases r' with
    | error e =>
      refine ⟨_, ht, ?_⟩
      rw [hkw v]
      exact .fail
    | ok p' =>
      have hkw' : ∀ q, (kw.set "response_dto" v).set "response_dto" q =
          [("span_key", .span k), ("protocol_dto", p), ("response_dto", q)] := by
        intro q; rw [hkw v]; simp [Dict.set]
      dsimp only
      obtain ⟨es, ht', hrun⟩ := ih (fun m' hm' => h m' (List.mem_cons_of_mem _ hm')) _ p' hkw' w1
      refine ⟨.call (.after m.name) (kw.set "response_dto" v) w.ctx :: .ret (.after m.name) (.ok p') :: es, ?_, ?_⟩
      · rw [ht', ht]; simp
      · generalize afterLoop ms _ p' w1 = r at hrun ⊢
        rw [hkw v]; exact .next hrun

theorem runBefore_run {ms : List (Middleware K σ)} (k : K) (h : ∀ m ∈ ms, ∀ kw, Silent (m.before kw)) (p : Val K)
    (w : World K σ) :
    ∃ es, (runBefore ms [("span_key", .span k), ("protocol_dto", p)] w).2.trace = w.trace ++ es ∧
      BeforeRun k (ms.map (·.name)) p es (runBefore ms [("span_key", .span k), ("protocol_dto", p)] w).1 := by
  unfold runBefore
  have hg : (Dict.get? [("span_key", Val.span k), ("protocol_dto", p)] "protocol_dto").getD .none = p := by
    simp [Dict.get?]
  rw [hg]
  split
  · rename_i hl
    have : ms = [] := List.length_eq_zero_iff.1 (by omega)
    subst this
    exact ⟨[], by simp [M.pure], .done⟩
  · exact beforeLoop_run k h _ p (fun q => by simp [Dict.set]) w

theorem runAfter_run {ms : List (Middleware K σ)} (k : K) (p v : Val K) (h : ∀ m ∈ ms, ∀ kw, Silent (m.after kw))
    (w : World K σ) :
    ∃ es, (runAfter ms [("span_key", .span k), ("protocol_dto", p), ("response_dto", v)] w).2.trace = w.trace ++ es ∧
      AfterRun k p (ms.map (·.name)) v es
        (runAfter ms [("span_key", .span k), ("protocol_dto", p), ("response_dto", v)] w).1 := by
  unfold runAfter
  have hg : (Dict.get? [("span_key", Val.span k), ("protocol_dto", p), ("response_dto", v)] "response_dto").getD .none = v := by
    simp [Dict.get?]
  rw [hg]
  split
  · rename_i hl
    have : ms = [] := List.length_eq_zero_iff.1 (by omega)
    subst this
    exact ⟨[], by simp [M.pure], .done⟩
  · exact afterLoop_run k p h _ v (fun q => by simp [Dict.set]) w

/-! ### Arguments -/

theorem has_filter_offered (ps : List Param) (k : K) (d : Json) (n : String) :
    Dict.has ((offered k d).filter fun e => e.1 ∈ acceptedParams ps) n = true ↔
      (n = "span_key" ∨ n = "dto") ∧ ∃ p ∈ ps, p.name = n := by
  simp only [offered, acceptedParams, List.filter_cons, List.filter_nil]
  by_cases h1 : "span_key" ∈ ps.map Param.name <;> by_cases h2 : "dto" ∈ ps.map Param.name <;>
    simp only [h1, h2, decide_true, decide_false, if_true, if_false, Dict.has, Dict.get?, Bool.false_eq_true]
  all_goals
    rw [List.mem_map] at h1 h2
    constructor
    · intro h
      repeat' split at h
      all_goals simp_all
    · rintro ⟨hn, p, hp, hpn⟩
      rcases hn with rfl | rfl
      all_goals first
        | (exfalso; first | exact h1 ⟨p, hp, hpn⟩ | exact h2 ⟨p, hp, hpn⟩)
        | simp

theorem keys_filter_offered (ps : List Param) (k : K) (d : Json) (n : String) :
    n ∈ Dict.keys ((offered k d).filter fun e => e.1 ∈ acceptedParams ps) ↔
      (n = "span_key" ∨ n = "dto") ∧ ∃ p ∈ ps, p.name = n := by
  rw [← has_filter_offered ps k d, Dict.has_iff]

theorem bindable_iff (ps : List Param) (k : K) (d : Json) :
    bindable ps ((offered k d).filter fun e => e.1 ∈ acceptedParams ps) = true ↔ Callable ps := by
  unfold bindable Callable
  rw [Bool.and_eq_true, List.all_eq_true, List.all_eq_true]
  constructor
  · rintro ⟨h1, h2⟩
    refine ⟨?_, ?_, ?_⟩
    · intro p hp hk hd
      have := h2 p hp
      rw [hk] at this
      simp only [hd, Bool.false_or] at this
      exact ((has_filter_offered ps k d _).1 this).1
    · intro p hp hk
      have := h2 p hp
      rw [hk] at this
      exact this
    · intro p hp hn
      have := h1 p.name ((keys_filter_offered ps k d _).2 ⟨hn, p, hp, rfl⟩)
      simpa using this
  · rintro ⟨h1, h2, h3⟩
    refine ⟨?_, ?_⟩
    · intro n hn
      obtain ⟨hn, p, hp, rfl⟩ := (keys_filter_offered ps k d _).1 hn
      simpa using h3 p hp hn
    · intro p hp
      rcases hk : p.kind with _ | _ | _ | _
      · dsimp only
        rcases hd : p.hasDefault with _ | _
        · simp only [Bool.false_or]
          exact (has_filter_offered ps k d _).2 ⟨h1 p hp hk hd, p, hp, rfl⟩
        · rfl
      · exact h2 p hp hk
      · rfl
      · rfl

theorem declared_filter (ps : List Param) (k : K) (d : Json) :
    Declared ps k d ((offered k d).filter fun e => e.1 ∈ acceptedParams ps) := by
  have hnd : ((offered k d).map Prod.fst).Nodup := by simp [offered]
  have hnd' : (Dict.keys ((offered k d).filter fun e => e.1 ∈ acceptedParams ps)).Nodup := by
    unfold Dict.keys
    exact hnd.sublist (List.Sublist.map _ List.filter_sublist)
  refine ⟨?_, hnd'⟩
  intro n v
  constructor
  · intro h
    have hm := mem_of_get? h
    rw [List.mem_filter] at hm
    refine ⟨hm.1, ?_⟩
    simpa [acceptedParams] using hm.2
  · rintro ⟨hm, p, hp, hpn⟩
    refine Dict.get?_of_mem _ _ _ hnd' ?_
    rw [List.mem_filter]
    refine ⟨hm, ?_⟩
    simpa [acceptedParams] using ⟨p, hp, hpn⟩

theorem attempt_run {h : Handler K σ} (k : K) (p : Val K)
    (h1 : ∀ ps f, h.body = .standard ps f → ∀ kw, Silent (f kw))
    (h2 : ∀ f, h.body = .buffered f → ∀ kw, Silent (f kw)) (w : World K σ) :
    ∃ a es, Entry h k p a ∧
      (attempt h [("span_key", .span k), ("protocol_dto", p)] w).2.trace = w.trace ++ es ∧
      HandlerRun h.name a es (attempt h [("span_key", .span k), ("protocol_dto", p)] w).1 := by
  have hg : Dict.get? [("span_key", Val.span k), ("protocol_dto", p)] "protocol_dto" = some p := by
    simp [Dict.get?]
  have he : ∀ d : Json, (Dict.erase [("span_key", Val.span k), ("protocol_dto", p)] "protocol_dto").set "dto"
      (.model d) = offered k d := by
    intro d; simp [Dict.erase, Dict.set, offered]
  cases p with
  | req r =>
    cases hd : r.data with
    | obj f =>
      cases hb : h.build f with
      | error e =>
        have ha : attempt h [("span_key", .span k), ("protocol_dto", .req r)] = M.raise e := by
          unfold attempt; rw [hg]; simp only [hd, hb]
        rw [ha]
        exact ⟨_, [], .invalid hd hb, by simp [M.raise], .refused⟩
      | ok d =>
        have ha : attempt h [("span_key", .span k), ("protocol_dto", .req r)] = run h (offered k d) := by
          unfold attempt; rw [hg]; simp only [hd, hb]; rw [he]
        rw [ha]
        cases hbody : h.body with
        | standard ps fn =>
          have hr : run h (offered k d) = runStandard h.name ps fn (offered k d) := by
            unfold run; simp only [hbody]
          rw [hr]
          unfold runStandard
          by_cases hc : Callable ps
          · rw [if_pos ((bindable_iff ps k d).2 hc)]
            obtain ⟨r', hr', ht'⟩ := invoke_silent (who := .handler h.name)
              (args := (offered k d).filter fun e => e.1 ∈ acceptedParams ps) (h1 ps fn hbody _) w
            refine ⟨_, _, .declared hd hb hbody hc (declared_filter ps k d), ht', ?_⟩
            rw [hr']
            exact .called
          · rw [if_neg (fun hh => hc ((bindable_iff ps k d).1 hh))]
            exact ⟨_, [], .notCallable hd hb hbody hc, by simp [M.raise], .refused⟩
        | buffered fn =>
          have hr : run h (offered k d) = invoke (.handler h.name) (offered k d) (fn (offered k d)) := by
            unfold run; simp only [hbody]
          rw [hr]
          obtain ⟨r', hr', ht'⟩ := invoke_silent (who := .handler h.name)
              (args := offered k d) (h2 fn hbody (offered k d)) w
          refine ⟨_, _, .buffered hd hb hbody, ht', ?_⟩
          rw [hr']
          exact .called
    | _ =>
      have ha : attempt h [("span_key", .span k), ("protocol_dto", .req r)] = M.raise (.py .typeError) := by
        unfold attempt; rw [hg]; simp only [hd]
      rw [ha]
      exact ⟨_, [], .notObject (by intro f; rw [hd]; nofun), by simp [M.raise], .refused⟩
  | _ =>
    have ha : ∀ p' : Val K, (∀ r, p' ≠ .req r) →
        attempt h [("span_key", .span k), ("protocol_dto", p')] = M.raise (.py .attributeError) := by
      intro p' hp'
      unfold attempt
      have hg' : Dict.get? [("span_key", Val.span k), ("protocol_dto", p')] "protocol_dto" = some p' := by
        simp [Dict.get?]
      rw [hg']
      cases p' <;> first | rfl | exact absurd rfl (hp' _)
    rw [ha _ (by nofun)]
    exact ⟨_, [], .notRequest (by nofun), by simp [M.raise], .refused⟩

/-- The outcome of `routeBody`, before `ApplicationProcessingException` is translated. -/
theorem routeBody_run {S : Server K σ} (hS : Each Silent S) {h : Handler K σ} {r : Req K}
    (hh : S.table.get? r.routeKey = some h) (k : K) (w : World K σ) :
    ∃ es, (routeBody S h r [("span_key", .span k)] w).2.trace = w.trace ++ es ∧
      Run k (S.middlewares.map (·.name)) h.name (Entry h k) (.req r) es
        (routeBody S h r [("span_key", .span k)] w).1 := by
  have hm := mem_of_get? hh
  have e1 : ∀ q : Val K, Dict.set [("span_key", Val.span k)] "protocol_dto" q =
      [("span_key", .span k), ("protocol_dto", q)] := by intro q; simp [Dict.set]
  have e2 : ∀ q q' : Val K, Dict.set [("span_key", Val.span k), ("protocol_dto", q)] "protocol_dto" q' =
      [("span_key", .span k), ("protocol_dto", q')] := by intro q q'; simp [Dict.set]
  have e3 : ∀ q v : Val K, (Dict.set [("span_key", Val.span k), ("protocol_dto", q)] "response_dto" v).set
      "protocol_dto" q = [("span_key", .span k), ("protocol_dto", q), ("response_dto", v)] := by
    intro q v; simp [Dict.set]
  unfold routeBody
  simp only [e1, e2, e3]
  obtain ⟨es1, ht1, hr1⟩ := runBefore_run k hS.before (.req r) w
  unfold M.bind
  rcases hb : runBefore S.middlewares [("span_key", .span k), ("protocol_dto", .req r)] w with ⟨r1, w1⟩
  rw [hb] at ht1 hr1
  cases r1 with
  | error e => exact ⟨es1, ht1, .before hr1⟩
  | ok p =>
    dsimp only
    obtain ⟨a, es2, ha, ht2, hr2⟩ := attempt_run k p (hS.fn _ hm) (hS.run _ hm) w1
    rcases hat : attempt h [("span_key", .span k), ("protocol_dto", p)] w1 with ⟨r2, w2⟩
    rw [hat] at ht2 hr2
    dsimp only at ht1 ht2
    cases r2 with
    | error e => exact ⟨es1 ++ es2, by dsimp only; rw [ht2, ht1, List.append_assoc], .handler hr1 ha hr2⟩
    | ok v =>
      obtain ⟨es3, ht3, hr3⟩ := runAfter_run k p v hS.after w2
      exact ⟨es1 ++ (es2 ++ es3), by dsimp only; rw [ht3, ht2, ht1]; simp, .full hr1 ha hr2 hr3⟩

end Verif.Server
