import Verif.Counted.Spec

namespace Verif.Counted

open Verif.Py Verif.Server Verif.Server.Spec

variable {K σ : Type}

theorem plain_bind {α β : Type} {m : M K σ α} {f : α → M K σ β} (hm : Plain m) (hf : ∀ a, Plain (f a)) : Plain (M.bind m f) := by
  intro w
  have := hm w
  unfold M.bind
  rcases hmw : m w with ⟨r, w'⟩
  rw [hmw] at this
  cases r with
  | error e => exact ⟨this.1, fun msg h => this.2 msg (by cases h; rfl)⟩
  | ok a => exact ⟨(hf a w').1.trans this.1, (hf a w').2⟩

theorem plain_invoke {who : Who} {args : Kwargs K} {m : M K σ (Val K)} (hm : Plain m) : Plain (invoke who args m) := by
  intro w
  have := hm { w with trace := w.trace ++ [.call who args w.ctx] }
  unfold invoke
  exact this

theorem plain_pure {α : Type} (a : α) : Plain (M.pure a : M K σ α) := by intro w; exact ⟨rfl, by simp [M.pure]⟩

theorem plain_raise {α : Type} {e : Exc} (he : ∀ msg, e ≠ .routing 0 msg) : Plain (M.raise e : M K σ α) := by
  intro w; exact ⟨rfl, fun msg h => he msg (by cases h; rfl)⟩

theorem plain_catchApp {route : String} {m : M K σ (Val K)} (hm : Plain m) : Plain (catchApp route m) := by
  intro w
  have := hm w
  unfold catchApp
  rcases hmw : m w with ⟨r, w'⟩
  rw [hmw] at this
  rcases r with e | v
  · cases e <;> first
      | exact this
      | exact ⟨this.1, fun msg h => by simp [routerProcessing, routingException, statusProcessing] at h⟩
  · exact this

theorem plain_beforeLoop {ms : List (Middleware K σ)} (h : ∀ m ∈ ms, ∀ kw, Plain (m.before kw)) : ∀ kw p, Plain (beforeLoop ms kw p) := by
  induction ms with
  | nil => intro kw p; exact plain_pure p
  | cons m ms ih =>
    intro kw p
    exact plain_bind (plain_invoke (h m List.mem_cons_self _)) (fun p' => ih (fun m' hm' => h m' (List.mem_cons_of_mem _ hm')) _ _)

theorem plain_afterLoop {ms : List (Middleware K σ)} (h : ∀ m ∈ ms, ∀ kw, Plain (m.after kw)) : ∀ kw p, Plain (afterLoop ms kw p) := by
  induction ms with
  | nil => intro kw p; exact plain_pure p
  | cons m ms ih =>
    intro kw p
    exact plain_bind (plain_invoke (h m List.mem_cons_self _)) (fun p' => ih (fun m' hm' => h m' (List.mem_cons_of_mem _ hm')) _ _)

theorem plain_attempt {S : Server K σ} (hS : Each Plain S) {e : String × Handler K σ} (he : e ∈ S.table)
    (hb : ∀ f msg, e.2.build f ≠ .error (.routing 0 msg)) (kw) : Plain (attempt e.2 kw) := by
  unfold attempt
  split
  · exact plain_raise (by nofun)
  · split
    · split
      · rename_i f _ _ ex hex
        exact plain_raise (fun msg h => hb f msg (by rw [hex, h]))
      · unfold run
        split
        · rename_i ps fn hbody
          unfold runStandard
          dsimp only
          split
          · exact plain_invoke (hS.fn e he ps fn hbody _)
          · exact plain_raise (by nofun)
        · rename_i fn hbody
          exact plain_invoke (hS.run e he fn hbody _)
    · exact plain_raise (by nofun)
  · exact plain_raise (by nofun)

theorem plain_route {S : Server K σ} (hS : Each Plain S) (hb : ∀ e ∈ S.table, ∀ f msg, e.2.build f ≠ .error (.routing 0 msg))
    (r : Req K) (kw) : Plain (route S r kw) := by
  unfold route
  split
  · exact plain_raise (by simp [unknownRoute, routingException, statusRouteUnknown])
  · rename_i h hh
    have hm := mem_of_get? hh
    refine plain_catchApp (plain_bind ?_ fun p => plain_bind (plain_attempt hS hm (hb _ hm) _) fun v => ?_)
    · unfold runBefore; split
      · exact plain_pure _
      · exact plain_beforeLoop hS.before _ _
    · unfold runAfter; split
      · exact plain_pure _
      · exact plain_afterLoop hS.after _ _

theorem respond_failure (k : Option K) (e : Exc) (he : ∀ msg, e ≠ .routing 0 msg) : succeeded (respond k e) = false := by
  cases e with
  | routing st m =>
    have : st ≠ 0 := fun h => he m (by rw [h])
    simpa [respond, succeeded] using this
  | _ => first | rfl | decide

/-- One request. -/
theorem one {S : Server K σ} (hS : Each Plain S) (hb : ∀ e ∈ S.table, ∀ f msg, e.2.build f ≠ .error (.routing 0 msg))
    (hl : ∀ t msg, S.loads t ≠ .error (.routing 0 msg)) (text : String) (w : World K σ) :
    (routeRequest S text w).2.served = w.served ++ (if succeeded (routeRequest S text w).1 then routeIn S text else none).toList := by
  cases hj : S.loads text with
  | error e =>
    have := respond_failure (K := K) none e (fun msg h => hl text msg (by rw [hj, h]))
    have he : routeRequest S text w = (respond none e, w) := by unfold routeRequest; simp only [hj]
    rw [he]
    simp [this]
  | ok j =>
    cases hr : requestDto S j with
    | error e =>
      have := respond_failure (K := K) none e (by
        intro msg h
        subst h
        unfold requestDto at hr
        split at hr
        · split at hr
          · split at hr <;> cases hr
          · cases hr
        · cases hr)
      have he : routeRequest S text w = (respond none e, w) := by unfold routeRequest; simp only [hj, hr]
      rw [he]
      simp [this]
    | ok r =>
      have hp := plain_route hS hb r [("span_key", .span r.spanKey)]
      have hw := hp { w with ctx := some r.spanKey, trace := w.trace ++ [.enter r.spanKey] }
      rcases hx : route S r [("span_key", .span r.spanKey)] { w with ctx := some r.spanKey, trace := w.trace ++ [.enter r.spanKey] } with ⟨res, w'⟩
      rw [hx] at hw
      cases res with
      | error e =>
        have := respond_failure (some r.spanKey) e (fun msg h => hw.2 msg (by rw [h]))
        have hs : serve S r { w with ctx := some r.spanKey, trace := w.trace ++ [.enter r.spanKey] } = (.error e, w') := by
          unfold serve M.bind; rw [hx]
        have he : routeRequest S text w = (respond (some r.spanKey) e, { w' with ctx := w.ctx, trace := w'.trace ++ [.leave] }) := by
          unfold routeRequest withContext; simp only [hj, hr, hs]
        rw [he]
        simpa [this] using hw.1
      | ok v =>
        have hk : routeIn S text = some r.routeKey := by
          unfold routeIn
          rw [hj]
          cases j with
          | obj fields =>
            have := ((requestDto_iff S fields r).1 hr).1
            simp only [this]
          | _ => simp [requestDto] at hr
        have hs : serve S r { w with ctx := some r.spanKey, trace := w.trace ++ [.enter r.spanKey] } =
            (.ok { spanKey := some r.spanKey, status := statusSuccess, data := v }, { w' with served := w'.served ++ [r.routeKey] }) := by
          unfold serve M.bind; rw [hx]
        have he : routeRequest S text w = (.ok { spanKey := some r.spanKey, status := statusSuccess, data := v },
            { w' with ctx := w.ctx, served := w'.served ++ [r.routeKey], trace := w'.trace ++ [.leave] }) := by
          unfold routeRequest withContext; simp only [hj, hr, hs]
        have hw1 : w'.served = w.served := hw.1
        rw [he]
        simp [succeeded, statusSuccess, hk, hw1]

theorem calls_told (r : String) (es : List Stats.Ev) : Stats.Spec.calls r es = (told es).count r := by
  induction es with
  | nil => rfl
  | cons e es ih =>
    cases e with
    | call q d =>
      simp only [Stats.Spec.calls, told, List.count_cons, ih]
      by_cases h : q = r <;> simp [h, Nat.add_comm]
    | _ => simpa only [Stats.Spec.calls, told] using ih

end Verif.Counted
