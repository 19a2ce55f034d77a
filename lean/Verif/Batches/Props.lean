import Verif.Batches.Model

/-!
# C114: a file whose lines the collector refuses holds up nothing, neither other files nor its own later lines
-/

namespace Verif.Batches

/-! ## Specification -/

/-- The lines that were written to a path. -/
def written (p : Nat) : List Ev → List Line
  | [] => []
  | .write q ls :: es => if q = p then ls ++ written p es else written p es
  | _ :: es => written p es

/-- A reply that tells of success: the request was made, and the status is one of 2xx. -/
def Good (r : Reply) : Prop := r.curlOk = true ∧ r.code / 100 = 2

instance (r : Reply) : Decidable (Good r) := by unfold Good; infer_instance

/-- The lines of a path that the collector took, in the order of the requests: those of requests with a good reply. (For a collector that takes a request and
whose reply gets lost see C56.) -/
def taken (p : Nat) (sent : List Sent) : List Line := (sent.filter (fun s => s.path = p ∧ Good s.reply)).flatMap (·.lines)

/-- The requests made for a path. -/
def requests (p : Nat) (sent : List Sent) : List (List Line) := (sent.filter (fun s => s.path = p)).map (·.lines)

/-- The events that concern a path: what is written to it, the passes, the restarts. -/
def concerns (p : Nat) : Ev → Bool
  | .write q _ => q == p
  | _ => true

/-! ## Lemmas -/

theorem success_iff (r : Reply) : r.success = true ↔ Good r := by
  unfold Reply.success Good
  simp only [Bool.and_eq_true, decide_eq_true_eq]
  constructor
  · rintro ⟨⟨h1, h2⟩, h3⟩; exact ⟨h1, by omega⟩
  · rintro ⟨h1, h2⟩; exact ⟨⟨h1, by omega⟩, by omega⟩

/-- The entry of a path. -/
def look (p : Nat) (w : List (Nat × Watched)) : Option Watched := (w.find? (fun x => x.1 == p)).map (·.2)

theorem look_insert (p q : Nat) (v : Watched) (w : List (Nat × Watched)) (h : look q w = none) :
    look p (insert q v w) = if p = q then some v else look p w := by
  induction w with
  | nil =>
    by_cases hpq : p = q
    · simp [insert, look, hpq]
    · simp [insert, look, hpq, Ne.symm hpq]
  | cons x t ih =>
    obtain ⟨r, u⟩ := x
    have hr : r ≠ q := by rintro rfl; simp [look] at h
    have ht : look q t = none := by simpa [look, hr] using h
    simp only [insert]
    split
    · by_cases hpq : p = q
      · simp [look, hpq]
      · simp [look, hpq, Ne.symm hpq]
    · by_cases hpr : r = p
      · subst hpr; simp [look, hr]
      · have := ih ht
        simp only [look, List.find?_cons] at this ⊢
        simp only [beq_eq_false_iff_ne.2 hpr, this]

theorem look_none_iff (p : Nat) (w : List (Nat × Watched)) : look p w = none ↔ w.any (fun x => x.1 == p) = false := by
  simp [look]

theorem look_attach (store : Nat → Option Nat) (w : List (Nat × Watched)) (p q : Nat) :
    look p (attach store w q) = if p = q ∧ look p w = none then some ⟨(store p).getD 0, []⟩ else look p w := by
  unfold attach
  by_cases h : look q w = none
  · rw [if_neg (by simp [(look_none_iff q w).1 h]), look_insert p q _ w h]
    by_cases hpq : p = q
    · subst hpq; simp [h]
    · simp [hpq]
  · have : w.any (fun x => x.1 == q) = true := by
      cases hb : w.any (fun x => x.1 == q) with
      | true => rfl
      | false => exact absurd ((look_none_iff q w).2 hb) h
    rw [if_pos this]
    by_cases hpq : p = q
    · subst hpq; simp [h]
    · simp [hpq]

theorem look_attachAll (store : Nat → Option Nat) (ps : List Nat) : ∀ (w : List (Nat × Watched)) (p : Nat),
    look p (ps.foldl (attach store) w) = if p ∈ ps ∧ look p w = none then some ⟨(store p).getD 0, []⟩ else look p w := by
  induction ps with
  | nil => intro w p; simp
  | cons q ps ih =>
    intro w p
    rw [List.foldl_cons, ih, look_attach]
    by_cases h : look p w = none
    · by_cases hpq : p = q
      · subst hpq; simp [h]
      · simp [h, hpq]
    · simp [h]

/-- No path is watched twice. -/
def Once (w : List (Nat × Watched)) : Prop := (w.map (·.1)).Nodup

theorem insert_perm (p : Nat) (v : Watched) (w : List (Nat × Watched)) : (insert p v w).Perm ((p, v) :: w) := by
  induction w with
  | nil => exact .refl _
  | cons x t ih =>
    obtain ⟨q, u⟩ := x
    simp only [insert]
    split
    · exact .refl _
    · exact (List.Perm.cons _ ih).trans (List.Perm.swap _ _ _)

theorem once_attach (store : Nat → Option Nat) (w : List (Nat × Watched)) (p : Nat) (h : Once w) : Once (attach store w p) := by
  unfold attach
  split
  · exact h
  · next hn =>
    have hp := (insert_perm p ⟨(store p).getD 0, []⟩ w).map (·.1)
    unfold Once
    rw [hp.nodup_iff]
    simp only [List.map_cons, List.nodup_cons]
    refine ⟨?_, h⟩
    intro hm
    obtain ⟨x, hx, he⟩ := List.mem_map.1 hm
    exact hn (List.any_eq_true.2 ⟨x, hx, by simp [he]⟩)

theorem once_attachAll (store : Nat → Option Nat) (ps : List Nat) : ∀ w, Once w → Once (ps.foldl (attach store) w) := by
  induction ps with
  | nil => intro w h; exact h
  | cons q ps ih => intro w h; exact ih _ (once_attach store w q h)

theorem ship_path (R : Nat → List Line → Reply) (disk : Nat → List Line) (p : Nat) (v : Watched) : ∀ s, (ship R disk p v).2 = some s → s.path = p := by
  intro s h
  simp only [ship] at h
  generalize (if v.undelivered.isEmpty = true then poll (disk p) v else v) = u at h
  by_cases h1 : u.undelivered.isEmpty = true
  · rw [if_pos h1] at h; cases h
  · rw [if_neg h1] at h
    by_cases h2 : (R p u.undelivered).success = true
    · rw [if_pos h2] at h; cases h; rfl
    · rw [if_neg h2] at h; cases h; rfl

theorem shipAll_keys (R : Nat → List Line → Reply) (disk : Nat → List Line) : ∀ (w : List (Nat × Watched)) (store : Nat → Option Nat),
    (shipAll R disk w store).1.map (·.1) = w.map (·.1) := by
  intro w
  induction w with
  | nil => intro store; rfl
  | cons x t ih => obtain ⟨p, v⟩ := x; intro store; simp only [shipAll, List.map_cons, ih]

theorem save_other (store : Nat → Option Nat) (p q : Nat) (h : p ≠ q) (v : Watched) (s : Option Sent) : save store q v s p = store p := by
  cases s with
  | none => rfl
  | some s => simp only [save]; split <;> simp [h]

/-- What a pass does to one path. -/
theorem shipAll_look (R : Nat → List Line → Reply) (disk : Nat → List Line) (p : Nat) : ∀ (w : List (Nat × Watched)) (store : Nat → Option Nat), Once w →
    match look p w with
    | none => look p (shipAll R disk w store).1 = none ∧ (shipAll R disk w store).2.1 p = store p ∧ (shipAll R disk w store).2.2.filter (fun s => s.path = p) = []
    | some v => look p (shipAll R disk w store).1 = some (ship R disk p v).1 ∧
        (shipAll R disk w store).2.1 p = save store p (ship R disk p v).1 (ship R disk p v).2 p ∧
        (shipAll R disk w store).2.2.filter (fun s => s.path = p) = (ship R disk p v).2.toList := by
  intro w
  induction w with
  | nil => intro store _; exact ⟨rfl, rfl, rfl⟩
  | cons x t ih =>
    obtain ⟨q, u⟩ := x
    intro store h
    have ht : Once t := (List.nodup_cons.1 h).2
    have hq : q ∉ t.map (·.1) := (List.nodup_cons.1 h).1
    have own : ∀ (o : Option Sent) (r : Nat), (∀ s, o = some s → s.path = q) → o.toList.filter (fun s => s.path = r) = if r = q then o.toList else [] := by
      intro o r ho
      cases o with
      | none => simp
      | some s =>
        have := ho s rfl
        by_cases hr : r = q
        · simp [this, hr]
        · simp [this, hr, Ne.symm hr]
    have hs := ship_path R disk q u
    by_cases hpq : q = p
    · subst hpq
      have hn : look q t = none := by
        rw [look_none_iff]
        cases hb : t.any (fun x => x.1 == q) with
        | false => rfl
        | true =>
          obtain ⟨x, hx, he⟩ := List.any_eq_true.1 hb
          exact absurd (List.mem_map.2 ⟨x, hx, by simpa using he⟩) hq
      have := ih (save store q (ship R disk q u).1 (ship R disk q u).2) ht
      rw [hn] at this
      obtain ⟨_, h2, h3⟩ := this
      have e : look q ((q, u) :: t) = some u := by simp [look]
      rw [e]
      simp only [shipAll]
      refine ⟨by simp [look], h2, ?_⟩
      rw [List.filter_append, h3, own _ _ hs]
      simp
    · have e : look p ((q, u) :: t) = look p t := by simp [look, hpq]
      have := ih (save store q (ship R disk q u).1 (ship R disk q u).2) ht
      rw [e]
      simp only [shipAll]
      have e' : ∀ (y : Watched) (l : List (Nat × Watched)), look p ((q, y) :: l) = look p l := by intro y l; simp [look, hpq]
      rw [e', List.filter_append, own _ _ hs, if_neg (Ne.symm hpq), List.nil_append]
      cases hl : look p t with
      | none =>
        rw [hl] at this
        exact ⟨this.1, by rw [this.2.1, save_other _ _ _ (Ne.symm hpq)], this.2.2⟩
      | some v =>
        rw [hl] at this
        refine ⟨this.1, ?_, this.2.2⟩
        rw [this.2.1]
        cases ho : (ship R disk p v).2 with
        | none => simp only [save]; exact save_other _ _ _ (Ne.symm hpq) _ _
        | some s => simp only [save]; split
                    · simp
                    · exact save_other _ _ _ (Ne.symm hpq) _ _

/-- What is known of one path in a state: its lines, its entry, its offset in the store, the requests made for it, whether it has a file. -/
structure View where
  disk : List Line
  entry : Option Watched
  store : Option Nat
  sent : List Sent
  file : Bool

def view (p : Nat) (s : St) : View := ⟨s.disk p, look p s.watched, s.store p, s.sent.filter (fun x => x.path = p), s.paths.contains p⟩

/-- One event, seen from one path. -/
def vstep (p : Nat) (x : View) : Ev → View
  | .write q ls => if q = p then { x with disk := x.disk ++ ls, file := true } else x
  | .pass R =>
    match (if x.file = true ∧ x.entry = none then some ⟨x.store.getD 0, []⟩ else x.entry) with
    | none => { x with entry := none }
    | some v =>
      let r := ship R (fun _ => x.disk) p v
      { x with entry := some r.1, store := save (fun _ => x.store) p r.1 r.2 p, sent := x.sent ++ r.2.toList }
  | .restart => { x with entry := none }

theorem once_step (s : St) (e : Ev) (h : Once s.watched) : Once (step s e).watched := by
  cases e with
  | write p ls => exact h
  | pass R =>
    simp only [step, pass, Once]
    rw [shipAll_keys]
    exact once_attachAll _ _ _ h
  | restart => exact List.nodup_nil

theorem view_step (p : Nat) (s : St) (e : Ev) (h : Once s.watched) : view p (step s e) = vstep p (view p s) e := by
  cases e with
  | write q ls =>
    by_cases hq : q = p
    · subst hq
      simp only [step, view, vstep, if_true, View.mk.injEq, true_and]
      by_cases hc : s.paths.contains q = true
      · rw [if_pos hc]; exact hc
      · rw [if_neg hc]; simp
    · simp only [step, view, vstep, if_neg hq, View.mk.injEq, true_and]
      refine ⟨by rw [if_neg (Ne.symm hq)], ?_⟩
      split
      · rfl
      · simp [Ne.symm hq]
  | pass R =>
    have ho := once_attachAll s.store s.paths s.watched h
    have hl := look_attachAll s.store s.paths s.watched p
    have hs := shipAll_look R s.disk p _ s.store ho
    have hd : ∀ v, ship R (fun _ => s.disk p) p v = ship R s.disk p v := fun v => rfl
    have hcond : (if (view p s).file = true ∧ (view p s).entry = none then some ⟨(view p s).store.getD 0, []⟩ else (view p s).entry) =
        look p (s.paths.foldl (attach s.store) s.watched) := by
      rw [hl]
      by_cases hc : p ∈ s.paths ∧ look p s.watched = none
      · rw [if_pos hc, if_pos (by simpa [view] using hc)]; rfl
      · rw [if_neg hc, if_neg (by simpa [view] using hc)]; rfl
    simp only [vstep, hcond]
    simp only [step, pass, view]
    cases hk : look p (s.paths.foldl (attach s.store) s.watched) with
    | none =>
      rw [hk] at hs
      simp only [View.mk.injEq, true_and, and_true]
      exact ⟨hs.1, hs.2.1, by rw [List.filter_append, hs.2.2, List.append_nil]⟩
    | some v =>
      rw [hk] at hs
      simp only [View.mk.injEq, true_and, and_true, hd]
      refine ⟨hs.1, ?_, by rw [List.filter_append, hs.2.2]⟩
      rw [hs.2.1]
      cases (ship R s.disk p v).2 with
      | none => rfl
      | some x => simp only [save]; split <;> simp
  | restart => simp [step, view, vstep, look]

theorem view_run (p : Nat) (es : List Ev) : ∀ s : St, Once s.watched → view p (run s es) = es.foldl (vstep p) (view p s) := by
  induction es with
  | nil => intro s _; rfl
  | cons e es ih =>
    intro s h
    simp only [run, List.foldl_cons]
    have := ih (step s e) (once_step s e h)
    rw [run] at this
    rw [this, view_step p s e h]

theorem once_init : Once init.watched := List.nodup_nil

/-! ## C114 -/

/-- **C114, other files.** What becomes of the lines of one path is the same whatever is written to other paths, and whatever the collector says to that: the requests
made for the path, and what the store has for it, are those of the run without the others. -/
theorem C114_isolated (p : Nat) (es : List Ev) :
    (run init es).sent.filter (fun s => s.path = p) = (run init (es.filter (concerns p))).sent.filter (fun s => s.path = p) ∧
    (run init es).store p = (run init (es.filter (concerns p))).store p := by
  have key : ∀ (es : List Ev) (x : View), es.foldl (vstep p) x = (es.filter (concerns p)).foldl (vstep p) x := by
    intro es
    induction es with
    | nil => intro x; rfl
    | cons e es ih =>
      intro x
      cases e with
      | write q ls =>
        by_cases hq : q = p
        · rw [List.filter_cons_of_pos (by simp [concerns, hq])]; exact ih _
        · rw [List.filter_cons_of_neg (by simp [concerns, hq]), List.foldl_cons]
          simp only [vstep, if_neg hq]
          exact ih x
      | pass R => rw [List.filter_cons_of_pos (by rfl)]; exact ih _
      | restart => rw [List.filter_cons_of_pos (by rfl)]; exact ih _
  have h : view p (run init es) = view p (run init (es.filter (concerns p))) := by
    rw [view_run p _ _ once_init, view_run p _ _ once_init, key]
  exact ⟨congrArg View.sent h, congrArg View.store h⟩

/-- What holds for one path at all times: its lines are what was written; the store has the number of lines taken, which are the first ones; the entry's batch is
what follows them, up to its offset. -/
structure Sound (p : Nat) (all : List Line) (x : View) : Prop where
  disk : x.disk = all
  own : ∀ s ∈ x.sent, s.path = p
  taken : taken p x.sent = all.take (x.store.getD 0)
  le : x.store.getD 0 ≤ all.length
  entry : ∀ v, x.entry = some v → x.store.getD 0 ≤ v.offset ∧ v.offset ≤ all.length ∧ v.undelivered = (all.take v.offset).drop (x.store.getD 0) ∧ x.file = true
  file : all ≠ [] → x.file = true

theorem taken_append (p : Nat) (a b : List Sent) : taken p (a ++ b) = taken p a ++ taken p b := by simp [taken]

theorem sound_pass {p : Nat} {all : List Line} {x : View} (h : Sound p all x) (R : Nat → List Line → Reply) : Sound p all (vstep p x (.pass R)) := by
  simp only [vstep]
  have hv : ∀ v, (if x.file = true ∧ x.entry = none then some ⟨x.store.getD 0, []⟩ else x.entry) = some v →
      x.store.getD 0 ≤ v.offset ∧ v.offset ≤ all.length ∧ v.undelivered = (all.take v.offset).drop (x.store.getD 0) ∧ x.file = true := by
    intro v hv
    split at hv
    · next hc =>
      cases hv
      exact ⟨Nat.le_refl _, h.le, by simp, hc.1⟩
    · exact h.entry v hv
  cases hk : (if x.file = true ∧ x.entry = none then some (⟨x.store.getD 0, []⟩ : Watched) else x.entry) with
  | none => exact ⟨h.disk, h.own, h.taken, h.le, nofun, h.file⟩
  | some v =>
    obtain ⟨h1, h2, h3, h4⟩ := hv v hk
    -- the batch that is sent
    have hb : ∃ o u, (if v.undelivered.isEmpty then poll x.disk v else v) = ⟨o, u⟩ ∧ x.store.getD 0 ≤ o ∧ o ≤ all.length ∧ u = (all.take o).drop (x.store.getD 0) := by
      by_cases he : v.undelivered.isEmpty = true
      · rw [if_pos he]
        refine ⟨x.disk.length, x.disk.drop v.offset, rfl, by rw [h.disk]; exact h.le, by rw [h.disk]; exact Nat.le_refl _, ?_⟩
        rw [h.disk, List.take_length]
        have hz : v.undelivered = [] := List.isEmpty_iff.1 he
        rw [hz] at h3
        have := congrArg List.length h3
        simp only [List.length_nil, List.length_drop, List.length_take] at this
        have : v.offset = x.store.getD 0 := by omega
        rw [this]
      · rw [if_neg he]; exact ⟨v.offset, v.undelivered, rfl, h1, h2, h3⟩
    obtain ⟨o, u, hou, ho1, ho2, hu⟩ := hb
    simp only [ship, hou]
    by_cases hue : u.isEmpty = true
    · rw [if_pos hue]
      refine ⟨h.disk, by simpa using h.own, by simpa [save] using h.taken, h.le, ?_, h.file⟩
      intro v' hv'
      cases hv'
      exact ⟨ho1, ho2, hu, h4⟩
    · rw [if_neg hue]
      by_cases hs : (R p u).success = true
      · simp only [hs, if_true, save]
        have hg : Good (R p u) := (success_iff _).1 hs
        refine ⟨h.disk, ?_, ?_, by simpa using ho2, ?_, h.file⟩
        · intro s hs'
          rcases List.mem_append.1 hs' with hs' | hs'
          · exact h.own s hs'
          · rw [List.mem_singleton.1 hs']
        · rw [taken_append, h.taken]
          have : taken p [(⟨p, u, R p u⟩ : Sent)] = u := by simp [taken, hg]
          simp only [Option.toList_some, this, Option.getD_some]
          rw [hu, List.drop_take, ← List.take_add]
          congr 1
          omega
        · intro v' hv'
          cases hv'
          exact ⟨by simp, ho2, by simp, h4⟩
      · simp only [hs, Bool.false_eq_true, if_false, save]
        have hg : ¬ Good (R p u) := fun k => hs ((success_iff _).2 k)
        refine ⟨h.disk, ?_, ?_, h.le, ?_, h.file⟩
        · intro s hs'
          rcases List.mem_append.1 hs' with hs' | hs'
          · exact h.own s hs'
          · rw [List.mem_singleton.1 hs']
        · rw [taken_append, h.taken]
          have : taken p [(⟨p, u, R p u⟩ : Sent)] = [] := by simp [taken, hg]
          simp [this]
        · intro v' hv'
          cases hv'
          exact ⟨ho1, ho2, hu, h4⟩

theorem sound_step {p : Nat} {all : List Line} {x : View} (h : Sound p all x) (e : Ev) : Sound p (all ++ written p [e]) (vstep p x e) := by
  cases e with
  | write q ls =>
    by_cases hq : q = p
    · simp only [vstep, written, hq, if_true, List.append_nil]
      refine ⟨by simp [h.disk], h.own, ?_, ?_, ?_, fun _ => rfl⟩
      · rw [h.taken, List.take_append_of_le_length h.le]
      · have := h.le; simp only [List.length_append]; omega
      · intro v hv
        obtain ⟨h1, h2, h3, _⟩ := h.entry v hv
        exact ⟨h1, by simp only [List.length_append]; omega, by rw [h3, List.take_append_of_le_length h2], rfl⟩
    · simp only [vstep, written, hq, if_false, List.append_nil]; exact h
  | pass R => simpa [written] using sound_pass h R
  | restart => simp only [vstep, written, List.append_nil]; exact ⟨h.disk, h.own, h.taken, h.le, nofun, h.file⟩

theorem written_cons (p : Nat) (e : Ev) (es : List Ev) : written p (e :: es) = written p [e] ++ written p es := by
  cases e with
  | write q ls => by_cases hq : q = p <;> simp [written, hq]
  | pass R => rfl
  | restart => rfl

theorem written_append (p : Nat) (a b : List Ev) : written p (a ++ b) = written p a ++ written p b := by
  induction a with
  | nil => rfl
  | cons e es ih => rw [List.cons_append, written_cons, ih, written_cons p e es, List.append_assoc]

theorem sound_fold {p : Nat} (es : List Ev) : ∀ {all : List Line} {x : View}, Sound p all x → Sound p (all ++ written p es) (es.foldl (vstep p) x) := by
  induction es with
  | nil => intro all x h; simpa [written] using h
  | cons e es ih =>
    intro all x h
    rw [written_cons, ← List.append_assoc]
    exact ih (sound_step h e)

theorem sound_run (p : Nat) (es : List Ev) : Sound p (written p es) (view p (run init es)) := by
  rw [view_run p es init once_init]
  have h0 : Sound p [] (view p init) := ⟨rfl, by simp [view, init], rfl, Nat.le_refl _, by simp [view, init, look], by simp⟩
  simpa using sound_fold es h0

theorem taken_view (p : Nat) (s : St) : taken p s.sent = taken p (view p s).sent := by
  simp only [taken, view, List.filter_filter]
  congr 2
  funext a
  by_cases h : a.path = p <;> simp [h]

/-- **C114, once and in order.** Whatever the collector answered, and however often the shipper was restarted: the lines of a path that the collector took are the
first ones of those written, each once; and the store has their number. -/
theorem C114_once (p : Nat) (es : List Ev) :
    taken p (run init es).sent <+: written p es ∧ ((run init es).store p).getD 0 = (taken p (run init es).sent).length := by
  have h := sound_run p es
  rw [taken_view, h.taken]
  refine ⟨List.take_prefix _ _, ?_⟩
  have := h.le
  rw [List.length_take]
  simp only [view] at this ⊢
  omega

/-- A pass on which the collector takes everything of this path leaves no batch. -/
theorem clean_pass {p : Nat} (x : View) {R : Nat → List Line → Reply} (hR : ∀ b, Good (R p b)) :
    ∀ v, (vstep p x (.pass R)).entry = some v → v.undelivered = [] := by
  have hs : ∀ b, (R p b).success = true := fun b => (success_iff _).2 (hR b)
  simp only [vstep]
  cases (if x.file = true ∧ x.entry = none then some (⟨x.store.getD 0, []⟩ : Watched) else x.entry) with
  | none => nofun
  | some v =>
    intro v' hv'
    simp only [Option.some.injEq] at hv'
    rw [← hv']
    simp only [ship, hs, if_true]
    generalize (if v.undelivered.isEmpty = true then poll x.disk v else v) = u
    by_cases hu : u.undelivered.isEmpty = true
    · rw [if_pos hu]; exact List.isEmpty_iff.1 hu
    · rw [if_neg hu]

/-- A pass that finds no batch, and whose new batch is taken: everything is. -/
theorem poll_pass {p : Nat} {all : List Line} {x : View} (h : Sound p all x) {R : Nat → List Line → Reply} (hR : Good (R p (all.drop (x.store.getD 0))))
    (hall : ∀ v, x.entry = some v → v.undelivered = []) : taken p (vstep p x (.pass R)).sent = all := by
  simp only [vstep]
  cases hk : (if x.file = true ∧ x.entry = none then some (⟨x.store.getD 0, []⟩ : Watched) else x.entry) with
  | none =>
    have he : x.entry = none := by
      split at hk
      · cases hk
      · exact hk
    have hf : ¬ x.file = true := by
      intro hf
      rw [if_pos ⟨hf, he⟩] at hk
      cases hk
    have : all = [] := by
      cases all with
      | nil => rfl
      | cons a t => exact absurd (h.file (by simp)) hf
    simp only
    rw [h.taken, this]; simp
  | some v =>
    have hv : v.undelivered = [] ∧ v.offset = x.store.getD 0 := by
      split at hk
      · cases hk; exact ⟨rfl, rfl⟩
      · obtain ⟨h1, h2, h3, _⟩ := h.entry v hk
        have h0 := hall v hk
        refine ⟨h0, ?_⟩
        rw [h0] at h3
        have := congrArg List.length h3
        simp only [List.length_nil, List.length_drop, List.length_take] at this
        omega
    obtain ⟨hv0, hvo⟩ := hv
    have hp : (if v.undelivered.isEmpty = true then poll x.disk v else v) = ⟨all.length, all.drop (x.store.getD 0)⟩ := by
      rw [hv0]; simp [poll, h.disk, hvo]
    simp only [ship, hp]
    by_cases hu : (all.drop (x.store.getD 0)).isEmpty = true
    · rw [if_pos hu]
      simp only [Option.toList_none, List.append_nil]
      rw [h.taken]
      have hle : all.length ≤ x.store.getD 0 := by simpa using hu
      exact List.take_of_length_le hle
    · rw [if_neg hu, if_pos ((success_iff _).2 hR)]
      simp only [Option.toList_some]
      have : taken p [(⟨p, all.drop (x.store.getD 0), R p (all.drop (x.store.getD 0))⟩ : Sent)] = all.drop (x.store.getD 0) := by simp [taken, hR]
      rw [taken_append, this, h.taken, List.take_append_drop]

/-- **C114, in the end.** Whatever has happened before: when the collector takes the lines of a path on two passes, everything written to it before has been taken. -/
theorem C114_all (p : Nat) (es : List Ev) {R R' : Nat → List Line → Reply} (h : ∀ b, Good (R p b)) (h' : ∀ b, Good (R' p b)) :
    taken p (run init (es ++ [.pass R, .pass R'])).sent = written p es := by
  have hS := sound_run p es
  rw [taken_view, view_run p _ _ once_init, List.foldl_append, ← view_run p _ _ once_init]
  simp only [List.foldl_cons, List.foldl_nil]
  exact poll_pass (sound_pass hS R) (h' _) (clean_pass _ h)

/-- **C114, small batches (partial: see `C114_stuck_refuted`).** When everything has been taken so far, at most `k` lines are written to the path until the next pass, and the
collector takes batches of up to `k` lines, then everything has been taken again. -/
theorem C114_small_partial (p k : Nat) (es fresh : List Ev) {R : Nat → List Line → Reply} (h : taken p (run init es).sent = written p es)
    (hf : ∀ e ∈ fresh, ∀ R, e ≠ .pass R) (hk : (written p fresh).length ≤ k) (hR : ∀ b : List Line, b.length ≤ k → Good (R p b)) :
    taken p (run init (es ++ fresh ++ [.pass R])).sent = written p (es ++ fresh) := by
  have hS := sound_run p es
  have hst : ((view p (run init es)).store).getD 0 = (written p es).length := by
    have := (C114_once p es).2
    rw [h] at this
    exact this
  have hS' := sound_run p (es ++ fresh)
  have hfold : ∀ (fresh : List Ev) (x : View), (∀ e ∈ fresh, ∀ R, e ≠ .pass R) → (fresh.foldl (vstep p) x).store = x.store ∧
      ∀ v, (fresh.foldl (vstep p) x).entry = some v → x.entry = some v := by
    intro fresh
    induction fresh with
    | nil => intro x _; exact ⟨rfl, fun v h => h⟩
    | cons e es ih =>
      intro x he
      have := ih (vstep p x e) (fun e' h' => he e' (List.mem_cons_of_mem _ h'))
      rw [List.foldl_cons]
      cases e with
      | write q ls =>
        by_cases hq : q = p
        · simp only [vstep, hq, if_true] at this ⊢; exact this
        · simp only [vstep, hq, if_false] at this ⊢; exact this
      | pass R => exact absurd rfl (he (.pass R) List.mem_cons_self R)
      | restart => exact ⟨this.1, fun v hv => nomatch this.2 v hv⟩
  have hx : view p (run init (es ++ fresh)) = fresh.foldl (vstep p) (view p (run init es)) := by
    rw [view_run p _ _ once_init, List.foldl_append, ← view_run p _ _ once_init]
  obtain ⟨f1, f2⟩ := hfold fresh (view p (run init es)) hf
  rw [← hx] at f1 f2
  rw [taken_view, view_run p _ _ once_init, List.foldl_append, ← view_run p _ _ once_init]
  simp only [List.foldl_cons, List.foldl_nil]
  refine poll_pass hS' (hR _ ?_) ?_
  · rw [f1, hst, written_append]; simpa using hk
  · intro v hv
    obtain ⟨h1, h2, h3, _⟩ := hS.entry v (f2 v hv)
    rw [h3, hst]
    exact List.drop_eq_nil_of_le (by rw [List.length_take]; omega)

/-- **C114 is false of the code for the later lines of a file.** A collector that refuses batches of more than `k` lines, and a file with more than `k` lines when the shipper
first sees it (all of them are one batch): nothing of the file is ever taken, whatever is written, however often the shipper passes and is restarted. -/
theorem C114_stuck_refuted (p k : Nat) {ls : List Line} (hls : k < ls.length) (es : List Ev)
    (hR : ∀ R, Ev.pass R ∈ es → ∀ b : List Line, k < b.length → ¬ Good (R p b)) :
    taken p (run init (.write p ls :: es)).sent = [] := by
  have key : ∀ (es : List Ev) (all : List Line) (x : View), (∀ R, Ev.pass R ∈ es → ∀ b : List Line, k < b.length → ¬ Good (R p b)) → Sound p all x →
      k < all.length → x.store.getD 0 = 0 → (∀ v, x.entry = some v → k < v.undelivered.length) →
      taken p (es.foldl (vstep p) x).sent = [] := by
    intro es
    induction es with
    | nil => intro all x _ hS _ h0 _; rw [List.foldl_nil, hS.taken, h0]; rfl
    | cons e es ih =>
      intro all x hR hS hk h0 hv
      rw [List.foldl_cons]
      refine ih (all ++ written p [e]) (vstep p x e) (fun R hm => hR R (List.mem_cons_of_mem _ hm)) (sound_step hS e) (by simp; omega) ?_ ?_
      · cases e with
        | write q ls => simp only [vstep]; split <;> exact h0
        | restart => exact h0
        | pass R =>
          have hR' := hR R List.mem_cons_self
          simp only [vstep]
          cases hc : (if x.file = true ∧ x.entry = none then some (⟨x.store.getD 0, []⟩ : Watched) else x.entry) with
          | none => exact h0
          | some v =>
            have hb : k < (if v.undelivered.isEmpty = true then poll x.disk v else v).undelivered.length := by
              split at hc
              · cases hc; simp [poll, hS.disk, h0, hk]
              · have := hv v hc
                rw [if_neg (by intro he; rw [List.isEmpty_iff.1 he] at this; simp at this)]
                exact this
            simp only [ship]
            generalize (if v.undelivered.isEmpty = true then poll x.disk v else v) = u at hb
            have hne : ¬ u.undelivered.isEmpty = true := by intro he; rw [List.isEmpty_iff.1 he] at hb; simp at hb
            have hns : ¬ (R p u.undelivered).success = true := fun hg => hR' _ hb ((success_iff _).1 hg)
            rw [if_neg hne, if_neg hns]
            simp only [save, if_neg hns]
            exact h0
      · cases e with
        | write q ls => simp only [vstep]; split <;> exact hv
        | restart => nofun
        | pass R =>
          have hR' := hR R List.mem_cons_self
          simp only [vstep]
          cases hc : (if x.file = true ∧ x.entry = none then some (⟨x.store.getD 0, []⟩ : Watched) else x.entry) with
          | none => nofun
          | some v =>
            have hb : k < (if v.undelivered.isEmpty = true then poll x.disk v else v).undelivered.length := by
              split at hc
              · cases hc; simp [poll, hS.disk, h0, hk]
              · have := hv v hc
                rw [if_neg (by intro he; rw [List.isEmpty_iff.1 he] at this; simp at this)]
                exact this
            simp only [ship]
            generalize (if v.undelivered.isEmpty = true then poll x.disk v else v) = u at hb
            have hne : ¬ u.undelivered.isEmpty = true := by intro he; rw [List.isEmpty_iff.1 he] at hb; simp at hb
            have hns : ¬ (R p u.undelivered).success = true := fun hg => hR' _ hb ((success_iff _).1 hg)
            rw [if_neg hne, if_neg hns]
            intro v' hv'
            simp only [Option.some.injEq] at hv'
            rw [← hv']
            exact hb
  have h0 : Sound p [] (view p init) := ⟨rfl, by simp [view, init], rfl, Nat.le_refl _, by simp [view, init, look], by simp⟩
  rw [taken_view, view_run p _ _ once_init, List.foldl_cons]
  refine key es _ _ hR (sound_step h0 (.write p ls)) (by simpa [written] using hls) ?_ ?_
  · simp [vstep, view, init]
  · simp [vstep, view, init, look]

/-! ## Cases -/

/-- A collector that takes batches of up to two lines, one that takes everything, one that is down. -/
def upTo (k : Nat) : Nat → List Line → Reply := fun _ b => if b.length ≤ k then ⟨true, 200⟩ else ⟨true, 413⟩
def all200 : Nat → List Line → Reply := fun _ _ => ⟨true, 200⟩
def down : Nat → List Line → Reply := fun _ _ => ⟨false, 0⟩

/-- Two files, an outage and a restart: everything arrives, once and in order. -/
def story : List Ev := [.write 1 [10, 11], .write 2 [20], .pass down, .write 1 [12], .pass all200, .restart, .write 2 [21], .pass all200, .pass all200]

example : taken 1 (run init story).sent = [10, 11, 12] ∧ taken 2 (run init story).sent = [20, 21] ∧
    requests 1 (run init story).sent = [[10, 11], [10, 11], [12]] := by refine ⟨?_, ?_, ?_⟩ <;> decide

/-- The collector takes two lines at a time; the file of path 1 had three when the shipper came. Path 2 gets through. -/
def stuck : List Ev := [.write 1 [10, 11, 12], .write 2 [20], .pass (upTo 2), .write 1 [13], .write 2 [21], .pass (upTo 2), .restart, .pass (upTo 2)]

example : taken 1 (run init stuck).sent = [] ∧ taken 2 (run init stuck).sent = [20, 21] ∧
    requests 1 (run init stuck).sent = [[10, 11, 12], [10, 11, 12], [10, 11, 12, 13]] := by refine ⟨?_, ?_, ?_⟩ <;> decide

example : ∀ b : List Line, 2 < b.length → ¬ Good (upTo 2 1 b) := by
  intro b hb
  unfold upTo
  rw [if_neg (by omega)]
  decide

example : ∀ b : List Line, b.length ≤ 2 → Good (upTo 2 1 b) := by
  intro b hb
  unfold upTo
  rw [if_pos hb]
  decide

end Verif.Batches
