import Verif.Stats.Spec
import Verif.Py.DictLemmas
import Mathlib.Tactic.Linarith

/-! Helper lemmas. -/

namespace Verif.Stats

open Verif.Py Verif.Stats.Spec

/-! ### `split` -/

theorem splitChars_ne_nil (s : List Char) : splitChars s ≠ [] := by
  cases s with
  | nil => simp [splitChars]
  | cons c cs =>
    unfold splitChars
    split
    · simp
    · split <;> simp

theorem splitChars_dot (a b : List Char) : splitChars (a ++ '.' :: b) = splitChars a ++ splitChars b := by
  induction a with
  | nil => simp [splitChars]
  | cons c a ih =>
    simp only [List.cons_append, splitChars, ih]
    split
    · rfl
    · have := splitChars_ne_nil a
      cases h : splitChars a with
      | nil => exact absurd h this
      | cons w ws => rfl

/-- The inverse of `splitChars`. -/
def joinDots : List (List Char) → List Char
  | [] => []
  | [w] => w
  | w :: w' :: ws => w ++ '.' :: joinDots (w' :: ws)

theorem joinDots_splitChars (s : List Char) : joinDots (splitChars s) = s := by
  induction s with
  | nil => rfl
  | cons c s ih =>
    have hne := splitChars_ne_nil s
    unfold splitChars
    cases h : splitChars s with
    | nil => exact absurd h hne
    | cons w ws =>
      rw [h] at ih
      split
      · next hc => simp [joinDots, ih, hc]
      · cases ws with
        | nil => simp [joinDots] at ih ⊢; exact ih
        | cons w' ws => simp [joinDots] at ih ⊢; exact ih

theorem split_injective {a b : String} (h : split a = split b) : a = b := by
  unfold split at h
  have h2 : splitChars a.toList = splitChars b.toList :=
    List.map_injective_iff.2 (fun x y e => by simpa using congrArg String.toList e) h
  have h3 := congrArg joinDots h2
  rw [joinDots_splitChars, joinDots_splitChars] at h3
  exact String.toList_inj.1 h3

theorem split_ne_nil (s : String) : split s ≠ [] := by
  simp [split, splitChars_ne_nil]

theorem split_dot (a b : String) : split (a ++ "." ++ b) = split a ++ split b := by
  unfold split
  have : (a ++ "." ++ b).toList = a.toList ++ '.' :: b.toList := by simp
  rw [this, splitChars_dot, List.map_append]

theorem split_count (r : String) :
    split ("endpoint_data." ++ r ++ ".call_count") = "endpoint_data" :: (split r ++ ["call_count"]) := by
  have : "endpoint_data." ++ r ++ ".call_count" = "endpoint_data" ++ "." ++ (r ++ "." ++ "call_count") := by
    apply String.toList_inj.1; simp
  rw [this, split_dot, split_dot]; rfl

theorem split_p95 (r : String) :
    split ("endpoint_data." ++ r ++ ".p95") = "endpoint_data" :: (split r ++ ["p95"]) := by
  have : "endpoint_data." ++ r ++ ".p95" = "endpoint_data" ++ "." ++ (r ++ "." ++ "p95") := by
    apply String.toList_inj.1; simp
  rw [this, split_dot, split_dot]; rfl

theorem split_p99 (r : String) :
    split ("endpoint_data." ++ r ++ ".p99") = "endpoint_data" :: (split r ++ ["p99"]) := by
  have : "endpoint_data." ++ r ++ ".p99" = "endpoint_data" ++ "." ++ (r ++ "." ++ "p99") := by
    apply String.toList_inj.1; simp
  rw [this, split_dot, split_dot]; rfl

/-! ### Nested dictionaries -/

/-- What is read after a successful write, for any other path. -/
structure Written (d d' : Store) (ks : List String) (v : Stat) : Prop where
  same : deepGet d' ks = some v
  above : ∀ p, p <+: ks → p ≠ ks → ∃ c, deepGet d' p = some (.node c)
  other : ∀ p, ¬ ks <+: p → ¬ p <+: ks → deepGet d' p = deepGet d p

theorem deepGet_set (d : Store) (k a : String) (x : Stat) (ps : List String) :
    deepGet (d.set k x) (a :: ps) =
      if k = a then (match x with
        | .node c => deepGet c ps
        | v => if ps = [] then some v else none)
      else deepGet d (a :: ps) := by
  simp only [deepGet, Dict.get?_set]
  by_cases h : k = a
  · simp only [h, if_true]
    cases x <;> rfl
  · simp only [h, if_false]

theorem deepSet_written : ∀ (ks : List String) (d d' : Store) (v : Stat), deepSet d ks v = .ok d' → Written d d' ks v
  | [], _, _, _, h => by simp [deepSet] at h
  | [k], d, d', v, h => by
    simp only [deepSet, Except.ok.injEq] at h
    subst h
    refine ⟨?_, ?_, ?_⟩
    · rw [deepGet_set]; simp only [if_true]; cases v <;> simp [deepGet]
    · intro p hp hne
      cases p with
      | nil => exact ⟨_, rfl⟩
      | cons a ps =>
        obtain ⟨t, ht⟩ := hp
        simp only [List.cons_append, List.cons.injEq, List.append_eq_nil_iff] at ht
        exact absurd (by simp [ht.1, ht.2.1]) hne
    · intro p h1 h2
      cases p with
      | nil => exact absurd (List.nil_prefix) h2
      | cons a ps =>
        rw [deepGet_set]
        split
        · next e => exact absurd (by simp [e]) h1
        · rfl
  | k :: k' :: ks, d, d', v, h => by
    have key : ∀ (c c' : Store), (∀ ps, deepGet c ps = deepGet d (k :: ps) ∨ (c = [] ∧ Dict.get? d k = none)) →
        deepSet c (k' :: ks) v = .ok c' → d' = d.set k (.node c') → Written d d' (k :: k' :: ks) v := by
      intro c c' hc hs hd
      have ih := deepSet_written (k' :: ks) c c' v hs
      subst hd
      refine ⟨?_, ?_, ?_⟩
      · rw [deepGet_set]; simpa using ih.same
      · intro p hp hne
        cases p with
        | nil => exact ⟨_, rfl⟩
        | cons a ps =>
          rw [List.cons_prefix_cons] at hp
          obtain ⟨rfl, hp⟩ := hp
          rw [deepGet_set]
          simp only [if_true]
          exact ih.above ps hp (by intro e; exact hne (by rw [e]))
      · intro p h1 h2
        cases p with
        | nil => exact absurd (List.nil_prefix) h2
        | cons a ps =>
          rw [deepGet_set]
          split
          · next e =>
            subst e
            simp only
            rw [ih.other ps (by intro hh; exact h1 (List.cons_prefix_cons.2 ⟨rfl, hh⟩))
              (by intro hh; exact h2 (List.cons_prefix_cons.2 ⟨rfl, hh⟩))]
            rcases hc ps with h | ⟨rfl, h⟩
            · exact h
            · have hps : ps ≠ [] := by
                intro e; subst e; exact h2 (List.cons_prefix_cons.2 ⟨rfl, List.nil_prefix⟩)
              cases ps with
              | nil => exact absurd rfl hps
              | cons b ps => simp [deepGet, Dict.get?, h]
          · rfl
    simp only [deepSet] at h
    split at h
    · next hg =>
      split at h
      · next c' hs => injection h with h; exact key [] c' (fun _ => .inr ⟨rfl, hg⟩) hs h.symm
      · simp at h
    · next c hg =>
      split at h
      · next c' hs =>
        injection h with h
        exact key c c' (fun ps => .inl (by simp [deepGet, hg])) hs h.symm
      · simp at h
    · simp at h

theorem deepSet_ok : ∀ (ks : List String) (d : Store) (v : Stat), ks ≠ [] →
    (∀ p, p <+: ks → p ≠ ks → deepGet d p = none ∨ ∃ c, deepGet d p = some (.node c)) → ∃ d', deepSet d ks v = .ok d'
  | [], _, _, h, _ => absurd rfl h
  | [k], d, v, _, _ => ⟨_, rfl⟩
  | k :: k' :: ks, d, v, _, h => by
    simp only [deepSet]
    have hk := h [k] (by simp) (by simp)
    cases hg : Dict.get? d k with
    | none =>
      obtain ⟨c, hc⟩ := deepSet_ok (k' :: ks) [] v (by simp) (by
        intro p _ _
        cases p with
        | nil => exact .inr ⟨_, rfl⟩
        | cons a ps => exact .inl (by simp [deepGet, Dict.get?]))
      simp only [hc]
      exact ⟨_, rfl⟩
    | some x =>
      cases x with
      | node c =>
        obtain ⟨c', hc⟩ := deepSet_ok (k' :: ks) c v (by simp) (by
          intro p hp hne
          have := h (k :: p) (List.cons_prefix_cons.2 ⟨rfl, hp⟩) (by intro e; exact hne (List.cons.inj e).2)
          simpa [deepGet, hg] using this)
        simp only [hc]
        exact ⟨_, rfl⟩
      | num q => simp [deepGet, hg] at hk
      | text t => simp [deepGet, hg] at hk

theorem deepSet_ok_conv : ∀ (ks : List String) (d d' : Store) (v : Stat), deepSet d ks v = .ok d' →
    ks ≠ [] ∧ ∀ p, p <+: ks → p ≠ ks → deepGet d p = none ∨ ∃ c, deepGet d p = some (.node c)
  | [], _, _, _, h => by simp [deepSet] at h
  | [k], d, d', v, _ => by
    refine ⟨by simp, ?_⟩
    intro p hp hne
    cases p with
    | nil => exact .inr ⟨_, rfl⟩
    | cons a ps =>
      obtain ⟨t, ht⟩ := hp
      simp only [List.cons_append, List.cons.injEq, List.append_eq_nil_iff] at ht
      exact absurd (by simp [ht.1, ht.2.1]) hne
  | k :: k' :: ks, d, d', v, h => by
    refine ⟨by simp, ?_⟩
    intro p hp hne
    cases p with
    | nil => exact .inr ⟨_, rfl⟩
    | cons a ps =>
      rw [List.cons_prefix_cons] at hp
      obtain ⟨rfl, hp⟩ := hp
      simp only [deepSet] at h
      split at h
      · next hg => exact .inl (by simp [deepGet, hg])
      · next c hg =>
        split at h
        · next c' hs =>
          simpa [deepGet, hg] using (deepSet_ok_conv (k' :: ks) c c' v hs).2 ps hp (by intro e; exact hne (by rw [e]))
        · simp at h
      · simp at h

theorem get?_resetStore (d : Store) (k : String) : Dict.get? (resetStore d) k = (Dict.get? d k).map Stat.reset := by
  induction d with
  | nil => simp [resetStore, Dict.get?]
  | cons x d ih =>
    obtain ⟨a, v⟩ := x
    simp only [resetStore, Dict.get?]
    split <;> simp [ih]

theorem deepGet_reset : ∀ (p : List String) (d : Store), deepGet (resetStore d) p = (deepGet d p).map Stat.reset
  | [], d => by simp [deepGet, Stat.reset]
  | k :: ks, d => by
    simp only [deepGet, get?_resetStore]
    cases Dict.get? d k with
    | none => rfl
    | some x =>
      cases x with
      | node c => simp only [Option.map_some, Stat.reset]; exact deepGet_reset ks c
      | num q => simp only [Option.map_some, Stat.reset]; split <;> simp [Stat.reset]
      | text t => simp only [Option.map_some, Stat.reset]; split <;> simp [Stat.reset]

/-- Nothing but dictionaries has anything below it. -/
theorem deepGet_append_leaf : ∀ (p : List String) (d : Store) (v : Stat), deepGet d p = some v → (∀ c, v ≠ .node c) →
    ∀ (a : String) (q : List String), deepGet d (p ++ a :: q) = none
  | [], d, v, h, hv => by simp only [deepGet, Option.some.injEq] at h; exact absurd h.symm (hv _)
  | k :: p, d, v, h, hv => by
    intro a q
    simp only [deepGet, List.cons_append] at h ⊢
    cases hg : Dict.get? d k with
    | none => rfl
    | some x =>
      rw [hg] at h
      cases x with
      | node c => exact deepGet_append_leaf p c v h hv a q
      | num t => simp
      | text t => simp

/-! ### The part kept for endpoints -/

/-- Everything below `endpoint_data` belongs to the endpoints in `R`. -/
structure Good (R : List String) (d : Store) : Prop where
  node : ∀ q c, deepGet d ("endpoint_data" :: q) = some (.node c) → ∃ r ∈ R, q <+: split r
  num : ∀ q x, deepGet d ("endpoint_data" :: q) = some (.num x) → ∃ r ∈ R, ∃ f ∈ fields, q = split r ++ [f]
  text : ∀ q t, deepGet d ("endpoint_data" :: q) ≠ some (.text t)

theorem good_new (R : List String) : Good R [] := by
  constructor <;> simp [deepGet, Dict.get?]

theorem good_reset {R : List String} {d : Store} (h : Good R d) : Good R (resetStore d) := by
  constructor
  · intro q c hq
    rw [deepGet_reset] at hq
    cases hg : deepGet d ("endpoint_data" :: q) with
    | none => rw [hg] at hq; simp at hq
    | some x =>
      cases x with
      | node c => exact h.node _ _ hg
      | num c => rw [hg] at hq; simp [Stat.reset] at hq
      | text c => rw [hg] at hq; simp [Stat.reset] at hq
  · intro q c hq
    rw [deepGet_reset] at hq
    cases hg : deepGet d ("endpoint_data" :: q) with
    | none => rw [hg] at hq; simp at hq
    | some x =>
      cases x with
      | node c => rw [hg] at hq; simp [Stat.reset] at hq
      | num c => exact h.num _ _ hg
      | text c => exact absurd hg (h.text _ _)
  · intro q c hq
    rw [deepGet_reset] at hq
    cases hg : deepGet d ("endpoint_data" :: q) with
    | none => rw [hg] at hq; simp at hq
    | some x => rw [hg] at hq; cases x <;> simp [Stat.reset] at hq

/-- Stores that agree below `endpoint_data`. -/
def Agree (d d' : Store) : Prop := ∀ q, deepGet d' ("endpoint_data" :: q) = deepGet d ("endpoint_data" :: q)

theorem good_agree {R : List String} {d d' : Store} (h : Good R d) (a : Agree d d') : Good R d' :=
  ⟨fun q c hq => h.node q c (by rw [← a q]; exact hq), fun q c hq => h.num q c (by rw [← a q]; exact hq),
    fun q c hq => h.text q c (by rw [← a q]; exact hq)⟩

theorem agree_deepSet {d d' : Store} {ks : List String} {v : Stat} (hk : ks.head? ≠ some "endpoint_data")
    (h : deepSet d ks v = .ok d') : Agree d d' := by
  intro q
  refine (deepSet_written ks d d' v h).other _ ?_ ?_
  · intro hp
    cases ks with
    | nil => simp [deepSet] at h
    | cons a ks => rw [List.cons_prefix_cons] at hp; exact hk (by simp [hp.1])
  · intro hp
    obtain ⟨t, ht⟩ := hp
    exact hk (by rw [← ht]; rfl)

theorem agree_set (d : Store) (k : String) (x : Stat) (hk : k ≠ "endpoint_data") : Agree d (d.set k x) := by
  intro q; rw [deepGet_set]; simp [hk]

theorem Agree.trans {a b c : Store} (h : Agree a b) (h' : Agree b c) : Agree a c := fun q => (h' q).trans (h q)

theorem agree_stamp (s : Keeper) (now : ℚ) : Agree s.current (stamp s now) :=
  (((agree_set _ _ _ (by decide)).trans (agree_set _ _ _ (by decide))).trans (agree_set _ _ _ (by decide))).trans
    (agree_set _ _ _ (by decide))

theorem good_above {R : List String} (hR : NoClash R) {d : Store} (h : Good R d) {r f : String} (hr : r ∈ R) :
    ∀ p, p <+: "endpoint_data" :: (split r ++ [f]) → p ≠ "endpoint_data" :: (split r ++ [f]) →
      deepGet d p = none ∨ ∃ c, deepGet d p = some (.node c) := by
  intro p hp hne
  cases p with
  | nil => exact .inr ⟨_, rfl⟩
  | cons a q =>
    rw [List.cons_prefix_cons] at hp
    obtain ⟨rfl, hp⟩ := hp
    have hq : q <+: split r := by
      rcases List.prefix_concat_iff.1 hp with rfl | h
      · exact absurd rfl hne
      · exact h
    cases hg : deepGet d ("endpoint_data" :: q) with
    | none => exact .inl rfl
    | some x =>
      cases x with
      | node c => exact .inr ⟨_, rfl⟩
      | num c =>
        obtain ⟨r', hr', f', hf', rfl⟩ := h.num _ _ hg
        exact absurd hq (hR r' hr' r hr f' hf')
      | text c => exact absurd hg (h.text _ _)

theorem good_field {R : List String} (hR : NoClash R) {d : Store} (h : Good R d) {r f : String} (hr : r ∈ R)
    (hf : f ∈ fields) : deepGet d ("endpoint_data" :: (split r ++ [f])) = none ∨
      ∃ x, deepGet d ("endpoint_data" :: (split r ++ [f])) = some (.num x) := by
  cases hg : deepGet d ("endpoint_data" :: (split r ++ [f])) with
  | none => exact .inl rfl
  | some x =>
    cases x with
    | node c =>
      obtain ⟨r', hr', hp⟩ := h.node _ _ hg
      exact absurd hp (hR r hr r' hr' f hf)
    | num c => exact .inr ⟨_, rfl⟩
    | text c => exact absurd hg (h.text _ _)

theorem good_deepSet {R : List String} {d d' : Store} (h : Good R d) {r f : String} (hr : r ∈ R) (hf : f ∈ fields)
    {x : ℚ} (hs : deepSet d ("endpoint_data" :: (split r ++ [f])) (.num x) = .ok d') : Good R d' := by
  have hw := deepSet_written _ _ _ _ hs
  have key : ∀ q v, deepGet d' ("endpoint_data" :: q) = some v →
      (q = split r ++ [f] ∧ v = .num x) ∨ (q <+: split r ∧ ∃ c, v = .node c) ∨ deepGet d ("endpoint_data" :: q) = some v := by
    intro q v hq
    by_cases h1 : split r ++ [f] <+: q
    · obtain ⟨t, rfl⟩ := h1
      cases t with
      | nil =>
        simp only [List.append_nil] at hq ⊢
        have := hw.same
        rw [hq] at this
        injection this with this
        exact .inl ⟨trivial, this⟩
      | cons a t =>
        have := deepGet_append_leaf _ d' _ hw.same (by simp) a t
        rw [List.cons_append, hq] at this
        simp at this
    · by_cases h2 : q <+: split r ++ [f]
      · rcases List.prefix_concat_iff.1 h2 with rfl | h3
        · exact absurd (List.prefix_refl _) h1
        · obtain ⟨c, hc⟩ := hw.above ("endpoint_data" :: q) (List.cons_prefix_cons.2 ⟨rfl, h2⟩)
            (by intro e; exact h1 (by rw [(List.cons.inj e).2]; exact List.prefix_refl _))
          rw [hq] at hc
          injection hc with hc
          exact .inr (.inl ⟨h3, c, hc⟩)
      · right; right
        rw [← hw.other _ (fun h => h1 (List.cons_prefix_cons.1 h).2) (fun h => h2 (List.cons_prefix_cons.1 h).2)]
        exact hq
  constructor
  · intro q c hq
    rcases key q _ hq with ⟨_, h2⟩ | ⟨h1, _⟩ | h1
    · cases h2
    · exact ⟨r, hr, h1⟩
    · exact h.node _ _ h1
  · intro q c hq
    rcases key q _ hq with ⟨h1, _⟩ | ⟨_, _, h2⟩ | h1
    · exact ⟨r, hr, f, hf, h1⟩
    · cases h2
    · exact h.num _ _ h1
  · intro q c hq
    rcases key q _ hq with ⟨_, h2⟩ | ⟨_, _, h2⟩ | h1
    · cases h2
    · cases h2
    · exact h.text _ _ h1

/-- The value a field of an endpoint has. -/
def field (d : Store) (r f : String) : Option Stat := deepGet d ("endpoint_data" :: (split r ++ [f]))

theorem field_agree {d d' : Store} (h : Agree d d') (r f : String) : field d' r f = field d r f := h _

theorem field_deepSet {R : List String} (hR : NoClash R) {d d' : Store} {r f : String} (hr : r ∈ R)
    (hf : f ∈ fields) {x : ℚ} (hs : deepSet d ("endpoint_data" :: (split r ++ [f])) (.num x) = .ok d')
    {r' f' : String} (hr' : r' ∈ R) (hf' : f' ∈ fields) :
    field d' r' f' = if r' = r ∧ f' = f then some (.num x) else field d r' f' := by
  have hw := deepSet_written _ _ _ _ hs
  split
  · next e => obtain ⟨rfl, rfl⟩ := e; exact hw.same
  · next e =>
    have hpre : ∀ {a b g g' : String}, a ∈ R → b ∈ R → g ∈ fields → ¬ (a = b ∧ g = g') →
        ¬ "endpoint_data" :: (split a ++ [g]) <+: "endpoint_data" :: (split b ++ [g']) := by
      intro a b g g' ha hb hg hne hp
      have hp := (List.cons_prefix_cons.1 hp).2
      rcases List.prefix_concat_iff.1 hp with h | h
      · have h := List.append_inj' h rfl
        exact hne ⟨split_injective h.1, by simpa using h.2⟩
      · exact hR a ha b hb g hg h
    exact hw.other _ (hpre hr hr' hf (by rintro ⟨rfl, rfl⟩; exact e ⟨rfl, rfl⟩)) (hpre hr' hr hf' e)

theorem countIn_eq (d : Store) (r : String) : countIn d r = match field d r "call_count" with
    | some (.num q) => q
    | _ => 0 := by
  unfold countIn field; rw [split_count]; rfl

/-! ### `setAll` -/

/-- An entry for an endpoint in `R` that is not its count, or something outside `endpoint_data`. -/
def Entry (R : List String) (x : String × ℚ) : Prop :=
  (∃ r ∈ R, ∃ f, (f = "p95" ∨ f = "p99") ∧ split x.1 = "endpoint_data" :: (split r ++ [f])) ∨
    (split x.1).head? ≠ some "endpoint_data"

theorem setAll_good {R : List String} (hR : NoClash R) (es : List (String × ℚ)) : ∀ {d : Store}, Good R d →
    (∀ x ∈ es, Entry R x) →
    Good R (setAll d es).2 ∧ ∀ r ∈ R, field (setAll d es).2 r "call_count" = field d r "call_count" := by
  induction es with
  | nil => intro d h _; exact ⟨h, fun _ _ => rfl⟩
  | cons x es ih =>
    intro d h he
    obtain ⟨k, v⟩ := x
    simp only [setAll, setValue]
    cases hs : deepSet d (split k) (.num v) with
    | error e => exact ⟨h, fun _ _ => rfl⟩
    | ok d' =>
      simp only
      rcases he _ (.head _) with ⟨r, hr, f, hf, hk⟩ | hk
      · simp only at hk
        rw [hk] at hs
        have hff : f ∈ fields := by rcases hf with rfl | rfl <;> decide
        have := ih (good_deepSet h hr hff hs) (fun x hx => he x (.tail _ hx))
        refine ⟨this.1, fun r' hr' => ?_⟩
        rw [this.2 r' hr', field_deepSet hR hr hff hs hr' (by decide), if_neg]
        rintro ⟨_, e⟩
        rcases hf with rfl | rfl <;> exact absurd e (by decide)
      · have ha := agree_deepSet hk hs
        have := ih (good_agree h ha) (fun x hx => he x (.tail _ hx))
        exact ⟨this.1, fun r' hr' => (this.2 r' hr').trans (field_agree ha _ _)⟩

theorem setAll_ok_field {R : List String} (hR : NoClash R) (es : List (String × ℚ)) : ∀ {d d' : Store},
    (∀ x ∈ es, Entry R x) → setAll d es = (.ok (), d') → ∀ {r f : String}, r ∈ R → (f = "p95" ∨ f = "p99") →
    (∀ v, ("endpoint_data." ++ r ++ "." ++ f, v) ∉ es) → field d' r f = field d r f := by
  induction es with
  | nil => intro d d' _ h r f _ _ _; simp only [setAll, Prod.mk.injEq, true_and] at h; rw [h]
  | cons x es ih =>
    intro d d' he h r f hr hf hn
    obtain ⟨k, v⟩ := x
    simp only [setAll, setValue] at h
    cases hs : deepSet d (split k) (.num v) with
    | error e => rw [hs] at h; simp at h
    | ok d1 =>
      rw [hs] at h
      simp only at h
      rw [ih (fun x hx => he x (.tail _ hx)) h hr hf (fun v hv => hn v (.tail _ hv))]
      have hff : ∀ {f}, (f = "p95" ∨ f = "p99") → f ∈ fields := by rintro f (rfl | rfl) <;> decide
      rcases he _ (.head _) with ⟨r', hr', f', hf', hk⟩ | hk
      · simp only at hk
        rw [hk] at hs
        rw [field_deepSet hR hr' (hff hf') hs hr (hff hf), if_neg]
        rintro ⟨rfl, rfl⟩
        refine hn v ?_
        have : k = "endpoint_data." ++ r ++ "." ++ f := by
          apply split_injective
          rw [hk]
          rcases hf with rfl | rfl
          · have := split_p95 r; rw [← this]; congr 1; apply String.toList_inj.1; simp
          · have := split_p99 r; rw [← this]; congr 1; apply String.toList_inj.1; simp
        rw [← this]; exact .head _
      · exact field_agree (agree_deepSet hk hs) _ _

theorem entries_entry {R : List String} (ds : Dict String (List ℚ)) (h : ∀ x ∈ ds, x.1 ∈ R) :
    ∀ x ∈ percentileEntries ds, Entry R x := by
  induction ds with
  | nil => simp [percentileEntries]
  | cons a ds ih =>
    obtain ⟨r, l⟩ := a
    intro x hx
    simp only [percentileEntries, List.mem_cons] at hx
    have hr := h _ (.head _)
    rcases hx with rfl | rfl | hx
    · exact .inl ⟨r, hr, _, .inl rfl, split_p95 r⟩
    · exact .inl ⟨r, hr, _, .inr rfl, split_p99 r⟩
    · exact ih (fun x hx => h x (.tail _ hx)) x hx

end Verif.Stats
