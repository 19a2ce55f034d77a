import Verif.Telemetry.Spec
import Verif.Stats.NeverRaises
import Verif.Stats.FlattenLemmas
import Mathlib.Data.List.Nodup

namespace Verif.Telemetry

open Verif.Py Verif.Stats Verif.Stats.Spec Verif.Telemetry.Spec

/-! ### `replace` -/

theorem removeFrom_free {p : Str} : ∀ (s : Str), ¬ p <:+: s → removeFrom p 0 s = s
  | [], _ => rfl
  | c :: cs, h => by
    have h1 : p.isPrefixOf (c :: cs) = false := by
      rw [Bool.eq_false_iff]
      intro hp
      exact h (List.isPrefixOf_iff_prefix.1 hp).isInfix
    rw [removeFrom, h1]
    simp only [Bool.false_eq_true, if_false]
    rw [removeFrom_free cs (fun hi => h (hi.trans (List.suffix_cons c cs).isInfix))]

theorem removeFrom_length {p : Str} : ∀ (s : Str) (k : Nat), (removeFrom p k s).length ≤ s.length
  | [], k => by cases k <;> simp [removeFrom]
  | c :: cs, k => by
    cases k with
    | succ k =>
      rw [removeFrom]
      exact (removeFrom_length cs k).trans (by simp)
    | zero =>
      rw [removeFrom]
      split
      · exact (removeFrom_length cs _).trans (by simp)
      · simpa using removeFrom_length cs 0

theorem removeFrom_occurs {p : Str} (hp : p ≠ []) : ∀ (s : Str), p <:+: s → (removeFrom p 0 s).length < s.length
  | [], h => absurd (List.infix_nil.1 h) hp
  | c :: cs, h => by
    rw [removeFrom]
    split
    · exact Nat.lt_succ_of_le (removeFrom_length cs _)
    · next hn =>
      rcases List.infix_cons_iff.1 h with h1 | h1
      · exact absurd (List.isPrefixOf_iff_prefix.2 h1) hn
      · simpa using removeFrom_occurs hp cs h1

theorem removeFrom_all {p : Str} : ∀ (s : Str), removeFrom p s.length s = []
  | [] => rfl
  | _ :: cs => removeFrom_all cs

/-- The text `p` cannot overlap with itself. -/
theorem removeFrom_append {x : Char} {t : Str} (hx : x ∉ t) : ∀ (r : Str) (k : Nat), k ≤ r.length →
    removeFrom (x :: t) k (r ++ x :: t) = removeFrom (x :: t) k r
  | [], k, hk => by
    obtain rfl : k = 0 := by simpa using hk
    show removeFrom (x :: t) 0 (x :: t) = []
    rw [removeFrom, if_pos (List.isPrefixOf_iff_prefix.2 List.prefix_rfl)]
    simpa using removeFrom_all (p := x :: t) t
  | c :: cs, k, hk => by
    cases k with
    | succ k =>
      rw [List.cons_append, removeFrom, removeFrom]
      exact removeFrom_append hx cs k (by simpa using hk)
    | zero =>
      rw [List.cons_append, removeFrom, removeFrom]
      have hiff : (x :: t).isPrefixOf (c :: (cs ++ x :: t)) = (x :: t).isPrefixOf (c :: cs) := by
        rw [Bool.eq_iff_iff, List.isPrefixOf_iff_prefix, List.isPrefixOf_iff_prefix]
        constructor
        · intro h
          rw [← List.cons_append] at h
          rcases List.prefix_or_prefix_of_prefix h (List.prefix_append (c :: cs) (x :: t)) with h1 | h1
          · exact h1
          · obtain ⟨w, hw⟩ := h1
            obtain ⟨w', hw'⟩ := h
            cases w with
            | nil => rw [List.append_nil] at hw; exact hw ▸ List.prefix_rfl
            | cons a w =>
              exfalso
              have h3 : (c :: cs) ++ (a :: w ++ w') = (c :: cs) ++ (x :: t) := by rw [← List.append_assoc, hw]; exact hw'
              have h2 := List.append_cancel_left h3
              simp only [List.cons_append, List.cons.injEq] at h2 hw
              apply hx
              rw [← hw.2, h2.1]
              simp
        · exact fun h => h.trans (by rw [← List.cons_append]; exact List.prefix_append _ _)
      rw [hiff]
      split
      · next hp =>
        refine removeFrom_append hx cs _ ?_
        have := (List.isPrefixOf_iff_prefix.1 hp).length_le
        simpa using this
      · rw [removeFrom_append hx cs 0 (Nat.zero_le _)]

/-- Removing the name of a statistic behind a route gives the route exactly if that name does not occur in it. -/
theorem remove_iff (r f : String) (hf : '.' ∉ f.toList) : remove ("." ++ f) (r ++ "." ++ f) = r ↔ ¬ Occurs ("." ++ f) r := by
  have e1 : ("." ++ f).toList = '.' :: f.toList := by simp
  have e2 : (r ++ "." ++ f).toList = r.toList ++ '.' :: f.toList := by simp
  unfold remove Occurs
  rw [e1, e2, removeFrom_append hf r.toList 0 (Nat.zero_le _)]
  constructor
  · intro h hi
    have := removeFrom_occurs (by simp) _ hi
    have h2 := congrArg String.toList h
    rw [String.toList_ofList] at h2
    rw [h2] at this
    exact Nat.lt_irrefl _ this
  · intro h
    rw [removeFrom_free _ h, String.ofList_toList]

/-! ### Ends of keys -/

theorem endsWith_same (a f : String) : endsWith (a ++ f) f = true := by
  unfold endsWith
  rw [List.isSuffixOf_iff_suffix]
  exact ⟨a.toList, by simp⟩

theorem endsWith_other (a f g : String) {x y : Char} (hf : f.toList.getLast? = some x) (hg : g.toList.getLast? = some y) (hxy : x ≠ y) :
    endsWith (a ++ f) g = false := by
  unfold endsWith
  rw [Bool.eq_false_iff, ne_eq, List.isSuffixOf_iff_suffix]
  rintro ⟨w, hw⟩
  have := congrArg List.getLast? hw
  rw [String.toList_append, List.getLast?_append, List.getLast?_append, hf, hg] at this
  simp at this
  exact hxy this.symm

theorem base_tags (b : Common) : (basePoint b).tags = [("eco_host_name", .text b.host), ("eco_app_name", b.name), ("eco_app_instance", b.inst)] := by
  simp [basePoint, Dict.set]

theorem endpointPoint_of (b : Common) (r : String) (v : Stat) {f : String} (hf : f ∈ endpointFields) :
    endpointPoint b (r ++ "." ++ f) v = datum b "endpoint_data" (remove ("." ++ f) (r ++ "." ++ f)) f v := by
  have l1 : "call_count".toList.getLast? = some 't' := by decide +kernel
  have l2 : "p95".toList.getLast? = some '5' := by decide +kernel
  have l3 : "p99".toList.getLast? = some '9' := by decide +kernel
  simp only [endpointFields, List.mem_cons, List.not_mem_nil, or_false] at hf
  rcases hf with rfl | rfl | rfl
  · simp only [endpointPoint, endsWith_same, endsWith_other _ _ "p95" l1 l2 (by decide), endsWith_other _ _ "p99" l1 l3 (by decide), if_true,
      Bool.false_eq_true, if_false]
    simp [Point.at, Point.field, Point.tag, base_tags, datum, Dict.set, basePoint]
  · simp only [endpointPoint, endsWith_same, endsWith_other _ _ "call_count" l2 l1 (by decide), endsWith_other _ _ "p99" l2 l3 (by decide),
      if_true, Bool.false_eq_true, if_false]
    simp [Point.at, Point.field, Point.tag, base_tags, datum, Dict.set, basePoint]
  · simp only [endpointPoint, endsWith_same, endsWith_other _ _ "call_count" l3 l1 (by decide), endsWith_other _ _ "p95" l3 l2 (by decide),
      if_true, Bool.false_eq_true, if_false]
    simp [Point.at, Point.field, Point.tag, base_tags, datum, Dict.set, basePoint]

theorem sizePoint_of (b : Common) (tag : String) (ht : tag = "buffered_endpoint" ∨ tag = "buffered_sender") (r : String) (v : Stat) {f : String}
    (hf : f ∈ queueFields) : sizePoint b tag (r ++ "." ++ f) v = datum b tag (remove ("." ++ f) (r ++ "." ++ f)) f v := by
  have l1 : "pending".toList.getLast? = some 'g' := by decide +kernel
  have l2 : "error".toList.getLast? = some 'r' := by decide +kernel
  simp only [queueFields, List.mem_cons, List.not_mem_nil, or_false] at hf
  rcases hf with rfl | rfl
  · simp only [sizePoint, endsWith_same, if_true]
    rcases ht with rfl | rfl <;> simp [Point.at, Point.field, Point.tag, base_tags, datum, Dict.set, basePoint]
  · simp only [sizePoint, endsWith_other _ _ "pending" l2 l1 (by decide), Bool.false_eq_true, if_false]
    rcases ht with rfl | rfl <;> simp [Point.at, Point.field, Point.tag, base_tags, datum, Dict.set, basePoint]

theorem startsWith_iff (s p : String) : startsWith s p = true ↔ p.toList <+: s.toList := List.isPrefixOf_iff_prefix

/-! ### The loops -/

theorem endpointLoop_ok (b : Common) (data : Dict String Stat) : ∀ (ks : List String), (∀ k ∈ ks, k ∈ Dict.keys data) →
    ∃ l : List (String × Stat), l.map Prod.fst = ks ∧ (∀ x ∈ l, Dict.get? data x.1 = some x.2) ∧
      endpointLoop b data ks = .ok (l.map fun x => endpointPoint b x.1 x.2)
  | [], _ => ⟨[], rfl, by simp, rfl⟩
  | k :: ks, h => by
    obtain ⟨l, h1, h2, h3⟩ := endpointLoop_ok b data ks (fun k' hk' => h k' (.tail _ hk'))
    cases hg : Dict.get? data k with
    | none => exact absurd (h k (.head _)) ((Dict.get?_eq_none_iff data k).1 hg)
    | some v =>
      refine ⟨(k, v) :: l, by rw [List.map_cons, h1], ?_, by simp only [endpointLoop, hg, h3, List.map_cons]⟩
      intro x hx
      rcases List.mem_cons.1 hx with rfl | hx
      · exact hg
      · exact h2 x hx

/-- `log_endpoint_data` succeeds: one point for each key that is not the framework's, in the order of the keys. -/
theorem logEndpoints_ok (b : Common) (data : Dict String Stat) (hn : (Dict.keys data).Nodup) :
    ∃ l : List (String × Stat), logEndpoints b data = .ok (l.map fun x => endpointPoint b x.1 x.2) ∧ (l.map Prod.fst).Nodup ∧
      (l.map Prod.fst).Pairwise (· ≤ ·) ∧ ∀ x, x ∈ l ↔ x ∈ data ∧ ¬ "eco.".toList <+: x.1.toList := by
  have hmem : ∀ k, k ∈ ((Dict.keys data).filter fun x => !startsWith x "eco.").insertionSort (· ≤ ·) ↔ k ∈ Dict.keys data ∧ ¬ "eco.".toList <+: k.toList := by
    intro k
    rw [List.mem_insertionSort, List.mem_filter]
    have : ((!startsWith k "eco.") = true) ↔ ¬ "eco.".toList <+: k.toList := by
      rw [Bool.not_eq_true', Bool.eq_false_iff, ne_eq, startsWith_iff]
    rw [this]
  obtain ⟨l, h1, h2, h3⟩ := endpointLoop_ok b data (((Dict.keys data).filter fun x => !startsWith x "eco.").insertionSort (· ≤ ·))
    (fun k hk => ((hmem k).1 hk).1)
  refine ⟨l, h3, ?_, ?_, ?_⟩
  · rw [h1]
    exact (List.perm_insertionSort (· ≤ ·) _).nodup_iff.2 (hn.filter _)
  · rw [h1]; exact List.pairwise_insertionSort (· ≤ ·) _
  · intro x
    constructor
    · intro hx
      have hk : x.1 ∈ l.map Prod.fst := List.mem_map.2 ⟨x, hx, rfl⟩
      rw [h1] at hk
      exact ⟨Dict.get?_mem _ _ _ (h2 x hx), ((hmem _).1 hk).2⟩
    · rintro ⟨hx, hs⟩
      have hk : x.1 ∈ l.map Prod.fst := by
        rw [h1, hmem]; exact ⟨List.mem_map.2 ⟨x, hx, rfl⟩, hs⟩
      obtain ⟨y, hy, e⟩ := List.mem_map.1 hk
      have hgy := h2 y hy
      have hgx := Dict.get?_of_mem data x.1 x.2 hn hx
      rw [e, hgx] at hgy
      have : y = x := Prod.ext e (Option.some.inj hgy).symm
      exact this ▸ hy

theorem standard_key (r f : String) : "eco.".toList <+: (r ++ "." ++ f).toList ↔ Standard r := by
  have e1 : (r ++ "." ++ f).toList = (r ++ ".").toList ++ f.toList := by simp
  have e2 : "eco.".toList = ['e', 'c', 'o', '.'] := by decide +kernel
  unfold Standard
  constructor
  · intro h
    by_cases hl : 4 ≤ (r ++ ".").toList.length
    · exact List.prefix_of_prefix_length_le h (by rw [e1]; exact List.prefix_append _ _) (by rw [e2]; exact hl)
    · exfalso
      rw [e2, e1] at h
      have e3 : (r ++ ".").toList = r.toList ++ ['.'] := by simp
      rw [e3] at h hl
      match hr : r.toList with
      | [] => rw [hr] at h; simp at h
      | [a] => rw [hr] at h; simp at h
      | [a, b] => rw [hr] at h; simp at h
      | a :: b :: c :: s => rw [hr] at hl; simp at hl
  · intro h
    rw [e1]
    exact h.trans (List.prefix_append _ _)

/-! ### The statistics of an application -/

theorem run_name (es : List Ev) : ∀ (s : Keeper), (run s es).name = s.name ∧ (run s es).instance_ = s.instance_ := by
  induction es with
  | nil => intro s; exact ⟨rfl, rfl⟩
  | cons e es ih =>
    intro s
    have : (step s e).2.name = s.name ∧ (step s e).2.instance_ = s.instance_ := by
      cases e with
      | track r => simp only [step]; split <;> exact ⟨rfl, rfl⟩
      | call r x =>
        simp only [step]
        split
        · split <;> exact ⟨rfl, rfl⟩
        · exact ⟨rfl, rfl⟩
      | set k v => simp only [step]; cases setValue s.current k v <;> exact ⟨rfl, rfl⟩
      | increment k v => simp only [step]; cases incrementValue s.current k v <;> exact ⟨rfl, rfl⟩
      | addQueue k => exact ⟨rfl, rfl⟩
      | read now sizes =>
        simp only [step, update]
        rcases setAll (stamp s now) (percentileEntries s.durations ++ s.queues.map fun k => (k, sizes k)) with ⟨r, d⟩
        cases r <;> exact ⟨rfl, rfl⟩
      | gather now sizes =>
        simp only [step, update]
        rcases setAll (stamp s now) (percentileEntries s.durations ++ s.queues.map fun k => (k, sizes k)) with ⟨r, d⟩
        cases r <;> exact ⟨rfl, rfl⟩
      | setLength n => exact ⟨rfl, rfl⟩
    exact ⟨(ih _).1.trans this.1, (ih _).2.trans this.2⟩

theorem step_queues (s : Keeper) (e : Ev) (k : String) : k ∈ (step s e).2.queues ↔ k ∈ s.queues ∨ e = .addQueue k := by
  cases e with
  | track r => simp only [step]; split <;> simp
  | call r x =>
    simp only [step]
    split
    · split <;> simp
    · simp
  | set k' v => simp only [step]; cases setValue s.current k' v <;> simp [put]
  | increment k' v => simp only [step]; cases incrementValue s.current k' v <;> simp [put]
  | addQueue k' =>
    simp only [step]
    by_cases h : k' ∈ s.queues
    · simp only [h, if_true, Ev.addQueue.injEq]
      exact ⟨.inl, fun o => o.elim id (fun e => e ▸ h)⟩
    · simp only [h, if_false, Ev.addQueue.injEq, List.mem_append, List.mem_singleton]
      exact or_congr_right eq_comm
  | read now sizes =>
    simp only [step, update]
    rcases setAll (stamp s now) (percentileEntries s.durations ++ s.queues.map fun k => (k, sizes k)) with ⟨r, d⟩
    cases r <;> simp
  | gather now sizes =>
    simp only [step, update]
    rcases setAll (stamp s now) (percentileEntries s.durations ++ s.queues.map fun k => (k, sizes k)) with ⟨r, d⟩
    cases r <;> simp
  | setLength n => simp [step]

theorem run_queues (es : List Ev) : ∀ (s : Keeper) (k : String), k ∈ (run s es).queues ↔ k ∈ s.queues ∨ .addQueue k ∈ es := by
  induction es with
  | nil => intro s k; simp [run]
  | cons e es ih =>
    intro s k
    rw [run, ih, step_queues, List.mem_cons, or_assoc]
    exact or_congr_right (or_congr_left eq_comm)

theorem tidy_run (es : List Ev) (P : List (List String)) (hc : Compatible P) (hA : ∀ p ∈ always, p ∈ P) (hp : ∀ e ∈ es, ∀ p ∈ places e, p ∈ P)
    (hs : ∀ e ∈ es, Sensible e) (hr : Registered es) (n i : String) (st gp : ℚ) (hl : Int) : Tidy P (run (.new n i st gp hl) es) := by
  suffices H : ∀ (fs pre : List Ev) (s : Keeper), es = pre ++ fs → Tidy P s →
      (∀ r, .track r ∈ pre → r ∈ Dict.keys s.durations) → Tidy P (run s fs) from
    H es [] _ rfl ⟨fits_nil _, by simp [Keeper.new], by simp [Keeper.new]⟩ (by simp)
  intro fs
  induction fs with
  | nil => intro pre s _ h _; exact h
  | cons e fs ih =>
    intro pre s he ht hk
    have hm : e ∈ es := by rw [he]; simp
    have h1 := tidy_step hc hA ht e (hp e hm) (hs e hm) (fun r x hx => hk r (hr pre r x fs (by rw [he, hx])))
    refine ih (pre ++ [e]) _ (by rw [he]; simp) h1.2 ?_
    intro r hmem
    rcases List.mem_append.1 hmem with h | h
    · exact keys_step h1.1 (.inl (hk r h))
    · exact keys_step h1.1 (.inr (List.mem_singleton.1 h).symm)

theorem setAll_head {h : String} (es : List (String × ℚ)) : ∀ (d : Store), (∀ x ∈ es, (split x.1).head? ≠ some h) →
    ∀ ps, deepGet (setAll d es).2 (h :: ps) = deepGet d (h :: ps) := by
  induction es with
  | nil => intro d _ ps; rfl
  | cons x es ih =>
    intro d hx ps
    obtain ⟨k, v⟩ := x
    simp only [setAll]
    cases hs : setValue d k v with
    | error e => rfl
    | ok d' =>
      rw [ih d' (fun x hx' => hx x (.tail _ hx')) ps]
      have w := deepSet_written _ _ _ _ hs
      have hh := hx (k, v) (.head _)
      refine w.other _ ?_ ?_
      · intro hp
        cases hk : split k with
        | nil => exact split_ne_nil k hk
        | cons a as =>
          rw [hk] at hp hh
          simp only [List.head?_cons, ne_eq, Option.some.injEq] at hh
          exact hh (List.cons_prefix_cons.1 hp).1
      · intro hp
        cases hk : split k with
        | nil => exact split_ne_nil k hk
        | cons a as =>
          rw [hk] at hp hh
          simp only [List.head?_cons, ne_eq, Option.some.injEq] at hh
          exact hh (List.cons_prefix_cons.1 hp).1.symm

theorem setAll_value {P : List (List String)} (hP : Compatible P) {k : String} (hk : split k ∈ P) {v : ℚ} (es : List (String × ℚ)) :
    ∀ (d d' : Store), setAll d es = (.ok (), d') → (∀ x ∈ es, split x.1 ∈ P) → (∀ v', (k, v') ∈ es → v' = v) →
      ((k, v) ∈ es ∨ deepGet d (split k) = some (.num v)) → deepGet d' (split k) = some (.num v) := by
  induction es with
  | nil =>
    intro d d' h _ _ hv
    simp only [setAll, Prod.mk.injEq, true_and] at h
    subst h
    rcases hv with hv | hv
    · cases hv
    · exact hv
  | cons x es ih =>
    intro d d' h hm hu hv
    obtain ⟨k', v'⟩ := x
    simp only [setAll] at h
    cases hs : setValue d k' v' with
    | error e => rw [hs] at h; simp at h
    | ok d1 =>
      rw [hs] at h
      have w := deepSet_written _ _ _ _ hs
      refine ih d1 d' h (fun x hx => hm x (.tail _ hx)) (fun v'' hx => hu v'' (.tail _ hx)) ?_
      by_cases e : k' = k
      · subst e
        have : v' = v := hu v' (.head _)
        subst this
        exact .inr w.same
      · have hne : split k' ≠ split k := fun h => e (split_injective h)
        have hk' : split k' ∈ P := hm _ (.head _)
        rcases hv with hv | hv
        · rcases List.mem_cons.1 hv with h1 | h1
          · exact absurd (congrArg Prod.fst h1).symm e
          · exact .inl h1
        · refine .inr ?_
          rw [w.other _ (fun h => hne (hP _ hk' _ hk h)) (fun h => hne (hP _ hk _ hk' h).symm)]
          exact hv

theorem split_queueKey (kind r f : String) (hk : split kind = [kind]) (hf : split f = [f]) :
    split (queueKey kind r f) = kind :: (split r ++ [f]) := by
  have : queueKey kind r f = kind ++ "." ++ (r ++ "." ++ f) := by
    apply String.toList_inj.1; simp [queueKey]
  rw [this, split_dot, split_dot, hk, hf]
  rfl

theorem split_field {f : String} (hf : f ∈ endpointFields ∨ f ∈ queueFields) : split f = [f] := by
  have h1 : split "call_count" = ["call_count"] := by decide +kernel
  have h2 : split "p95" = ["p95"] := by decide +kernel
  have h3 : split "p99" = ["p99"] := by decide +kernel
  have h4 : split "pending" = ["pending"] := by decide +kernel
  have h5 : split "error" = ["error"] := by decide +kernel
  simp only [endpointFields, queueFields, List.mem_cons, List.not_mem_nil, or_false] at hf
  rcases hf with (rfl | rfl | rfl) | (rfl | rfl) <;> assumption

theorem split_kind {k : String} (hk : k ∈ kinds) : split k = [k] := by
  have h1 : split "buffered_endpoint_sizes" = ["buffered_endpoint_sizes"] := by decide +kernel
  have h2 : split "buffered_sender_sizes" = ["buffered_sender_sizes"] := by decide +kernel
  simp only [kinds, List.mem_cons, List.not_mem_nil, or_false] at hk
  rcases hk with rfl | rfl <;> assumption

theorem nodot_field {f : String} (hf : f ∈ endpointFields ∨ f ∈ queueFields) : '.' ∉ f.toList := by
  simp only [endpointFields, queueFields, List.mem_cons, List.not_mem_nil, or_false] at hf
  rcases hf with (rfl | rfl | rfl) | (rfl | rfl) <;> decide +kernel

theorem started_split {r : String} (h : Started r) : (split r).head? ≠ some "" := by
  unfold split
  cases hr : r.toList with
  | nil => exact absurd (String.toList_inj.1 (by rw [hr]; rfl)) h.1
  | cons c cs =>
    have hc : c ≠ '.' := by
      intro e
      apply h.2
      rw [hr, e]; rfl
    rw [splitChars, if_neg hc]
    split <;>
    · simp only [List.map_cons, List.head?_cons, ne_eq, Option.some.injEq]
      intro e
      have := congrArg String.toList e
      simp at this

/-- What stands at the places of the keeper. -/
theorem place_cases {es : List Ev} (hf : ∀ e ∈ es, AsFramework e) {q : List String} (hq : q ∈ always ++ es.flatMap places) :
    q ∈ always ∨ (∃ r ∈ routes es, ∃ f ∈ endpointFields, q = "endpoint_data" :: (split r ++ [f])) ∨
      (∃ kind ∈ kinds, ∃ r, ∃ f ∈ queueFields, .addQueue (queueKey kind r f) ∈ es ∧ q = kind :: (split r ++ [f])) ∨
      (q.head? ≠ some "endpoint_data" ∧ ∀ kind ∈ kinds, q.head? ≠ some kind) := by
  have hroute : ∀ r, (.track r ∈ es ∨ ∃ x, .call r x ∈ es) → r ∈ routes es := by
    clear hf hq
    induction es with
    | nil => rintro r (h | ⟨x, h⟩) <;> cases h
    | cons e es ih =>
      rintro r (h | ⟨x, h⟩)
      · rcases List.mem_cons.1 h with rfl | h
        · exact .head _
        · have := ih r (.inl h)
          cases e <;> first | exact this | exact .tail _ this
      · rcases List.mem_cons.1 h with rfl | h
        · exact .head _
        · have := ih r (.inr ⟨x, h⟩)
          cases e <;> first | exact this | exact .tail _ this
  rcases List.mem_append.1 hq with hq | hq
  · exact .inl hq
  · obtain ⟨e, he, hq⟩ := List.mem_flatMap.1 hq
    have hfe := hf e he
    cases e with
    | track r =>
      obtain ⟨f, h1, rfl⟩ := List.mem_map.1 hq
      exact .inr (.inl ⟨r, hroute r (.inl he), f, h1, rfl⟩)
    | call r x =>
      obtain ⟨f, h1, rfl⟩ := List.mem_map.1 hq
      exact .inr (.inl ⟨r, hroute r (.inr ⟨x, he⟩), f, h1, rfl⟩)
    | set k v =>
      obtain rfl := List.mem_singleton.1 hq
      exact .inr (.inr (.inr hfe))
    | increment k v =>
      obtain rfl := List.mem_singleton.1 hq
      exact .inr (.inr (.inr hfe))
    | addQueue k =>
      obtain rfl := List.mem_singleton.1 hq
      obtain ⟨kind, hk, r, f, h1, rfl⟩ := hfe
      exact .inr (.inr (.inl ⟨kind, hk, r, f, h1, he, split_queueKey kind r f (split_kind hk) (split_field (.inr h1))⟩))
    | read now sizes => cases hq
    | gather now sizes => cases hq
    | setLength n => cases hq

theorem always_heads {q : List String} (h : q ∈ always) : q.head? ≠ some "endpoint_data" ∧ ∀ kind ∈ kinds, q.head? ≠ some kind := by
  revert q
  decide

theorem kind_ne {kind : String} (h : kind ∈ kinds) : "endpoint_data" ≠ kind := by
  revert kind
  decide

/-- A value stands at a place. -/
theorem fits_place {P : List (List String)} {d : Store} (h : Fits P d) {p : List String} {v : Stat} (hv : IsValue v)
    (hg : deepGet d p = some v) : p ∈ P := by
  cases v with
  | num q => exact h.num _ _ hg
  | text t => exact (h.text _ _ hg).1
  | node c => exact absurd hv (by simp [IsValue])

/-- A part of a report, flattened. -/
theorem flat_part {P : List (List String)} {d : Store} (hF : Fits P d) (hpl : plainStore d) {H : String} {c : Store}
    (hg : Dict.get? d H = some (.node c)) (hb : ∀ q ∈ P, ¬ [H, ""] <+: q) (k : String) (v : Stat) :
    (k, v) ∈ flatten c ↔ IsValue v ∧ deepGet d (H :: split k) = some v := by
  have hdc : deepGet d [H] = some (.node c) := by simp [deepGet, hg]
  have hget : ∀ q, deepGet d (H :: q) = deepGet c q := fun q => deepGet_append_node [H] q d c hdc
  have hb' : Dict.get? c "" = none := by
    cases hx : Dict.get? c "" with
    | none => rfl
    | some x =>
      exfalso
      have h1 : deepGet d [H, ""] = some x := by
        rw [hget]
        simp only [deepGet, hx]
        cases x <;> simp
      cases x with
      | num q => exact hb _ (hF.num _ _ h1) List.prefix_rfl
      | text t => exact hb _ (hF.text _ _ h1).1 List.prefix_rfl
      | node c' =>
        obtain ⟨q, hq, h2, _⟩ := hF.node _ _ (by simp) h1
        exact hb _ hq h2
  rw [hget, ← flatten_plain (plain_get hpl hg).1 hb']
  exact ⟨Dict.get?_of_mem _ _ _ (nodup_flattenItems "" c [] (by simp [Dict.keys])), Dict.get?_mem _ _ _⟩

theorem datum_inj {b b' : Common} {tag tag' r r' f f' : String} {v v' : Stat} (h : datum b tag r f v = datum b' tag' r' f' v') :
    tag = tag' ∧ r = r' ∧ f = f' ∧ v = v' := by
  simp only [datum, Point.mk.injEq, List.cons.injEq, Prod.mk.injEq, Stat.text.injEq, and_true] at h
  exact ⟨h.1.2.2.2.1, h.1.2.2.2.2, h.2.1.1, h.2.1.2⟩

/-- Points made from different keys differ. -/
theorem nodup_part {b : Common} {tag : String} {l : List (String × Stat)} {g : String × Stat → Point} (hn : (l.map Prod.fst).Nodup)
    (h : ∀ x ∈ l, ∃ r f, x.1 = r ++ "." ++ f ∧ g x = datum b tag r f x.2) : (l.map g).Nodup := by
  refine List.Nodup.map_on ?_ (List.Nodup.of_map _ hn)
  intro x hx y hy e
  obtain ⟨r, f, h1, h2⟩ := h x hx
  obtain ⟨r', f', h3, h4⟩ := h y hy
  rw [h2, h4] at e
  obtain ⟨-, rfl, rfl, hv⟩ := datum_inj e
  exact Prod.ext (h1.trans h3.symm) hv

theorem route_place {es : List Ev} {r : String} (h : r ∈ routes es) (f : String) (hf : f ∈ endpointFields) :
    ∃ e ∈ es, "endpoint_data" :: (split r ++ [f]) ∈ places e := by
  induction es with
  | nil => cases h
  | cons e es ih =>
    have hh : r ∈ routes [e] ∨ r ∈ routes es := by
      rw [routes_cons] at h; exact List.mem_append.1 h
    rcases hh with h | h
    · refine ⟨e, .head _, ?_⟩
      cases e <;> simp only [routes, List.mem_singleton, List.not_mem_nil] at h
      · subst h; exact List.mem_map.2 ⟨f, hf, rfl⟩
      · subst h; exact List.mem_map.2 ⟨f, hf, rfl⟩
    · obtain ⟨e', h1, h2⟩ := ih h
      exact ⟨e', .tail _ h1, h2⟩

theorem noClash_of {es : List Ev} (hc : Compatible (always ++ es.flatMap places)) : NoClash (routes es) := by
  intro r hr r' hr' x hx hp
  have hin : ∀ r ∈ routes es, ∀ f ∈ endpointFields, "endpoint_data" :: (split r ++ [f]) ∈ always ++ es.flatMap places := by
    intro r hr f hf
    obtain ⟨e, h1, h2⟩ := route_place hr f hf
    exact List.mem_append_right _ (List.mem_flatMap.2 ⟨e, h1, h2⟩)
  have := hc _ (hin r hr x hx) _ (hin r' hr' "call_count" (by simp [endpointFields]))
    (List.cons_prefix_cons.2 ⟨rfl, hp.trans (List.prefix_append _ _)⟩)
  have hlen := congrArg List.length this
  have := hp.length_le
  simp at hlen this
  omega

theorem apart_of {es : List Ev} (hf : ∀ e ∈ es, AsFramework e) : ∀ e ∈ es, Apart e := by
  intro e he
  have := hf e he
  cases e with
  | set k v => exact this.1
  | increment k v => exact this.1
  | addQueue k =>
    obtain ⟨kind, h1, r, f, h2, rfl⟩ := this
    show (split _).head? ≠ _
    rw [split_queueKey kind r f (split_kind h1) (split_field (.inr h2))]
    exact fun h => kind_ne h1 (Option.some.inj h).symm
  | _ => trivial

theorem tracked_run (es : List Ev) (P : List (List String)) (hc : Compatible P) (hA : ∀ p ∈ always, p ∈ P) (hp : ∀ e ∈ es, ∀ p ∈ places e, p ∈ P)
    (hs : ∀ e ∈ es, Sensible e) (hr : Registered es) (n i : String) (st gp : ℚ) (hl : Int) (r : String) (ht : .track r ∈ es) :
    r ∈ Dict.keys (run (.new n i st gp hl) es).durations := by
  suffices H : ∀ (fs pre : List Ev) (s : Keeper), es = pre ++ fs → Tidy P s →
      (∀ r, .track r ∈ pre → r ∈ Dict.keys s.durations) → ∀ r, .track r ∈ es → r ∈ Dict.keys (run s fs).durations from
    H es [] _ rfl ⟨fits_nil _, by simp [Keeper.new], by simp [Keeper.new]⟩ (by simp) r ht
  intro fs
  induction fs with
  | nil => intro pre s he _ hk r hr'; rw [he, List.append_nil] at hr'; exact hk r hr'
  | cons e fs ih =>
    intro pre s he ht hk
    have hm : e ∈ es := by rw [he]; simp
    have h1 := tidy_step hc hA ht e (hp e hm) (hs e hm) (fun r x hx => hk r (hr pre r x fs (by rw [he, hx])))
    refine ih (pre ++ [e]) _ (by rw [he]; simp) h1.2 ?_
    intro r hmem
    rcases List.mem_append.1 hmem with h | h
    · exact keys_step h1.1 (.inl (hk r h))
    · exact keys_step h1.1 (.inr (List.mem_singleton.1 h).symm)

theorem deepSet_has {k : String} : ∀ (ks : List String) (d d' : Store) (v : Stat), deepSet d ks v = .ok d' → Dict.has d k = true → Dict.has d' k = true := by
  have hset : ∀ (d : Store) (a : String) (x : Stat), Dict.has d k = true → Dict.has (Dict.set d a x) k = true := by
    intro d a x h
    simp only [Dict.has, Dict.get?_set] at h ⊢
    split
    · rfl
    · exact h
  intro ks
  match ks with
  | [] => intro d d' v h; simp [deepSet] at h
  | [a] => intro d d' v h hh; simp only [deepSet, Except.ok.injEq] at h; rw [← h]; exact hset _ _ _ hh
  | a :: b :: ks =>
    intro d d' v h hh
    simp only [deepSet] at h
    cases hg : Dict.get? d a with
    | none =>
      rw [hg] at h
      simp only at h
      cases hx : deepSet [] (b :: ks) v with
      | error e => rw [hx] at h; simp at h
      | ok c => rw [hx] at h; simp only [Except.ok.injEq] at h; rw [← h]; exact hset _ _ _ hh
    | some y =>
      rw [hg] at h
      cases y with
      | num q => simp at h
      | text q => simp at h
      | node c =>
        simp only at h
        cases hx : deepSet c (b :: ks) v with
        | error e => rw [hx] at h; simp at h
        | ok c => rw [hx] at h; simp only [Except.ok.injEq] at h; rw [← h]; exact hset _ _ _ hh

theorem setAll_has {k : String} (es : List (String × ℚ)) : ∀ (d : Store), Dict.has d k = true → Dict.has (setAll d es).2 k = true := by
  induction es with
  | nil => intro d h; exact h
  | cons x es ih =>
    intro d h
    obtain ⟨k', v⟩ := x
    simp only [setAll]
    cases hs : setValue d k' v with
    | error e => exact h
    | ok d' => exact ih d' (deepSet_has _ _ _ _ hs h)

theorem stamp_uptime (s : Keeper) (now : ℚ) : Dict.has (stamp s now) "uptime" = true := by
  simp [stamp, Dict.has, Dict.get?_set]

theorem history_uptime (es : List Ev) : ∀ (s : Keeper), (∀ d ∈ s.history, Dict.has d "uptime" = true) →
    ∀ d ∈ (run s es).history, Dict.has d "uptime" = true := by
  induction es with
  | nil => intro s h; exact h
  | cons e es ih =>
    intro s h
    refine ih _ ?_
    cases e with
    | track r => simp only [step]; split <;> exact h
    | call r x =>
      simp only [step]
      split
      · split <;> exact h
      · exact h
    | set k v => simp only [step]; cases setValue s.current k v <;> exact h
    | increment k v => simp only [step]; cases incrementValue s.current k v <;> exact h
    | addQueue k => exact h
    | read now sizes =>
      simp only [step, update]
      rcases setAll (stamp s now) (percentileEntries s.durations ++ s.queues.map fun k => (k, sizes k)) with ⟨r, d⟩
      cases r <;> exact h
    | gather now sizes =>
      simp only [step, update]
      have hu := setAll_has (k := "uptime") (percentileEntries s.durations ++ s.queues.map fun k => (k, sizes k)) _ (stamp_uptime s now)
      rcases hx : setAll (stamp s now) (percentileEntries s.durations ++ s.queues.map fun k => (k, sizes k)) with ⟨r, d⟩
      rw [hx] at hu
      cases r with
      | error e => exact h
      | ok _ =>
        intro d' hd'
        simp only [remember] at hd'
        have hm : d' ∈ d :: s.history := by
          split at hd'
          · exact List.dropLast_subset _ hd'
          · exact hd'
        rcases List.mem_cons.1 hm with rfl | hm
        · exact hu
        · exact h _ hm
    | setLength n => exact h

theorem str_split_parts (c : Char) : ∀ (s : Str), ∀ w ∈ Str.split c s, c ∉ w
  | [], w, hw => by
    simp only [Str.split, List.mem_singleton] at hw
    rw [hw]; simp
  | x :: xs, w, hw => by
    rw [Str.split] at hw
    split at hw
    · rcases List.mem_cons.1 hw with rfl | hw
      · simp
      · exact str_split_parts c xs w hw
    · next hx =>
      split at hw
      · simp only [List.mem_singleton] at hw
        rw [hw, List.mem_singleton]
        exact fun e => hx e.symm
      · next y ys hs =>
        rcases List.mem_cons.1 hw with rfl | hw
        · have := str_split_parts c xs y (by rw [hs]; exact .head _)
          simp only [List.mem_cons, not_or]
          exact ⟨fun e => hx e.symm, this⟩
        · exact str_split_parts c xs w (by rw [hs]; exact .tail _ hw)

end Verif.Telemetry
