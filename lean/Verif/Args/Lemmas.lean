import Verif.Args.Spec
import Verif.Py.DictLemmas
import Mathlib.Data.List.Induction

namespace Verif.Args

open Verif.Py Spec

/-! ### Names -/

theorem mem_names {p : Parser} {n : Str} {o : Opt} : (n, o) ∈ names p ↔ o ∈ p ∧ n ∈ o.strings := by
  simp only [names, List.mem_flatMap, List.mem_map, Prod.mk.injEq]
  constructor
  · rintro ⟨o', ho', n', hn', rfl, rfl⟩; exact ⟨ho', hn'⟩
  · rintro ⟨h1, h2⟩; exact ⟨o, h1, n, h2, rfl, rfl⟩

theorem names_fst (p : Parser) : (names p).map Prod.fst = optionNames p := by
  simp only [names, optionNames, List.map_flatMap, List.map_map, Function.comp_def]
  simp

theorem mem_optionNames {p : Parser} {n : Str} : n ∈ optionNames p ↔ ∃ o ∈ p, n ∈ o.strings := by
  simp [optionNames]

/-- A name belongs to one option. -/
theorem owner_unique {p : Parser} (hp : (optionNames p).Nodup) {n : Str} {o o' : Opt} (h : o ∈ p) (hn : n ∈ o.strings) (h' : o' ∈ p)
    (hn' : n ∈ o'.strings) : o = o' := by
  induction p with
  | nil => cases h
  | cons q p ih =>
    simp only [optionNames, List.flatMap_cons, List.nodup_append] at hp
    obtain ⟨-, hp2, hd⟩ := hp
    rcases List.mem_cons.1 h with rfl | h1
    · rcases List.mem_cons.1 h' with rfl | h2
      · rfl
      · exact absurd rfl (hd n hn n (mem_optionNames.2 ⟨o', h2, hn'⟩))
    · rcases List.mem_cons.1 h' with rfl | h2
      · exact absurd rfl (hd n hn' n (mem_optionNames.2 ⟨o, h1, hn⟩))
      · exact ih hp2 h1 h2

theorem dest_unique {p : Parser} (hp : (p.map fun o => o.dest).Nodup) {o o' : Opt} (h : o ∈ p) (h' : o' ∈ p) (hd : o.dest = o'.dest) : o = o' := by
  induction p with
  | nil => cases h
  | cons q p ih =>
    simp only [List.map_cons, List.nodup_cons, List.mem_map, not_exists, not_and] at hp
    rcases List.mem_cons.1 h with rfl | h1
    · rcases List.mem_cons.1 h' with rfl | h2
      · rfl
      · exact absurd hd.symm (hp.1 o' h2)
    · rcases List.mem_cons.1 h' with rfl | h2
      · exact absurd hd (hp.1 o h1)
      · exact ih hp.2 h1 h2

theorem find_name {p : Parser} (hp : Sensible p) {n : Str} {o : Opt} (h : o ∈ p) (hn : n ∈ o.strings) : find p n = some o := by
  unfold find
  cases hf : p.find? (fun o => decide (n ∈ o.strings)) with
  | none =>
    have := List.find?_eq_none.1 hf o h
    simp [hn] at this
  | some o' =>
    have h1 := List.mem_of_find?_eq_some hf
    have h2 := List.find?_some hf
    simp only [decide_eq_true_eq] at h2
    rw [owner_unique hp.2.1 h hn h1 h2]

theorem find_some {p : Parser} {n : Str} {o : Opt} (h : find p n = some o) : o ∈ p ∧ n ∈ o.strings := by
  unfold find at h
  exact ⟨List.mem_of_find?_eq_some h, by simpa using List.find?_some h⟩

theorem find_none {p : Parser} {n : Str} (h : n ∉ optionNames p) : find p n = none := by
  unfold find
  rw [List.find?_eq_none]
  intro o ho
  simp only [decide_eq_true_eq]
  exact fun hn => h (mem_optionNames.2 ⟨o, ho, hn⟩)

theorem find_none_iff {p : Parser} {n : Str} : find p n = none ↔ n ∉ optionNames p := by
  constructor
  · intro h hn
    obtain ⟨o, ho, hn⟩ := mem_optionNames.1 hn
    unfold find at h
    have := List.find?_eq_none.1 h o ho
    simp [hn] at this
  · exact find_none

/-! ### Partition -/

theorem partition_none {s : Str} (h : '=' ∉ s) : partition s = (s, none) := by
  have : ∀ t : Str, '=' ∉ t → t.takeWhile (fun c => decide (c ≠ '=')) = t ∧ t.dropWhile (fun c => decide (c ≠ '=')) = [] := by
    intro t
    induction t with
    | nil => intro _; exact ⟨rfl, rfl⟩
    | cons c t ih =>
      intro h
      have hc : c ≠ '=' := by rintro rfl; exact h (.head _)
      obtain ⟨h1, h2⟩ := ih (fun hm => h (.tail _ hm))
      simp only [ne_eq, decide_not] at h1 h2
      constructor
      · simp [hc, h1]
      · simp [hc, h2]
  unfold partition
  rw [(this s h).1, (this s h).2]

theorem partition_joined {a : Str} (h : '=' ∉ a) (v : Str) : partition (a ++ '=' :: v) = (a, some v) := by
  unfold partition
  have hall : ∀ c ∈ a, decide (c ≠ '=') = true := by
    intro c hc
    simp only [ne_eq, decide_not, Bool.not_eq_eq_eq_not, Bool.not_true, decide_eq_false_iff_not]
    rintro rfl; exact h hc
  rw [List.takeWhile_append_of_pos hall, List.dropWhile_append_of_pos hall]
  simp

theorem partition_cases (s : Str) : ('=' ∉ s ∧ partition s = (s, none)) ∨ ∃ a v, '=' ∉ a ∧ s = a ++ '=' :: v ∧ partition s = (a, some v) := by
  by_cases h : '=' ∈ s
  · obtain ⟨a, v, rfl, ha⟩ := List.eq_append_cons_of_mem h
    exact .inr ⟨a, v, ha, rfl, partition_joined ha v⟩
  · exact .inl ⟨h, partition_none h⟩

/-! ### How an argument is understood -/

theorem filterMap_unique {α β : Type} {l : List α} (hl : l.Nodup) {x : α} (hx : x ∈ l) {f : α → Option β} {t : β} (hf : f x = some t)
    (h : ∀ y ∈ l, y ≠ x → f y = none) : l.filterMap f = [t] := by
  induction l with
  | nil => cases hx
  | cons y l ih =>
    rw [List.nodup_cons] at hl
    rcases List.mem_cons.1 hx with rfl | hx'
    · rw [List.filterMap_cons_some hf]
      have : l.filterMap f = [] := by
        rw [List.filterMap_eq_nil_iff]
        exact fun z hz => h z (.tail _ hz) (by rintro rfl; exact hl.1 hz)
      rw [this]
    · rw [List.filterMap_cons_none (h y (.head _) (by rintro rfl; exact hl.1 hx'))]
      exact ih hl.2 hx' (fun z hz => h z (.tail _ hz))

theorem names_nodup {p : Parser} (hp : Sensible p) : (names p).Nodup := by
  have : ((names p).map Prod.fst).Nodup := by rw [names_fst]; exact hp.2.1
  exact (List.pairwise_map.1 this).imp (fun h e => h (by rw [e]))

theorem isLong_iff {s : Str} : isLong s = true ↔ ['-', '-'] <+: s := by
  constructor
  · intro h
    unfold isLong at h
    split at h
    · exact ⟨_, rfl⟩
    · cases h
  · rintro ⟨t, rfl⟩; rfl

/-- Two characters, the first a dash. -/
theorem two_chars {s : Str} (h : s.head? = some '-') (h2 : 2 ≤ s.length) : ∃ c t, s = '-' :: c :: t := by
  match s with
  | [] => cases h
  | [_] => simp at h2
  | a :: c :: t =>
    simp only [List.head?_cons, Option.some.injEq] at h
    exact ⟨c, t, by rw [h]⟩

theorem classify_name (u : Beyond) {p : Parser} (hp : Sensible p) {n : Str} {o : Opt} (h : o ∈ p) (hn : n ∈ o.strings) :
    classify u p n = .option (some ⟨o, n, none⟩) := by
  unfold classify
  rw [if_neg (by rw [(hp.1 o h n hn).1]; simp), find_name hp h hn]

theorem short_head {p : Parser} (hp : Sensible p) {o : Opt} (h : o ∈ p) {a n : Str} (h2 : 2 ≤ a.length) (hn : n ∈ o.strings) (hpre : a <+: n) :
    a.head? = some '-' ∧ '=' ∉ a := by
  obtain ⟨b, rfl⟩ := hpre
  obtain ⟨h1, -, -, h4, -⟩ := hp.1 o h _ hn
  constructor
  · cases a with
    | nil => simp at h2
    | cons c a => simpa using h1
  · exact fun hm => h4 (List.mem_append_left _ hm)

/-- The tuples of an abbreviation. -/
theorem tuples_short {p : Parser} (hp : Sensible p) {o : Opt} (h : o ∈ p) {a n : Str} (h2 : 2 ≤ a.length) (hno : a.take 2 ∉ optionNames p)
    (hn : n ∈ o.strings) (hpre : a <+: n) (hu : ∀ n' ∈ optionNames p, a <+: n' → n' = n) : optionTuples p a = [⟨o, n, none⟩] := by
  obtain ⟨h3, h4⟩ := short_head hp h h2 hn hpre
  have hpart := partition_none h4
  have hpre' : a.isPrefixOf n = true := List.isPrefixOf_iff_prefix.2 hpre
  have hother : ∀ y ∈ names p, y ≠ (n, o) → a.isPrefixOf y.1 = false := by
    rintro ⟨n', o'⟩ hy hne
    rw [Bool.eq_false_iff]
    intro hc
    obtain ⟨ho', hn'⟩ := mem_names.1 hy
    have := hu n' (mem_optionNames.2 ⟨o', ho', hn'⟩) (List.isPrefixOf_iff_prefix.1 hc)
    subst this
    exact hne (by rw [owner_unique hp.2.1 h hn ho' hn'])
  have htake : ∀ y ∈ names p, y.1 ≠ a.take 2 := by
    rintro ⟨n', o'⟩ hy e
    obtain ⟨ho', hn'⟩ := mem_names.1 hy
    exact hno (by rw [← e]; exact mem_optionNames.2 ⟨o', ho', hn'⟩)
  have hmem := mem_names.2 ⟨h, hn⟩
  unfold optionTuples
  cases isLong a with
  | true =>
    rw [if_pos rfl]
    refine filterMap_unique (names_nodup hp) hmem ?_ ?_
    · simp [tupleLong, hpart, hpre']
    · intro y hy hne
      simp [tupleLong, hpart, hother y hy hne]
  | false =>
    rw [if_neg (by simp)]
    refine filterMap_unique (names_nodup hp) hmem ?_ ?_
    · rw [tupleShort, if_neg (htake _ hmem), if_pos hpre']
    · intro y hy hne
      rw [tupleShort, if_neg (htake y hy), if_neg (by rw [hother y hy hne]; simp)]

theorem classify_calls (u : Beyond) {p : Parser} (hp : Sensible p) {a : Str} {o : Opt} (h : o ∈ p) (hc : Calls p a o) :
    ∃ n ∈ o.strings, classify u p a = .option (some ⟨o, n, none⟩) := by
  rcases hc with hn | ⟨h2, -, hnot, hno, n, hn, hpre, hu⟩
  · exact ⟨a, hn, classify_name u hp h hn⟩
  · refine ⟨n, hn, ?_⟩
    obtain ⟨h3, h4⟩ := short_head hp h h2 hn hpre
    have ht := tuples_short hp h h2 hno hn hpre hu
    unfold classify
    rw [if_neg (by rw [h3]; simp), find_none hnot]
    simp only
    rw [if_neg (by omega), partition_none h4]
    simp only [classifyOther, ht]

theorem classify_joined (u : Beyond) {p : Parser} (hp : Sensible p) {a : Str} (v : Str) {o : Opt} (h : o ∈ p)
    (hc : a ∈ o.strings ∨ (Calls p a o ∧ ['-', '-'] <+: a)) :
    ∃ n ∈ o.strings, classify u p (a ++ '=' :: v) = .option (some ⟨o, n, some (true, v)⟩) := by
  have hnofind : find p (a ++ '=' :: v) = none := by
    rw [find_none_iff]
    intro hm
    obtain ⟨o', ho', hn'⟩ := mem_optionNames.1 hm
    exact (hp.1 o' ho' _ hn').2.2.2.1 (by simp)
  have key : ∀ {a : Str}, 2 ≤ a.length → a.head? = some '-' → find p (a ++ '=' :: v) = none → '=' ∉ a →
      classify u p (a ++ '=' :: v) = match find p a with
        | some o => .option (some ⟨o, a, some (true, v)⟩)
        | none => classifyOther u p (a ++ '=' :: v) := by
    intro a ha hh hf h4
    unfold classify
    have h5 : (a ++ '=' :: v).head? = some '-' := by
      cases a with
      | nil => simp at ha
      | cons c a => simpa using hh
    rw [if_neg (by rw [h5]; simp), hf]
    simp only
    rw [if_neg (by rw [List.length_append, List.length_cons]; omega), partition_joined h4]
    cases find p a <;> rfl
  rcases hc with hn | ⟨hn | ⟨h2, -, hnot, hno, n, hn, hpre, hu⟩, hl⟩
  · obtain ⟨h1, h2, -, h4, -⟩ := hp.1 o h a hn
    exact ⟨a, hn, by rw [key h2 h1 hnofind h4, find_name hp h hn]⟩
  · obtain ⟨h1, h2, -, h4, -⟩ := hp.1 o h a hn
    exact ⟨a, hn, by rw [key h2 h1 hnofind h4, find_name hp h hn]⟩
  · obtain ⟨h3, h4⟩ := short_head hp h h2 hn hpre
    refine ⟨n, hn, ?_⟩
    rw [key h2 h3 hnofind h4, find_none hnot]
    have hlong : isLong (a ++ '=' :: v) = true := by
      rw [isLong_iff]
      exact hl.trans (List.prefix_append _ _)
    have ht : optionTuples p (a ++ '=' :: v) = [⟨o, n, some (true, v)⟩] := by
      unfold optionTuples
      rw [if_pos hlong]
      refine filterMap_unique (names_nodup hp) (mem_names.2 ⟨h, hn⟩) ?_ ?_
      · simp [tupleLong, partition_joined h4, List.isPrefixOf_iff_prefix.2 hpre]
      · rintro ⟨n', o'⟩ hy hne
        have : a.isPrefixOf n' = false := by
          rw [Bool.eq_false_iff]
          intro hc
          obtain ⟨ho', hn'⟩ := mem_names.1 hy
          have := hu n' (mem_optionNames.2 ⟨o', ho', hn'⟩) (List.isPrefixOf_iff_prefix.1 hc)
          subst this
          exact hne (by rw [owner_unique hp.2.1 h hn ho' hn'])
        simp [tupleLong, partition_joined h4, this]
    simp only [classifyOther, ht]

theorem digits_not_newline {ds : Str} (hd : ∀ c ∈ ds, c.toNat < 128 ∧ c.isDigit = true) : ('-' :: ds).getLast? ≠ some '\n' := by
  intro h
  have := List.mem_of_getLast? h
  rcases List.mem_cons.1 this with h | h
  · cases h
  · exact absurd (hd _ h).2 (by decide)

theorem classify_plain (u : Beyond) {p : Parser} (hp : Sensible p) {v : Str} (h : Plain v) : classify u p v = .argument := by
  unfold classify
  rcases h with h | rfl | ⟨ds, rfl, hne, hd⟩
  · rw [if_pos h]
  · rw [if_neg (by simp), find_none]
    · simp
    · intro hm
      obtain ⟨o', ho', hn'⟩ := mem_optionNames.1 hm
      have := (hp.1 o' ho' _ hn').2.1
      simp at this
  · obtain ⟨c, t, rfl⟩ := List.exists_cons_of_ne_nil hne
    have hbad : ∀ o ∈ p, ∀ n ∈ o.strings, n[1]? ≠ some c := by
      intro o ho n hn hc
      have := ((hp.1 o ho n hn).2.2.2.2 c hc).2.1
      rw [(hd c (.head _)).2] at this
      cases this
    have hnofind : find p ('-' :: c :: t) = none := by
      rw [find_none_iff]
      intro hm
      obtain ⟨o', ho', hn'⟩ := mem_optionNames.1 hm
      exact hbad o' ho' _ hn' rfl
    rw [if_neg (by simp), hnofind]
    simp only
    rw [if_neg (by simp)]
    have hnoeq : '=' ∉ '-' :: c :: t := by
      intro hm
      rcases List.mem_cons.1 hm with h | h
      · cases h
      · exact absurd (hd _ h).2 (by decide)
    rw [partition_none hnoeq]
    have hcd : c ≠ '-' := by
      rintro rfl
      exact absurd (hd _ (.head _)).2 (by decide)
    have hlong : isLong ('-' :: c :: t) = false := by
      unfold isLong
      split
      · rename_i heq
        simp only [List.cons.injEq, true_and] at heq
        exact absurd heq.1 hcd
      · rfl
    have ht : optionTuples p ('-' :: c :: t) = [] := by
      unfold optionTuples
      rw [hlong, if_neg (by simp), List.filterMap_eq_nil_iff]
      rintro ⟨n', o'⟩ hy
      obtain ⟨ho', hn'⟩ := mem_names.1 hy
      have hb := hbad o' ho' n' hn'
      rw [tupleShort, if_neg, if_neg]
      · intro hpre
        obtain ⟨z, hz⟩ := List.isPrefixOf_iff_prefix.1 hpre
        simp only at hz
        rw [← hz] at hb
        exact hb rfl
      · intro e
        simp only at e
        rw [e] at hb
        exact hb rfl
    have hneg : negativeNumber u ('-' :: c :: t) = true := by
      unfold negativeNumber
      have h1 := digits_not_newline hd
      have h2 : (match ('-' :: c :: t).getLast? with
          | some '\n' => ('-' :: c :: t).dropLast
          | _ => '-' :: c :: t) = '-' :: c :: t := by
        split
        · rename_i heq; exact absurd heq h1
        · rfl
      simp only [h2]
      have h3 : (c :: t).all (isDigit u) = true := by
        rw [List.all_eq_true]
        intro d hd'
        unfold isDigit
        rw [if_pos (hd d hd').1]
        exact (hd d hd').2
      rw [h3]
      simp
    simp only [classifyOther, ht, hneg, if_true]

/-! ### Command lines that are written as they should be -/

/-- How the arguments of a use are understood. -/
theorem tokens_use (u : Beyond) {p : Parser} (hp : Sensible p) {m : Usage} (h : m.Right u p) :
    ∃ a t ts, t.opt = m.opt ∧ (∀ rest, tokens u p (m.use.args ++ rest) = (tokens u p rest).map (fun r => .option a (some t) :: (ts ++ r))) ∧
      ((m.opt.kind = .flag ∧ m.value = .flag true ∧ t.explicit = none ∧ ts = []) ∨
       ∃ v, Fits u m.opt v m.value ∧ ((t.explicit = none ∧ ts = [.argument v]) ∨ (t.explicit = some (true, v) ∧ ts = []))) := by
  obtain ⟨ho, h⟩ := h
  have calls_ne : ∀ {a : Str}, Calls p a m.opt → a ≠ "--".toList := by
    intro a hc
    rcases hc with hn | ⟨-, h, -⟩
    · exact (hp.1 _ ho a hn).2.2.1
    · exact h
  cases hu : m.use with
  | flag a =>
    rw [hu] at h
    obtain ⟨hc, hk, hv⟩ := h
    obtain ⟨n, hn, hcl⟩ := classify_calls u hp ho hc
    refine ⟨a, ⟨m.opt, n, none⟩, [], rfl, ?_, .inl ⟨hk, hv, rfl, rfl⟩⟩
    intro rest
    show tokens u p (a :: rest) = _
    rw [tokens, if_neg (calls_ne hc), hcl]
    rfl
  | value a v =>
    rw [hu] at h
    obtain ⟨hc, hpl, hf⟩ := h
    obtain ⟨n, hn, hcl⟩ := classify_calls u hp ho hc
    have hv := classify_plain u hp hpl
    have hvne : v ≠ "--".toList := by
      rintro rfl
      rcases hpl with h | h | ⟨ds, h, -, hd⟩
      · exact h rfl
      · exact absurd h (by decide +kernel)
      · have hmem : '-' ∈ ds := by
          have : ds = ['-'] := by
            have h' : ['-', '-'] = '-' :: ds := h
            simpa using h'.symm
          rw [this]; exact .head _
        exact absurd (hd _ hmem).2 (by decide)
    refine ⟨a, ⟨m.opt, n, none⟩, [.argument v], rfl, ?_, .inr ⟨v, hf, .inl ⟨rfl, rfl⟩⟩⟩
    intro rest
    show tokens u p (a :: v :: rest) = _
    rw [tokens, if_neg (calls_ne hc), hcl]
    simp only
    rw [tokens, if_neg hvne, hv]
    simp only [Option.map_map]
    rfl
  | joined a v =>
    rw [hu] at h
    obtain ⟨hc, hf⟩ := h
    obtain ⟨n, hn, hcl⟩ := classify_joined u hp v ho hc
    have hne : a ++ '=' :: v ≠ "--".toList := by
      intro e
      have : '=' ∈ "--".toList := by rw [← e]; simp
      exact absurd this (by decide +kernel)
    refine ⟨a ++ '=' :: v, ⟨m.opt, n, some (true, v)⟩, [], rfl, ?_, .inr ⟨v, hf, .inr ⟨rfl, rfl⟩⟩⟩
    intro rest
    show tokens u p ((a ++ '=' :: v) :: rest) = _
    rw [tokens, if_neg hne, hcl]
    rfl
  | attached n v =>
    rw [hu] at h
    exact absurd h id

theorem takesValue_of_fits {u : Beyond} {o : Opt} {v : Str} {x : Value} (h : Fits u o v x) : o.takesValue = true := by
  unfold Opt.takesValue
  rcases h with ⟨h, -⟩ | ⟨h, -⟩ <;> rw [h]

theorem convert_fits {u : Beyond} {o : Opt} {v : Str} {x : Value} (h : Fits u o v x) : convert u o v = some x := by
  unfold convert
  rcases h with ⟨h, i, hi, rfl⟩ | ⟨h, rfl, hc⟩
  · rw [h]; simp [hi]
  · rw [h]
    simp only
    cases hcs : o.choices with
    | none => rfl
    | some cs => simp only; rw [if_pos (hc cs hcs)]

/-- An option performed. -/
def St.given (s : St) (o : Opt) (x : Value) : St := { s with seen := s.seen ++ [o.dest], values := s.values.set o.dest x }

theorem given_values (s : St) (o : Opt) (x : Value) : (s.given o x).values = s.values.set o.dest x := rfl

theorem takeAction_flag (u : Beyond) {p : Parser} {s : St} {o : Opt} (h : o.kind = .flag) (hc : conflicts p s o = false) :
    takeAction u p s (o, []) = .ok (s.given o (.flag true)) := by
  unfold takeAction
  simp only [h, hc, Bool.false_eq_true, if_false]
  rfl

theorem takeAction_fits (u : Beyond) {p : Parser} {s : St} {o : Opt} {v : Str} {x : Value} (h : Fits u o v x) (hc : conflicts p s o = false) :
    takeAction u p s (o, [v]) = .ok (s.given o x) := by
  unfold takeAction
  have hcv := convert_fits h
  rcases h with ⟨h, -⟩ | ⟨h, -⟩
  all_goals
    simp only [h, hcv, hc, Bool.false_eq_true, if_false]
    rfl

/-- The loop over the tokens of one use. -/
theorem loop_use (u : Beyond) {p : Parser} {s : St} {m : Usage} {a : Str} {t : Tuple} {ts rest : List Token} (ht : t.opt = m.opt)
    (hc : conflicts p s m.opt = false)
    (h : (m.opt.kind = .flag ∧ m.value = .flag true ∧ t.explicit = none ∧ ts = []) ∨
       ∃ v, Fits u m.opt v m.value ∧ ((t.explicit = none ∧ ts = [.argument v]) ∨ (t.explicit = some (true, v) ∧ ts = []))) :
    loop u p false s (.option a (some t) :: (ts ++ rest)) = loop u p false (s.given m.opt m.value) rest := by
  rw [loop]
  rcases h with ⟨hk, hv, he, rfl⟩ | ⟨v, hf, ⟨he, rfl⟩ | ⟨he, rfl⟩⟩
  · have h1 : ∀ next, consume p t next = .ok ⟨[(m.opt, [])], [], false⟩ := by
      intro next
      unfold consume
      rw [he]
      simp only [plain, ht]
      rw [if_neg]
      unfold Opt.takesValue
      rw [hk]; simp
    rw [h1]
    simp only [takeActions, takeAction_flag u hk hc, hv, List.append_nil, List.nil_append]
  · have h1 : consume p t (some v) = .ok ⟨[(m.opt, [v])], [], true⟩ := by
      unfold consume
      rw [he]
      simp only [plain, ht]
      rw [if_pos (takesValue_of_fits hf)]
    have h2 : following ([.argument v] ++ rest) = some v := rfl
    rw [h2, h1]
    simp only [takeActions, takeAction_fits u hf hc, List.append_nil]
    rfl
  · have h1 : ∀ next, consume p t next = .ok ⟨[(m.opt, [v])], [], false⟩ := by
      intro next
      unfold consume
      rw [he]
      simp only [ht]
      unfold explicit
      rw [if_pos (takesValue_of_fits hf)]
    rw [h1]
    simp only [takeActions, takeAction_fits u hf hc, List.append_nil, List.nil_append]

/-- All uses, with something behind them. -/
theorem tokens_uses_then (u : Beyond) {p : Parser} (hp : Sensible p) (ms : List Usage) (h : ∀ m ∈ ms, m.Right u p) :
    ∃ ts, (∀ rest, tokens u p ((ms.flatMap fun m => m.use.args) ++ rest) = (tokens u p rest).map (ts ++ ·)) ∧
      ((∀ m ∈ ms, ∀ m' ∈ ms, m.opt.exclusive = true → m'.opt.exclusive = true → m.opt = m'.opt) →
      ∀ (s : St) (r : List Token), (∀ m ∈ ms, ∀ o ∈ p, m.opt.exclusive = true → o.exclusive = true → o.dest ∈ s.seen → o = m.opt) →
        loop u p false s (ts ++ r) = loop u p false (ms.foldl (fun s m => s.given m.opt m.value) s) r) := by
  induction ms with
  | nil => exact ⟨[], fun rest => by simp, fun _ s r _ => rfl⟩
  | cons m ms ih =>
    obtain ⟨ts, hts, hl⟩ := ih (fun m' hm' => h m' (.tail _ hm'))
    obtain ⟨a, t, us, ht, hcase⟩ : ∃ a t ts, t.opt = m.opt ∧
        (∀ rest, tokens u p (m.use.args ++ rest) = (tokens u p rest).map (fun r => .option a (some t) :: (ts ++ r))) ∧
        ((m.opt.kind = .flag ∧ m.value = .flag true ∧ t.explicit = none ∧ ts = []) ∨
         ∃ v, Fits u m.opt v m.value ∧ ((t.explicit = none ∧ ts = [.argument v]) ∨ (t.explicit = some (true, v) ∧ ts = []))) :=
      tokens_use u hp (h m (.head _))
    obtain ⟨htok, hcase⟩ := hcase
    refine ⟨.option a (some t) :: (us ++ ts), ?_, ?_⟩
    · intro rest
      rw [List.flatMap_cons, List.append_assoc, htok, hts, Option.map_map]
      congr 1
      funext r
      simp
    · intro hx s r hs
      have hl := hl (fun m1 h1 m2 h2 => hx m1 (.tail _ h1) m2 (.tail _ h2))
      have hc : conflicts p s m.opt = false := by
        unfold conflicts
        rw [Bool.and_eq_false_iff]
        cases he : m.opt.exclusive with
        | false => exact .inl rfl
        | true =>
          right
          rw [List.any_eq_false]
          intro o ho
          simp only [Bool.and_eq_true, bne_iff_ne, ne_eq, List.contains_eq_mem, decide_eq_true_eq, not_and]
          rintro ⟨h1, h2⟩ h3
          exact h2 (by rw [hs m (.head _) o ho he h1 h3])
      rw [List.cons_append, List.append_assoc, loop_use u ht hc hcase, List.foldl_cons]
      apply hl
      intro m' hm' o ho he he' hd
      simp only [St.given, List.mem_append, List.mem_singleton] at hd
      rcases hd with hd | hd
      · exact hs m' (.tail _ hm') o ho he he' hd
      · have hom : o = m.opt := dest_unique hp.2.2.1 ho (h m (.head _)).1 hd
        rw [hom] at he' ⊢
        exact hx m (.head _) m' (.tail _ hm') he' he

/-- All uses. -/
theorem tokens_uses (u : Beyond) {p : Parser} (hp : Sensible p) (ms : List Usage) (h : ∀ m ∈ ms, m.Right u p)
    (hx : ∀ m ∈ ms, ∀ m' ∈ ms, m.opt.exclusive = true → m'.opt.exclusive = true → m.opt = m'.opt) :
    ∃ ts, tokens u p (ms.flatMap fun m => m.use.args) = some ts ∧
      ∀ s : St, (∀ m ∈ ms, ∀ o ∈ p, m.opt.exclusive = true → o.exclusive = true → o.dest ∈ s.seen → o = m.opt) →
        loop u p false s ts = .ok (ms.foldl (fun s m => s.given m.opt m.value) s) := by
  obtain ⟨ts, h1, h2⟩ := tokens_uses_then u hp ms h
  refine ⟨ts, ?_, fun s hs => ?_⟩
  · have := h1 []
    rw [List.append_nil] at this
    rw [this]
    simp [tokens]
  · have := h2 hx s [] hs
    rw [List.append_nil] at this
    rw [this]
    rfl

theorem seen_uses (ms : List Usage) : ∀ (s : St) (d : String), d ∈ (ms.foldl (fun s m => s.given m.opt m.value) s).seen ↔ d ∈ s.seen ∨ ∃ m ∈ ms, m.opt.dest = d := by
  induction ms with
  | nil => intro s d; simp
  | cons m ms ih =>
    intro s d
    rw [List.foldl_cons, ih]
    simp only [St.given, List.mem_append, List.mem_cons, List.not_mem_nil, or_false, exists_eq_or_imp]
    constructor
    · rintro ((h | h) | h)
      · exact .inl h
      · exact .inr (.inl h.symm)
      · exact .inr (.inr h)
    · rintro (h | h | h)
      · exact .inl (.inl h)
      · exact .inl (.inr h.symm)
      · exact .inr h

theorem extras_uses (ms : List Usage) : ∀ s : St, (ms.foldl (fun s m => s.given m.opt m.value) s).extras = s.extras := by
  induction ms with
  | nil => intro s; rfl
  | cons m ms ih => intro s; rw [List.foldl_cons, ih]; rfl

theorem values_uses {p : Parser} (hp : Sensible p) (ms : List Usage) (h : ∀ m ∈ ms, m.opt ∈ p) {o : Opt} (ho : o ∈ p) : ∀ s : St,
    (ms.foldl (fun s m => s.given m.opt m.value) s).values.get? o.dest =
      match (ms.filter fun m => m.opt = o).getLast? with
      | some m => some m.value
      | none => s.values.get? o.dest := by
  induction ms using List.reverseRecOn with
  | nil => intro s; rfl
  | append_singleton ms m ih =>
    intro s
    rw [List.foldl_append, List.foldl_cons, List.foldl_nil, List.filter_append]
    rw [given_values, Dict.get?_set]
    by_cases hm : m.opt = o
    · rw [if_pos (by rw [hm])]
      simp [List.filter_cons, hm]
    · rw [if_neg]
      · rw [ih (fun m' hm' => h m' (List.mem_append_left _ hm')) s]
        simp [List.filter_cons, hm]
      · intro e
        exact hm (dest_unique hp.2.2.1 (h m (by simp)) ho (by first | exact e | exact e.symm))

theorem get?_defaults {p : Parser} (hp : (p.map fun o => o.dest).Nodup) {o : Opt} (h : o ∈ p) (hk : o.kind ≠ .help) :
    (defaults p).get? o.dest = some o.default := by
  apply Dict.get?_of_mem
  · unfold defaults Dict.keys
    rw [List.map_map]
    exact List.Sublist.nodup (List.Sublist.map _ List.filter_sublist) hp
  · unfold defaults
    rw [List.mem_map]
    exact ⟨o, List.mem_filter.2 ⟨h, by simpa using hk⟩, rfl⟩

end Verif.Args
