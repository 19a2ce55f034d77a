import Verif.Args.Lemmas

/-! What a command line that is accepted says. -/

namespace Verif.Args

open Verif.Py Spec

theorem tupleShort_some {a : Str} {x : Str × Opt} {t : Tuple} (h : tupleShort a x = some t) :
    t.opt = x.2 ∧ t.name = x.1 ∧ ((x.1 = a.take 2 ∧ t.explicit = some (false, a.drop 2)) ∨ (a <+: x.1 ∧ t.explicit = none)) := by
  unfold tupleShort at h
  split at h
  · rename_i h1; cases h; exact ⟨rfl, rfl, .inl ⟨h1, rfl⟩⟩
  · split at h
    · rename_i h1; cases h; exact ⟨rfl, rfl, .inr ⟨List.isPrefixOf_iff_prefix.1 h1, rfl⟩⟩
    · cases h

theorem tupleLong_some {a : Str} {x : Str × Opt} {t : Tuple} (h : tupleLong a x = some t) :
    t.opt = x.2 ∧ t.name = x.1 ∧ (partition a).1 <+: x.1 ∧ t.explicit = (partition a).2.map fun v => (true, v) := by
  unfold tupleLong at h
  split at h
  · rename_i h1; cases h; exact ⟨rfl, rfl, List.isPrefixOf_iff_prefix.1 h1, rfl⟩
  · cases h

/-- An argument understood as an option. -/
theorem classify_inv {u : Beyond} {p : Parser} (hp : Sensible p) {a : Str} {t : Tuple} (h : classify u p a = .option (some t)) :
    t.opt ∈ p ∧ t.name ∈ t.opt.strings ∧
      ((t.explicit = none ∧ Short p a t.opt) ∨ (∃ a' v, t.explicit = some (true, v) ∧ a = a' ++ '=' :: v ∧ Short p a' t.opt) ∨
       ∃ v, t.explicit = some (false, v) ∧ a = t.name ++ v ∧ t.name.length = 2 ∧ a ∉ optionNames p) := by
  unfold classify at h
  split at h
  · cases h
  · rename_i hhead
    rw [ne_eq, Decidable.not_not] at hhead
    split at h
    · rename_i o hf
      cases h
      obtain ⟨ho, hn⟩ := find_some hf
      exact ⟨ho, hn, .inl ⟨rfl, (hp.1 _ ho a hn).2.1, a, hn, List.prefix_rfl, .inl rfl⟩⟩
    · rename_i hfnone
      split at h
      · cases h
      · rename_i hlen
        have hlen2 : 2 ≤ a.length := by
          cases a with
          | nil => cases hhead
          | cons c a => simp only [List.length_cons] at hlen ⊢; omega
        split at h
        · rename_i v o hv hf
          cases h
          obtain ⟨ho, hn⟩ := find_some hf
          rcases partition_cases a with ⟨-, e⟩ | ⟨a', v', -, rfl, e⟩
          · rw [e] at hv; cases hv
          · rw [e] at hv hf hn
            cases hv
            refine ⟨ho, by rw [e]; exact hn, .inr (.inl ⟨a', v, rfl, rfl, (hp.1 _ ho _ hn).2.1, a', hn, List.prefix_rfl, .inl rfl⟩)⟩
        · unfold classifyOther at h
          split at h
          · rename_i t' ht
            cases h
            unfold optionTuples at ht
            cases hl : isLong a with
            | true =>
              rw [hl, if_pos rfl] at ht
              have hmem : t ∈ (names p).filterMap (tupleLong a) := by rw [ht]; exact .head _
              obtain ⟨⟨n, o⟩, hx, hxt⟩ := List.mem_filterMap.1 hmem
              obtain ⟨e1, e2, hpre, he⟩ := tupleLong_some hxt
              obtain ⟨ho, hn⟩ := mem_names.1 hx
              simp only at e1 e2 hpre
              have huniq : ∀ n' ∈ optionNames p, (partition a).1 <+: n' → n' = n := by
                intro n' hn' hpre'
                obtain ⟨o', ho', hno'⟩ := mem_optionNames.1 hn'
                have hm' : (⟨o', n', (partition a).2.map fun v => (true, v)⟩ : Tuple) ∈ (names p).filterMap (tupleLong a) := by
                  refine List.mem_filterMap.2 ⟨(n', o'), mem_names.2 ⟨ho', hno'⟩, ?_⟩
                  unfold tupleLong
                  rw [if_pos (List.isPrefixOf_iff_prefix.2 hpre')]
                rw [ht, List.mem_singleton] at hm'
                rw [← e2, ← hm']
              refine ⟨by rw [e1]; exact ho, by rw [e1, e2]; exact hn, ?_⟩
              rcases partition_cases a with ⟨-, e⟩ | ⟨a', v', -, rfl, e⟩
              · rw [e] at hpre huniq he
                exact .inl ⟨he, hlen2, n, by rw [e1]; exact hn, hpre, .inr huniq⟩
              · rw [e] at hpre huniq he
                refine .inr (.inl ⟨a', v', he, rfl, ?_, n, by rw [e1]; exact hn, hpre, .inr huniq⟩)
                obtain ⟨z, hz⟩ := isLong_iff.1 hl
                match a' with
                | [] => simp at hz
                | [c] => simp at hz
                | _ :: _ :: _ => simp
            | false =>
              rw [hl, if_neg (by simp)] at ht
              have hmem : t ∈ (names p).filterMap (tupleShort a) := by rw [ht]; exact .head _
              obtain ⟨⟨n, o⟩, hx, hxt⟩ := List.mem_filterMap.1 hmem
              obtain ⟨e1, e2, hcase⟩ := tupleShort_some hxt
              obtain ⟨ho, hn⟩ := mem_names.1 hx
              simp only at e1 e2 hcase
              refine ⟨by rw [e1]; exact ho, by rw [e1, e2]; exact hn, ?_⟩
              rcases hcase with ⟨h1, h2⟩ | ⟨h1, h2⟩
              · refine .inr (.inr ⟨a.drop 2, h2, ?_, ?_, find_none_iff.1 hfnone⟩)
                · rw [e2, h1, List.take_append_drop]
                · rw [e2, h1, List.length_take]; omega
              · refine .inl ⟨h2, hlen2, n, by rw [e1]; exact hn, h1, .inr ?_⟩
                intro n' hn' hpre'
                obtain ⟨o', ho', hno'⟩ := mem_optionNames.1 hn'
                have hs : ∃ t', tupleShort a (n', o') = some t' ∧ t'.name = n' := by
                  unfold tupleShort
                  by_cases hc : n' = a.take 2
                  · rw [if_pos hc]; exact ⟨_, rfl, rfl⟩
                  · rw [if_neg hc, if_pos (List.isPrefixOf_iff_prefix.2 hpre')]; exact ⟨_, rfl, rfl⟩
                obtain ⟨t', ht', hnt⟩ := hs
                have hm' : t' ∈ (names p).filterMap (tupleShort a) := List.mem_filterMap.2 ⟨(n', o'), mem_names.2 ⟨ho', hno'⟩, ht'⟩
                rw [ht, List.mem_singleton] at hm'
                rw [← hnt, hm', e2]
          · cases h
          · split at h
            · cases h
            · split at h <;> cases h

theorem explicit_value {p : Parser} {next : Option Str} {o : Opt} {short eq : Bool} {e : Str} (h : o.takesValue = true) :
    explicit p next o short eq e = .ok ⟨[(o, [e])], [], false⟩ := by
  unfold explicit
  rw [if_pos h]

theorem explicit_eq {p : Parser} {next : Option Str} {o : Opt} {short : Bool} {e : Str} (h : o.takesValue = false) :
    explicit p next o short true e = .error 2 := by
  unfold explicit
  rw [if_neg (by simp [h])]
  cases short with
  | false => rfl
  | true =>
    rw [if_neg (by simp)]
    cases e with
    | nil => rfl
    | cons c cs => simp

theorem map_before {x : Except Nat Found} {o : Opt} {f : Found} (h : x.map (Found.before o) = .ok f) : ∃ r, f.acts = (o, []) :: r := by
  cases x with
  | error n => cases h
  | ok g => cases h; exact ⟨g.acts, rfl⟩

theorem explicit_flag {p : Parser} {next : Option Str} {o : Opt} {short eq : Bool} {e : Str} {f : Found} (h : o.takesValue = false)
    (hf : explicit p next o short eq e = .ok f) : ∃ r, f.acts = (o, []) :: r := by
  unfold explicit at hf
  rw [if_neg (by simp [h])] at hf
  split at hf
  · cases hf
  · split at hf
    · cases hf
    · split at hf
      · cases hf
      · split at hf
        · cases hf; exact ⟨[], rfl⟩
        · split at hf
          · exact map_before hf
          · split at hf <;> exact map_before hf

theorem takeAction_ok {u : Beyond} {p : Parser} {s s' : St} {o : Opt} {v : Str} (hv : o.takesValue = true)
    (h : takeAction u p s (o, [v]) = .ok s') : conflicts p s o = false ∧ ∃ x, Fits u o v x ∧ s' = s.given o x := by
  unfold takeAction at h
  unfold Opt.takesValue at hv
  cases hk : o.kind with
  | help => rw [hk] at hv; cases hv
  | flag => rw [hk] at hv; cases hv
  | text =>
    simp only [hk] at h
    cases hc : convert u o v with
    | none => rw [hc] at h; cases h
    | some x =>
      rw [hc] at h
      simp only at h
      split at h
      · cases h
      · rename_i hcf
        cases h
        refine ⟨by simpa using hcf, x, ?_, rfl⟩
        unfold convert at hc
        rw [hk] at hc
        simp only at hc
        right
        cases hch : o.choices with
        | none => rw [hch] at hc; cases hc; exact ⟨hk, rfl, fun cs hcs => by cases hcs⟩
        | some cs =>
          rw [hch] at hc
          simp only at hc
          split at hc
          · rename_i hm
            cases hc
            exact ⟨hk, rfl, fun cs' hcs => by cases hcs; exact hm⟩
          · cases hc
  | int =>
    simp only [hk] at h
    cases hc : convert u o v with
    | none => rw [hc] at h; cases h
    | some x =>
      rw [hc] at h
      simp only at h
      split at h
      · cases h
      · rename_i hcf
        cases h
        refine ⟨by simpa using hcf, x, ?_, rfl⟩
        unfold convert at hc
        rw [hk] at hc
        simp only [Option.map_eq_some_iff] at hc
        obtain ⟨i, hi, rfl⟩ := hc
        exact .inl ⟨hk, i, hi, rfl⟩

theorem takeActions_single {u : Beyond} {p : Parser} {s s' : St} {a : Opt × List Str} (h : takeActions u p s [a] = .ok s') :
    takeAction u p s a = .ok s' := by
  simp only [takeActions] at h
  split at h
  · cases h
  · rename_i s1 h1; cases h; exact h1

theorem takeActions_cons {u : Beyond} {p : Parser} {s s' : St} {a : Opt × List Str} {as : List (Opt × List Str)} (h : takeActions u p s (a :: as) = .ok s') :
    ∃ s1, takeAction u p s a = .ok s1 := by
  simp only [takeActions] at h
  split at h
  · cases h
  · rename_i s1 h1; exact ⟨s1, h1⟩

theorem takeAction_flag_inv {u : Beyond} {p : Parser} {s s' : St} {o : Opt} (hv : o.takesValue = false) (h : takeAction u p s (o, []) = .ok s') :
    o.kind = .flag ∧ conflicts p s o = false ∧ s' = s.given o (.flag true) := by
  unfold takeAction at h
  unfold Opt.takesValue at hv
  cases hk : o.kind with
  | help => simp only [hk] at h; cases h
  | text => rw [hk] at hv; cases hv
  | int => rw [hk] at hv; cases hv
  | flag =>
    simp only [hk] at h
    split at h
    · cases h
    · rename_i hcf
      cases h
      exact ⟨rfl, by simpa using hcf, rfl⟩

/-- An option that is performed. -/
theorem perform_inv {u : Beyond} {p : Parser} (hp : Sensible p) {a : Str} {t : Tuple} {next : Option Str} {f : Found} {s s' : St}
    (h : classify u p a = .option (some t)) (hf : consume p t next = .ok f) (hs : takeActions u p s f.acts = .ok s') :
    f.extras = [] ∧ conflicts p s t.opt = false ∧ ∃ x, s' = s.given t.opt x ∧
      ((t.opt.kind = .flag ∧ x = .flag true ∧ Short p a t.opt ∧ f.used = false) ∨
       ∃ v, Fits u t.opt v x ∧ ((Short p a t.opt ∧ next = some v ∧ f.used = true) ∨
         (f.used = false ∧ ((∃ a', a = a' ++ '=' :: v ∧ Short p a' t.opt) ∨ ∃ n ∈ t.opt.strings, n.length = 2 ∧ a = n ++ v ∧ a ∉ optionNames p)))) := by
  obtain ⟨ho, hn, hcase⟩ := classify_inv hp h
  unfold consume at hf
  rcases hcase with ⟨he, hsh⟩ | ⟨a', v, he, ha, hsh⟩ | ⟨v, he, ha, hlen, hnin⟩
  · rw [he] at hf
    simp only [plain] at hf
    cases htv : t.opt.takesValue with
    | true =>
      rw [htv, if_pos rfl] at hf
      cases next with
      | none => cases hf
      | some v =>
        cases hf
        obtain ⟨hc, x, hx, rfl⟩ := takeAction_ok htv (takeActions_single hs)
        exact ⟨rfl, hc, x, rfl, .inr ⟨v, hx, .inl ⟨hsh, rfl, rfl⟩⟩⟩
    | false =>
      rw [htv, if_neg (by simp)] at hf
      cases hf
      obtain ⟨hk, hc, rfl⟩ := takeAction_flag_inv htv (takeActions_single hs)
      exact ⟨rfl, hc, _, rfl, .inl ⟨hk, rfl, hsh, rfl⟩⟩
  · rw [he] at hf
    simp only at hf
    cases htv : t.opt.takesValue with
    | true =>
      rw [explicit_value htv] at hf
      cases hf
      obtain ⟨hc, x, hx, rfl⟩ := takeAction_ok htv (takeActions_single hs)
      exact ⟨rfl, hc, x, rfl, .inr ⟨v, hx, .inr ⟨rfl, .inl ⟨a', ha, hsh⟩⟩⟩⟩
    | false => rw [explicit_eq htv] at hf; cases hf
  · rw [he] at hf
    simp only at hf
    cases htv : t.opt.takesValue with
    | true =>
      rw [explicit_value htv] at hf
      cases hf
      obtain ⟨hc, x, hx, rfl⟩ := takeAction_ok htv (takeActions_single hs)
      exact ⟨rfl, hc, x, rfl, .inr ⟨v, hx, .inr ⟨rfl, .inr ⟨_, hn, hlen, ha, hnin⟩⟩⟩⟩
    | false =>
      obtain ⟨r, hr⟩ := explicit_flag htv hf
      rw [hr] at hs
      obtain ⟨s1, h1⟩ := takeActions_cons hs
      obtain ⟨hk, -⟩ := takeAction_flag_inv htv h1
      exact absurd hlen (hp.2.2.2 _ ho hk _ hn)

/-! ### All arguments -/

/-- The argument a token comes from. -/
def Token.raw : Token → Str
  | .argument s => s
  | .separator => ['-', '-']
  | .option s _ => s

theorem tokens_raw {u : Beyond} {p : Parser} : ∀ {argv : List Str} {ts : List Token}, tokens u p argv = some ts → ts.map Token.raw = argv := by
  intro argv
  induction argv with
  | nil => intro ts h; cases h; rfl
  | cons a as ih =>
    intro ts h
    simp only [tokens] at h
    split at h
    · rename_i ha
      cases h
      simp [Token.raw, ha, Function.comp_def]
    · split at h
      · cases h
      · rw [Option.map_eq_some_iff] at h
        obtain ⟨r, hr, rfl⟩ := h
        simp [Token.raw, ih hr]
      · rw [Option.map_eq_some_iff] at h
        obtain ⟨r, hr, rfl⟩ := h
        simp [Token.raw, ih hr]

theorem dropWhile_head {α : Type} {f : α → Bool} {l r : List α} {x : α} (h : l.dropWhile f = x :: r) : ∃ y l', l = y :: l' ∧ (f y = true ∨ y = x) := by
  cases l with
  | nil => cases h
  | cons y l =>
    refine ⟨y, l, rfl, ?_⟩
    cases hy : f y with
    | true => exact .inl rfl
    | false =>
      rw [List.dropWhile_cons, hy, if_neg (by simp)] at h
      exact .inr (List.cons.inj h).1

theorem isDigit_inv {u : Beyond} {c : Char} (h : isDigit u c = true) : c.isDigit = true ∨ c = '.' ∨ 128 ≤ c.toNat := by
  unfold isDigit at h
  split at h
  · exact .inl h
  · exact .inr (.inr (by omega))

theorem negativeNumber_inv {u : Beyond} {v : Str} (h : negativeNumber u v = true) : ∃ c, v[1]? = some c ∧ (c.isDigit = true ∨ c = '.' ∨ 128 ≤ c.toNat) := by
  unfold negativeNumber at h
  have key : ∀ t : Str, (∀ c r, t = '-' :: c :: r → v[1]? = some c) →
      (match t with
        | '-' :: b => (b ≠ [] && b.all (isDigit u)) || (match b.dropWhile (isDigit u) with
          | '.' :: r => r ≠ [] && r.all (isDigit u)
          | _ => false)
        | _ => false) = true → ∃ c, v[1]? = some c ∧ (c.isDigit = true ∨ c = '.' ∨ 128 ≤ c.toNat) := by
    intro t ht hm
    split at hm
    · rename_i b
      rw [Bool.or_eq_true] at hm
      rcases hm with hm | hm
      · rw [Bool.and_eq_true] at hm
        cases b with
        | nil => simp at hm
        | cons c r =>
          refine ⟨c, ht c r rfl, isDigit_inv (u := u) ?_⟩
          have := hm.2
          rw [List.all_cons, Bool.and_eq_true] at this
          exact this.1
      · split at hm
        · rename_i r hd
          obtain ⟨y, l', rfl, hy⟩ := dropWhile_head hd
          refine ⟨y, ht y l' rfl, ?_⟩
          rcases hy with hy | hy
          · exact isDigit_inv hy
          · exact .inr (.inl hy)
        · cases hm
    · cases hm
  refine key _ ?_ h
  intro c r e
  split at e
  · have hd : v.dropLast = '-' :: c :: r := e
    have : v.dropLast[1]? = some c := by rw [hd]; rfl
    rw [List.getElem?_dropLast] at this
    split at this
    · exact this
    · cases this
  · rw [e]; rfl

theorem classify_argument_inv {u : Beyond} {p : Parser} {v : Str} (h : classify u p v = .argument) : Behind v := by
  unfold classify at h
  split at h
  · rename_i h1; exact .inl h1
  · rename_i h1
    rw [ne_eq, Decidable.not_not] at h1
    split at h
    · cases h
    · split at h
      · rename_i h2
        right; left
        match v with
        | [] => cases h1
        | [c] =>
          simp only [List.head?_cons, Option.some.injEq] at h1
          rw [h1]
        | _ :: _ :: _ => simp at h2
      · split at h
        · cases h
        · unfold classifyOther at h
          split at h
          · cases h
          · cases h
          · split at h
            · rename_i hn; exact .inr (.inr (.inr (negativeNumber_inv hn)))
            · split at h
              · rename_i hb; exact .inr (.inr (.inl hb))
              · cases h

/-- Tokens that come from arguments. -/
def Valid (u : Beyond) (p : Parser) : List Token → Prop
  | [] => True
  | .argument a :: ts => classify u p a = .argument ∧ Valid u p ts
  | .separator :: ts => ∀ tok ∈ ts, ∃ a, tok = .argument a
  | .option a t :: ts => classify u p a = .option t ∧ Valid u p ts

theorem tokens_valid {u : Beyond} {p : Parser} : ∀ {argv : List Str} {ts : List Token}, tokens u p argv = some ts → Valid u p ts := by
  intro argv
  induction argv with
  | nil => intro ts h; cases h; trivial
  | cons b bs ih =>
    intro ts h
    simp only [tokens] at h
    split at h
    · cases h
      intro tok ht
      obtain ⟨a, _, rfl⟩ := List.mem_map.1 ht
      exact ⟨a, rfl⟩
    · split at h
      · cases h
      · rename_i hc
        rw [Option.map_eq_some_iff] at h
        obtain ⟨r, hr, rfl⟩ := h
        exact ⟨hc, ih hr⟩
      · rename_i t' hc
        rw [Option.map_eq_some_iff] at h
        obtain ⟨r, hr, rfl⟩ := h
        exact ⟨hc, ih hr⟩

theorem takeAction_extras {u : Beyond} {p : Parser} {s s' : St} {a : Opt × List Str} (h : takeAction u p s a = .ok s') : s'.extras = s.extras := by
  obtain ⟨o, l⟩ := a
  simp only [takeAction] at h
  split at h
  · cases h
  · split at h
    · cases h
    · cases h; rfl
  · split at h
    · cases h
    · split at h
      · cases h
      · cases h; rfl
  · cases h

theorem takeActions_extras {u : Beyond} {p : Parser} (as : List (Opt × List Str)) : ∀ {s s' : St}, takeActions u p s as = .ok s' → s'.extras = s.extras := by
  induction as with
  | nil => intro s s' h; cases h; rfl
  | cons a as ih =>
    intro s s' h
    simp only [takeActions] at h
    split at h
    · cases h
    · rename_i s1 h1
      rw [ih h, takeAction_extras h1]

/-- What is in `extras` stays there. -/
theorem loop_extras {u : Beyond} {p : Parser} : ∀ (ts : List Token) (skip : Bool) (s s' : St), loop u p skip s ts = .ok s' →
    s.extras ≠ [] → s'.extras ≠ [] := by
  intro ts
  induction ts with
  | nil => intro skip s s' hl h; cases skip <;> (simp only [loop] at hl; cases hl; exact h)
  | cons tok ts ih =>
    intro skip s s' hl h
    cases skip with
    | true => simp only [loop] at hl; exact ih false s s' hl h
    | false =>
      cases tok with
      | argument a => simp only [loop] at hl; exact ih false _ s' hl (by simp [St.extra])
      | separator => simp only [loop] at hl; exact ih false _ s' hl (by simp [St.extra])
      | option a t =>
        cases t with
        | none => simp only [loop] at hl; exact ih false _ s' hl (by simp [St.extra])
        | some t =>
          rw [loop] at hl
          split at hl
          · cases hl
          · split at hl
            · cases hl
            · rename_i f _ _ s1 h1
              refine ih f.used _ s' hl ?_
              simp only [takeActions_extras _ h1]
              simp [h]

theorem conflicts_false {p : Parser} (hp : Sensible p) {s : St} {o : Opt} (ho : o ∈ p) (h : conflicts p s o = false) :
    ∀ q ∈ p, o.exclusive = true → q.exclusive = true → q.dest ∈ s.seen → q = o := by
  intro q hq he hqe hqs
  unfold conflicts at h
  rw [he, Bool.true_and, List.any_eq_false] at h
  have := h q hq
  simp only [Bool.and_eq_true, bne_iff_ne, ne_eq, List.contains_eq_mem, decide_eq_true_eq, not_and] at this
  by_cases hd : q.dest = o.dest
  · exact dest_unique hp.2.2.1 hq ho hd
  · exact absurd hqs (this ⟨hqe, hd⟩)

/-- The arguments of a loop that leaves nothing over are uses of options, one behind the other. -/
theorem loop_said {u : Beyond} {p : Parser} (hp : Sensible p) : ∀ (n : Nat) (ts : List Token) (s s' : St), ts.length ≤ n → Valid u p ts →
    loop u p false s ts = .ok s' → s'.extras = [] →
    ∃ ms : List Usage, ts.map Token.raw = ms.flatMap (fun m => m.use.args) ∧ (∀ m ∈ ms, m.Written u p) ∧
      s' = ms.foldl (fun s m => s.given m.opt m.value) s ∧
      (∀ m ∈ ms, ∀ o ∈ p, m.opt.exclusive = true → o.exclusive = true → o.dest ∈ s.seen → o = m.opt) ∧
      ms.Pairwise (fun m m' => m.opt.exclusive = true → m'.opt.exclusive = true → m.opt = m'.opt) := by
  intro n
  induction n with
  | zero =>
    intro ts s s' hn hv hl he
    have : ts = [] := List.eq_nil_of_length_eq_zero (by omega)
    subst this
    simp only [loop] at hl
    cases hl
    exact ⟨[], rfl, by simp, rfl, by simp, .nil⟩
  | succ n ih =>
    intro ts s s' hn hv hl he
    cases ts with
    | nil =>
      simp only [loop] at hl
      cases hl
      exact ⟨[], rfl, by simp, rfl, by simp, .nil⟩
    | cons tok ts =>
      have hn' : ts.length ≤ n := by simpa using hn
      cases tok with
      | argument a => simp only [loop] at hl; exact absurd he (loop_extras ts false _ s' hl (by simp [St.extra]))
      | separator => simp only [loop] at hl; exact absurd he (loop_extras ts false _ s' hl (by simp [St.extra]))
      | option a t =>
        cases t with
        | none => simp only [loop] at hl; exact absurd he (loop_extras ts false _ s' hl (by simp [St.extra]))
        | some t =>
          obtain ⟨hcl, hv'⟩ := hv
          rw [loop] at hl
          cases hcons : consume p t (following ts) with
          | error n => rw [hcons] at hl; cases hl
          | ok f =>
            rw [hcons] at hl
            simp only at hl
            cases hta : takeActions u p s f.acts with
            | error n => rw [hta] at hl; cases hl
            | ok s1 =>
              rw [hta] at hl
              simp only at hl
              obtain ⟨hfe, hcf, x, rfl, hcase⟩ := perform_inv hp hcl hcons hta
              have ho := (classify_inv hp hcl).1
              rw [hfe] at hl
              have hst : ({ s.given t.opt x with extras := (s.given t.opt x).extras ++ [] } : St) = s.given t.opt x := by
                rw [List.append_nil]
              rw [hst] at hl
              have build : ∀ (use : Use) (rest : List Token), use.args ++ rest.map Token.raw = a :: ts.map Token.raw →
                  (⟨use, t.opt, x⟩ : Usage).Written u p → rest.length ≤ n → Valid u p rest → loop u p false (s.given t.opt x) rest = .ok s' →
                  ∃ ms : List Usage, a :: ts.map Token.raw = ms.flatMap (fun m => m.use.args) ∧ (∀ m ∈ ms, m.Written u p) ∧
                    s' = ms.foldl (fun s m => s.given m.opt m.value) s ∧
                    (∀ m ∈ ms, ∀ o ∈ p, m.opt.exclusive = true → o.exclusive = true → o.dest ∈ s.seen → o = m.opt) ∧
                    ms.Pairwise (fun m m' => m.opt.exclusive = true → m'.opt.exclusive = true → m.opt = m'.opt) := by
                intro use rest hargs hw hlen hvr hlr
                obtain ⟨ms, h1, h2, h3, h4, h5⟩ := ih rest _ s' hlen hvr hlr he
                refine ⟨⟨use, t.opt, x⟩ :: ms, ?_, ?_, ?_, ?_, ?_⟩
                · rw [List.flatMap_cons, ← h1, hargs]
                · intro m hm
                  rcases List.mem_cons.1 hm with rfl | hm
                  · exact hw
                  · exact h2 m hm
                · rw [List.foldl_cons]; exact h3
                · intro m hm o ho' he1 he2 hs
                  rcases List.mem_cons.1 hm with rfl | hm
                  · exact conflicts_false hp ho hcf o ho' he1 he2 hs
                  · exact h4 m hm o ho' he1 he2 (by simp [St.given, hs])
                · refine List.pairwise_cons.2 ⟨?_, h5⟩
                  intro m hm he1 he2
                  exact h4 m hm t.opt ho he2 he1 (by simp [St.given])
              show ∃ ms : List Usage, a :: ts.map Token.raw = _ ∧ _
              rcases hcase with ⟨hk, hx, hsh, hused⟩ | ⟨v, hf, ⟨hsh, hnext, hused⟩ | ⟨hused, ⟨a', rfl, hsh⟩ | ⟨nm, hnm, hlen, rfl, hnin⟩⟩⟩
              · rw [hused] at hl
                exact build (.flag a) ts rfl ⟨ho, hsh, hk, hx⟩ hn' hv' hl
              · rw [hused] at hl
                cases ts with
                | nil => cases hnext
                | cons tok' ts' =>
                  cases tok' with
                  | argument w =>
                    simp only [following, Option.some.injEq] at hnext
                    subst hnext
                    simp only [loop] at hl
                    exact build (.value a w) ts' rfl ⟨ho, hsh, classify_argument_inv hv'.1, hf⟩ (by simp at hn'; omega) hv'.2 hl
                  | separator => cases hnext
                  | option b t' => cases hnext
              · rw [hused] at hl
                exact build (.joined a' v) ts rfl ⟨ho, hsh, hf⟩ hn' hv' hl
              · rw [hused] at hl
                exact build (.attached nm v) ts rfl ⟨ho, hnm, hlen, hnin, hf⟩ hn' hv' hl

/-! ### How it ends otherwise -/

theorem explicit_error {p : Parser} {next : Option Str} {n : Nat} : ∀ (e : Str) {o : Opt} {short eq : Bool}, explicit p next o short eq e = .error n → n = 2 := by
  have hplain : ∀ {o : Opt}, plain o next = .error n → n = 2 := by
    intro o h
    unfold plain at h
    split at h
    · split at h
      · cases h
      · cases h; rfl
    · cases h
  have hmap : ∀ {x : Except Nat Found} {o : Opt}, x.map (Found.before o) = .error n → x = .error n := by
    intro x o h
    cases x with
    | error m => cases h; rfl
    | ok f => cases h
  have : ∀ (k : Nat) (e : Str), e.length ≤ k → ∀ {o : Opt} {short eq : Bool}, explicit p next o short eq e = .error n → n = 2 := by
    intro k
    induction k with
    | zero =>
      intro e hk o short eq h
      have : e = [] := List.eq_nil_of_length_eq_zero (by omega)
      subst this
      unfold explicit at h
      split at h
      · cases h
      · split at h <;> (cases h; rfl)
    | succ k ih =>
      intro e hk o short eq h
      unfold explicit at h
      split at h
      · cases h
      · split at h
        · cases h; rfl
        · split at h
          · cases h; rfl
          · rename_i c cs
            split at h
            · cases h; rfl
            · split at h
              · cases h
              · split at h
                · exact hplain (hmap h)
                · rename_i d ds
                  simp only [List.length_cons] at hk
                  split at h
                  · exact ih ds (by omega) (hmap h)
                  · exact ih (d :: ds) (by simp only [List.length_cons]; omega) (hmap h)
  exact fun e => this e.length e (Nat.le_refl _)

theorem consume_error {p : Parser} {t : Tuple} {next : Option Str} {n : Nat} (h : consume p t next = .error n) : n = 2 := by
  unfold consume at h
  split at h
  · unfold plain at h
    split at h
    · split at h
      · cases h
      · cases h; rfl
    · cases h
  · exact explicit_error _ h

theorem takeAction_error {u : Beyond} {p : Parser} {s : St} {a : Opt × List Str} {n : Nat} (h : takeAction u p s a = .error n) :
    n = 2 ∨ (n = 0 ∧ a.1.kind = .help) := by
  obtain ⟨o, l⟩ := a
  simp only [takeAction] at h
  split at h
  · rename_i hk; cases h; exact .inr ⟨rfl, hk⟩
  · split at h
    · cases h; exact .inl rfl
    · cases h
  · split at h
    · cases h; exact .inl rfl
    · split at h
      · cases h; exact .inl rfl
      · cases h
  · cases h; exact .inl rfl

/-- An option whose performance fails. -/
theorem perform_error {u : Beyond} {p : Parser} (hp : Sensible p) {a : Str} {t : Tuple} {next : Option Str} {f : Found} {s : St} {n : Nat}
    (h : classify u p a = .option (some t)) (hf : consume p t next = .ok f) (hs : takeActions u p s f.acts = .error n) :
    n = 2 ∨ (n = 0 ∧ AsksHelp p a) := by
  obtain ⟨ho, hn, hcase⟩ := classify_inv hp h
  have single : ∀ {x : Opt × List Str}, takeActions u p s [x] = .error n → takeAction u p s x = .error n := by
    intro x hx
    simp only [takeActions] at hx
    split at hx
    · rename_i m hm; cases hx; exact hm
    · cases hx
  unfold consume at hf
  rcases hcase with ⟨he, hsh⟩ | ⟨a', v, he, ha, hsh⟩ | ⟨v, he, ha, hlen, hnin⟩
  · rw [he] at hf
    simp only [plain] at hf
    have : ∃ l, f.acts = [(t.opt, l)] := by
      split at hf
      · split at hf
        · cases hf; exact ⟨_, rfl⟩
        · cases hf
      · cases hf; exact ⟨_, rfl⟩
    obtain ⟨l, hl⟩ := this
    rw [hl] at hs
    rcases takeAction_error (single hs) with h | ⟨h1, h2⟩
    · exact .inl h
    · exact .inr ⟨h1, t.opt, ho, h2, .inl hsh⟩
  · rw [he] at hf
    simp only at hf
    cases htv : t.opt.takesValue with
    | true =>
      rw [explicit_value htv] at hf
      cases hf
      rcases takeAction_error (single hs) with h | ⟨h1, h2⟩
      · exact .inl h
      · rw [Opt.takesValue, h2] at htv
        cases htv
    | false => rw [explicit_eq htv] at hf; cases hf
  · rw [he] at hf
    simp only at hf
    cases htv : t.opt.takesValue with
    | true =>
      rw [explicit_value htv] at hf
      cases hf
      rcases takeAction_error (single hs) with h | ⟨h1, h2⟩
      · exact .inl h
      · rw [Opt.takesValue, h2] at htv
        cases htv
    | false =>
      obtain ⟨r, hr⟩ := explicit_flag htv hf
      have hk : t.opt.kind = .help := by
        unfold Opt.takesValue at htv
        cases hk : t.opt.kind with
        | text => rw [hk] at htv; cases htv
        | int => rw [hk] at htv; cases htv
        | flag => exact absurd hlen (hp.2.2.2 _ ho hk _ hn)
        | help => rfl
      rw [hr] at hs
      simp only [takeActions, takeAction, hk] at hs
      cases hs
      exact .inr ⟨rfl, t.opt, ho, hk, .inr ⟨_, hn, hlen, ⟨v, ha.symm⟩⟩⟩

theorem loop_error {u : Beyond} {p : Parser} (hp : Sensible p) : ∀ (ts : List Token) (skip : Bool) (s : St) (n : Nat), Valid u p ts →
    loop u p skip s ts = .error n → n = 2 ∨ (n = 0 ∧ ∃ a ∈ ts.map Token.raw, AsksHelp p a) := by
  have plainly : ∀ (ts : List Token) (skip : Bool) (s : St) (n : Nat), (∀ tok ∈ ts, ∃ a, tok = .argument a) → loop u p skip s ts ≠ .error n := by
    intro ts
    induction ts with
    | nil => intro skip s n _ hl; cases skip <;> (simp only [loop] at hl; cases hl)
    | cons tok ts ih =>
      intro skip s n hv hl
      obtain ⟨a, rfl⟩ := hv tok (.head _)
      have hv' : ∀ tok ∈ ts, ∃ a, tok = .argument a := fun t ht => hv t (.tail _ ht)
      cases skip with
      | true => simp only [loop] at hl; exact ih false s n hv' hl
      | false => simp only [loop] at hl; exact ih false _ n hv' hl
  intro ts
  induction ts with
  | nil => intro skip s n _ hl; cases skip <;> (simp only [loop] at hl; cases hl)
  | cons tok ts ih =>
    intro skip s n hv hl
    have more : ∀ {m : Nat}, (m = 2 ∨ (m = 0 ∧ ∃ a ∈ ts.map Token.raw, AsksHelp p a)) →
        (m = 2 ∨ (m = 0 ∧ ∃ a ∈ (tok :: ts).map Token.raw, AsksHelp p a)) := by
      rintro m (h | ⟨h1, a, h2, h3⟩)
      · exact .inl h
      · exact .inr ⟨h1, a, .tail _ h2, h3⟩
    cases tok with
    | separator =>
      cases skip with
      | true => simp only [loop] at hl; exact absurd hl (plainly ts false _ n hv)
      | false => simp only [loop] at hl; exact absurd hl (plainly ts false _ n hv)
    | argument a =>
      cases skip with
      | true => simp only [loop] at hl; exact more (ih false _ n hv.2 hl)
      | false => simp only [loop] at hl; exact more (ih false _ n hv.2 hl)
    | option a t =>
      cases skip with
      | true => simp only [loop] at hl; exact more (ih false _ n hv.2 hl)
      | false =>
        cases t with
        | none => simp only [loop] at hl; exact more (ih false _ n hv.2 hl)
        | some t =>
          rw [loop] at hl
          cases hc : consume p t (following ts) with
          | error m =>
            rw [hc] at hl
            simp only at hl
            cases hl
            exact .inl (consume_error hc)
          | ok f =>
            rw [hc] at hl
            simp only at hl
            cases ht : takeActions u p s f.acts with
            | error m =>
              rw [ht] at hl
              simp only at hl
              cases hl
              rcases perform_error hp hv.1 hc ht with h | ⟨h1, h2⟩
              · exact .inl h
              · exact .inr ⟨h1, a, .head _, h2⟩
            | ok s1 =>
              rw [ht] at hl
              simp only at hl
              exact more (ih _ _ n hv.2 hl)

end Verif.Args
