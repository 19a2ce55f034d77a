import Verif.Args.Converse

/-!
# C103: a command line means what it says, and nothing else is accepted
-/

namespace Verif.Args

open Verif.Py Verif.Args.Spec

/-! ### What is written properly is understood -/

/-- Options used properly, one behind the other, in any order and as often as one likes, at most one of those that exclude each other, and every
required one: the command line is accepted, and every option has the value it was given last, or its default. -/
theorem C103_understood (u : Beyond) {p : Parser} (hp : Sensible p) (ms : List Usage) (h : ∀ m ∈ ms, m.Right u p)
    (hx : ∀ m ∈ ms, ∀ m' ∈ ms, m.opt.exclusive = true → m'.opt.exclusive = true → m.opt = m'.opt)
    (hr : ∀ o ∈ p, o.required = true → ∃ m ∈ ms, m.opt = o) :
    ∃ ns, parse u p (ms.flatMap fun m => m.use.args) = .ok ns ∧ ∀ o ∈ p, o.kind ≠ .help → ns.get? o.dest = some (lastValue o ms) := by
  obtain ⟨ts, ht, hl⟩ := tokens_uses u hp ms h hx
  have hl' := hl ⟨defaults p, [], []⟩ (by simp)
  refine ⟨(ms.foldl (fun s m => s.given m.opt m.value) ⟨defaults p, [], []⟩ : St).values, ?_, ?_⟩
  · unfold parse
    rw [ht]
    simp only
    rw [hl']
    simp only
    rw [if_neg, if_neg]
    · rw [extras_uses]; simp
    · intro hany
      rw [List.any_eq_true] at hany
      obtain ⟨o, ho, hb⟩ := hany
      simp only [Bool.and_eq_true, Bool.not_eq_true', List.contains_eq_mem, decide_eq_false_iff_not] at hb
      obtain ⟨m, hm, hmo⟩ := hr o ho hb.1
      exact hb.2 ((seen_uses ms _ _).2 (.inr ⟨m, hm, by rw [hmo]⟩))
  · intro o ho hk
    rw [values_uses hp ms (fun m hm => (h m hm).1) ho, get?_defaults hp.2.2.1 ho hk]
    unfold lastValue
    cases (ms.filter fun m => m.opt = o).getLast? <;> rfl

/-! ### What is accepted was written -/

/-- Whatever is accepted is a list of uses of options, one behind the other, no two of different options that exclude each other, every required
option among them; and every option has the value it was given last, or its default. -/
theorem C103_said (u : Beyond) {p : Parser} (hp : Sensible p) (argv : List Str) (ns : Dict String Value) (h : parse u p argv = .ok ns) :
    ∃ ms : List Usage, argv = ms.flatMap (fun m => m.use.args) ∧ (∀ m ∈ ms, m.Written u p) ∧
      (ms.Pairwise fun m m' => m.opt.exclusive = true → m'.opt.exclusive = true → m.opt = m'.opt) ∧
      (∀ o ∈ p, o.required = true → ∃ m ∈ ms, m.opt = o) ∧
      ∀ o ∈ p, o.kind ≠ .help → ns.get? o.dest = some (lastValue o ms) := by
  unfold parse at h
  cases ht : tokens u p argv with
  | none => rw [ht] at h; cases h
  | some ts =>
    rw [ht] at h
    simp only at h
    cases hl : loop u p false ⟨defaults p, [], []⟩ ts with
    | error n => rw [hl] at h; cases h
    | ok s =>
      rw [hl] at h
      simp only at h
      split at h
      · cases h
      · rename_i hreq
        split at h
        · cases h
        · rename_i hex
          have hex' : s.extras = [] := by by_contra hc; exact hex hc
          cases h
          obtain ⟨ms, h1, h2, h3, _, h5⟩ := loop_said hp ts.length ts _ s (Nat.le_refl _) (tokens_valid ht) hl hex'
          rw [tokens_raw ht] at h1
          refine ⟨ms, h1, h2, h5, ?_, ?_⟩
          · intro o ho hro
            by_contra hno
            apply hreq
            rw [List.any_eq_true]
            refine ⟨o, ho, ?_⟩
            rw [hro, Bool.true_and, Bool.not_eq_true', List.contains_eq_mem, decide_eq_false_iff_not, h3, seen_uses]
            rintro (hc | ⟨m, hm, hd⟩)
            · cases hc
            · exact hno ⟨m, hm, dest_unique hp.2.2.1 (h2 m hm).1 ho hd⟩
          · intro o ho hk
            rw [h3, values_uses hp ms (fun m hm => (h2 m hm).1) ho, get?_defaults hp.2.2.1 ho hk]
            unfold lastValue
            cases (ms.filter fun m => m.opt = o).getLast? <;> rfl

/-! ### Everything else -/

/-- A command line that is not accepted ends the program with exit status 2, or, when help is asked for, 0. -/
theorem C103_exit (u : Beyond) {p : Parser} (hp : Sensible p) (argv : List Str) (n : Nat) (h : parse u p argv = .error n) :
    n = 2 ∨ (n = 0 ∧ ∃ a ∈ argv, AsksHelp p a) := by
  unfold parse at h
  cases ht : tokens u p argv with
  | none => rw [ht] at h; cases h; exact .inl rfl
  | some ts =>
    rw [ht] at h
    simp only at h
    cases hl : loop u p false ⟨defaults p, [], []⟩ ts with
    | error m =>
      rw [hl] at h
      cases h
      have := loop_error hp ts false _ n (tokens_valid ht) hl
      rwa [tokens_raw ht] at this
    | ok s =>
      rw [hl] at h
      simp only at h
      split at h
      · cases h; exact .inl rfl
      · split at h
        · cases h; exact .inl rfl
        · cases h

theorem names_of_mem {p : Parser} {o : Opt} (ho : o ∈ p) {n : Str} (hn : n ∈ o.strings) : n ∈ optionNames p :=
  List.mem_flatMap.2 ⟨o, ho, hn⟩

/-- Nothing that is no option is accepted, wherever it stands. -/
theorem C103_unknown (u : Beyond) {p : Parser} (hp : Sensible p) (argv : List Str) (a : Str) (ha : a ∈ argv) (hu : Unknown p a) :
    ∃ n, parse u p argv = .error n := by
  cases hpa : parse u p argv with
  | error n => exact ⟨n, rfl⟩
  | ok ns =>
    exfalso
    obtain ⟨ms, rfl, hw, -, -, -⟩ := C103_said u hp argv ns hpa
    obtain ⟨m, hm, ham⟩ := List.mem_flatMap.1 ha
    obtain ⟨hb, ht, hn⟩ := hu
    obtain ⟨ho, hw⟩ := hw m hm
    have hshort : ∀ b o, o ∈ p → Short p b o → (a = b ∨ ∃ v, a = b ++ '=' :: v) → False := by
      intro b o ho ⟨_, n, hnm, hpre, _⟩ heq
      exact hn n (names_of_mem ho hnm) b (fun hc => (hp.1 o ho n hnm).2.2.2.1 (hpre.subset hc)) heq hpre
    cases hu : m.use with
    | flag b =>
      rw [hu] at ham hw
      simp only [Use.args, List.mem_singleton] at ham
      exact hshort b _ ho hw.1 (.inl ham)
    | value b v =>
      rw [hu] at ham hw
      simp only [Use.args, List.mem_cons, List.not_mem_nil, or_false] at ham
      rcases ham with ham | ham
      · exact hshort b _ ho hw.1 (.inl ham)
      · exact hb (ham ▸ hw.2.1)
    | joined b v =>
      rw [hu] at ham hw
      simp only [Use.args, List.mem_singleton] at ham
      exact hshort b _ ho hw.1 (.inr ⟨v, ham⟩)
    | attached n v =>
      rw [hu] at ham hw
      simp only [Use.args, List.mem_singleton] at ham
      apply ht
      rw [ham, ← hw.2.1, List.take_left]
      exact names_of_mem ho hw.1

/-- A name in a list of uses begins one of them, unless it may be a value. -/
theorem use_at {ms : List Usage} : ∀ {pre rest : List Str} {a : Str}, ms.flatMap (fun m => m.use.args) = pre ++ a :: rest →
    (∀ m ∈ ms, ∀ b, m.use ≠ .value b a) → ∃ m ∈ ms, ∃ more rest', m.use.args = a :: more ∧ rest = more ++ rest' := by
  induction ms with
  | nil => intro pre rest a h; cases pre <;> cases h
  | cons m ms ih =>
    intro pre rest a h hv
    rw [List.flatMap_cons] at h
    have hv' : ∀ m ∈ ms, ∀ b, m.use ≠ .value b a := fun m hm => hv m (.tail _ hm)
    have go : ∀ {pre' : List Str}, ms.flatMap (fun m => m.use.args) = pre' ++ a :: rest →
        ∃ m' ∈ m :: ms, ∃ more rest', m'.use.args = a :: more ∧ rest = more ++ rest' := by
      intro pre' h'
      obtain ⟨m', hm', x⟩ := ih h' hv'
      exact ⟨m', .tail _ hm', x⟩
    have one : ∀ b, m.use.args = [b] → ∃ m' ∈ m :: ms, ∃ more rest', m'.use.args = a :: more ∧ rest = more ++ rest' := by
      intro b hb
      rw [hb] at h
      cases pre with
      | nil =>
        simp only [List.singleton_append, List.nil_append, List.cons.injEq] at h
        exact ⟨m, .head _, [], rest, by rw [hb, h.1], rfl⟩
      | cons c pre =>
        simp only [List.singleton_append, List.cons_append, List.cons.injEq] at h
        exact go h.2
    cases hu : m.use with
    | flag b => exact one b (by rw [hu]; rfl)
    | joined b v => exact one _ (by rw [hu]; rfl)
    | attached b v => exact one _ (by rw [hu]; rfl)
    | value b v =>
      rw [hu] at h
      cases pre with
      | nil =>
        simp only [Use.args, List.cons_append, List.nil_append, List.cons.injEq] at h
        exact ⟨m, .head _, [v], _, by rw [hu, ← h.1]; rfl, h.2.symm⟩
      | cons c pre =>
        cases pre with
        | nil =>
          simp only [Use.args, List.cons_append, List.nil_append, List.cons.injEq] at h
          exact absurd (by rw [hu, h.2.1]) (hv m (.head _) b)
        | cons d pre =>
          simp only [Use.args, List.cons_append, List.nil_append, List.cons.injEq] at h
          exact go h.2.2

/-- What is behind the name of an option in a command line that is accepted. -/
theorem accepted_at (u : Beyond) {p : Parser} (hp : Sensible p) {pre rest : List Str} {a : Str} {o : Opt} (ho : o ∈ p) (ha : a ∈ o.strings)
    (hb : ' ' ∉ a) {ns : Dict String Value} (hpa : parse u p (pre ++ a :: rest) = .ok ns) :
    o.kind = .flag ∨ ∃ v x, rest.head? = some v ∧ Behind v ∧ Fits u o v x := by
  obtain ⟨ms, hms, hw, -, -, -⟩ := C103_said u hp _ ns hpa
  have hname := hp.1 o ho a ha
  have hnb : ¬ Behind a := by
    rintro (h | h | h | ⟨c, h1, h2⟩)
    · exact h hname.1
    · rw [h] at hname; exact absurd hname.2.1 (by decide)
    · exact hb h
    · have := hname.2.2.2.2 c h1
      rcases h2 with h2 | h2 | h2
      · rw [this.2.1] at h2; cases h2
      · exact this.2.2 h2
      · omega
  obtain ⟨m, hm, more, rest', hargs, hr⟩ := use_at hms.symm (fun m hm b hu => by
    have := (hw m hm).2
    rw [hu] at this
    exact hnb this.2.1)
  obtain ⟨hmo, hw⟩ := hw m hm
  have howner : ∀ {b : Str}, Short p b m.opt → b = a → m.opt = o := by
    rintro b ⟨_, n, hn, hpre, hsh⟩ rfl
    rcases hsh with rfl | hsh
    · exact owner_unique hp.2.1 hmo hn ho ha
    · have := hsh b (names_of_mem ho ha) (List.prefix_refl _)
      rw [← this] at hn
      exact owner_unique hp.2.1 hmo hn ho ha
  cases hu : m.use with
  | flag b =>
    rw [hu] at hargs hw
    simp only [Use.args, List.cons.injEq] at hargs
    rw [howner hw.1 hargs.1] at hw
    exact .inl hw.2.1
  | value b v =>
    rw [hu] at hargs hw
    simp only [Use.args, List.cons.injEq] at hargs
    rw [← hargs.2] at hr
    rw [howner hw.1 hargs.1] at hw
    exact .inr ⟨v, m.value, by rw [hr]; rfl, hw.2.1, hw.2.2⟩
  | joined b v =>
    rw [hu] at hargs
    simp only [Use.args, List.cons.injEq] at hargs
    exact absurd (by rw [← hargs.1]; simp) hname.2.2.2.1
  | attached n v =>
    rw [hu] at hargs hw
    simp only [Use.args, List.cons.injEq] at hargs
    exact absurd (hargs.1 ▸ names_of_mem ho ha) hw.2.2.1

/-- Nothing is made up: an option that takes a value and has nothing behind it, or something that cannot be a value or does not fit, is not
accepted. -/
theorem C103_value_missing (u : Beyond) {p : Parser} (hp : Sensible p) (pre rest : List Str) (a : Str) (o : Opt) (ho : o ∈ p) (ha : a ∈ o.strings)
    (hb : ' ' ∉ a) (hk : o.kind ≠ .flag) (hrest : ∀ v x, rest.head? = some v → Behind v → ¬ Fits u o v x) :
    ∃ n, parse u p (pre ++ a :: rest) = .error n := by
  cases hpa : parse u p (pre ++ a :: rest) with
  | error n => exact ⟨n, rfl⟩
  | ok ns =>
    rcases accepted_at u hp ho ha hb hpa with h | ⟨v, x, h1, h2, h3⟩
    · exact absurd h hk
    · exact absurd h3 (hrest v x h1 h2)

/-- Who asks for help does not start anything. -/
theorem C103_help (u : Beyond) {p : Parser} (hp : Sensible p) (argv : List Str) (a : Str) (o : Opt) (ho : o ∈ p) (hk : o.kind = .help)
    (ha : a ∈ o.strings) (hb : ' ' ∉ a) (h : a ∈ argv) : ∃ n, parse u p argv = .error n := by
  obtain ⟨pre, rest, rfl⟩ := List.append_of_mem h
  refine C103_value_missing u hp pre rest a o ho ha hb (by rw [hk]; decide) ?_
  rintro v x - - (⟨h, -⟩ | ⟨h, -⟩) <;> (rw [hk] at h; cases h)

/-- Help asked for in a command line that is right otherwise: exit status 0. -/
theorem C103_help_exit (u : Beyond) {p : Parser} (hp : Sensible p) (ms ms' : List Usage) (h : ∀ m ∈ ms, m.Right u p) (h' : ∀ m ∈ ms', m.Right u p)
    (hx : ∀ m ∈ ms, ∀ m' ∈ ms, m.opt.exclusive = true → m'.opt.exclusive = true → m.opt = m'.opt) (a : Str) (o : Opt) (ho : o ∈ p)
    (hk : o.kind = .help) (ha : Calls p a o) :
    parse u p ((ms.flatMap fun m => m.use.args) ++ a :: ms'.flatMap fun m => m.use.args) = .error 0 := by
  obtain ⟨ts, h1, h2⟩ := tokens_uses_then u hp ms h
  obtain ⟨ts', h3, -⟩ := tokens_uses_then u hp ms' h'
  have h3 := h3 []
  rw [List.append_nil] at h3
  have hne : a ≠ "--".toList := by
    rcases ha with hn | ⟨-, h, -⟩
    · exact (hp.1 _ ho a hn).2.2.1
    · exact h
  obtain ⟨n, hn, hcl⟩ := classify_calls u hp ho ha
  have htok : tokens u p (a :: ms'.flatMap fun m => m.use.args) = some (.option a (some ⟨o, n, none⟩) :: ts') := by
    rw [tokens, if_neg hne, hcl]
    simp only
    rw [h3]
    simp [tokens]
  unfold parse
  rw [h1, htok]
  simp only [Option.map_some]
  rw [h2 hx _ _ (by simp), loop]
  have hc : ∀ next, consume p ⟨o, n, none⟩ next = .ok ⟨[(o, [])], [], false⟩ := by
    intro next
    simp [consume, plain, Opt.takesValue, hk]
  rw [hc]
  simp [takeActions, takeAction, hk]

/-! ### The parsers of the code -/

theorem sensible_of {p : Parser} (h : (∀ o ∈ p, ∀ n ∈ o.strings, n.head? = some '-' ∧ 2 ≤ n.length ∧ n ≠ ['-', '-'] ∧ '=' ∉ n ∧
      (n[1]?).all (fun c => decide (c.toNat < 128 ∧ c.isDigit = false ∧ c ≠ '.')) = true) ∧
    (optionNames p).Nodup ∧ (p.map fun o => o.dest).Nodup ∧ (∀ o ∈ p, o.kind = .flag → ∀ n ∈ o.strings, n.length ≠ 2)) : Sensible p := by
  refine ⟨fun o ho n hn => ?_, h.2⟩
  obtain ⟨h1, h2, h3, h4, h5⟩ := h.1 o ho n hn
  refine ⟨h1, h2, h3, h4, fun c hc => ?_⟩
  rw [hc] at h5
  simpa using h5

/-- The parsers of applications and of the tools are of the kind the theorems here speak of. -/
theorem C103_parsers : Sensible application ∧ Sensible bem ∧ Sensible bsm ∧ Sensible stat ∧ Sensible log ∧ Sensible telemetry :=
  ⟨sensible_of (by decide +kernel), sensible_of (by decide +kernel), sensible_of (by decide +kernel), sensible_of (by decide +kernel),
    sensible_of (by decide +kernel), sensible_of (by decide +kernel)⟩

end Verif.Args
