import Verif.Args.Props
import Mathlib.Data.List.Dedup

/-!
# C103: the tools do what their command line says
-/

namespace Verif.Args

open Verif.Py Verif.Args.Spec Verif.Cli

/-- What is known of a use, whether it is written properly or was accepted. -/
def Valued (u : Beyond) (m : Usage) : Prop :=
  (m.opt.kind = .flag ∧ m.value = .flag true) ∨ ∃ v, Fits u m.opt v m.value

theorem valued_right {u : Beyond} {p : Parser} {m : Usage} (h : m.Right u p) : Valued u m := by
  obtain ⟨-, h⟩ := h
  cases hu : m.use with
  | flag a => rw [hu] at h; exact .inl h.2
  | value a v => rw [hu] at h; exact .inr ⟨v, h.2.2⟩
  | joined a v => rw [hu] at h; exact .inr ⟨v, h.2⟩
  | attached n v => rw [hu] at h; exact h.elim

theorem valued_written {u : Beyond} {p : Parser} {m : Usage} (h : m.Written u p) : Valued u m := by
  obtain ⟨-, h⟩ := h
  cases hu : m.use with
  | flag a => rw [hu] at h; exact .inl h.2
  | value a v => rw [hu] at h; exact .inr ⟨v, h.2.2⟩
  | joined a v => rw [hu] at h; exact .inr ⟨v, h.2⟩
  | attached n v => rw [hu] at h; exact .inr ⟨v, h.2.2.2⟩

theorem valued_text {u : Beyond} {m : Usage} (h : Valued u m) (hk : m.opt.kind = .text) :
    ∃ s, m.value = .text s ∧ ∀ cs, m.opt.choices = some cs → s ∈ cs := by
  rcases h with ⟨h, -⟩ | ⟨v, ⟨h, -⟩ | ⟨-, h2, h3⟩⟩
  · rw [hk] at h; cases h
  · rw [hk] at h; cases h
  · exact ⟨v, h2, h3⟩

theorem valued_flag {u : Beyond} {m : Usage} (h : Valued u m) (hk : m.opt.kind = .flag) : m.value = .flag true := by
  rcases h with ⟨-, h⟩ | ⟨v, ⟨h, -⟩ | ⟨h, -⟩⟩
  · exact h
  · rw [hk] at h; cases h
  · rw [hk] at h; cases h

theorem filter_dest {p : Parser} (hp : Sensible p) {ms : List Usage} (hm : ∀ m ∈ ms, m.opt ∈ p) {o : Opt} (ho : o ∈ p) :
    (ms.filter fun m => m.opt.dest = o.dest) = ms.filter fun m => m.opt = o := by
  apply List.filter_congr
  intro m hmm
  have : m.opt.dest = o.dest ↔ m.opt = o := ⟨fun h => dest_unique hp.2.2.1 (hm m hmm) ho h, fun h => by rw [h]⟩
  simp [this]

theorem getLast?_used {ms : List Usage} {o : Opt} (h : ∃ m ∈ ms, m.opt = o) : ∃ m ∈ ms, m.opt = o ∧ (ms.filter fun m => m.opt = o).getLast? = some m := by
  obtain ⟨m, hm, hmo⟩ := h
  cases hl : (ms.filter fun m => m.opt = o).getLast? with
  | none =>
    rw [List.getLast?_eq_none_iff] at hl
    have : m ∈ ms.filter fun m => m.opt = o := List.mem_filter.2 ⟨hm, by simpa using hmo⟩
    rw [hl] at this
    cases this
  | some m' =>
    have := List.mem_filter.1 (List.mem_of_getLast? hl)
    exact ⟨m', this.1, by simpa using this.2, rfl⟩

theorem getLast?_unused {ms : List Usage} {o : Opt} (h : ¬ ∃ m ∈ ms, m.opt = o) : (ms.filter fun m => m.opt = o).getLast? = none := by
  rw [List.getLast?_eq_none_iff, List.filter_eq_nil_iff]
  intro m hm hc
  exact h ⟨m, hm, by simpa using hc⟩

/-- A required text. -/
theorem required_text {u : Beyond} {p : Parser} (hp : Sensible p) {ms : List Usage} (hm : ∀ m ∈ ms, m.opt ∈ p) (hv : ∀ m ∈ ms, Valued u m)
    {o : Opt} (ho : o ∈ p) (hk : o.kind = .text) (hr : ∃ m ∈ ms, m.opt = o) {ns : Dict String Value} (hn : ns.get? o.dest = some (lastValue o ms)) :
    ∃ s, lastOf o.dest ms = some (.text s) ∧ textOf ns o.dest = s ∧ ∀ cs, o.choices = some cs → s ∈ cs := by
  obtain ⟨m, hmm, hmo, hl⟩ := getLast?_used hr
  obtain ⟨s, hs, hc⟩ := valued_text (hv m hmm) (by rw [hmo]; exact hk)
  refine ⟨s, ?_, ?_, ?_⟩
  · unfold lastOf; rw [filter_dest hp hm ho, hl]; simp [hs]
  · unfold textOf; rw [hn]; unfold lastValue; rw [hl]; simp [hs]
  · rw [← hmo]; exact hc

/-- A text that need not be given. -/
theorem optional_text {u : Beyond} {p : Parser} (hp : Sensible p) {ms : List Usage} (hm : ∀ m ∈ ms, m.opt ∈ p) (hv : ∀ m ∈ ms, Valued u m)
    {o : Opt} (ho : o ∈ p) (hk : o.kind = .text) {ns : Dict String Value} (hn : ns.get? o.dest = some (lastValue o ms)) :
    (∃ s, lastOf o.dest ms = some (.text s) ∧ ns.get? o.dest = some (.text s) ∧ ∀ cs, o.choices = some cs → s ∈ cs) ∨
    (lastOf o.dest ms = none ∧ ns.get? o.dest = some o.default) := by
  by_cases hr : ∃ m ∈ ms, m.opt = o
  · obtain ⟨m, hmm, hmo, hl⟩ := getLast?_used hr
    obtain ⟨s, hs, hc⟩ := valued_text (hv m hmm) (by rw [hmo]; exact hk)
    refine .inl ⟨s, ?_, ?_, ?_⟩
    · unfold lastOf; rw [filter_dest hp hm ho, hl]; simp [hs]
    · rw [hn]; unfold lastValue; rw [hl]; simp [hs]
    · rw [← hmo]; exact hc
  · refine .inr ⟨?_, ?_⟩
    · unfold lastOf; rw [filter_dest hp hm ho, getLast?_unused hr]; rfl
    · rw [hn]; unfold lastValue; rw [getLast?_unused hr]

theorem dedup_one {l : List String} (h : ∀ a ∈ l, ∀ b ∈ l, a = b) : l.dedup.length ≤ 1 := by
  have hn := List.nodup_dedup l
  have hs : ∀ a ∈ l.dedup, a ∈ l := fun a ha => List.mem_dedup.1 ha
  cases hd : l.dedup with
  | nil => simp
  | cons a t =>
    cases t with
    | nil => simp
    | cons b t =>
      rw [hd] at hn hs
      have := h a (hs a (.head _)) b (hs b (.tail _ (.head _)))
      subst this
      simp at hn

/-- The options of the tools for queues. -/
structure QueueParser (p : Parser) (group : List String) : Prop where
  sensible : Sensible p
  type : ∃ o ∈ p, o.dest = "server_type" ∧ o.kind = .text ∧ o.required = true ∧ o.choices = some ["tcp".toList, "udp".toList, "uds".toList]
  details : ∃ o ∈ p, o.dest = "server_details" ∧ o.kind = .text ∧ o.required = true
  route : ∃ o ∈ p, o.dest = "route_key" ∧ o.kind = .text ∧ o.required = true
  span : ∃ o ∈ p, o.dest = "span_key" ∧ o.kind = .text ∧ o.default = .none
  flags : ∀ o ∈ p, o.kind = .flag → o.dest ∈ group ∧ o.exclusive = true ∧ o.default = .flag false
  group : ∀ d ∈ group, ∃ o ∈ p, o.dest = d ∧ o.kind = .flag

theorem bem_queue : QueueParser bem endpointGroup where
  sensible := C103_parsers.2.1
  type := by decide +kernel
  details := by decide +kernel
  route := by decide +kernel
  span := by decide +kernel
  flags := by decide +kernel
  group := by decide +kernel

theorem bsm_queue : QueueParser bsm senderGroup where
  sensible := C103_parsers.2.2.1
  type := by decide +kernel
  details := by decide +kernel
  route := by decide +kernel
  span := by decide +kernel
  flags := by decide +kernel
  group := by decide +kernel

theorem queue_means {u : Beyond} {p : Parser} {group : List String} (hq : QueueParser p group) (action : Namespace → Run Request) {argv : List Str}
    {ns : Dict String Value} {ms : List Usage} (hpa : parse u p argv = .ok ns) (hm : ∀ m ∈ ms, m.opt ∈ p) (hv : ∀ m ∈ ms, Valued u m)
    (hx : ∀ m ∈ ms, ∀ m' ∈ ms, m.opt.exclusive = true → m'.opt.exclusive = true → m.opt = m'.opt)
    (hr : ∀ o ∈ p, o.required = true → ∃ m ∈ ms, m.opt = o)
    (hns : ∀ o ∈ p, o.kind ≠ .help → ns.get? o.dest = some (lastValue o ms)) :
    ∃ t, Means ms t ∧ queueTool u p group action argv = tool group action t := by
  have hp := hq.sensible
  obtain ⟨o1, ho1, hd1, hk1, hr1, hc1⟩ := hq.type
  obtain ⟨o2, ho2, hd2, hk2, hr2⟩ := hq.details
  obtain ⟨o3, ho3, hd3, hk3, hr3⟩ := hq.route
  obtain ⟨o4, ho4, hd4, hk4, hf4⟩ := hq.span
  obtain ⟨s1, ha1, hb1, hcs⟩ := required_text hp hm hv ho1 hk1 (hr o1 ho1 hr1) (hns o1 ho1 (by rw [hk1]; decide))
  obtain ⟨s2, ha2, hb2, -⟩ := required_text hp hm hv ho2 hk2 (hr o2 ho2 hr2) (hns o2 ho2 (by rw [hk2]; decide))
  obtain ⟨s3, ha3, hb3, -⟩ := required_text hp hm hv ho3 hk3 (hr o3 ho3 hr3) (hns o3 ho3 (by rw [hk3]; decide))
  have hcs := hcs _ hc1
  rw [hd1] at ha1 hb1
  rw [hd2] at ha2 hb2
  rw [hd3] at ha3 hb3
  have h4 : ∀ k, textOf? ns "span_key" = some k ↔ lastOf "span_key" ms = some (.text k) := by
    intro k
    rcases optional_text hp hm hv ho4 hk4 (hns o4 ho4 (by rw [hk4]; decide)) with ⟨s, h1, h2, -⟩ | ⟨h1, h2⟩
    · rw [hd4] at h1 h2; unfold textOf?; rw [h1, h2]; simp
    · rw [hd4] at h1 h2; unfold textOf?; rw [h1, h2, hf4]; simp
  have hflag : ∀ d ∈ group, ns.get? d = some (.flag true) ↔ d ∈ flagsOf ms := by
    intro d hd
    obtain ⟨o, ho, hod, hok⟩ := hq.group d hd
    rw [← hod, hns o ho (by rw [hok]; decide), Option.some.injEq]
    unfold flagsOf
    rw [List.mem_map]
    by_cases hr : ∃ m ∈ ms, m.opt = o
    · obtain ⟨m, hmm, hmo, hl⟩ := getLast?_used hr
      refine ⟨fun _ => ⟨m, List.mem_filter.2 ⟨hmm, by rw [hmo]; simpa using hok⟩, by rw [hmo]⟩, fun _ => ?_⟩
      unfold lastValue
      rw [hl]
      exact valued_flag (hv m hmm) (by rw [hmo]; exact hok)
    · refine ⟨fun h => ?_, fun ⟨m, hmm, hmo⟩ => ?_⟩
      · unfold lastValue at h
        rw [getLast?_unused hr] at h
        simp only at h
        rw [(hq.flags o ho hok).2.2] at h
        cases h
      · have hmm := (List.mem_filter.1 hmm).1
        exact absurd ⟨m, hmm, dest_unique hp.2.2.1 (hm m hmm) ho hmo⟩ hr
  have hin : ∀ d ∈ flagsOf ms, d ∈ group := by
    intro d hd
    obtain ⟨m, hmm, rfl⟩ := List.mem_map.1 hd
    have := List.mem_filter.1 hmm
    exact (hq.flags m.opt (hm m this.1) (by simpa using this.2)).1
  have hone : ∀ a ∈ flagsOf ms, ∀ b ∈ flagsOf ms, a = b := by
    intro a ha b hb
    obtain ⟨m, hmm, rfl⟩ := List.mem_map.1 ha
    obtain ⟨m', hmm', rfl⟩ := List.mem_map.1 hb
    have h1 := List.mem_filter.1 hmm
    have h2 := List.mem_filter.1 hmm'
    rw [hx m h1.1 m' h2.1 (hq.flags m.opt (hm m h1.1) (by simpa using h1.2)).2.1 (hq.flags m'.opt (hm m' h2.1) (by simpa using h2.2)).2.1]
  refine ⟨⟨String.ofList s1, s2, s3, textOf? ns "span_key", flagsOf ms⟩, ⟨by simpa using ha1, ha2, ha3, h4, rfl⟩, ?_⟩
  unfold queueTool tool
  rw [hpa]
  have hparse : Cli.parse group ⟨String.ofList s1, s2, s3, textOf? ns "span_key", flagsOf ms⟩ = some (queueNamespace group ns) := by
    unfold Cli.parse queueNamespace
    rw [if_neg, if_neg, if_neg, hb1, hb2, hb3]
    · congr 2
      apply List.map_congr_left
      intro d hd
      simp [hflag d hd]
    · have := dedup_one hone; simp only; omega
    · intro h
      rw [List.any_eq_true] at h
      obtain ⟨d, hd, hn⟩ := h
      have hn : d ∉ group := by simpa using hn
      exact hn (hin d hd)
    · intro h
      apply h
      simp only [List.mem_cons, List.not_mem_nil, or_false] at hcs
      rcases hcs with rfl | rfl | rfl <;> simp
  rw [hparse]
  rfl

theorem pairwise_all {ms : List Usage} (h : ms.Pairwise fun m m' => m.opt.exclusive = true → m'.opt.exclusive = true → m.opt = m'.opt) :
    ∀ m ∈ ms, ∀ m' ∈ ms, m.opt.exclusive = true → m'.opt.exclusive = true → m.opt = m'.opt := by
  induction ms with
  | nil => intro m hm; cases hm
  | cons a ms ih =>
    obtain ⟨h1, h2⟩ := List.pairwise_cons.1 h
    intro m hm m' hm' he he'
    rcases List.mem_cons.1 hm with e | hi <;> rcases List.mem_cons.1 hm' with e' | hi'
    · rw [e, e']
    · rw [e] at he ⊢; exact h1 m' hi' he he'
    · rw [e'] at he' ⊢; exact (h1 m hi he' he).symm
    · exact ih h2 m hi m' hi' he he'

/-- Every run of a tool for queues is one of what is typed, or ends with exit status 2, or with 0 because help was asked for. -/
theorem queue_said (u : Beyond) {p : Parser} {group : List String} (hq : QueueParser p group) (action : Namespace → Run Request) (argv : List Str) :
    (∃ ms t, argv = ms.flatMap (fun m => m.use.args) ∧ (∀ m ∈ ms, m.Written u p) ∧ Means ms t ∧ queueTool u p group action argv = tool group action t) ∨
    queueTool u p group action argv = .exit 2 ∨ (queueTool u p group action argv = .exit 0 ∧ ∃ a ∈ argv, AsksHelp p a) := by
  cases hpa : parse u p argv with
  | error n =>
    have : queueTool u p group action argv = .exit n := by unfold queueTool; rw [hpa]
    rw [this]
    rcases C103_exit u hq.sensible argv n hpa with rfl | ⟨rfl, h⟩
    · exact .inr (.inl rfl)
    · exact .inr (.inr ⟨rfl, h⟩)
  | ok ns =>
    obtain ⟨ms, h1, h2, h3, h4, h5⟩ := C103_said u hq.sensible argv ns hpa
    obtain ⟨t, ht, he⟩ := queue_means hq action hpa (fun m hm => (h2 m hm).1) (fun m hm => valued_written (h2 m hm)) (pairwise_all h3) h4 h5
    exact .inl ⟨ms, t, h1, h2, ht, he⟩

/-- The tool for buffered endpoints does what its command line says, or nothing: it ends with exit status 2, or with 0 because help was asked for. -/
theorem C103_bem (u : Beyond) (argv : List Str) :
    (∃ ms t, argv = ms.flatMap (fun m => m.use.args) ∧ (∀ m ∈ ms, m.Written u bem) ∧ Means ms t ∧ bemMain u argv = Cli.bem t) ∨
    bemMain u argv = .exit 2 ∨ (bemMain u argv = .exit 0 ∧ ∃ a ∈ argv, AsksHelp bem a) :=
  queue_said u bem_queue endpointAction argv

/-- The same for the tool for buffered senders. -/
theorem C103_bsm (u : Beyond) (argv : List Str) :
    (∃ ms t, argv = ms.flatMap (fun m => m.use.args) ∧ (∀ m ∈ ms, m.Written u bsm) ∧ Means ms t ∧ bsmMain u argv = Cli.bsm t) ∨
    bsmMain u argv = .exit 2 ∨ (bsmMain u argv = .exit 0 ∧ ∃ a ∈ argv, AsksHelp bsm a) :=
  queue_said u bsm_queue senderAction argv

/-- Whatever is written properly reaches the tool: uses of the options in any order, at most one action, server and queue named. -/
theorem C103_bem_understood (u : Beyond) (ms : List Usage) (h : ∀ m ∈ ms, m.Right u bem)
    (hx : ∀ m ∈ ms, ∀ m' ∈ ms, m.opt.kind = .flag → m'.opt.kind = .flag → m.opt = m'.opt)
    (hr : ∀ d ∈ ["server_type", "server_details", "route_key"], ∃ m ∈ ms, m.opt.dest = d) :
    ∃ t, Means ms t ∧ bemMain u (ms.flatMap fun m => m.use.args) = Cli.bem t := by
  have hx' : ∀ m ∈ ms, ∀ m' ∈ ms, m.opt.exclusive = true → m'.opt.exclusive = true → m.opt = m'.opt := by
    have hex : ∀ o ∈ bem, o.exclusive = true → o.kind = .flag := by decide +kernel
    exact fun m hm m' hm' h1 h2 => hx m hm m' hm' (hex _ (h m hm).1 h1) (hex _ (h m' hm').1 h2)
  have hr' : ∀ o ∈ bem, o.required = true → ∃ m ∈ ms, m.opt = o := by
    intro o ho hro
    have : ∀ o ∈ bem, o.required = true → o.dest ∈ ["server_type", "server_details", "route_key"] := by decide +kernel
    obtain ⟨m, hm, hd⟩ := hr _ (this o ho hro)
    exact ⟨m, hm, dest_unique bem_queue.sensible.2.2.1 (h m hm).1 ho hd⟩
  obtain ⟨ns, hpa, hns⟩ := C103_understood u bem_queue.sensible ms h hx' hr'
  exact queue_means bem_queue endpointAction hpa (fun m hm => (h m hm).1) (fun m hm => valued_right (h m hm)) hx' hr' hns

/-- The same for the tool for buffered senders. -/
theorem C103_bsm_understood (u : Beyond) (ms : List Usage) (h : ∀ m ∈ ms, m.Right u bsm)
    (hx : ∀ m ∈ ms, ∀ m' ∈ ms, m.opt.kind = .flag → m'.opt.kind = .flag → m.opt = m'.opt)
    (hr : ∀ d ∈ ["server_type", "server_details", "route_key"], ∃ m ∈ ms, m.opt.dest = d) :
    ∃ t, Means ms t ∧ bsmMain u (ms.flatMap fun m => m.use.args) = Cli.bsm t := by
  have hx' : ∀ m ∈ ms, ∀ m' ∈ ms, m.opt.exclusive = true → m'.opt.exclusive = true → m.opt = m'.opt := by
    have hex : ∀ o ∈ bsm, o.exclusive = true → o.kind = .flag := by decide +kernel
    exact fun m hm m' hm' h1 h2 => hx m hm m' hm' (hex _ (h m hm).1 h1) (hex _ (h m' hm').1 h2)
  have hr' : ∀ o ∈ bsm, o.required = true → ∃ m ∈ ms, m.opt = o := by
    intro o ho hro
    have : ∀ o ∈ bsm, o.required = true → o.dest ∈ ["server_type", "server_details", "route_key"] := by decide +kernel
    obtain ⟨m, hm, hd⟩ := hr _ (this o ho hro)
    exact ⟨m, hm, dest_unique bsm_queue.sensible.2.2.1 (h m hm).1 ho hd⟩
  obtain ⟨ns, hpa, hns⟩ := C103_understood u bsm_queue.sensible ms h hx' hr'
  exact queue_means bsm_queue senderAction hpa (fun m hm => (h m hm).1) (fun m hm => valued_right (h m hm)) hx' hr' hns

/-- What the tool for statistics does. -/
theorem C103_stat (u : Beyond) (argv : List Str) :
    (∃ ms t, argv = ms.flatMap (fun m => m.use.args) ∧ (∀ m ∈ ms, m.Written u stat) ∧ StatMeans ms t ∧ statMain u argv = Cli.stat t) ∨
    statMain u argv = .exit 2 ∨ (statMain u argv = .exit 0 ∧ ∃ a ∈ argv, AsksHelp stat a) := by
  have hp : Sensible stat := C103_parsers.2.2.2.1
  cases hpa : parse u stat argv with
  | error n =>
    have : statMain u argv = .exit n := by unfold statMain; rw [hpa]
    rw [this]
    rcases C103_exit u hp argv n hpa with rfl | ⟨rfl, h⟩
    · exact .inr (.inl rfl)
    · exact .inr (.inr ⟨rfl, h⟩)
  | ok ns =>
    obtain ⟨ms, h1, h2, h3, h4, h5⟩ := C103_said u hp argv ns hpa
    have hm : ∀ m ∈ ms, m.opt ∈ stat := fun m hm => (h2 m hm).1
    have hv : ∀ m ∈ ms, Valued u m := fun m hm => valued_written (h2 m hm)
    obtain ⟨o1, ho1, hd1, hk1, hr1, hc1⟩ : ∃ o ∈ stat, o.dest = "server_type" ∧ o.kind = .text ∧ o.required = true ∧
      o.choices = some ["tcp".toList, "udp".toList, "uds".toList] := by decide +kernel
    obtain ⟨o2, ho2, hd2, hk2, hr2⟩ : ∃ o ∈ stat, o.dest = "server_details" ∧ o.kind = .text ∧ o.required = true := by decide +kernel
    obtain ⟨o3, ho3, hd3, hk3, hf3, hc3⟩ : ∃ o ∈ stat, o.dest = "type" ∧ o.kind = .text ∧ o.default = .text "current".toList ∧
      o.choices = some ["current".toList, "gathered".toList, "full".toList] := by decide +kernel
    obtain ⟨s1, ha1, hb1, hcs⟩ := required_text hp hm hv ho1 hk1 (h4 o1 ho1 hr1) (h5 o1 ho1 (by rw [hk1]; decide))
    obtain ⟨s2, ha2, hb2, -⟩ := required_text hp hm hv ho2 hk2 (h4 o2 ho2 hr2) (h5 o2 ho2 (by rw [hk2]; decide))
    have hcs := hcs _ hc1
    have hs1 : String.ofList s1 ∈ ["tcp", "udp", "uds"] := by
      simp only [List.mem_cons, List.not_mem_nil, or_false] at hcs
      rcases hcs with rfl | rfl | rfl <;> decide +kernel
    rw [hd1] at ha1 hb1
    rw [hd2] at ha2 hb2
    refine .inl ⟨ms, ?_⟩
    rcases optional_text hp hm hv ho3 hk3 (h5 o3 ho3 (by rw [hk3]; decide)) with ⟨s, hl, hn, hc⟩ | ⟨hl, hn⟩
    · rw [hd3] at hl hn
      have hc := hc _ hc3
      have hs : String.ofList s ∈ ["current", "gathered", "full"] := by
        simp only [List.mem_cons, List.not_mem_nil, or_false] at hc
        rcases hc with rfl | rfl | rfl <;> decide +kernel
      refine ⟨⟨String.ofList s1, s2, some (String.ofList s)⟩, h1, h2, ⟨by simpa using ha1, ha2, ?_⟩, ?_⟩
      · intro y
        rw [hl]
        simp only [Option.some.injEq, Value.text.injEq]
        exact ⟨fun h => by rw [← h]; simp, fun h => by rw [h]; simp⟩
      · unfold statMain Cli.stat
        rw [hpa]
        simp only [Option.getD_some, hs1, hs, not_true_eq_false, if_false, hb1, hb2]
        have : textOf ns "type" = s := by unfold textOf; rw [hn]
        rw [this]
        rfl
    · rw [hd3] at hl hn
      refine ⟨⟨String.ofList s1, s2, none⟩, h1, h2, ⟨by simpa using ha1, ha2, ?_⟩, ?_⟩
      · intro y; rw [hl]; simp
      · unfold statMain Cli.stat
        rw [hpa]
        have : String.ofList (textOf ns "type") = "current" := by unfold textOf; rw [hn, hf3]; decide +kernel
        simp only [Option.getD_none, hs1, not_true_eq_false, if_false, hb1, hb2, this]
        rw [if_neg (by decide)]
        rfl

/-- What the tool for logging does; `u.int` is what Python's `int` is for ASCII. -/
theorem C103_log (u : Beyond) (hu : ∀ s i, u.int s = some i → Str.toInt s = .ok i) (argv : List Str) :
    (∃ ms t, argv = ms.flatMap (fun m => m.use.args) ∧ (∀ m ∈ ms, m.Written u log) ∧ LogMeans ms t ∧ logMain u argv = Cli.logTool t) ∨
    logMain u argv = .exit 2 ∨ (logMain u argv = .exit 0 ∧ ∃ a ∈ argv, AsksHelp log a) := by
  have hp : Sensible log := C103_parsers.2.2.2.2.1
  cases hpa : parse u log argv with
  | error n =>
    have : logMain u argv = .exit n := by unfold logMain; rw [hpa]
    rw [this]
    rcases C103_exit u hp argv n hpa with rfl | ⟨rfl, h⟩
    · exact .inr (.inl rfl)
    · exact .inr (.inr ⟨rfl, h⟩)
  | ok ns =>
    obtain ⟨ms, h1, h2, h3, h4, h5⟩ := C103_said u hp argv ns hpa
    have hm : ∀ m ∈ ms, m.opt ∈ log := fun m hm => (h2 m hm).1
    have hv : ∀ m ∈ ms, Valued u m := fun m hm => valued_written (h2 m hm)
    obtain ⟨o1, ho1, hd1, hk1, hr1, hc1⟩ : ∃ o ∈ log, o.dest = "server_type" ∧ o.kind = .text ∧ o.required = true ∧
      o.choices = some ["tcp".toList, "udp".toList, "uds".toList] := by decide +kernel
    obtain ⟨o2, ho2, hd2, hk2, hr2⟩ : ∃ o ∈ log, o.dest = "server_details" ∧ o.kind = .text ∧ o.required = true := by decide +kernel
    obtain ⟨o3, ho3, hd3, hk3, hf3, hc3⟩ : ∃ o ∈ log, o.dest = "level" ∧ o.kind = .text ∧ o.default = .none ∧
      o.choices = some ["debug".toList, "info".toList, "warn".toList, "error".toList, "critical".toList] := by decide +kernel
    obtain ⟨o4, ho4, hd4, hk4, hf4⟩ : ∃ o ∈ log, o.dest = "buff_size" ∧ o.kind = .int ∧ o.default = .none := by decide +kernel
    obtain ⟨s1, ha1, hb1, hcs⟩ := required_text hp hm hv ho1 hk1 (h4 o1 ho1 hr1) (h5 o1 ho1 (by rw [hk1]; decide))
    obtain ⟨s2, ha2, hb2, -⟩ := required_text hp hm hv ho2 hk2 (h4 o2 ho2 hr2) (h5 o2 ho2 (by rw [hk2]; decide))
    have hcs := hcs _ hc1
    have hs1 : String.ofList s1 ∈ ["tcp", "udp", "uds"] := by
      simp only [List.mem_cons, List.not_mem_nil, or_false] at hcs
      rcases hcs with rfl | rfl | rfl <;> decide +kernel
    rw [hd1] at ha1 hb1
    rw [hd2] at ha2 hb2
    obtain ⟨level, hlevel, hlv, hlc⟩ : ∃ level : Option String, (∀ y, level = some y ↔ lastOf "level" ms = some (.text y.toList)) ∧
        (textOf? ns "level").toList.map (fun l => LogRequest.level (String.ofList l)) = level.toList.map LogRequest.level ∧
        level.any (· ∉ levelChoices) = false := by
      rcases optional_text hp hm hv ho3 hk3 (h5 o3 ho3 (by rw [hk3]; decide)) with ⟨s, hl, hn, hc⟩ | ⟨hl, hn⟩
      · rw [hd3] at hl hn
        have hc := hc _ hc3
        refine ⟨some (String.ofList s), ?_, ?_, ?_⟩
        · intro y
          rw [hl]
          simp only [Option.some.injEq, Value.text.injEq]
          exact ⟨fun h => by rw [← h]; simp, fun h => by rw [h]; simp⟩
        · unfold textOf?; rw [hn]; rfl
        · simp only [List.mem_cons, List.not_mem_nil, or_false] at hc
          rcases hc with rfl | rfl | rfl | rfl | rfl <;> decide +kernel
      · rw [hd3] at hl hn
        refine ⟨none, ?_, ?_, rfl⟩
        · intro y; rw [hl]; simp
        · unfold textOf?; rw [hn, hf3]; rfl
    obtain ⟨buffer, hbuffer, hbv⟩ : ∃ buffer : Option Str, ((buffer = none ∧ lastOf "buff_size" ms = none) ∨
        ∃ b i, buffer = some b ∧ Str.toInt b = .ok i ∧ lastOf "buff_size" ms = some (.int i)) ∧
        bufferOption buffer = some (intOf? ns "buff_size") := by
      have hn := h5 o4 ho4 (by rw [hk4]; decide)
      rw [hd4] at hn
      by_cases hr : ∃ m ∈ ms, m.opt = o4
      · obtain ⟨m, hmm, hmo, hl⟩ := getLast?_used hr
        have hlast : lastOf "buff_size" ms = some m.value := by rw [← hd4]; unfold lastOf; rw [filter_dest hp hm ho4, hl]; rfl
        have hlv : lastValue o4 ms = m.value := by unfold lastValue; rw [hl]
        rcases hv m hmm with ⟨hk, -⟩ | ⟨v, ⟨-, i, hi, hx⟩ | ⟨hk, -⟩⟩
        · rw [hmo, hk4] at hk; cases hk
        · refine ⟨some v, .inr ⟨v, i, rfl, hu v i hi, by rw [hlast, hx]⟩, ?_⟩
          unfold bufferOption intOf?
          simp only [hu v i hi]
          rw [hn, hlv, hx]
        · rw [hmo, hk4] at hk; cases hk
      · refine ⟨none, .inl ⟨rfl, ?_⟩, ?_⟩
        · rw [← hd4]; unfold lastOf; rw [filter_dest hp hm ho4, getLast?_unused hr]; rfl
        · unfold intOf?
          rw [hn]
          unfold lastValue
          rw [getLast?_unused hr]
          simp only
          rw [hf4]
          rfl
    refine .inl ⟨ms, ⟨String.ofList s1, s2, level, buffer⟩, h1, h2, ⟨by simpa using ha1, ha2, hlevel, hbuffer⟩, ?_⟩
    unfold logMain logTool
    rw [hpa]
    simp only [hs1, not_true_eq_false, if_false, hb1, hb2, hbv, hlc, hlv]
    cases getClient (String.ofList s1) s2 with
    | error e => rfl
    | ok c => cases level <;> cases intOf? ns "buff_size" <;> rfl

/-! ### A case -/

/-- `tcp localhost:8888`, the queue "-odd" and `--clear`, written in different ways. -/
def exUses : List Usage :=
  [⟨.value "-st".toList "tcp".toList, { option "st" "server_type" .text with required := true, choices := some ["tcp".toList, "udp".toList, "uds".toList] }, .text "tcp".toList⟩,
    ⟨.joined "--server_d".toList "localhost:8888".toList, { option "sd" "server_details" .text with required := true }, .text "localhost:8888".toList⟩,
    ⟨.joined "-rk".toList "-odd".toList, { option "rk" "route_key" .text with required := true }, .text "-odd".toList⟩,
    ⟨.flag "--cl".toList, action "clr" "clear", .flag true⟩]

theorem exUses_right (u : Beyond) : ∀ m ∈ exUses, m.Right u bem := by
  intro m hm
  simp only [exUses, List.mem_cons, List.not_mem_nil, or_false] at hm
  rcases hm with rfl | rfl | rfl | rfl
  · exact ⟨by decide +kernel, .inl (by decide +kernel), .inl (by decide +kernel), .inr ⟨rfl, rfl, by decide +kernel⟩⟩
  · refine ⟨by decide +kernel, .inr ⟨.inr ?_, by decide +kernel⟩, .inr ⟨rfl, rfl, by intro cs h; cases h⟩⟩
    exact ⟨by decide +kernel, by decide +kernel, by decide +kernel, by decide +kernel, "--server_details".toList, by decide +kernel,
      by decide +kernel, by decide +kernel⟩
  · exact ⟨by decide +kernel, .inl (by decide +kernel), .inr ⟨rfl, rfl, by intro cs h; cases h⟩⟩
  · refine ⟨by decide +kernel, .inr ?_, rfl, rfl⟩
    exact ⟨by decide +kernel, by decide +kernel, by decide +kernel, by decide +kernel, "--clear".toList, by decide +kernel,
      by decide +kernel, by decide +kernel⟩

/-- The case meets the hypotheses of `C103_bem_understood`; it reaches the server as the request to delete all errors of the queue "-odd". -/
example (u : Beyond) : ∃ t, Means exUses t ∧ bemMain u (exUses.flatMap fun m => m.use.args) = Cli.bem t ∧
    Cli.bem t = .sent (.tcp "localhost".toList 8888, ⟨"eco.buffered_handler.errors.clear", "-odd".toList, none⟩) := by
  obtain ⟨t, ht, h⟩ := C103_bem_understood u exUses (exUses_right u) (by decide +kernel) (by decide +kernel)
  refine ⟨t, ht, h, ?_⟩
  rw [← h]
  rfl

/-- The hypotheses of `C103_said`, and the three ends of `C103_exit`. -/
example (u : Beyond) : ∃ ns, parse u application (["-i", "0", "-lco", "-ctest.json"].map String.toList) = .ok ns ∧
    ns.get? "config_file" = some (.text "test.json".toList) ∧ ns.get? "log_console_only" = some (.flag true) := ⟨_, rfl, rfl, rfl⟩
example (u : Beyond) : parse u application (["-i", "0", "-lco", "-lfo"].map String.toList) = .error 2 := rfl
example (u : Beyond) : parse u application (["-i", "0", "--he"].map String.toList) = .error 0 := rfl
example (u : Beyond) : parse u application ["-lco".toList] = .error 2 := rfl

/-! ### The options themselves -/

/-- The options of the tools for queues as documentation/command_line_tool.md and the help texts have them: names, whether it takes a value, and
whether it is required, and whether it is one of those of which at most one may be given. An option's value is found under its long name. -/
theorem C103_options :
    (bem.map fun o => (o.strings.map String.ofList, o.kind, o.required, o.exclusive)) =
      [(["-h", "--help"], .help, false, false), (["-st", "--server_type"], .text, true, false), (["-sd", "--server_details"], .text, true, false),
        (["-rk", "--route_key"], .text, true, false), (["-pr", "--pause_receiving"], .flag, false, true), (["-pp", "--pause_processing"], .flag, false, true),
        (["-ur", "--unpause_receiving"], .flag, false, true), (["-up", "--unpause_processing"], .flag, false, true), (["-pa", "--pause_all"], .flag, false, true),
        (["-ua", "--unpause_all"], .flag, false, true), (["-e10", "--error_10"], .flag, false, true), (["-rp1", "--reprocess_one"], .flag, false, true),
        (["-rpa", "--reprocess_all"], .flag, false, true), (["-ins", "--inspect_request"], .flag, false, true), (["-pop", "--pop_request"], .flag, false, true),
        (["-clr", "--clear"], .flag, false, true), (["-sk", "--span_key"], .text, false, false)] ∧
    (bsm.map fun o => (o.strings.map String.ofList, o.kind, o.required, o.exclusive)) =
      [(["-h", "--help"], .help, false, false), (["-st", "--server_type"], .text, true, false), (["-sd", "--server_details"], .text, true, false),
        (["-rk", "--route_key"], .text, true, false), (["-ps", "--pause_sending"], .flag, false, true), (["-us", "--unpause_sending"], .flag, false, true),
        (["-e10", "--error_10"], .flag, false, true), (["-rp1", "--reprocess_one"], .flag, false, true), (["-rpa", "--reprocess_all"], .flag, false, true),
        (["-ins", "--inspect_request"], .flag, false, true), (["-pop", "--pop_request"], .flag, false, true), (["-clr", "--clear"], .flag, false, true),
        (["-sk", "--span_key"], .text, false, false)] ∧
    (stat.map fun o => (o.strings.map String.ofList, o.kind, o.required, o.exclusive)) =
      [(["-h", "--help"], .help, false, false), (["-st", "--server_type"], .text, true, false), (["-sd", "--server_details"], .text, true, false),
        (["-type", "--type"], .text, false, false)] ∧
    (log.map fun o => (o.strings.map String.ofList, o.kind, o.required, o.exclusive)) =
      [(["-h", "--help"], .help, false, false), (["-st", "--server_type"], .text, true, false), (["-sd", "--server_details"], .text, true, false),
        (["-l", "--level"], .text, false, false), (["-b", "--buff_size"], .int, false, false)] ∧
    (application.map fun o => (o.strings.map String.ofList, o.kind, o.required, o.exclusive)) =
      [(["-h", "--help"], .help, false, false), (["-i", "--instance"], .text, true, false), (["-c", "--config_file"], .text, false, false),
        (["-lco", "--log_console_only"], .flag, false, true), (["-lfo", "--log_file_only"], .flag, false, true)] ∧
    (telemetry.map fun o => (o.strings.map String.ofList, o.kind, o.required, o.exclusive)) =
      [(["-h", "--help"], .help, false, false), (["-st", "--server_type"], .text, true, false), (["-sd", "--server_details"], .text, true, false),
        (["-ifu", "--influx_url"], .text, true, false), (["-ifo", "--influx_org"], .text, true, false), (["-ifb", "--influx_bucket"], .text, true, false),
        (["-ift", "--influx_token"], .text, true, false)] ∧
    ∀ o ∈ bem ++ bsm ++ stat ++ log ++ application ++ telemetry, o.strings.getLast? = some ("--" ++ o.dest).toList := by
  refine ⟨?_, ?_, ?_, ?_, ?_, ?_, ?_⟩ <;> decide +kernel

/-! ### What is not so -/

/-- An option that is not among the documented ones may be accepted: "-c" is short for "-clr" alone, and deletes all errors of the queue. -/
theorem C103_abbreviated_refuted (u : Beyond) :
    "-c".toList ∉ optionNames bem ∧
    bemMain u (["-st", "tcp", "-sd", "127.0.0.1:8888", "-rk", "dice_roller.roll_times", "-c"].map String.toList) =
      .sent (.tcp "127.0.0.1".toList 8888, ⟨"eco.buffered_handler.errors.clear", "dice_roller.roll_times".toList, none⟩) :=
  ⟨by decide +kernel, rfl⟩

theorem rid_unknown (p : Parser) (hn : ∀ n ∈ optionNames p, ¬ "-rid".toList <+: n) (ht : "-r".toList ∉ optionNames p) : Unknown p "-rid".toList := by
  refine ⟨?_, ht, ?_⟩
  · rintro (h | h | h | ⟨c, h1, h2⟩)
    · exact h rfl
    · exact absurd h (by decide +kernel)
    · exact absurd h (by decide +kernel)
    · have : c = 'r' := by
        have h1 : some 'r' = some c := h1
        exact (Option.some.inj h1).symm
      subst this
      exact absurd h2 (by decide +kernel)
  · rintro n hn' b - (rfl | ⟨v, hv⟩)
    · exact hn n hn'
    · have : '=' ∈ "-rid".toList := by rw [hv]; simp
      exact absurd this (by decide +kernel)

/-- The documentation has the entry to be moved, deleted or inspected named with "-rid". No such command does anything, whatever else it says. -/
theorem C103_rid_refuted (u : Beyond) (argv : List Str) (h : "-rid".toList ∈ argv) :
    (∃ n, bemMain u argv = .exit n) ∧ ∃ n, bsmMain u argv = .exit n := by
  constructor
  · obtain ⟨n, hn⟩ := C103_unknown u bem_queue.sensible argv _ h (rid_unknown bem (by decide +kernel) (by decide +kernel))
    exact ⟨n, by unfold bemMain queueTool; rw [hn]⟩
  · obtain ⟨n, hn⟩ := C103_unknown u bsm_queue.sensible argv _ h (rid_unknown bsm (by decide +kernel) (by decide +kernel))
    exact ⟨n, by unfold bsmMain queueTool; rw [hn]⟩

/-- The command of the documentation. -/
example (u : Beyond) : bemMain u (["-st", "tcp", "-sd", "127.0.0.1:8888", "-rk", "dice_roller.roll_times", "-rp1", "-rid",
    "0a0b0c0d-0a0b-4c0d-8a0b-0a0b0c0d0e0f"].map String.toList) = .exit 2 := rfl

/-- An option followed by its value is not always given it: a value that begins with a dash (and is no number) is refused, though the option takes
any text, and takes this one behind "=". -/
theorem C103_dash_value_refuted (u : Beyond) (pre rest : List Str) (v : Str) (hv : ¬ Behind v) (a : Str) (ha : a ∈ ["-rk".toList, "--route_key".toList]) :
    (∃ n, bemMain u (pre ++ a :: v :: rest) = .exit n) ∧
    ∃ t, t.routeKey = v ∧ bemMain u (["-st".toList, "uds".toList, "-sd".toList, "s".toList] ++ [a ++ '=' :: v]) = Cli.bem t := by
  constructor
  · obtain ⟨o, ho, hos, hok⟩ : ∃ o ∈ bem, o.strings = ["-rk".toList, "--route_key".toList] ∧ o.kind = .text := by decide +kernel
    have hb : ' ' ∉ a := by
      simp only [List.mem_cons, List.not_mem_nil, or_false] at ha
      rcases ha with rfl | rfl <;> decide +kernel
    obtain ⟨n, hn⟩ := C103_value_missing u bem_queue.sensible pre (v :: rest) a o ho (hos ▸ ha) hb (by rw [hok]; decide)
      (by intro w x hw hbw; cases hw; exact absurd hbw hv)
    exact ⟨n, by unfold bemMain queueTool; rw [hn]⟩
  · obtain ⟨t, ⟨-, -, ht, -⟩, h⟩ := C103_bem_understood u
      [⟨.value "-st".toList "uds".toList, { option "st" "server_type" .text with required := true, choices := some ["tcp".toList, "udp".toList, "uds".toList] }, .text "uds".toList⟩,
        ⟨.value "-sd".toList "s".toList, { option "sd" "server_details" .text with required := true }, .text "s".toList⟩,
        ⟨.joined a v, { option "rk" "route_key" .text with required := true }, .text v⟩] (by
      intro m hm
      simp only [List.mem_cons, List.not_mem_nil, or_false] at hm
      rcases hm with rfl | rfl | rfl
      · exact ⟨by decide +kernel, .inl (by decide +kernel), .inl (by decide +kernel), .inr ⟨rfl, rfl, by decide +kernel⟩⟩
      · exact ⟨by decide +kernel, .inl (by decide +kernel), .inl (by decide +kernel), .inr ⟨rfl, rfl, by intro cs h; cases h⟩⟩
      · have : ({ option "rk" "route_key" .text with required := true } : Opt) ∈ bem := by decide +kernel
        exact ⟨this, .inl ha, .inr ⟨rfl, rfl, by intro cs h; cases h⟩⟩) (by
      intro m hm m' hm' hk
      simp only [List.mem_cons, List.not_mem_nil, or_false] at hm
      rcases hm with rfl | rfl | rfl <;> cases hk) (by
      intro d hd
      simp only [List.mem_cons, List.not_mem_nil, or_false] at hd
      rcases hd with rfl | rfl | rfl
      · exact ⟨_, .head _, rfl⟩
      · exact ⟨_, .tail _ (.head _), rfl⟩
      · exact ⟨_, .tail _ (.tail _ (.head _)), rfl⟩)
    refine ⟨t, ?_, h⟩
    have : lastOf "route_key" [(⟨.value "-st".toList "uds".toList, { option "st" "server_type" .text with required := true, choices := some ["tcp".toList, "udp".toList, "uds".toList] }, .text "uds".toList⟩ : Usage),
        ⟨.value "-sd".toList "s".toList, { option "sd" "server_details" .text with required := true }, .text "s".toList⟩,
        ⟨.joined a v, { option "rk" "route_key" .text with required := true }, .text v⟩] = some (.text v) := rfl
    rw [this] at ht
    cases ht
    rfl

example : ¬ Behind "-odd".toList := by
  rintro (h | h | h | ⟨c, h1, h2⟩)
  · exact h rfl
  · exact absurd h (by decide +kernel)
  · exact absurd h (by decide +kernel)
  · have h1 : some 'o' = some c := h1
    cases h1
    exact absurd h2 (by decide +kernel)

/-- Help: `C103_help`, and a value missing: `C103_value_missing`. -/
example (u : Beyond) : (∃ n, parse u bem (["-pa", "-h", "-sk", "x"].map String.toList) = .error n) ∧
    ∃ n, parse u application ([] ++ "-i".toList :: ["-lco".toList]) = .error n :=
  ⟨C103_help u bem_queue.sensible _ "-h".toList help (by decide +kernel) rfl (by decide +kernel) (by decide +kernel) (by decide +kernel),
    C103_value_missing u C103_parsers.1 [] _ "-i".toList { option "i" "instance" .text with required := true } (by decide +kernel) (by decide +kernel)
      (by decide +kernel) (by decide +kernel) (by
        intro v x hv hb
        cases hv
        exfalso
        rcases hb with h | h | h | ⟨c, h1, h2⟩
        · exact h rfl
        · exact absurd h (by decide +kernel)
        · exact absurd h (by decide +kernel)
        · have h1 : some 'l' = some c := h1
          cases h1
          exact absurd h2 (by decide +kernel))⟩

/-- The case of above with `--he` behind it meets the hypotheses of `C103_help_exit`. -/
example (u : Beyond) : parse u bem ((exUses.flatMap fun m => m.use.args) ++ "--he".toList :: (exUses.flatMap fun m => m.use.args)) = .error 0 :=
  C103_help_exit u bem_queue.sensible exUses exUses (exUses_right u) (exUses_right u) (by decide +kernel) "--he".toList help (by decide +kernel) rfl
    (.inr ⟨by decide +kernel, by decide +kernel, by decide +kernel, by decide +kernel, "--help".toList, by decide +kernel, by decide +kernel,
      by decide +kernel⟩)

/-- Python's `int`, for ASCII. -/
def exU : Beyond := ⟨fun _ => false, fun s => match Str.toInt s with | .ok i => some i | .error _ => none⟩

theorem exU_int : ∀ s i, exU.int s = some i → Str.toInt s = .ok i := by
  intro s i h
  simp only [exU] at h
  split at h
  · rename_i j hj; cases h; exact hj
  · cases h

example : logMain exU (["-st", "uds", "-sd", "/tmp/x", "-l", "warn", "-b", "-1"].map String.toList) =
    .sent (.uds "/tmp/x".toList, [.level "warn", .buffer (-1)]) := by decide +kernel

example (u : Beyond) : statMain u (["-st", "uds", "-sd", "/tmp/x", "-t", "full"].map String.toList) = .sent (.uds "/tmp/x".toList, "full") := rfl

end Verif.Args
