import Verif.Config.Lemmas

/-! C51, C52, C62, C64, C65: configuration. -/

namespace Verif.Config

open Verif.Py Verif.Config.Spec

/-! ### C51 -/

/-- **C51.** The value of a setting is that of the first variable set among the instance level, application level and machine
level ones, and the default if none of them is set; a variable set to nothing counts as not set. -/
theorem C51_precedence (env : Env) (self : Self) (setting : Str) (d v : Val) :
    First env (names self.app self.inst setting) d v ↔ v = getEcoEnv env self setting d := by
  have h := first_get env self setting d (First.none (env := env) d)
  rw [List.append_nil] at h
  exact ⟨fun hv => first_unique hv h, fun hv => hv ▸ h⟩

/-- **C51, instance level only settings.** Only the instance level variable counts. -/
theorem C51_instance_only (env : Env) (self : Self) (setting : Str) (d v : Val) :
    First env [(names self.app self.inst setting).head (by simp [names])] d v ↔ v = getInstanceEnv env self setting d := by
  have h : First env [instName self setting] d (getInstanceEnv env self setting d) := by
    unfold getInstanceEnv getEcoEnv
    cases h1 : nonEmpty (env.get? (instName self setting)) with
    | some v => exact .here _ _ _ _ ((set_iff _ _ _).1 h1).1 ((set_iff _ _ _).1 h1).2
    | none => exact .later _ _ _ _ ((unset_iff _ _).2 h1) (.none _)
  simp only [names_eq, List.head_cons]
  exact ⟨fun hv => first_unique hv h, fun hv => hv ▸ h⟩

/-- **C51, every setting.** What the configuration read from the environment shows, setting by setting. The directories for logs
and locks fall back to the default directory, which is looked for at the same three levels. -/
theorem C51_fields (isDir : Str → Bool) (env : Env) (self : Self) (c : InstanceConfig) (h : fromEnv isDir env self = .ok c) :
    let of := fun s : String => names self.app self.inst s.toList
    First env (of "LOCK_DIR" ++ of "DEFAULT_DIR") (.text "/tmp".toList) c.lockDirectory ∧
    First env (of "LOG_DIR" ++ of "DEFAULT_DIR") (.text "/tmp".toList) c.logging.directory ∧
    First env (of "LOG_LEVEL") (.text "info".toList) c.logging.level ∧
    First env (of "BUFFER_DIR") .none c.bufferDirectory ∧
    (∃ v, First env (of "LOG_BUF_SIZE") (.int 0) v ∧ toInt v = .ok c.logging.bufferSize) ∧
    (∃ v, First env (of "LOG_MAX_SIZE") (.int 10485760) v ∧ toInt v = .ok c.logging.maxSize) ∧
    (∃ v, First env (of "LOG_MAX_FILES") (.int 10) v ∧ toInt v = .ok c.logging.maxFiles) ∧
    (∃ v, First env (of "STAT_GP") (.int 300) v ∧ toInt v = .ok c.stats.gatherPeriod) ∧
    (∃ v, First env (of "STAT_HL") (.int 12) v ∧ toInt v = .ok c.stats.historyLength) := by
  intro of
  have two : ∀ (s : Str) (d : Val),
      First env (names self.app self.inst s ++ of "DEFAULT_DIR") d (getEcoEnv env self s (getEcoEnv env self "DEFAULT_DIR".toList d)) := by
    intro s d
    exact first_get env self s _ ((C51_precedence env self _ d _).2 rfl)
  unfold fromEnv at h
  cases h1 : statGatherPeriod env self with
  | error e => rw [h1] at h; cases h
  | ok gp =>
  cases h2 : statHistoryLength env self with
  | error e => rw [h1, h2] at h; cases h
  | ok hl =>
  cases h3 : logBufferSize env self with
  | error e => rw [h1, h2, h3] at h; cases h
  | ok bs =>
  cases h4 : logMaxSize env self with
  | error e => rw [h1, h2, h3, h4] at h; cases h
  | ok ms =>
  cases h5 : logMaxFiles env self with
  | error e => rw [h1, h2, h3, h4, h5] at h; cases h
  | ok mf =>
  cases h6 : hostPortOf env self "TCP".toList with
  | error e => rw [h1, h2, h3, h4, h5, h6] at h; cases h
  | ok tcp =>
  cases h7 : hostPortOf env self "UDP".toList with
  | error e => rw [h1, h2, h3, h4, h5, h6, h7] at h; cases h
  | ok udp =>
  rw [h1, h2, h3, h4, h5, h6, h7] at h
  cases h
  refine ⟨two _ _, two _ _, (C51_precedence ..).2 rfl, (C51_precedence ..).2 rfl, ⟨_, (C51_precedence ..).2 rfl, h3⟩,
    ⟨_, (C51_precedence ..).2 rfl, h4⟩, ⟨_, (C51_precedence ..).2 rfl, h5⟩, ⟨_, (C51_precedence ..).2 rfl, h1⟩,
    ⟨_, (C51_precedence ..).2 rfl, h2⟩⟩

/-- **C51, start-up.** Reading the environment succeeds exactly if the five numbers are numbers and the two addresses can be
parsed. -/
theorem C51_success (isDir : Str → Bool) (env : Env) (self : Self) :
    (∃ c, fromEnv isDir env self = .ok c) ↔
      (∀ s ∈ [("STAT_GP", 300), ("STAT_HL", 12), ("LOG_BUF_SIZE", 0), ("LOG_MAX_SIZE", 10485760), ("LOG_MAX_FILES", (10 : Int))],
        ∃ i, toInt (getEcoEnv env self s.1.toList (.int s.2)) = .ok i) ∧
      ∀ s ∈ ["TCP", "UDP"], ∀ v, getInstanceEnv env self s.toList .none = .text v → ∃ r, parseHostPort v = .ok r := by
  have hp : ∀ s : Str, (∀ v, getInstanceEnv env self s .none = .text v → ∃ r, parseHostPort v = .ok r) ↔
      ∃ r, hostPortOf env self s = .ok r := by
    intro s
    unfold hostPortOf
    split
    · next v hv => constructor
                   · intro h; exact h v hv
                   · intro h w hw; rw [hv] at hw; cases hw; exact h
    · next hv => constructor
                 · intro _; exact ⟨_, rfl⟩
                 · intro _ w hw; exact absurd hw (hv w)
  simp only [List.forall_mem_cons, List.not_mem_nil, false_imp_iff, implies_true, and_true, hp]
  unfold fromEnv
  change _ ↔ ((∃ i, statGatherPeriod env self = .ok i) ∧ (∃ i, statHistoryLength env self = .ok i) ∧
    (∃ i, logBufferSize env self = .ok i) ∧ (∃ i, logMaxSize env self = .ok i) ∧ (∃ i, logMaxFiles env self = .ok i)) ∧
    (∃ r, hostPortOf env self "TCP".toList = .ok r) ∧ (∃ r, hostPortOf env self "UDP".toList = .ok r)
  cases statGatherPeriod env self with
  | error e => exact ⟨(by rintro ⟨c, hc⟩; cases hc), by rintro ⟨⟨⟨c, hc⟩, _⟩, _⟩; cases hc⟩
  | ok gp =>
  cases statHistoryLength env self with
  | error e => exact ⟨(by rintro ⟨c, hc⟩; cases hc), by rintro ⟨⟨_, ⟨c, hc⟩, _⟩, _⟩; cases hc⟩
  | ok hl =>
  cases logBufferSize env self with
  | error e => exact ⟨(by rintro ⟨c, hc⟩; cases hc), by rintro ⟨⟨_, _, ⟨c, hc⟩, _⟩, _⟩; cases hc⟩
  | ok bs =>
  cases logMaxSize env self with
  | error e => exact ⟨(by rintro ⟨c, hc⟩; cases hc), by rintro ⟨⟨_, _, _, ⟨c, hc⟩, _⟩, _⟩; cases hc⟩
  | ok ms =>
  cases logMaxFiles env self with
  | error e => exact ⟨(by rintro ⟨c, hc⟩; cases hc), by rintro ⟨⟨_, _, _, _, ⟨c, hc⟩⟩, _⟩; cases hc⟩
  | ok mf =>
  cases hostPortOf env self "TCP".toList with
  | error e => exact ⟨(by rintro ⟨c, hc⟩; cases hc), by rintro ⟨_, ⟨c, hc⟩, _⟩; cases hc⟩
  | ok tcp =>
  cases hostPortOf env self "UDP".toList with
  | error e => exact ⟨(by rintro ⟨c, hc⟩; cases hc), by rintro ⟨_, _, ⟨c, hc⟩⟩; cases hc⟩
  | ok udp => exact ⟨fun _ => ⟨⟨⟨_, rfl⟩, ⟨_, rfl⟩, ⟨_, rfl⟩, ⟨_, rfl⟩, ⟨_, rfl⟩⟩, ⟨_, rfl⟩, ⟨_, rfl⟩⟩, fun _ => ⟨_, rfl⟩⟩

theorem get_unset {env : Env} {self : Self} {s : Str} {d : Val} {b : Bool}
    (h : ∀ n ∈ names self.app self.inst s, Unset env n) : getEcoEnv env self s d b = d := by
  rw [names_eq] at h
  simp only [List.forall_mem_cons, unset_iff] at h
  unfold getEcoEnv
  rw [h.1, h.2.1, h.2.2.1]
  cases b <;> rfl

/-- **C51, defaults.** Without any `ECOENV` variable start-up succeeds and the documented defaults apply. -/
theorem C51_defaults (isDir : Str → Bool) (env : Env) (self : Self) (h : ∀ k ∈ Dict.keys env, ¬ "ECOENV_".toList <+: k) :
    fromEnv isDir env self = .ok
      { stats := { gatherPeriod := 300, historyLength := 12 }
        logging := { directory := .text "/tmp".toList, bufferSize := 0, maxSize := 10485760, maxFiles := 10,
                     level := .text "info".toList }
        lockDirectory := .text "/tmp".toList, tcp := none, udp := none, uds := none, bufferDirectory := .none, extra := [] } := by
  have hg : ∀ (s : Str) (d : Val) (b : Bool), getEcoEnv env self s d b = d := by
    intro s d b
    refine get_unset fun n hn => .inl ?_
    rw [Dict.get?_eq_none_iff]
    intro hk
    refine h n hk ?_
    simp only [names, List.mem_cons, List.not_mem_nil, or_false] at hn
    rcases hn with rfl | rfl | rfl
    · exact ⟨_, by simp only [List.append_assoc]; rfl⟩
    · exact ⟨_, by simp only [List.append_assoc]; rfl⟩
    · exact ⟨_, rfl⟩
  have hloop : ∀ (keep : Str → Bool) (p : Str), (∀ k, keep k = true → "ECOENV_".toList <+: k) →
      ∀ (l acc : Dict Str Str), (∀ k ∈ Dict.keys l, ¬ "ECOENV_".toList <+: k) → extraLoop keep p l acc = acc := by
    intro keep p hk l
    induction l with
    | nil => intro acc _; rfl
    | cons kv rest ih =>
      intro acc hl
      obtain ⟨k, v⟩ := kv
      simp only [Dict.keys, List.map_cons, List.forall_mem_cons] at hl
      have hf : keep k ≠ true := fun hc => hl.1 (hk k hc)
      rw [extraLoop, if_neg hf]
      exact ih _ hl.2
  have hm : "ECOENV_".toList <+: machinePrefix := by rw [machinePrefix_eq]; exact List.isPrefixOf_iff_prefix.1 (by decide +kernel)
  have ha : "ECOENV_".toList <+: appPrefix self := hm.trans (by rw [appPrefix, List.append_assoc]; exact List.prefix_append _ _)
  have hi : "ECOENV_".toList <+: instPrefix self := ha.trans (by rw [instPrefix, List.append_assoc]; exact List.prefix_append _ _)
  have hextra : extra env self = [] := by
    unfold extra
    simp only
    rw [hloop _ machinePrefix (by intro k hk; simp at hk; exact hm.trans hk.1) _ _ h,
      hloop _ (appPrefix self) (by intro k hk; simp at hk; exact ha.trans hk.1) _ _ h,
      hloop _ (instPrefix self) (by intro k hk; exact hi.trans (List.isPrefixOf_iff_prefix.1 hk)) _ _ h]
  unfold fromEnv statGatherPeriod statHistoryLength logBufferSize logMaxSize logMaxFiles logDirectory logLevel lockDirectory
    bufferDirectory defaultDir udsOf hostPortOf getInstanceEnv
  simp only [hg, hextra, toInt]
  rfl

theorem settings_incomparable : ∀ p ∈ settings, ∀ q ∈ settings, p ≠ q → p.isPrefixOf q = false := by
  decide +kernel

/-- **C51, settings do not mix.** No variable of one documented setting is a variable of another, whatever the applications and
instances are called; nor is it an extra setting. -/
theorem C51_separate (self self' : Self) (p q : Str) (hp : p ∈ settings) (hq : q ∈ settings) (hne : p ≠ q) :
    (∀ n ∈ names self.app self.inst p, n ∉ names self'.app self'.inst q) ∧
    ∀ n ∈ names self.app self.inst p, ¬ "ECOENV_EXTRA_".toList <+: n := by
  have shape : ∀ (s : Self) (r : Str), ∀ n ∈ names s.app s.inst r, ∃ t, n = "ECOENV_".toList ++ (r ++ t) := by
    intro s r n hn
    simp only [names, List.mem_cons, List.not_mem_nil, or_false] at hn
    rcases hn with rfl | rfl | rfl
    · exact ⟨_, by simp only [List.append_assoc]; rfl⟩
    · exact ⟨_, by simp only [List.append_assoc]; rfl⟩
    · exact ⟨[], by simp only [List.append_nil]⟩
  constructor
  · intro n hn hn'
    obtain ⟨t, rfl⟩ := shape _ _ _ hn
    obtain ⟨t', ht'⟩ := shape _ _ _ hn'
    rw [List.append_cancel_left_eq] at ht'
    rcases comparable ht' with h | h
    · have := settings_incomparable p hp q hq hne
      rw [List.isPrefixOf_iff_prefix.2 h] at this; cases this
    · have := settings_incomparable q hq p hp (Ne.symm hne)
      rw [List.isPrefixOf_iff_prefix.2 h] at this; cases this
  · intro n hn hx
    obtain ⟨t, rfl⟩ := shape _ _ _ hn
    have hx' : "ECOENV_".toList ++ "EXTRA_".toList <+: "ECOENV_".toList ++ (p ++ t) := hx
    rw [List.prefix_append_right_inj] at hx'
    obtain ⟨u, hu⟩ := hx'
    have hs : ∀ p ∈ settings, p.isPrefixOf "EXTRA_".toList = false ∧ "EXTRA_".toList.isPrefixOf p = false := by decide +kernel
    rcases comparable hu with h | h
    · have := (hs p hp).2; rw [List.isPrefixOf_iff_prefix.2 h] at this; cases this
    · have := (hs p hp).1; rw [List.isPrefixOf_iff_prefix.2 h] at this; cases this

/-- **C51, isolation, partial.** The instance level variables of two application instances are different ones if the instance
ids contain no underscore and the application name or the instance id differs in more than case. Missing: ids with underscores,
see `C51_isolated_refuted`. -/
theorem C51_isolated_partial (self self' : Self) (setting : Str)
    (h : Str.upper self.app ≠ Str.upper self'.app ∨ Str.upper self.inst ≠ Str.upper self'.inst)
    (hu : '_' ∉ Str.upper self.inst) (hu' : '_' ∉ Str.upper self'.inst) :
    instName self setting ≠ instName self' setting := by
  intro he
  unfold instName at he
  obtain ⟨h1, h2⟩ := split_last hu hu' he
  unfold appName at h1
  rw [List.append_cancel_left_eq] at h1
  simp only [List.cons.injEq, true_and] at h1
  rcases h with h | h
  · exact h h1
  · exact h h2

/-- **C51, isolation, refuted.** Two different instances of two different applications share their instance level variables, so
in every environment both are told to listen on the same addresses. -/
theorem C51_isolated_refuted :
    ∃ self self' : Self, self.app ≠ self'.app ∧ self.inst ≠ self'.inst ∧
      ∀ (env : Env) (setting : Str), hostPortOf env self setting = hostPortOf env self' setting := by
  refine ⟨⟨"orders".toList, "worker_1".toList⟩, ⟨"orders_worker".toList, "1".toList⟩, by decide, by decide, ?_⟩
  intro env setting
  have h : instName ⟨"orders".toList, "worker_1".toList⟩ setting = instName ⟨"orders_worker".toList, "1".toList⟩ setting := by
    have hu : '_' :: Str.upper "orders".toList ++ '_' :: Str.upper "worker_1".toList =
        '_' :: Str.upper "orders_worker".toList ++ '_' :: Str.upper "1".toList := by decide +kernel
    unfold instName appName
    rw [List.append_assoc, List.append_assoc, hu]
  have hg : getInstanceEnv env ⟨"orders".toList, "worker_1".toList⟩ setting .none =
      getInstanceEnv env ⟨"orders_worker".toList, "1".toList⟩ setting .none := by
    unfold getInstanceEnv getEcoEnv
    rw [h]
    rfl
  unfold hostPortOf
  rw [hg]

/-- **C51, isolation, refuted.** An application level setting for one application overrides another application's own. -/
theorem C51_level_refuted :
    ∃ (env : Env) (self self' : Self), self.app ≠ self'.app ∧
      env.get? (appName self "LOG_DIR".toList) = some "/var/log/orders".toList ∧
      env.get? (appName self' "LOG_DIR".toList) = some "/var/log/other".toList ∧
      logDirectory env self = .text "/var/log/other".toList := by
  exact ⟨[("ECOENV_LOG_DIR_ORDERS".toList, "/var/log/orders".toList), ("ECOENV_LOG_DIR_ORDERS_MAIN".toList, "/var/log/other".toList)],
    ⟨"orders".toList, "main".toList⟩, ⟨"orders_main".toList, "0".toList⟩, by decide +kernel⟩

/-- **C51, addresses.** `HOST:PORT` is read as that host and that port. -/
theorem C51_host_port (host : Str) (port : Nat) (h : host ≠ []) (hc : ':' ∉ host) :
    parseHostPort (host ++ ':' :: Str.ofNat port) = .ok (some (host, port)) := by
  have hp : ':' ∉ Str.ofNat port := by
    intro hm
    exact absurd (Str.digit_ofNat port _ hm) (by decide)
  have hne : Str.ofNat port ≠ [] := Nat.toDigits_ne_nil
  have hi : Str.toInt (Str.ofNat port) = .ok port := by simpa using Str.toInt_ofNat port (t := []) (by simp)
  unfold parseHostPort
  rw [Str.split_append hc, Str.split_free hp]
  simp only [h, hne, if_false, hi]

/-- **C51, addresses.** An address with no colon or with a second one stops the application. -/
theorem C51_bad_address (s : Str) (h : s.count ':' ≠ 1) : parseHostPort s = .error .valueError := by
  have hl : ∀ t : Str, (Str.split ':' t).length = t.count ':' + 1 := by
    intro t
    induction t with
    | nil => rfl
    | cons x xs ih =>
      by_cases hx : x = ':'
      · subst hx; simp [Str.split, ih]
      · rw [Str.split, if_neg hx, List.count_cons_of_ne hx, ← ih]
        cases hs : Str.split ':' xs with
        | nil => rw [hs] at ih; simp at ih
        | cons w ws => simp
  have := hl s
  unfold parseHostPort
  split
  · next h2 => rw [h2] at this; simp at this; omega
  · rfl

/-- **C51, servers.** Which servers there are depends on the instance level variables alone: none if the variable is not set, and
otherwise the address it gives. -/
theorem C51_servers (isDir : Str → Bool) (env : Env) (self : Self) (c : InstanceConfig) (h : fromEnv isDir env self = .ok c) :
    let of := fun s : String => (names self.app self.inst s.toList).head (by simp [names])
    (Unset env (of "TCP") → c.tcp = none) ∧ (Unset env (of "UDP") → c.udp = none) ∧ (Unset env (of "UDS") → c.uds = none) ∧
    (∀ v, env.get? (of "TCP") = some v → v ≠ [] → parseHostPort v = .ok c.tcp) ∧
    (∀ v, env.get? (of "UDP") = some v → v ≠ [] → parseHostPort v = .ok c.udp) ∧
    (∀ dir name, env.get? (of "UDS") = some (dir ++ '/' :: name) → name ≠ [] → '/' ∉ name → (∃ d x, dir = d ++ [x] ∧ x ≠ '/') →
      isDir dir = true →
      c.uds = some (dir, if name = "DEFAULT".toList then self.app ++ '_' :: self.inst ++ ".uds.sock".toList else name)) := by
  intro of
  have hof : ∀ s, of s = instName self s.toList := by intro s; simp only [of, names_eq, List.head_cons]
  have hunset : ∀ s, Unset env (of s) → getInstanceEnv env self s.toList .none = .none := by
    intro s hs
    have := (C51_instance_only env self s.toList .none .none).1 (.later _ _ _ _ hs (.none _))
    exact this.symm
  have hset : ∀ s v, env.get? (of s) = some v → v ≠ [] → getInstanceEnv env self s.toList .none = .text v := by
    intro s v hv hne
    exact ((C51_instance_only env self s.toList .none (.text v)).1 (.here _ _ _ _ hv hne)).symm
  have hc : hostPortOf env self "TCP".toList = .ok c.tcp ∧ hostPortOf env self "UDP".toList = .ok c.udp ∧
      c.uds = udsOf isDir env self := by
    unfold fromEnv at h
    cases h1 : statGatherPeriod env self with
    | error e => rw [h1] at h; cases h
    | ok gp =>
    cases h2 : statHistoryLength env self with
    | error e => rw [h1, h2] at h; cases h
    | ok hl =>
    cases h3 : logBufferSize env self with
    | error e => rw [h1, h2, h3] at h; cases h
    | ok bs =>
    cases h4 : logMaxSize env self with
    | error e => rw [h1, h2, h3, h4] at h; cases h
    | ok ms =>
    cases h5 : logMaxFiles env self with
    | error e => rw [h1, h2, h3, h4, h5] at h; cases h
    | ok mf =>
    cases h6 : hostPortOf env self "TCP".toList with
    | error e => rw [h1, h2, h3, h4, h5, h6] at h; cases h
    | ok tcp =>
    cases h7 : hostPortOf env self "UDP".toList with
    | error e => rw [h1, h2, h3, h4, h5, h6, h7] at h; cases h
    | ok udp =>
    rw [h1, h2, h3, h4, h5, h6, h7] at h
    cases h
    exact ⟨rfl, rfl, rfl⟩
  obtain ⟨htcp, hudp, huds⟩ := hc
  refine ⟨?_, ?_, ?_, ?_, ?_, ?_⟩
  · intro hu; unfold hostPortOf at htcp; rw [hunset _ hu] at htcp; simp at htcp; exact htcp.symm
  · intro hu; unfold hostPortOf at hudp; rw [hunset _ hu] at hudp; simp at hudp; exact hudp.symm
  · intro hu; rw [huds]; unfold udsOf; rw [hunset _ hu]
  · intro v hv hne; unfold hostPortOf at htcp; rw [hset _ _ hv hne] at htcp; exact htcp
  · intro v hv hne; unfold hostPortOf at hudp; rw [hset _ _ hv hne] at hudp; exact hudp
  · rintro dir name hv hne hslash ⟨d, x, hd, hx⟩ hisdir
    have hb : basename (dir ++ '/' :: name) = name := by
      unfold basename Str.afterLast
      have : (dir ++ '/' :: name).reverse = name.reverse ++ '/' :: dir.reverse := by simp
      rw [this, List.takeWhile_append_of_pos (by intro y hy; simp at hy; simp; rintro rfl; exact hslash hy)]
      simp [List.takeWhile]
    have hup : Str.uptoLast '/' (dir ++ '/' :: name) = dir ++ ['/'] := by
      unfold Str.uptoLast
      have : (dir ++ '/' :: name).reverse = name.reverse ++ '/' :: dir.reverse := by simp
      rw [this, List.dropWhile_append_of_pos (by intro y hy; simp at hy; simp; rintro rfl; exact hslash hy)]
      simp [List.dropWhile]
    have hdir : dirname (dir ++ '/' :: name) = dir := by
      unfold dirname
      rw [hup, hd]
      simp [hx, List.dropWhile]
    have hdne : dir ≠ [] := by rw [hd]; simp
    rw [huds]
    unfold udsOf
    rw [hset "UDS" _ hv (by simp)]
    simp only [hb, hdir, hdne, hne, or_self, if_false, hisdir, Bool.true_eq_false, udsFileName]

/-- An environment in which every level occurs. -/
def exEnv : Env :=
  [("HOME".toList, "/root".toList), ("ECOENV_LOG_DIR".toList, "/var/log".toList),
   ("ECOENV_LOG_DIR_MY_COOL_APPLICATION".toList, "/var/log/cool".toList),
   ("ECOENV_LOG_DIR_MY_COOL_APPLICATION_FEEDS_CATS".toList, [] ),
   ("ECOENV_DEFAULT_DIR".toList, "/srv".toList), ("ECOENV_STAT_GP_MY_COOL_APPLICATION".toList, " 60 ".toList),
   ("ECOENV_TCP_MY_COOL_APPLICATION_FEEDS_CATS".toList, "127.0.0.1:8888".toList),
   ("ECOENV_UDS_MY_COOL_APPLICATION_FEEDS_CATS".toList, "/run/eco/DEFAULT".toList)]

def exSelf : Self := ⟨"my_cool_application".toList, "feeds_cats".toList⟩

example : (match fromEnv (fun _ => true) exEnv exSelf with
    | .ok c => decide (c.logging.directory = .text "/var/log/cool".toList ∧ c.lockDirectory = .text "/srv".toList ∧
        c.stats.gatherPeriod = 60 ∧ c.tcp = some ("127.0.0.1".toList, 8888) ∧
        c.uds = some ("/run/eco".toList, "my_cool_application_feeds_cats.uds.sock".toList))
    | .error _ => false) = true := by decide +kernel

/-! ### C52 -/

/-- **C52.** The extra setting a name shows: the instance level variable if there is one; otherwise the application level one,
unless the name itself begins with the instance id, for then that variable is the instance level variable of a shorter name;
otherwise the machine level one, likewise. Nothing else is shown. -/
theorem C52_precedence (env : Env) (hn : (Dict.keys env).Nodup) (self : Self) (name : Str) :
    let inst := env.get? (extraInst self.app self.inst name)
    let app := env.get? (extraApp self.app name)
    let machine := env.get? (extraMachine name)
    let shown := (extra env self).get? name
    let toApp := self.app.map Char.toUpper ++ ['_'] <+: name
    let toInst := self.inst.map Char.toUpper ++ ['_'] <+: name
    (∀ v, inst = some v → shown = some v) ∧
    (∀ v, inst = none → ¬ toInst → app = some v → shown = some v) ∧
    (∀ v, inst = none → (app = none ∨ toInst) → ¬ toApp → machine = some v → shown = some v) ∧
    (inst = none → (app = none ∨ toInst) → (machine = none ∨ toApp) → shown = none) := by
  intro inst app machine shown toApp toInst
  have h := extra_get env hn self name
  rw [← extraInst_eq, ← extraApp_eq, ← extraMachine_eq] at h
  have ht : toInst ↔ (Str.upper self.inst ++ ['_']).isPrefixOf name = true := List.isPrefixOf_iff_prefix.symm
  have ha : toApp ↔ (Str.upper self.app ++ ['_']).isPrefixOf name = true := List.isPrefixOf_iff_prefix.symm
  rw [ht, ha]
  change shown = inst.or ((if _ then none else app).or (if _ then none else machine)) at h
  rw [h]
  refine ⟨?_, ?_, ?_, ?_⟩
  · intro v hv; simp [hv]
  · intro v hi ht' hv; simp [hi, ht', hv]
  · intro v hi ht' ha' hm
    rcases ht' with ht' | ht' <;> simp [hi, ht', ha', hm]
  · intro hi ht' ha'
    rcases ht' with ht' | ht' <;> rcases ha' with ha' | ha' <;> simp [hi, ht', ha']

/-- **C52, other applications, partial.** Settings of another application change nothing except names that begin with that
application's name, if neither application name is the beginning of the other. Missing: such names, see `C52_others_refuted`. -/
theorem C52_others_partial (env env' : Env) (hn : (Dict.keys env).Nodup) (hn' : (Dict.keys env').Nodup) (self : Self)
    (other : Str)
    (h1 : ¬ self.app.map Char.toUpper ++ ['_'] <+: other.map Char.toUpper ++ ['_'])
    (h2 : ¬ other.map Char.toUpper ++ ['_'] <+: self.app.map Char.toUpper ++ ['_'])
    (heq : ∀ k, ¬ extraApp other [] <+: k → env.get? k = env'.get? k) (name : Str)
    (hname : ¬ other.map Char.toUpper ++ ['_'] <+: name) :
    (extra env self).get? name = (extra env' self).get? name := by
  have hpre : extraApp other [] = machinePrefix ++ (other.map Char.toUpper ++ ['_']) := by
    have := extraApp_eq ⟨other, []⟩ []
    rw [this]
    simp [appPrefix, Str.upper]
  have key : ∀ t : Str, ¬ other.map Char.toUpper ++ ['_'] <+: t → env.get? (machinePrefix ++ t) = env'.get? (machinePrefix ++ t) := by
    intro t ht
    refine heq _ ?_
    rw [hpre, List.prefix_append_right_inj]
    exact ht
  have own : ∀ t : Str, ¬ other.map Char.toUpper ++ ['_'] <+: (self.app.map Char.toUpper ++ ['_']) ++ t := by
    rintro t ⟨u, hu⟩
    rcases comparable hu with h | h
    · exact h2 h
    · exact h1 h
  have ea : ∀ t : Str, appPrefix self ++ t = machinePrefix ++ ((self.app.map Char.toUpper ++ ['_']) ++ t) := by
    intro t; simp [appPrefix, Str.upper]
  have ei : instPrefix self ++ name = appPrefix self ++ (Str.upper self.inst ++ ['_'] ++ name) := by
    simp [instPrefix]
  rw [extra_get env hn, extra_get env' hn', key name hname, ei, ea, ea name, key _ (own _), key _ (own _)]

/-- **C52, other applications, refuted.** Another application's own setting takes the place of this application's, because the
other application's name is this one's followed by its instance id. -/
theorem C52_others_refuted :
    ∃ (env : Env) (self : Self) (other name : Str), (Dict.keys env).Nodup ∧ self.app ≠ other ∧
      env.get? (extraApp self.app name) = some "mine".toList ∧
      env.get? (extraApp other name) = some "theirs".toList ∧
      (extra env self).get? name = some "theirs".toList := by
  exact ⟨[("ECOENV_EXTRA_ORDERS_DATABASE".toList, "mine".toList), ("ECOENV_EXTRA_ORDERS_MAIN_DATABASE".toList, "theirs".toList)],
    ⟨"orders".toList, "main".toList⟩, "orders_main".toList, "DATABASE".toList, by decide +kernel⟩

/-- A non-trivial case: all three levels present. -/
example :
    let env : Env := [("ECOENV_EXTRA_A".toList, "m".toList), ("ECOENV_EXTRA_B".toList, "m".toList),
      ("ECOENV_EXTRA_APP_B".toList, "a".toList), ("ECOENV_EXTRA_C".toList, "m".toList), ("ECOENV_EXTRA_APP_C".toList, "a".toList),
      ("ECOENV_EXTRA_APP_0_C".toList, "i".toList), ("ECOENV_EXTRA_OTHER_C".toList, "o".toList)]
    (Dict.keys env).Nodup ∧ extra env ⟨"app".toList, "0".toList⟩ =
      [("A".toList, "m".toList), ("B".toList, "a".toList), ("C".toList, "i".toList), ("OTHER_C".toList, "o".toList)] := by
  decide +kernel

/-! ### C62 -/

/-- **C62.** A setting present in the configuration file is what the application sees, whatever the environment says. -/
theorem C62_file_wins (isDir : Str → Bool) (env : Env) (self : Self) (file : ConfigFile) (is : List (Str × FileInstance))
    (f : FileInstance) (c : InstanceConfig) (hi : file.instances = some is) (hf : Dict.get? is self.inst = some f)
    (h : load isDir env self (some file) = .ok c) :
    (∀ s, f.lockDirectory = some s → c.lockDirectory = .text s) ∧
    (∀ s, f.bufferDirectory = some s → c.bufferDirectory = .text s) ∧
    (∀ x, f.extra = some x → c.extra = x) ∧
    (∀ x, f.stats = some x → (∀ i, x.gatherPeriod = some i → c.stats.gatherPeriod = i) ∧
      (∀ i, x.historyLength = some i → c.stats.historyLength = i)) ∧
    (∀ x, f.logging = some x → (∀ s, x.level = some s → c.logging.level = .text s) ∧
      ∀ y, x.fileLogging = some y → (∀ s, y.directory = some s → c.logging.directory = .text s) ∧
        (∀ i, y.bufferSize = some i → c.logging.bufferSize = i) ∧ (∀ i, y.maxSize = some i → c.logging.maxSize = i) ∧
        (∀ i, y.maxFiles = some i → c.logging.maxFiles = i)) ∧
    (∀ host port, f.tcp = some ⟨some host, some port⟩ → c.tcp = some (host, port)) ∧
    (∀ host port, f.udp = some ⟨some host, some port⟩ → c.udp = some (host, port)) ∧
    (∀ dir name, f.uds = some ⟨some dir, some name⟩ → name ≠ "DEFAULT".toList → c.uds = some (dir, name)) := by
  unfold load at h
  cases he : fromEnv isDir env self with
  | error e => rw [he] at h; cases h
  | ok e =>
    rw [he] at h
    simp only [hi, hf] at h
    cases h
    refine ⟨?_, ?_, ?_, ?_, ?_, ?_, ?_, ?_⟩
    · intro s hs; simp [overlay, textOr, hs]
    · intro s hs; simp [overlay, textOr, hs]
    · intro x hx; simp [overlay, hx]
    · intro x hx; exact ⟨by intro i hi; simp [overlay, hx, hi], by intro i hi; simp [overlay, hx, hi]⟩
    · intro x hx
      refine ⟨by intro s hs; simp [overlay, hx, hs, textOr], ?_⟩
      intro y hy
      exact ⟨by intro s hs; simp [overlay, hx, hy, hs, textOr], by intro s hs; simp [overlay, hx, hy, hs],
        by intro s hs; simp [overlay, hx, hy, hs], by intro s hs; simp [overlay, hx, hy, hs]⟩
    · intro a b hx; simp [overlay, hx, hostPortFile]
    · intro a b hx; simp [overlay, hx, hostPortFile]
    · intro a b hx hd; unfold overlay udsFile udsFileName; simp only [hx, Option.getD_some, if_neg hd]

/-- **C62, partial.** What the file does not set stays as the environment has it: every top level setting, and every single
setting inside `stats_keeper` and `logging`. Missing: the parts of an address the file does not give, see `C62_host_refuted`. -/
theorem C62_rest_partial (isDir : Str → Bool) (env : Env) (self : Self) (file : ConfigFile) (is : List (Str × FileInstance))
    (f : FileInstance) (e c : InstanceConfig) (hi : file.instances = some is) (hf : Dict.get? is self.inst = some f)
    (he : fromEnv isDir env self = .ok e) (h : load isDir env self (some file) = .ok c) :
    (f.lockDirectory = none → c.lockDirectory = e.lockDirectory) ∧
    (f.bufferDirectory = none → c.bufferDirectory = e.bufferDirectory) ∧
    (f.extra = none → c.extra = e.extra) ∧
    (f.tcp = none → c.tcp = e.tcp) ∧ (f.udp = none → c.udp = e.udp) ∧ (f.uds = none → c.uds = e.uds) ∧
    (f.stats.bind FileStats.gatherPeriod = none → c.stats.gatherPeriod = e.stats.gatherPeriod) ∧
    (f.stats.bind FileStats.historyLength = none → c.stats.historyLength = e.stats.historyLength) ∧
    (f.logging.bind FileLogging.level = none → c.logging.level = e.logging.level) ∧
    (∀ l, f.logging.bind FileLogging.fileLogging = l → (l.bind FileLogFile.directory = none → c.logging.directory = e.logging.directory) ∧
      (l.bind FileLogFile.bufferSize = none → c.logging.bufferSize = e.logging.bufferSize) ∧
      (l.bind FileLogFile.maxSize = none → c.logging.maxSize = e.logging.maxSize) ∧
      (l.bind FileLogFile.maxFiles = none → c.logging.maxFiles = e.logging.maxFiles)) := by
  unfold load at h
  rw [he] at h
  simp only [hi, hf] at h
  cases h
  refine ⟨?_, ?_, ?_, ?_, ?_, ?_, ?_, ?_, ?_, ?_⟩
  · intro h; simp [overlay, textOr, h]
  · intro h; simp [overlay, textOr, h]
  · intro h; simp [overlay, h]
  · intro h; simp [overlay, h]
  · intro h; simp [overlay, h]
  · intro h; simp [overlay, h]
  · cases hs : f.stats <;> intro h <;> simp_all [overlay]
  · cases hs : f.stats <;> intro h <;> simp_all [overlay]
  · cases hs : f.logging <;> intro h <;> simp_all [overlay, textOr]
  · rintro l rfl
    cases hs : f.logging with
    | none => simp [overlay, hs]
    | some x =>
      cases hx : x.fileLogging with
      | none => simp [overlay, hs, hx, textOr]
      | some y =>
        refine ⟨?_, ?_, ?_, ?_⟩ <;> intro h <;> simp [hx] at h <;> simp [overlay, hs, hx, h, textOr]

/-- **C62, addresses.** What the file leaves out of an address it gives: the documented defaults. -/
theorem C62_missing_fields (isDir : Str → Bool) (env : Env) (self : Self) (file : ConfigFile) (is : List (Str × FileInstance))
    (f : FileInstance) (c : InstanceConfig) (hi : file.instances = some is) (hf : Dict.get? is self.inst = some f)
    (h : load isDir env self (some file) = .ok c) (host : Option Str) (port : Option Int) (dir : Option Str) :
    (f.tcp = some ⟨host, port⟩ → c.tcp = some (host.getD "127.0.0.1".toList, port.getD 8888)) ∧
    (f.udp = some ⟨host, port⟩ → c.udp = some (host.getD "127.0.0.1".toList, port.getD 8889)) ∧
    (f.uds = some ⟨dir, none⟩ ∨ f.uds = some ⟨dir, some "DEFAULT".toList⟩ →
      c.uds = some (dir.getD "/tmp".toList, self.app ++ '_' :: self.inst ++ ".uds.sock".toList)) ∧
    (∀ name, f.uds = some ⟨dir, some name⟩ → name ≠ "DEFAULT".toList → c.uds = some (dir.getD "/tmp".toList, name)) := by
  unfold load at h
  cases he : fromEnv isDir env self with
  | error e => rw [he] at h; cases h
  | ok e =>
    rw [he] at h
    simp only [hi, hf] at h
    cases h
    refine ⟨?_, ?_, ?_, ?_⟩
    · intro hx; simp [overlay, hx, hostPortFile]
    · intro hx; simp [overlay, hx, hostPortFile]
    · rintro (hx | hx) <;> (unfold overlay udsFile udsFileName; simp only [hx, Option.getD_some, Option.getD_none, if_true])
    · intro name hx hd; unfold overlay udsFile udsFileName; simp only [hx, Option.getD_some, if_neg hd]

example : (match load (fun _ => true) [] ⟨"orders".toList, "0".toList⟩ (some { instances := some [("0".toList,
      { tcp := some { port := some 9000 }, udp := some { host := some "10.0.0.1".toList }, uds := some {} })] }) with
    | .ok c => decide (c.tcp = some ("127.0.0.1".toList, 9000) ∧ c.udp = some ("10.0.0.1".toList, 8889) ∧
        c.uds = some ("/tmp".toList, "orders_0.uds.sock".toList))
    | .error _ => false) = true := by decide +kernel

/-- **C62, refuted.** A file that only changes the port of a server also changes its host, from the one in the environment to
`127.0.0.1`. -/
theorem C62_host_refuted :
    ∃ (env : Env) (self : Self) (file : ConfigFile) (e c : InstanceConfig), fromEnv (fun _ => true) env self = .ok e ∧
      load (fun _ => true) env self (some file) = .ok c ∧
      file.instances = some [(self.inst, { tcp := some { host := none, port := some 9000 } })] ∧
      e.tcp = some ("0.0.0.0".toList, 8000) ∧ c.tcp = some ("127.0.0.1".toList, 9000) := by
  let env : Env := [("ECOENV_TCP_APP_0".toList, "0.0.0.0:8000".toList)]
  let self : Self := ⟨"app".toList, "0".toList⟩
  let file : ConfigFile := { instances := some [(self.inst, { tcp := some { host := none, port := some 9000 } })] }
  have h1 : (match fromEnv (fun _ => true) env self with
      | .ok e => decide (e.tcp = some ("0.0.0.0".toList, 8000))
      | .error _ => false) = true := by decide +kernel
  have h2 : (match load (fun _ => true) env self (some file) with
      | .ok c => decide (c.tcp = some ("127.0.0.1".toList, 9000))
      | .error _ => false) = true := by decide +kernel
  cases he : fromEnv (fun _ => true) env self with
  | error x => rw [he] at h1; cases h1
  | ok e =>
    cases hl : load (fun _ => true) env self (some file) with
    | error x => rw [hl] at h2; cases h2
    | ok c =>
      rw [he] at h1; rw [hl] at h2
      exact ⟨env, self, file, e, c, he, hl, rfl, of_decide_eq_true h1, of_decide_eq_true h2⟩

/-- **C62, refuted.** A file that gives a correct number does not make up for a malformed one in the environment: the
application still fails to start. -/
theorem C62_malformed_refuted :
    ∃ (env : Env) (self : Self) (file : ConfigFile),
      file.instances = some [(self.inst, { stats := some { gatherPeriod := some 60, historyLength := some 5 } })] ∧
      load (fun _ => true) env self (some file) = .error (.raised .valueError) := by
  refine ⟨[("ECOENV_STAT_GP".toList, "5m".toList)], ⟨"app".toList, "0".toList⟩,
    { instances := some [("0".toList, { stats := some { gatherPeriod := some 60, historyLength := some 5 } })] }, rfl, ?_⟩
  have h : (match fromEnv (fun _ => true) [("ECOENV_STAT_GP".toList, "5m".toList)] ⟨"app".toList, "0".toList⟩ with
      | .ok _ => false
      | .error e => decide (e = .valueError)) = true := by decide +kernel
  unfold load
  revert h
  cases fromEnv (fun _ => true) [("ECOENV_STAT_GP".toList, "5m".toList)] ⟨"app".toList, "0".toList⟩ <;> simp

/-- **C62, which instance.** A file that lists instances but not the running one stops the application; without a file, or with
one that lists none, the environment alone counts. -/
theorem C62_instances (isDir : Str → Bool) (env : Env) (self : Self) (e : InstanceConfig)
    (he : fromEnv isDir env self = .ok e) :
    (∀ is, load isDir env self (some ⟨some is⟩) = .error .notFound ↔ self.inst ∉ is.map Prod.fst) ∧
    load isDir env self none = .ok e ∧ load isDir env self (some ⟨none⟩) = .ok e := by
  refine ⟨?_, ?_, ?_⟩
  · intro is
    rw [show (self.inst ∉ is.map Prod.fst) = (self.inst ∉ Dict.keys is) from rfl, ← Dict.get?_eq_none_iff]
    unfold load
    simp only [he]
    cases hg : Dict.get? is self.inst <;> simp
  · unfold load; simp only [he]
  · unfold load; simp only [he]

/-- A non-trivial case: a file that overrides part of a full environment. -/
example :
    (match load (fun _ => true) exEnv exSelf (some { instances := some [("feeds_dogs".toList, {}),
        ("feeds_cats".toList, { logging := some { fileLogging := some { directory := some "/logs".toList } },
                                uds := some { directory := some "/run/x".toList } })] }) with
    | .ok c => decide (c.logging.directory = .text "/logs".toList ∧ c.logging.maxFiles = 10 ∧ c.stats.gatherPeriod = 60 ∧
        c.uds = some ("/run/x".toList, "my_cool_application_feeds_cats.uds.sock".toList))
    | .error _ => false) = true := by
  decide +kernel

end Verif.Config
