import Verif.Scrape.Lemmas
import Verif.Config.Props

/-!
# Discovery (C68) and health (C69)
-/

namespace Verif.Scrape

open Verif.Py Verif.Config Verif.Stats Verif.Stats.Spec Verif.Prom Verif.Prom.Spec Verif.Scrape.Spec

/-! ### C68 -/

/-- **C68, found.** A service that is configured by its variable to listen on an address of this machine is discovered, with its protocol
and exactly the address it listens on. -/
theorem C68_found (isLocal : Str → Bool) (env : Env) (self : Self) (host : Str) (port : Int) (hl : isLocal host = true) :
    (hostPortOf env self "TCP".toList = .ok (some (host, port)) →
      ∃ s ∈ discover isLocal env, s.protocol = .tcp ∧ s.address = some (host, port)) ∧
    (hostPortOf env self "UDP".toList = .ok (some (host, port)) →
      ∃ s ∈ discover isLocal env, s.protocol = .udp ∧ s.address = some (host, port)) := by
  constructor
  · intro hp
    obtain ⟨pt, h1, h2, h3⟩ := text_of hp
    refine ⟨⟨(parseNameInstance (Str.upper self.app ++ '_' :: Str.upper self.inst)).1,
      (parseNameInstance (Str.upper self.app ++ '_' :: Str.upper self.inst)).2, .tcp, some (host, port), none⟩, discover_mem h1 ?_, rfl, rfl⟩
    rw [show instName self "TCP".toList = "ECOENV_TCP_".toList ++ (Str.upper self.app ++ '_' :: Str.upper self.inst) by
      simp [instName, appName, globalName, envPrefix]]
    rw [serviceOf_tcp]
    unfold tcpUdp
    rw [rsplit_last _ _ _ h2]
    simp only [hl, if_true, h3]
  · intro hp
    obtain ⟨pt, h1, h2, h3⟩ := text_of hp
    refine ⟨⟨(parseNameInstance (Str.upper self.app ++ '_' :: Str.upper self.inst)).1,
      (parseNameInstance (Str.upper self.app ++ '_' :: Str.upper self.inst)).2, .udp, some (host, port), none⟩, discover_mem h1 ?_, rfl, rfl⟩
    rw [show instName self "UDP".toList = "ECOENV_UDP_".toList ++ (Str.upper self.app ++ '_' :: Str.upper self.inst) by
      simp [instName, appName, globalName, envPrefix]]
    rw [serviceOf_udp]
    unfold tcpUdp
    rw [rsplit_last _ _ _ h2]
    simp only [hl, if_true, h3]

/-- **C68, names.** It is discovered under its own name and instance, if the instance contains no underscore and no lower-case letter.
(The name is what the framework makes of the script's file name, so it has no upper-case letters.) -/
theorem C68_names_partial (isLocal : Str → Bool) (env : Env) (argv0 inst : Str) (hi : '_' ∉ inst) (hu : Str.upper inst = inst) :
    (∀ host port, isLocal host = true → hostPortOf env ⟨applicationName argv0, inst⟩ "TCP".toList = .ok (some (host, port)) →
      (⟨applicationName argv0, inst, .tcp, some (host, port), none⟩ : Service) ∈ discover isLocal env) ∧
    (∀ host port, isLocal host = true → hostPortOf env ⟨applicationName argv0, inst⟩ "UDP".toList = .ok (some (host, port)) →
      (⟨applicationName argv0, inst, .udp, some (host, port), none⟩ : Service) ∈ discover isLocal env) ∧
    (∀ path, Dict.get? env (instName ⟨applicationName argv0, inst⟩ "UDS".toList) = some path →
      (⟨applicationName argv0, inst, .uds, none, some path⟩ : Service) ∈ discover isLocal env) := by
  have hname : parseNameInstance (Str.upper (applicationName argv0) ++ '_' :: Str.upper inst) = (applicationName argv0, inst) := by
    have := name_instance ⟨applicationName argv0, inst⟩ hi
    simp only at this
    rw [this, lower_upper _ (fun c hc => (C64_shape argv0 c hc).1), hu]
  have hvar : ∀ s : Str, instName ⟨applicationName argv0, inst⟩ s =
      "ECOENV_".toList ++ s ++ '_' :: (Str.upper (applicationName argv0) ++ '_' :: Str.upper inst) := by
    intro s; simp [instName, appName, globalName, envPrefix]
  refine ⟨?_, ?_, ?_⟩
  · intro host port hl hp
    obtain ⟨pt, h1, h2, h3⟩ := text_of hp
    refine discover_mem h1 ?_
    rw [hvar, show "ECOENV_".toList ++ "TCP".toList ++ '_' :: (Str.upper (applicationName argv0) ++ '_' :: Str.upper inst) =
      "ECOENV_TCP_".toList ++ (Str.upper (applicationName argv0) ++ '_' :: Str.upper inst) by simp, serviceOf_tcp]
    unfold tcpUdp
    rw [rsplit_last _ _ _ h2]
    simp only [hl, if_true, h3, hname]
  · intro host port hl hp
    obtain ⟨pt, h1, h2, h3⟩ := text_of hp
    refine discover_mem h1 ?_
    rw [hvar, show "ECOENV_".toList ++ "UDP".toList ++ '_' :: (Str.upper (applicationName argv0) ++ '_' :: Str.upper inst) =
      "ECOENV_UDP_".toList ++ (Str.upper (applicationName argv0) ++ '_' :: Str.upper inst) by simp, serviceOf_udp]
    unfold tcpUdp
    rw [rsplit_last _ _ _ h2]
    simp only [hl, if_true, h3, hname]
  · intro path hp
    refine discover_mem hp ?_
    rw [hvar, show "ECOENV_".toList ++ "UDS".toList ++ '_' :: (Str.upper (applicationName argv0) ++ '_' :: Str.upper inst) =
      "ECOENV_UDS_".toList ++ (Str.upper (applicationName argv0) ++ '_' :: Str.upper inst) by simp, serviceOf_uds, hname]

/-- An application found. -/
def exEnv : Env := [("PATH".toList, "/bin".toList), ("ECOENV_TCP_ORDERS_0".toList, "127.0.0.1:8888".toList),
  ("ECOENV_UDP_ORDERS_0".toList, "10.0.0.7:8889".toList), ("ECOENV_UDS_ORDERS_0".toList, "/run/DEFAULT".toList),
  ("ECOENV_TCP_ORDERS_BLUE_1".toList, "127.0.0.1:9999".toList)]

def exLocal (h : Str) : Bool := h ∈ ["127.0.0.1".toList, "localhost".toList, "0.0.0.0".toList]

example : hostPortOf exEnv ⟨applicationName "/srv/orders.py".toList, "0".toList⟩ "TCP".toList = .ok (some ("127.0.0.1".toList, 8888)) ∧
    exLocal "127.0.0.1".toList = true ∧ '_' ∉ "0".toList ∧ Str.upper "0".toList = "0".toList := by
  refine ⟨?_, by decide +kernel, by decide +kernel, by decide +kernel⟩
  have : (match hostPortOf exEnv ⟨applicationName "/srv/orders.py".toList, "0".toList⟩ "TCP".toList with
    | .ok x => decide (x = some ("127.0.0.1".toList, 8888)) | .error _ => false) = true := by decide +kernel
  revert this
  cases hostPortOf exEnv ⟨applicationName "/srv/orders.py".toList, "0".toList⟩ "TCP".toList with
  | error e => intro h; cases h
  | ok x => intro h; simp only [decide_eq_true_eq] at h; rw [h]

/-- **C68, only local.** Everything discovered is in the environment, and what is not a socket file is on this machine. -/
theorem C68_local (isLocal : Str → Bool) (env : Env) (s : Service) (h : s ∈ discover isLocal env) :
    ∃ key value, (key, value) ∈ env ∧
      ((s.protocol = .uds ∧ "ECOENV_UDS_".toList <+: key ∧ s.path = some value ∧ s.address = none) ∨
       ∃ host port digits, isLocal host = true ∧ s.address = some (host, port) ∧ s.path = none ∧ value = host ++ ':' :: digits ∧
         Str.toInt digits = .ok port ∧
         ((s.protocol = .tcp ∧ "ECOENV_TCP_".toList <+: key) ∨ (s.protocol = .udp ∧ "ECOENV_UDP_".toList <+: key))) := by
  obtain ⟨⟨key, value⟩, hm, hs⟩ := List.mem_filterMap.1 h
  refine ⟨key, value, hm, ?_⟩
  have key_eq : ∀ p : Str, p.isPrefixOf key = true → key = p ++ key.drop p.length := by
    intro p hp
    obtain ⟨t, ht⟩ := List.isPrefixOf_iff_prefix.1 hp
    rw [← ht]; simp
  have tu : ∀ {p : Protocol} {raw : Str}, tcpUdp isLocal p raw value = some s → ∃ host port digits, isLocal host = true ∧
      s.address = some (host, port) ∧ s.path = none ∧ value = host ++ ':' :: digits ∧ Str.toInt digits = .ok port ∧ s.protocol = p := by
    intro p raw h
    unfold tcpUdp at h
    cases hr : rsplit ':' value with
    | none => rw [hr] at h; simp at h
    | some x =>
      obtain ⟨host, digits⟩ := x
      rw [hr] at h
      simp only at h
      split at h
      · next hl =>
        cases hi : Str.toInt digits with
        | error e => rw [hi] at h; simp at h
        | ok q =>
          rw [hi] at h
          simp only [Option.some.injEq] at h
          subst h
          exact ⟨host, q, digits, hl, rfl, rfl, rsplit_some hr, hi, rfl⟩
      · simp at h
  unfold serviceOf at hs
  simp only at hs
  split at hs
  · next h1 =>
    have hk := key_eq _ h1
    split at hs
    · next h2 =>
      obtain ⟨t, ht⟩ := List.isPrefixOf_iff_prefix.1 h2
      obtain ⟨host, port, digits, a, b, c, d, e, f⟩ := tu hs
      refine .inr ⟨host, port, digits, a, b, c, d, e, .inl ⟨f, t, ?_⟩⟩
      rw [hk, show "ECOENV_".toList.length = 7 from rfl, ← ht]
      rfl
    · split at hs
      · next h2 =>
        obtain ⟨t, ht⟩ := List.isPrefixOf_iff_prefix.1 h2
        obtain ⟨host, port, digits, a, b, c, d, e, f⟩ := tu hs
        refine .inr ⟨host, port, digits, a, b, c, d, e, .inr ⟨f, t, ?_⟩⟩
        rw [hk, show "ECOENV_".toList.length = 7 from rfl, ← ht]
        rfl
      · split at hs
        · next h2 =>
          obtain ⟨t, ht⟩ := List.isPrefixOf_iff_prefix.1 h2
          simp only [Option.some.injEq] at hs
          subst hs
          refine .inl ⟨rfl, ⟨t, ?_⟩, rfl, rfl⟩
          rw [hk, show "ECOENV_".toList.length = 7 from rfl, ← ht]
          rfl
        · simp at hs
  · simp at hs

example : (discover exLocal exEnv).length = 3 := by decide +kernel

/-- **C68, socket files.** A service that listens on a socket file named in its variable is discovered with that file, unless the variable
asks for the default file name. -/
theorem C68_uds_partial (isLocal isDir : Str → Bool) (env : Env) (self : Self) (c : InstanceConfig) (h : fromEnv isDir env self = .ok c)
    (dir name : Str) (hv : env.get? (instName self "UDS".toList) = some (dir ++ '/' :: name)) (hn : name ≠ []) (hs : '/' ∉ name)
    (hd : ∃ d x, dir = d ++ [x] ∧ x ≠ '/') (hi : isDir dir = true) (hdef : name ≠ "DEFAULT".toList) :
    c.uds = some (dir, name) ∧ ∃ s ∈ discover isLocal env, s.protocol = .uds ∧ s.path = some (dir ++ '/' :: name) := by
  constructor
  · have := (C51_servers isDir env self c h).2.2.2.2.2 dir name (by simp only [names_eq, List.head_cons]; exact hv) hn hs hd hi
    rw [this, if_neg hdef]
  · refine ⟨_, discover_mem hv (s := ⟨(parseNameInstance (Str.upper self.app ++ '_' :: Str.upper self.inst)).1,
      (parseNameInstance (Str.upper self.app ++ '_' :: Str.upper self.inst)).2, .uds, none, some (dir ++ '/' :: name)⟩) ?_, rfl, rfl⟩
    rw [show instName self "UDS".toList = "ECOENV_UDS_".toList ++ (Str.upper self.app ++ '_' :: Str.upper self.inst) by
      simp [instName, appName, globalName, envPrefix]]
    rw [serviceOf_uds]

example : (match fromEnv (fun _ => true) [("ECOENV_UDS_ORDERS_0".toList, "/run/orders.sock".toList)] ⟨"orders".toList, "0".toList⟩ with
    | .ok c => decide (c.uds = some ("/run".toList, "orders.sock".toList)) | .error _ => false) = true := by decide +kernel

/-- With the default file name the service listens on one file and the exporter asks another. -/
theorem C68_default_socket_refuted : ∃ (env : Env) (self : Self), ∀ isLocal : Str → Bool,
    udsOf (fun _ => true) env self = some ("/run".toList, "orders_0.uds.sock".toList) ∧
    ∀ s ∈ discover isLocal env, s.path = some "/run/DEFAULT".toList := by
  refine ⟨[("ECOENV_UDS_ORDERS_0".toList, "/run/DEFAULT".toList)], ⟨"orders".toList, "0".toList⟩, fun isLocal => ⟨by decide +kernel, ?_⟩⟩
  have : discover isLocal [("ECOENV_UDS_ORDERS_0".toList, "/run/DEFAULT".toList)] =
      [⟨"orders".toList, "0".toList, .uds, none, some "/run/DEFAULT".toList⟩] := by
    have := serviceOf_uds isLocal "ORDERS_0".toList "/run/DEFAULT".toList
    unfold discover
    rw [List.filterMap_cons]
    rw [show "ECOENV_UDS_ORDERS_0".toList = "ECOENV_UDS_".toList ++ "ORDERS_0".toList from by decide +kernel, this]
    rw [show parseNameInstance "ORDERS_0".toList = ("orders".toList, "0".toList) by decide +kernel]
    rfl
  rw [this]
  simp

/-- Instance `blue_1` of `orders` is taken for instance `1` of `orders_blue`, and instance `a` for instance `A`. -/
theorem C68_names_refuted :
    discover exLocal [("ECOENV_TCP_ORDERS_BLUE_1".toList, "127.0.0.1:9999".toList), ("ECOENV_TCP_ORDERS_A".toList, "127.0.0.1:9998".toList)] =
      [⟨"orders_blue".toList, "1".toList, .tcp, some ("127.0.0.1".toList, 9999), none⟩,
       ⟨"orders".toList, "A".toList, .tcp, some ("127.0.0.1".toList, 9998), none⟩] ∧
    instName ⟨"orders".toList, "blue_1".toList⟩ "TCP".toList = "ECOENV_TCP_ORDERS_BLUE_1".toList ∧
    instName ⟨"orders".toList, "a".toList⟩ "TCP".toList = "ECOENV_TCP_ORDERS_A".toList := by decide +kernel

theorem instance_variable_ne (self : Self) (setting raw : Str) (h : '_' ∉ raw) :
    instName self setting ≠ "ECOENV_".toList ++ setting ++ '_' :: raw := by
  intro he
  unfold instName appName globalName at he
  rw [show "ECOENV_".toList = envPrefix ++ ['_'] from rfl] at he
  simp only [List.append_assoc, List.cons_append, List.nil_append, List.append_cancel_left_eq, List.cons.injEq, true_and] at he
  exact h (he ▸ List.mem_append_right _ List.mem_cons_self)

/-- **C68, refuted.** A variable without an instance id sets no server's address, and yet is discovered as a service, called instance `0`. -/
theorem C68_phantom_refuted (isLocal : Str → Bool) (raw host digits : Str) (port : Int) (hr : '_' ∉ raw) (hl : isLocal host = true)
    (hd : ':' ∉ digits) (hp : Str.toInt digits = .ok port) :
    let env : Env := [("ECOENV_TCP_".toList ++ raw, host ++ ':' :: digits)]
    (∀ self, hostPortOf env self "TCP".toList = .ok none) ∧
    discover isLocal env = [⟨raw.map Char.toLower, "0".toList, .tcp, some (host, port), none⟩] := by
  intro env
  constructor
  · intro self
    have hne := instance_variable_ne self "TCP".toList raw hr
    have hg : Dict.get? env (instName self "TCP".toList) = none := by
      have e : "ECOENV_".toList ++ "TCP".toList ++ '_' :: raw = "ECOENV_TCP_".toList ++ raw := rfl
      rw [e] at hne
      simp only [env, Dict.get?, if_neg (Ne.symm hne)]
    unfold hostPortOf getInstanceEnv getEcoEnv
    rw [hg]
    rfl
  · have hs : serviceOf isLocal ("ECOENV_TCP_".toList ++ raw, host ++ ':' :: digits) =
        some ⟨raw.map Char.toLower, "0".toList, .tcp, some (host, port), none⟩ := by
      rw [serviceOf_tcp]
      unfold tcpUdp
      rw [rsplit_last _ _ _ hd]
      have hn : parseNameInstance raw = (Str.lower raw, "0".toList) := by
        unfold parseNameInstance rsplit
        rw [if_neg hr]
      simp only [hl, if_true, hp, hn]
      rfl
    simp only [env, discover, List.filterMap_cons, hs, List.filterMap_nil]

example : '_' ∉ "ORDERS".toList ∧ exLocal "127.0.0.1".toList = true ∧ ':' ∉ "9999".toList ∧ Str.toInt "9999".toList = .ok 9999 :=
  ⟨by decide, by decide +kernel, by decide, by rfl⟩

/-- A service whose address is in its configuration file is not discovered. -/
theorem C68_file_refuted (isLocal : Str → Bool) : ∃ (file : ConfigFile) (c : InstanceConfig),
    load (fun _ => true) [] ⟨"orders".toList, "0".toList⟩ (some file) = .ok c ∧ c.tcp = some ("127.0.0.1".toList, 8888) ∧
    discover isLocal [] = [] := by
  refine ⟨{ instances := some [("0".toList, { tcp := some {} })] }, ?_⟩
  have : (match load (fun _ => true) [] ⟨"orders".toList, "0".toList⟩ (some { instances := some [("0".toList, { tcp := some {} })] }) with
    | .ok c => decide (c.tcp = some ("127.0.0.1".toList, 8888)) | .error _ => false) = true := by decide +kernel
  revert this
  cases load (fun _ => true) [] ⟨"orders".toList, "0".toList⟩ (some { instances := some [("0".toList, { tcp := some {} })] }) with
  | error e => intro h; cases h
  | ok c => intro h; exact ⟨c, rfl, of_decide_eq_true h, rfl⟩

/-! ### C69 -/

theorem get_set (health : Health) (k k' : String × String) (v : ℚ) :
    Dict.get? (health.set k v) k' = if k = k' then some v else Dict.get? health k' := Dict.get?_set _ _ _ _

/-- What polling one well-behaved service does. -/
theorem scrapeOne_good (str : Stat → String) (hstr : ∀ s, str (.text s) = s) (health : Health) (t : Target)
    (ha : ∀ d, t.answer = .ok d → Answers t d) :
    scrapeOne str health t = health.set (t.name, t.inst) (match t.answer with | .ok _ => 1 | .error _ => 0) := by
  unfold scrapeOne
  cases hans : t.answer with
  | error e => rfl
  | ok d =>
    simp only
    rcases ha d hans with rfl | ⟨st, gp, hl, es, hp, hr⟩
    · have h1 : getDict ([] : Store) "application" = .node [] := rfl
      have h2 : (translate ([] : Store) t.name t.inst defaultExclude).2 = none := by
        simp [translate, getDict, Dict.get?, emit, items, each, Gen.append]
      simp only [h1, h2, Dict.get?, Option.getD_none, hstr]
    · obtain ⟨-, -, app, h1, h2, h3⟩ := snapshot_shape hp hr
      have h4 : getDict d "application" = .node app := by unfold getDict; rw [h1]; rfl
      have h5 := (C58_exact _ _ _ _ _ es hp d hr t.name t.inst defaultExclude).1
      simp only [h4, h5, h2, h3, Option.getD_some, hstr]

theorem scrape_good (str : Stat → String) (hstr : ∀ s, str (.text s) = s) : ∀ (ts : List Target) (health : Health),
    (ts.map fun t => (t.name, t.inst)).Nodup → (∀ t ∈ ts, ∀ d, t.answer = .ok d → Answers t d) →
    (∀ t ∈ ts, Dict.get? (ts.foldl (scrapeOne str) health) (t.name, t.inst) =
      some (match t.answer with | .ok _ => 1 | .error _ => 0)) ∧
    ∀ k, (∀ t ∈ ts, (t.name, t.inst) ≠ k) → Dict.get? (ts.foldl (scrapeOne str) health) k = Dict.get? health k
  | [], health, _, _ => ⟨by simp, fun k _ => rfl⟩
  | t :: ts, health, hn, ha => by
    simp only [List.map_cons, List.nodup_cons] at hn
    have ih := scrape_good str hstr ts (scrapeOne str health t) hn.2 (fun t' h => ha t' (.tail _ h))
    have h1 := scrapeOne_good str hstr health t (ha t (.head _))
    refine ⟨?_, ?_⟩
    · intro t' ht'
      rcases List.mem_cons.1 ht' with rfl | ht'
      · rw [List.foldl_cons, ih.2 _ (fun t'' h e => hn.1 (List.mem_map.2 ⟨t'', h, e⟩)), h1, get_set, if_pos rfl]
      · exact ih.1 t' ht'
    · intro k hk
      rw [List.foldl_cons, ih.2 k (fun t' h => hk t' (.tail _ h)), h1, get_set, if_neg (hk t (.head _))]

/-- **C69.** After a round of polling, the health of every service is 1 if it answered and 0 if it did not, and no other service has a
health. Assumed: every service is listed once and under its own name, and answers with the statistics of an ordinary application. -/
theorem C69_health_partial (str : Stat → String) (hstr : ∀ s, str (.text s) = s) (ts : List Target)
    (hn : (ts.map fun t => (t.name, t.inst)).Nodup) (ha : ∀ t ∈ ts, ∀ d, t.answer = .ok d → Answers t d) :
    (∀ t ∈ ts, ((∃ d, t.answer = .ok d) → Dict.get? (scrape str ts) (t.name, t.inst) = some 1) ∧
      ((∃ e, t.answer = .error e) → Dict.get? (scrape str ts) (t.name, t.inst) = some 0)) ∧
    ∀ k, (∀ t ∈ ts, (t.name, t.inst) ≠ k) → Dict.get? (scrape str ts) k = none := by
  have h := scrape_good str hstr ts [] hn ha
  refine ⟨fun t ht => ⟨?_, ?_⟩, fun k hk => ?_⟩
  · rintro ⟨d, hd⟩
    have := h.1 t ht
    rw [hd] at this
    exact this
  · rintro ⟨e, he⟩
    have := h.1 t ht
    rw [he] at this
    exact this
  · exact (h.2 k hk).trans rfl

/-- How the library shows a label. -/
def exStr : Stat → String
  | .text s => s
  | _ => ""

/-- A service that has gathered statistics, one that has none yet, and one that is down. -/
example (sizes : String → ℚ) : ∃ d, Reported "app" "0" 0 300 12 (exDay sizes) d ∧
    (let ts : List Target := [⟨"app", "0", .ok d⟩, ⟨"orders", "0", .ok []⟩, ⟨"orders", "1", .error .decodeError⟩]
     Dict.get? (scrape exStr ts) ("app", "0") = some 1 ∧ Dict.get? (scrape exStr ts) ("orders", "0") = some 1 ∧
     Dict.get? (scrape exStr ts) ("orders", "1") = some 0) := by
  obtain ⟨d, hd⟩ := exDay_reported sizes
  refine ⟨d, hd, ?_⟩
  intro ts
  have := (C69_health_partial exStr (fun _ => rfl) ts (by simp [ts]) (by
    intro t ht d' hd'
    simp only [ts, List.mem_cons, List.not_mem_nil, or_false] at ht
    rcases ht with rfl | rfl | rfl
    · cases hd'; exact .inr ⟨_, _, _, _, exDay_plain sizes, hd⟩
    · cases hd'; exact .inl rfl
    · cases hd')).1
  exact ⟨(this ⟨"app", "0", .ok d⟩ (by simp [ts])).1 ⟨_, rfl⟩, (this ⟨"orders", "0", .ok []⟩ (by simp [ts])).1 ⟨_, rfl⟩,
    (this ⟨"orders", "1", .error .decodeError⟩ (by simp [ts])).2 ⟨_, rfl⟩⟩

/-- A service with a TCP and a UDP address is listed twice; whichever is polled last decides. -/
theorem C69_twice_refuted (str : Stat → String) (hstr : ∀ s, str (.text s) = s) (e : PyErr) :
    Dict.get? (scrape str [⟨"orders", "0", .ok []⟩, ⟨"orders", "0", .error e⟩]) ("orders", "0") = some 0 ∧
    Dict.get? (scrape str [⟨"orders", "0", .error e⟩, ⟨"orders", "0", .ok []⟩]) ("orders", "0") = some 1 := by
  have h : ∀ health, scrapeOne str health ⟨"orders", "0", .ok []⟩ = health.set ("orders", "0") 1 := fun health =>
    scrapeOne_good str hstr health ⟨"orders", "0", .ok []⟩ (by intro d hd; cases hd; exact .inl rfl)
  have h' : ∀ health, scrapeOne str health ⟨"orders", "0", .error e⟩ = health.set ("orders", "0") 0 := fun health => rfl
  constructor
  · simp only [scrape, List.foldl_cons, List.foldl_nil, h, h']
    rw [get_set, if_pos rfl]
  · simp only [scrape, List.foldl_cons, List.foldl_nil, h, h']
    rw [get_set, if_pos rfl]

/-- A service that answers is reported as down if one of its endpoints has the name of a statistic as third part of its route. -/
theorem C69_clash_refuted (str : Stat → String) (x now : ℚ) (sizes : String → ℚ) : ∃ d,
    (step (run (.new "app" "0" 0 300 12) [.track "app.latency.p95", .track "app.users", .call "app.users" x, .set "jobs" 1])
      (.gather now sizes)).1 = .ok (some d) ∧
    Dict.get? (scrape str [⟨"app", "0", .ok d⟩]) ("app", "0") = some 0 := by
  obtain ⟨d, hd, -, h, -⟩ := C58_clash_refuted x now sizes
  refine ⟨d, hd, ?_⟩
  have happ : (translate d "app" "0" defaultExclude).2 ≠ none := by
    have : (translate d "app" "0" defaultExclude).2 = (translate d "x" "y" defaultExclude).2 := by
      unfold translate
      cases getDict d "application" with
      | num q => rfl
      | text s => rfl
      | node app =>
        have e1 : ∀ (mk mk' : ℚ → Metric) (v : Option Stat), (emit mk v).2 = (emit mk' v).2 := by
          intro mk mk' v
          cases v with
          | none => rfl
          | some v => cases v <;> rfl
        have e2 : ∀ (mk mk' : ℚ → Metric) (v : Option Stat), (emitNonneg mk v).2 = (emitNonneg mk' v).2 := by
          intro mk mk' v
          cases v with
          | none => rfl
          | some v => cases v <;> simp only [emitNonneg] <;> split <;> rfl
        have ea : ∀ {a a' b b' : Gen Metric}, a.2 = a'.2 → b.2 = b'.2 → (a.append b).2 = (a'.append b').2 := by
          rintro ⟨l, _ | e⟩ ⟨l', _ | e'⟩ b b' h1 h2 <;> simp_all [Gen.append]
        have ee : ∀ {α : Type} {f f' : α → Gen Metric} (xs : List α), (∀ x, (f x).2 = (f' x).2) → (each f xs).2 = (each f' xs).2 := by
          intro α f f' xs hf
          induction xs with
          | nil => rfl
          | cons x xs ih => exact ea (hf x) ih
        have eg : ∀ {body body' : String → String → Store → Gen Metric} (v : Stat), (∀ g e data, (body g e data).2 = (body' g e data).2) →
            (items (groups defaultExclude body) v).2 = (items (groups defaultExclude body') v).2 := by
          intro body body' v hb
          cases v with
          | num q => rfl
          | text s => rfl
          | node c =>
            refine ee c fun x => ?_
            unfold groups
            split
            · rfl
            · cases x.2 with
              | num q => rfl
              | text s => rfl
              | node es =>
                refine ee es fun y => ?_
                unfold endpointsOf
                cases y.2 with
                | num q => rfl
                | text s => rfl
                | node data => exact hb _ _ _
        refine ea (e1 _ _ _) (ea (e1 _ _ _) (ea (eg _ fun g e data => ?_) (ea (eg _ fun g e data => ?_) (ea (eg _ fun g e data => ?_) ?_))))
        · exact ea (e1 _ _ _) (ea (e2 _ _ _) (e2 _ _ _))
        · exact ea (e1 _ _ _) (e1 _ _ _)
        · exact ea (e1 _ _ _) (e1 _ _ _)
        · refine ee d fun y => ?_
          unfold customMetrics
          split <;> rfl
    rw [this, h]; simp
  simp only [scrape, List.foldl_cons, List.foldl_nil, scrapeOne]
  cases getDict d "application" with
  | num q => simp only; rw [get_set, if_pos rfl]
  | text s => simp only; rw [get_set, if_pos rfl]
  | node app =>
    simp only
    cases hx : (translate d "app" "0" defaultExclude).2 with
    | none => exact absurd hx happ
    | some e => simp only; rw [get_set, if_pos rfl]

/-- Instance `a` of `app` is discovered as instance `A`: when it goes down, that is reported for the name it never had, and nothing is
reported for the name it had. -/
theorem C69_renamed_refuted (str : Stat → String) (hstr : ∀ s, str (.text s) = s) (sizes : String → ℚ) (now : ℚ) (e : PyErr) : ∃ d,
    (step (run (.new "app" "a" 0 300 12) []) (.gather now sizes)).1 = .ok (some d) ∧
    Dict.get? (scrape str [⟨"app", "A", .ok d⟩]) ("app", "a") = some 1 ∧
    Dict.get? (scrape str [⟨"app", "A", .error e⟩]) ("app", "a") = none ∧
    Dict.get? (scrape str [⟨"app", "A", .error e⟩]) ("app", "A") = some 0 := by
  have h : (step (run (.new "app" "a" 0 300 12) []) (.gather now sizes)).1 = .ok (some
      [("timestamp", .num now), ("uptime", .num now), ("gather_period", .num 300),
        ("application", .node [("name", .text "app"), ("instance", .text "a")])]) := by
    simp [run, step, Keeper.new, Dict.set, update, stamp, percentileEntries, setAll]
  refine ⟨_, h, ?_, ?_, ?_⟩
  · simp [scrape, scrapeOne, translate, getDict, Dict.get?, emit, toFloat, items, each, Gen.append, customMetrics, knownKeys, hstr, Dict.set]
  · simp [scrape, scrapeOne, Dict.set, Dict.get?]
  · simp [scrape, scrapeOne, Dict.set, Dict.get?]

end Verif.Scrape
