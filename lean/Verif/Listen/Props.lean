import Verif.Listen.Model

/-!
# C111: an address belongs to one application at a time; C112: an application that cannot listen says why
-/

namespace Verif.Listen

/-! ## C111 -/

/-- **C111, ports (partial: paths are missing, see `C111_taken_refuted`).** The application that a port leads to keeps it until it stops, whatever other
applications try; whoever else starts on it is refused. -/
theorem C111_ports_partial {m m' : Machine} {a : Nat} {x : Addr} (hx : x.kind ≠ .uds) (h : reaches m x = some a) (es : List Ev)
    (hs : Ev.stop a x ∉ es) (hr : steps m es = some m') :
    reaches m' x = some a ∧ ∀ b v, ∃ e, (start m' b x v).1 = .error e := by
  have hp : ∀ m : Machine, reaches m x = m.ports x := by
    intro m; unfold reaches
    cases hk : x.kind with
    | uds => exact absurd hk hx
    | tcp => rfl
    | udp => rfl
  have key : ∀ es (m m' : Machine), m.ports x = some a → Ev.stop a x ∉ es → steps m es = some m' → m'.ports x = some a := by
    intro es
    induction es with
    | nil => intro m m' h _ hr; cases hr; exact h
    | cons e es ih =>
      intro m m' h hs hr
      simp only [steps] at hr
      cases hst : step m e with
      | none => rw [hst] at hr; cases hr
      | some p =>
        obtain ⟨r, m1⟩ := p
        rw [hst] at hr
        refine ih m1 m' ?_ (fun k => hs (List.mem_cons_of_mem _ k)) hr
        cases e with
        | start b y =>
          simp only [step] at hst
          split at hst
          · cases hst
          · simp only [Option.some.injEq, Prod.mk.injEq] at hst
            rw [← hst.2]
            unfold start
            cases hb : bind m b y with
            | error e => simp only; cases y.kind <;> simp [Srv.new, h]
            | ok m2 =>
              simp only
              unfold bind at hb
              cases hrf : m.refuses y with
              | some e => rw [hrf] at hb; cases hb
              | none =>
                rw [hrf] at hb
                cases hk : y.kind with
                | uds =>
                  rw [hk] at hb
                  cases hf : m.files y <;> rw [hf] at hb <;> simp only [Except.ok.injEq, reduceCtorEq] at hb <;> (rw [← hb]; exact h)
                | tcp =>
                  rw [hk] at hb
                  cases hpy : m.ports y with
                  | some c => rw [hpy] at hb; cases hb
                  | none =>
                    rw [hpy] at hb
                    simp only [Except.ok.injEq] at hb
                    rw [← hb]
                    have : x ≠ y := by rintro rfl; rw [h] at hpy; cases hpy
                    simp only [if_neg this, h]
                | udp =>
                  rw [hk] at hb
                  cases hpy : m.ports y with
                  | some c => rw [hpy] at hb; cases hb
                  | none =>
                    rw [hpy] at hb
                    simp only [Except.ok.injEq] at hb
                    rw [← hb]
                    have : x ≠ y := by rintro rfl; rw [h] at hpy; cases hpy
                    simp only [if_neg this, h]
        | stop b y =>
          simp only [step, Option.some.injEq, Prod.mk.injEq] at hst
          rw [← hst.2]
          unfold stop
          split
          · simp only [close]
            by_cases hc : x = y ∧ m.ports y = some b
            · exfalso
              obtain ⟨rfl, hc⟩ := hc
              rw [h] at hc
              cases hc
              exact hs List.mem_cons_self
            · rw [if_neg hc]; exact h
          · exact h
  have hm := key es m m' (by rw [← hp]; exact h) hs hr
  refine ⟨by rw [hp]; exact hm, ?_⟩
  intro b v
  have hb : ∃ e, bind m' b x = .error e := by
    unfold bind
    cases hrf : m'.refuses x with
    | some e => exact ⟨_, rfl⟩
    | none =>
      cases hk : x.kind with
      | uds => exact absurd hk hx
      | tcp => simp only [hm]; exact ⟨_, rfl⟩
      | udp => simp only [hm]; exact ⟨_, rfl⟩
  obtain ⟨e, he⟩ := hb
  unfold start
  rw [he]
  cases hk : x.kind with
  | uds => exact absurd hk hx
  | tcp => simp only; split <;> exact ⟨_, rfl⟩
  | udp => exact ⟨_, rfl⟩

/-- **C111 is false of the code for sockets in the file system.** On the path on which one application serves, another can start (nothing refuses the path):
from then on the path leads to the other. The first notices nothing and goes on serving a socket that nobody can reach, whatever else happens, as long as it does not
start anew. -/
theorem C111_taken_refuted {m : Machine} {a b : Nat} {x : Addr} (hx : x.kind = .uds) (hab : a ≠ b) (h : reaches m x = some a) (hb : (b, x) ∉ m.serving)
    (hf : m.refuses x = none) :
    ∃ m', step m (.start b x) = some (.ok (), m') ∧ reaches m' x = some b ∧ (a, x) ∈ m'.serving ∧
      ∀ es m'', Ev.start a x ∉ es → steps m' es = some m'' → reaches m'' x ≠ some a := by
  have hr : ∀ m : Machine, ∀ c, reaches m x = some c ↔ m.files x = .sock c ∧ (c, x) ∈ m.serving := by
    intro m c
    unfold reaches
    rw [hx]
    cases hfx : m.files x with
    | absent => simp
    | other => simp
    | sock d =>
      simp only [Entry.sock.injEq]
      constructor
      · intro h; split at h
        · next hd => cases h; exact ⟨rfl, hd⟩
        · cases h
      · rintro ⟨rfl, hd⟩; rw [if_pos hd]
  obtain ⟨h1, h2⟩ := (hr m a).1 h
  refine ⟨{ m with files := (fun y => if y = x then .sock b else m.files y), serving := m.serving ++ [(b, x)] }, ?_, ?_, ?_, ?_⟩
  · simp only [step, if_neg hb, start, bind, hf, hx, h1]
  · rw [hr]; simp
  · simp [h2]
  · have key : ∀ es (m m'' : Machine), m.files x ≠ .sock a → Ev.start a x ∉ es → steps m es = some m'' → m''.files x ≠ .sock a := by
      intro es
      induction es with
      | nil => intro m m'' h _ hs; cases hs; exact h
      | cons e es ih =>
        intro m m'' h hs hst
        simp only [steps] at hst
        cases hse : step m e with
        | none => rw [hse] at hst; cases hst
        | some p =>
          obtain ⟨r, m1⟩ := p
          rw [hse] at hst
          refine ih m1 m'' ?_ (fun k => hs (List.mem_cons_of_mem _ k)) hst
          cases e with
          | start c y =>
            simp only [step] at hse
            split at hse
            · cases hse
            · simp only [Option.some.injEq, Prod.mk.injEq] at hse
              rw [← hse.2]
              unfold start
              cases hbd : bind m c y with
              | error e => simp only; cases y.kind <;> simp [Srv.new, h]
              | ok m2 =>
                simp only
                unfold bind at hbd
                cases hrf : m.refuses y with
                | some e => rw [hrf] at hbd; cases hbd
                | none =>
                  rw [hrf] at hbd
                  have port : ∀ m2 : Machine, m2.files = m.files → m2.files x ≠ .sock a := fun m2 e => by rw [e]; exact h
                  cases hk : y.kind with
                  | uds =>
                    rw [hk] at hbd
                    have fin : m2 = { m with files := fun z => if z = y then .sock c else m.files z } → m2.files x ≠ .sock a := by
                      intro e
                      rw [e]
                      simp only
                      by_cases hxy : x = y
                      · rw [if_pos hxy]
                        intro hc
                        cases hc
                        exact hs (by rw [hxy]; exact List.mem_cons_self)
                      · rw [if_neg hxy]; exact h
                    cases hfy : m.files y <;> rw [hfy] at hbd <;> simp only [Except.ok.injEq, reduceCtorEq] at hbd <;> exact fin hbd.symm
                  | tcp =>
                    rw [hk] at hbd
                    cases hpy : m.ports y <;> rw [hpy] at hbd <;> simp only [Except.ok.injEq, reduceCtorEq] at hbd
                    exact port _ (by rw [← hbd])
                  | udp =>
                    rw [hk] at hbd
                    cases hpy : m.ports y <;> rw [hpy] at hbd <;> simp only [Except.ok.injEq, reduceCtorEq] at hbd
                    exact port _ (by rw [← hbd])
          | stop c y =>
            simp only [step, Option.some.injEq, Prod.mk.injEq] at hse
            rw [← hse.2]
            unfold stop
            split
            · exact h
            · exact h
    intro es m'' hs hst hc
    refine key es _ m'' ?_ hs hst ((hr m'' a).1 hc).1
    simp only [if_true, ne_eq, Entry.sock.injEq]
    exact fun e => hab e.symm

/-- **C111, left files.** A socket that an application left behind (stopped or killed) keeps nobody from starting: whatever socket is there, the new server gets
the path. Only something that is not a socket stands in the way. -/
theorem C111_left {m : Machine} (a : Nat) {x : Addr} (v : Srv) (hx : x.kind = .uds) (hf : m.refuses x = none) :
    (start m a x v).1 = .ok () ↔ m.files x ≠ .other := by
  unfold start bind
  rw [hf, hx]
  cases hfx : m.files x with
  | absent => simp
  | sock b => simp
  | other => simp only [ne_eq, not_true_eq_false, iff_false]; split <;> nofun

/-- **C111, stopped.** After an application has stopped its server the address leads to it no more, and its port is free for others; its other addresses, and those of
others, are as before. -/
theorem C111_stopped {m : Machine} {a : Nat} {x : Addr} (h : (a, x) ∈ m.serving) :
    ∃ m', step m (.stop a x) = some (.ok (), m') ∧ reaches m' x ≠ some a ∧ (∀ y, y ≠ x → reaches m' y = reaches m y) ∧
      (∀ b, b ≠ a → reaches m x = some b → reaches m' x = some b) ∧
      (x.kind ≠ .uds → m.refuses x = none → (reaches m x = none ∨ reaches m x = some a) → ∀ b v, (start m' b x v).1 = .ok ()) := by
  refine ⟨close m a x, by simp only [step, stop, decide_eq_true h, if_true], ?_, ?_, ?_, ?_⟩
  · unfold reaches close
    cases hk : x.kind with
    | uds =>
      simp only
      cases m.files x with
      | absent => simp
      | other => simp
      | sock b =>
        simp only
        split
        · next hm =>
          intro e; cases e
          simp at hm
        · nofun
    | tcp =>
      simp only
      split
      · nofun
      · next hc => intro e; exact hc ⟨trivial, e⟩
    | udp =>
      simp only
      split
      · nofun
      · next hc => intro e; exact hc ⟨trivial, e⟩
  · intro y hy
    unfold reaches close
    cases y.kind with
    | uds =>
      simp only
      cases m.files y with
      | absent => rfl
      | other => rfl
      | sock b => simp [hy]
    | tcp => simp [hy]
    | udp => simp [hy]
  · intro b hb
    unfold reaches close
    cases x.kind with
    | uds =>
      simp only
      cases m.files x with
      | absent => nofun
      | other => nofun
      | sock c =>
        simp only
        intro hr
        split at hr
        · next hm =>
          cases hr
          rw [if_pos]
          simp [hm, hb]
        · cases hr
    | tcp =>
      simp only
      intro hr
      rw [if_neg (by rw [hr]; simp [hb]), hr]
    | udp =>
      simp only
      intro hr
      rw [if_neg (by rw [hr]; simp [hb]), hr]
  · intro hx hf hr b v
    have hp : (close m a x).ports x = none := by
      unfold reaches at hr
      unfold close
      cases hk : x.kind with
      | uds => exact absurd hk hx
      | tcp =>
        rw [hk] at hr
        simp only at hr ⊢
        rcases hr with hr | hr
        · rw [if_neg (by rw [hr]; simp), hr]
        · rw [if_pos ⟨trivial, hr⟩]
      | udp =>
        rw [hk] at hr
        simp only at hr ⊢
        rcases hr with hr | hr
        · rw [if_neg (by rw [hr]; simp), hr]
        · rw [if_pos ⟨trivial, hr⟩]
    have hf' : (close m a x).refuses x = none := hf
    unfold start bind
    rw [hf']
    cases hk : x.kind with
    | uds => exact absurd hk hx
    | tcp => simp only [hp]
    | udp => simp only [hp]

/-! ## C112 -/

/-- The exception that the operating system's error number belongs to. -/
inductive Tells : Exc → Nat → Prop where
  | os (e : Nat) : Tells (.os e) e

/-- **C112, datagrams (partial: TCP and UDS are missing, see `C112_hidden_refuted`).** A UDP server that cannot listen raises the system's own error, and leaves the
machine as it was. -/
theorem C112_datagram_partial {m : Machine} {a : Nat} {x : Addr} (hx : x.kind = .udp) (v : Srv) {e : Exc} (h : (start m a x v).1 = .error e) :
    (∃ n, Tells e n ∧ (m.refuses x = some n ∨ m.refuses x = none ∧ n = 98 ∧ reaches m x ≠ none)) ∧ (start m a x v).2.2 = m := by
  unfold start at h ⊢
  cases hb : bind m a x with
  | ok m' => rw [hb] at h; cases h
  | error e' =>
    rw [hb] at h
    simp only [hx] at h ⊢
    cases h
    refine ⟨?_, trivial⟩
    unfold bind at hb
    cases hrf : m.refuses x with
    | some n => rw [hrf] at hb; simp only [Except.error.injEq] at hb; subst hb; exact ⟨n, .os n, .inl rfl⟩
    | none =>
      rw [hrf, hx] at hb
      cases hp : m.ports x with
      | none => rw [hp] at hb; cases hb
      | some b =>
        rw [hp] at hb
        simp only [Except.error.injEq] at hb
        subst hb
        exact ⟨98, .os 98, .inr ⟨rfl, rfl, by unfold reaches; rw [hx]; simp [hp]⟩⟩

/-- **C112 is false of the code for TCP and UDS.** A new server that cannot listen raises `AttributeError`, not the system's error; that one is to be found
in the `__context__` of the exception (and in a traceback) only. -/
theorem C112_hidden_refuted {m : Machine} {a : Nat} {x : Addr} (hx : x.kind ≠ .udp) {e : Exc} (h : (start m a x Srv.new).1 = .error e) :
    (∀ n, ¬ Tells e n) ∧ (∃ n, e = .attribute (.os n)) ∧ (start m a x Srv.new).2.2 = m := by
  unfold start at h ⊢
  cases hb : bind m a x with
  | ok m' => rw [hb] at h; cases h
  | error e' =>
    have hos : ∃ n, e' = .os n := by
      unfold bind at hb
      cases hrf : m.refuses x with
      | some n => rw [hrf] at hb; simp only [Except.error.injEq] at hb; exact ⟨n, hb.symm⟩
      | none =>
        rw [hrf] at hb
        cases hk : x.kind with
        | udp => exact absurd hk hx
        | uds =>
          rw [hk] at hb
          cases hf : m.files x <;> rw [hf] at hb <;> simp only [Except.error.injEq, reduceCtorEq] at hb
          exact ⟨_, hb.symm⟩
        | tcp =>
          rw [hk] at hb
          cases hf : m.ports x <;> rw [hf] at hb <;> simp only [Except.error.injEq, reduceCtorEq] at hb
          exact ⟨_, hb.symm⟩
    obtain ⟨n, rfl⟩ := hos
    rw [hb] at h
    cases hk : x.kind with
    | udp => exact absurd hk hx
    | tcp =>
      simp only [hk, Srv.new, Bool.false_eq_true, if_false, Except.error.injEq] at h ⊢
      subst h
      exact ⟨fun n hn => (nomatch hn), ⟨n, rfl⟩, trivial⟩
    | uds =>
      simp only [hk, Srv.new, Bool.false_eq_true, if_false, Except.error.injEq] at h ⊢
      subst h
      exact ⟨fun n hn => (nomatch hn), ⟨n, rfl⟩, trivial⟩

/-- **C112, exactly when.** A new server listens unless the system refuses its address, its port leads to somebody, or something that is not a socket is in the place of its
socket; and then what is sent to the address reaches it. -/
theorem C112_listens {m : Machine} {a : Nat} {x : Addr} :
    ((start m a x Srv.new).1 = .ok () ↔ m.refuses x = none ∧ (x.kind ≠ .uds → reaches m x = none) ∧ (x.kind = .uds → m.files x ≠ .other)) ∧
    ((start m a x Srv.new).1 = .ok () → reaches (start m a x Srv.new).2.2 x = some a) := by
  unfold start bind reaches
  cases hrf : m.refuses x with
  | some n => cases hk : x.kind <;> simp [Srv.new]
  | none =>
    cases hk : x.kind with
    | uds => cases hf : m.files x <;> simp [Srv.new]
    | tcp => cases hp : m.ports x <;> simp [Srv.new]
    | udp => cases hp : m.ports x <;> simp

/-- **C112, stopping what has been started.** `stop` of a server that could not listen (the shutdown of an application calls it, application_base.py 242-272) leaves the machine and the server
as they are; `stop` of one that listens ends that; and once stopped, a server takes further calls of `stop` without effect, also when another application has the address by then. -/
theorem C112_stop {m : Machine} {a : Nat} {x : Addr} {v : Srv} :
    (∀ e, (start m a x v).1 = .error e → ∀ m', stop m' a x (start m a x v).2.1 = ((start m a x v).2.1, m')) ∧
    ((start m a x v).1 = .ok () → reaches (stop (start m a x v).2.2 a x (start m a x v).2.1).2 x ≠ some a) ∧
    ∀ m' m'' w, stop m'' a x (stop m' a x w).1 = ((stop m' a x w).1, m'') := by
  refine ⟨?_, ?_, ?_⟩
  · intro e h m'
    unfold start at h ⊢
    cases hb : bind m a x with
    | ok m' => rw [hb] at h; cases h
    | error e' =>
      cases hk : x.kind <;> cases hv : v.server <;> simp [stop]
  · intro h
    unfold start at h ⊢
    cases hb : bind m a x with
    | error e' =>
      rw [hb] at h
      cases hk : x.kind <;> cases hv : v.server <;> simp [hk, hv] at h
    | ok m' =>
      simp only [stop, if_true]
      unfold reaches close
      cases hk : x.kind with
      | uds =>
        simp only
        cases m'.files x with
        | absent => simp
        | other => simp
        | sock b =>
          simp only
          split
          · rename_i hm
            intro hba
            cases hba
            simp at hm
          · nofun
      | tcp => simp only [true_and]; split <;> simp_all
      | udp => simp only [true_and]; split <;> simp_all
  · intro m' m'' w
    unfold stop
    cases hw : w.running <;> simp [hw]

/-! ## Cases -/

def port : Addr := ⟨.tcp, 8888⟩
def path : Addr := ⟨.uds, 1⟩
def empty : Machine := quiet (fun _ => .absent) (fun _ => none)

/-- Application 1 listens on the port; application 2 is refused, with an `AttributeError` in place of `OSError` 98. -/
example : ∃ m, steps empty [.start 1 port] = some m ∧ reaches m port = some 1 ∧
    (start m 2 port Srv.new).1 = .error (.attribute (.os 98)) := ⟨_, rfl, rfl, rfl⟩

/-- Application 1 listens on the path; application 2 takes it; 1 stops and starts again, and takes it back. -/
example : ∃ m, steps empty [.start 1 path, .start 2 path] = some m ∧ reaches m path = some 2 ∧ m.serving = [(1, path), (2, path)] ∧
    ∃ m', steps m [.stop 1 path, .start 1 path] = some m' ∧ reaches m' path = some 1 ∧ m'.serving = [(2, path), (1, path)] :=
  ⟨_, rfl, by decide, by decide, _, rfl, by decide, by decide⟩

/-- A UDP server whose port is taken says so. -/
example : ∃ m, steps empty [.start 1 ⟨.udp, 8889⟩] = some m ∧ (start m 2 ⟨.udp, 8889⟩ Srv.new).1 = .error (.os 98) := ⟨_, rfl, rfl⟩

/-- A socket left behind is replaced; a file is not. -/
example : (start (quiet (fun _ => .sock 7) (fun _ => none)) 1 path Srv.new).1 = .ok () ∧
    (start (quiet (fun _ => .other) (fun _ => none)) 1 path Srv.new).1 = .error (.attribute (.os 98)) := ⟨rfl, rfl⟩

/-- Application 2 was refused the port; its `stop` leaves application 1 listening. -/
example : ∃ m, steps empty [.start 1 port] = some m ∧ reaches (stop (start m 2 port Srv.new).2.2 2 port (start m 2 port Srv.new).2.1).2 port = some 1 := ⟨_, rfl, rfl⟩

end Verif.Listen
