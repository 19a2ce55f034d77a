import Verif.Logs.Lemmas

/-! # Properties of logging: C54, C55, C63, C67 -/

namespace Verif.Logs

open Verif.Logs.Spec

/-! ## An example configuration -/

def exEnc : Enc := { chars := fun l => l.body.length + 1, bytes := fun l => l.body.utf8ByteSize + 1 }
def exDisk : Disk := { cur := [], old := fun _ => none }
def exConfig (size : Int) : Config :=
  { level := "error", fileOnly := true, consoleOnly := false, bufferSize := size, maxSizeInBytes := 10, maxFiles := 2 }
def keyA : Option Key := some { traceId := "aa", spanId := "a1" }
def keyB : Option Key := some { traceId := "bb", spanId := "b1" }
def exRec (n : Nat) (m : String) : Record := { levelno := n, message := some m }

theorem setup_file (c : Config) (d : Disk) (hc : c.consoleOnly = false) :
    (setup c d).file = some { level := 10, capacity := c.bufferSize, buffer := [], maxBytes := c.maxSizeInBytes,
                              backupCount := c.maxFiles, disk := d } := by
  simp [setup, hc]

/-! ## C54: written once and in order -/

/-- At every moment of every history, the lines written so far are the records logged so far at or above the level in force, in the order
they were logged and each once, except for the last `unwritten` ones, which are still in memory. -/
theorem C54_in_order (e : Enc) (c : Config) (d : Disk) (evs : List Event) (hc : c.consoleOnly = false) :
    ∃ done rest, (accepted 10 evs).map Prod.snd = done ++ rest ∧
      rest.length = unwritten (run e (setup c d) evs).1 ∧
      (run e (setup c d) evs).2.map content = done.filterMap contentOf := by
  obtain ⟨h', done, a, b, g, -, -⟩ := run_file e evs (setup c d) (WF_setup c d) _ (setup_file c d hc)
  refine ⟨done, h'.buffer, ?_, ?_, g⟩
  · exact b
  · simp only [unwritten, a]

example : (run exEnc (setup (exConfig 3) exDisk)
      [.log keyA (exRec 20 "1"), .log keyB (exRec 10 "2"), .log keyA (exRec 40 "3"), .log keyB (exRec 30 "4")]).2.map content =
      [(9, "INFO", "1"), (5, "DEBUG", "2"), (17, "ERROR", "3")] ∧
    unwritten (run exEnc (setup (exConfig 3) exDisk)
      [.log keyA (exRec 20 "1"), .log keyB (exRec 10 "2"), .log keyA (exRec 40 "3"), .log keyB (exRec 30 "4")]).1 = 1 := by
  decide +kernel

/-- After a flush or at the end of the process everything logged at or above the level has been written, and nothing is in memory. -/
theorem C54_flushed (e : Enc) (c : Config) (d : Disk) (evs : List Event) (k : Option Key) (last : Event)
    (hlast : last = .flush k ∨ last = .shutdown k) (hc : c.consoleOnly = false) :
    (run e (setup c d) (evs ++ [last])).2.map content = ((accepted 10 evs).map Prod.snd).filterMap contentOf ∧
    unwritten (run e (setup c d) (evs ++ [last])).1 = 0 := by
  have hu : unwritten (run e (setup c d) (evs ++ [last])).1 = 0 := by
    obtain ⟨h', -, a, -⟩ := run_file e evs (setup c d) (WF_setup c d) _ (setup_file c d hc)
    rw [run_append]
    rcases hlast with rfl | rfl
    · simp only [run, step, flush, a, unwritten, FileHandler.flush, List.length_nil]
    · simp only [run, step, shutdown, a, unwritten, FileHandler.flush, FileHandler.close, List.length_nil]
  refine ⟨?_, hu⟩
  obtain ⟨done, rest, h1, h2, h3⟩ := C54_in_order e c d (evs ++ [last]) hc
  rw [hu] at h2
  rw [List.length_eq_zero_iff.1 h2, List.append_nil] at h1
  rw [h3, ← h1, accepted_append]
  rcases hlast with rfl | rfl <;> simp [accepted, logged]

example : (run exEnc (setup (exConfig 100) exDisk)
      ([.log keyA (exRec 20 "1"), .setLevel none "error", .log keyB (exRec 30 "2"), .log keyA (exRec 40 "3")] ++ [.shutdown none])).2.map
        content = [(9, "INFO", "1"), (17, "ERROR", "3")] := by
  decide +kernel

/-- What the console shows is written at once, with the key of the context. -/
theorem C54_console (e : Enc) (c : Config) (d : Disk) (evs : List Event) (hc : c.fileOnly = false) :
    ∃ con, (run e (setup c d) evs).1.console = some con ∧ con.out = (accepted 10 evs).filterMap lineOf := by
  suffices H : ∀ evs (s : State) con, WF s → s.console = some con →
      ∃ con', (run e s evs).1.console = some con' ∧ con'.out = con.out ++ (accepted s.level evs).filterMap lineOf by
    obtain ⟨con', a, b⟩ := H evs (setup c d) { level := 10, out := [] } (WF_setup c d) (by simp [setup, hc])
    exact ⟨con', a, by rw [b]; rfl⟩
  intro evs
  induction evs with
  | nil => intro s con _ h; exact ⟨con, h, by simp [accepted]⟩
  | cons ev evs ih =>
    intro s con hw h
    have hl : ∀ k r, ∃ con₁, (logCall e k s r).1.console = some con₁ ∧
        con₁.out = con.out ++ ([(k, r)].filter fun p => decide (s.level ≤ p.2.levelno)).filterMap lineOf := by
      intro k r
      rw [logCall_console e k s r hw, h]
      by_cases hlv : s.level ≤ r.levelno
      · rw [if_pos hlv]
        refine ⟨con.emit k r, rfl, ?_⟩
        simp only [List.filter_cons, hlv, decide_true, if_true, List.filter_nil]
        unfold Console.emit
        rw [format_eq]
        cases hx : lineOf (k, r) <;> simp [hx]
      · rw [if_neg hlv]
        exact ⟨con, rfl, by simp [hlv]⟩
    have hstep : ∃ con₁, (step e s ev).1.console = some con₁ ∧
        con₁.out = con.out ++ ((logged ev).filter fun p => decide (s.level ≤ p.2.levelno)).filterMap lineOf := by
      cases ev with
      | log k r => exact hl k r
      | setLevel k n =>
        simp only [step, setLevel_eq]
        cases levelNumber.lookup n with
        | none => exact ⟨con, h, by simp [logged]⟩
        | some m => exact ⟨{ con with level := m }, by simp [setLevelNo, h], by simp [logged]⟩
      | setBufferSize k n => exact hl k _
      | flush k =>
        refine ⟨con, ?_, by simp [logged]⟩
        simp only [step, flush]; cases s.file <;> exact h
      | shutdown k =>
        refine ⟨con, ?_, by simp [logged]⟩
        simp only [step, shutdown]; cases s.file <;> exact h
    obtain ⟨con₁, a, b⟩ := hstep
    obtain ⟨con', a', b'⟩ := ih _ con₁ (WF_step e s ev hw) a
    refine ⟨con', a', ?_⟩
    rw [b', b, level_step, accepted, List.filterMap_append, List.append_assoc]

example : ((run exEnc (setup { exConfig 3 with fileOnly := false } exDisk)
      [.log keyA (exRec 20 "1"), .setLevel none "error", .log keyB (exRec 30 "2"), .log keyB (exRec 40 "3")]).1.console.map (·.out)) =
      some [⟨9, "INFO", "1", some "aa", some "a1"⟩, ⟨17, "ERROR", "3", some "bb", some "b1"⟩] := by
  decide +kernel

/-- Fewer records than a buffer size that was in force at some time are unwritten. What is missing: it need not be the current buffer
size, see `C54_lowered_refuted`; `C54_bound_logged` has the moments at which it is. -/
theorem C54_bound_partial (e : Enc) (c : Config) (d : Disk) (evs : List Event) (hc : c.consoleOnly = false) :
    unwritten (run e (setup c d) evs).1 = 0 ∨
      ∃ n : Int, (n = c.bufferSize ∨ ∃ k, Event.setBufferSize k n ∈ evs) ∧ (unwritten (run e (setup c d) evs).1 : Int) < n := by
  suffices H : ∀ evs (s : State) h (sizes : Int → Prop), WF s → s.file = some h → sizes h.capacity →
      (h.buffer.length = 0 ∨ ∃ n, sizes n ∧ (h.buffer.length : Int) < n) →
      (∀ k n, Event.setBufferSize k n ∈ evs → sizes n) →
      unwritten (run e s evs).1 = 0 ∨ ∃ n, sizes n ∧ (unwritten (run e s evs).1 : Int) < n by
    exact H evs (setup c d) _ (fun n => n = c.bufferSize ∨ ∃ k, Event.setBufferSize k n ∈ evs) (WF_setup c d) (setup_file c d hc)
      (Or.inl rfl) (Or.inl rfl) (fun k n h => Or.inr ⟨k, h⟩)
  intro evs
  induction evs with
  | nil => intro s h sizes _ hf _ hb _; simpa [run, unwritten, hf] using hb
  | cons ev evs ih =>
    intro s h sizes hw hf hcap hb hall
    obtain ⟨h', hok⟩ := file_step e s ev hw h hf
    refine ih _ h' sizes (WF_step e s ev hw) hok.file ?_ ?_ (fun k n hm => hall k n (List.mem_cons_of_mem _ hm))
    · rw [capacity_step e s ev hw h h' hf hok.file]
      cases ev with
      | setBufferSize k n => exact hall k n (List.mem_cons_self ..)
      | _ => exact hcap
    · rcases buffer_step e s ev hw h h' hf hok.file with hx | hx | hx
      · rcases hb with hb | ⟨n, hn, hb⟩
        · left; omega
        · right; exact ⟨n, hn, by omega⟩
      · exact Or.inl hx
      · exact Or.inr ⟨_, hcap, hx⟩

example : unwritten (run exEnc (setup (exConfig 3) exDisk) [.log keyA (exRec 20 "1"), .log keyB (exRec 10 "2")]).1 = 2 := by
  decide +kernel

/-- Whenever a record has just been logged at or above the level, fewer records than the current buffer size are unwritten. -/
theorem C54_bound_logged (e : Enc) (c : Config) (d : Disk) (evs : List Event) (k : Option Key) (r : Record)
    (hc : c.consoleOnly = false) (hr : evs.foldl levelAfter 10 ≤ r.levelno) :
    unwritten (run e (setup c d) (evs ++ [.log k r])).1 = 0 ∨
      (unwritten (run e (setup c d) (evs ++ [.log k r])).1 : Int) < evs.foldl sizeAfter c.bufferSize := by
  have hcap : ∀ evs (s : State) h, WF s → s.file = some h → ∃ h', (run e s evs).1.file = some h' ∧
      h'.capacity = evs.foldl sizeAfter h.capacity := by
    intro evs
    induction evs with
    | nil => intro s h _ hf; exact ⟨h, hf, rfl⟩
    | cons ev evs ih =>
      intro s h hw hf
      obtain ⟨h1, hok⟩ := file_step e s ev hw h hf
      obtain ⟨h', a, b⟩ := ih _ h1 (WF_step e s ev hw) hok.file
      exact ⟨h', a, by rw [b, capacity_step e s ev hw h h1 hf hok.file, List.foldl_cons]⟩
  obtain ⟨h', a, b⟩ := hcap evs _ _ (WF_setup c d) (setup_file c d hc)
  have hw := WF_run e evs _ (WF_setup c d)
  have hl : (run e (setup c d) evs).1.level ≤ r.levelno := by rw [level_run]; exact hr
  have hlog := congrArg Prod.fst (logCall_file e k _ r hw h' a)
  rw [run_append]
  simp only [if_pos hl] at hlog
  simp only [run, step, unwritten, hlog]
  have := emit_bound e k h' r
  rw [b] at this
  exact this

example : (unwritten (run exEnc (setup (exConfig 3) exDisk)
      ([.log keyA (exRec 20 "1"), .log keyB (exRec 10 "2"), .setBufferSize none 0] ++ [.log keyA (exRec 10 "3")])).1) = 0 := by
  decide +kernel

/-- Lowering the buffer size does not write what is waiting: with the level at `warn` the message that would do so is not logged. -/
theorem C54_lowered_refuted :
    ∃ (e : Enc) (c : Config) (d : Disk) (evs : List Event) (n : Int), c.consoleOnly = false ∧
      evs.foldl sizeAfter c.bufferSize = n ∧
      ¬ (unwritten (run e (setup c d) evs).1 = 0 ∨ (unwritten (run e (setup c d) evs).1 : Int) < n) :=
  ⟨exEnc, exConfig 100, exDisk,
    [.log keyA (exRec 40 "1"), .log keyA (exRec 40 "2"), .setLevel none "warn", .setBufferSize none 0], 0, rfl, rfl, by decide +kernel⟩

/-! ## C55: the span key on each line -/

/-- While the buffer size is at most one, every line carries the key of the context in which it was logged. What is missing: larger
buffer sizes, see `C55_buffered_refuted`. -/
theorem C55_immediate_partial (e : Enc) (c : Config) (d : Disk) (evs : List Event) (hc : c.consoleOnly = false)
    (h1 : c.bufferSize ≤ 1) (hall : ∀ k n, Event.setBufferSize k n ∈ evs → n ≤ 1) :
    (run e (setup c d) evs).2 = (accepted 10 evs).filterMap lineOf := by
  suffices H : ∀ evs (s : State) h, WF s → s.file = some h → h.buffer = [] → h.capacity ≤ 1 →
      (∀ k n, Event.setBufferSize k n ∈ evs → n ≤ 1) → (run e s evs).2 = (accepted s.level evs).filterMap lineOf by
    exact H evs _ _ (WF_setup c d) (setup_file c d hc) rfl h1 hall
  intro evs
  induction evs with
  | nil => intros; rfl
  | cons ev evs ih =>
    intro s h hw hf hb hcap hall
    obtain ⟨h', hok⟩ := file_step e s ev hw h hf
    have hb' : h'.buffer = [] := by
      rcases buffer_step e s ev hw h h' hf hok.file with hx | hx | hx
      · rw [hb] at hx; exact List.length_eq_zero_iff.1 (Nat.le_zero.1 hx)
      · exact List.length_eq_zero_iff.1 hx
      · exact List.length_eq_zero_iff.1 (by omega)
    have hcap' : h'.capacity ≤ 1 := by
      rw [capacity_step e s ev hw h h' hf hok.file]
      cases ev with
      | setBufferSize k n => exact hall k n (List.mem_cons_self ..)
      | _ => exact hcap
    have hrest := ih _ h' (WF_step e s ev hw) hok.file hb' hcap' (fun k n hm => hall k n (List.mem_cons_of_mem _ hm))
    obtain ⟨done, p, q⟩ := hok.ok.ex
    rw [hb, hb', List.nil_append, List.append_nil] at p
    simp only [run, accepted, List.filterMap_append, hrest, level_step]
    congr 1
    rw [q, ← p]
    cases ev <;> simp only [logged, keyOf, List.filter_nil, List.map_nil, List.filterMap_nil]
    · rename_i k r
      by_cases hl : s.level ≤ r.levelno <;> simp [hl] <;> rfl
    · rename_i k n
      by_cases hl : s.level ≤ 20 <;> simp [hl] <;> rfl

example : (run exEnc (setup (exConfig 1) exDisk) [.log keyA (exRec 20 "1"), .setBufferSize keyB 0, .log none (exRec 10 "2")]).2 =
    [⟨9, "INFO", "1", some "aa", some "a1"⟩, ⟨9, "INFO", "Setting log buffer size to 0.", some "bb", some "b1"⟩,
     ⟨5, "DEBUG", "2", none, none⟩] := by
  decide +kernel

/-- With any buffer size, the lines an event writes carry the key of the context of that event, whoever logged them. -/
theorem C55_writer_partial (e : Enc) (c : Config) (d : Disk) (evs : List Event) (ev : Event) (hc : c.consoleOnly = false) :
    ∀ l ∈ (step e (run e (setup c d) evs).1 ev).2, carries (keyOf ev) l := by
  obtain ⟨h', -, a, -⟩ := run_file e evs (setup c d) (WF_setup c d) _ (setup_file c d hc)
  obtain ⟨h'', hok⟩ := file_step e _ ev (WF_run e evs _ (WF_setup c d)) h' a
  obtain ⟨done, -, q⟩ := hok.ok.ex
  rw [q]
  exact carries_lines _ _

example : (step exEnc (run exEnc (setup (exConfig 2) exDisk) [.log keyA (exRec 20 "1")]).1 (.log keyB (exRec 20 "2"))).2 =
    [⟨9, "INFO", "1", some "bb", some "b1"⟩, ⟨9, "INFO", "2", some "bb", some "b1"⟩] := by
  decide +kernel

/-- With a buffer of two records, the line logged for request A carries the trace id of request B. -/
theorem C55_buffered_refuted :
    ∃ (e : Enc) (c : Config) (d : Disk) (evs : List Event), c.consoleOnly = false ∧
      evs = [.log keyA (exRec 20 "for A"), .log keyB (exRec 20 "for B")] ∧
      (run e (setup c d) evs).2.map (fun l => (l.body, l.traceId)) = [("for A", some "bb"), ("for B", some "bb")] ∧
      (run e (setup c d) evs).2 ≠ (accepted 10 evs).filterMap lineOf :=
  ⟨exEnc, exConfig 2, exDisk, _, rfl, rfl, by decide +kernel, by decide +kernel⟩

/-! ## C63: the log level -/

/-- The configured level makes no difference at all. -/
theorem C63_ignored_refuted (c : Config) (d : Disk) (a b : String) :
    setup { c with level := a } d = setup { c with level := b } d := rfl

/-- With `ECOENV_LOG_LEVEL=error`, a debug message is written. -/
theorem C63_configured_refuted :
    ∃ (e : Enc) (c : Config) (d : Disk) (r : Record), c.level = "error" ∧ r.levelno = 10 ∧
      (run e (setup c d) [.log none r]).2.map content = [(5, "DEBUG", "secret")] :=
  ⟨exEnc, exConfig 0, exDisk, exRec 10 "secret", rfl, rfl, by decide +kernel⟩

/-- After `eco.log.level` set one of the five levels, exactly the records at or above it are logged, until it is set again. What is
missing: the level configured for the start, see `C63_configured_refuted`. -/
theorem C63_set_partial (e : Enc) (c : Config) (d : Disk) (before after : List Event) (k k' : Option Key) (name : String) (n : Nat)
    (hc : c.consoleOnly = false) (hn : (name, n) ∈ levelNumber) (hafter : ∀ k m, Event.setLevel k m ∉ after) :
    (run e (setup c d) (before ++ .setLevel k name :: after ++ [.flush k'])).2.map content =
      ((accepted 10 before).map Prod.snd).filterMap contentOf ++
      (((after.flatMap logged).filter fun p => decide (n ≤ p.2.levelno)).map Prod.snd).filterMap contentOf := by
  rw [(C54_flushed e c d (before ++ .setLevel k name :: after) k' (.flush k') (Or.inl rfl) hc).1, accepted_append]
  have hl : levelNumber.lookup name = some n := by
    simp only [levelNumber, List.mem_cons, Prod.mk.injEq, List.not_mem_nil, or_false] at hn
    rcases hn with ⟨rfl, rfl⟩ | ⟨rfl, rfl⟩ | ⟨rfl, rfl⟩ | ⟨rfl, rfl⟩ | ⟨rfl, rfl⟩ <;> rfl
  have hacc : ∀ (evs : List Event), (∀ k m, Event.setLevel k m ∉ evs) →
      accepted n evs = (evs.flatMap logged).filter fun p => decide (n ≤ p.2.levelno) := by
    intro evs
    induction evs with
    | nil => intro _; rfl
    | cons ev evs ih =>
      intro h
      have hx : levelAfter n ev = n := by
        cases ev with
        | setLevel k m => exact absurd (List.mem_cons_self ..) (h k m)
        | _ => rfl
      rw [accepted, hx, ih (fun k m hm => h k m (List.mem_cons_of_mem _ hm)), List.flatMap_cons, List.filter_append]
  simp only [accepted, levelAfter, hl, Option.getD_some, logged, List.filter_nil, List.nil_append, hacc after hafter, List.map_append,
    List.filterMap_append]

example : (run exEnc (setup (exConfig 7) exDisk)
    ([.log keyA (exRec 10 "1")] ++ .setLevel none "warn" :: [.log keyA (exRec 20 "2"), .log keyA (exRec 30 "3")] ++ [.flush none])).2.map
      content = [(5, "DEBUG", "1"), (13, "WARN", "3")] := by
  decide +kernel

/-! ## C67: rotation -/

/-- Starting without log files: at every moment the files, from the one with the highest number down to `base.1` and the base file,
hold the last lines written, in order; there are at most `max_files` rotated files; nothing is dropped while there are fewer. -/
theorem C67_newest_kept (e : Enc) (c : Config) (d : Disk) (evs : List Event) (hc : c.consoleOnly = false)
    (hcur : d.cur = []) (hold : ∀ i, d.old i = none) :
    ∃ h l lost, (run e (setup c d) evs).1.file = some h ∧ Backups h.disk.old l ∧ (l = [] ∨ (l.length : Int) ≤ c.maxFiles) ∧
      (run e (setup c d) evs).2 = lost ++ (l.reverse.flatten ++ h.disk.cur) ∧ (lost = [] ∨ (l.length : Int) = c.maxFiles) := by
  obtain ⟨h', a, -, -, l, lost, b1, b2, b3, b4⟩ :=
    run_disk e (fun _ bc d W => Kept bc d W) (fun mb bc k d r W h => Kept_emit e mb bc k d r W h) evs (setup c d)
    (WF_setup c d) _ (setup_file c d hc) [] ⟨[], [], fun i => by simp [hold], Or.inl rfl, by simp [hcur], Or.inl rfl⟩
  exact ⟨h', l, lost, a, b1, b2, by simpa using b3, b4⟩

/-- Seven lines of four bytes, ten bytes per file, two rotated files: one line per file at first, so the oldest are gone. -/
example :
    (match (run exEnc (setup (exConfig 0) exDisk)
        ((["abc", "def", "ghi", "jkl", "mno", "pqr", "stu"].map fun t => Event.log keyA (exRec 20 t)))).1.file with
     | some h => decide (h.disk.cur.map (·.body) = ["stu"] ∧
         (h.disk.old 1).map (·.map (·.body)) = some ["mno", "pqr"] ∧ (h.disk.old 2).map (·.map (·.body)) = some ["ghi", "jkl"] ∧
         h.disk.old 3 = none)
     | none => false) = true := by
  decide +kernel

/-- If no line has more bytes than characters and both limits are positive, no file reaches `max_size`, except a file of one line. -/
theorem C67_size_partial (e : Enc) (c : Config) (d : Disk) (evs : List Event) (hc : c.consoleOnly = false)
    (hcur : d.cur = []) (hold : ∀ i, d.old i = none) (hbytes : ∀ l, e.bytes l ≤ e.chars l) (hm : c.maxFiles > 0)
    (hs : c.maxSizeInBytes > 0) :
    ∃ h, (run e (setup c d) evs).1.file = some h ∧
      (((tell e h.disk.cur : Nat) : Int) < c.maxSizeInBytes ∨ h.disk.cur.length ≤ 1) ∧
      ∀ i f, h.disk.old (i + 1) = some f → ((tell e f : Nat) : Int) < c.maxSizeInBytes ∨ f.length ≤ 1 := by
  obtain ⟨h', a, -, -, b⟩ :=
    run_disk e (fun mb bc d _ => Small e mb bc d) (fun mb bc k d r W h => Small_emit e hbytes mb bc k d r h) evs (setup c d)
    (WF_setup c d) _ (setup_file c d hc) []
    (fun hb _ => ⟨Or.inr (by simp [hcur]), [], fun i => by simp [hold], by simp only [List.length_nil]; omega, by simp⟩)
  obtain ⟨b1, l, b2, b3, b4⟩ := b hm hs
  refine ⟨h', a, b1, ?_⟩
  intro i f hf
  rw [b2 i] at hf
  exact b4 f (List.mem_of_getElem? hf)

example : ∀ l : Line, ({ exEnc with bytes := exEnc.chars } : Enc).bytes l ≤ ({ exEnc with bytes := exEnc.chars } : Enc).chars l :=
  fun _ => Nat.le_refl _

/-- The size check counts characters, the file has bytes: two lines of five characters reach fourteen bytes with a limit of twelve. -/
theorem C67_unicode_refuted :
    ∃ (e : Enc) (c : Config) (d : Disk) (evs : List Event) (h : FileHandler),
      e.bytes = (fun l => l.body.utf8ByteSize + 1) ∧ c.maxFiles = 2 ∧ c.maxSizeInBytes = 12 ∧
      (run e (setup c d) evs).1.file = some h ∧
      h.disk.cur.map (·.body) = ["αβγ", "δεζ"] ∧ tell e h.disk.cur = 14 :=
  let c : Config := { exConfig 0 with maxSizeInBytes := 12 }
  let evs : List Event := [.log none (exRec 20 "αβγ"), .log none (exRec 20 "δεζ")]
  have ⟨h, hh⟩ : ∃ h, (run exEnc (setup c exDisk) evs).1.file = some h := Option.isSome_iff_exists.1 (by decide +kernel)
  have hg : ((run exEnc (setup c exDisk) evs).1.file.map fun h => (h.disk.cur.map (·.body), tell exEnc h.disk.cur)) =
      some (["αβγ", "δεζ"], 14) := by decide +kernel
  ⟨exEnc, c, exDisk, evs, h, rfl, rfl, rfl, hh, by
    rw [hh] at hg; simp only [Option.map_some, Option.some.injEq, Prod.mk.injEq] at hg; exact hg.1, by
    rw [hh] at hg; simp only [Option.map_some, Option.some.injEq, Prod.mk.injEq] at hg; exact hg.2⟩

/-- With `ECOENV_LOG_MAX_FILES=0` the log file is never rotated nor emptied: it holds every line ever written, whatever the maximum size. -/
theorem C67_no_files_refuted (e : Enc) (c : Config) (d : Disk) (evs : List Event) (hc : c.consoleOnly = false)
    (hm : c.maxFiles ≤ 0) :
    ∃ h, (run e (setup c d) evs).1.file = some h ∧ h.disk.cur = d.cur ++ (run e (setup c d) evs).2 := by
  obtain ⟨h', a, -, -, b⟩ :=
    run_disk e (fun _ bc d' W => bc ≤ 0 → d'.cur = d.cur ++ W) (fun mb bc k d' r W h => by
      intro hbc
      unfold rotatingEmit
      cases format k r with
      | none => simpa using h hbc
      | some l =>
        have : doRollover bc d' = d' := by unfold doRollover; rw [if_neg (by omega)]
        simp only [this, ite_self, h hbc, List.append_assoc]) evs (setup c d)
    (WF_setup c d) _ (setup_file c d hc) [] (fun _ => by simp)
  exact ⟨h', a, by simpa using b hm⟩

example :
    (match (run exEnc (setup { exConfig 0 with maxFiles := 0 } exDisk)
        ((["abc", "def", "ghi", "jkl", "mno", "pqr", "stu"].map fun t => Event.log keyA (exRec 20 t)))).1.file with
     | some h => decide (h.disk.cur.length = 7 ∧ tell exEnc h.disk.cur = 28)
     | none => false) = true := by
  decide +kernel

end Verif.Logs
