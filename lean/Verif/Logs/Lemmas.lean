import Verif.Logs.Spec

/-! # Helper lemmas about logging -/

namespace Verif.Logs

open Verif.Logs.Spec

theorem severity_eq (n : Nat) : severityForLevelno n = severityOf n := by
  unfold severityForLevelno severityOf severity
  simp only [List.lookup]
  by_cases h1 : n = 10
  · subst h1; rfl
  by_cases h2 : n = 20
  · subst h2; rfl
  by_cases h3 : n = 30
  · subst h3; rfl
  by_cases h4 : n = 40
  · subst h4; rfl
  by_cases h5 : n = 50
  · subst h5; rfl
  have g : ∀ m, n ≠ m → (n == m) = false := fun m h => by simpa using h
  rw [if_neg h1, if_neg h2, if_neg h3, if_neg h4, if_neg h5, g _ h1, g _ h2, g _ h3, g _ h4, g _ h5]
  rfl

theorem format_eq (k : Option Key) (r : Record) : format k r = lineOf (k, r) := by
  unfold format lineOf
  cases r.message with
  | none => rfl
  | some b => simp only [Option.map_some, severity_eq]

theorem content_line (p : Option Key × Record) : (lineOf p).map content = contentOf p.2 := by
  unfold lineOf contentOf
  cases p.2.message <;> rfl

theorem rotatingEmit_written (e : Enc) (mb bc : Int) (k : Option Key) (d : Disk) (r : Record) :
    (rotatingEmit e mb bc k d r).2 = [r].filterMap (fun r => lineOf (k, r)) := by
  unfold rotatingEmit
  rw [format_eq]
  cases h : lineOf (k, r) <;> simp [h]

theorem emitAll_written (e : Enc) (mb bc : Int) (k : Option Key) (d : Disk) (rs : List Record) :
    (emitAll e mb bc k d rs).2 = rs.filterMap (fun r => lineOf (k, r)) := by
  induction rs generalizing d with
  | nil => rfl
  | cons r rs ih =>
    simp only [emitAll, ih, rotatingEmit_written]
    rw [← List.filterMap_append]; rfl

theorem map_content (k : Option Key) (rs : List Record) :
    (rs.filterMap (fun r => lineOf (k, r))).map content = rs.filterMap contentOf := by
  induction rs with
  | nil => rfl
  | cons r rs ih =>
    have := content_line (k, r)
    cases h : lineOf (k, r) with
    | none => rw [h] at this; simp only [List.filterMap_cons, h, ih, ← this, Option.map_none]
    | some l => rw [h] at this; simp only [List.filterMap_cons, h, ih, ← this, Option.map_some, List.map_cons]

theorem carries_lines (k : Option Key) (rs : List Record) :
    ∀ l ∈ rs.filterMap (fun r => lineOf (k, r)), carries k l := by
  intro l hl
  obtain ⟨r, -, h⟩ := List.mem_filterMap.1 hl
  unfold lineOf at h
  cases hm : r.message with
  | none => simp [hm] at h
  | some b => simp only [hm, Option.map_some, Option.some.injEq] at h; subst h; exact ⟨rfl, rfl⟩

/-- Both handlers and the logger agree on the level. -/
structure WF (s : State) : Prop where
  file : ∀ h, s.file = some h → h.level = s.level
  console : ∀ c, s.console = some c → c.level = s.level

theorem WF_setup (c : Config) (d : Disk) : WF (setup c d) := by
  constructor
  · intro h hh; unfold setup at hh ⊢
    by_cases hc : c.consoleOnly
    · simp [hc] at hh
    · simp [hc] at hh; subst hh; rfl
  · intro h hh; unfold setup at hh ⊢
    by_cases hc : c.fileOnly
    · simp [hc] at hh
    · simp [hc] at hh; subst hh; rfl

/-- What one event does to the file handler: some of the records waiting, oldest first, are written in the context of the event. -/
structure StepOk (h : FileHandler) (k : Option Key) (new : List Record) (h' : FileHandler) (w : List Line) : Prop where
  ex : ∃ done, h.buffer ++ new = done ++ h'.buffer ∧ w = done.filterMap (fun r => lineOf (k, r))
  maxBytes : h'.maxBytes = h.maxBytes
  backupCount : h'.backupCount = h.backupCount

theorem flush_ok (e : Enc) (k : Option Key) (h : FileHandler) :
    StepOk h k [] (h.flush e k).1 (h.flush e k).2 ∧ (h.flush e k).1.buffer = [] ∧ (h.flush e k).1.level = h.level ∧
      (h.flush e k).1.capacity = h.capacity := by
  refine ⟨⟨⟨h.buffer, ?_, ?_⟩, rfl, rfl⟩, rfl, rfl, rfl⟩
  · simp [FileHandler.flush]
  · simp only [FileHandler.flush, emitAll_written]

theorem emit_ok (e : Enc) (k : Option Key) (h : FileHandler) (r : Record) :
    StepOk h k [r] (h.emit e k r).1 (h.emit e k r).2 ∧ (h.emit e k r).1.level = h.level ∧
      (h.emit e k r).1.capacity = h.capacity := by
  unfold FileHandler.emit
  by_cases hc : ((h.buffer ++ [r]).length : Int) ≥ h.capacity
  · simp only [if_pos hc]
    refine ⟨⟨⟨h.buffer ++ [r], ?_, ?_⟩, rfl, rfl⟩, rfl, rfl⟩
    · simp [FileHandler.flush]
    · simp only [FileHandler.flush, emitAll_written]
  · simp only [if_neg hc]
    exact ⟨⟨⟨[], rfl, rfl⟩, rfl, rfl⟩, trivial, trivial⟩

/-- After a record was accepted, fewer records wait than the capacity. -/
theorem emit_bound (e : Enc) (k : Option Key) (h : FileHandler) (r : Record) :
    (h.emit e k r).1.buffer.length = 0 ∨ ((h.emit e k r).1.buffer.length : Int) < h.capacity := by
  unfold FileHandler.emit
  by_cases hc : ((h.buffer ++ [r]).length : Int) ≥ h.capacity
  · simp only [if_pos hc]; left; rfl
  · simp only [if_neg hc]; right; exact Int.not_le.1 hc

theorem emit_small (e : Enc) (k : Option Key) (h : FileHandler) (r : Record) (hc : h.capacity ≤ 1) :
    (h.emit e k r).1.buffer = [] := by
  have := emit_bound e k h r
  cases hb : (h.emit e k r).1.buffer with
  | nil => rfl
  | cons a b => rw [hb] at this; simp only [List.length_cons] at this; omega

theorem setLevel_eq (s : State) (name : String) :
    setLevel s name = match levelNumber.lookup name with
      | some n => setLevelNo s n
      | none => s := by
  unfold setLevel levelNumber
  simp only [List.lookup]
  by_cases h1 : name = "debug"
  · subst h1; rfl
  by_cases h2 : name = "info"
  · subst h2; rfl
  by_cases h3 : name = "warn"
  · subst h3; rfl
  by_cases h4 : name = "error"
  · subst h4; rfl
  by_cases h5 : name = "critical"
  · subst h5; rfl
  have g : ∀ m, name ≠ m → (name == m) = false := fun m h => by simpa using h
  rw [if_neg h1, if_neg h2, if_neg h3, if_neg h4, if_neg h5, g _ h1, g _ h2, g _ h3, g _ h4, g _ h5]

/-- The file handler before and after an event. -/
structure FileOk (e : Enc) (s : State) (h : FileHandler) (ev : Event) (h' : FileHandler) : Prop where
  file : (step e s ev).1.file = some h'
  ok : StepOk h (keyOf ev) (((logged ev).filter fun p => decide (s.level ≤ p.2.levelno)).map Prod.snd) h' (step e s ev).2

theorem logCall_level (e : Enc) (k : Option Key) (s : State) (r : Record) : (logCall e k s r).1.level = s.level := by
  unfold logCall
  by_cases h : r.levelno ≥ s.level
  · simp only [if_pos h]
  · simp only [if_neg h]

theorem logCall_console (e : Enc) (k : Option Key) (s : State) (r : Record) (hw : WF s) :
    (logCall e k s r).1.console = if s.level ≤ r.levelno then s.console.map fun c => c.emit k r else s.console := by
  unfold logCall
  by_cases h : r.levelno ≥ s.level
  · simp only [if_pos h]
    cases hc : s.console with
    | none => rfl
    | some c => simp only [Option.map_some, if_pos (show r.levelno ≥ c.level by rw [hw.console c hc]; exact h)]
  · simp only [if_neg h]

theorem logCall_file (e : Enc) (k : Option Key) (s : State) (r : Record) (hw : WF s) (h : FileHandler) (hf : s.file = some h) :
    ((logCall e k s r).1.file, (logCall e k s r).2) =
      if s.level ≤ r.levelno then (some (h.emit e k r).1, (h.emit e k r).2) else (some h, []) := by
  unfold logCall
  by_cases hl : r.levelno ≥ s.level
  · have hl' : r.levelno ≥ h.level := by rw [hw.file h hf]; exact hl
    simp only [if_pos hl, hf, if_pos hl']
  · simp only [if_neg hl, hf]

theorem logCall_nofile (e : Enc) (k : Option Key) (s : State) (r : Record) (hf : s.file = none) :
    (logCall e k s r).1.file = none ∧ (logCall e k s r).2 = [] := by
  unfold logCall
  by_cases hl : r.levelno ≥ s.level
  · simp only [if_pos hl, hf]; exact ⟨trivial, trivial⟩
  · simp only [if_neg hl, hf]; exact ⟨trivial, trivial⟩

theorem console_emit_level (k : Option Key) (c : Console) (r : Record) : (c.emit k r).level = c.level := by
  unfold Console.emit; cases format k r <;> rfl

theorem WF_logCall (e : Enc) (k : Option Key) (s : State) (r : Record) (hw : WF s) : WF (logCall e k s r).1 := by
  constructor
  · intro h hh
    rw [logCall_level]
    cases hf : s.file with
    | none => rw [(logCall_nofile e k s r hf).1] at hh; cases hh
    | some h₀ =>
      have h1 := congrArg Prod.fst (logCall_file e k s r hw h₀ hf)
      by_cases hl : s.level ≤ r.levelno
      · simp only [if_pos hl, hh, Option.some.injEq] at h1
        rw [h1, (emit_ok e k h₀ r).2.1]; exact hw.file _ hf
      · simp only [if_neg hl, hh, Option.some.injEq] at h1
        rw [h1]; exact hw.file _ hf
  · intro c hc
    rw [logCall_level]
    rw [logCall_console e k s r hw] at hc
    by_cases hl : s.level ≤ r.levelno
    · rw [if_pos hl] at hc
      cases hs : s.console with
      | none => rw [hs] at hc; cases hc
      | some c₀ =>
        rw [hs] at hc; simp only [Option.map_some, Option.some.injEq] at hc
        subst hc; rw [console_emit_level]; exact hw.console _ hs
    · rw [if_neg hl] at hc; exact hw.console _ hc

theorem level_step (e : Enc) (s : State) (ev : Event) : (step e s ev).1.level = levelAfter s.level ev := by
  cases ev with
  | log k r => exact logCall_level e k s r
  | setLevel k n =>
    simp only [step, setLevel_eq, levelAfter]
    cases levelNumber.lookup n <;> rfl
  | setBufferSize k n => exact logCall_level e k s _
  | flush k => simp only [step, flush]; cases s.file <;> rfl
  | shutdown k => simp only [step, shutdown]; cases s.file <;> rfl

theorem WF_step (e : Enc) (s : State) (ev : Event) (hw : WF s) : WF (step e s ev).1 := by
  cases ev with
  | log k r => exact WF_logCall e k s r hw
  | setLevel k n =>
    simp only [step, setLevel_eq]
    cases levelNumber.lookup n with
    | none => exact hw
    | some m =>
      constructor
      · intro h hh; simp only [setLevelNo] at hh ⊢
        cases hs : s.file with
        | none => rw [hs] at hh; cases hh
        | some h₀ => rw [hs] at hh; simp only [Option.map_some, Option.some.injEq] at hh; subst hh; rfl
      · intro h hh; simp only [setLevelNo] at hh ⊢
        cases hs : s.console with
        | none => rw [hs] at hh; cases hh
        | some h₀ => rw [hs] at hh; simp only [Option.map_some, Option.some.injEq] at hh; subst hh; rfl
  | setBufferSize k n =>
    have hw' := WF_logCall e k s { levelno := 20, message := some (bufferMessage n) } hw
    constructor
    · intro h hh
      simp only [step, setBufferSize] at hh ⊢
      cases hs : (logCall e k s { levelno := 20, message := some (bufferMessage n) }).1.file with
      | none => rw [hs] at hh; cases hh
      | some h₀ =>
        rw [hs] at hh; simp only [Option.map_some, Option.some.injEq] at hh; subst hh
        exact hw'.file h₀ hs
    · exact hw'.console
  | flush k =>
    simp only [step, flush]
    cases hs : s.file with
    | none => exact hw
    | some h₀ =>
      refine ⟨?_, hw.console⟩
      intro h hh; simp only [Option.some.injEq] at hh; subst hh
      exact hw.file h₀ hs
  | shutdown k =>
    simp only [step, shutdown]
    cases hs : s.file with
    | none => exact hw
    | some h₀ =>
      refine ⟨?_, hw.console⟩
      intro h hh; simp only [Option.some.injEq] at hh; subst hh
      exact hw.file h₀ hs

theorem file_step (e : Enc) (s : State) (ev : Event) (hw : WF s) (h : FileHandler) (hf : s.file = some h) :
    ∃ h', FileOk e s h ev h' := by
  cases ev with
  | log k r =>
    have h1 := logCall_file e k s r hw h hf
    by_cases hl : s.level ≤ r.levelno
    · rw [if_pos hl] at h1
      refine ⟨(h.emit e k r).1, congrArg Prod.fst h1, ?_⟩
      have h2 := congrArg Prod.snd h1
      simp only at h2
      simp only [step, logged, keyOf, h2, List.filter_cons, hl, decide_true, if_true, List.filter_nil, List.map_cons, List.map_nil]
      exact (emit_ok e k h r).1
    · rw [if_neg hl] at h1
      refine ⟨h, congrArg Prod.fst h1, ?_⟩
      have h2 := congrArg Prod.snd h1
      simp only at h2
      simp only [step, logged, keyOf, h2, List.filter_cons, hl, decide_false, List.filter_nil]
      exact ⟨⟨[], by simp, rfl⟩, rfl, rfl⟩
  | setLevel k n =>
    cases hn : levelNumber.lookup n with
    | none => exact ⟨h, by simp only [step, setLevel_eq, hn]; exact hf, ⟨⟨[], by simp [logged], by simp [step]⟩, rfl, rfl⟩⟩
    | some m =>
      exact ⟨{ h with level := m }, by simp only [step, setLevel_eq, hn, setLevelNo, hf]; rfl,
        ⟨⟨[], by simp [logged], by simp [step]⟩, rfl, rfl⟩⟩
  | setBufferSize k n =>
    have h1 := logCall_file e k s { levelno := 20, message := some (bufferMessage n) } hw h hf
    have h3 := congrArg Prod.fst h1
    have h2 := congrArg Prod.snd h1
    by_cases hl : s.level ≤ 20
    · simp only [if_pos hl] at h2 h3
      refine ⟨{ (h.emit e k { levelno := 20, message := some (bufferMessage n) }).1 with capacity := n }, ?_, ?_⟩
      · simp only [step, setBufferSize, h3]; rfl
      · have := (emit_ok e k h { levelno := 20, message := some (bufferMessage n) }).1
        simp only [step, setBufferSize, logged, keyOf, h2, List.filter_cons, hl, decide_true, if_true, List.filter_nil, List.map_cons,
          List.map_nil]
        exact ⟨this.ex, this.maxBytes, this.backupCount⟩
    · simp only [if_neg hl] at h2 h3
      refine ⟨{ h with capacity := n }, ?_, ?_⟩
      · simp only [step, setBufferSize, h3]; rfl
      · simp only [step, setBufferSize, logged, keyOf, h2, List.filter_cons, hl, decide_false, List.filter_nil]
        exact ⟨⟨[], by simp, rfl⟩, rfl, rfl⟩
  | flush k =>
    refine ⟨(h.flush e k).1, by simp only [step, flush, hf], ?_⟩
    simp only [step, flush, hf]
    exact (flush_ok e k h).1
  | shutdown k =>
    refine ⟨((h.flush e k).1.close e k).1, by simp only [step, shutdown, hf], ?_⟩
    simp only [step, shutdown, hf]
    have hc : ((h.flush e k).1.close e k).2 = [] := by
      simp only [FileHandler.close, FileHandler.flush, emitAll]
    rw [hc, List.append_nil]
    have := (flush_ok e k h).1
    refine ⟨?_, rfl, rfl⟩
    obtain ⟨done, h1, h2⟩ := this.ex
    exact ⟨done, h1, h2⟩

/-- A whole history. -/
theorem run_file (e : Enc) (evs : List Event) (s : State) (hw : WF s) (h : FileHandler) (hf : s.file = some h) :
    ∃ h' done, (run e s evs).1.file = some h' ∧
      h.buffer ++ (accepted s.level evs).map Prod.snd = done ++ h'.buffer ∧
      (run e s evs).2.map content = done.filterMap contentOf ∧
      h'.maxBytes = h.maxBytes ∧ h'.backupCount = h.backupCount := by
  induction evs generalizing s h with
  | nil => exact ⟨h, [], hf, by simp [accepted], rfl, rfl, rfl⟩
  | cons ev evs ih =>
    obtain ⟨h1, hok⟩ := file_step e s ev hw h hf
    obtain ⟨h', done, a, b, c, d1, d2⟩ := ih _ (WF_step e s ev hw) h1 hok.file
    obtain ⟨done₁, p, q⟩ := hok.ok.ex
    rw [level_step] at b
    refine ⟨h', done₁ ++ done, a, ?_, ?_, by rw [d1, hok.ok.maxBytes], by rw [d2, hok.ok.backupCount]⟩
    · simp only [accepted, List.map_append]
      rw [← List.append_assoc, p, List.append_assoc, b, List.append_assoc]
    · simp only [run, List.map_append, c, q, map_content, List.filterMap_append]

theorem WF_run (e : Enc) (evs : List Event) (s : State) (hw : WF s) : WF (run e s evs).1 := by
  induction evs generalizing s with
  | nil => exact hw
  | cons ev evs ih => exact ih _ (WF_step e s ev hw)

theorem run_append (e : Enc) (a b : List Event) (s : State) :
    run e s (a ++ b) = ((run e (run e s a).1 b).1, (run e s a).2 ++ (run e (run e s a).1 b).2) := by
  induction a generalizing s with
  | nil => simp [run]
  | cons ev evs ih => simp only [List.cons_append, run, ih, List.append_assoc]

theorem level_run (e : Enc) (evs : List Event) (s : State) : (run e s evs).1.level = evs.foldl levelAfter s.level := by
  induction evs generalizing s with
  | nil => rfl
  | cons ev evs ih => simp only [run, ih, level_step, List.foldl_cons]

theorem accepted_append (a b : List Event) (l : Nat) : accepted l (a ++ b) = accepted l a ++ accepted (a.foldl levelAfter l) b := by
  induction a generalizing l with
  | nil => rfl
  | cons ev evs ih => simp only [List.cons_append, accepted, ih, List.foldl_cons, List.append_assoc]

/-- The capacity after an event. -/
theorem capacity_step (e : Enc) (s : State) (ev : Event) (hw : WF s) (h h' : FileHandler) (hf : s.file = some h)
    (hf' : (step e s ev).1.file = some h') :
    h'.capacity = sizeAfter h.capacity ev := by
  cases ev with
  | log k r =>
    have h1 := congrArg Prod.fst (logCall_file e k s r hw h hf)
    simp only [step] at hf'
    by_cases hl : s.level ≤ r.levelno
    · simp only [if_pos hl, hf', Option.some.injEq] at h1
      rw [h1]; exact (emit_ok e k h r).2.2
    · simp only [if_neg hl, hf', Option.some.injEq] at h1
      rw [h1]; rfl
  | setLevel k n =>
    simp only [step, setLevel_eq] at hf'
    cases hn : levelNumber.lookup n with
    | none => rw [hn] at hf'; simp only [hf, Option.some.injEq] at hf'; rw [← hf']; rfl
    | some m => rw [hn] at hf'; simp only [setLevelNo, hf, Option.map_some, Option.some.injEq] at hf'; rw [← hf']; rfl
  | setBufferSize k n =>
    simp only [step, setBufferSize] at hf'
    cases hs : (logCall e k s { levelno := 20, message := some (bufferMessage n) }).1.file with
    | none => rw [hs] at hf'; cases hf'
    | some h₀ => rw [hs] at hf'; simp only [Option.map_some, Option.some.injEq] at hf'; rw [← hf']; rfl
  | flush k => simp only [step, flush, hf, Option.some.injEq] at hf'; rw [← hf']; rfl
  | shutdown k => simp only [step, shutdown, hf, Option.some.injEq] at hf'; rw [← hf']; rfl

/-- How many records wait after an event. -/
theorem buffer_step (e : Enc) (s : State) (ev : Event) (hw : WF s) (h h' : FileHandler) (hf : s.file = some h)
    (hf' : (step e s ev).1.file = some h') :
    h'.buffer.length ≤ h.buffer.length ∨ h'.buffer.length = 0 ∨ (h'.buffer.length : Int) < h.capacity := by
  cases ev with
  | log k r =>
    have h1 := congrArg Prod.fst (logCall_file e k s r hw h hf)
    simp only [step] at hf'
    by_cases hl : s.level ≤ r.levelno
    · simp only [if_pos hl, hf', Option.some.injEq] at h1
      rw [h1]; exact Or.inr (emit_bound e k h r)
    · simp only [if_neg hl, hf', Option.some.injEq] at h1
      rw [h1]; exact Or.inl (Nat.le_refl _)
  | setLevel k n =>
    simp only [step, setLevel_eq] at hf'
    cases hn : levelNumber.lookup n with
    | none => rw [hn] at hf'; simp only [hf, Option.some.injEq] at hf'; rw [← hf']; exact Or.inl (Nat.le_refl _)
    | some m =>
      rw [hn] at hf'; simp only [setLevelNo, hf, Option.map_some, Option.some.injEq] at hf'; rw [← hf']; exact Or.inl (Nat.le_refl _)
  | setBufferSize k n =>
    have h1 := congrArg Prod.fst (logCall_file e k s { levelno := 20, message := some (bufferMessage n) } hw h hf)
    simp only [step, setBufferSize] at hf'
    by_cases hl : s.level ≤ 20
    · simp only [if_pos hl] at h1
      rw [h1] at hf'; simp only [Option.map_some, Option.some.injEq] at hf'
      rw [← hf']; exact Or.inr (emit_bound e k h _)
    · simp only [if_neg hl] at h1
      rw [h1] at hf'; simp only [Option.map_some, Option.some.injEq] at hf'
      rw [← hf']; exact Or.inl (Nat.le_refl _)
  | flush k => simp only [step, flush, hf, Option.some.injEq] at hf'; rw [← hf']; exact Or.inr (Or.inl rfl)
  | shutdown k => simp only [step, shutdown, hf, Option.some.injEq] at hf'; rw [← hf']; exact Or.inr (Or.inl rfl)

/-! ## Rotation -/

theorem shiftFrom_spec (l : List File) (n : Nat) (i : Nat) (old : Nat → Option File) (hi : i < n)
    (low : ∀ j, j < i → old (j + 1) = l[j]?) (mid : old (i + 1) = l[i]? ∨ old (i + 1) = none)
    (high : ∀ j, i < j → j < n → old (j + 1) = l[j - 1]?) (top : ∀ j, n ≤ j → old (j + 1) = none) :
    ∀ j, 1 ≤ j → shiftFrom i old (j + 1) = if j < n then l[j - 1]? else none := by
  induction i generalizing old with
  | zero =>
    intro j hj
    simp only [shiftFrom]
    by_cases hn : j < n
    · rw [if_pos hn]; exact high j hj hn
    · rw [if_neg hn]; exact top j (by omega)
  | succ i ih =>
    simp only [shiftFrom]
    have hsrc : old (i + 1) = l[i]? := low i (by omega)
    apply ih
    · omega
    · intro j hj
      unfold shift
      cases hs : old (i + 1) with
      | none => exact low j (by omega)
      | some f =>
        simp only
        rw [if_neg (by omega), if_neg (by omega)]
        exact low j (by omega)
    · unfold shift
      cases hs : old (i + 1) with
      | none => right; exact hs
      | some f =>
        right
        simp only
        rw [if_neg (by omega), if_pos trivial]
    · intro j hj hjn
      by_cases hj2 : j = i + 1
      · subst hj2
        unfold shift
        rw [hsrc]
        cases hs : l[i]? with
        | none =>
          have h2 : l[i + 1]? = none := by
            rw [List.getElem?_eq_none_iff] at hs ⊢; omega
          simp only
          rcases mid with m | m
          · rw [m, h2, Nat.add_sub_cancel, hs]
          · rw [m, Nat.add_sub_cancel, hs]
        | some f =>
          simp only [if_true, Nat.add_sub_cancel, hs]
      · unfold shift
        cases hs : old (i + 1) with
        | none => exact high j (by omega) hjn
        | some f =>
          simp only
          rw [if_neg (by omega), if_neg (by omega)]
          exact high j (by omega) hjn
    · intro j hj
      unfold shift
      cases hs : old (i + 1) with
      | none => exact top j hj
      | some f =>
        simp only
        rw [if_neg (by omega), if_neg (by omega)]
        exact top j hj

theorem doRollover_spec (bc : Int) (d : Disk) (l : List File) (hb : Backups d.old l) (hl : (l.length : Int) ≤ bc) (hbc : bc > 0) :
    (doRollover bc d).cur = [] ∧ Backups (doRollover bc d).old ((d.cur :: l).take bc.toNat) := by
  unfold doRollover
  rw [if_pos hbc]
  refine ⟨rfl, ?_⟩
  have hn : bc.toNat - 1 < bc.toNat := by omega
  have hs := shiftFrom_spec l bc.toNat (bc.toNat - 1) d.old hn (fun j _ => hb j) (Or.inl (hb _))
    (fun j h1 h2 => by omega)
    (fun j hj => by rw [hb j, List.getElem?_eq_none_iff]; omega)
  intro i
  simp only
  cases i with
  | zero =>
    rw [if_pos rfl, List.getElem?_take_of_lt (by omega)]; rfl
  | succ i =>
    rw [if_neg (by omega), hs (i + 1) (by omega)]
    by_cases h : i + 1 < bc.toNat
    · rw [if_pos h, List.getElem?_take_of_lt h]; rfl
    · rw [if_neg h]
      symm
      rw [List.getElem?_eq_none_iff, List.length_take]; omega

/-- Anything that every single write preserves holds along every history. -/
theorem run_disk (e : Enc) (P : Int → Int → Disk → List Line → Prop)
    (hP : ∀ mb bc k d r W, P mb bc d W → P mb bc (rotatingEmit e mb bc k d r).1 (W ++ (rotatingEmit e mb bc k d r).2))
    (evs : List Event) (s : State) (hw : WF s) (h : FileHandler) (hf : s.file = some h) (W : List Line)
    (h0 : P h.maxBytes h.backupCount h.disk W) :
    ∃ h', (run e s evs).1.file = some h' ∧ h'.maxBytes = h.maxBytes ∧ h'.backupCount = h.backupCount ∧
      P h.maxBytes h.backupCount h'.disk (W ++ (run e s evs).2) := by
  have all : ∀ mb bc k rs d W, P mb bc d W → P mb bc (emitAll e mb bc k d rs).1 (W ++ (emitAll e mb bc k d rs).2) := by
    intro mb bc k rs
    induction rs with
    | nil => intro d W h; simpa [emitAll] using h
    | cons r rs ih =>
      intro d W h
      simp only [emitAll]
      rw [← List.append_assoc]
      exact ih _ _ (hP mb bc k d r W h)
  have fl : ∀ (h : FileHandler) k W, P h.maxBytes h.backupCount h.disk W →
      P h.maxBytes h.backupCount (h.flush e k).1.disk (W ++ (h.flush e k).2) := by
    intro h k W h0
    exact all _ _ k h.buffer h.disk W h0
  have em : ∀ (h : FileHandler) k r W, P h.maxBytes h.backupCount h.disk W →
      P h.maxBytes h.backupCount (h.emit e k r).1.disk (W ++ (h.emit e k r).2) := by
    intro h k r W h0
    unfold FileHandler.emit
    by_cases hc : ((h.buffer ++ [r]).length : Int) ≥ h.capacity
    · simp only [if_pos hc]
      exact fl { h with buffer := h.buffer ++ [r] } k W h0
    · simp only [if_neg hc, List.append_nil]; exact h0
  induction evs generalizing s h W with
  | nil => exact ⟨h, hf, rfl, rfl, by simpa [run] using h0⟩
  | cons ev evs ih =>
    obtain ⟨h1, hok⟩ := file_step e s ev hw h hf
    have hmb := hok.ok.maxBytes
    have hbc := hok.ok.backupCount
    have hstep : P h.maxBytes h.backupCount h1.disk (W ++ (step e s ev).2) := by
      have hf1 := hok.file
      cases ev with
      | log k r =>
        have h2 := logCall_file e k s r hw h hf
        have h3 := congrArg Prod.fst h2
        have h4 := congrArg Prod.snd h2
        simp only [step] at hf1 ⊢
        by_cases hl : s.level ≤ r.levelno
        · simp only [if_pos hl, hf1, Option.some.injEq] at h3 h4
          rw [h4, h3]; exact em h k r W h0
        · simp only [if_neg hl, hf1, Option.some.injEq] at h3 h4
          rw [h4, h3, List.append_nil]; exact h0
      | setLevel k n =>
        simp only [step, setLevel_eq] at hf1 ⊢
        rw [List.append_nil]
        cases hn : levelNumber.lookup n with
        | none => rw [hn] at hf1; simp only [hf, Option.some.injEq] at hf1; rw [← hf1]; exact h0
        | some m => rw [hn] at hf1; simp only [setLevelNo, hf, Option.map_some, Option.some.injEq] at hf1; rw [← hf1]; exact h0
      | setBufferSize k n =>
        have h2 := logCall_file e k s { levelno := 20, message := some (bufferMessage n) } hw h hf
        have h3 := congrArg Prod.fst h2
        have h4 := congrArg Prod.snd h2
        simp only [step, setBufferSize] at hf1 ⊢
        by_cases hl : s.level ≤ 20
        · simp only [if_pos hl] at h3 h4
          rw [h3] at hf1; simp only [Option.map_some, Option.some.injEq] at hf1
          rw [h4, ← hf1]; exact em h k _ W h0
        · simp only [if_neg hl] at h3 h4
          rw [h3] at hf1; simp only [Option.map_some, Option.some.injEq] at hf1
          rw [h4, ← hf1, List.append_nil]; exact h0
      | flush k =>
        simp only [step, flush, hf, Option.some.injEq] at hf1 ⊢
        rw [← hf1]; exact fl h k W h0
      | shutdown k =>
        simp only [step, shutdown, hf, Option.some.injEq] at hf1 ⊢
        rw [← hf1, ← List.append_assoc]
        exact fl (h.flush e k).1 k _ (fl h k W h0)
    rw [← hmb, ← hbc] at hstep
    obtain ⟨h', a, b, c, d⟩ := ih _ (WF_step e s ev hw) h1 hok.file _ hstep
    refine ⟨h', a, by rw [b, hmb], by rw [c, hbc], ?_⟩
    rw [hmb, hbc, List.append_assoc] at d
    exact d

/-- The files hold the last lines written, in order; nothing was dropped while there was room. -/
def Kept (bc : Int) (d : Disk) (W : List Line) : Prop :=
  ∃ l lost, Backups d.old l ∧ (l = [] ∨ (l.length : Int) ≤ bc) ∧ W = lost ++ (l.reverse.flatten ++ d.cur) ∧
    (lost = [] ∨ (l.length : Int) = bc)

theorem flatten_snoc (a : List File) (b : File) : (a ++ [b]).flatten = a.flatten ++ b := by simp

theorem Kept_emit (e : Enc) (mb bc : Int) (k : Option Key) (d : Disk) (r : Record) (W : List Line) (h : Kept bc d W) :
    Kept bc (rotatingEmit e mb bc k d r).1 (W ++ (rotatingEmit e mb bc k d r).2) := by
  obtain ⟨l, lost, h1, h2, h3, h4⟩ := h
  unfold rotatingEmit
  cases hfm : format k r with
  | none => simp only [List.append_nil]; exact ⟨l, lost, h1, h2, h3, h4⟩
  | some line =>
    simp only
    by_cases hr : shouldRollover e mb d line = true
    · rw [if_pos hr]
      by_cases hbc : bc > 0
      · have hlen : (l.length : Int) ≤ bc := by
          rcases h2 with rfl | h2
          · simp only [List.length_nil]; omega
          · exact h2
        obtain ⟨hcur, hb⟩ := doRollover_spec bc d l h1 hlen hbc
        have hlt : ((d.cur :: l).length : Int) ≤ bc + 1 := by simp only [List.length_cons]; omega
        have hsplit : (d.cur :: l) = (d.cur :: l).take bc.toNat ++ (d.cur :: l).drop bc.toNat := (List.take_append_drop _ _).symm
        refine ⟨(d.cur :: l).take bc.toNat, lost ++ ((d.cur :: l).drop bc.toNat).reverse.flatten, hb, Or.inr ?_, ?_, ?_⟩
        · rw [List.length_take]; omega
        · simp only [hcur, List.nil_append]
          have hall : l.reverse.flatten ++ d.cur =
              ((d.cur :: l).drop bc.toNat).reverse.flatten ++ ((d.cur :: l).take bc.toNat).reverse.flatten := by
            rw [← List.flatten_append, ← List.reverse_append, List.take_append_drop, List.reverse_cons, flatten_snoc]
          rw [h3, hall]
          simp only [List.append_assoc]
        · by_cases hfull : (d.cur :: l).length ≤ bc.toNat
          · rw [List.drop_eq_nil_iff.2 hfull]
            simp only [List.length_cons] at hfull
            rcases h4 with rfl | h4
            · left; rfl
            · omega
          · right; rw [List.length_take]; simp only [List.length_cons] at hfull ⊢; omega
      · unfold doRollover
        rw [if_neg hbc]
        exact ⟨l, lost, h1, h2, by rw [h3]; simp only [List.append_assoc], h4⟩
    · rw [if_neg hr]
      exact ⟨l, lost, h1, h2, by rw [h3]; simp only [List.append_assoc], h4⟩

/-- No file is larger than allowed, unless it is a single line. -/
def Small (e : Enc) (mb bc : Int) (d : Disk) : Prop :=
  bc > 0 → mb > 0 → (((tell e d.cur : Nat) : Int) < mb ∨ d.cur.length ≤ 1) ∧
    ∃ l, Backups d.old l ∧ (l.length : Int) ≤ bc ∧ ∀ f ∈ l, ((tell e f : Nat) : Int) < mb ∨ f.length ≤ 1

theorem Small_emit (e : Enc) (he : ∀ l, e.bytes l ≤ e.chars l) (mb bc : Int) (k : Option Key) (d : Disk) (r : Record)
    (h : Small e mb bc d) : Small e mb bc (rotatingEmit e mb bc k d r).1 := by
  intro hbc hmb
  obtain ⟨h1, l, h2, h3, h4⟩ := h hbc hmb
  unfold rotatingEmit
  cases hfm : format k r with
  | none => exact ⟨h1, l, h2, h3, h4⟩
  | some line =>
    simp only
    by_cases hr : shouldRollover e mb d line = true
    · rw [if_pos hr]
      obtain ⟨hcur, hb⟩ := doRollover_spec bc d l h2 h3 hbc
      refine ⟨Or.inr (by simp [hcur]), (d.cur :: l).take bc.toNat, hb, ?_, ?_⟩
      · rw [List.length_take]; omega
      · intro f hf
        rcases List.mem_cons.1 (List.mem_of_mem_take hf) with rfl | hf'
        · exact h1
        · exact h4 f hf'
    · rw [if_neg hr]
      refine ⟨Or.inl ?_, l, h2, h3, h4⟩
      unfold shouldRollover at hr
      simp only [hmb, decide_true, Bool.true_and, decide_eq_true_eq] at hr
      have := he line
      have ht : tell e (d.cur ++ [line]) = tell e d.cur + e.bytes line := by simp [tell]
      simp only [ht]; omega

end Verif.Logs
