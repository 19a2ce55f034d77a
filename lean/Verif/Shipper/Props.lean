import Verif.Shipper.Progress

/-!
# Properties C56 and C57: the log shipper
-/

namespace Verif.Shipper

open Verif.Shipper.Spec

/-- The shipper works undisturbed, with a collector that answers. -/
abbrev undisturbed (n : Nat) : List Event := List.replicate n (.exec .ok)

theorem run_work (parses : Str → Bool) (s : State) (n : Nat) : run parses s (undisturbed n) = work parses s n := by
  induction n generalizing s with
  | zero => rfl
  | succ n ih => exact ih _

theorem run_append (parses : Str → Bool) (s : State) (a b : List Event) : run parses s (a ++ b) = run parses (run parses s a) b := by
  unfold run; rw [List.foldl_append]

theorem received_exec (parses : Str → Bool) (s : State) (o : Outcome) : s.received <+: (exec parses s o).received := by
  unfold exec
  repeat' split
  all_goals first | exact List.prefix_rfl | exact List.prefix_append _ _ | skip
  all_goals (dsimp only; split <;> first | exact List.prefix_rfl | exact List.prefix_append _ _)

theorem received_work (parses : Str → Bool) (n : Nat) (s : State) : s.received <+: (work parses s n).received := by
  induction n generalizing s with
  | zero => exact List.prefix_rfl
  | succ n ih => exact (received_exec parses s .ok).trans (ih _)

theorem Exact_prefix (s : State) (h : Exact s) : s.received <+: logged s.world := by
  rcases s with ⟨w, proc, sv, rc⟩
  cases proc with
  | down => simp only [Exact] at h; simp only; rw [h.1]; exact List.nil_prefix
  | opening off => simp only [Exact] at h; simp only; rw [h.2.1]; exact List.nil_prefix
  | running t und pc =>
    obtain ⟨ht, he, -, -⟩ := h
    obtain ⟨f, h1, -⟩ := ht.ex
    simp only at he h1 ⊢
    exact (List.prefix_append rc (waiting und pc)).trans (by rw [he]; exact upto_le w.files w.linked t.fd f h1 t.offset)

theorem not_Bad (parses : Str → Bool) (s : State) (h : ∀ l ∈ logged s.world, parses l = true) : ¬ Bad parses s := by
  rintro ⟨l, h1, h2⟩
  rw [h l h1] at h2; cases h2

/-! ## C56: once and in order -/

/-- What the collector has taken is always a beginning of what was logged: nothing is delivered twice, out of order, or before it is a
complete line; whatever the schedule, the chunks written and the requests refused. -/
theorem C56_prefix (parses : Str → Bool) (evs : List Event) (h : Orderly parses init evs)
    (hp : ∀ l ∈ logged (run parses init evs).world, parses l = true) :
    (run parses init evs).received <+: logged (run parses init evs).world :=
  Exact_prefix _ ((Exact_run parses evs init (Or.inl Exact_init) h).resolve_right (not_Bad parses _ hp))

/-- Whatever has happened, if the log is then left alone and requests are answered, every complete line ever written is delivered, once. -/
theorem C56_all (parses : Str → Bool) (evs : List Event) (h : Orderly parses init evs)
    (hp : ∀ l ∈ logged (run parses init evs).world, parses l = true) (hl : (run parses init evs).world.linked = true) :
    ∃ n, ∀ m ≥ n, (run parses init (evs ++ undisturbed m)).received = logged (run parses init evs).world := by
  have hb := not_Bad parses _ hp
  have he := (Exact_run parses evs init (Or.inl Exact_init) h).resolve_right hb
  simp only [run_append, run_work]
  generalize run parses init evs = s at *
  have hne : s.world.files ≠ [] := by
    rcases s with ⟨w, proc, sv, rc⟩
    intro hf
    simp only at hf hl
    cases proc with
    | down => obtain ⟨-, -, ⟨-, h'⟩ | ⟨f, h', -⟩⟩ := he <;> simp_all
    | opening off => obtain ⟨-, -, f, h', -⟩ := he; simp_all
    | running t und pc => obtain ⟨f, h1, -⟩ := he.1.ex; simp_all
  obtain ⟨n, t, und, pc, f1, f2, f3⟩ := reaches parses s hb (Exact_Struct s he) hl hne
  have hfin : (work parses s n).received = logged s.world := by
    have hx := Exact_work parses n s he hb
    unfold Exact at hx
    rw [f1] at hx
    obtain ⟨-, hx, -, -⟩ := hx
    rw [f2, List.append_nil] at hx
    rw [hx, f3, work_world]
  refine ⟨n, fun m hm => ?_⟩
  obtain ⟨k, rfl⟩ := Nat.exists_eq_add_of_le hm
  have h1 := Exact_prefix _ (Exact_work parses (n + k) s he hb)
  rw [work_world] at h1
  have h2 := received_work parses k (work parses s n)
  rw [← work_add, hfin] at h2
  exact h1.eq_of_length (Nat.le_antisymm h1.length_le h2.length_le)

/-- Everything that parses. -/
def anything : Str → Bool := fun _ => true

/-- A line is written in two chunks, the first request is refused, the file is rotated while the batch waits. -/
def orderlyEvents : List Event :=
  [.create 7, .exec .ok, .exec .ok, .append "a\nb".toList, .exec .ok, .exec .ok, .exec .failed, .append "c\n".toList, .moveAway,
    .create 8, .append "d\n".toList, .exec .ok]

theorem orderlyEvents_ok : Orderly anything init orderlyEvents :=
  ⟨trivial, trivial, trivial, trivial, trivial, trivial, trivial, trivial, by decide +kernel, trivial, trivial, trivial, trivial⟩

example : (run anything init orderlyEvents).received = [] ∧
    logged (run anything init orderlyEvents).world = ["a".toList, "bc".toList, "d".toList] ∧
    (run anything init (orderlyEvents ++ undisturbed 10)).received = ["a".toList, "bc".toList, "d".toList] := by decide +kernel

/-- Rotated files have other names than watched ones: `base.log.1`, `base.log.2` and so on are not read again (handlers.py 176). -/
theorem C56_rotated_names (base : Str) (number : Str) (h : number ≠ []) (hd : ∀ c ∈ number, c.isDigit = true) :
    hasLogSuffix (base ++ ".log".toList) = true ∧ hasLogSuffix (base ++ ".log.".toList ++ number) = false := by
  constructor
  · unfold hasLogSuffix
    simp
  · unfold hasLogSuffix
    obtain ⟨pre, c, rfl⟩ : ∃ pre c, number = pre ++ [c] := ⟨number.dropLast, number.getLast h, (List.dropLast_concat_getLast h).symm⟩
    have hc := hd c (by simp)
    rw [Bool.and_eq_false_iff]
    right
    rw [beq_eq_false_iff_ne]
    intro he
    have hlast := congrArg List.getLast? he
    rw [List.getLast?_drop, if_neg (by simp; omega), ← List.append_assoc, List.getLast?_concat] at hlast
    have : c = 'g' := by simpa using hlast
    subst this
    revert hc; decide

example : hasLogSuffix "service.log.12".toList = false := by decide +kernel

/-! ### What is not true -/

theorem work_cycle (parses : Str → Bool) (s : State) (p : Nat) (hp : 0 < p) (h : work parses s p = s) (n : Nat) :
    ∃ i < p, work parses s n = work parses s i := by
  induction n using Nat.strongRecOn with
  | ind n ih =>
    by_cases hn : n < p
    · exact ⟨n, hn, rfl⟩
    · obtain ⟨i, h1, h2⟩ := ih (n - p) (by omega)
      refine ⟨i, h1, ?_⟩
      rw [show n = p + (n - p) by omega, work_add, h, h2]

/-- If the shipper comes back to the same state, what holds during the first round holds forever. -/
theorem forever (parses : Str → Bool) (s : State) (k p : Nat) (hp : 0 < p) (h : work parses s (k + p) = work parses s k)
    (P : State → Bool) (hP : (List.range (k + p)).all (fun i => P (work parses s i)) = true) (n : Nat) : P (work parses s n) = true := by
  rw [List.all_eq_true] at hP
  by_cases hn : n < k
  · exact hP n (List.mem_range.2 (by omega))
  · rw [work_add] at h
    obtain ⟨i, h1, h2⟩ := work_cycle parses (work parses s k) p hp h (n - k)
    rw [show n = k + (n - k) by omega, work_add, h2, ← work_add]
    exact hP _ (List.mem_range.2 (by omega))

/-- The file is rotated twice between two polls: `b` was in the file in between. -/
def twoRotations : List Event :=
  [.create 7, .exec .ok, .exec .ok, .append "a\n".toList, .moveAway, .create 8, .append "b\n".toList, .moveAway, .create 9,
    .append "c\n".toList]

/-- Two rotations between polls lose a file: without kills, refused requests or malformed lines, `b` is never
delivered. -/
theorem C56_two_rotations_refuted :
    "b".toList ∈ logged (run anything init twoRotations).world ∧
    ∀ n, "b".toList ∉ (run anything init (twoRotations ++ undisturbed n)).received := by
  refine ⟨by decide +kernel, fun n => ?_⟩
  rw [run_append, run_work]
  have := forever anything (run anything init twoRotations) 10 2 (by decide) (by decide +kernel)
    (fun s => !(s.received.contains "b".toList)) (by decide +kernel) n
  simpa using this

/-- The collector takes the batch but its answer is lost: the batch is sent again. -/
def lostAnswer : List Event :=
  [.create 7, .exec .ok, .exec .ok, .append "a\n".toList, .exec .ok, .exec .ok, .exec .unanswered]

theorem C56_unanswered_refuted :
    logged (run anything init lostAnswer).world = ["a".toList] ∧
    (run anything init (lostAnswer ++ undisturbed 5)).received = ["a".toList, "a".toList] := by decide +kernel

/-- Everything but the line `oops`. -/
def butOops : Str → Bool := fun l => l ≠ "oops".toList

def malformed : List Event :=
  [.create 7, .append "a\noops\nb\n".toList]

/-- One malformed line ends the process, and again after every restart: nothing in the file is ever delivered. -/
theorem C56_malformed_refuted :
    logged (run butOops init malformed).world = ["a".toList, "oops".toList, "b".toList] ∧
    ∀ n, (run butOops init (malformed ++ undisturbed n)).received = [] := by
  refine ⟨by decide +kernel, fun n => ?_⟩
  rw [run_append, run_work]
  have := forever butOops (run butOops init malformed) 0 5 (by decide) (by decide +kernel)
    (fun s => s.received.isEmpty) (by decide +kernel) n
  simpa using this

/-! ## C57: restarts -/

/-- With kills and lost answers at any moment at which the rotated files are delivered, every complete line is delivered at least once, and
the first deliveries are in order. Missing: kills while lines of a rotated file are undelivered, and rotations while the shipper is down
with undelivered lines; both lose lines, see below. -/
theorem C57_at_least_once_partial (parses : Str → Bool) (evs : List Event) (h : Careful parses init evs)
    (hp : ∀ l ∈ logged (run parses init evs).world, parses l = true) (hl : (run parses init evs).world.stat ≠ none) :
    ∃ n, ∀ m ≥ n, (logged (run parses init evs).world).Sublist (run parses init (evs ++ undisturbed m)).received := by
  have hb := not_Bad parses _ hp
  have he := AtLeast_run parses evs init AtLeast_init h hb
  simp only [run_append, run_work]
  generalize run parses init evs = s at *
  obtain ⟨hl, hne⟩ := linked_ne _ hl
  obtain ⟨n, t, und, pc, f1, f2, f3⟩ := reaches parses s hb (AtLeast_Struct s he) hl hne
  refine ⟨n, fun m hm => ?_⟩
  obtain ⟨k, rfl⟩ := Nat.exists_eq_add_of_le hm
  have hx := (AtLeast_work parses n s he hb).2
  unfold ProcOk at hx
  rw [f1] at hx
  obtain ⟨-, hx, -⟩ := hx
  rw [f2, List.append_nil, f3, work_world] at hx
  rw [work_add]
  exact hx.trans (received_work parses k _).sublist

/-- Does the event neither rename nor create a file? -/
def noRotation : Event → Bool
  | .moveAway | .create _ => false
  | _ => true

theorem careful_single (parses : Str → Bool) (evs : List Event) (h : evs.all noRotation = true) (s : State)
    (hs : ∃ f, s.world = ⟨[f], true⟩) : Careful parses s evs := by
  induction evs generalizing s with
  | nil => trivial
  | cons ev evs ih =>
    obtain ⟨f, hs⟩ := hs
    simp only [List.all_cons, Bool.and_eq_true] at h
    cases ev with
    | moveAway => cases h.1
    | create i => cases h.1
    | append bs =>
      exact ⟨trivial, ih h.2 _ ⟨{ f with content := f.content ++ bs }, by simp only [step, hs]; rfl⟩⟩
    | exec o => exact ⟨trivial, ih h.2 _ ⟨f, by simp only [step]; rw [exec_world]; exact hs⟩⟩
    | crash =>
      refine ⟨?_, ih h.2 _ ⟨f, hs⟩⟩
      simp only [gone, hs]; simp

/-- A file that is not rotated survives every kill, at any moment and any number of times. -/
theorem C57_one_file (parses : Str → Bool) (inode : Nat) (evs : List Event) (h : evs.all noRotation = true)
    (hp : ∀ l ∈ logged (run parses init (.create inode :: evs)).world, parses l = true) :
    ∃ n, ∀ m ≥ n, (logged (run parses init (.create inode :: evs)).world).Sublist
      (run parses init (.create inode :: evs ++ undisturbed m)).received := by
  have hc : Careful parses init (.create inode :: evs) := ⟨by intro p hp; simp [init] at hp, careful_single parses evs h _ ⟨_, rfl⟩⟩
  refine C57_at_least_once_partial parses _ hc hp ?_
  have : ∀ (evs : List Event) (s : State), evs.all noRotation = true → (∃ f, s.world = ⟨[f], true⟩) →
      ∃ f, (run parses s evs).world = ⟨[f], true⟩ := by
    intro evs
    induction evs with
    | nil => intro s _ hs; exact hs
    | cons ev evs ih =>
      intro s h ⟨f, hs⟩
      simp only [List.all_cons, Bool.and_eq_true] at h
      refine ih (step parses s ev) h.2 ?_
      cases ev with
      | moveAway => cases h.1
      | create i => cases h.1
      | append bs => exact ⟨{ f with content := f.content ++ bs }, by simp only [step, hs]; rfl⟩
      | exec o => exact ⟨f, by simp only [step]; rw [exec_world]; exact hs⟩
      | crash => exact ⟨f, hs⟩
  obtain ⟨f, hf⟩ := this evs (step parses init (.create inode)) h ⟨_, rfl⟩
  rw [show run parses init (.create inode :: evs) = run parses (step parses init (.create inode)) evs from rfl, hf]
  simp [World.stat]

/-- Killed before the position is saved, with half a line behind it; rotated later; killed again after the old file is delivered. -/
def carefulEvents : List Event :=
  [.create 7, .exec .ok, .exec .ok, .append "a\nb".toList, .exec .ok, .exec .ok, .exec .ok, .crash, .exec .ok, .exec .ok,
    .append "c\n".toList, .exec .ok, .moveAway, .create 8, .append "d\n".toList, .exec .ok, .exec .ok, .exec .ok, .crash, .exec .ok]

theorem carefulEvents_ok : Careful anything init carefulEvents :=
  ⟨by intro p hp; simp [init] at hp, trivial, trivial, trivial, trivial, trivial, trivial, by decide +kernel, trivial, trivial, trivial, trivial,
    Or.inl (by decide +kernel), by decide +kernel, trivial, trivial, trivial, trivial, by decide +kernel, trivial, trivial⟩

example : logged (run anything init carefulEvents).world = ["a".toList, "bc".toList, "d".toList] ∧
    (run anything init (carefulEvents ++ undisturbed 10)).received =
      ["a".toList, "a".toList, "bc".toList, "d".toList] := by decide +kernel

/-! ### What is not true -/

/-- Rotated while the shipper is down. -/
def rotatedWhileDown : List Event :=
  [.create 7, .exec .ok, .exec .ok, .crash, .append "a\n".toList, .moveAway, .create 8]

theorem C57_rotated_while_down_refuted :
    logged (run anything init rotatedWhileDown).world = ["a".toList] ∧
    ∀ n, (run anything init (rotatedWhileDown ++ undisturbed n)).received = [] := by
  refine ⟨by decide +kernel, fun n => ?_⟩
  rw [run_append, run_work]
  have := forever anything (run anything init rotatedWhileDown) 10 2 (by decide) (by decide +kernel)
    (fun s => s.received.isEmpty) (by decide +kernel) n
  simpa using this

/-- The collector is away, the file is rotated and read to its end, then the shipper is killed. -/
def killedInOutage : List Event :=
  [.create 7, .exec .ok, .exec .ok, .append "a\n".toList, .moveAway, .create 8, .exec .ok, .exec .ok, .exec .ok, .exec .ok, .exec .failed, .crash]

theorem C57_killed_in_outage_refuted :
    logged (run anything init killedInOutage).world = ["a".toList] ∧
    ∀ n, (run anything init (killedInOutage ++ undisturbed n)).received = [] := by
  refine ⟨by decide +kernel, fun n => ?_⟩
  rw [run_append, run_work]
  have := forever anything (run anything init killedInOutage) 10 2 (by decide) (by decide +kernel)
    (fun s => s.received.isEmpty) (by decide +kernel) n
  simpa using this

/-- The file of the saved position is rotated away and deleted while the shipper is down, everything in it delivered; the new file gets
its inode number. -/
def reusedInode : List Event :=
  [.create 7, .exec .ok, .exec .ok, .append "long\n".toList] ++ undisturbed 4 ++ [.crash, .moveAway, .create 7, .append "b\nc\nd\n".toList]

/-- The new file is read from the position in the old one: in the middle of a line. `b` and `c` are lost. -/
theorem C57_inode_reused_refuted :
    logged (run anything init reusedInode).world = ["long".toList, "b".toList, "c".toList, "d".toList] ∧
    ∀ n, "b".toList ∉ (run anything init (reusedInode ++ undisturbed n)).received := by
  refine ⟨by decide +kernel, fun n => ?_⟩
  rw [run_append, run_work]
  have := forever anything (run anything init reusedInode) 10 2 (by decide) (by decide +kernel)
    (fun s => !(s.received.contains "b".toList)) (by decide +kernel) n
  simpa using this

/-- The file is rotated after the shipper has compared its inode number with the saved one and before it opens the path
(tracked_file.cpp 20-24). -/
def rotatedWhileOpening : List Event :=
  [.create 7, .exec .ok, .exec .ok, .append "long\n".toList] ++ undisturbed 4 ++
    [.crash, .exec .ok, .moveAway, .create 8, .append "b\nc\nd\n".toList]

theorem C57_rotated_while_opening_refuted :
    logged (run anything init rotatedWhileOpening).world = ["long".toList, "b".toList, "c".toList, "d".toList] ∧
    ∀ n, "b".toList ∉ (run anything init (rotatedWhileOpening ++ undisturbed n)).received := by
  refine ⟨by decide +kernel, fun n => ?_⟩
  rw [run_append, run_work]
  have := forever anything (run anything init rotatedWhileOpening) 10 2 (by decide) (by decide +kernel)
    (fun s => !(s.received.contains "b".toList)) (by decide +kernel) n
  simpa using this

/-- The file is renamed between the `stat` that shows a new file and the `open` (tracked_file.cpp 86-94): the exception ends the
process, with the lines of the old file undelivered. No kill, no refused request, no malformed line. -/
def renamedWhilePolling : List Event :=
  [.create 7, .exec .ok, .exec .ok, .append "a\n".toList, .moveAway, .create 8, .exec .ok, .exec .ok, .moveAway, .exec .ok, .create 9]

theorem C57_renamed_while_polling_refuted :
    (run anything init renamedWhilePolling).proc = .down ∧
    logged (run anything init renamedWhilePolling).world = ["a".toList] ∧
    ∀ n, (run anything init (renamedWhilePolling ++ undisturbed n)).received = [] := by
  refine ⟨by decide +kernel, by decide +kernel, fun n => ?_⟩
  rw [run_append, run_work]
  have := forever anything (run anything init renamedWhilePolling) 10 2 (by decide) (by decide +kernel)
    (fun s => s.received.isEmpty) (by decide +kernel) n
  simpa using this

end Verif.Shipper
