import Verif.Cli.LogTool
import Verif.Cli.Spec
import Verif.Cli.Lemmas
import Verif.Logs.Props

/-!
# C84: the logging tool
-/

namespace Verif.Cli

open Verif.Py Verif.Logs Verif.Logs.Spec Verif.Cli.Spec

/-- What the operator asks for: a level, a buffer size, both or nothing. -/
structure LogAsk where
  level : Option String
  size : Option Nat

/-- It can be asked for: the level is one of the five. -/
def LogAsk.Valid (a : LogAsk) : Prop := ∀ l, a.level = some l → ∃ n, (l, n) ∈ levelNumber

/-- How it is typed. -/
def LogAsk.typed (a : LogAsk) (serverType : String) (details : Str) : LogTyped :=
  ⟨serverType, details, a.level, a.size.map Str.ofNat⟩

/-- What it should do to the log: set the level, then the buffer size, which is mentioned twice in the log. -/
def LogAsk.events (a : LogAsk) (key : Option Key) : List Event :=
  (match a.level with
    | some l => [.setLevel key l]
    | none => []) ++
  match a.size with
    | some n => [.setBufferSize key n, .log key { levelno := 20, message := some ("eco_log_buffer " ++ toString (n : Int)) }]
    | none => []

/-- The answers it should get. -/
def LogAsk.answers (a : LogAsk) : List LogAnswer :=
  (match a.level with
    | some l => [.level l]
    | none => []) ++
  match a.size with
    | some n => [.size n]
    | none => []

theorem toInt_ofNat' (n : Nat) : Str.toInt (Str.ofNat n) = .ok n := by
  have := Str.toInt_ofNat n (t := []) (by simp)
  simpa using this

/-- **C84**: the tool sends what was asked for to the server addressed; the server does it, as the log's own history shows, and answers with it. -/
theorem C84_asked (a : LogAsk) (hv : a.Valid) (serverType : String) (details : Str) (c : Client) (ha : Addressed serverType details c)
    (e : Enc) (key : Option Key) (s : State) :
    ∃ reqs, logTool (a.typed serverType details) = .sent (c, reqs) ∧
      serveLogs e key s reqs = (a.answers, run e s (a.events key)) := by
  have hcl := (getClient_addressed ha).symm
  obtain ⟨level, size⟩ := a
  have hl : ∀ l, level = some l → l ∈ levelChoices := by
    intro l hl
    obtain ⟨n, hn⟩ := hv l hl
    simp only [levelNumber, List.mem_cons, Prod.mk.injEq, List.not_mem_nil, or_false] at hn
    rcases hn with ⟨rfl, _⟩ | ⟨rfl, _⟩ | ⟨rfl, _⟩ | ⟨rfl, _⟩ | ⟨rfl, _⟩ <;> simp [levelChoices]
  have h1 : level.any (· ∉ levelChoices) = false := by
    cases level with
    | none => rfl
    | some l => simp [hl l rfl]
  have h2 : bufferOption (size.map Str.ofNat) = some (size.map Int.ofNat) := by
    cases size with
    | none => rfl
    | some n =>
      have h := toInt_ofNat' n
      simp only [Option.map_some, bufferOption]
      rw [h]
      rfl
  refine ⟨(level.map LogRequest.level).toList ++ (size.map fun n => LogRequest.buffer (Int.ofNat n)).toList, ?_, ?_⟩
  · unfold logTool
    simp only [LogAsk.typed, h1, h2, hcl.1]
    rw [if_neg (not_not_intro hcl.2), if_neg (by simp)]
    cases level <;> cases size <;> rfl
  · cases level with
    | none =>
      cases size with
      | none => rfl
      | some n => simp [serveLogs, serveLog, LogAsk.answers, LogAsk.events, run, step]
    | some l =>
      have h4 : l ∈ ["debug", "info", "warn", "error", "critical"] := hl l rfl
      cases size with
      | none => simp only [Option.map_none, Option.map_some, Option.toList_some, Option.toList_none, List.append_nil, serveLogs, serveLog, h4, if_true, LogAsk.answers, LogAsk.events, run, step]
      | some n =>
        simp only [Option.map_some, Option.toList_some, List.cons_append, List.nil_append, serveLogs, serveLog, h4, if_true, LogAsk.answers,
          LogAsk.events, run, step, List.append_nil, Int.ofNat_eq_natCast]

/-- Both at once, over TCP. -/
def exAsk : LogAsk := ⟨some "warn", some 25⟩

example : exAsk.Valid ∧ Addressed "tcp" "localhost:8888".toList (.tcp "localhost".toList 8888) ∧
    logTool (exAsk.typed "tcp" "localhost:8888".toList) = .sent (.tcp "localhost".toList 8888, [.level "warn", .buffer 25]) := by
  refine ⟨?_, .tcp "localhost".toList 8888 (by decide) (by decide), by decide +kernel⟩
  intro l hl
  cases hl
  exact ⟨30, by simp [levelNumber]⟩

/-- **C84**: a level that is asked for is in force from then on: exactly the records at or above it are logged until it is set again, and nothing
logged before is affected. -/
theorem C84_level (l : String) (n : Nat) (hn : (l, n) ∈ levelNumber) (size : Option Nat) (serverType : String) (details : Str)
    (c : Client) (ha : Addressed serverType details c) (e : Enc) (key k' : Option Key) (cfg : Logs.Config) (d : Disk)
    (hc : cfg.consoleOnly = false) (before after : List Event) (hafter : ∀ k m, Event.setLevel k m ∉ after) :
    ∃ reqs, logTool ((⟨some l, size⟩ : LogAsk).typed serverType details) = .sent (c, reqs) ∧
      let s := run e (setup cfg d) before
      let r := serveLogs e key s.1 reqs
      (s.2 ++ r.2.2 ++ (run e r.2.1 (after ++ [.flush k'])).2).map content =
        ((accepted 10 before).map Prod.snd).filterMap contentOf ++
        (((((⟨none, size⟩ : LogAsk).events key ++ after).flatMap logged).filter fun p => decide (n ≤ p.2.levelno)).map Prod.snd).filterMap
          contentOf := by
  obtain ⟨reqs, h1, h2⟩ := C84_asked ⟨some l, size⟩ (fun l' hl => by cases hl; exact ⟨n, hn⟩) serverType details c ha e key
    (run e (setup cfg d) before).1
  refine ⟨reqs, h1, ?_⟩
  simp only [h2]
  rw [← C63_set_partial e cfg d before ((⟨none, size⟩ : LogAsk).events key ++ after) key k' l n hc hn ?_]
  · have : before ++ Event.setLevel key l :: ((⟨none, size⟩ : LogAsk).events key ++ after) ++ [.flush k'] =
        before ++ ((⟨some l, size⟩ : LogAsk).events key ++ (after ++ [.flush k'])) := by
      simp [LogAsk.events]
    rw [this]
    simp only [run_append, List.append_assoc]
  · intro k m hm
    rcases List.mem_append.1 hm with hm | hm
    · cases size <;> simp [LogAsk.events] at hm
    · exact hafter k m hm

/-- **C84**: a buffer size that is asked for is in force from then on. If the level then in force lets the tool's own messages through, fewer records
than that are unwritten when the tool is done; otherwise that is so as soon as a record is logged. What is missing: see `C84_both_refuted`. -/
theorem C84_size_partial (level : Option String) (hv : ∀ l, level = some l → ∃ n, (l, n) ∈ levelNumber) (n : Nat) (serverType : String)
    (details : Str) (c : Client) (ha : Addressed serverType details c) (e : Enc) (key : Option Key) (cfg : Logs.Config) (d : Disk)
    (hc : cfg.consoleOnly = false) (before : List Event) :
    ∃ reqs, logTool ((⟨level, some n⟩ : LogAsk).typed serverType details) = .sent (c, reqs) ∧
      let s := (run e (setup cfg d) before).1
      let r := serveLogs e key s reqs
      let force := (before ++ (⟨level, none⟩ : LogAsk).events key).foldl levelAfter 10
      (force ≤ 20 → unwritten r.2.1 = 0 ∨ unwritten r.2.1 < n) ∧
      ∀ k rec, force ≤ rec.levelno → unwritten (run e r.2.1 [.log k rec]).1 = 0 ∨ unwritten (run e r.2.1 [.log k rec]).1 < n := by
  obtain ⟨reqs, h1, h2⟩ := C84_asked ⟨level, some n⟩ hv serverType details c ha e key (run e (setup cfg d) before).1
  refine ⟨reqs, h1, ?_⟩
  simp only [h2]
  have hev : before ++ (⟨level, some n⟩ : LogAsk).events key =
      (before ++ (⟨level, none⟩ : LogAsk).events key ++ [.setBufferSize key n]) ++
        [.log key { levelno := 20, message := some ("eco_log_buffer " ++ toString (n : Int)) }] := by
    simp [LogAsk.events]
  have hforce : ∀ l : List Event, ∀ m, (l ++ [Event.setBufferSize key m]).foldl levelAfter 10 = l.foldl levelAfter 10 := by
    intro l m; rw [List.foldl_append]; rfl
  have hsize : (before ++ (⟨level, none⟩ : LogAsk).events key ++ [Event.setBufferSize key n]).foldl sizeAfter cfg.bufferSize = n := by
    rw [List.foldl_append]; rfl
  have hrun : (run e (run e (setup cfg d) before).1 ((⟨level, some n⟩ : LogAsk).events key)).1 =
      (run e (setup cfg d) (before ++ (⟨level, some n⟩ : LogAsk).events key)).1 := by rw [run_append]
  rw [hrun]
  constructor
  · intro hf
    rw [hev]
    have := C54_bound_logged e cfg d (before ++ (⟨level, none⟩ : LogAsk).events key ++ [.setBufferSize key n]) key
      { levelno := 20, message := some ("eco_log_buffer " ++ toString (n : Int)) } hc (by rw [hforce]; exact hf)
    rw [hsize] at this
    exact this.imp id fun h => by exact_mod_cast h
  · intro k rec hf
    have h3 : (run e (run e (setup cfg d) (before ++ (⟨level, some n⟩ : LogAsk).events key)).1 [.log k rec]).1 =
        (run e (setup cfg d) ((before ++ (⟨level, some n⟩ : LogAsk).events key) ++ [.log k rec])).1 := by
      rw [run_append e (before ++ _) [.log k rec]]
    rw [h3]
    have := C54_bound_logged e cfg d (before ++ (⟨level, some n⟩ : LogAsk).events key) k rec hc
      (by rw [hev, List.foldl_append, hforce]; exact hf)
    have hs2 : (before ++ (⟨level, some n⟩ : LogAsk).events key).foldl sizeAfter cfg.bufferSize = n := by
      rw [hev, List.foldl_append, hsize]
      rfl
    rw [hs2] at this
    exact this.imp id fun h => by exact_mod_cast h

example : ([Event.log keyA (exRec 40 "1")] ++ (⟨some "info", none⟩ : LogAsk).events none).foldl levelAfter 10 ≤ 20 := by decide +kernel

/-- Asking for level `error` and buffer size 0 at once: the level is set first, so nothing is logged that would write what is waiting, though a buffer
size of 0 means that nothing waits. The answer says 0. -/
theorem C84_both_refuted : ∃ (before : List Event) (reqs : List LogRequest) (c : Client),
    logTool ((⟨some "error", some 0⟩ : LogAsk).typed "uds" "/tmp/x".toList) = .sent (c, reqs) ∧
    (serveLogs exEnc none (run exEnc (setup (exConfig 100) exDisk) before).1 reqs).1 = [.level "error", .size 0] ∧
    unwritten (serveLogs exEnc none (run exEnc (setup (exConfig 100) exDisk) before).1 reqs).2.1 = 2 :=
  ⟨[.log keyA (exRec 40 "1"), .log keyA (exRec 40 "2")], [.level "error", .buffer 0], .uds "/tmp/x".toList,
    by decide +kernel, by decide +kernel, by decide +kernel⟩

/-- **C84**: nothing is sent for a level that is none of the five, or a buffer size that is no number; asking for nothing sends nothing. -/
theorem C84_nothing (t : LogTyped) :
    (∀ l, t.level = some l → (∀ n, (l, n) ∉ levelNumber) → logTool t = .exit 2) ∧
    (∀ x, t.buffer = some x → (∀ n, Str.toInt x ≠ .ok n) → logTool t = .exit 2) ∧
    (t.level = none → t.buffer = none → ∀ c, Addressed t.serverType t.details c → logTool t = .sent (c, [])) := by
  obtain ⟨st, details, level, buffer⟩ := t
  refine ⟨?_, ?_, ?_⟩
  · intro l hl hn
    simp only at hl; subst hl
    have : (some l).any (· ∉ levelChoices) = true := by
      simp only [Option.any_some, decide_eq_true_eq]
      intro hm
      simp only [levelChoices, List.mem_cons, List.not_mem_nil, or_false] at hm
      rcases hm with rfl | rfl | rfl | rfl | rfl
      · exact hn 10 (by simp [levelNumber])
      · exact hn 20 (by simp [levelNumber])
      · exact hn 30 (by simp [levelNumber])
      · exact hn 40 (by simp [levelNumber])
      · exact hn 50 (by simp [levelNumber])
    simp only [logTool, this, if_true]
    split <;> rfl
  · intro x hx hn
    simp only at hx; subst hx
    have : bufferOption (some x) = none := by
      cases h : Str.toInt x with
      | ok n => exact absurd h (hn n)
      | error e => simp only [bufferOption, h]
    simp only [logTool, this]
    split
    · rfl
    · split <;> rfl
  · intro h1 h2 c ha
    simp only at h1 h2; subst h1; subst h2
    obtain ⟨h3, h4⟩ := getClient_addressed ha
    simp only [logTool, bufferOption]
    rw [if_neg (not_not_intro h3)]
    simp only at h4
    simp [h4]

example : logTool ⟨"uds", "/tmp/x".toList, some "loud", none⟩ = .exit 2 ∧ logTool ⟨"uds", "/tmp/x".toList, none, some "ten".toList⟩ = .exit 2 := by
  decide +kernel

/-- **C84**: a client that asks for another level is refused, and the log is left alone. -/
theorem C84_refused (e : Enc) (key : Option Key) (s : State) (l : String) (hl : ∀ n, (l, n) ∉ levelNumber) :
    serveLogs e key s [.level l] = ([.invalid], s, []) := by
  have : l ∉ ["debug", "info", "warn", "error", "critical"] := by
    intro hm
    simp only [List.mem_cons, List.not_mem_nil, or_false] at hm
    rcases hm with rfl | rfl | rfl | rfl | rfl
    · exact hl 10 (by simp [levelNumber])
    · exact hl 20 (by simp [levelNumber])
    · exact hl 30 (by simp [levelNumber])
    · exact hl 40 (by simp [levelNumber])
    · exact hl 50 (by simp [levelNumber])
  simp only [serveLogs, serveLog, this, if_false, List.append_nil]

example : ∀ n, ("warning", n) ∉ levelNumber := by intro n; simp [levelNumber]

end Verif.Cli
