import Verif.Envelope.Lemmas
import Verif.Shipper.Model

/-!
# C73: log records reach the collector as they were logged
-/

namespace Verif.Envelope

open Verif.Py Verif.Span Verif.Wire

/-! ## Examples -/

def exApp : App := ⟨"router", "0"⟩

def exCall : Call :=
  { created := 1781803644331740, levelno := 30, message := "queue \"full\"\nagain", filename := "a.py", lineno := 42, modul := "a", funcName := "f",
    key := some ⟨0xabc, ⟨0xdef⟩⟩ }

def exCall2 : Call := { exCall with created := 1709164800000000, levelno := 21, message := "", key := none }

/-- Nanoseconds since 1970 of this instant need more than 64 bits. -/
def exLate : Call := { exCall with created := 18446744073709552 }

theorem exOrdinary : Ordinary exCall := ⟨by decide, by decide, by intro k hk; cases hk; decide⟩

theorem exOrdinary2 : Ordinary exCall2 := ⟨by decide, by decide, by intro k hk; cases hk⟩

example : String.ofList (isoformat exCall.created) = "2026-06-18T17:27:24.331740+00:00" := by decide +kernel

example : String.ofList (isoformat exCall2.created) = "2024-02-29T00:00:00+00:00" := by decide +kernel

/-! ## Time -/

/-- **C73, time.** Reading the time that the formatter wrote gives the nanoseconds since 1970, to the microsecond, for every instant until
these take more than 64 bits (July 2554). -/
theorem C73_time (micros : Nat) (h : micros * 1000 < 2 ^ 64) : parseTime (isoformat micros) = micros * 1000 := by
  rw [parseTime_isoformat micros (by unfold Datable; omega), Nat.mod_eq_of_lt h]

example : parseTime (isoformat 1781803644331740) = 1781803644331740000 := C73_time _ (by decide)

/-! ## Lines -/

theorem line_printable (F : Floats) (hF : Wire.Spec.WritesNumbers F) (app : App) (c : Call) : '\n' ∉ line F app c := by
  intro h
  exact absurd (printable F hF _ _ h) (by decide)

theorem splitLines_line (l rest : Str) (h : '\n' ∉ l) :
    Shipper.splitLines (l ++ '\n' :: rest) = (l :: (Shipper.splitLines rest).1, (Shipper.splitLines rest).2) := by
  induction l with
  | nil =>
    show Shipper.splitLines ('\n' :: rest) = _
    rw [Shipper.splitLines, if_pos rfl]
  | cons c cs ih =>
    have hc : c ≠ '\n' := by rintro rfl; exact h List.mem_cons_self
    rw [List.cons_append, Shipper.splitLines, if_neg hc, ih (fun x => h (List.mem_cons_of_mem _ x))]

/-- **C73, lines.** Whatever is logged, the log file consists of one line per call, and the shipper gets exactly these. -/
theorem C73_lines (F : Floats) (hF : Wire.Spec.WritesNumbers F) (calls : List (App × Call)) :
    Shipper.splitLines (calls.flatMap (fun x => line F x.1 x.2 ++ ['\n'])) = (calls.map (fun x => line F x.1 x.2), []) := by
  induction calls with
  | nil => rfl
  | cons x xs ih =>
    rw [List.flatMap_cons, List.append_assoc, List.singleton_append, splitLines_line _ _ (line_printable F hF _ _), ih]
    rfl

/-! ## Batches -/

/-- **C73.** A collector that is sent a batch of lines of one application reads one record per log call, in order, each with the
call's message, severity, source location, time and ids, under the name and instance of the application.
Missing: instants after July 2554, batches of several applications (below); span ids are assumed not to be negative (`C31`). -/
theorem C73_batch_partial (F : Floats) (app : App) (c : Call) (cs : List Call) (h : ∀ x ∈ c :: cs, Ordinary x) :
    (post F ((c :: cs).map (line F app))).bind Spec.groups =
      some [{ resource := Spec.resourceOf app, records := (c :: cs).map (Spec.expected app) }] := by
  have hp := groups_post F (app, c) (cs.map (fun x => (app, x))) (by
    intro y hy
    have : y ∈ (c :: cs).map (fun x => (app, x)) := hy
    obtain ⟨x, hx, rfl⟩ := List.mem_map.mp this
    obtain ⟨h1, h2, h3⟩ := h x hx
    exact ⟨by unfold Datable; simp only; omega, h2, h3⟩)
  have e1 : ((app, c) :: cs.map (fun x => (app, x))).map (fun y => line F y.1 y.2) = (c :: cs).map (line F app) := by
    rw [List.map_cons, List.map_map]; rfl
  have e2 : ((app, c) :: cs.map (fun x => (app, x))).map (fun y => got y.1 y.2) = (c :: cs).map (Spec.expected app) := by
    have : ((app, c) :: cs.map (fun x => (app, x))).map (fun y => got y.1 y.2) = (c :: cs).map (got app) := by
      rw [List.map_cons, List.map_map]; rfl
    rw [this]
    exact List.map_congr_left (fun x hx => got_ordinary app x (h x hx).date)
  rw [e1, e2] at hp
  exact hp

example : (post exF ([exCall, exCall2].map (line exF exApp))).bind Spec.groups =
    some [{ resource := [("service.name", .text "router"), ("service.instance.id", .text "0")],
            records := [Spec.expected exApp exCall, Spec.expected exApp exCall2] }] :=
  C73_batch_partial exF exApp exCall [exCall2] (by
    intro x hx
    simp only [List.mem_cons, List.not_mem_nil, or_false] at hx
    rcases hx with rfl | rfl
    · exact exOrdinary
    · exact exOrdinary2)

example : Spec.expected exApp exCall =
    { time := "1781803644331740000", severityNumber := 13, severityText := "WARN", body := "queue \"full\"\nagain",
      attributes := [("application_instance", .text "0"), ("application_name", .text "router"), ("filename", .text "a.py"),
        ("funcName", .text "f"), ("lineno", .num 42), ("module", .text "a")],
      traceId := some "00000000000000000000000000000abc", spanId := some "0000000000000def" } := by decide +kernel

/-- **C73, from file to collector.** The file of an application, read and posted as one batch. -/
theorem C73_file_partial (F : Floats) (hF : Wire.Spec.WritesNumbers F) (app : App) (c : Call) (cs : List Call) (h : ∀ x ∈ c :: cs, Ordinary x) :
    (post F (Shipper.splitLines ((c :: cs).flatMap (fun x => line F app x ++ ['\n']))).1).bind Spec.groups =
      some [{ resource := Spec.resourceOf app, records := (c :: cs).map (Spec.expected app) }] := by
  have hl := C73_lines F hF ((c :: cs).map (fun x => (app, x)))
  have e1 : ((c :: cs).map (fun x => (app, x))).flatMap (fun x => line F x.1 x.2 ++ ['\n']) =
      (c :: cs).flatMap (fun x => line F app x ++ ['\n']) := by
    rw [List.flatMap_map]
  rw [e1, List.map_map] at hl
  rw [hl]
  exact C73_batch_partial F app c cs h

example : Wire.Spec.WritesNumbers exF := exF_numbers

/-- **C73, several applications.** When the lines of a batch come from different applications or instances, the records still are
right, but all stand under the name and instance of the first. -/
theorem C73_mixed_partial (F : Floats) (x : App × Call) (xs : List (App × Call)) (h : ∀ y ∈ x :: xs, Ordinary y.2) :
    (post F ((x :: xs).map (fun y => line F y.1 y.2))).bind Spec.groups =
      some [{ resource := Spec.resourceOf x.1, records := (x :: xs).map (fun y => Spec.expected y.1 y.2) }] := by
  rw [groups_post F x xs (by
    intro y hy
    obtain ⟨h1, h2, h3⟩ := h y hy
    exact ⟨by unfold Datable; omega, h2, h3⟩)]
  have : (x :: xs).map (fun y => got y.1 y.2) = (x :: xs).map (fun y => Spec.expected y.1 y.2) :=
    List.map_congr_left (fun y hy => got_ordinary y.1 y.2 (h y hy).date)
  rw [this]

/-- **C73, attributes.** Texts, flags and whole numbers of 64 bits with a sign arrive as they are. -/
theorem C73_attributes (F : Floats) (key : String) :
    (∀ s, Spec.keyValue (attributeKv F key (.str s)) = some (key, .text s)) ∧
    (∀ b, Spec.keyValue (attributeKv F key (.bool b)) = some (key, .flag b)) ∧
    (∀ i : Int, -2 ^ 63 ≤ i → i < 2 ^ 63 → Spec.keyValue (attributeKv F key (.int i)) = some (key, .num i)) := by
  refine ⟨fun s => ?_, fun b => ?_, fun i h1 h2 => ?_⟩
  · simp [attributeKv, Spec.keyValue, Spec.member, Spec.text, Spec.value]
  · simp [attributeKv, Spec.keyValue, Spec.member, Spec.text, Spec.value]
  · have : attributeKv F key (.int i) = .obj [("key", .str key), ("value", .obj [("intValue", .int i)])] := by
      simp only [attributeKv, h1, h2, and_self, if_true]
    rw [this]
    simp [Spec.keyValue, Spec.member, Spec.text, Spec.value]

/-- **C73, attributes**, refuted: the larger ones of 64 bits without a sign arrive as negative numbers. -/
theorem C73_attributes_refuted (F : Floats) (key : String) (i : Int) (h1 : 2 ^ 63 ≤ i) (h2 : i < 2 ^ 64) :
    ∃ j, Spec.keyValue (attributeKv F key (.int i)) = some (key, .num j) ∧ j < 0 ∧ j = i - 2 ^ 64 := by
  refine ⟨i - 2 ^ 64, ?_, by omega, rfl⟩
  have h3 : ¬ i < 2 ^ 63 := by omega
  have : attributeKv F key (.int i) = .obj [("key", .str key), ("value", .obj [("intValue", .int (i - 2 ^ 64))])] := by
    simp only [attributeKv, h1, h2, h3, and_self, and_false, if_true, if_false]
  rw [this]
  simp [Spec.keyValue, Spec.member, Spec.text, Spec.value]

example : Spec.keyValue (attributeKv exF "total" (.int (2 ^ 63))) = some ("total", .num (-2 ^ 63)) := by decide +kernel

/-! ## Where it fails -/

/-- **C73 fails for batches of several instances.** The README says that the identity is "pulled from each line's own" attributes; a collector finds
the second line, of instance 1, under instance 0. -/
theorem C73_resource_refuted (F : Floats) :
    ∃ (a b : App) (c d : Call), Ordinary c ∧ Ordinary d ∧ a.inst ≠ b.inst ∧
      ∃ gs, (post F [line F a c, line F b d]).bind Spec.groups = some gs ∧
        (∃ g ∈ gs, Spec.expected b d ∈ g.records ∧ ("service.instance.id", .text a.inst) ∈ g.resource) ∧
        ∀ g ∈ gs, ("service.instance.id", .text b.inst) ∉ g.resource := by
  refine ⟨exApp, ⟨"router", "1"⟩, exCall, exCall2, exOrdinary, exOrdinary2, by decide, _,
    C73_mixed_partial F (exApp, exCall) [(⟨"router", "1"⟩, exCall2)] ?_, ?_, ?_⟩
  · intro x hx
    simp only [List.mem_cons, List.not_mem_nil, or_false] at hx
    rcases hx with rfl | rfl
    · exact exOrdinary
    · exact exOrdinary2
  · refine ⟨_, List.mem_singleton.mpr rfl, ?_, ?_⟩
    · exact List.mem_cons_of_mem _ List.mem_cons_self
    · exact List.mem_cons_of_mem _ List.mem_cons_self
  · intro g hg
    rw [List.mem_singleton] at hg
    subst hg
    decide

/-- **C73 fails for instants after July 2554.** The time wraps around to 1970. -/
theorem C73_time_refuted (F : Floats) :
    ∃ (app : App) (c : Call), (post F [line F app c]).bind Spec.groups =
        some [{ resource := Spec.resourceOf app, records := [{ Spec.expected app c with time := "384" }] }] ∧
      (Spec.expected app c).time = "18446744073709552000" := by
  refine ⟨exApp, exLate, ?_, by decide +kernel⟩
  have hp := groups_post F (exApp, exLate) [] (by
    intro y hy
    rw [List.mem_singleton] at hy
    subst hy
    refine ⟨by decide +kernel, by decide +kernel, ?_⟩
    intro k hk
    cases hk
    decide)
  have e : got exApp exLate = { Spec.expected exApp exLate with time := "384" } := by decide +kernel
  rw [← e]
  exact hp

/-! ## Lines that are not records -/

theorem convertAll_none (F : Floats) (lines : List Str) (l : Str) (hl : l ∈ lines) (h : (parse F l).bind (convertRecord F) = none) :
    convertAll F lines = none := by
  induction lines with
  | nil => cases hl
  | cons s ss ih =>
    rw [convertAll]
    rcases List.mem_cons.mp hl with rfl | hm
    · cases hp : parse F l with
      | none => rfl
      | some j =>
        rw [hp] at h
        have h' : convertRecord F j = none := h
        simp only [h']
    · cases hp : parse F s with
      | none => rfl
      | some j =>
        simp only [ih hm]
        cases convertRecord F j <;> rfl

theorem member_get (fs : List (String × Json)) (key : String) : Spec.member (.obj fs) key = Dict.get? fs key := by
  induction fs with
  | nil => rfl
  | cons x xs ih =>
    obtain ⟨k, v⟩ := x
    rw [member_cons, Dict.get?, ih]

theorem isRecord_of_convert (F : Floats) (j r : Json) (h : convertRecord F j = some r) : Spec.isRecord j = true := by
  unfold convertRecord at h
  split at h
  · rename_i fs
    split at h
    · rename_i ts num txt body tid sid h1 h2 h3 h4 h5 h6
      unfold Spec.isRecord Spec.optionalText
      simp only [member_get]
      unfold atStr at h1 h3 h4
      unfold atInt at h2
      unfold optionalId at h5 h6
      split at h1 <;> [skip; cases h1]
      split at h2 <;> [skip; cases h2]
      split at h3 <;> [skip; cases h3]
      split at h4 <;> [skip; cases h4]
      rename_i g1 _ _ g2 _ _ g3 _ _ g4
      rw [g1, g2, g3, g4]
      simp only [Option.bind_some, Spec.text, Spec.whole, Option.isSome_some, Bool.true_and, Bool.and_eq_true]
      constructor
      · split at h5
        · rename_i g; rw [g]
        · rename_i g; rw [g]
        · rename_i g; rw [g]
        · cases h5
      · split at h6
        · rename_i g; rw [g]
        · rename_i g; rw [g]
        · rename_i g; rw [g]
        · cases h6
    · cases h
  · cases h

/-- **C73, nothing is posted in part.** If one line of a batch is not JSON, or is not a record, nothing of the batch is posted (the
process ends with the exception, `C56_malformed_refuted`). -/
theorem C73_all_or_nothing (F : Floats) (lines : List Str) (l : Str) (hl : l ∈ lines)
    (h : ∀ j, loads F l = .ok j → Spec.isRecord j = false) : post F lines = none := by
  have hn : (parse F l).bind (convertRecord F) = none := by
    unfold parse
    cases hp : loads F l with
    | error e => rfl
    | ok j =>
      show convertRecord F j = none
      cases hc : convertRecord F j with
      | none => rfl
      | some r => exact absurd (isRecord_of_convert F j r hc) (by rw [h j hp]; decide)
  cases lines with
  | nil => cases hl
  | cons s ss =>
    have hb : ∀ r, buildPayload F (s :: ss) r = none := by
      intro r
      unfold buildPayload
      rw [convertAll_none F _ l hl hn]
    unfold post
    simp only [hb]
    cases extractResource F s <;> rfl

/-- A traceback, which is not JSON. -/
theorem exTraceback : ∀ j, loads exF "Traceback".toList = .ok j → Spec.isRecord j = false := by
  have : (match loads exF "Traceback".toList with | .ok _ => false | .error _ => true) = true := by decide +kernel
  intro j h
  rw [h] at this
  cases this

example : post exF [line exF exApp exCall, "Traceback".toList] = none :=
  C73_all_or_nothing exF _ "Traceback".toList (List.mem_cons_of_mem _ List.mem_cons_self) exTraceback

/-- JSON that is not a record: the message is missing. -/
example : ∀ j, loads exF (write exF (.obj [("timestamp", .str "")])) = .ok j → Spec.isRecord j = false := by
  have hw := C60_data exF (.obj [("timestamp", .str "")]) (by simp [Wire.Spec.Sendable, Wire.Spec.SendableFields]) [] (by intro c hc; cases hc)
  rw [List.append_nil] at hw
  intro j h
  rw [hw] at h
  cases h
  decide

end Verif.Envelope
