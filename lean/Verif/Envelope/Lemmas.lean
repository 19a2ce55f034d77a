import Verif.Envelope.Spec
import Verif.Wire.Props

/-!
# Lemmas about dates, scanning and the payload
-/

namespace Verif.Envelope

open Verif.Py Verif.Span Verif.Wire

/-! ## Calendar -/

/-- Days from 1 January 1970 to 1 January of year `y`. -/
def yearStart (y : Nat) : Int :=
  365 * ((y : Int) - 1970) + (((y : Int) - 1) / 4 - ((y : Int) - 1) / 100 + ((y : Int) - 1) / 400 - 477)

theorem isLeap_iff (y : Nat) : isLeap y = true ↔ ((y : Int) % 4 = 0 ∧ ((y : Int) % 100 ≠ 0 ∨ (y : Int) % 400 = 0)) := by
  simp only [isLeap, Bool.and_eq_true, Bool.or_eq_true, decide_eq_true_eq]
  omega

theorem yearStart_succ (y : Nat) : yearStart (y + 1) = yearStart y + yearLen y := by
  unfold yearStart yearLen
  have h := isLeap_iff y
  by_cases hl : isLeap y = true
  · have := h.mp hl
    simp only [hl, if_true]
    omega
  · have : ¬ ((y : Int) % 4 = 0 ∧ ((y : Int) % 100 ≠ 0 ∨ (y : Int) % 400 = 0)) := fun x => hl (h.mpr x)
    rw [if_neg hl]
    omega

theorem yearLen_pos (y : Nat) : 0 < yearLen y := by unfold yearLen; split <;> omega

theorem findYear_spec (n y d : Nat) (h : d < n) :
    y ≤ (findYear n y d).1 ∧ (findYear n y d).2 < yearLen (findYear n y d).1 ∧
      yearStart (findYear n y d).1 + (findYear n y d).2 = yearStart y + d := by
  induction n generalizing y d with
  | zero => omega
  | succ n ih =>
    unfold findYear
    split
    · rename_i hd
      exact ⟨Nat.le_refl _, hd, rfl⟩
    · rename_i hd
      have hp := yearLen_pos y
      obtain ⟨a, b, c⟩ := ih (y + 1) (d - yearLen y) (by omega)
      refine ⟨by omega, b, ?_⟩
      rw [c, yearStart_succ]
      omega

theorem findMonth_sum (ls : List Nat) (m d : Nat) (h : d < ls.sum) :
    ∃ i, i < ls.length ∧ (findMonth ls m d).1 = m + i ∧ (findMonth ls m d).2 < ls.getD i 0 ∧ (ls.take i).sum + (findMonth ls m d).2 = d := by
  induction ls generalizing m d with
  | nil => simp at h
  | cons l ls ih =>
    unfold findMonth
    split
    · rename_i hd
      exact ⟨0, by simp, rfl, by simpa using hd, by simp⟩
    · rename_i hd
      obtain ⟨i, h1, h2, h3, h4⟩ := ih (m + 1) (d - l) (by simp at h; omega)
      refine ⟨i + 1, by simpa using h1, by omega, by simpa using h3, ?_⟩
      simp only [List.take_succ_cons, List.sum_cons]
      omega

theorem findMonth_spec (y d : Nat) (h : d < yearLen y) :
    ∃ i, i < 12 ∧ (findMonth (months y) 1 d).1 = 1 + i ∧ (findMonth (months y) 1 d).2 < 31 ∧
      cumulative.getD i 0 + (if isLeap y = true ∧ 2 ≤ i then 1 else 0) + ((findMonth (months y) 1 d).2 : Int) = d := by
  have hs : (months y).sum = yearLen y := by
    unfold months yearLen
    split <;> rfl
  obtain ⟨i, h1, h2, h3, h4⟩ := findMonth_sum (months y) 1 d (by rw [hs]; exact h)
  have h1' : i < 12 := h1
  refine ⟨i, h1', h2, ?_⟩
  generalize (findMonth (months y) 1 d).2 = v at h3 h4 ⊢
  unfold months at h3 h4
  have : i = 0 ∨ i = 1 ∨ i = 2 ∨ i = 3 ∨ i = 4 ∨ i = 5 ∨ i = 6 ∨ i = 7 ∨ i = 8 ∨ i = 9 ∨ i = 10 ∨ i = 11 := by omega
  by_cases hl : isLeap y = true
  · simp only [hl, if_true, true_and] at h3 h4 ⊢
    rcases this with rfl | rfl | rfl | rfl | rfl | rfl | rfl | rfl | rfl | rfl | rfl | rfl <;>
      simp [cumulative] at h3 h4 ⊢ <;> omega
  · simp only [hl, Bool.false_eq_true, if_false, false_and] at h3 h4 ⊢
    rcases this with rfl | rfl | rfl | rfl | rfl | rfl | rfl | rfl | rfl | rfl | rfl | rfl <;>
      simp [cumulative] at h3 h4 ⊢ <;> omega

/-! ## Scanning -/

theorem digitChar_isDigit (d : Nat) (h : d < 10) : (Nat.digitChar d).isDigit = true ∧ (Nat.digitChar d).toNat - 48 = d := by
  have : d = 0 ∨ d = 1 ∨ d = 2 ∨ d = 3 ∨ d = 4 ∨ d = 5 ∨ d = 6 ∨ d = 7 ∨ d = 8 ∨ d = 9 := by omega
  rcases this with rfl | rfl | rfl | rfl | rfl | rfl | rfl | rfl | rfl | rfl <;> decide

theorem scanDigits_dec (w n acc k : Nat) (r : Str) (h : n < 10 ^ w) :
    scanDigits (dec w n ++ r) acc k = scanDigits r (acc * 10 ^ w + n) (k + w) := by
  induction w generalizing n r with
  | zero =>
    have : n = 0 := by simpa using h
    subst this
    simp [dec]
  | succ w ih =>
    have hw : n / 10 < 10 ^ w := by
      rw [Nat.pow_succ] at h
      omega
    obtain ⟨a, b⟩ := digitChar_isDigit (n % 10) (by omega)
    rw [dec, List.append_assoc, ih _ _ hw]
    show scanDigits (Nat.digitChar (n % 10) :: r) _ _ = _
    rw [scanDigits, if_pos a, b]
    congr 1
    rw [Nat.pow_succ, ← Nat.mul_assoc, Nat.add_mul]
    omega

theorem dec_head (w n : Nat) : ∃ c cs, dec (w + 1) n = c :: cs ∧ c.isDigit = true := by
  induction w generalizing n with
  | zero => exact ⟨_, [], rfl, (digitChar_isDigit (n % 10) (by omega)).1⟩
  | succ w ih =>
    obtain ⟨c, cs, h, hc⟩ := ih (n / 10)
    exact ⟨c, cs ++ [Nat.digitChar (n % 10)], by rw [dec, h]; rfl, hc⟩

theorem isDigit_not_space (c : Char) (h : c.isDigit = true) : Str.isSpace c = false ∧ c ≠ '-' ∧ c ≠ '+' := by
  refine ⟨?_, ?_, ?_⟩
  · cases hs : Str.isSpace c with
    | false => rfl
    | true =>
      simp only [Str.isSpace, Bool.or_eq_true, decide_eq_true_eq] at hs
      rcases hs with ((((rfl | rfl) | rfl) | rfl) | rfl) | rfl <;> exact absurd h (by decide)
  · rintro rfl; exact absurd h (by decide)
  · rintro rfl; exact absurd h (by decide)

/-- The text does not go on with a digit. -/
def NoDigit : Str → Prop
  | [] => True
  | c :: _ => c.isDigit = false

theorem scanDigits_stop (r : Str) (a k : Nat) (h : NoDigit r) : scanDigits r a k = (a, k, r) := by
  cases r with
  | nil => rfl
  | cons c cs =>
    have hc : c.isDigit = false := h
    simp [scanDigits, hc]

theorem scanInt_dec (w n : Nat) (r : Str) (h : n < 10 ^ (w + 1)) (hr : NoDigit r) :
    scanInt (dec (w + 1) n ++ r) = some ((n : Int), r) := by
  obtain ⟨c, cs, he, hc⟩ := dec_head w n
  obtain ⟨h1, h2, h3⟩ := isDigit_not_space c hc
  have hs : scanDigits (dec (w + 1) n ++ r) 0 0 = (n, w + 1, r) := by
    rw [scanDigits_dec _ _ _ _ _ h, scanDigits_stop _ _ _ hr]
    simp
  rw [he, List.cons_append] at hs ⊢
  unfold scanInt
  rw [List.dropWhile_cons_of_neg (by simp [h1])]
  simp [h2, h3, hs]

theorem sscanf_int (w n : Nat) (r : Str) (fs : List Fmt) (h : n < 10 ^ (w + 1)) (hr : NoDigit r) :
    sscanf (.int :: fs) (dec (w + 1) n ++ r) = (n : Int) :: sscanf fs r := by
  rw [sscanf, scanInt_dec w n r h hr]

theorem sscanf_lit (c : Char) (r : Str) (fs : List Fmt) : sscanf (.lit c :: fs) (c :: r) = sscanf fs r := by
  rw [sscanf, if_pos rfl]

/-- Instants before the year 10000, which is as far as `datetime` goes. -/
def Datable (micros : Nat) : Prop := micros < 253402300800 * 1000000

instance (m : Nat) : Decidable (Datable m) := by unfold Datable; infer_instance

theorem gmtime_spec (t : Nat) (h : t < 253402300800) :
    (gmtime t).year < 10000 ∧ (gmtime t).month < 100 ∧ (gmtime t).day < 100 ∧ (gmtime t).hour < 100 ∧ (gmtime t).minute < 100 ∧
      (gmtime t).second < 100 ∧
      timegm (((gmtime t).year : Int) - 1900) (((gmtime t).month : Int) - 1) (gmtime t).day (gmtime t).hour (gmtime t).minute
        (gmtime t).second = t := by
  obtain ⟨y1, y2, y3⟩ := findYear_spec (t / 86400 + 1) 1970 (t / 86400) (by omega)
  have e0 : yearStart 1970 = 0 := by decide
  rw [e0] at y3
  obtain ⟨i, i1, i2, i3, i4⟩ := findMonth_spec _ _ y2
  unfold gmtime
  simp only
  generalize findYear (t / 86400 + 1) 1970 (t / 86400) = Y at *
  obtain ⟨y, yd⟩ := Y
  simp only at *
  generalize findMonth (months y) 1 yd = M at *
  obtain ⟨m, md⟩ := M
  simp only at *
  subst i2
  have hy : y < 10000 := by
    unfold yearStart at y3
    omega
  refine ⟨hy, by omega, by omega, by omega, by omega, by omega, ?_⟩
  unfold timegm
  have e1 : ((y : Int) - 1900 + 1900 + (((1 + i : Nat) : Int) - 1) / 12) = y := by omega
  have e2 : ((((1 + i : Nat) : Int) - 1) % 12) = i := by omega
  simp only [e1, e2]
  have e3 : (if (y : Int) % 4 = 0 ∧ ((y : Int) % 100 ≠ 0 ∨ (y : Int) % 400 = 0) ∧ 2 ≤ (i : Int) then (1 : Int) else 0) =
      if isLeap y = true ∧ 2 ≤ i then 1 else 0 := by
    have := isLeap_iff y
    congr 1
    rw [this]
    simp only [eq_iff_iff]
    omega
  rw [e3, Int.toNat_natCast]
  unfold yearStart at y3
  omega

theorem sscanf_iso (T : Tm) (us : Nat) (h1 : T.year < 10000) (h2 : T.month < 100) (h3 : T.day < 100) (h4 : T.hour < 100)
    (h5 : T.minute < 100) (h6 : T.second < 100) (hu : us < 1000000) :
    sscanf timeFormat (dec 4 T.year ++ '-' :: (dec 2 T.month ++ '-' :: (dec 2 T.day ++ 'T' :: (dec 2 T.hour ++ ':' :: (dec 2 T.minute ++
      ':' :: (dec 2 T.second ++ ((if us = 0 then [] else '.' :: dec 6 us) ++ "+00:00".toList)))))))
      = [(T.year : Int), T.month, T.day, T.hour, T.minute, T.second] ++ (if us = 0 then [] else [(us : Int)]) := by
  have ep : "+00:00".toList = ['+', '0', '0', ':', '0', '0'] := by decide
  rw [ep]
  have hn : NoDigit ((if us = 0 then [] else '.' :: dec 6 us) ++ ['+', '0', '0', ':', '0', '0']) := by
    split
    · show Char.isDigit '+' = false
      decide
    · show Char.isDigit '.' = false
      decide
  unfold timeFormat
  rw [sscanf_int 3 T.year _ _ (by omega) (by show Char.isDigit '-' = false; decide), sscanf_lit,
    sscanf_int 1 T.month _ _ (by omega) (by show Char.isDigit '-' = false; decide), sscanf_lit,
    sscanf_int 1 T.day _ _ (by omega) (by show Char.isDigit 'T' = false; decide), sscanf_lit,
    sscanf_int 1 T.hour _ _ (by omega) (by show Char.isDigit ':' = false; decide), sscanf_lit,
    sscanf_int 1 T.minute _ _ (by omega) (by show Char.isDigit ':' = false; decide), sscanf_lit,
    sscanf_int 1 T.second _ _ (by omega) hn]
  by_cases hz : us = 0
  · rw [if_pos hz, if_pos hz]
    rfl
  · rw [if_neg hz, if_neg hz]
    rw [List.cons_append, sscanf_lit, sscanf_int 5 us _ _ (by omega) (by show Char.isDigit '+' = false; decide)]
    rfl

theorem nanos_eq (micros : Nat) :
    ((((micros / 1000000 : Nat) : Int) * 1000000000 + ((micros % 1000000 : Nat) : Int) * 1000) % 2 ^ 64).toNat = micros * 1000 % 2 ^ 64 := by
  have : ((micros / 1000000 : Nat) : Int) * 1000000000 + ((micros % 1000000 : Nat) : Int) * 1000 = ((micros * 1000 : Nat) : Int) := by omega
  rw [this]
  norm_cast

theorem parseTime_isoformat (micros : Nat) (h : Datable micros) : parseTime (isoformat micros) = micros * 1000 % 2 ^ 64 := by
  unfold Datable at h
  obtain ⟨h1, h2, h3, h4, h5, h6, h7⟩ := gmtime_spec (micros / 1000000) (by omega)
  unfold isoformat
  simp only
  generalize gmtime (micros / 1000000) = T at *
  have hv := sscanf_iso T (micros % 1000000) h1 h2 h3 h4 h5 h6 (by omega)
  have e : ([(T.year : Int), T.month, T.day, T.hour, T.minute, T.second] ++
      (if micros % 1000000 = 0 then [] else [((micros % 1000000 : Nat) : Int)])).getD 6 0 = ((micros % 1000000 : Nat) : Int) := by
    by_cases hz : micros % 1000000 = 0
    · rw [if_pos hz, hz]; rfl
    · rw [if_neg hz]; rfl
  unfold parseTime
  rw [hv]
  simp only [e]
  simp only [List.cons_append, List.getD_cons_zero, List.getD_cons_succ]
  rw [h7]
  exact nanos_eq micros

/-! ## Records -/

/-- A log call as programs make them: a date that fits in 64 bits of nanoseconds, a line number, and a span key as requests have them. -/
structure Ordinary (c : Call) : Prop where
  date : c.created * 1000 < 2 ^ 64
  lineno : c.lineno < 2 ^ 63
  key : ∀ k, c.key = some k → 0 ≤ k.span.value

theorem toDigits_short (n : Nat) (h : n < 2 ^ 63) : (Nat.toDigits 10 n).length ≤ 4300 := by
  have : (Nat.toDigits 10 n).length ≤ 19 := by
    rw [Nat.length_toDigits_le_iff (by omega) (by omega)]
    omega
  omega

theorem severity_eq (n : Nat) : (((Logs.severityForLevelno n).1 : Int), (Logs.severityForLevelno n).2) = Spec.severity n := by
  unfold Logs.severityForLevelno Spec.severity
  split
  · rename_i h; subst h; rfl
  · split
    · rename_i h; subst h; rfl
    · split
      · rename_i h; subst h; rfl
      · split
        · rename_i h; subst h; rfl
        · split
          · rename_i h; subst h; rfl
          · split <;> simp_all

theorem severity_small (n : Nat) : (Logs.severityForLevelno n).1 < 2 ^ 63 := by
  unfold Logs.severityForLevelno
  repeat' split
  all_goals decide

theorem recordJson_sendable (F : Floats) (app : App) (c : Call) (h : c.lineno < 2 ^ 63) : Wire.Spec.Sendable F (recordJson app c) := by
  have hk : ∀ (o : Option SpanKey) (f : SpanKey → String),
      Wire.Spec.Sendable F (match o with | some k => .str (f k) | none => .null) := by
    intro o f
    cases o <;> simp [Wire.Spec.Sendable]
  unfold recordJson
  simp only [Wire.Spec.Sendable, Wire.Spec.SendableFields, List.map_cons, List.map_nil, true_and, and_true]
  refine ⟨by decide, ?_, ⟨by decide, ?_⟩, hk _ _, hk _ _⟩
  · exact toDigits_short _ (severity_small _)
  · exact toDigits_short _ h

theorem line_parse (F : Floats) (app : App) (c : Call) (h : c.lineno < 2 ^ 63) : parse F (line F app c) = some (recordJson app c) := by
  have := C60_data F (recordJson app c) (recordJson_sendable F app c h) [] (by intro c hc; cases hc)
  rw [List.append_nil] at this
  unfold parse line
  rw [this]

/-- The fields of a line. -/
def recordFields (app : App) (c : Call) : List (String × Json) :=
  match recordJson app c with
  | .obj fs => fs
  | _ => []

/-- The attributes of a line. -/
def attrFields (app : App) (c : Call) : List (String × Json) :=
  [("application_name", .str app.name), ("application_instance", .str app.inst), ("filename", .str c.filename), ("lineno", .int c.lineno),
    ("module", .str c.modul), ("funcName", .str c.funcName)]

/-- The trace id as it stands in a line. -/
def traceText (k : SpanKey) : String := String.ofList (hexPad 32 k.trace)

/-- The span id as it stands in a line. -/
def spanText (k : SpanKey) : String := String.ofList k.span.hex

theorem recordFields_eq (app : App) (c : Call) : recordFields app c = [
    ("timestamp", .str (String.ofList (isoformat c.created))),
    ("severity_number", .int (Logs.severityForLevelno c.levelno).1),
    ("severity_text", .str (Logs.severityForLevelno c.levelno).2),
    ("body", .str c.message),
    ("attributes", .obj (attrFields app c)),
    ("trace_id", match c.key with | some k => .str (traceText k) | none => .null),
    ("span_id", match c.key with | some k => .str (spanText k) | none => .null)] := rfl

theorem recordJson_obj (app : App) (c : Call) : recordJson app c = .obj (recordFields app c) := rfl

theorem items_attrs (app : App) (c : Call) : items (attrFields app c) =
    [("application_instance", .str app.inst), ("application_name", .str app.name), ("filename", .str c.filename),
      ("funcName", .str c.funcName), ("lineno", .int c.lineno), ("module", .str c.modul)] := by
  have h1 : "module" < "funcName" ↔ False := by decide
  have h2 : "lineno" < "funcName" ↔ False := by decide
  have h3 : "lineno" < "module" ↔ True := by decide
  have h4 : "filename" < "funcName" ↔ True := by decide
  have h5 : "application_instance" < "filename" ↔ True := by decide
  have h6 : "application_name" < "application_instance" ↔ False := by decide
  have h7 : "application_name" < "filename" ↔ True := by decide
  simp only [items, attrFields, List.foldr, insertField, h1, h2, h3, h4, h5, h6, h7, if_true, if_false]

theorem optionalId_trace (app : App) (c : Call) : optionalId (recordFields app c) "trace_id" "traceId" =
    some (match c.key with | some k => [("traceId", .str (traceText k))] | none => []) := by
  rw [recordFields_eq]
  unfold optionalId
  cases c.key <;> simp [Dict.get?]

theorem optionalId_span (app : App) (c : Call) : optionalId (recordFields app c) "span_id" "spanId" =
    some (match c.key with | some k => [("spanId", .str (spanText k))] | none => []) := by
  rw [recordFields_eq]
  unfold optionalId
  cases c.key <;> simp [Dict.get?]

/-- The record of a line, as posted. -/
def posted (F : Floats) (app : App) (c : Call) : Json :=
  .obj ([
    ("timeUnixNano", .str (toText (parseTime (isoformat c.created)))),
    ("severityNumber", .int (Logs.severityForLevelno c.levelno).1),
    ("severityText", .str (Logs.severityForLevelno c.levelno).2),
    ("body", .obj [("stringValue", .str c.message)]),
    ("attributes", .arr [attributeKv F "application_instance" (.str app.inst), attributeKv F "application_name" (.str app.name),
      attributeKv F "filename" (.str c.filename), attributeKv F "funcName" (.str c.funcName), attributeKv F "lineno" (.int c.lineno),
      attributeKv F "module" (.str c.modul)])] ++
    (match c.key with | some k => [("traceId", .str (traceText k))] | none => []) ++
    (match c.key with | some k => [("spanId", .str (spanText k))] | none => []))

theorem attributesOf_record (F : Floats) (app : App) (c : Call) : attributesOf F (recordFields app c) =
    [attributeKv F "application_instance" (.str app.inst), attributeKv F "application_name" (.str app.name),
      attributeKv F "filename" (.str c.filename), attributeKv F "funcName" (.str c.funcName), attributeKv F "lineno" (.int c.lineno),
      attributeKv F "module" (.str c.modul)] := by
  have hg : Dict.get? (recordFields app c) "attributes" = some (.obj (attrFields app c)) := by
    rw [recordFields_eq]
    simp [Dict.get?]
  unfold attributesOf
  rw [hg]
  simp only [items_attrs, List.map_cons, List.map_nil]

theorem convertRecord_record (F : Floats) (app : App) (c : Call) : convertRecord F (recordJson app c) = some (posted F app c) := by
  have h1 : atStr (recordFields app c) "timestamp" = some (String.ofList (isoformat c.created)) := by
    rw [recordFields_eq]; simp [atStr, Dict.get?]
  have h2 : atInt (recordFields app c) "severity_number" = some ((Logs.severityForLevelno c.levelno).1 : Int) := by
    rw [recordFields_eq]; simp [atInt, Dict.get?]
  have h3 : atStr (recordFields app c) "severity_text" = some (Logs.severityForLevelno c.levelno).2 := by
    rw [recordFields_eq]; simp [atStr, Dict.get?]
  have h4 : atStr (recordFields app c) "body" = some c.message := by
    rw [recordFields_eq]; simp [atStr, Dict.get?]
  rw [recordJson_obj]
  unfold convertRecord
  simp only [h1, h2, h3, h4, optionalId_trace, optionalId_span, attributesOf_record]
  unfold posted
  rw [String.toList_ofList]

/-- The record a collector gets, whatever the date. -/
def got (app : App) (c : Call) : Spec.Record := { Spec.expected app c with time := toString (c.created * 1000 % 2 ^ 64) }

theorem got_ordinary (app : App) (c : Call) (h : c.created * 1000 < 2 ^ 64) : got app c = Spec.expected app c := by
  unfold got
  rw [Nat.mod_eq_of_lt h]
  rfl

theorem member_cons (k key : String) (v : Json) (fs : List (String × Json)) :
    Spec.member (.obj ((k, v) :: fs)) key = if k = key then some v else Spec.member (.obj fs) key := by
  unfold Spec.member
  by_cases h : k = key <;> simp [h]

theorem member_nil (key : String) : Spec.member (.obj []) key = none := rfl

theorem keyValue_str (F : Floats) (k s : String) : Spec.keyValue (attributeKv F k (.str s)) = some (k, .text s) := by
  unfold Spec.keyValue attributeKv
  simp [member_cons, member_nil, Spec.text, Spec.value]

theorem keyValue_int (F : Floats) (k : String) (n : Nat) (h : n < 2 ^ 63) :
    Spec.keyValue (attributeKv F k (.int n)) = some (k, .num n) := by
  unfold Spec.keyValue attributeKv
  have : -2 ^ 63 ≤ (n : Int) ∧ (n : Int) < 2 ^ 63 := by omega
  simp only [if_pos this]
  simp [member_cons, member_nil, Spec.text, Spec.value]

theorem spanText_eq (k : SpanKey) (h : 0 ≤ k.span.value) : spanText k = Spec.spanHex k := by
  unfold spanText SpanId.hex Spec.spanHex
  rw [if_neg (by omega)]

theorem map_spanText (o : Option SpanKey) (h : ∀ k, o = some k → 0 ≤ k.span.value) :
    o.map spanText = o.map Spec.spanHex := by
  cases o with
  | none => rw [Option.map_none, Option.map_none]
  | some k => rw [Option.map_some, Option.map_some, spanText_eq k (h k rfl)]

/-- The ids of a record. -/
def idFields (tid sid : Option String) : List (String × Json) :=
  (match tid with | some t => [("traceId", .str t)] | none => []) ++ (match sid with | some t => [("spanId", .str t)] | none => [])

/-- Read field by field. -/
theorem record_read_abstract (tm : String) (num : Int) (txt body : String) (attrs : List Json) (kvs : List (String × Spec.Value))
    (tid sid : Option String) (ha : attrs.mapM Spec.keyValue = some kvs) :
    Spec.record (.obj (("timeUnixNano", .str tm) :: ("severityNumber", .int num) :: ("severityText", .str txt) ::
      ("body", .obj [("stringValue", .str body)]) :: ("attributes", .arr attrs) :: idFields tid sid)) =
    some { time := tm, severityNumber := num, severityText := txt, body := body, attributes := kvs, traceId := tid, spanId := sid } := by
  unfold Spec.record
  have hb : Spec.value (.obj [("stringValue", .str body)]) = some (.text body) := by
    simp [Spec.value, member_cons, member_nil]
  generalize Json.obj [("stringValue", .str body)] = B at hb ⊢
  cases tid <;> cases sid <;>
    simp [member_cons, member_nil, Spec.text, hb, Spec.whole, Spec.list, ha, idFields]

/-- Read field by field. -/
theorem record_read (F : Floats) (app : App) (c : Call) (tm : String) (num : Int) (txt : String)
    (hi : Spec.keyValue (attributeKv F "lineno" (.int c.lineno)) = some ("lineno", .num c.lineno))
    (hk : ∀ k, c.key = some k → 0 ≤ k.span.value) :
    Spec.record (.obj ([
      ("timeUnixNano", .str tm),
      ("severityNumber", .int num),
      ("severityText", .str txt),
      ("body", .obj [("stringValue", .str c.message)]),
      ("attributes", .arr [attributeKv F "application_instance" (.str app.inst), attributeKv F "application_name" (.str app.name),
        attributeKv F "filename" (.str c.filename), attributeKv F "funcName" (.str c.funcName), attributeKv F "lineno" (.int c.lineno),
        attributeKv F "module" (.str c.modul)])] ++
      (match c.key with | some k => [("traceId", .str (traceText k))] | none => []) ++
      (match c.key with | some k => [("spanId", .str (spanText k))] | none => []))) =
    some { time := tm, severityNumber := num, severityText := txt, body := c.message,
           attributes := [("application_instance", .text app.inst), ("application_name", .text app.name), ("filename", .text c.filename),
             ("funcName", .text c.funcName), ("lineno", .num c.lineno), ("module", .text c.modul)],
           traceId := c.key.map Spec.traceHex,
           spanId := c.key.map Spec.spanHex } := by
  have ha : [attributeKv F "application_instance" (.str app.inst), attributeKv F "application_name" (.str app.name),
        attributeKv F "filename" (.str c.filename), attributeKv F "funcName" (.str c.funcName), attributeKv F "lineno" (.int c.lineno),
        attributeKv F "module" (.str c.modul)].mapM Spec.keyValue =
      some [("application_instance", .text app.inst), ("application_name", .text app.name), ("filename", .text c.filename),
             ("funcName", .text c.funcName), ("lineno", .num c.lineno), ("module", .text c.modul)] := by
    simp only [List.mapM_cons, List.mapM_nil, keyValue_str, hi]
    rfl
  have ht : c.key.map traceText = c.key.map Spec.traceHex := rfl
  have hr := record_read_abstract tm num txt c.message _ _ (c.key.map traceText) (c.key.map spanText) ha
  have he : c.key.map spanText = c.key.map Spec.spanHex := map_spanText _ hk
  have hf : idFields (c.key.map traceText) (c.key.map spanText) =
      (match c.key with | some k => [("traceId", Json.str (traceText k))] | none => []) ++
      (match c.key with | some k => [("spanId", Json.str (spanText k))] | none => []) := by
    generalize c.key = o
    cases o with
    | none => rfl
    | some k => simp only [Option.map_some, idFields]
  rw [hf, ht, he] at hr
  rw [List.append_assoc]
  exact hr

theorem record_posted (F : Floats) (app : App) (c : Call) (hd : Datable c.created) (hl : c.lineno < 2 ^ 63)
    (hk : ∀ k, c.key = some k → 0 ≤ k.span.value) : Spec.record (posted F app c) = some (got app c) := by
  have hs := severity_eq c.levelno
  have hs1 : ((Logs.severityForLevelno c.levelno).1 : Int) = (Spec.severity c.levelno).1 := congrArg Prod.fst hs
  have hs2 : (Logs.severityForLevelno c.levelno).2 = (Spec.severity c.levelno).2 := congrArg Prod.snd hs
  have hi := keyValue_int F "lineno" _ hl
  unfold posted got Spec.expected
  rw [parseTime_isoformat _ hd, hs1, hs2]
  exact record_read F app c _ _ _ hi hk

theorem extractResource_line (F : Floats) (app : App) (c : Call) (h : c.lineno < 2 ^ 63) : extractResource F (line F app c) = some app := by
  have hg : Dict.get? (recordFields app c) "attributes" = some (.obj (attrFields app c)) := by
    rw [recordFields_eq]
    simp [Dict.get?]
  have h1 : atOr (attrFields app c) "application_name" = some app.name := by simp [atOr, attrFields, Dict.get?]
  have h2 : atOr (attrFields app c) "application_instance" = some app.inst := by simp [atOr, attrFields, Dict.get?]
  unfold extractResource
  rw [line_parse F app c h, recordJson_obj]
  simp only [hg, h1, h2]

theorem convertAll_lines (F : Floats) (calls : List (App × Call)) (h : ∀ x ∈ calls, x.2.lineno < 2 ^ 63) :
    convertAll F (calls.map (fun x => line F x.1 x.2)) = some (calls.map (fun x => posted F x.1 x.2)) := by
  induction calls with
  | nil => rfl
  | cons x xs ih =>
    rw [List.map_cons, convertAll, line_parse F _ _ (h x List.mem_cons_self), ih (fun y hy => h y (List.mem_cons_of_mem _ hy))]
    simp only [convertRecord_record, List.map_cons]

theorem mapM_record (F : Floats) (calls : List (App × Call)) (h : ∀ x ∈ calls, Datable x.2.created ∧ x.2.lineno < 2 ^ 63 ∧
    ∀ k, x.2.key = some k → 0 ≤ k.span.value) :
    (calls.map (fun x => posted F x.1 x.2)).mapM Spec.record = some (calls.map (fun x => got x.1 x.2)) := by
  induction calls with
  | nil => rfl
  | cons x xs ih =>
    obtain ⟨h1, h2, h3⟩ := h x List.mem_cons_self
    rw [List.map_cons, List.mapM_cons, record_posted F _ _ h1 h2 h3, ih (fun y hy => h y (List.mem_cons_of_mem _ hy))]
    rfl

theorem payload_read (F : Floats) (lines : List Str) (app : App) (records : List Json) (recs : List Spec.Record)
    (hc : convertAll F lines = some records) (hm : records.mapM Spec.record = some recs) :
    (buildPayload F lines app).bind Spec.groups = some [{ resource := Spec.resourceOf app, records := recs }] := by
  unfold buildPayload
  rw [hc]
  simp only [Option.bind_some]
  unfold Spec.groups
  simp only [member_cons, if_true, Option.bind_eq_bind, Option.bind_some, Spec.list, List.mapM_cons, List.mapM_nil]
  unfold Spec.group
  have e1 : ("resource" = "scopeLogs") = False := by simp
  have e2 : ("scope" = "logRecords") = False := by simp
  simp only [member_cons, member_nil, if_true, Option.bind_eq_bind, Option.bind_some, Spec.list, List.mapM_cons, List.mapM_nil, keyValue_str,
    e1, e2, if_false, hm, pure, List.flatten_cons, List.flatten_nil, List.append_nil, Spec.resourceOf]

/-- What a collector reads from the payload of any batch of lines. -/
theorem groups_post (F : Floats) (x : App × Call) (calls : List (App × Call)) (h : ∀ y ∈ x :: calls, Datable y.2.created ∧ y.2.lineno < 2 ^ 63 ∧
    ∀ k, y.2.key = some k → 0 ≤ k.span.value) :
    (post F ((x :: calls).map (fun y => line F y.1 y.2))).bind Spec.groups =
      some [{ resource := Spec.resourceOf x.1, records := (x :: calls).map (fun y => got y.1 y.2) }] := by
  have hc := convertAll_lines F (x :: calls) (fun y hy => (h y hy).2.1)
  have hm := mapM_record F (x :: calls) h
  have hr := extractResource_line F x.1 x.2 (h x List.mem_cons_self).2.1
  have hp := payload_read F _ x.1 _ _ hc hm
  rw [List.map_cons] at hp ⊢
  unfold post
  simp only [hr]
  rw [hp]

end Verif.Envelope
