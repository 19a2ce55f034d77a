import Verif.Fun.Spec
import Verif.Wire.Bytes
import Mathlib.Data.List.TakeWhile

/-! # C93: the router's answers -/

namespace Verif.Fun

open Verif.Py Spec

variable {E : Type}

theorem split_first (first rest : Str) (h : ' ' ∉ first) (hr : rest = [] ∨ ∃ r, rest = ' ' :: r) :
    (Str.split ' ' (first ++ rest)).headD [] = first := by
  rcases hr with rfl | ⟨r, rfl⟩
  · rw [List.append_nil, Str.split_free h]; rfl
  · rw [Str.split_append h]; rfl

theorem dropWhile_white {a s : Str} (ha : ∀ c ∈ a, Str.isWhite c = true) : (a ++ s).dropWhile Str.isWhite = s.dropWhile Str.isWhite := by
  induction a with
  | nil => rfl
  | cons c a ih =>
    rw [List.cons_append, List.dropWhile_cons, if_pos (ha c (.head _)), ih fun x hx => ha x (.tail _ hx)]

theorem strip_surrounded {a w b : Str} (ha : ∀ c ∈ a, Str.isWhite c = true) (hb : ∀ c ∈ b, Str.isWhite c = true)
    (hw : ∀ c ∈ w, Str.isWhite c = false) (hne : w ≠ []) : Str.strip (a ++ w ++ b) = w := by
  have h1 : ∀ (v s : Str), (∀ c ∈ v, Str.isWhite c = false) → v ≠ [] → (v ++ s).dropWhile Str.isWhite = v ++ s := by
    intro v s hv hne
    cases v with
    | nil => exact absurd rfl hne
    | cons c v => exact Str.dropWhile_head (hv c (.head _))
  unfold Str.strip
  rw [List.append_assoc, dropWhile_white ha, h1 w b hw hne, List.reverse_append, dropWhile_white (fun c hc => hb c (List.mem_reverse.1 hc))]
  have := h1 w.reverse [] (fun c hc => hw c (List.mem_reverse.1 hc)) (by simpa using hne)
  rw [List.append_nil] at this
  rw [this, List.reverse_reverse]

theorem strip_parts (s : Str) : ∃ a b, s = a ++ Str.strip s ++ b ∧ ∀ c ∈ a ++ b, Str.isWhite c = true := by
  refine ⟨s.takeWhile Str.isWhite, (((s.dropWhile Str.isWhite).reverse).takeWhile Str.isWhite).reverse, ?_, ?_⟩
  · unfold Str.strip
    rw [List.append_assoc, ← List.reverse_append, List.takeWhile_append_dropWhile, List.reverse_reverse, List.takeWhile_append_dropWhile]
  · intro c hc
    rcases List.mem_append.1 hc with h | h
    · exact List.mem_takeWhile_imp h
    · exact List.mem_takeWhile_imp (List.mem_reverse.1 h)

theorem first_word (request : Str) : ∃ first rest, request = first ++ rest ∧ ' ' ∉ first ∧ (rest = [] ∨ ∃ r, rest = ' ' :: r) := by
  refine ⟨request.takeWhile (· ≠ ' '), request.dropWhile (· ≠ ' '), (List.takeWhile_append_dropWhile).symm, ?_, ?_⟩
  · intro h
    have := List.mem_takeWhile_imp h
    simp at this
  · cases hd : request.dropWhile (fun c : Char => decide (c ≠ ' ')) with
    | nil => exact .inl rfl
    | cons c cs =>
      refine .inr ⟨cs, ?_⟩
      have := List.head_dropWhile_not (fun c : Char => decide (c ≠ ' ')) (l := request) (by rw [hd]; simp)
      simp only [hd, List.head_cons] at this
      have : c = ' ' := by simpa using this
      rw [this]

/-- The names that the router knows. -/
def known : List String := ["fortune", "joke", "lotto", "time"]

theorem lower_letter {c : Char} {name : String} (hn : name ∈ known) (h : c.toLower ∈ name.toList) :
    Str.isWhite c = false ∧ c ≠ ' ' := by
  have key : ∀ d ∈ "fortunejklim".toList, ∀ n : Nat, n < 128 → Char.toLower (Char.ofNat n) = d → Str.isWhite (Char.ofNat n) = false ∧ Char.ofNat n ≠ ' ' := by
    decide +kernel
  have hlt : c.toNat < 128 := by
    by_contra hge
    have hu : c.toLower = c := by
      unfold Char.toLower
      rw [dif_neg]
      intro hh
      have : c.toNat ≤ 90 := hh.2
      omega
    rw [hu] at h
    have : ∀ d ∈ "fortune".toList ++ "joke".toList ++ "lotto".toList ++ "time".toList, d.toNat < 128 := by decide +kernel
    have hc := this c (by
      simp only [known, List.mem_cons, List.not_mem_nil, or_false] at hn
      rcases hn with rfl | rfl | rfl | rfl <;> simp only [List.mem_append, h, true_or, or_true])
    omega
  have hd : c.toLower ∈ "fortunejklim".toList := by
    have : ∀ name ∈ known, ∀ d ∈ name.toList, d ∈ "fortunejklim".toList := by decide +kernel
    exact this name hn _ h
  have := key _ hd c.toNat hlt (by rw [Char.ofNat_toNat])
  rwa [Char.ofNat_toNat] at this

/-- The word the router looks at is `name` exactly if the request begins with that word. -/
theorem word_iff (u : Beyond) {name : String} (hn : name ∈ known) (request : Str) (ha : ∀ c ∈ request, c.toNat < 128) :
    lower u (Str.strip ((Str.split ' ' request).headD [])) = name.toList ↔ Word name request := by
  obtain ⟨first, rest, rfl, h1, h2⟩ := first_word request
  rw [split_first first rest h1 h2]
  have hasc : ascii (Str.strip first) = true := by
    obtain ⟨a, b, e, -⟩ := strip_parts first
    unfold ascii
    rw [List.all_eq_true]
    intro c hc
    have := ha c (List.mem_append_left _ (by rw [e]; simp [hc]))
    simpa using this
  have hl : lower u (Str.strip first) = (Str.strip first).map Char.toLower := by
    unfold lower
    rw [hasc]; rfl
  rw [hl]
  constructor
  · intro h
    obtain ⟨a, b, e, hw⟩ := strip_parts first
    refine ⟨a, Str.strip first, b, rest, by rw [← e], ?_, h, h2⟩
    intro c hc
    refine ⟨(Wire.isWhite_iff c).1 (hw c hc), ?_⟩
    rintro rfl
    apply h1
    rw [e]
    rcases List.mem_append.1 hc with h | h <;> simp [h]
  · rintro ⟨a, w, b, rest', e, hw, hm, hr⟩
    have hwne : w ≠ [] := by
      rintro rfl
      rw [List.map_nil] at hm
      have : ∀ name ∈ known, name.toList ≠ [] := by decide +kernel
      exact this name hn hm.symm
    have hwl : ∀ c ∈ w, Str.isWhite c = false ∧ c ≠ ' ' := fun c hc => lower_letter hn (hm ▸ List.mem_map_of_mem hc)
    have hsp : ' ' ∉ a ++ w ++ b := by
      intro h
      rcases List.mem_append.1 h with h | h
      · rcases List.mem_append.1 h with h | h
        · exact (hw _ (List.mem_append_left _ h)).2 rfl
        · exact (hwl _ h).2 rfl
      · exact (hw _ (List.mem_append_right _ h)).2 rfl
    have hf : first = a ++ w ++ b := by
      rw [← split_first first rest h1 h2, e, split_first _ rest' hsp hr]
    rw [hf, strip_surrounded _ _ (fun c hc => (hwl c hc).1) hwne, hm]
    · exact fun c hc => (Wire.isWhite_iff c).2 (hw c (List.mem_append_left _ hc)).1
    · exact fun c hc => (Wire.isWhite_iff c).2 (hw c (List.mem_append_right _ hc)).1

theorem listToString_eq (l : List Str) : listToString l = lines l := by
  have : ∀ (l : List Str) (r : Str), l.foldl (fun r s => r ++ (s ++ ['\n'])) r = r ++ lines l := by
    intro l
    induction l with
    | nil => intro r; simp [lines]
    | cons x l ih =>
      intro r
      rw [List.foldl_cons, ih]
      simp [lines]
  unfold listToString
  rw [this]; rfl

/-- **C93.** A request of ASCII characters whose first word is fortune, joke or time, in whatever case, is answered with what that service
says, any other but lotto with a prediction about the whole request. The request goes to the tracker first, whatever happens, and the answer
goes to the tracker exactly if there is one; a service that raises makes the router raise. No other service is asked. -/
theorem C93_service_partial (u : Beyond) (svc : Services E) (request : Str) (ha : ∀ c ∈ request, c.toNat < 128) :
    let does (x : List Event × Outcome E) := process u svc request = (.logRequest request :: x.1, x.2)
    (Word "fortune" request → does (answered .fortune svc.fortune)) ∧
    (Word "joke" request → does (answered .joke svc.joke)) ∧
    (Word "time" request → does (answered .time svc.time)) ∧
    (¬ Word "fortune" request → ¬ Word "joke" request → ¬ Word "time" request → ¬ Word "lotto" request →
      does (answered (.prediction request) (svc.prediction request))) := by
  intro does
  have w1 := word_iff u (name := "fortune") (by decide) request ha
  have w2 := word_iff u (name := "joke") (by decide) request ha
  have w3 := word_iff u (name := "time") (by decide) request ha
  have w4 := word_iff u (name := "lotto") (by decide) request ha
  have n1 : "joke".toList ≠ "fortune".toList := by decide +kernel
  have n2 : "time".toList ≠ "fortune".toList := by decide +kernel
  have n3 : "time".toList ≠ "joke".toList := by decide +kernel
  have n4 : "time".toList ≠ "lotto".toList := by decide +kernel
  refine ⟨fun h => ?_, fun h => ?_, fun h => ?_, fun h1 h2 h3 h4 => ?_⟩
  · show process u svc request = _
    unfold process ask
    simp only [w1.2 h, if_true]
    cases svc.fortune <;> rfl
  · show process u svc request = _
    unfold process ask
    simp only [w2.2 h, n1, if_false, if_true]
    cases svc.joke <;> rfl
  · show process u svc request = _
    unfold process ask
    simp only [w3.2 h, n2, n3, n4, if_false, if_true]
    cases svc.time <;> rfl
  · show process u svc request = _
    unfold process ask
    simp only [mt w1.1 h1, mt w2.1 h2, mt w3.1 h3, mt w4.1 h4, if_false]
    cases svc.prediction request <;> rfl

theorem lotto_asks (u : Beyond) (svc : Services E) (request : Str) (ha : ∀ c ∈ request, c.toNat < 128) (hw : Word "lotto" request) (n : Int)
    (hn : howMany u (Str.split ' ' request) = .ok n) :
    process u svc request = (.logRequest request :: (answered (.numbers n) ((svc.numbers n).map lines)).1,
      (answered (.numbers n) ((svc.numbers n).map lines)).2) := by
  have w4 := (word_iff u (name := "lotto") (by decide) request ha).2 hw
  have n1 : "lotto".toList ≠ "fortune".toList := by decide +kernel
  have n2 : "lotto".toList ≠ "joke".toList := by decide +kernel
  have hls : (listToString : List Str → Str) = lines := funext listToString_eq
  unfold process ask
  simp only [w4, n1, n2, if_false, if_true, hn, hls]
  cases svc.numbers n <;> rfl

theorem split_second {request w : Str} (h : SecondWord request w) : ∃ first more, Str.split ' ' request = first :: w :: more := by
  obtain ⟨first, rest, rfl, h1, h2, h3⟩ := h
  rw [Str.split_append h1]
  rcases h3 with rfl | ⟨r, rfl⟩
  · rw [List.append_nil, Str.split_free h2]; exact ⟨_, _, rfl⟩
  · rw [Str.split_append h2]; exact ⟨_, _, rfl⟩

theorem digits_natOf {ds : Str} (hne : ds ≠ []) (hd : ∀ c ∈ ds, c.isDigit = true) : Str.natOf ds = some (Nat.ofDigitChars 10 ds 0) := by
  have hu : '_' ∉ ds := fun h => absurd (hd _ h) (by decide)
  have hall : ds.all Char.isDigit = true := by simpa using hd
  simp [Str.natOf, Str.split_free hu, hne, hall]

theorem digit_ascii {c : Char} (h : c.isDigit = true) : c.toNat < 128 := by
  simp only [Char.isDigit, Bool.and_eq_true, decide_eq_true_eq] at h
  have : c.toNat ≤ 57 := h.2
  omega

theorem toInt_digits {ds : Str} (hne : ds ≠ []) (hd : ∀ c ∈ ds, c.isDigit = true) :
    Str.toInt ds = .ok (Nat.ofDigitChars 10 ds 0 : Nat) ∧ Str.toInt ('-' :: ds) = .ok (-(Nat.ofDigitChars 10 ds 0 : Nat)) := by
  have hn := digits_natOf hne hd
  have ht : Str.trim ds = ds := by
    have := Str.trim_digits (t := []) hne hd (by simp)
    rwa [List.append_nil] at this
  have hcons : ∃ c cs, ds = c :: cs ∧ c ≠ '-' ∧ c ≠ '+' := by
    cases ds with
    | nil => exact absurd rfl hne
    | cons c cs =>
      refine ⟨c, cs, rfl, ?_, ?_⟩
      · rintro rfl; exact absurd (hd _ (.head _)) (by decide)
      · rintro rfl; exact absurd (hd _ (.head _)) (by decide)
  have hdash : Str.trim ('-' :: ds) = '-' :: ds := by
    obtain ⟨c, cs, e, -⟩ := hcons
    unfold Str.trim
    rw [Str.dropWhile_head (by decide), List.reverse_cons]
    cases hr : ds.reverse with
    | nil => rw [List.reverse_eq_nil_iff] at hr; exact absurd hr hne
    | cons d more =>
      have hdd : d.isDigit = true := hd d (by have : d ∈ ds.reverse := by simp [hr]
                                              simpa using this)
      rw [List.cons_append, Str.dropWhile_head (Str.not_isSpace_of_isDigit hdd), ← List.cons_append, ← hr]
      simp
  constructor
  · unfold Str.toInt
    rw [ht]
    obtain ⟨c, cs, rfl, h1, h2⟩ := hcons
    split
    · next heq => exact absurd (List.cons.inj heq).1 h1
    · next heq => exact absurd (List.cons.inj heq).1 h2
    · rw [hn]; rfl
  · unfold Str.toInt
    rw [hdash]
    simp only [hn, Option.map_some]

/-- **C93, so many lottery numbers as asked for.** When the second word is a number of at most 4300 digits, with or without a minus sign, so
many sets are asked for, and the answer has a line for each set. -/
theorem C93_lotto_partial (u : Beyond) (svc : Services E) (request : Str) (ha : ∀ c ∈ request, c.toNat < 128) (hw : Word "lotto" request)
    (ds : Str) (hne : ds ≠ []) (hd : ∀ c ∈ ds, c.isDigit = true) (hl : ds.length ≤ 4300) :
    let does (x : List Event × Outcome E) := process u svc request = (.logRequest request :: x.1, x.2)
    let v : Int := (Nat.ofDigitChars 10 ds 0 : Nat)
    (SecondWord request ds → does (answered (.numbers v) ((svc.numbers v).map lines))) ∧
    (SecondWord request ('-' :: ds) → does (answered (.numbers (-v)) ((svc.numbers (-v)).map lines))) := by
  intro does v
  obtain ⟨t1, t2⟩ := toInt_digits hne hd
  have hdrop : ds.dropWhile (fun c => decide (c = '-')) = ds := by
    cases ds with
    | nil => rfl
    | cons c cs =>
      have : c ≠ '-' := by rintro rfl; exact absurd (hd _ (.head _)) (by decide)
      exact Str.dropWhile_head (by simpa using this)
  have hasc : ascii ds = true := by
    unfold ascii
    rw [List.all_eq_true]
    exact fun c hc => by simpa using digit_ascii (hd c hc)
  have hfil : ds.filter Char.isDigit = ds := List.filter_eq_self.2 hd
  have hall : ds.all Char.isDigit = true := List.all_eq_true.2 hd
  constructor
  · intro h
    apply lotto_asks u svc request ha hw
    obtain ⟨first, more, e⟩ := split_second h
    rw [e]
    have hnum : isNumber u ds = true := by
      unfold isNumber
      simp [hdrop, hasc, hne, hall]
    simp only [howMany, hnum, if_true]
    unfold int
    rw [if_pos hasc, hfil, if_neg (by omega), t1]
  · intro h
    apply lotto_asks u svc request ha hw
    obtain ⟨first, more, e⟩ := split_second h
    rw [e]
    have hnum : isNumber u ('-' :: ds) = true := by
      unfold isNumber
      simp only [List.dropWhile_cons, decide_true, if_true, hdrop, hasc]
      simp [hne, hall]
    simp only [howMany, hnum, if_true]
    have hasc' : ascii ('-' :: ds) = true := by
      unfold ascii at hasc ⊢
      rw [List.all_cons, hasc]; rfl
    unfold int
    rw [if_pos hasc', List.filter_cons_of_neg (by decide), hfil, if_neg (by omega), t2]

/-- **C93, numbers that are too long.** When the second word is a number of more than 4300 digits, with or without a minus sign, the call of the
router raises `ValueError`, and no service is asked. -/
theorem C93_too_long_refuted (u : Beyond) (svc : Services E) (request : Str) (ha : ∀ c ∈ request, c.toNat < 128) (hw : Word "lotto" request)
    (ds : Str) (hd : ∀ c ∈ ds, c.isDigit = true) (hl : 4300 < ds.length)
    (hs : SecondWord request ds ∨ SecondWord request ('-' :: ds)) :
    process u svc request = ([.logRequest request], .raised .valueError) := by
  have hne : ds ≠ [] := by rintro rfl; simp at hl
  have hdrop : ds.dropWhile (fun c => decide (c = '-')) = ds := by
    cases ds with
    | nil => rfl
    | cons c cs =>
      have : c ≠ '-' := by rintro rfl; exact absurd (hd _ (.head _)) (by decide)
      exact Str.dropWhile_head (by simpa using this)
  have hasc : ascii ds = true := by
    unfold ascii
    rw [List.all_eq_true]
    exact fun c hc => by simpa using digit_ascii (hd c hc)
  have hasc' : ascii ('-' :: ds) = true := by
    unfold ascii at hasc ⊢
    rw [List.all_cons, hasc]; rfl
  have hfil : ds.filter Char.isDigit = ds := List.filter_eq_self.2 hd
  have hall : ds.all Char.isDigit = true := List.all_eq_true.2 hd
  have hn : howMany u (Str.split ' ' request) = .error .valueError := by
    rcases hs with h | h
    · obtain ⟨first, more, e⟩ := split_second h
      rw [e]
      have hnum : isNumber u ds = true := by
        unfold isNumber
        simp [hdrop, hasc, hne, hall]
      simp only [howMany, hnum, if_true]
      unfold int
      rw [if_pos hasc, hfil, if_pos hl]
    · obtain ⟨first, more, e⟩ := split_second h
      rw [e]
      have hnum : isNumber u ('-' :: ds) = true := by
        unfold isNumber
        simp only [List.dropWhile_cons, decide_true, if_true, hdrop, hasc]
        simp [hne, hall]
      simp only [howMany, hnum, if_true]
      unfold int
      rw [if_pos hasc', List.filter_cons_of_neg (by decide), hfil, if_pos hl]
  have w4 := (word_iff u (name := "lotto") (by decide) request ha).2 hw
  have n1 : "lotto".toList ≠ "fortune".toList := by decide +kernel
  have n2 : "lotto".toList ≠ "joke".toList := by decide +kernel
  unfold process ask
  simp only [w4, n1, n2, if_false, if_true, hn]

example (n : Nat) (hn : 4300 < n) : ∃ request : Str, (∀ c ∈ request, c.toNat < 128) ∧ Word "lotto" request ∧
    (∀ c ∈ List.replicate n '7', c.isDigit = true) ∧ 4300 < (List.replicate n '7').length ∧ SecondWord request (List.replicate n '7') :=
  ⟨"lotto".toList ++ ' ' :: List.replicate n '7', by
      intro c hc
      rcases List.mem_append.1 hc with h | h
      · clear hc; revert c; decide +kernel
      · rcases List.mem_cons.1 h with rfl | h
        · decide
        · rw [List.eq_of_mem_replicate h]; decide,
    ⟨[], "lotto".toList, [], ' ' :: List.replicate n '7', by simp, by simp, by decide +kernel, .inr ⟨_, rfl⟩⟩,
    fun c hc => by rw [List.eq_of_mem_replicate hc]; decide,
    by rw [List.length_replicate]; exact hn,
    ⟨"lotto".toList, [], by rw [List.append_nil], by decide +kernel,
      fun h => by have := List.eq_of_mem_replicate h; revert this; decide, .inl rfl⟩⟩

/-- **C93, one set otherwise.** Without a second word, or with one that has anything but digits behind its minus signs, one set is asked for. -/
theorem C93_lotto_one (u : Beyond) (svc : Services E) (request : Str) (ha : ∀ c ∈ request, c.toNat < 128) (hw : Word "lotto" request)
    (h : ' ' ∉ request ∨ ∃ dashes rest, SecondWord request (dashes ++ rest) ∧ (∀ c ∈ dashes, c = '-') ∧ rest.head? ≠ some '-' ∧
      (rest = [] ∨ ∃ c ∈ rest, c.isDigit = false)) :
    process u svc request = (.logRequest request :: (answered (.numbers 1) ((svc.numbers 1).map lines)).1,
      (answered (.numbers 1) ((svc.numbers 1).map lines)).2) := by
  apply lotto_asks u svc request ha hw
  rcases h with h | ⟨dashes, rest, hs, hd, hh, hr⟩
  · rw [Str.split_free h]; rfl
  · obtain ⟨first, more, e⟩ := split_second hs
    have hasc : ascii rest = true := by
      obtain ⟨f, r, rfl, -⟩ := hs
      unfold ascii
      rw [List.all_eq_true]
      intro c hc
      simpa using ha c (by simp [hc])
    have hdrop : (dashes ++ rest).dropWhile (fun c => decide (c = '-')) = rest := by
      clear hs e
      induction dashes with
      | nil =>
        cases rest with
        | nil => rfl
        | cons c cs =>
          have : c ≠ '-' := by rintro rfl; exact hh rfl
          exact Str.dropWhile_head (by simpa using this)
      | cons c cs ih =>
        rw [hd c (.head _), List.cons_append, List.dropWhile_cons, if_pos (by decide)]
        exact ih fun c hc => hd c (.tail _ hc)
    have hnum : isNumber u (dashes ++ rest) = false := by
      unfold isNumber
      simp only [hdrop, hasc, if_true]
      rcases hr with rfl | ⟨c, hc, hcd⟩
      · rfl
      · rw [Bool.and_eq_false_iff]
        right
        rw [Bool.eq_false_iff, ne_eq, List.all_eq_true]
        intro hall
        rw [hall c hc] at hcd
        cases hcd
    rw [e]
    simp only [howMany, hnum, Bool.false_eq_true, if_false]

/-- Services for examples. -/
def exServices : Services Unit where
  fortune := .ok "f".toList
  joke := .ok "j".toList
  numbers := fun n => .ok (List.replicate n.toNat "1 2 3".toList)
  time := .error ()
  prediction := fun q => .ok q

/-- Nothing beyond ASCII is lower case, a digit or a number, for examples. -/
def exNone : Beyond := { lower := id, isDigit := fun _ => false, int := fun _ => .error .valueError }

example : Word "joke" "\tJoKe about cats".toList ∧ Word "lotto" "lotto 2".toList ∧ SecondWord "lotto 2".toList "2".toList :=
  ⟨⟨"\t".toList, "JoKe".toList, [], " about cats".toList, by decide +kernel, by decide +kernel, by decide +kernel, .inr ⟨_, rfl⟩⟩,
    ⟨[], "lotto".toList, [], " 2".toList, by decide +kernel, by decide +kernel, by decide +kernel, .inr ⟨_, rfl⟩⟩,
    ⟨"lotto".toList, [], by decide +kernel, by decide +kernel, by decide +kernel, .inl rfl⟩⟩

example : process exNone exServices "lotto 2".toList =
    ([.logRequest "lotto 2".toList, .numbers 2, .logResponse "1 2 3\n1 2 3\n".toList], .answer "1 2 3\n1 2 3\n".toList) := by decide +kernel

example : process exNone exServices "\tJoKe about cats".toList =
    ([.logRequest "\tJoKe about cats".toList, .joke, .logResponse "j".toList], .answer "j".toList) ∧
    process exNone exServices "time".toList = ([.logRequest "time".toList, .time], .service ()) := by decide +kernel

/-- With two minus signs the request fails, though every service would answer: `is_number` strips them all, `int` takes one. A blank before
the first word makes the request a question. -/
theorem C93_refuted (u : Beyond) (svc : Services E) :
    process u svc "lotto --5".toList = ([.logRequest "lotto --5".toList], .raised .valueError) ∧
    process u svc " joke".toList = (.logRequest " joke".toList :: (answered (.prediction " joke".toList) (svc.prediction " joke".toList)).1,
      (answered (.prediction " joke".toList) (svc.prediction " joke".toList)).2) := by
  constructor
  · rfl
  · have h : process u svc " joke".toList = match svc.prediction " joke".toList with
        | .ok s => ([.logRequest " joke".toList, .prediction " joke".toList, .logResponse s], .answer s)
        | .error e => ([.logRequest " joke".toList, .prediction " joke".toList], .service e) := by
      have : ask u svc " joke".toList = match svc.prediction " joke".toList with
        | .ok s => ([.prediction " joke".toList], .answer s)
        | .error e => ([.prediction " joke".toList], .service e) := by rfl
      unfold process
      rw [this]
      cases svc.prediction " joke".toList <;> rfl
    rw [h]
    cases svc.prediction " joke".toList <;> rfl

end Verif.Fun
