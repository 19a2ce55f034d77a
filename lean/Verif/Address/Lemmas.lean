import Verif.Address.Model
import Verif.Address.Spec
import Mathlib.Tactic.IntervalCases

/-! Helper lemmas. -/

namespace Verif.Address

open Verif.Py Spec

/-! ### Splitting -/

theorem split_ne_nil (c : Char) (s : Str) : Str.split c s ≠ [] := by
  cases s with
  | nil => simp [Str.split]
  | cons x xs =>
    simp only [Str.split]
    split
    · simp
    · split <;> simp

theorem dots_split (s : Str) : dots (Str.split '.' s) = s := by
  induction s with
  | nil => rfl
  | cons c s ih =>
    have hne := split_ne_nil '.' s
    unfold Str.split
    cases h : Str.split '.' s with
    | nil => exact absurd h hne
    | cons w ws =>
      rw [h] at ih
      split
      · next hc => simp [dots, ih, hc]
      · cases ws with
        | nil => simp [dots] at ih ⊢; exact ih
        | cons w' ws => simp [dots] at ih ⊢; exact ih

theorem split_dots : ∀ (ws : List Str), ws ≠ [] → (∀ w ∈ ws, '.' ∉ w) → Str.split '.' (dots ws) = ws
  | [], h, _ => absurd rfl h
  | [w], _, h => Str.split_free (h w (by simp))
  | w :: w' :: ws, _, h => by
    simp only [dots]
    rw [Str.split_append (h w (by simp)), split_dots (w' :: ws) (by simp) (fun x hx => h x (List.mem_cons_of_mem _ hx))]

theorem mem_dots : ∀ (ws : List Str) (w : Str), w ∈ ws → ∀ c ∈ w, c ∈ dots ws
  | [], w, h, _, _ => absurd h (by simp)
  | [a], w, h, c, hc => by simp at h; subst h; exact hc
  | a :: b :: ws, w, h, c, hc => by
    simp only [dots, List.mem_append, List.mem_cons]
    rcases List.mem_cons.1 h with rfl | h
    · exact .inl hc
    · exact .inr (.inr (mem_dots (b :: ws) w h c hc))

/-! ### Octets -/

theorem digit_cases {c : Char} (h : c.isDigit = true) : ∃ k < 10, c = Nat.digitChar k := by
  have h1 : 48 ≤ c.toNat ∧ c.toNat ≤ 57 := by
    simp only [Char.isDigit, Bool.and_eq_true, decide_eq_true_eq] at h
    exact ⟨by simpa using UInt32.le_iff_toNat_le.1 h.1, by simpa using UInt32.le_iff_toNat_le.1 h.2⟩
  have h2 : c = Char.ofNat c.toNat := (Char.ofNat_toNat c).symm
  obtain ⟨h3, h4⟩ := h1
  generalize c.toNat = n at h2 h3 h4
  subst h2
  refine ⟨n - 48, by omega, ?_⟩
  interval_cases n <;> rfl

theorem one_digit : ∀ a < 10, Nat.toDigits 10 (Nat.ofDigitChars 10 [Nat.digitChar a] 0) = [Nat.digitChar a] := by decide +kernel

theorem two_digits : ∀ a < 10, a ≠ 0 → ∀ b < 10,
    Nat.toDigits 10 (Nat.ofDigitChars 10 [Nat.digitChar a, Nat.digitChar b] 0) = [Nat.digitChar a, Nat.digitChar b] := by decide +kernel

theorem three_digits : ∀ a < 10, a ≠ 0 → ∀ b < 10, ∀ c < 10,
    Nat.toDigits 10 (Nat.ofDigitChars 10 [Nat.digitChar a, Nat.digitChar b, Nat.digitChar c] 0) =
      [Nat.digitChar a, Nat.digitChar b, Nat.digitChar c] := by decide +kernel

/-- Whether an octet is read as a number, for evaluation. -/
def readsAs (s : Str) (n : Nat) : Bool := match parseOctet s with
  | .ok m => m = n
  | .error _ => false

theorem reads_decimal : ∀ n < 256, readsAs (Nat.toDigits 10 n) n = true := by decide +kernel

theorem parseOctet_decimal {n : Nat} (h : n ≤ 255) : parseOctet (decimal n) = .ok n := by
  have := reads_decimal n (by omega)
  unfold readsAs at this
  unfold decimal
  cases hp : parseOctet (Nat.toDigits 10 n) with
  | ok m => rw [hp] at this; simp at this; rw [this]
  | error e => rw [hp] at this; simp at this

theorem parseOctet_ok {s : Str} {n : Nat} (h : parseOctet s = .ok n) : n ≤ 255 ∧ s = decimal n := by
  unfold parseOctet at h
  split at h
  · simp at h
  next h1 =>
  split at h
  · simp at h
  next h2 =>
  split at h
  · simp at h
  next h3 =>
  split at h
  · simp at h
  next h4 =>
  simp only at h
  split at h
  · simp at h
  next h5 =>
  simp only [Except.ok.injEq] at h
  subst h
  refine ⟨by omega, ?_⟩
  have hd : ∀ c ∈ s, c.isDigit = true := by
    simp only [Bool.not_eq_true', Bool.not_eq_false, Bool.and_eq_true, List.all_eq_true] at h2
    exact h2.2
  clear h2 h5
  match s, h1, h3, h4, hd with
  | [], h1, _, _, _ => exact absurd rfl h1
  | [a], _, _, _, hd =>
    obtain ⟨i, hi, rfl⟩ := digit_cases (hd a (by simp))
    exact (one_digit i hi).symm
  | [a, b], _, _, h4, hd =>
    obtain ⟨i, hi, rfl⟩ := digit_cases (hd a (by simp))
    obtain ⟨j, hj, rfl⟩ := digit_cases (hd b (by simp))
    have hi0 : i ≠ 0 := by rintro rfl; exact h4 ⟨by simp, rfl⟩
    exact (two_digits i hi hi0 j hj).symm
  | [a, b, c], _, _, h4, hd =>
    obtain ⟨i, hi, rfl⟩ := digit_cases (hd a (by simp))
    obtain ⟨j, hj, rfl⟩ := digit_cases (hd b (by simp))
    obtain ⟨k, hk, rfl⟩ := digit_cases (hd c (by simp))
    have hi0 : i ≠ 0 := by rintro rfl; exact h4 ⟨by simp, rfl⟩
    exact (three_digits i hi hi0 j hj k hk).symm
  | a :: b :: c :: d :: t, _, h3, _, _ => simp at h3

theorem decimal_digits : ∀ n < 256, (Nat.toDigits 10 n).all (fun c => decide (48 ≤ c.toNat) && decide (c.toNat ≤ 57)) = true := by
  decide +kernel

theorem decimal_free {n : Nat} (h : n ≤ 255) : '.' ∉ decimal n ∧ '/' ∉ decimal n := by
  have := decimal_digits n (by omega)
  simp only [List.all_eq_true, Bool.and_eq_true, decide_eq_true_eq] at this
  constructor
  · intro hm; have := this _ hm; revert this; decide
  · intro hm; have := this _ hm; revert this; decide

theorem isIPv4_iff (s : Str) : isIPv4 s = true ↔ IPv4 s := by
  constructor
  · intro h
    unfold isIPv4 at h
    split at h
    · simp at h
    split at h
    · simp at h
    simp only at h
    split at h
    · simp at h
    next hl =>
    have hs := dots_split s
    match hsp : Str.split '.' s, hl, h with
    | [a, b, c, d], _, h =>
      simp only [List.all_cons, List.all_nil, Bool.and_true, Bool.and_eq_true] at h
      obtain ⟨ha, hb, hc, hd⟩ := h
      have get : ∀ o : Str, (match parseOctet o with
          | .ok _ => true
          | .error _ => false) = true → ∃ n, n ≤ 255 ∧ o = decimal n := by
        intro o ho
        cases hp : parseOctet o with
        | ok n => exact ⟨n, parseOctet_ok hp⟩
        | error e => rw [hp] at ho; simp at ho
      obtain ⟨na, h1, rfl⟩ := get a ha
      obtain ⟨nb, h2, rfl⟩ := get b hb
      obtain ⟨nc, h3, rfl⟩ := get c hc
      obtain ⟨nd, h4, rfl⟩ := get d hd
      rw [hsp] at hs
      exact ⟨na, nb, nc, nd, h1, h2, h3, h4, hs.symm⟩
    | [], hl, _ => simp at hl
    | [a], hl, _ => simp at hl
    | [a, b], hl, _ => simp at hl
    | [a, b, c], hl, _ => simp at hl
    | a :: b :: c :: d :: e :: t, hl, _ => simp at hl
  · rintro ⟨a, b, c, d, ha, hb, hc, hd, rfl⟩
    have hsp : Str.split '.' (decimal a ++ '.' :: (decimal b ++ '.' :: (decimal c ++ '.' :: decimal d))) =
        [decimal a, decimal b, decimal c, decimal d] := by
      rw [Str.split_append (decimal_free ha).1, Str.split_append (decimal_free hb).1, Str.split_append (decimal_free hc).1,
        Str.split_free (decimal_free hd).1]
    unfold isIPv4
    rw [hsp]
    have hslash : ¬ (decimal a ++ '.' :: (decimal b ++ '.' :: (decimal c ++ '.' :: decimal d))).contains '/' = true := by
      simp [(decimal_free ha).2, (decimal_free hb).2, (decimal_free hc).2, (decimal_free hd).2]
    rw [if_neg hslash, if_neg (by simp)]
    simp [parseOctet_decimal, ha, hb, hc, hd]

/-! ### Labels -/

theorem head_of_take {x : Str} {n : Nat} (h : 1 ≤ n) : (x.take n).head? = x.head? := by
  cases x with
  | nil => simp
  | cons a x =>
    cases n with
    | zero => omega
    | succ n => rfl

theorem matchOf_iff (u : Beyond) (x : Str) (n : Nat) (hn : 1 ≤ n) : matchOf u x n = true ↔
    ∃ w, (x = w ∨ x = w ++ ['\n']) ∧ w.length = n ∧ (∀ c ∈ w, inClass u c = true) ∧ w.head? ≠ some '-' ∧ w.getLast? ≠ some '-' := by
  unfold matchOf
  simp only [Bool.and_eq_true, Bool.or_eq_true, decide_eq_true_eq, List.all_eq_true]
  constructor
  · rintro ⟨⟨⟨⟨h1, h2⟩, h3⟩, h4⟩, h5⟩
    refine ⟨x.take n, ?_, h2, h3, ?_, h4⟩
    · have := List.take_append_drop n x
      rcases h5 with h5 | h5
      · rw [h5, List.append_nil] at this; exact .inl this.symm
      · rw [h5] at this; exact .inr this.symm
    · rw [head_of_take hn]; exact h1
  · rintro ⟨w, hx, hl, hc, hh, ht⟩
    have ht' : x.take n = w ∧ (x.drop n = [] ∨ x.drop n = ['\n']) := by
      subst hl
      rcases hx with rfl | rfl
      · simp
      · simp
    obtain ⟨e, hd⟩ := ht'
    refine ⟨⟨⟨⟨?_, by rw [e]; exact hl⟩, by rw [e]; exact hc⟩, by rw [e]; exact ht⟩, hd⟩
    rw [← head_of_take hn, e]; exact hh

theorem matchLabel_iff (u : Beyond) (x : Str) : matchLabel u x = true ↔
    ∃ w, (x = w ∨ x = w ++ ['\n']) ∧ LabelOf (fun c => inClass u c = true) w := by
  unfold matchLabel
  simp only [List.any_eq_true, List.mem_range]
  constructor
  · rintro ⟨i, hi, h⟩
    obtain ⟨w, hx, hl, hc, hh, ht⟩ := (matchOf_iff u x (i + 1) (by omega)).1 h
    exact ⟨w, hx, by omega, by omega, hc, hh, ht⟩
  · rintro ⟨w, hx, h1, h2, hc, hh, ht⟩
    refine ⟨w.length - 1, by omega, (matchOf_iff u x _ (by omega)).2 ⟨w, hx, by omega, hc, hh, ht⟩⟩

theorem inClass_ascii (u : Beyond) {c : Char} (h : c.toNat < 128) : inClass u c = true ↔ LDH c := by
  unfold inClass isAscii LDH
  simp only [h, decide_true, if_true, Bool.or_eq_true, decide_eq_true_eq, Char.isAlpha, Char.isUpper, Char.isLower, Char.isDigit,
    Bool.and_eq_true]
  have e : ∀ a b : Char, a ≤ b ↔ a.val ≤ b.val := fun a b => Iff.rfl
  simp only [e]
  have v1 : 'a'.val = 97 := rfl
  have v2 : 'z'.val = 122 := rfl
  have v3 : 'A'.val = 65 := rfl
  have v4 : 'Z'.val = 90 := rfl
  have v5 : '0'.val = 48 := rfl
  have v6 : '9'.val = 57 := rfl
  simp only [v1, v2, v3, v4, v5, v6, ge_iff_le]
  tauto

theorem matchLabel_ordinary (u : Beyond) {x : Str} (h : Ordinary x) : matchLabel u x = true ↔ Label x := by
  rw [matchLabel_iff]
  unfold Label LabelOf
  constructor
  · rintro ⟨w, hx, h1, h2, hc, hh, ht⟩
    have e : x = w := by
      rcases hx with e | e
      · exact e
      · have : '\n' ∈ x := by rw [e]; simp
        exact absurd rfl (h _ this).2
    subst e
    exact ⟨h1, h2, fun c hm => (inClass_ascii u (h c hm).1).1 (hc c hm), hh, ht⟩
  · rintro ⟨h1, h2, hc, hh, ht⟩
    exact ⟨x, .inl rfl, h1, h2, fun c hm => (inClass_ascii u (h c hm).1).2 (hc c hm), hh, ht⟩

theorem LDH_ne_dot {c : Char} (h : LDH c) : c ≠ '.' ∧ c ≠ ':' ∧ c ≠ '\n' ∧ c.toNat < 128 := by
  have hn : (97 ≤ c.toNat ∧ c.toNat ≤ 122) ∨ (65 ≤ c.toNat ∧ c.toNat ≤ 90) ∨ (48 ≤ c.toNat ∧ c.toNat ≤ 57) ∨ c.toNat = 45 := by
    have e : ∀ a b : Char, a ≤ b ↔ a.toNat ≤ b.toNat := fun a b => UInt32.le_iff_toNat_le
    rcases h with h | h | h | h
    · left; exact ⟨(e _ _).1 h.1, (e _ _).1 h.2⟩
    · right; left; exact ⟨(e _ _).1 h.1, (e _ _).1 h.2⟩
    · right; right; left; exact ⟨(e _ _).1 h.1, (e _ _).1 h.2⟩
    · right; right; right; subst h; rfl
  refine ⟨?_, ?_, ?_, by omega⟩
  · rintro rfl; revert hn; decide
  · rintro rfl; revert hn; decide
  · rintro rfl; revert hn; decide

theorem dots_ends {ws : List Str} (hne : ws ≠ []) (h : ∀ w ∈ ws, Label w) : ∃ c, (dots ws).getLast? = some c ∧ c ≠ '.' := by
  induction ws with
  | nil => exact absurd rfl hne
  | cons w ws ih =>
    cases ws with
    | nil =>
      obtain ⟨h1, _, hc, _, _⟩ := h w (by simp)
      simp only [dots]
      cases hl : w.getLast? with
      | none => rw [List.getLast?_eq_none_iff] at hl; subst hl; simp at h1
      | some c => exact ⟨c, rfl, (LDH_ne_dot (hc c (List.mem_of_getLast? hl))).1⟩
    | cons a ws =>
      obtain ⟨c, hc, hd⟩ := ih (by simp) (fun x hx => h x (List.mem_cons_of_mem _ hx))
      refine ⟨c, ?_, hd⟩
      simp only [dots, List.getLast?_append, List.getLast?_cons, hc]
      simp

theorem label_free {ws : List Str} (h : ∀ w ∈ ws, Label w) : ∀ w ∈ ws, '.' ∉ w :=
  fun w hw hm => (LDH_ne_dot ((h w hw).2.2.1 _ hm)).1 rfl

theorem dots_chars : ∀ (ws : List Str), (∀ w ∈ ws, Label w) → ∀ c ∈ dots ws, LDH c ∨ c = '.'
  | [], _, c, hc => absurd hc (by simp [dots])
  | [w], h, c, hc => .inl ((h w (by simp)).2.2.1 c hc)
  | w :: w' :: ws, h, c, hc => by
    simp only [dots, List.mem_append, List.mem_cons] at hc
    rcases hc with hc | hc | hc
    · exact .inl ((h w (by simp)).2.2.1 c hc)
    · exact .inr hc
    · exact dots_chars (w' :: ws) (fun x hx => h x (List.mem_cons_of_mem _ hx)) c hc

/-- The characters of host names. -/
theorem hostname_chars {h : Str} (hh : Hostname h) : ∀ c ∈ h, LDH c ∨ c = '.' := by
  obtain ⟨_, ws, _, hw, e⟩ := hh
  intro c hc
  rcases e with rfl | rfl
  · exact dots_chars ws hw c hc
  · rcases List.mem_append.1 hc with hc | hc
    · exact dots_chars ws hw c hc
    · exact .inr (List.mem_singleton.1 hc)

theorem hostname_ordinary {h : Str} (hh : Hostname h) : Ordinary h ∧ ':' ∉ h ∧ h ≠ [] := by
  refine ⟨?_, ?_, ?_⟩
  · intro c hc
    rcases hostname_chars hh c hc with hl | rfl
    · exact ⟨(LDH_ne_dot hl).2.2.2, (LDH_ne_dot hl).2.2.1⟩
    · decide
  · intro hc
    rcases hostname_chars hh _ hc with hl | e
    · exact (LDH_ne_dot hl).2.1 rfl
    · exact absurd e (by decide)
  · rintro rfl
    obtain ⟨_, ws, hne, hw, e⟩ := hh
    obtain ⟨c, hc, _⟩ := dots_ends hne hw
    rcases e with e | e
    · rw [← e] at hc; simp at hc
    · simp at e

/-- What the check of host names answers. -/
theorem isIetf_iff (u : Beyond) {h : Str} (hne : h ≠ []) (ho : Ordinary h) : ∃ b, isIetf u h = .ok b ∧ (b = true ↔ Hostname h) := by
  unfold isIetf
  by_cases hl : h.length > 255
  · refine ⟨false, by simp [hl], ?_⟩
    simp only [Bool.false_eq_true, false_iff]
    intro hh
    have := hh.1
    omega
  · rw [if_neg hl]
    obtain ⟨t, c, rfl⟩ : ∃ t c, h = t ++ [c] := ⟨h.dropLast, h.getLast hne, (List.dropLast_concat_getLast hne).symm⟩
    simp only [List.getLast?_append, List.getLast?_singleton, Option.some_or, List.dropLast_concat]
    refine ⟨_, rfl, ?_⟩
    have labels : ∀ s : Str, Ordinary s → ((Str.split '.' s).all (matchLabel u) = true ↔ ∀ w ∈ Str.split '.' s, Label w) := by
      intro s hs
      rw [List.all_eq_true]
      have hos : ∀ w ∈ Str.split '.' s, Ordinary w := by
        intro w hw c hc
        have := mem_dots _ w hw c hc
        rw [dots_split] at this
        exact hs c this
      exact ⟨fun hh w hw => (matchLabel_ordinary u (hos w hw)).1 (hh w hw), fun hh w hw => (matchLabel_ordinary u (hos w hw)).2 (hh w hw)⟩
    by_cases hd : c = '.'
    · subst hd
      simp only [if_true]
      rw [labels t (fun c hc => ho c (List.mem_append_left _ hc))]
      constructor
      · intro hw
        exact ⟨by omega, Str.split '.' t, split_ne_nil _ _, hw, .inr (by rw [dots_split])⟩
      · rintro ⟨_, ws, hwne, hw, e⟩
        rcases e with e | e
        · obtain ⟨c, hc, hcd⟩ := dots_ends hwne hw
          rw [← e] at hc
          simp at hc
          exact absurd hc.symm hcd
        · have e := (List.append_inj' e rfl).1
          rw [e, split_dots ws hwne (label_free hw)]
          exact hw
    · simp only [hd, if_false]
      rw [labels _ ho]
      constructor
      · intro hw
        exact ⟨by omega, Str.split '.' (t ++ [c]), split_ne_nil _ _, hw, .inl (by rw [dots_split])⟩
      · rintro ⟨_, ws, hwne, hw, e⟩
        rcases e with e | e
        · rw [e, split_dots ws hwne (label_free hw)]
          exact hw
        · have e := (List.append_inj' e rfl).2
          simp at e
          exact absurd e hd

theorem isIetf_true {u : Beyond} {h : Str} (hh : Hostname h) : isIetf u h = .ok true := by
  obtain ⟨ho, _, hne⟩ := hostname_ordinary hh
  obtain ⟨b, hb, hi⟩ := isIetf_iff u hne ho
  rw [hb, hi.2 hh]

theorem digit_ldh : ∀ n < 256, (Nat.toDigits 10 n).length ≤ 3 ∧ 1 ≤ (Nat.toDigits 10 n).length ∧
    (Nat.toDigits 10 n).head? ≠ some '-' ∧ (Nat.toDigits 10 n).getLast? ≠ some '-' := by decide +kernel

theorem decimal_label {n : Nat} (h : n ≤ 255) : Label (decimal n) ∧ (decimal n).length ≤ 3 := by
  obtain ⟨h1, h2, h3, h4⟩ := digit_ldh n (by omega)
  have hd := decimal_digits n (by omega)
  simp only [List.all_eq_true, Bool.and_eq_true, decide_eq_true_eq] at hd
  refine ⟨⟨h2, by unfold decimal; omega, ?_, h3, h4⟩, h1⟩
  intro c hc
  refine .inr (.inr (.inl ⟨?_, ?_⟩))
  · exact UInt32.le_iff_toNat_le.2 (hd c hc).1
  · exact UInt32.le_iff_toNat_le.2 (hd c hc).2

theorem ipv4_hostname {s : Str} (h : IPv4 s) : Hostname s := by
  obtain ⟨a, b, c, d, ha, hb, hc, hd, rfl⟩ := h
  refine ⟨?_, [decimal a, decimal b, decimal c, decimal d], by simp, ?_, .inl rfl⟩
  · have := (decimal_label ha).2
    have := (decimal_label hb).2
    have := (decimal_label hc).2
    have := (decimal_label hd).2
    simp only [List.length_append, List.length_cons]
    omega
  · intro w hw
    simp only [List.mem_cons, List.not_mem_nil, or_false] at hw
    rcases hw with rfl | rfl | rfl | rfl
    · exact (decimal_label ha).1
    · exact (decimal_label hb).1
    · exact (decimal_label hc).1
    · exact (decimal_label hd).1

/-! ### Host and port -/

/-- Parts with a separator between them. -/
def unsplit (c : Char) : List Str → Str
  | [] => []
  | [w] => w
  | w :: w' :: ws => w ++ c :: unsplit c (w' :: ws)

theorem unsplit_split (c : Char) (s : Str) : unsplit c (Str.split c s) = s := by
  induction s with
  | nil => rfl
  | cons x s ih =>
    have hne := split_ne_nil c s
    unfold Str.split
    cases h : Str.split c s with
    | nil => exact absurd h hne
    | cons w ws =>
      rw [h] at ih
      split
      · next hc => simp [unsplit, ih, hc]
      · cases ws with
        | nil => simp [unsplit] at ih ⊢; exact ih
        | cons w' ws => simp [unsplit] at ih ⊢; exact ih

theorem split_pair {c : Char} {s a b : Str} (h : Str.split c s = [a, b]) : s = a ++ c :: b := by
  have := unsplit_split c s
  rw [h] at this
  exact this.symm

theorem isDigit_iff {c : Char} : c.isDigit = true ↔ '0' ≤ c ∧ c ≤ '9' := by
  simp only [Char.isDigit, Bool.and_eq_true, decide_eq_true_eq]
  exact Iff.rfl

theorem digit_ascii {c : Char} (h : '0' ≤ c ∧ c ≤ '9') : c.toNat < 128 ∧ c ≠ ':' ∧ c ≠ '\n' := by
  have h1 := isDigit_iff.2 h
  obtain ⟨k, hk, rfl⟩ := digit_cases h1
  have : ∀ k < 10, (Nat.digitChar k).toNat < 128 ∧ Nat.digitChar k ≠ ':' ∧ Nat.digitChar k ≠ '\n' := by decide +kernel
  exact this k hk

theorem isPort_ordinary (u : Beyond) {p : Str} (h : ∀ c ∈ p, c.toNat < 128) : isPort u p = true ↔ p ≠ [] ∧ ∀ c ∈ p, '0' ≤ c ∧ c ≤ '9' := by
  unfold isPort
  simp only [Bool.and_eq_true, decide_eq_true_eq, List.all_eq_true]
  refine and_congr_right fun _ => forall₂_congr fun c hc => ?_
  rw [← isDigit_iff]
  simp [isDigitChar, isAscii, h c hc]

theorem portInt_ordinary (u : Beyond) {p : Str} (h : ∀ c ∈ p, c.toNat < 128) :
    portInt u p = if p.length > 4300 then .error .valueError else .ok (value p) := by
  unfold portInt
  have : p.all isAscii = true := by simpa [isAscii] using h
  rw [if_pos this]
  rfl

theorem isHostname_eq (u : Beyond) (h : Str) : isHostname u h = isIetf u h := by
  unfold isHostname
  by_cases hv : isIPv4 h = true
  · simp [hv, isIetf_true (ipv4_hostname ((isIPv4_iff h).1 hv))]
  · simp [hv]

end Verif.Address
