import Verif.Address.Lemmas

/-! C86: addresses given as text. -/

namespace Verif.Address

open Verif.Py Spec

/-- Nothing beyond ASCII is a digit or a letter, for examples. -/
def exPlain : Beyond := { isdigit := fun _ => false, word := fun _ => false, int := fun _ => .error .valueError }

/-- **C86, IPv4.** A text is taken for an IPv4 address exactly if it is four numbers up to 255, written in decimal without leading
zeros, with dots between them. -/
theorem C86_ipv4 (s : Str) : isIPv4 s = true ↔ IPv4 s := isIPv4_iff s

example : isIPv4 "192.168.0.225".toList = true ∧ isIPv4 "192.168.0.256".toList = false ∧ isIPv4 "192.168.00.1".toList = false ∧
    isIPv4 "1.2.3".toList = false := by decide +kernel

/-- **C86, host names.** A text of ASCII characters without line feeds is taken for a host name exactly if it is one. -/
theorem C86_hostname_partial (u : Beyond) (h : Str) (hne : h ≠ []) (ho : Ordinary h) :
    ∃ b, isHostname u h = .ok b ∧ (b = true ↔ Hostname h) := by
  rw [isHostname_eq]
  exact isIetf_iff u hne ho

example : isHostname exPlain "my-host.example.org.".toList = .ok true ∧ isHostname exPlain "-host".toList = .ok false ∧
    isHostname exPlain "a..b".toList = .ok false := by
  refine ⟨?_, ?_, ?_⟩ <;> rfl

/-- **C86, labels.** What is accepted of a host name between two dots, for every text: a label, with or without a line feed behind it. -/
theorem C86_labels (u : Beyond) (h : Str) : isIetf u h = .ok true ↔
    h ≠ [] ∧ h.length ≤ 255 ∧ ∀ x ∈ Str.split '.' (if h.getLast? = some '.' then h.dropLast else h),
      ∃ w, (x = w ∨ x = w ++ ['\n']) ∧ LabelOf (fun c => inClass u c = true) w := by
  unfold isIetf
  by_cases hl : h.length > 255
  · rw [if_pos hl]
    constructor
    · intro e; simp at e
    · rintro ⟨_, h2, _⟩; omega
  · rw [if_neg hl]
    cases hg : h.getLast? with
    | none =>
      rw [List.getLast?_eq_none_iff] at hg
      simp [hg]
    | some c =>
      have hne : h ≠ [] := by rintro rfl; simp at hg
      have e : (if some c = some '.' then h.dropLast else h) = if c = '.' then h.dropLast else h := by
        by_cases hc : c = '.' <;> simp [hc]
      rw [e]
      simp only [Except.ok.injEq, List.all_eq_true, matchLabel_iff]
      exact ⟨fun hh => ⟨hne, by omega, hh⟩, fun hh => hh.2.2⟩

/-- **C86, the two checks.** Every IPv4 address is accepted as a host name as well, so checking for an IPv4 address first changes
nothing. -/
theorem C86_first_check (u : Beyond) (h : Str) : isHostname u h = isIetf u h := isHostname_eq u h

/-- **C86, addresses.** Of a text of ASCII characters without line feeds a host and a port are read exactly if it is a host name, a
colon and at least one and at most 4300 digits, and they are that host name and that number. -/
theorem C86_read_partial (u : Beyond) (request : Str) (ho : Ordinary request) (h : Str) (n : Nat) :
    hostPort u request = .address h n ↔
      ∃ p, request = h ++ ':' :: p ∧ Hostname h ∧ p ≠ [] ∧ p.length ≤ 4300 ∧ (∀ c ∈ p, '0' ≤ c ∧ c ≤ '9') ∧ value p = n := by
  constructor
  · intro hh
    unfold hostPort at hh
    split at hh
    · next host port hs =>
      have hr := split_pair hs
      have hoh : Ordinary host := fun c hc => ho c (by rw [hr]; simp [hc])
      have hop : ∀ c ∈ port, c.toNat < 128 := fun c hc => (ho c (by rw [hr]; simp [hc])).1
      cases hi : isHostname u host with
      | error e => simp [hi] at hh
      | ok b =>
        cases b with
        | false => simp [hi] at hh
        | true =>
          simp only [hi] at hh
          by_cases hp : isPort u port = true
          · simp only [hp, Bool.not_true, Bool.false_eq_true, if_false] at hh
            rw [portInt_ordinary u hop] at hh
            by_cases hlen : port.length > 4300
            · simp [hlen] at hh
            · simp only [hlen, if_false, Outcome.address.injEq] at hh
              obtain ⟨rfl, rfl⟩ := hh
              have hne : host ≠ [] := by rintro rfl; simp [isHostname, isIPv4, isIetf] at hi
              rw [isHostname_eq] at hi
              obtain ⟨b, hb, hbi⟩ := isIetf_iff u hne hoh
              rw [hi] at hb
              simp only [Except.ok.injEq] at hb
              obtain ⟨hp1, hp2⟩ := (isPort_ordinary u hop).1 hp
              exact ⟨port, hr, hbi.1 hb.symm, hp1, by omega, hp2, rfl⟩
          · simp [hp] at hh
    · simp at hh
  · rintro ⟨p, rfl, hh, hp1, hlen, hp2, rfl⟩
    obtain ⟨_, hcol, hne⟩ := hostname_ordinary hh
    have hpc : ':' ∉ p := fun hc => (digit_ascii (hp2 _ hc)).2.1 rfl
    have hop : ∀ c ∈ p, c.toNat < 128 := fun c hc => (digit_ascii (hp2 c hc)).1
    unfold hostPort
    rw [Str.split_append hcol, Str.split_free hpc]
    simp only [isHostname_eq, isIetf_true hh, (isPort_ordinary u hop).2 ⟨hp1, hp2⟩, portInt_ordinary u hop,
      if_neg (show ¬ p.length > 4300 by omega)]
    rfl

/-- **C86, addresses written down.** A host name, a colon and a port number are read as that host name and that port number. -/
theorem C86_given (u : Beyond) (h : Str) (n : Nat) (hh : Hostname h) (hn : n ≤ 65535) :
    hostPort u (h ++ ':' :: decimal n) = .address h n := by
  have hd : ∀ c ∈ decimal n, '0' ≤ c ∧ c ≤ '9' := fun c hc =>
    isDigit_iff.1 (Nat.isDigit_of_mem_toDigits (b := 10) (by omega) (by omega) hc)
  have hlen : (decimal n).length ≤ 5 := (Nat.length_toDigits_le_iff (b := 10) (by omega) (by omega)).2 (by omega)
  refine (C86_read_partial u _ ?_ h n).2 ⟨decimal n, rfl, hh, Nat.toDigits_ne_nil, by omega, hd, ?_⟩
  · intro c hc
    rcases List.mem_append.1 hc with hc | hc
    · exact (hostname_ordinary hh).1 c hc
    · rcases List.mem_cons.1 hc with rfl | hc
      · decide
      · exact ⟨(digit_ascii (hd c hc)).1, (digit_ascii (hd c hc)).2.2⟩
  · exact Nat.ofDigitChars_ten_toDigits

example : Hostname "localhost".toList ∧ hostPort exPlain "localhost:8888".toList = .address "localhost".toList 8888 ∧
    hostPort exPlain "local host:8888".toList = .refused := by
  have h : Hostname "localhost".toList := by
    obtain ⟨b, hb, hi⟩ := isIetf_iff exPlain (h := "localhost".toList) (by decide) (by unfold Ordinary; decide)
    refine hi.1 ?_
    have : isIetf exPlain "localhost".toList = .ok true := rfl
    rw [this] at hb
    exact (Except.ok.inj hb).symm
  refine ⟨h, ?_, ?_⟩
  · exact C86_given exPlain "localhost".toList 8888 h (by decide)
  · decide +kernel

/-- **C86, the machine's name.** For every host name that was accepted there is a name for the machine: this machine's own for the two
local names, what the resolver says for another IPv4 address, and the host name itself otherwise. For others there is none. -/
theorem C86_machine (u : Beyond) (own : Str) (byName : Str → Str) (h : Str) :
    (h = "127.0.0.1".toList ∨ h = "localhost".toList → machineHostname u own byName h = .ok (some own)) ∧
    (h ≠ "127.0.0.1".toList → IPv4 h → machineHostname u own byName h = .ok (some (byName h))) ∧
    (h ≠ "localhost".toList → ¬ IPv4 h → isHostname u h = .ok true → machineHostname u own byName h = .ok (some h)) ∧
    (isHostname u h = .ok false → machineHostname u own byName h = .ok none) := by
  rw [isHostname_eq]
  unfold machineHostname
  have hlocal : IPv4 "127.0.0.1".toList := (isIPv4_iff _).1 (by decide +kernel)
  have hnotip : ¬ IPv4 "localhost".toList := fun h => absurd ((isIPv4_iff _).2 h) (by decide +kernel)
  refine ⟨?_, ?_, ?_, ?_⟩
  · intro h1; rw [if_pos h1]
  · intro h1 h2
    have h3 : h ≠ "localhost".toList := by rintro rfl; exact hnotip h2
    rw [if_neg (by rintro (e | e); exacts [h1 e, h3 e]), if_pos ((isIPv4_iff h).2 h2)]
  · intro h1 h2 hh
    have h3 : h ≠ "127.0.0.1".toList := by rintro rfl; exact h2 hlocal
    rw [if_neg (by rintro (e | e); exacts [h3 e, h1 e]), if_neg (fun h => h2 ((isIPv4_iff _).1 h)), hh]
  · intro hh
    have h1 : ¬ (h = "127.0.0.1".toList ∨ h = "localhost".toList) := by
      rintro (rfl | rfl)
      · have : isIetf u "127.0.0.1".toList = .ok true := rfl
        rw [this] at hh; simp at hh
      · have : isIetf u "localhost".toList = .ok true := rfl
        rw [this] at hh; simp at hh
    have h2 : ¬ isIPv4 h = true := by
      intro h2
      rw [isIetf_true (ipv4_hostname ((isIPv4_iff h).1 h2))] at hh
      simp at hh
    rw [if_neg h1, if_neg h2, hh]

/-- Ports that do not exist are accepted, and so are host names with line feeds in them; texts without a colon, or with nothing before it,
are not refused but raise. -/
theorem C86_read_refuted (u : Beyond) :
    hostPort u "localhost:99999".toList = .address "localhost".toList 99999 ∧
    hostPort u "local\n.host\n:80".toList = .address "local\n.host\n".toList 80 ∧
    ¬ Hostname "local\n.host\n".toList ∧
    hostPort u "localhost".toList = .raised .valueError ∧
    hostPort u ":80".toList = .raised .indexError := by
  refine ⟨rfl, rfl, ?_, rfl, rfl⟩
  intro h
  have := (hostname_ordinary h).1 '\n' (by decide)
  exact this.2 rfl

end Verif.Address
