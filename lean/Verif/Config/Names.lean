import Verif.Config.Lemmas

/-! C64, C65: application names and file names. -/

namespace Verif.Config

open Verif.Py Verif.Config.Spec

/-! ### C64 -/

theorem afterLast_append (c : Char) (a b : Str) (h : c ∉ b) : Str.afterLast c (a ++ c :: b) = b := by
  unfold Str.afterLast
  have : (a ++ c :: b).reverse = b.reverse ++ c :: a.reverse := by simp
  rw [this, List.takeWhile_append_of_pos (by intro x hx; simp at hx; simp; rintro rfl; exact h hx)]
  simp [List.takeWhile]

theorem afterLast_free (c : Char) (b : Str) (h : c ∉ b) : Str.afterLast c b = b := by
  unfold Str.afterLast
  have : ∀ l : Str, c ∉ l → l.takeWhile (· ≠ c) = l := by
    intro l
    induction l with
    | nil => intro _; rfl
    | cons x xs ih => intro hl; simp at hl; simp [List.takeWhile, Ne.symm hl.1]; simpa using ih hl.2
  rw [this _ (by simpa using h), List.reverse_reverse]

theorem camelToSnakeAux_lower (s : Str) (i : Nat) (h : ∀ c ∈ s, c.isUpper = false) : camelToSnakeAux i s = s := by
  induction s generalizing i with
  | nil => rfl
  | cons c cs ih =>
    simp only [List.forall_mem_cons] at h
    have hl : c.toLower = c := by
      unfold Char.toLower
      have := h.1
      unfold Char.isUpper at this
      simp only [decide_eq_false_iff_not, not_and] at this
      split
      · next hc => exact absurd (by simpa using hc.2) (by simpa using this (by simpa using hc.1))
      · rfl
    simp [camelToSnakeAux, h.1, hl, ih _ h.2]

theorem removePy_stem (s : Str) (h : ∀ (a b : Str), s ≠ a ++ '.' :: 'p' :: 'y' :: b) : removePy (s ++ ".py".toList) = s := by
  induction s with
  | nil => rfl
  | cons c cs ih =>
    have h' : ∀ (a b : Str), cs ≠ a ++ '.' :: 'p' :: 'y' :: b := fun a b e => h (c :: a) b (by simp [e])
    have ih := ih h'
    have step : removePy (c :: (cs ++ ".py".toList)) = c :: removePy (cs ++ ".py".toList) := by
      rw [removePy]
      rintro t hc ht
      rcases cs with _ | ⟨d, _ | ⟨e, es⟩⟩
      · simp at ht
      · simp at ht
      · simp at ht
        exact h [] es (by simp [hc, ht.1, ht.2.1])
    rw [List.cons_append, step, ih]

theorem name_of_stem (dir stem : Str) (hs : '/' ∉ stem) (hp : ∀ (a b : Str), stem ≠ a ++ '.' :: 'p' :: 'y' :: b) :
    applicationName (dir ++ '/' :: stem ++ ".py".toList) = camelToSnake stem ∧
    applicationName (stem ++ ".py".toList) = camelToSnake stem := by
  have hs' : '/' ∉ stem ++ ".py".toList := by simpa using hs
  constructor
  · unfold applicationName
    rw [List.append_assoc, List.cons_append, afterLast_append _ _ _ hs', removePy_stem _ hp]
  · unfold applicationName
    rw [afterLast_free _ _ hs', removePy_stem _ hp]

/-- **C64.** A script whose name is in lower case already gives its application that name, wherever the script lies. -/
theorem C64_plain (dir stem : Str) (hs : '/' ∉ stem) (hp : ∀ (a b : Str), stem ≠ a ++ '.' :: 'p' :: 'y' :: b)
    (hl : ∀ c ∈ stem, c.isUpper = false) :
    applicationName (dir ++ '/' :: stem ++ ".py".toList) = stem ∧ applicationName (stem ++ ".py".toList) = stem := by
  have h := name_of_stem dir stem hs hp
  rwa [show camelToSnake stem = stem from camelToSnakeAux_lower stem 0 hl] at h

/-- A word of a camel case name: a capital followed by anything but capitals. -/
def Word (w : Str) : Prop := ∃ c cs, w = c :: cs ∧ c.isUpper = true ∧ ∀ x ∈ cs, x.isUpper = false

theorem toLower_of_not_upper {c : Char} (h : c.isUpper = false) : c.toLower = c := by
  have := camelToSnakeAux_lower [c] 0 (by simpa using h)
  simpa [camelToSnakeAux, h] using this

theorem lower_id (s : Str) (h : ∀ c ∈ s, c.isUpper = false) : Str.lower s = s := by
  induction s with
  | nil => rfl
  | cons c cs ih =>
    simp only [List.forall_mem_cons] at h
    simp only [Str.lower, List.map_cons, toLower_of_not_upper h.1]
    rw [show List.map Char.toLower cs = cs from ih h.2]

theorem camelAux_append (s t : Str) (i : Nat) : camelToSnakeAux i (s ++ t) = camelToSnakeAux i s ++ camelToSnakeAux (i + s.length) t := by
  induction s generalizing i with
  | nil => rfl
  | cons c cs ih =>
    simp only [List.cons_append, camelToSnakeAux, ih, List.append_assoc, List.length_cons]
    rw [show i + 1 + cs.length = i + (cs.length + 1) by omega]

theorem camelAux_word (w : Str) (i : Nat) (h : Word w) :
    camelToSnakeAux i w = (if i = 0 then [] else ['_']) ++ Str.lower w := by
  obtain ⟨c, cs, rfl, hc, hcs⟩ := h
  rw [camelToSnakeAux, camelToSnakeAux_lower cs _ hcs]
  have := lower_id cs hcs
  by_cases hi : i = 0
  · simp [hi, hc, Str.lower]; exact this.symm
  · simp [hi, hc, Str.lower]; exact this.symm

theorem camelAux_words (ws : List Str) (i : Nat) (hi : i ≠ 0) (h : ∀ w ∈ ws, Word w) :
    camelToSnakeAux i ws.flatten = (ws.map fun w => '_' :: Str.lower w).flatten := by
  induction ws generalizing i with
  | nil => rfl
  | cons w ws ih =>
    simp only [List.forall_mem_cons] at h
    rw [List.flatten_cons, camelAux_append, camelAux_word _ _ h.1, ih _ (by omega) h.2]
    simp [hi]

/-- **C64, camel case.** A camel case name becomes its words in lower case, joined by underscores. -/
theorem C64_camel (dir : Str) (words : List Str) (h : ∀ w ∈ words, Word w) (hs : '/' ∉ words.flatten)
    (hp : ∀ (a b : Str), words.flatten ≠ a ++ '.' :: 'p' :: 'y' :: b) :
    applicationName (dir ++ '/' :: words.flatten ++ ".py".toList) = List.intercalate ['_'] (words.map Str.lower) := by
  rw [(name_of_stem dir _ hs hp).1]
  unfold camelToSnake
  cases words with
  | nil => rfl
  | cons w ws =>
    simp only [List.forall_mem_cons] at h
    rw [List.flatten_cons, camelAux_append, camelAux_word _ _ h.1]
    obtain ⟨c, cs, rfl, _, _⟩ := h.1
    rw [camelAux_words _ _ (by simp) h.2]
    have aux : ∀ (x : Str) (l : List Str), List.intercalate ['_'] (x :: l) = x ++ (l.map fun w => '_' :: w).flatten := by
      intro x l
      induction l generalizing x with
      | nil => simp [List.intercalate]
      | cons y ys ih =>
        have := ih y
        simp only [List.intercalate] at this ⊢
        rw [List.intersperse_cons_cons, List.flatten_cons, List.flatten_cons, this]
        simp
    rw [List.map_cons, aux]
    simp
    rfl

/-- **C64, shape.** An application name never contains a capital or a slash. -/
theorem C64_shape (argv0 : Str) : ∀ c ∈ applicationName argv0, c.isUpper = false ∧ c ≠ '/' := by
  have hlow : ∀ c : Char, c.toLower.isUpper = false := by
    intro c
    by_cases h : c.isUpper = true
    · unfold Char.isUpper at h ⊢
      simp only [decide_eq_true_eq] at h
      unfold Char.toLower
      have h' : 65 ≤ c.val ∧ c.val ≤ 90 := h
      rw [dif_pos ⟨h'.1, h'.2⟩]
      simp only [decide_eq_false_iff_not, not_and]
      intro _ hb
      have hb' : c.val + 32 ≤ 90 := hb
      have h1 : (65 : UInt32).toNat ≤ c.val.toNat := UInt32.le_iff_toNat_le.1 h'.1
      have h2 : c.val.toNat ≤ (90 : UInt32).toNat := UInt32.le_iff_toNat_le.1 h'.2
      have h3 : (c.val + 32).toNat ≤ (90 : UInt32).toNat := UInt32.le_iff_toNat_le.1 hb'
      rw [UInt32.toNat_add] at h3
      have : (65 : UInt32).toNat = 65 := rfl
      have : (90 : UInt32).toNat = 90 := rfl
      have : (32 : UInt32).toNat = 32 := rfl
      omega
    · simp only [Bool.not_eq_true] at h; rw [toLower_of_not_upper h]; exact h
  have hslash : ∀ c : Char, c.toLower = '/' → c = '/' := by
    intro c hc
    by_cases h : c.isUpper = true
    · exfalso
      unfold Char.isUpper at h
      simp only [decide_eq_true_eq] at h
      have h' : 65 ≤ c.val ∧ c.val ≤ 90 := h
      unfold Char.toLower at hc
      rw [dif_pos ⟨h'.1, h'.2⟩] at hc
      have hv : c.val + 32 = 47 := congrArg Char.val hc
      have h1 : (65 : UInt32).toNat ≤ c.val.toNat := UInt32.le_iff_toNat_le.1 h'.1
      have h2 : c.val.toNat ≤ (90 : UInt32).toNat := UInt32.le_iff_toNat_le.1 h'.2
      have h3 := congrArg UInt32.toNat hv
      rw [UInt32.toNat_add] at h3
      have : (65 : UInt32).toNat = 65 := rfl
      have : (90 : UInt32).toNat = 90 := rfl
      have : (32 : UInt32).toNat = 32 := rfl
      have : (47 : UInt32).toNat = 47 := rfl
      omega
    · simp only [Bool.not_eq_true] at h; rw [toLower_of_not_upper h] at hc; exact hc
  have hcamel : ∀ (s : Str) (i : Nat), '/' ∉ s → ∀ c ∈ camelToSnakeAux i s, c.isUpper = false ∧ c ≠ '/' := by
    intro s
    induction s with
    | nil => intro i _ c hc; cases hc
    | cons x xs ih =>
      intro i hs c hc
      simp only [List.mem_cons, not_or] at hs
      simp only [camelToSnakeAux, List.mem_append] at hc
      have hx : x.toLower.isUpper = false ∧ x.toLower ≠ '/' := ⟨hlow x, fun h => hs.1 (hslash x h).symm⟩
      rcases hc with hc | hc
      · split at hc
        · simp at hc
          rcases hc with rfl | rfl
          · exact ⟨rfl, by decide⟩
          · exact hx
        · simp at hc; subst hc; exact hx
      · exact ih _ hs.2 c hc
  have hrem : ∀ s : Str, '/' ∉ s → '/' ∉ removePy s := by
    intro s
    induction s using removePy.induct with
    | case1 cs ih => intro h; rw [removePy]; exact ih (by simp at h; exact h)
    | case2 c cs hc ih =>
      intro h
      rw [removePy]
      · simp at h ⊢; exact ⟨h.1, ih h.2⟩
      · exact hc
    | case3 => intro h; exact h
  have hlast : '/' ∉ Str.afterLast '/' argv0 := by
    unfold Str.afterLast
    intro h
    have h := List.mem_reverse.1 h
    have : ∀ l : Str, '/' ∉ l.takeWhile (· ≠ '/') := by
      intro l
      induction l with
      | nil => simp
      | cons x xs ih =>
        by_cases hx : x = '/'
        · simp [List.takeWhile, hx]
        · simp only [List.takeWhile, hx, ne_eq, not_false_eq_true, decide_true, List.mem_cons, not_or]
          exact ⟨fun h => hx h.symm, by simpa using ih⟩
    exact this _ h
  exact hcamel _ 0 (hrem _ hlast)

/-- **C64, refuted.** Two scripts in one directory can have the same application name. -/
theorem C64_unique_refuted :
    "/srv/FooBar.py" ≠ "/srv/foo_bar.py" ∧
    applicationName "/srv/FooBar.py".toList = "foo_bar".toList ∧
    applicationName "/srv/foo_bar.py".toList = "foo_bar".toList := by decide +kernel

/-- **C64, refuted.** Not only the extension is removed: `.py` disappears anywhere in the name. -/
theorem C64_extension_refuted :
    applicationName "/srv/my.python.tool.py".toList = "mython.tool".toList := by decide +kernel

example : applicationName "/SomeLongPath/MyProjectDirectory/MyCoolApplication.py".toList = "my_cool_application".toList := by
  decide +kernel

/-! ### C65 -/

theorem comparable_right {α : Type _} {a b x y : List α} (h : a ++ x = b ++ y) : x <:+ y ∨ y <:+ x :=
  List.suffix_or_suffix_of_suffix (l₃ := a ++ x) (List.suffix_append _ _) (h ▸ List.suffix_append _ _)

/-- **C65, buffers.** Within one application instance, every buffer database has its own file: different routes, endpoints and
senders, pending entries and failed ones never share one. -/
theorem C65_buffers (dir : Str) (self : Self) (r r' : Str) (b b' : BufferKind) (q q' : QueueKind)
    (h : bufferFile dir self r b q = bufferFile dir self r' b' q') : r = r' ∧ b = b' ∧ q = q' := by
  unfold bufferFile at h
  simp only [List.append_assoc, List.append_cancel_left_eq, List.cons_append, List.cons.injEq, true_and] at h
  have hq : q = q' := by
    rw [← List.append_assoc, ← List.append_assoc] at h
    have hd : ∀ x y : QueueKind, x ≠ y → x.text.isSuffixOf y.text = false := by
      intro x y; cases x <;> cases y <;> decide +kernel
    rcases comparable_right h with hs | hs
    · exact Decidable.byContradiction fun hne => by
        have := hd _ _ hne; rw [List.isSuffixOf_iff_suffix.2 hs] at this; cases this
    · exact Decidable.byContradiction fun hne => by
        have := hd _ _ (Ne.symm hne); rw [List.isSuffixOf_iff_suffix.2 hs] at this; cases this
  subst hq
  have h2 : r ++ b.text = r' ++ b'.text := by
    rw [← List.append_assoc, ← List.append_assoc] at h
    exact List.append_cancel_right h
  have hb : b = b' := by
    have hd : ∀ x y : BufferKind, x ≠ y → x.text.isSuffixOf y.text = false := by
      intro x y; cases x <;> cases y <;> decide +kernel
    rcases comparable_right h2 with hs | hs
    · exact Decidable.byContradiction fun hne => by
        have := hd _ _ hne; rw [List.isSuffixOf_iff_suffix.2 hs] at this; cases this
    · exact Decidable.byContradiction fun hne => by
        have := hd _ _ (Ne.symm hne); rw [List.isSuffixOf_iff_suffix.2 hs] at this; cases this
  subst hb
  exact ⟨List.append_cancel_right h2, rfl, rfl⟩

/-- **C65, names.** The files of an application have the documented names. -/
theorem C65_names (dir app inst route : Str) :
    lockFile dir ⟨app, inst⟩ = dir ++ "/".toList ++ app ++ "-".toList ++ inst ++ ".lock".toList ∧
    logFile dir ⟨app, inst⟩ = dir ++ "/".toList ++ app ++ "-".toList ++ inst ++ ".log".toList ∧
    socketFile dir ⟨app, inst⟩ = dir ++ "/".toList ++ app ++ "_".toList ++ inst ++ ".uds.sock".toList ∧
    bufferFile dir ⟨app, inst⟩ route .endpoint .pending =
      dir ++ "/".toList ++ app ++ "-".toList ++ inst ++ "-".toList ++ route ++ "-endpoint-pending.sqlite".toList ∧
    bufferFile dir ⟨app, inst⟩ route .endpoint .error =
      dir ++ "/".toList ++ app ++ "-".toList ++ inst ++ "-".toList ++ route ++ "-endpoint-error.sqlite".toList ∧
    bufferFile dir ⟨app, inst⟩ route .sender .pending =
      dir ++ "/".toList ++ app ++ "-".toList ++ inst ++ "-".toList ++ route ++ "-sender-pending.sqlite".toList ∧
    bufferFile dir ⟨app, inst⟩ route .sender .error =
      dir ++ "/".toList ++ app ++ "-".toList ++ inst ++ "-".toList ++ route ++ "-sender-error.sqlite".toList := by
  have join : ∀ (a b c d : Str) (x : Char) (s : Str), s = [x] → a ++ '/' :: b ++ x :: c ++ d = a ++ ['/'] ++ b ++ s ++ c ++ d := by
    intro a b c d x s hs; subst hs; simp only [List.append_assoc, List.cons_append, List.nil_append]
  have buffer : ∀ (k q t : Str), t = k ++ q → dir ++ '/' :: app ++ '-' :: inst ++ '-' :: route ++ k ++ q =
      dir ++ ['/'] ++ app ++ ['-'] ++ inst ++ ['-'] ++ route ++ t := by
    intro k q t ht; subst ht; simp only [List.append_assoc, List.cons_append, List.nil_append]
  refine ⟨join _ _ _ _ _ _ rfl, join _ _ _ _ _ _ rfl, ?_, buffer _ _ _ (by decide +kernel), buffer _ _ _ (by decide +kernel),
    buffer _ _ _ (by decide +kernel), buffer _ _ _ (by decide +kernel)⟩
  unfold socketFile udsFileName
  rw [if_pos rfl]
  simp only [List.append_assoc, List.cons_append]
  rfl

/-- **C65, partial.** Different application instances have different lock files and log files, if application names contain no
hyphen; their buffer databases are different too if instance ids contain no hyphen either; their default socket files are
different if instance ids contain no underscore. Missing: names with these characters, see `C65_lock_refuted`,
`C65_socket_refuted`, `C65_buffer_refuted`. -/
theorem C65_instances_partial (dir : Str) (s s' : Self) (hne : s ≠ s') :
    ('-' ∉ s.app → '-' ∉ s'.app → lockFile dir s ≠ lockFile dir s' ∧ logFile dir s ≠ logFile dir s') ∧
    ('-' ∉ s.app → '-' ∉ s'.app → '-' ∉ s.inst → '-' ∉ s'.inst →
      ∀ r r' b b' q q', bufferFile dir s r b q ≠ bufferFile dir s' r' b' q') ∧
    ('_' ∉ s.inst → '_' ∉ s'.inst → socketFile dir s ≠ socketFile dir s') := by
  have mk : s.app = s'.app → s.inst = s'.inst → False := by
    intro h1 h2; exact hne (by cases s; cases s'; simp_all)
  have pre : ∀ (suffix : Str), '-' ∉ s.app → '-' ∉ s'.app →
      dir ++ '/' :: s.app ++ '-' :: s.inst ++ suffix ≠ dir ++ '/' :: s'.app ++ '-' :: s'.inst ++ suffix := by
    intro suffix ha ha' h
    simp only [List.append_assoc, List.append_cancel_left_eq, List.cons_append, List.cons.injEq, true_and] at h
    obtain ⟨h1, h2⟩ := split_first ha ha' h
    exact mk h1 (List.append_cancel_right h2)
  refine ⟨fun ha ha' => ⟨pre _ ha ha', pre _ ha ha'⟩, ?_, ?_⟩
  · intro ha ha' hi hi' r r' b b' q q' h
    unfold bufferFile at h
    simp only [List.append_assoc, List.append_cancel_left_eq, List.cons_append, List.cons.injEq, true_and] at h
    obtain ⟨h1, h2⟩ := split_first ha ha' h
    exact mk h1 (split_first hi hi' h2).1
  · intro hi hi' h
    unfold socketFile udsFileName at h
    rw [if_pos rfl, if_pos rfl] at h
    have h := List.append_cancel_left h
    simp only [List.cons.injEq, true_and] at h
    have h := List.append_cancel_right h
    obtain ⟨h1, h2⟩ := split_last hi hi' h
    exact mk h1 h2

/-- **C65, refuted.** Two instances of two applications share their lock file, so they cannot run at the same time. -/
theorem C65_lock_refuted : ∃ s s' : Self, s.app ≠ s'.app ∧ s.inst ≠ s'.inst ∧
    ∀ dir, lockFile dir s = lockFile dir s' ∧ logFile dir s = logFile dir s' := by
  refine ⟨⟨"orders".toList, "eu-1".toList⟩, ⟨"orders-eu".toList, "1".toList⟩, by decide, by decide, fun dir => ?_⟩
  have h : "orders".toList ++ '-' :: "eu-1".toList = "orders-eu".toList ++ '-' :: "1".toList := by decide +kernel
  unfold lockFile logFile
  simp only [List.append_assoc, List.cons_append]
  have h' : ∀ t : Str, "orders".toList ++ '-' :: ("eu-1".toList ++ t) = "orders-eu".toList ++ '-' :: ("1".toList ++ t) := by
    intro t; have := congrArg (· ++ t) h; simp only [List.append_assoc, List.cons_append] at this; exact this
  rw [h', h']
  exact ⟨rfl, rfl⟩

/-- **C65, refuted.** Two instances of two applications share their default socket file. -/
theorem C65_socket_refuted : ∃ s s' : Self, s.app ≠ s'.app ∧ s.inst ≠ s'.inst ∧
    socketFile "/tmp".toList s = socketFile "/tmp".toList s' :=
  ⟨⟨"orders".toList, "worker_1".toList⟩, ⟨"orders_worker".toList, "1".toList⟩, by decide +kernel⟩

/-- **C65, refuted.** Two instances of one application share a buffer database. -/
theorem C65_buffer_refuted : ∃ s s' : Self, s.app = s'.app ∧ s.inst ≠ s'.inst ∧ ∃ r r',
    bufferFile "/var/buffers".toList s r .endpoint .pending = bufferFile "/var/buffers".toList s' r' .endpoint .pending :=
  ⟨⟨"orders".toList, "eu".toList⟩, ⟨"orders".toList, "eu-1".toList⟩, by decide, by decide, "1-app.put".toList, "app.put".toList,
    by decide +kernel⟩

/-- **C65, databases, partial.** Within one application instance, pending and failed entries, endpoints and senders, and different routes have different databases, if no name
contains a question mark: the database is then the file of that name. Missing: names with question marks, see `C65_question_refuted`. -/
theorem C65_databases_partial (dir : Str) (self : Self) (hd : '?' ∉ dir) (ha : '?' ∉ self.app) (hi : '?' ∉ self.inst) :
    (∀ r b q, '?' ∉ r → databaseOf (bufferFile dir self r b q) = bufferFile dir self r b q) ∧
    ∀ r r' b b' q q', '?' ∉ r → '?' ∉ r' → databaseOf (bufferFile dir self r b q) = databaseOf (bufferFile dir self r' b' q') → r = r' ∧ b = b' ∧ q = q' := by
  have key : ∀ r b q, '?' ∉ r → databaseOf (bufferFile dir self r b q) = bufferFile dir self r b q := by
    intro r b q hr
    have hb : ∀ c ∈ b.text, c ≠ '?' := by cases b <;> decide +kernel
    have hq : ∀ c ∈ q.text, c ≠ '?' := by cases q <;> decide +kernel
    have all : ∀ l : Str, (∀ c ∈ l, (decide (c ≠ '?')) = true) → databaseOf l = l := by
      intro l hl
      have := List.takeWhile_append_of_pos (l₂ := []) hl
      simpa [databaseOf] using this
    refine all _ ?_
    unfold bufferFile
    intro c hc
    simp only [List.mem_append, List.mem_cons] at hc
    simp only [decide_eq_true_eq]
    rintro rfl
    rcases hc with (((((h | h | h) | h | h) | h | h) | h) | h)
    all_goals first | exact hd h | exact ha h | exact hi h | exact hr h | exact hb _ h rfl | exact hq _ h rfl | exact absurd h (by decide)
  refine ⟨key, ?_⟩
  intro r r' b b' q q' hr hr' h
  rw [key r b q hr, key r' b' q' hr'] at h
  exact C65_buffers dir self r r' b b' q q' h

/-- **C65, refuted.** All buffered endpoints and senders whose routes agree up to a question mark keep their pending and their failed entries in one and the same database. -/
theorem C65_question_refuted (dir : Str) (self : Self) (hd : '?' ∉ dir) (ha : '?' ∉ self.app) (hi : '?' ∉ self.inst) (r t : Str) (hr : '?' ∉ r)
    (b : BufferKind) (q : QueueKind) :
    databaseOf (bufferFile dir self (r ++ '?' :: t) b q) = dir ++ "/".toList ++ self.app ++ "-".toList ++ self.inst ++ "-".toList ++ r := by
  have h1 : "/".toList = ['/'] := rfl
  have h2 : "-".toList = ['-'] := rfl
  have hp : ∀ c ∈ dir ++ ['/'] ++ self.app ++ ['-'] ++ self.inst ++ ['-'] ++ r, (decide (c ≠ '?')) = true := by
    intro c hc
    simp only [List.mem_append, List.mem_singleton] at hc
    simp only [decide_eq_true_eq]
    rintro rfl
    rcases hc with ((((((h | h) | h) | h) | h) | h) | h)
    all_goals first | exact hd h | exact ha h | exact hi h | exact hr h | exact absurd h (by decide)
  have he : bufferFile dir self (r ++ '?' :: t) b q = (dir ++ ['/'] ++ self.app ++ ['-'] ++ self.inst ++ ['-'] ++ r) ++ '?' :: (t ++ b.text ++ q.text) := by
    simp [bufferFile]
  rw [he, h1, h2]
  unfold databaseOf
  rw [List.takeWhile_append_of_pos hp]
  simp

example : databaseOf (bufferFile "/b".toList ⟨"orders".toList, "0".toList⟩ "app.put?".toList .endpoint .pending) = "/b/orders-0-app.put".toList ∧
    databaseOf (bufferFile "/b".toList ⟨"orders".toList, "0".toList⟩ "app.put?now".toList .sender .error) = "/b/orders-0-app.put".toList ∧
    databaseOf (bufferFile "/b".toList ⟨"orders".toList, "0".toList⟩ "app.put".toList .sender .error) = "/b/orders-0-app.put-sender-error.sqlite".toList := by
  decide +kernel

example : (⟨"orders".toList, "0".toList⟩ : Self) ≠ ⟨"orders".toList, "1".toList⟩ ∧ '-' ∉ "orders".toList ∧
    lockFile "/tmp".toList ⟨"orders".toList, "0".toList⟩ = "/tmp/orders-0.lock".toList ∧
    bufferFile "/b".toList ⟨"orders".toList, "0".toList⟩ "app.put".toList .sender .error =
      "/b/orders-0-app.put-sender-error.sqlite".toList := by decide +kernel

end Verif.Config
