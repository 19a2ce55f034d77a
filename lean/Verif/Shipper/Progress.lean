import Verif.Shipper.Invariant

/-! # Progress of the shipper, and the invariant with kills -/

namespace Verif.Shipper

open Verif.Shipper.Spec

/-- The offset is the end of a complete line of the newest file. -/
def OffOk (w : World) (off : Nat) : Prop :=
  off ≤ (contentAt w.files (w.files.length - 1)).length ∧ Complete ((contentAt w.files (w.files.length - 1)).take off)

/-- The descriptor is sound and `stat` can tell an old file from the newest one. -/
def Sound (w : World) (t : Tracked) : Prop :=
  TrackOk w.files t ∧ (t.fd + 1 = w.files.length ∨ lastInode w ≠ some t.inode)

/-- What progress needs: nothing about the lines received. -/
structure Struct (s : State) : Prop where
  saved : s.proc = .down → ∀ i off, s.saved = some (i, off) → lastInode s.world = some i → OffOk s.world off
  opening : ∀ off, s.proc = .opening off → s.world.linked = true ∧ s.world.files ≠ [] ∧ OffOk s.world off
  running : ∀ t und pc, s.proc = .running t und pc → Sound s.world t ∧ ∀ l ∈ waiting und pc, l ∈ logged s.world

theorem OffOk_zero (w : World) : OffOk w 0 := ⟨Nat.zero_le _, by simp [Complete, splitLines]⟩

theorem Sound_read (w : World) (t : Tracked) (h : Sound w t) : Sound w (readAvailable w t).1 := by
  obtain ⟨r1, r2, r3, -, -⟩ := read_ok w t h.1
  exact ⟨r1, by rw [r2, r3]; exact h.2⟩

theorem read_logged (w : World) (t : Tracked) (h : Sound w t) : ∀ l ∈ (readAvailable w t).2, l ∈ logged w := by
  intro l hl
  obtain ⟨r1, r2, r3, r4, -⟩ := read_ok w t h.1
  obtain ⟨f, h1, -⟩ := r1.ex
  have := (upto_le w.files w.linked _ f h1 (readAvailable w t).1.offset).subset
  apply this
  rw [r4]; exact List.mem_append_right _ hl

theorem Sound_off (w : World) (t : Tracked) (h : Sound w t) (hl : lastInode w = some t.inode) : OffOk w t.offset := by
  have hfd : t.fd + 1 = w.files.length := by
    rcases h.2 with h' | h'
    · exact h'
    · exact absurd hl h'
  obtain ⟨f, h1, h2, h3, h4, h5, -⟩ := h.1.ex
  have hc : contentAt w.files (w.files.length - 1) = f.content := by
    unfold contentAt; rw [← hfd, Nat.add_sub_cancel, h1]; rfl
  unfold OffOk
  rw [hc]
  exact ⟨by omega, h3⟩

theorem Sound_open (w : World) (off : Nat) (hl : w.linked = true) (hne : w.files ≠ []) (ho : OffOk w off) :
    ∃ t, openAtPath w off = some t ∧ Sound w t ∧ t.fd + 1 = w.files.length ∧ t.offset = off := by
  obtain ⟨t, h1, h2, h3, h4, -⟩ := open_ok w hl hne off ho.1 ho.2
  exact ⟨t, h1, ⟨h2, Or.inl h3⟩, h3, h4⟩

theorem openAtPath_some (w : World) (off : Nat) (t : Tracked) (h : openAtPath w off = some t) : w.linked = true ∧ w.files ≠ [] := by
  unfold openAtPath at h
  by_cases hl : w.linked = true
  · rw [if_pos hl] at h
    refine ⟨hl, ?_⟩
    intro hf; rw [hf] at h; simp at h
  · rw [if_neg hl] at h; cases h

theorem all_parse (parses : Str → Bool) (s : State) (hb : ¬ Bad parses s) (ls : List Str) (h : ∀ l ∈ ls, l ∈ logged s.world) :
    ls.all parses = true := by
  rw [List.all_eq_true]
  intro l hl
  cases hp : parses l with
  | true => rfl
  | false => exact absurd ⟨l, h l hl, hp⟩ hb

theorem Struct_exec (parses : Str → Bool) (s : State) (o : Outcome) (h : Struct s) (hb : ¬ Bad parses s)
    (hl : s.world.linked = true) (hne : s.world.files ≠ []) : Struct (exec parses s o) := by
  rcases s with ⟨w, proc, saved, received⟩
  simp only at hl hne
  have mk : ∀ t' u' p', Sound w t' → (∀ l ∈ waiting u' p', l ∈ logged w) → ∀ sv rc, Struct ⟨w, .running t' u' p', sv, rc⟩ := by
    intro t' u' p' a b sv rc
    refine ⟨by (intro h'; cases h'), by (intro _ h'; cases h'), ?_⟩
    intro t'' u'' p'' hp
    injection hp with a' b' c'; subst a'; subst b'; subst c'
    exact ⟨a, b⟩
  have mkop : ∀ off, OffOk w off → ∀ sv rc, Struct ⟨w, .opening off, sv, rc⟩ := by
    intro off a sv rc
    refine ⟨by (intro h'; cases h'), ?_, by (intro _ _ _ h'; cases h')⟩
    intro off' hp
    injection hp with a'; subst a'
    exact ⟨hl, hne, a⟩
  cases proc with
  | down =>
    have hs := h.saved rfl
    simp only at hs
    simp only [exec]
    cases hst : w.stat with
    | none => exact h
    | some i =>
      have hli : lastInode w = some i := by rw [← stat_linked w hl]; exact hst
      cases saved with
      | none => exact mkop 0 (OffOk_zero w) _ _
      | some p =>
        obtain ⟨ri, ro⟩ := p
        simp only
        by_cases hi : i = ri
        · rw [if_pos hi]; exact mkop ro (hs ri ro rfl (by rw [hli, hi])) _ _
        · rw [if_neg hi]; exact mkop 0 (OffOk_zero w) _ _
  | opening off =>
    obtain ⟨-, -, ho⟩ := h.opening off rfl
    obtain ⟨t, h1, h2, -, -⟩ := Sound_open w off hl hne ho
    simp only [exec, h1]
    exact mk _ _ _ h2 (by simp [waiting]) _ _
  | running t und pc =>
    obtain ⟨hsd, hw⟩ := h.running t und pc rfl
    simp only at hsd hw
    cases pc with
    | top =>
      simp only [exec]
      by_cases hu : und = []
      · rw [if_pos hu]
        cases w.stat with
        | none => exact mk _ _ _ hsd (by simp [waiting]) _ _
        | some i =>
          by_cases hi : i ≠ t.inode
          · simp only [if_pos hi]; exact mk _ _ _ hsd (by rw [hu]; simp [waiting]) _ _
          · simp only [if_neg hi]; exact mk _ _ _ hsd (by simp [waiting]) _ _
      · rw [if_neg hu]; exact mk _ _ _ hsd (by exact hw) _ _
    | drain =>
      simp only [exec]
      exact mk _ _ _ (Sound_read w t hsd) (by exact read_logged w t hsd) _ _
    | reopen ls =>
      obtain ⟨t', h1, h2, -, -⟩ := Sound_open w 0 hl hne (OffOk_zero w)
      simp only [exec, h1]
      exact mk _ _ _ h2 (by exact hw) _ _
    | read ls =>
      simp only [exec]
      by_cases hu : ls ++ (readAvailable w t).2 = []
      · rw [if_pos hu]; exact mk _ _ _ (Sound_read w t hsd) (by simp [waiting]) _ _
      · rw [if_neg hu]
        refine mk _ _ _ (Sound_read w t hsd) ?_ _ _
        intro l hl
        rcases List.mem_append.1 hl with hl | hl
        · exact hw l hl
        · exact read_logged w t hsd l hl
    | post =>
      have hall : und.all parses = true := all_parse parses _ hb und hw
      simp only [exec, if_pos hall]
      cases o with
      | ok => exact mk _ _ _ hsd (by simp [waiting]) _ _
      | failed => exact mk _ _ _ hsd (by exact hw) _ _
      | unanswered => exact mk _ _ _ hsd (by exact hw) _ _
    | save =>
      simp only [exec]
      exact mk _ _ _ hsd (by simp [waiting]) _ _

/-- The shipper has read everything, has nothing waiting and knows that all of it was taken. -/
def Finished (s : State) : Prop :=
  ∃ t und pc, s.proc = .running t und pc ∧ waiting und pc = [] ∧ upto s.world.files t.fd t.offset = logged s.world

def Reaches (parses : Str → Bool) (s : State) : Prop := ∃ n, Finished (work parses s n)

theorem Reaches_exec (parses : Str → Bool) (s : State) (h : Reaches parses (exec parses s .ok)) : Reaches parses s := by
  obtain ⟨n, h⟩ := h; exact ⟨n + 1, h⟩

theorem upto_logged (w : World) (t : Tracked) (h : Sound w t) (hl : t.fd + 1 = w.files.length) :
    upto w.files (readAvailable w t).1.fd (readAvailable w t).1.offset = logged w := by
  obtain ⟨-, -, -, -, r5⟩ := read_ok w t h.1
  rw [r5, hl, List.take_length]; rfl

theorem reach_read (parses : Str → Bool) (w : World) (sv : Option (Nat × Nat)) (rc : List Str) (t : Tracked) (und ls : List Str)
    (hb : ¬ Bad parses ⟨w, .running t und (.read ls), sv, rc⟩)
    (h : Struct ⟨w, .running t und (.read ls), sv, rc⟩) (hl : t.fd + 1 = w.files.length) :
    Reaches parses ⟨w, .running t und (.read ls), sv, rc⟩ := by
  obtain ⟨hsd, hw⟩ := h.running t und _ rfl
  simp only at hsd hw
  by_cases hu : ls ++ (readAvailable w t).2 = []
  · refine ⟨1, ?_⟩
    simp only [work, exec, if_pos hu]
    exact ⟨_, _, _, rfl, rfl, upto_logged w t hsd hl⟩
  · refine ⟨2, ?_⟩
    have hall : (ls ++ (readAvailable w t).2).all parses = true := by
      refine all_parse parses _ hb _ ?_
      intro l hl'
      rcases List.mem_append.1 hl' with h' | h'
      · exact hw l h'
      · exact read_logged w t hsd l h'
    simp only [work, exec, if_neg hu, if_pos hall]
    exact ⟨_, _, _, rfl, rfl, upto_logged w t hsd hl⟩

theorem reach_reopen (parses : Str → Bool) (w : World) (sv : Option (Nat × Nat)) (rc : List Str) (t : Tracked) (und ls : List Str)
    (hb : ¬ Bad parses ⟨w, .running t und (.reopen ls), sv, rc⟩)
    (h : Struct ⟨w, .running t und (.reopen ls), sv, rc⟩) (hl : w.linked = true) (hne : w.files ≠ []) :
    Reaches parses ⟨w, .running t und (.reopen ls), sv, rc⟩ := by
  have hs := Struct_exec parses _ .ok h hb hl hne
  obtain ⟨t', h1, h2, h3, -⟩ := Sound_open w 0 hl hne (OffOk_zero w)
  apply Reaches_exec
  simp only [exec, h1] at hs ⊢
  exact reach_read parses w sv rc t' und ls hb hs h3

theorem reach_top_empty (parses : Str → Bool) (w : World) (sv : Option (Nat × Nat)) (rc : List Str) (t : Tracked)
    (hb : ¬ Bad parses ⟨w, .running t [] .top, sv, rc⟩)
    (h : Struct ⟨w, .running t [] .top, sv, rc⟩) (hl : w.linked = true) :
    Reaches parses ⟨w, .running t [] .top, sv, rc⟩ := by
  obtain ⟨hsd, -⟩ := h.running t [] _ rfl
  simp only at hsd
  have hne : w.files ≠ [] := by
    intro h'; obtain ⟨f, h1, -⟩ := hsd.1.ex; rw [h'] at h1; simp at h1
  have hs := Struct_exec parses _ .ok h hb hl hne
  by_cases hfd : t.fd + 1 = w.files.length
  · have hst : w.stat = some t.inode := by rw [stat_linked w hl]; exact TrackOk_inode w t hsd.1 hfd
    apply Reaches_exec
    simp only [exec, if_true, hst, ne_eq, not_true_eq_false, if_false] at hs ⊢
    exact reach_read parses w sv rc t [] [] hb hs hfd
  · have hi : lastInode w ≠ some t.inode := by
      rcases hsd.2 with h' | h'
      · exact absurd h' hfd
      · exact h'
    obtain ⟨i, hst⟩ : ∃ i, w.stat = some i := by
      rw [stat_linked w hl]; unfold lastInode
      obtain ⟨pre, f, hf⟩ := exists_last w.files hne
      rw [hf]; exact ⟨f.inode, by simp⟩
    have hne' : i ≠ t.inode := by
      intro h'; apply hi; rw [← stat_linked w hl, hst, h']
    apply Reaches_exec
    simp only [exec, if_true, hst, if_pos hne'] at hs ⊢
    have hs2 := Struct_exec parses _ .ok hs hb hl hne
    apply Reaches_exec
    simp only [exec] at hs2 ⊢
    exact reach_reopen parses w sv rc _ [] _ hb hs2 hl hne

theorem reach_save (parses : Str → Bool) (w : World) (sv : Option (Nat × Nat)) (rc : List Str) (t : Tracked) (und : List Str)
    (hb : ¬ Bad parses ⟨w, .running t und .save, sv, rc⟩)
    (h : Struct ⟨w, .running t und .save, sv, rc⟩) (hl : w.linked = true) :
    Reaches parses ⟨w, .running t und .save, sv, rc⟩ := by
  have hne : w.files ≠ [] := by
    intro h'; obtain ⟨f, h1, -⟩ := (h.running _ _ _ rfl).1.1.ex; simp only [h'] at h1; simp at h1
  have hs := Struct_exec parses _ .ok h hb hl hne
  apply Reaches_exec
  simp only [exec] at hs ⊢
  exact reach_top_empty parses w _ rc t hb hs hl

theorem reach_post (parses : Str → Bool) (w : World) (sv : Option (Nat × Nat)) (rc : List Str) (t : Tracked) (und : List Str)
    (hb : ¬ Bad parses ⟨w, .running t und .post, sv, rc⟩)
    (h : Struct ⟨w, .running t und .post, sv, rc⟩) (hl : w.linked = true) :
    Reaches parses ⟨w, .running t und .post, sv, rc⟩ := by
  have hne : w.files ≠ [] := by
    intro h'; obtain ⟨f, h1, -⟩ := (h.running _ _ _ rfl).1.1.ex; simp only [h'] at h1; simp at h1
  have hs := Struct_exec parses _ .ok h hb hl hne
  have hall : und.all parses = true := all_parse parses _ hb und (h.running t und _ rfl).2
  apply Reaches_exec
  simp only [exec, if_pos hall] at hs ⊢
  exact reach_save parses w sv _ t und hb hs hl

/-- If the file is at the path, every line can be parsed and every `POST` is answered, the shipper, left alone, reads and delivers
everything. -/
theorem reaches (parses : Str → Bool) (s : State) (hb : ¬ Bad parses s) (h : Struct s) (hl : s.world.linked = true)
    (hne : s.world.files ≠ []) : Reaches parses s := by
  have top : ∀ (w : World) (sv : Option (Nat × Nat)) (rc : List Str) (t : Tracked) (und : List Str),
      ¬ Bad parses ⟨w, .running t und .top, sv, rc⟩ → Struct ⟨w, .running t und .top, sv, rc⟩ → w.linked = true →
      Reaches parses ⟨w, .running t und .top, sv, rc⟩ := by
    intro w sv rc t und hb h hl
    by_cases hu : und = []
    · subst hu; exact reach_top_empty parses w sv rc t hb h hl
    · have hne : w.files ≠ [] := by
        intro h'; obtain ⟨f, h1, -⟩ := (h.running _ _ _ rfl).1.1.ex; simp only [h'] at h1; simp at h1
      have hs := Struct_exec parses _ .ok h hb hl hne
      apply Reaches_exec
      simp only [exec, if_neg hu] at hs ⊢
      exact reach_post parses w sv rc t und hb hs hl
  have op : ∀ (w : World) (sv : Option (Nat × Nat)) (rc : List Str) (off : Nat),
      ¬ Bad parses ⟨w, .opening off, sv, rc⟩ → Struct ⟨w, .opening off, sv, rc⟩ → Reaches parses ⟨w, .opening off, sv, rc⟩ := by
    intro w sv rc off hb h
    obtain ⟨hl, hne, ho⟩ := h.opening off rfl
    obtain ⟨t, h1, -⟩ := Sound_open w off hl hne ho
    have hs := Struct_exec parses _ .ok h hb hl hne
    apply Reaches_exec
    simp only [exec, h1] at hs ⊢
    exact top w sv rc t [] hb hs hl
  rcases s with ⟨w, proc, sv, rc⟩
  simp only at hl hne
  have hs := Struct_exec parses _ .ok h hb hl hne
  cases proc with
  | down =>
    apply Reaches_exec
    obtain ⟨i, hst⟩ : ∃ i, w.stat = some i := by
      rw [stat_linked w hl]; unfold lastInode
      obtain ⟨pre, f, hf⟩ := exists_last w.files hne
      rw [hf]; exact ⟨f.inode, by simp⟩
    simp only [exec, hst] at hs ⊢
    cases sv with
    | none => exact op w _ rc _ hb hs
    | some p =>
      obtain ⟨ri, ro⟩ := p
      simp only at hs ⊢
      by_cases hi : i = ri
      · rw [if_pos hi] at hs ⊢; exact op w _ rc _ hb hs
      · rw [if_neg hi] at hs ⊢; exact op w _ rc _ hb hs
  | opening off => exact op w sv rc off hb h
  | running t und pc =>
    cases pc with
    | top => exact top w sv rc t und hb h hl
    | drain =>
      apply Reaches_exec
      simp only [exec] at hs ⊢
      exact reach_reopen parses w sv rc _ und _ hb hs hl hne
    | reopen ls => exact reach_reopen parses w sv rc t und ls hb h hl hne
    | read ls =>
      apply Reaches_exec
      simp only [exec] at hs ⊢
      by_cases hu : ls ++ (readAvailable w t).2 = []
      · rw [if_pos hu] at hs ⊢; exact top w sv rc _ [] hb hs hl
      · rw [if_neg hu] at hs ⊢; exact reach_post parses w sv rc _ _ hb hs hl
    | post => exact reach_post parses w sv rc t und hb h hl
    | save => exact reach_save parses w sv rc t und hb h hl

/-! ## Without kills -/

theorem Exact_Struct (s : State) (h : Exact s) : Struct s := by
  rcases s with ⟨w, proc, sv, rc⟩
  cases proc with
  | down =>
    refine ⟨?_, by (intro _ h'; cases h'), by (intro _ _ _ h'; cases h')⟩
    intro _ i off hs; rw [h.2.1] at hs; cases hs
  | opening off =>
    obtain ⟨rfl, -, f, hf, hl⟩ := h
    refine ⟨by (intro h'; cases h'), ?_, by (intro _ _ _ h'; cases h')⟩
    intro off ho; injection ho with ho; subst ho
    exact ⟨hl, by rw [hf]; simp, OffOk_zero _⟩
  | running t und pc =>
    obtain ⟨ht, he, hn, -⟩ := h
    refine ⟨by (intro h'; cases h'), by (intro _ h'; cases h'), ?_⟩
    intro t' u p hp
    injection hp with a b c; subst a; subst b; subst c
    refine ⟨⟨ht, ?_⟩, ?_⟩
    · rcases hn with hn | hn
      · exact Or.inl hn
      · exact Or.inr hn.2.2
    · intro l hl
      obtain ⟨f, h1, -⟩ := ht.ex
      apply (upto_le w.files w.linked t.fd f h1 t.offset).subset
      simp only at he
      rw [← he]; exact List.mem_append_right _ hl

theorem Bad_work (parses : Str → Bool) (n : Nat) (s : State) (h : ¬ Bad parses s) : ¬ Bad parses (work parses s n) := by
  unfold Bad; rw [work_world]; exact h

theorem Exact_work (parses : Str → Bool) (n : Nat) (s : State) (h : Exact s) (hb : ¬ Bad parses s) : Exact (work parses s n) := by
  induction n generalizing s with
  | zero => exact h
  | succ n ih =>
    have hb' : ¬ Bad parses (exec parses s .ok) := Bad_work parses 1 s hb
    exact ih _ ((Exact_exec parses s .ok (by simp) h).resolve_right hb') hb'

/-! ## With kills -/

/-- The complete lines before a position in the newest file. -/
def newest (w : World) (off : Nat) : List Str := upto w.files (w.files.length - 1) off

def SavedOk (s : State) : Prop :=
  ∀ i off, s.saved = some (i, off) → lastInode s.world = some i → OffOk s.world off ∧ (newest s.world off).Sublist s.received

/-- Nothing lost. -/
def ProcOk (s : State) : Prop :=
  match s.proc with
  | .down => (gone s.world).Sublist s.received
  | .opening off => s.world.linked = true ∧ s.world.files ≠ [] ∧ OffOk s.world off ∧ (newest s.world off).Sublist s.received
  | .running t und pc =>
    TrackOk s.world.files t ∧ (upto s.world.files t.fd t.offset).Sublist (s.received ++ waiting und pc) ∧
    (∀ l ∈ waiting und pc, l ∈ logged s.world) ∧ Near s.world t ∧ PcOk s.world t und pc

def AtLeast (s : State) : Prop := SavedOk s ∧ ProcOk s

theorem Near_Sound (w : World) (t : Tracked) (ht : TrackOk w.files t) (h : Near w t) : Sound w t := by
  refine ⟨ht, ?_⟩
  rcases h with h | h
  · exact Or.inl h
  · exact Or.inr h.2.2

theorem AtLeast_Struct (s : State) (h : AtLeast s) : Struct s := by
  rcases s with ⟨w, proc, sv, rc⟩
  obtain ⟨h1, h2⟩ := h
  refine ⟨fun _ i off a b => (h1 i off a b).1, ?_, ?_⟩
  · intro off ho
    simp only at ho; subst ho
    exact ⟨h2.1, h2.2.1, h2.2.2.1⟩
  · intro t und pc hp
    simp only at hp; subst hp
    exact ⟨Near_Sound w t h2.1 h2.2.2.2.1, h2.2.2.1⟩

theorem dropLast_take (fs : List File) : fs.dropLast = fs.take (fs.length - 1) := List.dropLast_eq_take

theorem newest_zero (w : World) (h : w.linked = true) : newest w 0 = gone w := by
  unfold newest gone; rw [upto_zero, if_pos h, dropLast_take]

theorem SavedOk_more (w : World) (p q : Proc) (sv : Option (Nat × Nat)) (rc extra : List Str) (h : SavedOk ⟨w, p, sv, rc⟩) :
    SavedOk ⟨w, q, sv, rc ++ extra⟩ := fun i off a b =>
  ⟨(h i off a b).1, (h i off a b).2.trans (List.sublist_append_left ..)⟩

theorem SavedOk_proc (w : World) (p q : Proc) (sv : Option (Nat × Nat)) (rc : List Str) (h : SavedOk ⟨w, p, sv, rc⟩) :
    SavedOk ⟨w, q, sv, rc⟩ := h

theorem AtLeast_exec (parses : Str → Bool) (s : State) (o : Outcome) (hb : ¬ Bad parses s) (h : AtLeast s) :
    AtLeast (exec parses s o) := by
  rcases s with ⟨w, proc, saved, received⟩
  obtain ⟨hs, h⟩ := h
  cases proc with
  | down =>
    simp only [exec]
    cases hst : w.stat with
    | none => exact ⟨hs, h⟩
    | some i =>
      obtain ⟨hl, hne⟩ := linked_ne w (by rw [hst]; simp)
      have hli : lastInode w = some i := by rw [← stat_linked w hl]; exact hst
      have h0 : AtLeast ⟨w, .opening 0, saved, received⟩ :=
        ⟨hs, hl, hne, OffOk_zero w, by simp only; rw [newest_zero w hl]; exact h⟩
      cases saved with
      | none => exact h0
      | some p =>
        obtain ⟨ri, ro⟩ := p
        simp only
        by_cases hi : i = ri
        · rw [if_pos hi]
          obtain ⟨a, b⟩ := hs ri ro rfl (by simp only; rw [hli, hi])
          exact ⟨hs, hl, hne, a, b⟩
        · rw [if_neg hi]; exact h0
  | opening off =>
    obtain ⟨hl, hne, ho, hnew⟩ := h
    simp only at hl hne ho hnew
    obtain ⟨t, h1, h2, h3, h4⟩ := Sound_open w off hl hne ho
    simp only [exec, h1]
    refine ⟨hs, h2.1, ?_, by simp [waiting], Or.inl h3, trivial⟩
    simp only [waiting, List.append_nil, h4]
    have : t.fd = w.files.length - 1 := by omega
    rw [this]; exact hnew
  | running t und pc =>
    obtain ⟨ht, hu, hw, hn, hp⟩ := h
    simp only at ht hu hw hn hp
    have hsd := Near_Sound w t ht hn
    obtain ⟨r1, r2, r3, r4, r5⟩ := read_ok w t ht
    have hn' : Near w (readAvailable w t).1 := by simp only [Near, r2, r3]; exact hn
    cases pc with
    | top =>
      simp only [exec]
      by_cases hund : und = []
      · rw [if_pos hund]
        subst hund
        cases hst : w.stat with
        | none => exact ⟨hs, ht, hu, hw, hn, rfl⟩
        | some i =>
          have hlk := (linked_ne w (by rw [hst]; simp)).1
          rw [stat_linked w hlk] at hst
          by_cases hi : i ≠ t.inode
          · simp only [if_pos hi]
            refine ⟨hs, ht, hu, hw, hn, rfl, ?_⟩
            rcases hn with hn | hn
            · rw [TrackOk_inode w t ht hn] at hst
              exact absurd (Option.some.inj hst).symm hi
            · exact hn.1
          · simp only [if_neg hi]; exact ⟨hs, ht, hu, hw, hn, rfl⟩
      · rw [if_neg hund]; exact ⟨hs, ht, hu, hw, hn, hund⟩
    | drain =>
      obtain ⟨hund, hfd⟩ := hp
      simp only [exec]
      refine ⟨hs, r1, ?_, by exact read_logged w t hsd, hn', hund, by simp only [r2]; exact hfd, by simp only; rw [r5, r2]⟩
      simp only [waiting, hund, List.append_nil] at hu ⊢
      rw [r4]
      exact hu.append (List.Sublist.refl _)
    | reopen ls =>
      obtain ⟨hund, hfd, hall⟩ := hp
      have hlk : w.linked = true := by
        rcases hn with hn | hn
        · omega
        · exact hn.2.1
      have hne : w.files ≠ [] := by intro h'; rw [h'] at hfd; simp at hfd
      obtain ⟨t', h1, h2, h3, h4, h5⟩ := openAt_zero w hlk hne
      simp only [exec, h1]
      refine ⟨hs, h2, ?_, hw, Or.inl h3, hund⟩
      simp only [waiting] at hu ⊢
      rw [hall] at hu
      rw [h4, upto_zero, show t'.fd = t.fd + 1 by omega]; exact hu
    | read ls =>
      simp only [exec]
      simp only [waiting] at hu hw
      by_cases hund : ls ++ (readAvailable w t).2 = []
      · rw [if_pos hund]
        obtain ⟨e1, e2⟩ := List.append_eq_nil_iff.1 hund
        refine ⟨hs, r1, ?_, by simp [waiting], hn', trivial⟩
        simp only [waiting]
        rw [r4, e2, List.append_nil]
        rw [e1] at hu; exact hu
      · rw [if_neg hund]
        refine ⟨hs, r1, ?_, ?_, hn', hund⟩
        · simp only [waiting]
          rw [r4, ← List.append_assoc]
          exact hu.append (List.Sublist.refl _)
        · intro l hl
          rcases List.mem_append.1 hl with hl | hl
          · exact hw l hl
          · exact read_logged w t hsd l hl
    | post =>
      have hall : und.all parses = true := all_parse parses _ hb und hw
      simp only [exec, if_pos hall]
      cases o with
      | ok =>
        refine ⟨SavedOk_more w _ _ saved received und hs, ht, ?_, by simp [waiting], hn, trivial⟩
        simpa [waiting] using hu
      | failed => exact ⟨hs, ht, hu, hw, hn, trivial⟩
      | unanswered =>
        refine ⟨SavedOk_more w _ _ saved received und hs, ht, ?_, hw, hn, trivial⟩
        exact hu.trans (by simp only [waiting]; exact List.sublist_append_left ..)
    | save =>
      simp only [exec]
      simp only [waiting, List.append_nil] at hu
      refine ⟨?_, ht, by simpa [waiting] using hu, by simp [waiting], hn, trivial⟩
      intro i off he hl
      injection he with he; injection he with a b; subst a; subst b
      refine ⟨Sound_off w t hsd hl, ?_⟩
      have hfd : t.fd + 1 = w.files.length := by
        rcases hsd.2 with h' | h'
        · exact h'
        · exact absurd hl h'
      unfold newest
      simp only
      rw [show w.files.length - 1 = t.fd by omega]; exact hu

theorem OffOk_append (w : World) (bs : Str) (off : Nat) (hne : w.files ≠ []) (h : OffOk w off) :
    OffOk { w with files := appendLast w.files bs } off ∧ newest { w with files := appendLast w.files bs } off = newest w off := by
  obtain ⟨pre, f, hf⟩ := exists_last w.files hne
  have hc : contentAt w.files (w.files.length - 1) = f.content := by unfold contentAt; rw [hf]; simp
  have hc' : contentAt (appendLast w.files bs) ((appendLast w.files bs).length - 1) = f.content ++ bs := by
    unfold contentAt; rw [hf, appendLast_eq]; simp
  obtain ⟨h1, h2⟩ := h
  rw [hc] at h1 h2
  constructor
  · unfold OffOk
    simp only [hc']
    refine ⟨by rw [List.length_append]; omega, ?_⟩
    rw [List.take_append_of_le_length h1]; exact h2
  · unfold newest upto
    simp only
    rw [hc, hc', List.take_append_of_le_length h1, appendLast_length, Grow_take _ _ (Grow_append w.files bs hne) _
      (by have := List.length_pos_iff.2 hne; omega)]

theorem gone_append (w : World) (bs : Str) (hl : w.linked = true) : gone { w with files := appendLast w.files bs } = gone w := by
  unfold gone
  simp only [hl, if_true]
  by_cases hne : w.files = []
  · rw [hne]; rfl
  · obtain ⟨pre, f, hf⟩ := exists_last w.files hne
    rw [hf, appendLast_eq]; simp

theorem AtLeast_step (parses : Str → Bool) (s : State) (ev : Event) (hb : ¬ Bad parses s)
    (hev : match ev with
     | .moveAway => current s = true ∨ (s.proc = .down ∧ (logged s.world).Sublist s.received)
     | .create inode => ∀ p, s.saved = some p → p.1 ≠ inode
     | .crash => (gone s.world).Sublist s.received
     | _ => True) (h : AtLeast s) : AtLeast (step parses s ev) := by
  cases ev with
  | exec o => exact AtLeast_exec parses s o hb h
  | crash => exact ⟨h.1, hev⟩
  | moveAway =>
    rcases s with ⟨w, proc, saved, received⟩
    obtain ⟨hs, h⟩ := h
    refine ⟨hs, ?_⟩
    rcases hev with hev | ⟨hp, hev⟩
    · cases proc with
      | down => simp [current] at hev
      | opening off => simp [current] at hev
      | running t und pc =>
        simp only [current, decide_eq_true_eq] at hev
        obtain ⟨ht, hu, hw, hn, hp⟩ := h
        refine ⟨ht, hu, hw, Or.inl hev, ?_⟩
        simp only at hp
        cases pc with
        | drain => exact absurd hp.2 (by omega)
        | reopen ls => exact absurd hp.2.1 (by omega)
        | _ => exact hp
    · simp only at hp hev
      subst hp
      simp only [step, ProcOk, gone, logged] at hev ⊢
      exact hev
  | append bs =>
    simp only [step]
    by_cases hl : s.world.linked = true
    · rw [if_pos hl]
      rcases s with ⟨w, proc, saved, received⟩
      simp only at hl
      obtain ⟨hs, h⟩ := h
      by_cases hne : w.files = []
      · have : ({ files := appendLast w.files bs, linked := w.linked } : World) = w := by rw [hne]; cases w; simp_all [appendLast]
        simp only [this]
        exact ⟨hs, h⟩
      · refine ⟨?_, ?_⟩
        · intro i off a b
          simp only at a b
          rw [appendLast_inode] at b
          obtain ⟨c, d⟩ := hs i off a b
          obtain ⟨e1, e2⟩ := OffOk_append w bs off hne c
          exact ⟨e1, by simp only at d ⊢; rw [e2]; exact d⟩
        · cases proc with
          | down =>
            simp only [ProcOk] at h ⊢
            rw [gone_append w bs hl]; exact h
          | opening off =>
            obtain ⟨a, b, c, d⟩ := h
            obtain ⟨e1, e2⟩ := OffOk_append w bs off hne c
            refine ⟨a, ?_, e1, by simp only at d ⊢; rw [e2]; exact d⟩
            simp only
            intro h'
            have := appendLast_length w.files bs
            rw [h'] at this
            exact hne (List.length_eq_zero_iff.1 (by simpa using this.symm))
          | running t und pc =>
            obtain ⟨ht, hu, hw, hn, hp⟩ := h
            simp only at ht hu hw hn hp
            obtain ⟨g1, g2⟩ := TrackOk_grow _ _ (Grow_append w.files bs hne) t ht
            refine ⟨g1, by simp only; rw [g2]; exact hu, ?_, ?_, PcOk_append w t und pc bs hp ht hne⟩
            · intro l hl'
              exact (Grow_logged w.files (appendLast w.files bs) w.linked w.linked (Grow_append _ _ hne)).subset (hw l hl')
            · rcases hn with hn | ⟨a, b, c⟩
              · left; simp only [appendLast_length]; exact hn
              · right; refine ⟨by simp only [appendLast_length]; exact a, b, ?_⟩
                rw [appendLast_inode]; exact c
    · rw [if_neg hl]; exact h
  | create i =>
    simp only [step]
    by_cases hc : (s.world.linked = false && mayUse s i) = true
    · rw [if_pos hc]
      simp only [Bool.and_eq_true, decide_eq_true_eq] at hc
      obtain ⟨hl, hm⟩ := hc
      rcases s with ⟨w, proc, saved, received⟩
      simp only at hl hev
      obtain ⟨hs, h⟩ := h
      have hli : lastInode { files := w.files ++ [{ inode := i, content := [] }], linked := true } = some i := by
        simp [lastInode]
      refine ⟨?_, ?_⟩
      · intro j off a b
        simp only at a b
        rw [hli] at b
        exact absurd (Option.some.inj b).symm (hev (j, off) a)
      · cases proc with
        | down =>
          simp only [ProcOk, gone, hl] at h ⊢
          simpa using h
        | opening off =>
          simp only [ProcOk] at h
          rw [hl] at h; exact absurd h.1 (by simp)
        | running t und pc =>
          obtain ⟨ht, hu, hw, hn, hp⟩ := h
          simp only [mayUse, decide_eq_true_eq] at hm
          simp only at ht hu hw hn hp
          have hn1 : t.fd + 1 = w.files.length := by
            rcases hn with hn | hn
            · exact hn
            · rw [hl] at hn; exact absurd hn.2.1 (by simp)
          have hg : Grow w.files (w.files ++ [{ inode := i, content := [] }]) := Or.inr ⟨_, rfl⟩
          obtain ⟨g1, g2⟩ := TrackOk_grow _ _ hg t ht
          refine ⟨g1, by simp only; rw [g2]; exact hu, ?_, Or.inr ⟨?_, rfl, ?_⟩, ?_⟩
          · intro l hl'
            exact (Grow_logged w.files _ w.linked true hg).subset (hw l hl')
          · simp only [List.length_append, List.length_cons, List.length_nil]; omega
          · rw [hli]; intro hq; exact hm (Option.some.inj hq)
          · cases pc with
            | drain => exact absurd hp.2 (by omega)
            | reopen ls => exact absurd hp.2.1 (by omega)
            | _ => exact hp
    · rw [if_neg hc]; exact h

theorem Bad_run (parses : Str → Bool) (evs : List Event) (s : State) (h : Bad parses s) : Bad parses (run parses s evs) := by
  induction evs generalizing s with
  | nil => exact h
  | cons ev evs ih => exact ih _ (Bad_step parses s ev h)

theorem AtLeast_run (parses : Str → Bool) (evs : List Event) (s : State) (h : AtLeast s) (ho : Careful parses s evs)
    (hb : ¬ Bad parses (run parses s evs)) : AtLeast (run parses s evs) := by
  induction evs generalizing s with
  | nil => exact h
  | cons ev evs ih =>
    have hb' : ¬ Bad parses s := fun h' => hb (Bad_run parses (ev :: evs) s h')
    exact ih (step parses s ev) (AtLeast_step parses s ev hb' ho.1 h) ho.2 hb

theorem AtLeast_init : AtLeast init := ⟨by intro i off h; simp [init] at h, List.Sublist.refl _⟩

theorem AtLeast_work (parses : Str → Bool) (n : Nat) (s : State) (h : AtLeast s) (hb : ¬ Bad parses s) : AtLeast (work parses s n) := by
  induction n generalizing s with
  | zero => exact h
  | succ n ih => exact ih _ (AtLeast_exec parses s .ok hb h) (Bad_work parses 1 s hb)

end Verif.Shipper
