import Verif.Shipper.Lemmas

/-! # Invariants of the shipper -/

namespace Verif.Shipper

open Verif.Shipper.Spec

/-- The lines read but not yet known to be delivered. -/
def waiting (und : List Str) : Pc → List Str
  | .top | .post | .drain => und
  | .reopen ls | .read ls => ls
  | .save => []

/-- The inode of the newest file. -/
def lastInode (w : World) : Option Nat := w.files.getLast?.map (·.inode)

/-- The descriptor is on the newest file, or on the one before. -/
def Near (w : World) (t : Tracked) : Prop :=
  t.fd + 1 = w.files.length ∨ (t.fd + 2 = w.files.length ∧ w.linked = true ∧ lastInode w ≠ some t.inode)

def PcOk (w : World) (t : Tracked) (und : List Str) : Pc → Prop
  | .top => True
  | .drain => und = [] ∧ t.fd + 2 = w.files.length
  | .reopen _ => und = [] ∧ t.fd + 2 = w.files.length ∧
      upto w.files t.fd t.offset = (w.files.take (t.fd + 1)).flatMap fun f => linesOf f.content
  | .read _ => und = []
  | .post => und ≠ []
  | .save => True

/-- Nothing lost, nothing twice. -/
def Exact (s : State) : Prop :=
  match s.proc with
  | .down => s.received = [] ∧ s.saved = none ∧ ((s.world.files = [] ∧ s.world.linked = false) ∨ ∃ f, s.world.files = [f] ∧ s.world.linked = true)
  | .opening off => off = 0 ∧ s.received = [] ∧ ∃ f, s.world.files = [f] ∧ s.world.linked = true
  | .running t und pc =>
    TrackOk s.world.files t ∧ s.received ++ waiting und pc = upto s.world.files t.fd t.offset ∧ Near s.world t ∧ PcOk s.world t und pc

/-- A line that the shipper cannot parse has been logged. -/
def Bad (parses : Str → Bool) (s : State) : Prop := ∃ l ∈ logged s.world, parses l = false

theorem Grow_append (fs : List File) (bs : Str) (h : fs ≠ []) : Grow fs (appendLast fs bs) := by
  obtain ⟨pre, f, rfl⟩ := exists_last fs h
  exact Or.inl ⟨pre, f, bs, rfl, appendLast_eq pre f bs⟩

theorem appendLast_nil (bs : Str) : appendLast [] bs = [] := rfl

theorem appendLast_length (fs : List File) (bs : Str) : (appendLast fs bs).length = fs.length := by
  by_cases h : fs = []
  · subst h; rfl
  · obtain ⟨pre, f, rfl⟩ := exists_last fs h
    rw [appendLast_eq]; simp

theorem appendLast_inode (w : World) (bs : Str) : lastInode { w with files := appendLast w.files bs } = lastInode w := by
  unfold lastInode
  by_cases h : w.files = []
  · rw [h]; rfl
  · obtain ⟨pre, f, hf⟩ := exists_last w.files h
    rw [hf, appendLast_eq]; simp

theorem stat_linked (w : World) (h : w.linked = true) : w.stat = lastInode w := by
  unfold World.stat lastInode; rw [if_pos h]

theorem stat_unlinked (w : World) (h : w.linked = false) : w.stat = none := by
  unfold World.stat; rw [h]; rfl

theorem TrackOk_inode (w : World) (t : Tracked) (h : TrackOk w.files t) (hl : t.fd + 1 = w.files.length) :
    lastInode w = some t.inode := by
  obtain ⟨f, h1, h2, -⟩ := h.ex
  unfold lastInode
  rw [List.getLast?_eq_getElem?, ← hl, Nat.add_sub_cancel, h1, ← h2]; rfl

theorem take_all_append (fs : List File) (bs : Str) (j : Nat) (h : j + 2 = fs.length) :
    (appendLast fs bs).take (j + 1) = fs.take (j + 1) := by
  have hne : fs ≠ [] := by intro h'; rw [h'] at h; simp at h
  exact Grow_take _ _ (Grow_append fs bs hne) _ (by omega)

theorem exec_world (parses : Str → Bool) (s : State) (o : Outcome) : (exec parses s o).world = s.world := by
  unfold exec
  repeat' split
  all_goals first | rfl | (dsimp only; split <;> rfl)

theorem Bad_step (parses : Str → Bool) (s : State) (ev : Event) (h : Bad parses s) : Bad parses (step parses s ev) := by
  obtain ⟨l, hl, hp⟩ := h
  cases ev with
  | append bs =>
    refine ⟨l, ?_, hp⟩
    simp only [step]
    split
    · by_cases hf : s.world.files = []
      · unfold logged at hl; rw [hf] at hl; simp at hl
      · exact (Grow_logged s.world.files (appendLast s.world.files bs) s.world.linked s.world.linked (Grow_append _ _ hf)).subset hl
    · exact hl
  | moveAway => exact ⟨l, hl, hp⟩
  | create i =>
    refine ⟨l, ?_, hp⟩
    simp only [step]
    split
    · exact (Grow_logged s.world.files (s.world.files ++ [{ inode := i, content := [] }]) s.world.linked true (Or.inr ⟨_, rfl⟩)).subset hl
    · exact hl
  | exec o => exact ⟨l, by simp only [step]; rw [exec_world]; exact hl, hp⟩
  | crash => exact ⟨l, hl, hp⟩

theorem PcOk_append (w : World) (t : Tracked) (und : List Str) (pc : Pc) (bs : Str) (h : PcOk w t und pc) (ht : TrackOk w.files t)
    (hne : w.files ≠ []) : PcOk { w with files := appendLast w.files bs } t und pc := by
  cases pc with
  | reopen ls =>
    obtain ⟨h1, h2, h3⟩ := h
    refine ⟨h1, by simp only [appendLast_length]; exact h2, ?_⟩
    simp only
    rw [(TrackOk_grow _ _ (Grow_append _ bs hne) t ht).2, h3, take_all_append _ _ _ h2]
  | drain => exact ⟨h.1, by simp only [appendLast_length]; exact h.2⟩
  | _ => exact h

theorem waiting_mem (parses : Str → Bool) (s : State) (t : Tracked) (und : List Str) (ht : TrackOk s.world.files t)
    (hu : ∀ l ∈ und, l ∈ upto s.world.files t.fd t.offset) (h : und.all parses = false) : Bad parses s := by
  obtain ⟨l, hl, hp⟩ : ∃ l ∈ und, parses l = false := by
    simpa using h
  obtain ⟨f, h1, -⟩ := ht.ex
  exact ⟨l, (upto_le s.world.files s.world.linked t.fd f h1 t.offset).subset (hu l hl), hp⟩

theorem linked_ne (w : World) (h : w.stat ≠ none) : w.linked = true ∧ w.files ≠ [] := by
  unfold World.stat at h
  by_cases hl : w.linked = true
  · refine ⟨hl, ?_⟩
    intro hf; rw [if_pos hl, hf] at h; exact h rfl
  · rw [if_neg hl] at h; exact absurd rfl h

theorem openAt_zero (w : World) (hl : w.linked = true) (hf : w.files ≠ []) :
    ∃ t, openAtPath w 0 = some t ∧ TrackOk w.files t ∧ t.fd + 1 = w.files.length ∧ t.offset = 0 ∧ w.stat = some t.inode :=
  open_ok w hl hf 0 (Nat.zero_le _) (by simp [Complete, splitLines])

theorem Exact_exec (parses : Str → Bool) (s : State) (o : Outcome) (ho : o ≠ .unanswered) (h : Exact s) :
    Exact (exec parses s o) ∨ Bad parses (exec parses s o) := by
  rcases s with ⟨w, proc, saved, received⟩
  cases proc with
  | down =>
    left
    obtain ⟨hr, hs, hw⟩ := h
    simp only at hr hs hw
    subst hr; subst hs
    rcases hw with ⟨hf, hl⟩ | ⟨f, hf, hl⟩
    · have : w.stat = none := stat_unlinked w hl
      simp only [exec, this]
      exact ⟨rfl, rfl, Or.inl ⟨hf, hl⟩⟩
    · have : w.stat = some f.inode := by rw [stat_linked w hl]; unfold lastInode; rw [hf]; rfl
      simp only [exec, this]
      exact ⟨rfl, rfl, f, hf, hl⟩
  | opening off =>
    left
    obtain ⟨rfl, hr, f, hf, hl⟩ := h
    simp only at hr hf hl
    obtain ⟨t, h1, h2, h3, h4, h5⟩ := openAt_zero w hl (by rw [hf]; simp)
    simp only [exec, h1]
    refine ⟨h2, ?_, Or.inl h3, trivial⟩
    simp only [waiting, hr, h4, upto_zero, List.append_nil]
    rw [hf] at h3 ⊢
    simp only [List.length_cons, List.length_nil] at h3
    rw [show t.fd = 0 by omega]; rfl
  | running t und pc =>
    obtain ⟨ht, he, hn, hp⟩ := h
    simp only at ht he hn hp
    cases pc with
    | top =>
      left
      simp only [exec]
      by_cases hu : und = []
      · rw [if_pos hu]
        subst hu
        cases hst : w.stat with
        | none => exact ⟨ht, he, hn, rfl⟩
        | some i =>
          have hlk := (linked_ne w (by rw [hst]; simp)).1
          rw [stat_linked w hlk] at hst
          by_cases hi : i ≠ t.inode
          · simp only [if_pos hi]
            refine ⟨ht, he, hn, rfl, ?_⟩
            rcases hn with hn | hn
            · rw [TrackOk_inode w t ht hn] at hst
              exact absurd (Option.some.inj hst).symm hi
            · exact hn.1
          · simp only [if_neg hi]
            exact ⟨ht, he, hn, rfl⟩
      · rw [if_neg hu]
        exact ⟨ht, he, hn, hu⟩
    | drain =>
      left
      obtain ⟨hu, hfd⟩ := hp
      obtain ⟨r1, r2, r3, r4, r5⟩ := read_ok w t ht
      simp only [exec]
      refine ⟨r1, ?_, ?_, hu, ?_, ?_⟩
      · simp only [waiting, hu, List.append_nil] at he ⊢
        rw [r4, he]
      · simp only [Near, r2, r3]; exact hn
      · simp only [r2]; exact hfd
      · simp only; rw [r5, r2]
    | reopen ls =>
      left
      obtain ⟨hu, hfd, hall⟩ := hp
      have hlk : w.linked = true := by
        rcases hn with hn | hn
        · omega
        · exact hn.2.1
      have hne : w.files ≠ [] := by intro h'; rw [h'] at hfd; simp at hfd
      obtain ⟨t', h1, h2, h3, h4, h5⟩ := openAt_zero w hlk hne
      simp only [exec, h1]
      refine ⟨h2, ?_, Or.inl h3, hu⟩
      simp only [waiting] at he ⊢
      rw [he, hall, h4, upto_zero, show t'.fd = t.fd + 1 by omega]
    | read ls =>
      left
      obtain ⟨r1, r2, r3, r4, r5⟩ := read_ok w t ht
      simp only [exec]
      simp only [waiting] at he
      by_cases hu : ls ++ (readAvailable w t).2 = []
      · rw [if_pos hu]
        refine ⟨r1, ?_, ?_, trivial⟩
        · simp only [waiting]
          obtain ⟨e1, e2⟩ := List.append_eq_nil_iff.1 hu
          rw [r4, ← he, e1, e2]; simp
        · simp only [Near, r2, r3]; exact hn
      · rw [if_neg hu]
        refine ⟨r1, ?_, ?_, hu⟩
        · simp only [waiting]
          rw [r4, ← he, List.append_assoc]
        · simp only [Near, r2, r3]; exact hn
    | post =>
      by_cases hall : und.all parses = true
      · left
        simp only [exec, if_pos hall]
        cases o with
        | ok =>
          refine ⟨ht, ?_, hn, trivial⟩
          simp only [waiting, List.append_nil] at he ⊢; exact he
        | failed => exact ⟨ht, he, hn, trivial⟩
        | unanswered => exact absurd rfl ho
      · right
        have hb := waiting_mem parses ⟨w, .running t und .post, saved, received⟩ t und ht
          (by intro l hl; simp only at he ⊢; rw [← he]; exact List.mem_append_right _ hl) (by simpa using hall)
        obtain ⟨l, hl, hq⟩ := hb
        exact ⟨l, by rw [exec_world]; exact hl, hq⟩
    | save =>
      left
      simp only [exec]
      exact ⟨ht, he, hn, trivial⟩

theorem Exact_step (parses : Str → Bool) (s : State) (ev : Event)
    (hev : match ev with
     | .moveAway => current s = true
     | .crash => False
     | .exec .unanswered => False
     | _ => True) (h : Exact s) : Exact (step parses s ev) ∨ Bad parses (step parses s ev) := by
  cases ev with
  | exec o => exact Exact_exec parses s o (by intro h'; subst h'; exact hev) h
  | crash => exact absurd hev id
  | moveAway =>
    left
    rcases s with ⟨w, proc, saved, received⟩
    cases proc with
    | down => simp [current] at hev
    | opening off => simp [current] at hev
    | running t und pc =>
      simp only [current, decide_eq_true_eq] at hev
      obtain ⟨ht, he, hn, hp⟩ := h
      refine ⟨ht, he, Or.inl hev, ?_⟩
      simp only at hp
      cases pc with
      | drain => exact absurd hp.2 (by omega)
      | reopen ls => exact absurd hp.2.1 (by omega)
      | _ => exact hp
  | append bs =>
    left
    simp only [step]
    by_cases hl : s.world.linked = true
    · rw [if_pos hl]
      rcases s with ⟨w, proc, saved, received⟩
      simp only at hl
      cases proc with
      | down =>
        obtain ⟨hr, hs, hw⟩ := h
        refine ⟨hr, hs, ?_⟩
        simp only at hw ⊢
        rcases hw with ⟨hf, hl'⟩ | ⟨f, hf, hl'⟩
        · rw [hl] at hl'; cases hl'
        · right; rw [hf]; exact ⟨_, rfl, hl⟩
      | opening off =>
        obtain ⟨h0, hr, f, hf, -⟩ := h
        simp only at hf
        refine ⟨h0, hr, ?_⟩
        simp only; rw [hf]; exact ⟨_, rfl, hl⟩
      | running t und pc =>
        obtain ⟨ht, he, hn, hp⟩ := h
        simp only at ht he hn hp
        have hne : w.files ≠ [] := by
          intro h'; obtain ⟨f, h1, -⟩ := ht.ex; rw [h'] at h1; simp at h1
        obtain ⟨g1, g2⟩ := TrackOk_grow _ _ (Grow_append w.files bs hne) t ht
        refine ⟨g1, by simp only; rw [g2]; exact he, ?_, PcOk_append w t und pc bs hp ht hne⟩
        rcases hn with hn | ⟨a, b, c⟩
        · left; simp only [appendLast_length]; exact hn
        · right; refine ⟨by simp only [appendLast_length]; exact a, b, ?_⟩
          rw [appendLast_inode]; exact c
    · rw [if_neg hl]; exact h
  | create i =>
    left
    simp only [step]
    by_cases hc : (s.world.linked = false && mayUse s i) = true
    · rw [if_pos hc]
      simp only [Bool.and_eq_true, decide_eq_true_eq] at hc
      obtain ⟨hl, hm⟩ := hc
      rcases s with ⟨w, proc, saved, received⟩
      simp only at hl
      cases proc with
      | down =>
        obtain ⟨hr, hs, hw⟩ := h
        refine ⟨hr, hs, Or.inr ?_⟩
        simp only at hw ⊢
        rcases hw with ⟨hf, hl'⟩ | ⟨f, hf, hl'⟩
        · rw [hf]; exact ⟨_, rfl, trivial⟩
        · rw [hl] at hl'; cases hl'
      | opening off =>
        obtain ⟨h0, hr, f, hf, hl'⟩ := h
        simp only at hl'; rw [hl] at hl'; cases hl'
      | running t und pc =>
        obtain ⟨ht, he, hn, hp⟩ := h
        simp only [mayUse, decide_eq_true_eq] at hm
        simp only at ht he hn hp
        have hn1 : t.fd + 1 = w.files.length := by
          rcases hn with hn | hn
          · exact hn
          · rw [hl] at hn; exact absurd hn.2.1 (by simp)
        obtain ⟨g1, g2⟩ := TrackOk_grow _ _ (Or.inr ⟨{ inode := i, content := [] }, rfl⟩ : Grow w.files (w.files ++ [{ inode := i, content := [] }])) t ht
        refine ⟨g1, by simp only; rw [g2]; exact he, Or.inr ⟨?_, rfl, ?_⟩, ?_⟩
        · simp only [List.length_append, List.length_cons, List.length_nil]; omega
        · simp only [lastInode, List.getLast?_concat, Option.map_some]
          intro hq; exact hm (Option.some.inj hq)
        · cases pc with
          | drain => exact absurd hp.2 (by omega)
          | reopen ls => exact absurd hp.2.1 (by omega)
          | _ => exact hp
    · rw [if_neg hc]; exact h

theorem Exact_run (parses : Str → Bool) (evs : List Event) (s : State) (h : Exact s ∨ Bad parses s) (ho : Orderly parses s evs) :
    Exact (run parses s evs) ∨ Bad parses (run parses s evs) := by
  induction evs generalizing s with
  | nil => exact h
  | cons ev evs ih =>
    refine ih (step parses s ev) ?_ ho.2
    rcases h with h | h
    · exact Exact_step parses s ev ho.1 h
    · exact Or.inr (Bad_step parses s ev h)

theorem Exact_init : Exact init := ⟨rfl, rfl, Or.inl ⟨rfl, rfl⟩⟩

/-! ### Progress -/

/-- The shipper performs `n` actions; every `POST` is answered. -/
def work (parses : Str → Bool) (s : State) : Nat → State
  | 0 => s
  | n + 1 => work parses (exec parses s .ok) n

theorem work_world (parses : Str → Bool) (n : Nat) (s : State) : (work parses s n).world = s.world := by
  induction n generalizing s with
  | zero => rfl
  | succ n ih => simp only [work, ih, exec_world]

theorem work_add (parses : Str → Bool) (a b : Nat) (s : State) : work parses s (a + b) = work parses (work parses s a) b := by
  induction a generalizing s with
  | zero => simp [work]
  | succ a ih => rw [Nat.add_right_comm]; simp only [work]; exact ih _

end Verif.Shipper
