import Verif.Shipper.Spec

/-! # Helper lemmas about the shipper: lines, files and reading -/

namespace Verif.Shipper

open Verif.Shipper.Spec

/-! ## Lines -/

theorem splitLines_append (a b : Str) :
    splitLines (a ++ b) =
      ((splitLines a).1 ++ (splitLines ((splitLines a).2 ++ b)).1, (splitLines ((splitLines a).2 ++ b)).2) := by
  induction a with
  | nil => simp [splitLines]
  | cons c cs ih =>
    by_cases h : c = '\n'
    · simp only [List.cons_append, splitLines, if_pos h, ih]
    · rw [List.cons_append, splitLines, if_neg h, ih]
      have hc : splitLines (c :: cs) = match splitLines cs with
          | ([], rest) => ([], c :: rest)
          | (l :: ls, rest) => ((c :: l) :: ls, rest) := by
        rw [splitLines, if_neg h]; rfl
      rw [hc]
      rcases hs : splitLines cs with ⟨ls, r⟩
      cases ls with
      | nil =>
        simp only [List.nil_append, List.cons_append]
        rw [splitLines, if_neg h]
      | cons l ls => simp only [List.cons_append]

theorem linesFrom_eq (cur s : Str) :
    linesFrom cur s = match (splitLines s).1 with
      | [] => []
      | l :: ls => (cur ++ l) :: ls := by
  induction s generalizing cur with
  | nil => rfl
  | cons c cs ih =>
    by_cases h : c = '\n'
    · simp only [linesFrom, splitLines, if_pos h, ih, List.append_nil, List.nil_append]
      cases (splitLines cs).1 <;> rfl
    · rw [linesFrom, if_neg h, ih, splitLines, if_neg h]
      rcases splitLines cs with ⟨ls, r⟩
      cases ls with
      | nil => rfl
      | cons l ls => simp

theorem linesOf_eq (s : Str) : linesOf s = (splitLines s).1 := by
  rw [linesOf, linesFrom_eq]
  cases (splitLines s).1 <;> simp

/-- Does the text end with a complete line? -/
def Complete (s : Str) : Prop := (splitLines s).2 = []

theorem Complete_nil : Complete [] := rfl

theorem linesOf_append (a b : Str) (h : Complete a) : linesOf (a ++ b) = linesOf a ++ linesOf b := by
  rw [linesOf_eq, splitLines_append, h]; simp [linesOf_eq]

theorem Complete_append (a b : Str) (ha : Complete a) (hb : Complete b) : Complete (a ++ b) := by
  unfold Complete at *
  rw [splitLines_append, ha, List.nil_append, hb]

theorem linesOf_prefix (a b : Str) : linesOf a <+: linesOf (a ++ b) := by
  rw [linesOf_eq, linesOf_eq, splitLines_append]; exact List.prefix_append _ _

theorem rest_suffix (s : Str) : ∃ done, s = done ++ (splitLines s).2 ∧ Complete done ∧ linesOf done = linesOf s := by
  induction s with
  | nil => exact ⟨[], rfl, rfl, rfl⟩
  | cons c cs ih =>
    obtain ⟨done, h1, h2, h3⟩ := ih
    by_cases h : c = '\n'
    · refine ⟨c :: done, ?_, ?_, ?_⟩
      · simp only [splitLines, if_pos h, List.cons_append]; rw [← h1]
      · unfold Complete at *; simp only [splitLines, if_pos h]; exact h2
      · simp only [linesOf_eq] at h3 ⊢; simp only [splitLines, if_pos h, h3]
    · rcases hs : splitLines cs with ⟨ls, r⟩
      rw [hs] at h1
      rw [linesOf_eq, linesOf_eq, hs] at h3
      cases ls with
      | nil =>
        refine ⟨[], ?_, rfl, ?_⟩
        · rw [splitLines, if_neg h, hs]
          cases hd : done with
          | nil => rw [hd] at h1; simp only [List.nil_append] at h1 ⊢; rw [h1]
          | cons d ds =>
            exfalso
            -- a complete non-empty text has a line
            have : ∀ x : Str, Complete x → linesOf x = [] → x = [] := by
              intro x hx hl
              rw [linesOf_eq] at hl
              cases x with
              | nil => rfl
              | cons y ys =>
                unfold Complete at hx
                by_cases hy : y = '\n'
                · simp [splitLines, hy] at hl
                · rw [splitLines, if_neg hy] at hx hl
                  rcases hq : splitLines ys with ⟨l2, r2⟩
                  rw [hq] at hx hl
                  cases l2 <;> simp at hx hl
            have := this done h2 (by rw [linesOf_eq]; exact h3)
            rw [hd] at this; cases this
        · rw [linesOf_eq, linesOf_eq]
          rw [show (splitLines (c :: cs)).1 = [] by rw [splitLines, if_neg h, hs]]; rfl
      | cons l ls =>
        refine ⟨c :: done, ?_, ?_, ?_⟩
        · rw [splitLines, if_neg h, hs]; simp only [List.cons_append]; rw [← h1]
        · unfold Complete at *
          rw [splitLines, if_neg h]
          rcases hq : splitLines done with ⟨l2, r2⟩
          rw [hq] at h2 h3
          simp only at h2 h3
          subst h3
          simpa using h2
        · rw [linesOf_eq, linesOf_eq, splitLines, if_neg h, splitLines, if_neg h, hs]
          rcases hq : splitLines done with ⟨l2, r2⟩
          rw [hq] at h3
          simp only at h3
          subst h3; rfl

/-! ## Files -/

def contentAt (fs : List File) (j : Nat) : Str := ((fs[j]?).map (·.content)).getD []

/-- The complete lines before position `off` of file `j`. -/
def upto (fs : List File) (j off : Nat) : List Str :=
  (fs.take j).flatMap (fun f => linesOf f.content) ++ linesOf ((contentAt fs j).take off)

theorem appendLast_eq (pre : List File) (f : File) (bs : Str) :
    appendLast (pre ++ [f]) bs = pre ++ [{ f with content := f.content ++ bs }] := by
  induction pre with
  | nil => rfl
  | cons p ps ih =>
    cases ps with
    | nil => rfl
    | cons q qs => simp only [List.cons_append, appendLast] at ih ⊢; rw [ih]

theorem exists_last (fs : List File) (h : fs ≠ []) : ∃ pre f, fs = pre ++ [f] :=
  ⟨fs.dropLast, fs.getLast h, (List.dropLast_concat_getLast h).symm⟩

/-- `fs'` are the files of `fs`, where the last may have grown, and perhaps further files. -/
def Grow (fs fs' : List File) : Prop :=
  (∃ pre f bs, fs = pre ++ [f] ∧ fs' = pre ++ [{ f with content := f.content ++ bs }]) ∨ ∃ g, fs' = fs ++ [g]

theorem Grow_get (fs fs' : List File) (h : Grow fs fs') (j : Nat) (f : File) (hj : fs[j]? = some f) :
    ∃ f', fs'[j]? = some f' ∧ f'.inode = f.inode ∧ ∃ bs, f'.content = f.content ++ bs := by
  rcases h with ⟨pre, g, bs, rfl, rfl⟩ | ⟨g, rfl⟩
  · by_cases hlt : j < pre.length
    · rw [List.getElem?_append_left hlt] at hj ⊢
      exact ⟨f, hj, rfl, [], by simp⟩
    · have hlen : j < (pre ++ [g]).length := (List.getElem?_eq_some_iff.1 hj).1
      simp only [List.length_append, List.length_cons, List.length_nil] at hlen
      have he : j = pre.length := by omega
      subst he
      simp only [List.getElem?_concat_length, Option.some.injEq] at hj ⊢
      subst hj
      exact ⟨_, rfl, rfl, bs, rfl⟩
  · have hlen : j < fs.length := (List.getElem?_eq_some_iff.1 hj).1
    rw [List.getElem?_append_left hlen]
    exact ⟨f, hj, rfl, [], by simp⟩

theorem Grow_take (fs fs' : List File) (h : Grow fs fs') (j : Nat) (hj : j < fs.length) : fs'.take j = fs.take j := by
  rcases h with ⟨pre, g, bs, rfl, rfl⟩ | ⟨g, rfl⟩
  · simp only [List.length_append, List.length_cons, List.length_nil] at hj
    rw [List.take_append_of_le_length (by omega), List.take_append_of_le_length (by omega)]
  · rw [List.take_append_of_le_length (by omega)]

theorem Grow_upto (fs fs' : List File) (h : Grow fs fs') (j off : Nat) (f : File) (hj : fs[j]? = some f)
    (ho : off ≤ f.content.length) : upto fs' j off = upto fs j off := by
  obtain ⟨f', h1, -, bs, h2⟩ := Grow_get fs fs' h j f hj
  unfold upto contentAt
  rw [Grow_take fs fs' h j (List.getElem?_eq_some_iff.1 hj).1, h1, hj]
  simp only [Option.map_some, Option.getD_some, h2, List.take_append_of_le_length ho]

theorem Grow_logged (fs fs' : List File) (l b : Bool) (h : Grow fs fs') :
    logged { files := fs, linked := l } <+: logged { files := fs', linked := b } := by
  rcases h with ⟨pre, g, bs, rfl, rfl⟩ | ⟨g, rfl⟩
  · unfold logged
    simp only [List.flatMap_append, List.flatMap_cons, List.flatMap_nil, List.append_nil]
    exact List.prefix_append_right_inj _ |>.2 (linesOf_prefix _ _)
  · unfold logged
    simp only [List.flatMap_append]
    exact List.prefix_append _ _

/-! ## The open file -/

/-- What is known of the open file: the descriptor is behind the pending text, which is behind the lines read. -/
structure TrackOk (fs : List File) (t : Tracked) : Prop where
  ex : ∃ f, fs[t.fd]? = some f ∧ f.inode = t.inode ∧ Complete (f.content.take t.offset) ∧ t.offset ≤ t.pos ∧
    t.pos ≤ f.content.length ∧ t.pending = (f.content.take t.pos).drop t.offset

theorem TrackOk_grow (fs fs' : List File) (h : Grow fs fs') (t : Tracked) (ht : TrackOk fs t) :
    TrackOk fs' t ∧ upto fs' t.fd t.offset = upto fs t.fd t.offset := by
  obtain ⟨f, h1, h2, h3, h4, h5, h6⟩ := ht.ex
  obtain ⟨f', g1, g2, bs, g3⟩ := Grow_get fs fs' h t.fd f h1
  refine ⟨⟨f', g1, g2.trans h2, ?_, h4, ?_, ?_⟩, Grow_upto fs fs' h _ _ f h1 (by omega)⟩
  · rw [g3, List.take_append_of_le_length (by omega)]; exact h3
  · rw [g3, List.length_append]; omega
  · rw [g3, List.take_append_of_le_length h5]; exact h6

theorem upto_all (fs : List File) (j : Nat) (f : File) (hj : fs[j]? = some f) (off : Nat) (h : linesOf (f.content.take off) = linesOf f.content) :
    upto fs j off = (fs.take (j + 1)).flatMap fun f => linesOf f.content := by
  have hlt := (List.getElem?_eq_some_iff.1 hj)
  obtain ⟨hlt, he⟩ := hlt
  unfold upto contentAt
  rw [hj, List.take_add_one, hj]
  simp [h]

theorem upto_le (fs : List File) (linked : Bool) (j : Nat) (f : File) (hj : fs[j]? = some f) (off : Nat) :
    upto fs j off <+: logged { files := fs, linked := linked } := by
  obtain ⟨hlt, he⟩ := List.getElem?_eq_some_iff.1 hj
  have hsplit : fs = fs.take j ++ f :: fs.drop (j + 1) := by
    rw [← he, List.getElem_cons_drop, List.take_append_drop]
  have hl : logged { files := fs, linked := linked } =
      (fs.take j).flatMap (fun f => linesOf f.content) ++
        (linesOf f.content ++ (fs.drop (j + 1)).flatMap fun f => linesOf f.content) := by
    unfold logged
    conv => lhs; simp only; rw [hsplit]
    rw [List.flatMap_append, List.flatMap_cons]
  rw [hl]
  unfold upto contentAt
  rw [hj]
  apply (List.prefix_append_right_inj _).2
  refine List.IsPrefix.trans ?_ (List.prefix_append _ _)
  have := linesOf_prefix (f.content.take off) (f.content.drop off)
  rw [List.take_append_drop] at this
  exact this

/-- Reading gives exactly the complete lines not yet read. -/
theorem read_ok (w : World) (t : Tracked) (ht : TrackOk w.files t) :
    TrackOk w.files (readAvailable w t).1 ∧ (readAvailable w t).1.fd = t.fd ∧ (readAvailable w t).1.inode = t.inode ∧
    upto w.files (readAvailable w t).1.fd (readAvailable w t).1.offset = upto w.files t.fd t.offset ++ (readAvailable w t).2 ∧
    upto w.files (readAvailable w t).1.fd (readAvailable w t).1.offset =
      (w.files.take (t.fd + 1)).flatMap fun f => linesOf f.content := by
  obtain ⟨f, h1, h2, h3, h4, h5, h6⟩ := ht.ex
  have hall : t.pending ++ f.content.drop t.pos = f.content.drop t.offset := by
    rw [h6]
    conv => rhs; rw [← List.take_append_drop t.pos f.content]
    rw [List.drop_append_of_le_length (by rw [List.length_take]; omega)]
  obtain ⟨done, d1, d2, d3⟩ := rest_suffix (f.content.drop t.offset)
  have hr : readAvailable w t =
      ({ t with pos := f.content.length, offset := t.offset + done.length, pending := (splitLines (f.content.drop t.offset)).2 },
        linesOf (f.content.drop t.offset)) := by
    unfold readAvailable
    simp only [h1, Option.map_some, Option.getD_some, hall, List.length_drop, linesOf_eq]
    have hl := congrArg List.length d1
    simp only [List.length_drop, List.length_append] at hl
    congr 2
    · omega
    · omega
  have hdl : done.length ≤ f.content.length - t.offset := by
    have hl := congrArg List.length d1
    simp only [List.length_drop, List.length_append] at hl
    omega
  have hcontent : f.content = f.content.take t.offset ++ (done ++ (splitLines (f.content.drop t.offset)).2) := by
    rw [← d1, List.take_append_drop]
  have htlen : (f.content.take t.offset).length = t.offset := by rw [List.length_take]; omega
  have hconsumed : f.content.take (t.offset + done.length) = f.content.take t.offset ++ done := by
    conv => lhs; rw [hcontent]
    rw [List.take_append, List.take_of_length_le (by omega), htlen]
    congr 1
    rw [show t.offset + done.length - t.offset = done.length by omega, List.take_append_of_le_length (Nat.le_refl _),
      List.take_length]
  have hlines : linesOf (f.content.take (t.offset + done.length)) = linesOf f.content := by
    rw [hconsumed, linesOf_append _ _ h3, d3]
    conv => rhs; rw [← List.take_append_drop t.offset f.content]
    rw [linesOf_append _ _ h3]
  rw [hr]
  refine ⟨⟨f, h1, h2, ?_, ?_, ?_, ?_⟩, rfl, rfl, ?_, ?_⟩
  · simp only; rw [hconsumed]; exact Complete_append _ _ h3 d2
  · simp only; omega
  · exact Nat.le_refl _
  · simp only
    rw [List.take_length]
    have key : ∀ (c a d r : Str), c = a ++ (d ++ r) → r = c.drop (a.length + d.length) := by
      intro c a d r hr
      rw [hr, ← List.append_assoc, ← List.length_append, List.drop_left]
    have := key _ _ _ _ hcontent
    rw [htlen] at this
    exact this
  · unfold upto contentAt
    simp only [h1, Option.map_some, Option.getD_some]
    rw [hconsumed, linesOf_append _ _ h3, d3, List.append_assoc]
  · exact upto_all w.files t.fd f h1 _ hlines

theorem open_ok (w : World) (hl : w.linked = true) (hf : w.files ≠ []) (off : Nat)
    (ho : off ≤ (contentAt w.files (w.files.length - 1)).length)
    (hc : Complete ((contentAt w.files (w.files.length - 1)).take off)) :
    ∃ t, openAtPath w off = some t ∧ TrackOk w.files t ∧ t.fd + 1 = w.files.length ∧ t.offset = off ∧ w.stat = some t.inode := by
  obtain ⟨pre, f, hfs⟩ := exists_last w.files hf
  have hlast : w.files.getLast? = some f := by rw [hfs]; simp
  have hget : w.files[w.files.length - 1]? = some f := by rw [hfs]; simp
  unfold openAtPath World.stat
  rw [if_pos hl, if_pos hl, hlast]
  refine ⟨_, rfl, ⟨f, hget, rfl, ?_, Nat.le_refl _, ?_, ?_⟩, ?_, rfl, rfl⟩
  · unfold contentAt at hc; rw [hget] at hc; exact hc
  · unfold contentAt at ho; rw [hget] at ho; exact ho
  · simp
  · have : w.files.length ≠ 0 := by rw [hfs]; simp
    simp only; omega

theorem upto_zero (fs : List File) (j : Nat) : upto fs j 0 = (fs.take j).flatMap fun f => linesOf f.content := by
  simp [upto, linesOf, linesFrom]

end Verif.Shipper
