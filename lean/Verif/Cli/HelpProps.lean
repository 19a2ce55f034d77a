import Verif.Cli.Help
import Mathlib.Data.List.Forall2

/-! C87: the text of the command-line help. -/

namespace Verif.Cli.Help

open Verif.Py

/-! ### Helper lemmas -/

theorem cutAt_ne_nil (sp : Char → Bool) (s : Str) : cutAt sp s ≠ [] := by
  cases s with
  | nil => simp [cutAt]
  | cons c s =>
    unfold cutAt
    split
    · simp
    · split <;> simp

theorem cutAt_sep {sp : Char → Bool} (a b : Str) {c : Char} (h : sp c = true) : cutAt sp (a ++ c :: b) = cutAt sp a ++ cutAt sp b := by
  induction a with
  | nil => simp [cutAt, h]
  | cons x a ih =>
    simp only [List.cons_append, cutAt, ih]
    split
    · rfl
    · cases hc : cutAt sp a with
      | nil => exact absurd hc (cutAt_ne_nil sp a)
      | cons w ws => rfl

theorem words_sep {sp : Char → Bool} (a b : Str) {c : Char} (h : sp c = true) : words sp (a ++ c :: b) = words sp a ++ words sp b := by
  simp [words, cutAt_sep a b h]

theorem cutAt_free {sp : Char → Bool} {s : Str} (h : ∀ c ∈ s, sp c = false) : cutAt sp s = [s] := by
  induction s with
  | nil => rfl
  | cons c s ih =>
    simp only [cutAt, h c (by simp), ih (fun x hx => h x (List.mem_cons_of_mem _ hx))]
    simp

theorem cutAt_parts {sp : Char → Bool} (s : Str) : ∀ w ∈ cutAt sp s, ∀ c ∈ w, sp c = false := by
  induction s with
  | nil => simp [cutAt]
  | cons x s ih =>
    unfold cutAt
    split
    · intro w hw
      rcases List.mem_cons.1 hw with rfl | hw
      · simp
      · exact ih w hw
    · next hx =>
      cases hc : cutAt sp s with
      | nil => exact absurd hc (cutAt_ne_nil sp s)
      | cons a as =>
        rw [hc] at ih
        intro w hw
        rcases List.mem_cons.1 hw with rfl | hw
        · intro c hcm
          rcases List.mem_cons.1 hcm with rfl | hcm
          · simpa using hx
          · exact ih a (by simp) c hcm
        · exact ih w (List.mem_cons_of_mem _ hw)

/-- A word: not empty and without white space. -/
def IsWord (sp : Char → Bool) (w : Str) : Prop := w ≠ [] ∧ ∀ c ∈ w, sp c = false

theorem words_isWord {sp : Char → Bool} {s : Str} : ∀ w ∈ words sp s, IsWord sp w := by
  intro w hw
  simp only [words, List.mem_filter, decide_eq_true_eq] at hw
  exact ⟨hw.2, cutAt_parts s w hw.1⟩

theorem words_word {sp : Char → Bool} {w : Str} (h : IsWord sp w) : words sp w = [w] := by
  simp [words, cutAt_free h.2, h.1]

theorem words_spaced {sp : Char → Bool} (hsp : sp ' ' = true) : ∀ (l : List Str), (∀ w ∈ l, IsWord sp w) → words sp (spaced l) = l
  | [], _ => rfl
  | [w], h => words_word (h w (by simp))
  | w :: w' :: ws, h => by
    simp only [spaced]
    rw [words_sep _ _ hsp, words_word (h w (by simp)), words_spaced hsp (w' :: ws) (fun x hx => h x (List.mem_cons_of_mem _ hx))]
    rfl

theorem spaced_concat (l : List Str) (w : Str) :
    (spaced (l ++ [w])).length = (spaced l).length + (if l ≠ [] then 1 else 0) + w.length := by
  induction l with
  | nil => simp [spaced]
  | cons a l ih =>
    cases l with
    | nil => simp [spaced]; omega
    | cons b l =>
      simp only [List.cons_append, spaced, List.length_append, List.length_cons] at ih ⊢
      simp at ih ⊢
      omega

/-- What is wrapped from a state of the loop, as groups of words. -/
theorem wrap_groups (width : Int) (ws : List Str) : ∀ (line : List Str) (len : Nat), len = (spaced line).length →
    ∃ gs : List (List Str), gs ≠ [] ∧ wrap width ws line len = gs.map spaced ∧ gs.flatten = line ++ ws ∧
      (∃ g t, gs = (line ++ g) :: t ∧ (∀ h ∈ t, h ≠ []) ∧ (((spaced (line ++ g)).length : Int) ≤ width ∨ g = [])) ∧
      (∀ g ∈ gs.tail, ((spaced g).length : Int) ≤ width ∨ g.length = 1) ∧
      (∀ i g h w t, gs[i]? = some g → gs[i + 1]? = some h → h = w :: t → ((spaced (g ++ [w])).length : Int) > width) := by
  induction ws with
  | nil =>
    intro line len hl
    refine ⟨[line], by simp, by simp [wrap], by simp, ⟨[], [], by simp, by simp, .inr rfl⟩, by simp, ?_⟩
    intro i g h w t h1 h2
    rw [List.getElem?_eq_some_iff] at h2
    obtain ⟨hlt, _⟩ := h2
    simp at hlt
  | cons word rest ih =>
    intro line len hl
    have hn : ((len + word.length + (if line ≠ [] then 1 else 0) : Nat)) = (spaced (line ++ [word])).length := by
      rw [spaced_concat, hl]; omega
    simp only [wrap]
    by_cases hw : ((len + word.length + (if line ≠ [] then 1 else 0) : Nat) : Int) > width
    · rw [if_pos hw]
      obtain ⟨gs, hne, he, hf, ⟨g, t, hg, ht, hfit⟩, htl, hgr⟩ := ih [word] word.length (by simp [spaced])
      refine ⟨line :: gs, by simp, by rw [he]; rfl, by simp [hf], ⟨[], gs, by simp, ?_, .inr rfl⟩, ?_, ?_⟩
      · intro h hh
        rw [hg] at hh
        rcases List.mem_cons.1 hh with rfl | hh
        · simp
        · exact ht h hh
      · intro x hx
        simp only [List.tail_cons] at hx
        rw [hg] at hx htl
        rcases List.mem_cons.1 hx with rfl | hx
        · rcases hfit with hfit | rfl
          · exact .inl hfit
          · right; simp
        · exact htl x hx
      · intro i a b w t' h1 h2 h3
        cases i with
        | zero =>
          simp only [List.getElem?_cons_zero, Option.some.injEq] at h1
          rw [hg] at h2
          simp only [Nat.zero_add, List.getElem?_cons_succ, List.getElem?_cons_zero, Option.some.injEq] at h2
          subst h1
          rw [← h2, List.cons_append, List.cons.injEq] at h3
          rw [← h3.1, ← hn]
          exact hw
        | succ i =>
          simp only [List.getElem?_cons_succ] at h1 h2
          exact hgr i a b w t' h1 h2 h3
    · rw [if_neg hw]
      obtain ⟨gs, hne, he, hf, ⟨g, t, hg, ht, hfit⟩, htl, hgr⟩ := ih (line ++ [word])
        (len + (if line ≠ [] then 1 else 0) + word.length) (by rw [spaced_concat, hl])
      refine ⟨gs, hne, he, by simp [hf], ⟨word :: g, t, by rw [hg]; simp, ht, ?_⟩, htl, hgr⟩
      left
      rcases hfit with hfit | rfl
      · simpa using hfit
      · rw [hn] at hw
        simpa using hw

theorem joinLines_split (s : Str) : joinLines (Str.split '\n' s) = s ∧ Str.split '\n' s ≠ [] := by
  induction s with
  | nil => exact ⟨rfl, by simp [Str.split]⟩
  | cons c s ih =>
    obtain ⟨ih, hne⟩ := ih
    unfold Str.split
    cases h : Str.split '\n' s with
    | nil => exact absurd h hne
    | cons w ws =>
      rw [h] at ih
      split
      · next hc => exact ⟨by simp [joinLines, ih, hc], by simp⟩
      · refine ⟨?_, by simp⟩
        cases ws with
        | nil => simp [joinLines] at ih ⊢; exact ih
        | cons w' ws => simp [joinLines] at ih ⊢; exact ih

theorem words_joinLines {sp : Char → Bool} (hnl : sp '\n' = true) : ∀ (ls : List Str), words sp (joinLines ls) = ls.flatMap (words sp)
  | [] => rfl
  | [l] => by simp [joinLines]
  | l :: l' :: ls => by
    simp only [joinLines]
    rw [words_sep _ _ hnl, words_joinLines hnl (l' :: ls)]
    simp only [List.flatMap_cons]

theorem split_words {sp : Char → Bool} (hnl : sp '\n' = true) (s : Str) : (Str.split '\n' s).flatMap (words sp) = words sp s := by
  rw [← words_joinLines hnl, (joinLines_split s).1]

/-! ### Specification -/

/-- Lines that hold the given words, in order and with single blanks between them: no line is longer than the width unless it is a single
word, no line could have held the first word of the next one as well, and no line but the first is empty. -/
def Wrapped (width : Int) (ws : List Str) (lines : List Str) : Prop :=
  ∃ gs : List (List Str), gs ≠ [] ∧ lines = gs.map spaced ∧ gs.flatten = ws ∧
    (∀ g ∈ gs, (spaced g).length ≤ width ∨ g.length ≤ 1) ∧ (∀ g ∈ gs.tail, g ≠ []) ∧
    ∀ (i : Nat) (g : List Str) (w : Str) (t : List Str), gs[i]? = some g → gs[i + 1]? = some (w :: t) → (spaced (g ++ [w])).length > width

theorem wrap_wrapped (width : Int) (ws : List Str) : Wrapped width ws (wrap width ws [] 0) := by
  obtain ⟨gs, hne, he, hf, ⟨g, t, hg, ht, hfit⟩, htl, hgr⟩ := wrap_groups width ws [] 0 rfl
  refine ⟨gs, hne, he, by simpa using hf, ?_, by rw [hg]; exact ht, fun i a w t' h1 h2 => hgr i a (w :: t') w t' h1 h2 rfl⟩
  intro x hx
  rw [hg] at hx htl
  rcases List.mem_cons.1 hx with rfl | hx
  · rcases hfit with hfit | rfl
    · exact .inl hfit
    · right; simp
  · rcases htl x hx with h | h
    · exact .inl h
    · right; omega

/-! ### C87 -/

/-- **C87, words.** Every word of the text stands in the lines, in the same order, and nothing else does, whatever the width. -/
theorem C87_words (sp : Char → Bool) (hsp : sp ' ' = true) (hnl : sp '\n' = true) (text : Str) (width : Int) :
    (splitLines sp text width).flatMap (words sp) = words sp text := by
  rw [← split_words hnl text]
  unfold splitLines
  rw [List.flatMap_assoc]
  congr 1
  funext line
  obtain ⟨gs, _, he, hf, _⟩ := wrap_wrapped width (words sp line)
  rw [he, List.flatMap_map]
  have hw : ∀ g ∈ gs, words sp (spaced g) = g := by
    intro g hg
    refine words_spaced hsp g (fun w hw => words_isWord (s := line) w ?_)
    rw [← hf]
    exact List.mem_flatten.2 ⟨g, hg, hw⟩
  have : ∀ l : List (List Str), (∀ g ∈ l, words sp (spaced g) = g) → l.flatMap (fun a => words sp (spaced a)) = l.flatten := by
    intro l
    induction l with
    | nil => intro _; rfl
    | cons g l ih =>
      intro h
      rw [List.flatMap_cons, h g (by simp), ih (fun x hx => h x (List.mem_cons_of_mem _ hx)), List.flatten_cons]
  rw [this gs hw, hf]

/-- **C87, lines.** Every line of the text is wrapped on its own, so that line breaks and empty lines stay. -/
theorem C87_lines (sp : Char → Bool) (text : Str) (width : Int) : ∃ paragraphs : List (List Str),
    splitLines sp text width = paragraphs.flatten ∧
    List.Forall₂ (fun line lines => Wrapped width (words sp line) lines) (Str.split '\n' text) paragraphs := by
  refine ⟨(Str.split '\n' text).map fun line => wrap width (words sp line) [] 0, by simp [splitLines, List.flatMap], ?_⟩
  induction Str.split '\n' text with
  | nil => exact .nil
  | cons l ls ih => exact .cons (wrap_wrapped _ _) ih

/-- **C87, width.** If every word of the text fits into the width, so does every line, and a line is empty only where a line of the text is. -/
theorem C87_width_partial (sp : Char → Bool) (line : Str) (hline : '\n' ∉ line) (width : Int) (hw : 0 ≤ width)
    (hfit : ∀ w ∈ words sp line, (w.length : Int) ≤ width) :
    (∀ l ∈ splitLines sp line width, (l.length : Int) ≤ width) ∧
    (words sp line ≠ [] → [] ∉ splitLines sp line width) := by
  have e : splitLines sp line width = wrap width (words sp line) [] 0 := by
    simp [splitLines, Str.split_free hline]
  rw [e]
  obtain ⟨gs, hne, he, hf, hl, htl, hgr⟩ := wrap_wrapped width (words sp line)
  rw [he]
  have hmem : ∀ g ∈ gs, ∀ w ∈ g, w ∈ words sp line := fun g hg w hw => by rw [← hf]; exact List.mem_flatten.2 ⟨g, hg, hw⟩
  constructor
  · intro l hl'
    obtain ⟨g, hg, rfl⟩ := List.mem_map.1 hl'
    rcases hl g hg with h | h
    · exact h
    · match g, h, hg with
      | [], _, _ => simpa [spaced] using hw
      | [w], _, hg => exact hfit w (hmem _ hg w (by simp))
      | _ :: _ :: _, h, _ => simp at h
  · intro hws hm
    obtain ⟨g, hg, hge⟩ := List.mem_map.1 hm
    have hgn : g = [] := by
      match g, hge, hg with
      | [], _, _ => rfl
      | [w], hge, hg => exact absurd hge (words_isWord w (hmem _ hg w (by simp))).1
      | w :: w' :: t, hge, _ => simp [spaced] at hge
    subst hgn
    match gs, hne, hg, htl, hgr, hf with
    | [a], _, hg, _, _, hf =>
      simp at hg; subst hg; simp at hf; exact hws hf
    | a :: b :: t, _, hg, htl, hgr, hf =>
      rcases List.mem_cons.1 hg with rfl | hg
      · cases b with
        | nil => exact htl [] (by simp) rfl
        | cons w b =>
          have h1 := hgr 0 [] w b rfl rfl
          have h2 := hfit w (hmem (w :: b) (by simp) w (by simp))
          simp only [List.nil_append, spaced] at h1
          omega
      · exact htl [] hg rfl

/-- Blanks and line feeds, for examples. -/
def exSpace (c : Char) : Bool := c = ' ' || c = '\n'

example : splitLines exSpace "Port of  the server.\n\nDefault: 8888".toList 12 =
    ["Port of the".toList, "server.".toList, [], "Default:".toList, "8888".toList] := by decide +kernel

theorem split_joinLines : ∀ (ls : List Str), ls ≠ [] → (∀ l ∈ ls, '\n' ∉ l) → Str.split '\n' (joinLines ls) = ls
  | [], h, _ => absurd rfl h
  | [l], _, h => Str.split_free (h l (by simp))
  | l :: l' :: ls, _, h => by
    simp only [joinLines]
    rw [Str.split_append (h l (by simp)), split_joinLines (l' :: ls) (by simp) (fun x hx => h x (List.mem_cons_of_mem _ hx))]

theorem spaced_free : ∀ (g : List Str), (∀ w ∈ g, '\n' ∉ w) → '\n' ∉ spaced g
  | [], _ => by simp [spaced]
  | [w], h => h w (by simp)
  | w :: w' :: t, h => by
    simp only [spaced, List.mem_append, List.mem_cons, not_or]
    exact ⟨h w (by simp), by decide, spaced_free (w' :: t) (fun x hx => h x (List.mem_cons_of_mem _ hx))⟩

theorem words_indent {sp : Char → Bool} (indent l : Str) (h : ∀ c ∈ indent, sp c = true) : words sp (indent ++ l) = words sp l := by
  induction indent with
  | nil => rfl
  | cons c t ih =>
    have := words_sep (sp := sp) [] (t ++ l) (h c (by simp))
    simp only [List.nil_append] at this
    rw [List.cons_append, this, ih (fun x hx => h x (List.mem_cons_of_mem _ hx))]
    rfl

/-- **C87, indented.** The lines of a filled text are the lines wrapped for the width that the indent leaves, each behind the indent; the
words are those of the text. -/
theorem C87_fill (sp : Char → Bool) (hsp : sp ' ' = true) (hnl : sp '\n' = true) (text : Str) (width : Int) (indent : Str)
    (hi : '\n' ∉ indent) :
    Str.split '\n' (fillText sp text width indent) = (splitLines sp text (width - indent.length)).map (indent ++ ·) ∧
    ((∀ c ∈ indent, sp c = true) → words sp (fillText sp text width indent) = words sp text) := by
  unfold fillText
  constructor
  · refine split_joinLines _ ?_ ?_
    · unfold splitLines
      intro e
      rw [List.map_eq_nil_iff, List.flatMap_eq_nil_iff] at e
      obtain ⟨l, hl⟩ := List.exists_mem_of_ne_nil _ (joinLines_split text).2
      obtain ⟨gs, hne, he, _⟩ := wrap_wrapped (width - indent.length) (words sp l)
      have := e l hl
      rw [he] at this
      exact hne (List.map_eq_nil_iff.1 this)
    · intro l hl
      obtain ⟨x, hx, rfl⟩ := List.mem_map.1 hl
      obtain ⟨line, hline, hx⟩ := List.mem_flatMap.1 hx
      obtain ⟨gs, _, he, hf, _⟩ := wrap_wrapped (width - indent.length) (words sp line)
      rw [he] at hx
      obtain ⟨g, hg, rfl⟩ := List.mem_map.1 hx
      rw [List.mem_append, not_or]
      refine ⟨hi, spaced_free g ?_⟩
      intro w hw hn
      have hm : w ∈ words sp line := by rw [← hf]; exact List.mem_flatten.2 ⟨g, hg, hw⟩
      have := (words_isWord w hm).2 _ hn
      rw [hnl] at this
      exact absurd this (by decide)
  · intro hb
    rw [words_joinLines hnl, List.flatMap_map]
    have : (fun a => words sp (indent ++ a)) = words sp := by funext a; exact words_indent indent a hb
    rw [this]
    exact C87_words sp hsp hnl text _

example : fillText exSpace "Set the level".toList 10 "  ".toList = "  Set the\n  level".toList := by decide +kernel

/-- A word that is longer than the width, at the beginning of a line of the text, is preceded by an empty line. -/
theorem C87_long_refuted (sp : Char → Bool) (w : Str) (width : Int) (hw : IsWord sp w) (hn : '\n' ∉ w) (hl : (w.length : Int) > width) :
    splitLines sp w width = [[], w] := by
  simp [splitLines, Str.split_free hn, words_word hw, wrap, hl, spaced]

example : IsWord exSpace "/tmp/a_rather_long_path".toList ∧ splitLines exSpace "/tmp/a_rather_long_path".toList 11 =
    [[], "/tmp/a_rather_long_path".toList] := by
  have h : IsWord exSpace "/tmp/a_rather_long_path".toList := ⟨by decide, by decide⟩
  exact ⟨h, C87_long_refuted exSpace _ 11 h (by decide) (by decide)⟩

end Verif.Cli.Help
