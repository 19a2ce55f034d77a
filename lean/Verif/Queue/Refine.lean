import Verif.Queue.Lemmas

/-! The queue model refines a plain list: one lemma per operation. -/

set_option linter.unusedSectionVars false

namespace Verif.Queue

open Verif.Py Verif.Queue.Spec

variable {K V S : Type} [DecidableEq K]

abbrev encItem (c : Codec V S) (e : K × V) : K × S := (e.1, c.enc e.2)

theorem decode_enc {c : Codec V S} (hc : c.Lawful) (v : V) : decode c (c.enc v) = .ok (some v) := by
  simp [decode, hc v]

theorem encItem_fst (c : Codec V S) (l : List (K × V)) :
    (l.map (encItem c)).map Prod.fst = Spec.keys l := by
  simp [Spec.keys, Function.comp_def]

theorem eItem_fst (l : List (Entry K S)) : (l.map eItem).map Prod.fst = l.map Entry.key := by
  simp [Function.comp_def, eItem]

theorem rItem_fst (l : List (Rec K S)) : (l.map rItem).map Prod.fst = l.map Rec.key := by
  simp [Function.comp_def, rItem]

theorem Rep.nodup {c : Codec V S} {q : PQ K S} {l : List (K × V)} (h : Rep c q l) :
    (Spec.keys l).Nodup := by
  have := h.1.keys
  rw [h.2, encItem_fst] at this
  exact this

/-- keys of the parts -/
theorem items_keys (q : PQ K S) : (items q).map Prod.fst =
    q.front.list.map Entry.key ++ (Table.asc q.db).map Rec.key ++ (backItems q).map Prod.fst := by
  simp only [items, List.map_append, eItem_fst, rItem_fst]

theorem backItems_some {q : PQ K S} {b : Page K S} (h : q.back = some b) :
    backItems q = b.list.map eItem := by simp [backItems, h]

theorem backItems_none {q : PQ K S} (h : q.back = none) : backItems q = [] := by
  simp [backItems, h]

theorem asc_nil : Table.asc ([] : Table K S) = [] := rfl

theorem asc_eq_nil {t : Table K S} : Table.asc t = [] ↔ t = [] := by
  constructor
  · intro h; have := length_asc t; rw [h] at this; exact List.length_eq_zero_iff.mp this.symm
  · rintro rfl; rfl

/-! ### size -/

theorem size_eq (q : PQ K S) : q.size = (items q).length := by
  unfold PQ.size items
  cases h : q.back with
  | none => simp [backItems_none h, Page.size, length_asc]; omega
  | some b => simp [backItems_some h, Page.size, length_asc]; omega

/-! ### pop -/

/-- popping the front page -/
theorem popFront_inv {c : Codec V S} {q : PQ K S} (h : Inv q) {e : Entry K S}
    {rest : List (Entry K S)} (hl : q.front.list = e :: rest) :
    let r := q.front.popFront c
    r.1 = decode c e.str ∧ Inv { q with front := r.2 } ∧
      items q = eItem e :: items { q with front := r.2 } := by
  have hp := h.frontOk.popFront (c := c) hl
  simp only [hp]
  have hit : items q = eItem e :: items { q with front := ⟨rest, rest.map (fun e => (e.key, e))⟩ } := by
    simp [items, hl, backItems]
  refine ⟨trivial, ?_, hit⟩
  have hk := h.keys
  rw [hit, List.map_cons, List.nodup_cons] at hk
  have hfn := h.frontOk.2
  rw [hl, List.map_cons, List.nodup_cons] at hfn
  refine ⟨⟨rfl, hfn.2⟩, h.backOk, h.shared, ?_, h.backSize, h.ids, hk.2, h.pos⟩
  have := h.frontSize
  simp [Page.size, hl] at this ⊢
  omega

theorem recsToEntries_items (rs : List (Rec K S)) :
    (rs.map (fun r => (⟨r.key, r.str⟩ : Entry K S))).map eItem = rs.map rItem := by
  simp [Function.comp_def, eItem, rItem]

/-- loading the front page keeps the content -/
theorem loadFront_inv {q : PQ K S} (h : Inv q) (hf : q.front.list = []) (hb : ∃ b, q.back = some b) :
    Inv q.loadFront ∧ items q.loadFront = items q ∧
      q.loadFront.front.list = ((Table.asc q.db).take q.pageSize).map (fun r => ⟨r.key, r.str⟩) ∧
      q.loadFront.back = q.back := by
  have hk := h.keys
  rw [items_keys, hf] at hk
  have hk2 : ((Table.asc q.db).map Rec.key).Nodup := by
    rw [List.nodup_append] at hk; simpa using hk.1
  have hk3 : (q.front.list.map Entry.key ++ ((Table.asc q.db).take q.pageSize).map Rec.key).Nodup := by
    rw [hf]; simp only [List.map_nil, List.nil_append]
    exact List.Nodup.sublist (List.Sublist.map _ (List.take_sublist _ _)) hk2
  obtain ⟨hok, hlist⟩ := pushRecs_ok q.front _ h.frontOk hk3
  rw [hf, List.nil_append] at hlist
  have hfl : q.loadFront.front.list =
      ((Table.asc q.db).take q.pageSize).map (fun r => ⟨r.key, r.str⟩) := hlist
  have hdb : Table.asc q.loadFront.db = (Table.asc q.db).drop q.pageSize := asc_delete_take h.ids _
  have hback : backItems q.loadFront = backItems q := rfl
  have hit : items q.loadFront = items q := by
    unfold items
    rw [hfl, hdb, hback, recsToEntries_items, ← List.map_append, List.take_append_drop, hf]
    simp
  refine ⟨⟨hok, h.backOk, ?_, ?_, h.backSize, nodup_deleteIds h.ids _, by rw [hit]; exact h.keys, h.pos⟩,
    hit, hfl, rfl⟩
  · intro hn
    obtain ⟨b, hb⟩ := hb
    have : q.loadFront.back = q.back := rfl
    rw [this, hb] at hn; cases hn
  · show q.loadFront.front.list.length ≤ q.pageSize
    rw [hfl]; simp

theorem rep_pop {c : Codec V S} (hc : c.Lawful) {q : PQ K S} {l : List (K × V)} (h : Rep c q l) :
    (q.pop c).1 = .ok (Spec.front l) ∧ Rep c (q.pop c).2 l.tail := by
  obtain ⟨hi, hl⟩ := h
  -- common ending: some page is popped
  have fin : ∀ q' : PQ K S, Inv q' → items q' = items q → q'.front.list ≠ [] →
      (q'.front.popFront c).1 = .ok (Spec.front l) ∧
        Rep c { q' with front := (q'.front.popFront c).2 } l.tail := by
    intro q' hi' hit hne
    obtain ⟨e, rest, hfl⟩ := List.exists_cons_of_ne_nil hne
    obtain ⟨h1, h2, h3⟩ := popFront_inv (c := c) hi' hfl
    rw [hit, hl] at h3
    cases l with
    | nil => simp at h3
    | cons a l =>
      simp only [List.map_cons, List.cons.injEq] at h3
      have : e.str = c.enc a.2 := by have := congrArg Prod.snd h3.1; simpa [eItem] using this.symm
      refine ⟨?_, h2, h3.2.symm⟩
      rw [h1, this, decode_enc hc]; rfl
  unfold PQ.pop
  by_cases h1 : q.front.size > 0
  · rw [if_pos h1]
    exact fin q hi rfl (by intro e; simp [Page.size, e] at h1)
  · rw [if_neg h1]
    have hf : q.front.list = [] := by
      apply List.length_eq_zero_iff.mp; simpa [Page.size] using h1
    by_cases h2 : q.db.length > 0
    · rw [if_pos h2]
      have hb : ∃ b, q.back = some b := by
        cases hb : q.back with
        | none => have := hi.shared hb; rw [this] at h2; simp at h2
        | some b => exact ⟨b, rfl⟩
      obtain ⟨g1, g2, g3, g4⟩ := loadFront_inv hi hf hb
      apply fin q.loadFront g1 g2
      rw [g3]
      intro e
      have := congrArg List.length e
      simp [length_asc] at this
      have := hi.pos
      rcases ‹_ ∨ _› with h | h <;> simp_all
    · rw [if_neg h2]
      have hdb : q.db = [] := by apply List.length_eq_zero_iff.mp; omega
      -- the state after `front_page = back_page`
      have hsw : Inv ({ q with front := q.backPage, back := none } : PQ K S) ∧
          items ({ q with front := q.backPage, back := none } : PQ K S) = items q := by
        cases hb : q.back with
        | none =>
          have e : ({ q with front := q.backPage, back := none } : PQ K S) = q := by
            cases q; simp_all [PQ.backPage]
          rw [e]; exact ⟨hi, rfl⟩
        | some b =>
          have hbp : q.backPage = b := by simp [PQ.backPage, hb]
          have hit : items ({ q with front := q.backPage, back := none } : PQ K S) = items q := by
            simp [items, hbp, hdb, hf, backItems, hb, asc_nil]
          refine ⟨⟨by simpa [hbp] using hi.backOk b hb, by simp, by simp [hdb],
            by simpa [hbp] using hi.backSize b hb, by simp, hi.ids, by rw [hit]; exact hi.keys, hi.pos⟩, hit⟩
      by_cases h3 : q.backPage.size > 0
      · rw [if_pos h3]
        apply fin _ hsw.1 hsw.2
        intro e
        have e' : q.backPage.list = [] := e
        simp [Page.size, e'] at h3
      · rw [if_neg h3]
        have hbl : q.backPage.list = [] := by
          apply List.length_eq_zero_iff.mp; simpa [Page.size] using h3
        have hnil : items q = [] := by
          rw [← hsw.2]; simp [items, hbl, hdb, asc_nil, backItems]
        have : l = [] := by rw [hl] at hnil; simpa using hnil
        subst this
        exact ⟨rfl, hsw.1, by rw [hsw.2, hnil]; rfl⟩

/-! ### membership -/

theorem hasKey_iff (t : Table K S) (k : K) : Table.hasKey t k = true ↔ k ∈ (Table.asc t).map Rec.key := by
  rw [((asc_perm t).map Rec.key).mem_iff]
  simp [Table.hasKey]

theorem backPage_ok {q : PQ K S} (h : Inv q) : PageOk q.backPage := by
  unfold PQ.backPage
  cases hb : q.back with
  | none => exact h.frontOk
  | some b => exact h.backOk b hb

theorem held_iff {q : PQ K S} (h : Inv q) (k : K) :
    (q.backPage.hasEntry k || q.front.hasEntry k || Table.hasKey q.db k) = true ↔
      k ∈ (items q).map Prod.fst := by
  rw [items_keys]
  simp only [Bool.or_eq_true, (backPage_ok h).has, h.frontOk.has, hasKey_iff, List.mem_append]
  unfold PQ.backPage
  cases hb : q.back with
  | none => simp [backItems_none hb]
  | some b => rw [backItems_some hb, eItem_fst, or_assoc, or_comm]

/-! ### push -/

theorem rep_push {c : Codec V S} {q : PQ K S} {l : List (K × V)} (h : Rep c q l) (v : V) (k : K) :
    (q.push c v k).1 = .ok k ∧ Rep c (q.push c v k).2 (Spec.push l v k) := by
  obtain ⟨hi, hl⟩ := h
  have hkeys : (items q).map Prod.fst = Spec.keys l := by rw [hl]; exact encItem_fst c l
  have hheld := held_iff hi k
  rw [hkeys] at hheld
  by_cases hk : k ∈ Spec.keys l
  · have hcond := hheld.mpr hk
    unfold PQ.push
    rw [if_pos hcond]
    simp only [Spec.push, if_pos hk]
    exact ⟨trivial, hi, hl⟩
  have hcond : ¬ (q.backPage.hasEntry k || q.front.hasEntry k || Table.hasKey q.db k) = true := by
    rw [hheld]; exact hk
  have hnk : k ∉ (items q).map Prod.fst := by rw [hkeys]; exact hk
  have hpush : Spec.push l v k = l ++ [(k, v)] := by simp [Spec.push, hk]
  -- it suffices to append one item to the content
  have fin : ∀ q' : PQ K S, (items q' = items q ++ [(k, c.enc v)]) →
      ((items q').map Prod.fst).Nodup ∧ items q' = (Spec.push l v k).map (encItem c) := by
    intro q' hit
    constructor
    · rw [hit, List.map_append, List.nodup_append]
      refine ⟨hi.keys, by simp, ?_⟩
      intro a ha b hb
      simp at hb; subst hb
      intro e; subst e; exact hnk ha
    · rw [hit, hl, hpush]; simp
  rw [items_keys] at hnk
  simp only [List.mem_append, not_or] at hnk
  unfold PQ.push
  rw [if_neg hcond]
  by_cases hs : q.backPage.size < q.pageSize
  · rw [if_pos hs]
    refine ⟨rfl, ?_⟩
    simp only
    cases hb : q.back with
    | none =>
      have hbp : q.backPage = q.front := by simp [PQ.backPage, hb]
      have hdb := hi.shared hb
      have hset : q.setBackPage (q.backPage.push c v k) = { q with front := q.front.push c v k } := by
        simp [PQ.setBackPage, hb, hbp]
      have hlist : (q.front.push c v k).list = q.front.list ++ [⟨k, c.enc v⟩] := rfl
      have hit : items ({ q with front := q.front.push c v k } : PQ K S) = items q ++ [(k, c.enc v)] := by
        simp [items, hlist, hdb, asc_nil, backItems, hb, eItem]
      rw [hset]
      refine ⟨⟨hi.frontOk.append hnk.1.1, hi.backOk, hi.shared, ?_, hi.backSize, hi.ids, (fin _ hit).1, hi.pos⟩,
        (fin _ hit).2⟩
      rw [hbp] at hs
      simp only [Page.size] at hs ⊢
      rw [hlist]; simp; omega
    | some b =>
      have hbp : q.backPage = b := by simp [PQ.backPage, hb]
      have hset : q.setBackPage (q.backPage.push c v k) = { q with back := some (b.push c v k) } := by
        simp [PQ.setBackPage, hb, hbp]
      have hlist : (b.push c v k).list = b.list ++ [⟨k, c.enc v⟩] := rfl
      have hit : items ({ q with back := some (b.push c v k) } : PQ K S) = items q ++ [(k, c.enc v)] := by
        simp [items, hlist, backItems, hb, eItem]
      rw [backItems_some hb, eItem_fst] at hnk
      rw [hset]
      refine ⟨⟨hi.frontOk, ?_, by simp, hi.frontSize, ?_, hi.ids, (fin _ hit).1, hi.pos⟩, (fin _ hit).2⟩
      · intro b' hb'
        simp at hb'; subst hb'
        exact (hi.backOk b hb).append hnk.2
      · intro b' hb'
        simp at hb'; subst hb'
        rw [hbp] at hs
        simp only [Page.size] at hs ⊢
        rw [hlist]; simp; omega
  · rw [if_neg hs]
    have hone : PageOk ((Page.empty : Page K S).push c v k) := by
      apply PageOk.empty.append; simp [Page.empty]
    have honel : ((Page.empty : Page K S).push c v k).list = [⟨k, c.enc v⟩] := rfl
    cases hb : q.back with
    | none =>
      simp only
      have hdb := hi.shared hb
      have hit : items ({ q with back := some ((Page.empty : Page K S).push c v k) } : PQ K S) =
          items q ++ [(k, c.enc v)] := by
        simp [items, honel, backItems, hb, eItem]
      refine ⟨trivial, ⟨hi.frontOk, ?_, by simp, hi.frontSize, ?_, hi.ids, (fin _ hit).1, hi.pos⟩, (fin _ hit).2⟩
      · intro b' hb'; simp at hb'; subst hb'; exact hone
      · intro b' hb'; simp at hb'; subst hb'
        have := hi.pos; simp [Page.size, honel]; omega
    | some b =>
      simp only
      have hbp : q.backPage = b := by simp [PQ.backPage, hb]
      obtain ⟨hids, hasc⟩ := backRows hi.ids b.list
      have hkk : ((q.db ++ PQ.mkRecs 1 (Table.maxId q.db + 1) b.list).map Rec.key).Nodup := by
        have := hi.keys
        rw [items_keys, backItems_some hb, eItem_fst, List.append_assoc, List.nodup_append] at this
        rw [List.map_append, mkRecs_keys]
        exact ((((asc_perm q.db).map Rec.key).append_right _).nodup_iff).mp this.2.1
      have hw : q.writeBack = (.ok (), { q with db := q.db ++ PQ.mkRecs 1 (Table.maxId q.db + 1) b.list, back := some Page.empty }) := by
        unfold PQ.writeBack Table.insertAll
        rw [hbp]
        simp only
        rw [if_pos ⟨hids, hkk⟩]
      rw [hw]
      simp only [PQ.setBackPage, PQ.backPage]
      have hit : items ({ q with db := q.db ++ PQ.mkRecs 1 (Table.maxId q.db + 1) b.list, back := some ((Page.empty : Page K S).push c v k) } : PQ K S) =
          items q ++ [(k, c.enc v)] := by
        simp only [items, hasc, List.map_append, mkRecs_items, backItems, hb, honel]
        simp [eItem]
      refine ⟨trivial, ⟨hi.frontOk, ?_, by simp, hi.frontSize, ?_, hids, (fin _ hit).1, hi.pos⟩, (fin _ hit).2⟩
      · intro b' hb'; simp at hb'; subst hb'; exact hone
      · intro b' hb'; simp at hb'; subst hb'
        have := hi.pos; simp [Page.size, honel]; omega

/-! ### look-ups by key -/

theorem find_map_enc (c : Codec V S) (l : List (K × V)) (k : K) :
    (l.map (encItem c)).find? (fun e => e.1 = k) = (l.find? (fun e => e.1 = k)).map (encItem c) := by
  induction l with
  | nil => rfl
  | cons a l ih => by_cases h : a.1 = k <;> simp [h, ih, encItem]

theorem find_eItem (l : List (Entry K S)) (k : K) :
    (l.map eItem).find? (fun e => e.1 = k) = (l.find? (fun e => e.key = k)).map eItem := by
  induction l with
  | nil => rfl
  | cons a l ih => by_cases h : a.key = k <;> simp [h, ih, eItem]

theorem find_rItem (l : List (Rec K S)) (k : K) :
    (l.map rItem).find? (fun e => e.1 = k) = (l.find? (fun e => e.key = k)).map rItem := by
  induction l with
  | nil => rfl
  | cons a l ih => by_cases h : a.key = k <;> simp [h, ih, rItem]

theorem find_none_of_not_mem {l : List (K × S)} {k : K} (h : k ∉ l.map Prod.fst) :
    l.find? (fun e => e.1 = k) = none := by
  rw [List.find?_eq_none]
  intro x hx
  simp only [decide_eq_true_eq]
  intro e
  exact h (List.mem_map.mpr ⟨x, hx, e⟩)

/-- A row found by key is the one found in the ordered table. -/
theorem table_find {t : Table K S} (hn : (t.map Rec.key).Nodup) (k : K) :
    Table.find? t k = (Table.asc t).find? (fun r => r.key = k) := by
  unfold Table.find?
  have key_inj : ∀ {a b : Rec K S}, a ∈ t → b ∈ t → a.key = b.key → a = b :=
    fun ha hb e => List.inj_on_of_nodup_map hn ha hb e
  cases h : List.find? (fun r => r.key = k) t with
  | none =>
    symm
    rw [List.find?_eq_none] at h ⊢
    intro x hx
    exact h x ((asc_perm t).subset hx)
  | some a =>
    have ha := List.mem_of_find?_eq_some h
    have hak : a.key = k := by simpa using List.find?_some h
    cases h2 : (Table.asc t).find? (fun r => r.key = k) with
    | none =>
      rw [List.find?_eq_none] at h2
      exact absurd hak (by simpa using h2 a ((asc_perm t).symm.subset ha))
    | some b =>
      have hb := (asc_perm t).subset (List.mem_of_find?_eq_some h2)
      have hbk : b.key = k := by simpa using List.find?_some h2
      rw [key_inj ha hb (hak.trans hbk.symm)]

theorem db_keys_nodup {q : PQ K S} (h : Inv q) : (q.db.map Rec.key).Nodup := by
  have := h.keys
  rw [items_keys, List.append_assoc, List.nodup_append, List.nodup_append] at this
  exact (((asc_perm q.db).map Rec.key).nodup_iff).mp this.2.1.1

/-- Where a key is found. -/
theorem find_items (q : PQ K S) (k : K) :
    (items q).find? (fun e => e.1 = k) =
      (((q.front.list.find? (fun e => e.key = k)).map eItem).or
        (((Table.asc q.db).find? (fun r => r.key = k)).map rItem)).or
        ((backItems q).find? (fun e => e.1 = k)) := by
  unfold items
  rw [List.find?_append, List.find?_append, find_eItem, find_rItem]

theorem page_find_none {p : Page K S} (hp : PageOk p) {k : K} (h : p.hasEntry k = false) :
    p.list.find? (fun e => e.key = k) = none := by
  rw [hp.has_false] at h
  rw [List.find?_eq_none]
  intro x hx
  simp only [decide_eq_true_eq]
  intro e
  exact h (List.mem_map.mpr ⟨x, hx, e⟩)

theorem page_find_some {p : Page K S} (hp : PageOk p) {k : K} (h : p.hasEntry k = true) :
    ∃ e, p.list.find? (fun e => e.key = k) = some e := by
  rw [hp.has] at h
  cases hf : p.list.find? (fun e => e.key = k) with
  | some e => exact ⟨e, rfl⟩
  | none =>
    rw [List.find?_eq_none] at hf
    obtain ⟨x, hx, e⟩ := List.mem_map.mp h
    exact absurd e (by simpa using hf x hx)

theorem not_in_front_db_of_back {q : PQ K S} (h : Inv q) {b : Page K S} (hb : q.back = some b) {k : K}
    (hk : b.hasEntry k = true) :
    q.front.list.find? (fun e => e.key = k) = none ∧
      (Table.asc q.db).find? (fun r => r.key = k) = none := by
  have hkm : k ∈ b.list.map Entry.key := ((h.backOk b hb).has k).mp hk
  have hn := h.keys
  rw [items_keys, backItems_some hb, eItem_fst, List.nodup_append] at hn
  have hne := hn.2.2
  constructor
  · rw [List.find?_eq_none]
    intro x hx
    simp only [decide_eq_true_eq]
    intro e
    exact hne x.key (List.mem_append_left _ (List.mem_map.mpr ⟨x, hx, rfl⟩)) k hkm e
  · rw [List.find?_eq_none]
    intro x hx
    simp only [decide_eq_true_eq]
    intro e
    exact hne x.key (List.mem_append_right _ (List.mem_map.mpr ⟨x, hx, rfl⟩)) k hkm e

theorem rep_inspect {c : Codec V S} (hc : c.Lawful) {q : PQ K S} {l : List (K × V)} (h : Rep c q l) (k : K) :
    q.inspect c k = .ok (Spec.lookup l k) := by
  obtain ⟨hi, hl⟩ := h
  -- any decoded hit is the value looked up
  have hit : ∀ s : K × S, (items q).find? (fun e => e.1 = k) = some s →
      decode c s.2 = .ok (Spec.lookup l k) := by
    intro s hs
    rw [hl, find_map_enc] at hs
    unfold Spec.lookup
    cases hf : l.find? (fun e => e.1 = k) with
    | none => rw [hf] at hs; simp at hs
    | some a => rw [hf] at hs; simp at hs; subst hs; simp [decode_enc hc]
  have miss : (items q).find? (fun e => e.1 = k) = none → Spec.lookup l k = none := by
    intro hs
    rw [hl, find_map_enc] at hs
    unfold Spec.lookup
    cases hf : l.find? (fun e => e.1 = k) with
    | none => rfl
    | some a => rw [hf] at hs; simp at hs
  have hfi := find_items q k
  unfold PQ.inspect
  by_cases h1 : q.front.hasEntry k = true
  · rw [if_pos h1, hi.frontOk.inspect]
    obtain ⟨e, he⟩ := page_find_some hi.frontOk h1
    rw [he] at hfi ⊢
    exact hit (eItem e) (by rw [hfi]; rfl)
  · rw [if_neg h1]
    have hf0 := page_find_none hi.frontOk (by simpa using h1)
    by_cases h2 : q.backPage.hasEntry k = true
    · rw [if_pos h2, (backPage_ok hi).inspect]
      obtain ⟨e, he⟩ := page_find_some (backPage_ok hi) h2
      rw [he]
      simp only
      cases hb : q.back with
      | none =>
        have hbp : q.backPage = q.front := by simp [PQ.backPage, hb]
        rw [hbp, hf0] at he; cases he
      | some b =>
        have hbp : q.backPage = b := by simp [PQ.backPage, hb]
        rw [hbp] at he h2
        obtain ⟨_, hd⟩ := not_in_front_db_of_back hi hb h2
        apply hit (eItem e)
        rw [hfi, hf0, hd, backItems_some hb, find_eItem, he]; rfl
    · rw [if_neg h2]
      have hb0 : (backItems q).find? (fun e => e.1 = k) = none := by
        cases hb : q.back with
        | none => rw [backItems_none hb]; rfl
        | some b =>
          have hbp : q.backPage = b := by simp [PQ.backPage, hb]
          rw [hbp] at h2
          rw [backItems_some hb, find_eItem, page_find_none (hi.backOk b hb) (by simpa using h2)]; rfl
      rw [table_find (db_keys_nodup hi)]
      rw [hf0, hb0] at hfi
      cases hd : (Table.asc q.db).find? (fun r => r.key = k) with
      | none => rw [hd] at hfi; rw [miss (by rw [hfi]; rfl)]
      | some r =>
        rw [hd] at hfi
        exact hit (rItem r) (by rw [hfi]; rfl)

/-! ### removal by key -/

theorem filter_eItem (l : List (Entry K S)) (k : K) :
    (l.map eItem).filter (fun e => e.1 ≠ k) = (l.filter (fun e => e.key ≠ k)).map eItem := by
  rw [List.filter_map]; rfl

theorem filter_rItem (l : List (Rec K S)) (k : K) :
    (l.map rItem).filter (fun e => e.1 ≠ k) = (l.filter (fun e => e.key ≠ k)).map rItem := by
  rw [List.filter_map]; rfl

theorem filter_enc (c : Codec V S) (l : List (K × V)) (k : K) :
    (l.map (encItem c)).filter (fun e => e.1 ≠ k) = (Spec.without l k).map (encItem c) := by
  rw [List.filter_map]; rfl

theorem filter_noop {l : List (K × S)} {k : K} (h : l.find? (fun e => e.1 = k) = none) :
    l.filter (fun e => e.1 ≠ k) = l := by
  rw [List.filter_eq_self]
  rw [List.find?_eq_none] at h
  intro x hx
  simpa using h x hx

theorem rep_popKey {c : Codec V S} (hc : c.Lawful) {q : PQ K S} {l : List (K × V)} (h : Rep c q l) (k : K) :
    (q.popKey c k).1 = .ok (Spec.lookup l k) ∧ Rep c (q.popKey c k).2 (Spec.without l k) := by
  obtain ⟨hi, hl⟩ := h
  have hit : ∀ s : K × S, (items q).find? (fun e => e.1 = k) = some s →
      decode c s.2 = .ok (Spec.lookup l k) := by
    intro s hs
    rw [hl, find_map_enc] at hs
    unfold Spec.lookup
    cases hf : l.find? (fun e => e.1 = k) with
    | none => rw [hf] at hs; simp at hs
    | some a => rw [hf] at hs; simp at hs; subst hs; simp [decode_enc hc]
  have miss : (items q).find? (fun e => e.1 = k) = none → Spec.lookup l k = none := by
    intro hs
    rw [hl, find_map_enc] at hs
    unfold Spec.lookup
    cases hf : l.find? (fun e => e.1 = k) with
    | none => rfl
    | some a => rw [hf] at hs; simp at hs
  -- content after removing k
  have fin : ∀ q' : PQ K S, items q' = (items q).filter (fun e => e.1 ≠ k) →
      ((items q').map Prod.fst).Nodup ∧ items q' = (Spec.without l k).map (encItem c) := by
    intro q' hit
    constructor
    · rw [hit]
      exact List.Nodup.sublist (List.Sublist.map _ List.filter_sublist) hi.keys
    · rw [hit, hl, filter_enc]
  have hfi := find_items q k
  have hfilt : (items q).filter (fun e => e.1 ≠ k) =
      (q.front.list.map eItem).filter (fun e => e.1 ≠ k) ++
        ((Table.asc q.db).map rItem).filter (fun e => e.1 ≠ k) ++
        (backItems q).filter (fun e => e.1 ≠ k) := by
    unfold items; rw [List.filter_append, List.filter_append]
  unfold PQ.popKey
  by_cases h1 : q.front.hasEntry k = true
  · rw [if_pos h1]
    obtain ⟨e, he⟩ := page_find_some hi.frontOk h1
    have hpe := hi.frontOk.popEntry (c := c) he
    simp only [hpe]
    rw [he] at hfi
    have hfind : (items q).find? (fun e => e.1 = k) = some (eItem e) := by rw [hfi]; rfl
    refine ⟨hit (eItem e) hfind, ?_⟩
    have hkf : k ∈ q.front.list.map Entry.key := (hi.frontOk.has k).mp h1
    have hn := hi.keys
    rw [items_keys, List.append_assoc, List.nodup_append] at hn
    have hdb0 : ((Table.asc q.db).map rItem).find? (fun e => e.1 = k) = none := by
      apply find_none_of_not_mem
      rw [rItem_fst]
      intro hm
      exact hn.2.2 k hkf k (List.mem_append_left _ hm) rfl
    have hb0 : (backItems q).find? (fun e => e.1 = k) = none := by
      apply find_none_of_not_mem
      intro hm
      exact hn.2.2 k hkf k (List.mem_append_right _ hm) rfl
    have hitems : items ({ q with front := ⟨q.front.list.filter (fun x => x.key ≠ k), (q.front.list.filter (fun x => x.key ≠ k)).map (fun e => (e.key, e))⟩ } : PQ K S) =
        (items q).filter (fun e => e.1 ≠ k) := by
      rw [hfilt, filter_noop hdb0, filter_noop hb0, filter_eItem]; rfl
    refine ⟨⟨PageOk.filter hi.frontOk.2 _, hi.backOk, hi.shared, ?_, hi.backSize, hi.ids, (fin _ hitems).1, hi.pos⟩,
      (fin _ hitems).2⟩
    exact Nat.le_trans (List.length_filter_le _ _) hi.frontSize
  · rw [if_neg h1]
    have hf0 := page_find_none hi.frontOk (by simpa using h1)
    have hf0' : (q.front.list.map eItem).find? (fun e => e.1 = k) = none := by rw [find_eItem, hf0]; rfl
    by_cases h2 : q.backPage.hasEntry k = true
    · rw [if_pos h2]
      obtain ⟨e, he⟩ := page_find_some (backPage_ok hi) h2
      have hpe := (backPage_ok hi).popEntry (c := c) he
      simp only [hpe]
      cases hb : q.back with
      | none =>
        have hbp : q.backPage = q.front := by simp [PQ.backPage, hb]
        rw [hbp, hf0] at he; cases he
      | some b =>
        have hbp : q.backPage = b := by simp [PQ.backPage, hb]
        rw [hbp] at he h2
        obtain ⟨_, hd⟩ := not_in_front_db_of_back hi hb h2
        have hd' : ((Table.asc q.db).map rItem).find? (fun e => e.1 = k) = none := by
          rw [find_rItem, hd]; rfl
        refine ⟨hit (eItem e) (by rw [hfi, hf0, hd, backItems_some hb, find_eItem, he]; rfl), ?_⟩
        simp only [PQ.setBackPage, hb, hbp]
        have hitems : items ({ q with back := some ⟨b.list.filter (fun x => x.key ≠ k), (b.list.filter (fun x => x.key ≠ k)).map (fun e => (e.key, e))⟩ } : PQ K S) =
            (items q).filter (fun e => e.1 ≠ k) := by
          rw [hfilt, filter_noop hd', filter_noop hf0', backItems_some hb, filter_eItem]; rfl
        refine ⟨⟨hi.frontOk, ?_, by simp, hi.frontSize, ?_, hi.ids, (fin _ hitems).1, hi.pos⟩,
          (fin _ hitems).2⟩
        · intro b' hb'; simp only [Option.some.injEq] at hb'; subst hb'
          exact PageOk.filter (hi.backOk b hb).2 _
        · intro b' hb'; simp only [Option.some.injEq] at hb'; subst hb'
          exact Nat.le_trans (List.length_filter_le _ _) (hi.backSize b hb)
    · rw [if_neg h2]
      have hb0 : (backItems q).find? (fun e => e.1 = k) = none := by
        cases hb : q.back with
        | none => rw [backItems_none hb]; rfl
        | some b =>
          have hbp : q.backPage = b := by simp [PQ.backPage, hb]
          rw [hbp] at h2
          rw [backItems_some hb, find_eItem, page_find_none (hi.backOk b hb) (by simpa using h2)]; rfl
      rw [table_find (db_keys_nodup hi)]
      rw [hf0, hb0] at hfi
      cases hd : (Table.asc q.db).find? (fun r => r.key = k) with
      | none =>
        rw [hd] at hfi
        have hnone : (items q).find? (fun e => e.1 = k) = none := by rw [hfi]; rfl
        rw [miss hnone]
        refine ⟨rfl, hi, ?_⟩
        rw [← (fin q (filter_noop hnone).symm).2]
      | some r =>
        rw [hd] at hfi
        refine ⟨hit (rItem r) (by rw [hfi]; rfl), ?_⟩
        have hrk : r.key = k := by simpa using List.find?_some hd
        have hrm : r ∈ q.db := (asc_perm q.db).subset (List.mem_of_find?_eq_some hd)
        have hdel : Table.deleteIds q.db [r.id] = q.db.filter (fun x => x.key ≠ k) := by
          unfold Table.deleteIds
          apply List.filter_congr
          intro x hx
          have : x.id = r.id ↔ x.key = k := by
            constructor
            · intro e; rw [id_inj hi.ids hx hrm e]; exact hrk
            · intro e; rw [List.inj_on_of_nodup_map (db_keys_nodup hi) hx hrm (e.trans hrk.symm)]
          simp [this]
        have hitems : items ({ q with db := Table.deleteIds q.db [r.id] } : PQ K S) =
            (items q).filter (fun e => e.1 ≠ k) := by
          rw [hfilt, filter_noop hf0', filter_noop hb0, filter_rItem, ← asc_filter hi.ids, ← hdel]; rfl
        refine ⟨⟨hi.frontOk, hi.backOk, ?_, hi.frontSize, hi.backSize, nodup_deleteIds hi.ids _, (fin _ hitems).1, hi.pos⟩,
          (fin _ hitems).2⟩
        intro hn
        have := hi.shared hn
        rw [this] at hrm; cases hrm

/-! ### clear -/

theorem clear_db (q : PQ K S) : q.clear.db = [] := by
  simp only [PQ.clear, List.filter_filter]
  rw [List.filter_eq_nil_iff]
  intro a _
  simp
  omega

theorem rep_clear {c : Codec V S} {q : PQ K S} {l : List (K × V)} (h : Rep c q l) :
    Rep c q.clear [] := by
  have hdb := clear_db q
  have hit : items q.clear = [] := by
    simp only [items, hdb, asc_nil]
    simp [PQ.clear, Page.empty, backItems]
  refine ⟨⟨PageOk.empty, by simp [PQ.clear], fun _ => hdb, by simp [PQ.clear, Page.empty, Page.size],
    by simp [PQ.clear], by rw [hdb]; simp, by rw [hit]; simp, h.1.pos⟩, hit⟩

/-! ### listing -/

theorem firstKeys_eq (q : PQ K S) (n : Int) :
    q.firstKeys n = (q.front.list.map Entry.key).take n.toNat := by
  unfold PQ.firstKeys Page.firstKeys Page.size
  split
  · split
    · rw [List.take_of_length_le]; simp; omega
    · rw [List.map_take]
  · have : q.front.list = [] := by apply List.length_eq_zero_iff.mp; omega
    simp [this]

theorem firstKeys_prefix {c : Codec V S} {q : PQ K S} {l : List (K × V)} (h : Rep c q l) (n : Int) :
    q.firstKeys n = ((Spec.keys l).take n.toNat).take q.front.size := by
  have hk : Spec.keys l = (items q).map Prod.fst := by rw [h.2, encItem_fst]
  rw [firstKeys_eq, hk, items_keys, List.append_assoc, List.take_take, Nat.min_comm, ← List.take_take]
  congr 1
  rw [List.take_append_of_le_length (by simp [Page.size])]
  rw [List.take_of_length_le (by simp [Page.size])]

end Verif.Queue
