import Verif.Queue.Refine

/-! Shutting down, opening and crashing, in terms of the abstract content. -/

set_option linter.unusedSectionVars false

namespace Verif.Queue

open Verif.Py Verif.Queue.Spec

variable {K V S : Type} [DecidableEq K]

/-- A table that holds the list `l` in order of record id. -/
structure Stores (c : Codec V S) (t : Table K S) (l : List (K × V)) : Prop where
  ids : (t.map Rec.id).Nodup
  keys : (t.map Rec.key).Nodup
  content : (Table.asc t).map rItem = l.map (encItem c)

theorem Stores.nil (c : Codec V S) : Stores c ([] : Table K S) [] := ⟨by simp, by simp, rfl⟩

/-- Content after opening a table that holds `l`, page size `p`. -/
def reopened (p : Nat) (l : List (K × V)) : List (K × V) :=
  l.take p ++ (l.drop p).take ((l.drop p).length - p) ++ (l.drop p).reverse.take p

theorem reopened_perm (p : Nat) (l : List (K × V)) : (reopened p l).Perm l := by
  unfold reopened
  have h1 : ((l.drop p).reverse.take p).Perm ((l.drop p).drop ((l.drop p).length - p)) := by
    have e : (l.drop p).drop ((l.drop p).length - p) = ((l.drop p).reverse.take p).reverse := by
      rw [List.reverse_take, List.reverse_reverse, List.length_reverse]
    rw [e]; exact (List.reverse_perm _).symm
  have h2 : ((l.drop p).take ((l.drop p).length - p) ++ (l.drop p).reverse.take p).Perm (l.drop p) := by
    refine (List.Perm.append_left _ h1).trans ?_
    rw [List.take_append_drop]
  rw [List.append_assoc]
  refine (List.Perm.append_left _ h2).trans ?_
  rw [List.take_append_drop]

theorem reopened_short {p : Nat} {l : List (K × V)} (h : l.length ≤ p + 1) (hp : 0 < p) :
    reopened p l = l := by
  unfold reopened
  have hl : (l.drop p).length ≤ 1 := by simp; omega
  have e1 : (l.drop p).length - p = 0 := by omega
  rw [e1]
  have e2 : (l.drop p).reverse.take p = l.drop p := by
    rw [List.take_of_length_le (by simp; omega)]
    match h2 : l.drop p with
    | [] => rfl
    | [a] => rfl
    | a :: b :: r => rw [h2] at hl; simp at hl
  rw [e2]
  simp

theorem initFront_spec {t : Table K S} (p : Nat) (hids : (t.map Rec.id).Nodup)
    (hkeys : (t.map Rec.key).Nodup) :
    let q := (PQ.fresh p t).initFront
    q.pageSize = p ∧ q.back = none ∧ PageOk q.front ∧
      q.front.list = ((Table.asc t).take p).map (fun r => ⟨r.key, r.str⟩) ∧
      (q.db.map Rec.id).Nodup ∧ Table.asc q.db = (Table.asc t).drop p ∧ (∀ r ∈ q.db, r ∈ t) := by
  by_cases ht : t.length > 0
  · have hq : (PQ.fresh p t).initFront = (PQ.fresh p t).loadFront := by
      exact if_pos ht
    have hk : ((Page.empty : Page K S).list.map Entry.key ++ ((Table.asc t).take p).map Rec.key).Nodup := by
      simp only [Page.empty, List.map_nil, List.nil_append]
      exact List.Nodup.sublist (List.Sublist.map _ (List.take_sublist _ _))
        ((((asc_perm t).map Rec.key).nodup_iff).mpr hkeys)
    obtain ⟨hok, hlist⟩ := pushRecs_ok Page.empty _ PageOk.empty hk
    rw [hq]
    refine ⟨rfl, rfl, hok, ?_, nodup_deleteIds hids _, asc_delete_take hids _, ?_⟩
    · have : (PQ.fresh p t).loadFront.front.list = _ := hlist
      rw [this]; rfl
    · intro r hr
      exact (List.mem_filter.mp hr).1
  · have ht' : t = [] := by apply List.length_eq_zero_iff.mp; omega
    subst ht'
    refine ⟨rfl, rfl, PageOk.empty, by simp [PQ.initFront, PQ.fresh, asc_nil, Page.empty],
      by simp [PQ.initFront, PQ.fresh], by simp [PQ.initFront, PQ.fresh, asc_nil], ?_⟩
    intro r hr; exact hr

theorem rep_open {c : Codec V S} {t : Table K S} {l : List (K × V)} (h : Stores c t l) {p : Nat}
    (hp : 0 < p) : Rep c (PQ.open p t) (reopened p l) ∧ (PQ.open p t).pageSize = p ∧
      Stores c (PQ.fresh p t).initFront.db (l.drop p) ∧
      Stores c (PQ.open p t).db ((l.drop p).take ((l.drop p).length - p)) := by
  obtain ⟨hps, hbk, hfok, hfl, hids1, hasc1, hsub1⟩ := initFront_spec p h.ids h.keys
  have hkeysA : ((Table.asc t).map Rec.key).Nodup := (((asc_perm t).map Rec.key).nodup_iff).mpr h.keys
  have hlen : (Table.asc t).length = l.length := by
    have := congrArg List.length h.content; simpa using this
  have htake : ∀ n, ((Table.asc t).take n).map rItem = (l.take n).map (encItem c) := by
    intro n; rw [List.map_take, h.content, List.map_take]
  have hdrop : ((Table.asc t).drop p).map rItem = (l.drop p).map (encItem c) := by
    rw [List.map_drop, h.content, List.map_drop]
  have hkeys1 : ((PQ.fresh p t).initFront.db.map Rec.key).Nodup := by
    have : ((Table.asc (PQ.fresh p t).initFront.db).map Rec.key).Nodup := by
      rw [hasc1]; exact List.Nodup.sublist (List.Sublist.map _ (List.drop_sublist _ _)) hkeysA
    exact (((asc_perm _).map Rec.key).nodup_iff).mp this
  have hst1 : Stores c (PQ.fresh p t).initFront.db (l.drop p) := ⟨hids1, hkeys1, by rw [hasc1, hdrop]⟩
  have hlkeys : (Spec.keys l).Nodup := by
    have := hkeysA
    rw [← rItem_fst, h.content, encItem_fst] at this; exact this
  have hrk : (Spec.keys (reopened p l)).Nodup :=
    ((reopened_perm p l).map Prod.fst).nodup_iff.mpr hlkeys
  -- a final state with the right content is fine
  have hfrontsize : (PQ.fresh p t).initFront.front.size ≤ p := by
    unfold Page.size; rw [hfl]; simp
  by_cases hdb : (PQ.fresh p t).initFront.db.length > 0
  · have ho : PQ.open p t = ({ (PQ.fresh p t).initFront with back := some Page.empty } : PQ K S).loadBack := by
      unfold PQ.open PQ.initBack; exact if_pos hdb
    rw [ho]
    generalize hq1 : (PQ.fresh p t).initFront = q1 at *
    have hkk : ((Page.empty : Page K S).list.map Entry.key ++ ((Table.desc q1.db).take q1.pageSize).map Rec.key).Nodup := by
      simp only [Page.empty, List.map_nil, List.nil_append]
      exact List.Nodup.sublist (List.Sublist.map _ (List.take_sublist _ _))
        ((((desc_perm q1.db).map Rec.key).nodup_iff).mpr hkeys1)
    obtain ⟨hbok, hblist⟩ := pushRecs_ok Page.empty _ PageOk.empty hkk
    rw [desc_eq hids1, hasc1, hps] at hblist
    have hasc2 : Table.asc (Table.deleteIds q1.db (((Table.desc q1.db).take q1.pageSize).map Rec.id)) =
        ((Table.asc t).drop p).take (((Table.asc t).drop p).length - p) := by
      rw [asc_delete_desc hids1, hasc1, hps]
    have hst2 : Stores c (Table.deleteIds q1.db (((Table.desc q1.db).take q1.pageSize).map Rec.id))
        ((l.drop p).take ((l.drop p).length - p)) := by
      refine ⟨nodup_deleteIds hids1 _, List.Nodup.sublist (List.Sublist.map _ List.filter_sublist) hkeys1, ?_⟩
      rw [hasc2, List.map_take, hdrop, List.map_take]
      congr 1
      simp [hlen]
    have hform : ({ q1 with back := some Page.empty } : PQ K S).loadBack =
        { pageSize := q1.pageSize, front := q1.front,
          back := some (PQ.pushRecs Page.empty ((Table.desc q1.db).take q1.pageSize)),
          db := Table.deleteIds q1.db (((Table.desc q1.db).take q1.pageSize).map Rec.id) } := rfl
    have hbi : (PQ.pushRecs Page.empty ((Table.desc q1.db).take q1.pageSize)).list.map eItem =
        ((l.drop p).reverse.take p).map (encItem c) := by
      rw [desc_eq hids1, hasc1, hps, hblist]
      simp only [Page.empty, List.nil_append, recsToEntries_items]
      rw [List.map_take, List.map_reverse, hdrop, List.map_take, List.map_reverse]
    rw [hform]
    have hit : items (PQ.mk q1.pageSize q1.front
          (some (PQ.pushRecs Page.empty ((Table.desc q1.db).take q1.pageSize)))
          ( Table.deleteIds q1.db (((Table.desc q1.db).take q1.pageSize).map Rec.id))) =
        (reopened p l).map (encItem c) := by
      simp only [items, backItems, hbi, hst2.content, hfl, recsToEntries_items, htake]
      simp [reopened]
    refine ⟨⟨⟨hfok, ?_, by simp, by simpa [hps] using hfrontsize, ?_, hst2.ids, ?_, by simpa [hps] using hp⟩, hit⟩,
      hps, hst1, hst2⟩
    · intro b hb; simp only [Option.some.injEq] at hb; subst hb; exact hbok
    · intro b hb; simp only [Option.some.injEq] at hb; subst hb
      unfold Page.size
      have := congrArg List.length hbi
      simp only [List.length_map] at this
      rw [this, hps]; simp
    · rw [hit, encItem_fst]; exact hrk
  · have ho : PQ.open p t = (PQ.fresh p t).initFront := by
      unfold PQ.open PQ.initBack; exact if_neg hdb
    rw [ho]
    have hdb' : (PQ.fresh p t).initFront.db = [] := by apply List.length_eq_zero_iff.mp; omega
    have hl0 : l.drop p = [] := by
      rw [hdb', asc_nil] at hasc1
      have := congrArg List.length hasc1
      simp [hlen] at this
      rw [List.drop_eq_nil_iff]; omega
    have hro : reopened p l = l.take p := by simp [reopened, hl0]
    have hit : items (PQ.fresh p t).initFront = (reopened p l).map (encItem c) := by
      rw [hro]
      simp only [items, hfl, recsToEntries_items, htake, hdb', asc_nil, backItems, hbk]
      simp
    refine ⟨⟨⟨hfok, by simp [hbk], fun _ => hdb', by simpa [hps] using hfrontsize, by simp [hbk], hids1, ?_, by simpa [hps] using hp⟩, hit⟩,
      hps, hst1, ?_⟩
    · rw [hit, encItem_fst]; exact hrk
    · rw [hl0] at hst1 ⊢; simpa using hst1

/-! ### shutting down -/

theorem list_split3 {c : Codec V S} {q : PQ K S} {l : List (K × V)} (h : Rep c q l) :
    ∃ f m b, l = f ++ m ++ b ∧ q.front.list.map eItem = f.map (encItem c) ∧
      (Table.asc q.db).map rItem = m.map (encItem c) ∧ backItems q = b.map (encItem c) := by
  have hl := h.2
  unfold items at hl
  obtain ⟨fm, b, e1, e2, e3⟩ := List.append_eq_map_iff.mp hl
  obtain ⟨f, m, e4, e5, e6⟩ := List.append_eq_map_iff.mp e2.symm
  exact ⟨f, m, b, by rw [e1, e4], e5.symm, e6.symm, e3.symm⟩

theorem rep_db {c : Codec V S} {q : PQ K S} {l : List (K × V)} (h : Rep c q l) :
    ∃ f m b, l = f ++ m ++ b ∧ Stores c q.db m ∧ f.length ≤ q.pageSize ∧ b.length ≤ q.pageSize := by
  obtain ⟨f, m, b, e, hf, hm, hb⟩ := list_split3 h
  refine ⟨f, m, b, e, ⟨h.1.ids, db_keys_nodup h.1, hm⟩, ?_, ?_⟩
  · have := congrArg List.length hf
    simp at this
    have h2 := h.1.frontSize
    unfold Page.size at h2; omega
  · have := congrArg List.length hb
    cases hbk : q.back with
    | none => rw [backItems_none hbk] at this; simp at this; omega
    | some p =>
      rw [backItems_some hbk] at this; simp at this
      have h2 := h.1.backSize p hbk
      unfold Page.size at h2; omega

/-- writing the front page -/
theorem writeFront_spec {q : PQ K S} (hids : (q.db.map Rec.id).Nodup)
    (hk : (q.front.list.map Entry.key ++ (Table.asc q.db).map Rec.key).Nodup) :
    ∃ t, q.writeFront = (.ok (), { q with db := t, front := Page.empty, back := some q.backPage }) ∧
      (t.map Rec.id).Nodup ∧ (t.map Rec.key).Nodup ∧
      (Table.asc t).map rItem = q.front.list.map eItem ++ (Table.asc q.db).map rItem := by
  obtain ⟨h1, h2⟩ := frontRows hids q.front.list.reverse
  have hkk : ((q.db ++ PQ.mkRecs (-1) (Table.minId q.db - 1) q.front.list.reverse).map Rec.key).Nodup := by
    rw [List.map_append, mkRecs_keys, List.map_reverse]
    refine (List.Perm.nodup_iff ?_).mp hk
    refine List.perm_append_comm.trans ?_
    exact ((asc_perm q.db).map Rec.key).append (List.reverse_perm _).symm
  refine ⟨_, ?_, h1, hkk, ?_⟩
  · unfold PQ.writeFront Table.insertAll
    simp only
    rw [if_pos ⟨h1, hkk⟩]
  · rw [h2, List.map_append, List.map_reverse, mkRecs_items, List.map_reverse, List.reverse_reverse]

/-- writing the back page -/
theorem writeBack_spec {q : PQ K S} {b : Page K S} (hb : q.back = some b) (hids : (q.db.map Rec.id).Nodup)
    (hk : ((Table.asc q.db).map Rec.key ++ b.list.map Entry.key).Nodup) :
    ∃ t, q.writeBack = (.ok (), { q with db := t, back := some Page.empty }) ∧
      (t.map Rec.id).Nodup ∧ (t.map Rec.key).Nodup ∧
      (Table.asc t).map rItem = (Table.asc q.db).map rItem ++ b.list.map eItem := by
  have hbp : q.backPage = b := by simp [PQ.backPage, hb]
  obtain ⟨h1, h2⟩ := backRows hids b.list
  have hkk : ((q.db ++ PQ.mkRecs 1 (Table.maxId q.db + 1) b.list).map Rec.key).Nodup := by
    rw [List.map_append, mkRecs_keys]
    exact (List.Perm.nodup_iff (((asc_perm q.db).map Rec.key).append_right _)).mp hk
  refine ⟨_, ?_, h1, hkk, ?_⟩
  · unfold PQ.writeBack Table.insertAll
    rw [hbp]
    simp only
    rw [if_pos ⟨h1, hkk⟩]
  · rw [h2, List.map_append, mkRecs_items]

theorem rep_shutDown {c : Codec V S} {q : PQ K S} {l : List (K × V)} (h : Rep c q l) :
    q.shutDown.1 = .ok () ∧ Stores c q.shutDown.2.db l ∧
      ∃ f b, l = f ++ b ∧ b.length ≤ q.pageSize ∧
        Stores c (if q.front.size > 0 then q.writeFront.2 else q).db f := by
  obtain ⟨f, m, b, e, hf, hm, hb⟩ := list_split3 h
  obtain ⟨f', m', b', e', hst', hf', hb'⟩ := rep_db h
  have hi := h.1
  have hk := hi.keys
  rw [items_keys] at hk
  have hk1 := (List.nodup_append.mp hk).1
  -- the state after the (optional) first write
  have first : ∃ t, (if q.front.size > 0 then q.writeFront else (.ok (), q)) =
        (.ok (), { q with db := t, front := Page.empty, back := if q.front.size > 0 then some q.backPage else q.back }) ∧
      Stores c t (f ++ m) := by
    by_cases hs : q.front.size > 0
    · obtain ⟨t, h1, h2, h3, h4⟩ := writeFront_spec hi.ids hk1
      refine ⟨t, by rw [if_pos hs, h1, if_pos hs], h2, h3, ?_⟩
      rw [h4, hf, hm, List.map_append]
    · have hfl : q.front.list = [] := by
        apply List.length_eq_zero_iff.mp; simpa [Page.size] using hs
      have hfe : q.front = Page.empty := by
        have h1 := hi.frontOk.1
        cases hq : q.front; rw [hq] at hfl h1; simp at hfl h1; subst hfl; simp [h1, Page.empty]
      refine ⟨q.db, ?_, hi.ids, db_keys_nodup hi, ?_⟩
      · rw [if_neg hs, if_neg hs]
        cases q; simp_all
      · rw [hfl] at hf
        have : f = [] := by simpa using hf.symm
        rw [this, hm]; rfl
  obtain ⟨t, ht, hst⟩ := first
  have hmid : (if q.front.size > 0 then q.writeFront.2 else q).db = t := by
    by_cases hs : q.front.size > 0
    · rw [if_pos hs] at ht ⊢; rw [ht]
    · rw [if_neg hs] at ht ⊢
      have := congrArg (fun x => x.2.db) ht
      simpa using this
  have hblen : b.length ≤ q.pageSize := by
    have := congrArg List.length hb
    cases hbk : q.back with
    | none => rw [backItems_none hbk] at this; simp at this; omega
    | some p =>
      rw [backItems_some hbk] at this; simp at this
      have h2 := h.1.backSize p hbk
      unfold Page.size at h2; omega
  cases hbk : q.back with
  | none =>
    have hb0 : b = [] := by rw [backItems_none hbk] at hb; simpa using hb.symm
    subst hb0
    have hsd : q.shutDown = (if q.front.size > 0 then q.writeFront else (.ok (), q)) := by
      unfold PQ.shutDown; rw [hbk]
    rw [hsd, ht]
    rw [List.append_nil] at e
    subst e
    exact ⟨rfl, hst, f ++ m, [], by simp, by simp, by rw [hmid]; exact hst⟩
  | some bp =>
    have hbpage : q.backPage = bp := by simp [PQ.backPage, hbk]
    rw [hbk, hbpage] at ht
    simp only [ite_self] at ht
    have hsd : q.shutDown =
        (if ({ q with db := t, front := Page.empty, back := some bp } : PQ K S).backPage.size > 0
          then ({ q with db := t, front := Page.empty, back := some bp } : PQ K S).writeBack
          else (.ok (), { q with db := t, front := Page.empty, back := some bp })) := by
      unfold PQ.shutDown; rw [hbk]; simp only; rw [ht]
    rw [hsd]
    have hkey2 : ((Table.asc t).map Rec.key ++ bp.list.map Entry.key).Nodup := by
      have e1 : (Table.asc t).map Rec.key = ((f ++ m).map (encItem c)).map Prod.fst := by
        rw [← hst.content, rItem_fst]
      have e2 : bp.list.map Entry.key = (b.map (encItem c)).map Prod.fst := by
        rw [← hb, backItems_some hbk, eItem_fst]
      rw [e1, e2, ← List.map_append, ← List.map_append, ← e, encItem_fst]
      exact h.nodup
    obtain ⟨t2, g1, g2, g3, g4⟩ := writeBack_spec
      (q := { q with db := t, front := Page.empty, back := some bp }) rfl hst.ids hkey2
    have hbs : ({ q with db := t, front := Page.empty, back := some bp } : PQ K S).backPage = bp := rfl
    rw [hbs]
    by_cases hs2 : bp.size > 0
    · rw [if_pos hs2, g1]
      refine ⟨rfl, ⟨g2, g3, ?_⟩, f ++ m, b, by rw [e], hblen, by rw [hmid]; exact hst⟩
      rw [g4, hst.content, ← backItems_some hbk, hb, e, List.map_append (l₁ := f ++ m)]
    · rw [if_neg hs2]
      have hb0 : b = [] := by
        have hl0 : bp.list = [] := by apply List.length_eq_zero_iff.mp; simpa [Page.size] using hs2
        rw [backItems_some hbk, hl0] at hb
        simpa using hb.symm
      rw [hb0, List.append_nil] at e
      exact ⟨rfl, by rw [e]; exact hst, f ++ m, [], by rw [e]; simp, by simp, by rw [hmid]; exact hst⟩

end Verif.Queue
