import Verif.Queue.Model
import Verif.Queue.Spec
import Verif.Py.DictLemmas

/-! Helper lemmas for the queue properties: sorting, pages, invariant, refinement. -/

set_option linter.unusedSectionVars false

namespace Verif.Queue

open Verif.Py Verif.Queue.Spec

variable {K V S : Type} [DecidableEq K]

/-! ## Sorting by record id -/

abbrev leId (a b : Rec K S) : Prop := a.id ≤ b.id

theorem asc_perm (t : Table K S) : (Table.asc t).Perm t := List.perm_insertionSort _ t

theorem desc_perm (t : Table K S) : (Table.desc t).Perm t := List.perm_insertionSort _ t

instance : Std.Total (α := Rec K S) (fun a b => a.id ≤ b.id) := ⟨fun a b => Int.le_total a.id b.id⟩
instance : IsTrans (Rec K S) (fun a b => a.id ≤ b.id) := ⟨fun _ _ _ h g => Int.le_trans h g⟩
instance : Std.Total (α := Rec K S) (fun a b => b.id ≤ a.id) := ⟨fun a b => Int.le_total b.id a.id⟩
instance : IsTrans (Rec K S) (fun a b => b.id ≤ a.id) := ⟨fun _ _ _ h g => Int.le_trans g h⟩

theorem asc_sorted (t : Table K S) : (Table.asc t).Pairwise (fun a b => a.id ≤ b.id) :=
  List.pairwise_insertionSort _ t

theorem desc_sorted (t : Table K S) : (Table.desc t).Pairwise (fun a b => b.id ≤ a.id) :=
  List.pairwise_insertionSort _ t

theorem id_inj {t : Table K S} (h : (t.map Rec.id).Nodup) {a b : Rec K S} (ha : a ∈ t) (hb : b ∈ t)
    (e : a.id = b.id) : a = b := List.inj_on_of_nodup_map h ha hb e

/-- Two id-sorted arrangements of one table are equal. -/
theorem sorted_unique {t l₁ l₂ : List (Rec K S)} (hn : (t.map Rec.id).Nodup)
    (p₁ : l₁.Perm t) (p₂ : l₂.Perm t) (s₁ : l₁.Pairwise (fun a b => a.id ≤ b.id))
    (s₂ : l₂.Pairwise (fun a b => a.id ≤ b.id)) : l₁ = l₂ := by
  apply List.Perm.eq_of_pairwise _ s₁ s₂ (p₁.trans p₂.symm)
  intro a b ha hb h1 h2
  exact id_inj hn (p₁.subset ha) (p₂.subset hb) (Int.le_antisymm h1 h2)

theorem asc_nodup {t : Table K S} (hn : (t.map Rec.id).Nodup) : ((Table.asc t).map Rec.id).Nodup :=
  ((asc_perm t).map Rec.id).nodup_iff.mpr hn

theorem desc_eq {t : Table K S} (hn : (t.map Rec.id).Nodup) :
    Table.desc t = (Table.asc t).reverse := by
  have : (Table.desc t).reverse = Table.asc t := by
    apply sorted_unique hn ((List.reverse_perm _).trans (desc_perm t)) (asc_perm t) _ (asc_sorted t)
    rw [List.pairwise_reverse]
    exact desc_sorted t
  rw [← this, List.reverse_reverse]

theorem asc_filter {t : Table K S} (hn : (t.map Rec.id).Nodup) (p : Rec K S → Bool) :
    Table.asc (t.filter p) = (Table.asc t).filter p := by
  have hn' : ((t.filter p).map Rec.id).Nodup :=
    List.Nodup.sublist (List.Sublist.map _ List.filter_sublist) hn
  exact sorted_unique hn' (asc_perm _) ((asc_perm t).filter p) (asc_sorted _)
    ((asc_sorted t).filter p)

theorem nodup_deleteIds {t : Table K S} (hn : (t.map Rec.id).Nodup) (ids : List Int) :
    ((Table.deleteIds t ids).map Rec.id).Nodup :=
  List.Nodup.sublist (List.Sublist.map _ List.filter_sublist) hn

theorem filter_drop_take {l : List (Rec K S)} (hn : (l.map Rec.id).Nodup) (n : Nat) :
    l.filter (fun r => r.id ∉ (l.take n).map Rec.id) = l.drop n := by
  have h : l = l.take n ++ l.drop n := (List.take_append_drop n l).symm
  conv_lhs => arg 2; rw [h]
  rw [List.filter_append]
  have h1 : (l.take n).filter (fun r => r.id ∉ (l.take n).map Rec.id) = [] := by
    rw [List.filter_eq_nil_iff]
    intro a ha
    have : a.id ∈ (l.take n).map Rec.id := List.mem_map.mpr ⟨a, ha, rfl⟩
    simpa using this
  have h2 : (l.drop n).filter (fun r => r.id ∉ (l.take n).map Rec.id) = l.drop n := by
    rw [List.filter_eq_self]
    intro a ha
    rw [h, List.map_append, List.nodup_append] at hn
    simp only [decide_eq_true_eq]
    intro hm
    exact hn.2.2 _ hm _ (List.mem_map.mpr ⟨a, ha, rfl⟩) rfl
  rw [h1, h2]; rfl

/-- Deleting the ids of the first `n` rows leaves the rest, in order. -/
theorem asc_delete_take {t : Table K S} (hn : (t.map Rec.id).Nodup) (n : Nat) :
    Table.asc (Table.deleteIds t (((Table.asc t).take n).map Rec.id)) = (Table.asc t).drop n := by
  unfold Table.deleteIds
  rw [asc_filter hn, filter_drop_take (asc_nodup hn)]

/-- Deleting the ids of the last `n` rows leaves the rest, in order. -/
theorem asc_delete_desc {t : Table K S} (hn : (t.map Rec.id).Nodup) (n : Nat) :
    Table.asc (Table.deleteIds t (((Table.desc t).take n).map Rec.id)) =
      (Table.asc t).take ((Table.asc t).length - n) := by
  unfold Table.deleteIds
  rw [asc_filter hn, desc_eq hn]
  have hr : ((Table.asc t).reverse.map Rec.id).Nodup := by
    rw [List.map_reverse, List.nodup_reverse]; exact asc_nodup hn
  have := filter_drop_take hr n
  have h2 := congrArg List.reverse this
  rw [← List.filter_reverse, List.reverse_reverse] at h2
  rw [h2, List.reverse_drop, List.length_reverse, List.reverse_reverse]

theorem length_asc (t : Table K S) : (Table.asc t).length = t.length := (asc_perm t).length_eq

/-! ## Record ids written -/

theorem foldl_max_ge (l : List (Rec K S)) (m : Int) :
    m ≤ l.foldl (fun m x => max m x.id) m ∧ ∀ r ∈ l, r.id ≤ l.foldl (fun m x => max m x.id) m := by
  induction l generalizing m with
  | nil => simp
  | cons a l ih =>
    have := ih (max m a.id)
    simp only [List.foldl_cons]
    refine ⟨by omega, ?_⟩
    intro r hr
    rcases List.mem_cons.mp hr with h | h
    · subst h; omega
    · exact this.2 r h

theorem foldl_min_le (l : List (Rec K S)) (m : Int) :
    l.foldl (fun m x => min m x.id) m ≤ m ∧ ∀ r ∈ l, l.foldl (fun m x => min m x.id) m ≤ r.id := by
  induction l generalizing m with
  | nil => simp
  | cons a l ih =>
    have := ih (min m a.id)
    simp only [List.foldl_cons]
    refine ⟨by omega, ?_⟩
    intro r hr
    rcases List.mem_cons.mp hr with h | h
    · subst h; omega
    · exact this.2 r h

theorem le_maxId {t : Table K S} {r : Rec K S} (h : r ∈ t) : r.id ≤ Table.maxId t := by
  cases t with
  | nil => cases h
  | cons a l =>
    have := foldl_max_ge l a.id
    rcases List.mem_cons.mp h with h | h
    · subst h; exact this.1
    · exact this.2 r h

theorem minId_le {t : Table K S} {r : Rec K S} (h : r ∈ t) : Table.minId t ≤ r.id := by
  cases t with
  | nil => cases h
  | cons a l =>
    have := foldl_min_le l a.id
    rcases List.mem_cons.mp h with h | h
    · subst h; exact this.1
    · exact this.2 r h

/-- the (key, text) view of entries and records -/
def eItem (e : Entry K S) : K × S := (e.key, e.str)
def rItem (r : Rec K S) : K × S := (r.key, r.str)

theorem mkRecs_items (s i : Int) (l : List (Entry K S)) :
    (PQ.mkRecs s i l).map rItem = l.map eItem := by
  induction l generalizing i with
  | nil => rfl
  | cons a l ih => simp [PQ.mkRecs, ih, rItem, eItem]

theorem mkRecs_keys (s i : Int) (l : List (Entry K S)) :
    (PQ.mkRecs s i l).map Rec.key = l.map Entry.key := by
  induction l generalizing i with
  | nil => rfl
  | cons a l ih => simp [PQ.mkRecs, ih]

theorem mkRecs_up (i : Int) (l : List (Entry K S)) :
    (PQ.mkRecs 1 i l).Pairwise (fun a b => a.id < b.id) ∧ ∀ r ∈ PQ.mkRecs 1 i l, i ≤ r.id := by
  induction l generalizing i with
  | nil => simp [PQ.mkRecs]
  | cons a l ih =>
    have := ih (i + 1)
    simp only [PQ.mkRecs, List.pairwise_cons, List.mem_cons]
    refine ⟨⟨?_, this.1⟩, ?_⟩
    · intro b hb; have := this.2 b hb; show i < b.id; omega
    · rintro r (rfl | h)
      · exact Int.le_refl _
      · have := this.2 r h; omega

theorem mkRecs_down (i : Int) (l : List (Entry K S)) :
    (PQ.mkRecs (-1) i l).Pairwise (fun a b => b.id < a.id) ∧
      ∀ r ∈ PQ.mkRecs (-1) i l, r.id ≤ i := by
  induction l generalizing i with
  | nil => simp [PQ.mkRecs]
  | cons a l ih =>
    have := ih (i + -1)
    simp only [PQ.mkRecs, List.pairwise_cons, List.mem_cons]
    refine ⟨⟨?_, this.1⟩, ?_⟩
    · intro b hb; have := this.2 b hb; show b.id < i; omega
    · rintro r (rfl | h)
      · exact Int.le_refl _
      · have := this.2 r h; omega

theorem nodup_of_up {l : List (Rec K S)} (h : l.Pairwise (fun a b => a.id < b.id)) :
    (l.map Rec.id).Nodup := by
  rw [List.Nodup, List.pairwise_map]
  exact h.imp (fun h => by omega)

theorem nodup_of_down {l : List (Rec K S)} (h : l.Pairwise (fun a b => b.id < a.id)) :
    (l.map Rec.id).Nodup := by
  rw [List.Nodup, List.pairwise_map]
  exact h.imp (fun h => by omega)

/-- Rows of `__write_back_page` are fresh and go to the end. -/
theorem backRows {t : Table K S} (hn : (t.map Rec.id).Nodup) (l : List (Entry K S)) :
    ((t ++ PQ.mkRecs 1 (Table.maxId t + 1) l).map Rec.id).Nodup ∧
      Table.asc (t ++ PQ.mkRecs 1 (Table.maxId t + 1) l) =
        Table.asc t ++ PQ.mkRecs 1 (Table.maxId t + 1) l := by
  obtain ⟨hup, hge⟩ := mkRecs_up (Table.maxId t + 1) l
  have hnod : ((t ++ PQ.mkRecs 1 (Table.maxId t + 1) l).map Rec.id).Nodup := by
    rw [List.map_append, List.nodup_append]
    refine ⟨hn, nodup_of_up hup, ?_⟩
    intro a ha b hb
    obtain ⟨r, hr, rfl⟩ := List.mem_map.mp ha
    obtain ⟨r', hr', rfl⟩ := List.mem_map.mp hb
    have h1 := le_maxId hr
    have h2 := hge r' hr'
    omega
  refine ⟨hnod, ?_⟩
  apply sorted_unique hnod (asc_perm _) ((asc_perm t).append_right _) (asc_sorted _)
  rw [List.pairwise_append]
  refine ⟨asc_sorted t, hup.imp (fun h => by omega), ?_⟩
  intro a ha b hb
  have h1 := le_maxId ((asc_perm t).subset ha)
  have h2 := hge b hb
  omega

/-- Rows of `__write_front_page` are fresh and go to the start. -/
theorem frontRows {t : Table K S} (hn : (t.map Rec.id).Nodup) (l : List (Entry K S)) :
    ((t ++ PQ.mkRecs (-1) (Table.minId t - 1) l).map Rec.id).Nodup ∧
      Table.asc (t ++ PQ.mkRecs (-1) (Table.minId t - 1) l) =
        (PQ.mkRecs (-1) (Table.minId t - 1) l).reverse ++ Table.asc t := by
  obtain ⟨hup, hge⟩ := mkRecs_down (Table.minId t - 1) l
  have hnod : ((t ++ PQ.mkRecs (-1) (Table.minId t - 1) l).map Rec.id).Nodup := by
    rw [List.map_append, List.nodup_append]
    refine ⟨hn, nodup_of_down hup, ?_⟩
    intro a ha b hb
    obtain ⟨r, hr, rfl⟩ := List.mem_map.mp ha
    obtain ⟨r', hr', rfl⟩ := List.mem_map.mp hb
    have h1 := minId_le hr
    have h2 := hge r' hr'
    omega
  refine ⟨hnod, ?_⟩
  apply sorted_unique hnod (asc_perm _) _ (asc_sorted _)
  · rw [List.pairwise_append]
    refine ⟨by rw [List.pairwise_reverse]; exact hup.imp (fun h => by omega), asc_sorted t, ?_⟩
    intro a ha b hb
    have h1 := minId_le ((asc_perm t).subset hb)
    have h2 := hge a (List.mem_reverse.mp ha)
    omega
  · exact (List.perm_append_comm).trans ((asc_perm t).append (List.reverse_perm _))

/-! ## Pages -/

/-- The dict of a page mirrors its list. -/
def PageOk (p : Page K S) : Prop :=
  p.dict = p.list.map (fun e => (e.key, e)) ∧ (p.list.map Entry.key).Nodup

theorem PageOk.empty : PageOk (Page.empty : Page K S) := ⟨rfl, by simp [Page.empty]⟩

theorem keys_mirror (l : List (Entry K S)) :
    Dict.keys (l.map (fun e => (e.key, e))) = l.map Entry.key := by
  simp [Dict.keys, Function.comp_def]

theorem PageOk.keys {p : Page K S} (h : PageOk p) : Dict.keys p.dict = p.list.map Entry.key := by
  rw [h.1, keys_mirror]

theorem PageOk.append {p : Page K S} (h : PageOk p) {e : Entry K S}
    (hk : e.key ∉ p.list.map Entry.key) : PageOk (p.append e) := by
  constructor
  · simp only [Page.append]
    rw [Dict.set_of_not_mem _ _ _ (by rw [h.keys]; exact hk), h.1]
    simp
  · simp only [Page.append, List.map_append, List.nodup_append]
    refine ⟨h.2, by simp, ?_⟩
    intro a ha b hb
    simp at hb
    subst hb
    intro e; subst e; exact hk ha

theorem PageOk.has {p : Page K S} (h : PageOk p) (k : K) :
    p.hasEntry k = true ↔ k ∈ p.list.map Entry.key := by
  unfold Page.hasEntry
  rw [Dict.has_iff, h.keys]

theorem PageOk.has_false {p : Page K S} (h : PageOk p) (k : K) :
    p.hasEntry k = false ↔ k ∉ p.list.map Entry.key := by
  rw [← h.has]; simp

theorem get?_mirror (l : List (Entry K S)) (k : K) :
    Dict.get? (l.map (fun e => (e.key, e))) k = l.find? (fun e => e.key = k) := by
  induction l with
  | nil => rfl
  | cons a l ih =>
    by_cases h : a.key = k
    · simp [Dict.get?, h]
    · simp [Dict.get?, h, ih]

theorem PageOk.popFront {c : Codec V S} {p : Page K S} {e : Entry K S} {rest : List (Entry K S)}
    (h : PageOk p) (hl : p.list = e :: rest) :
    p.popFront c = (decode c e.str, ⟨rest, rest.map (fun e => (e.key, e))⟩) := by
  have hg : p.dict = (e.key, e) :: rest.map (fun e => (e.key, e)) := by rw [h.1, hl]; rfl
  unfold Page.popFront
  rw [hl]
  simp [Dict.pop, hg, Dict.get?, Dict.erase]

theorem lastIndex_none (k : K) (l : List (Entry K S)) (i : Nat) (acc : Option Nat)
    (h : k ∉ l.map Entry.key) : Page.lastIndex k l i acc = acc := by
  induction l generalizing i acc with
  | nil => rfl
  | cons a l ih =>
    simp at h
    rw [Page.lastIndex, if_neg h.1]
    exact ih _ _ (by simpa using h.2)

theorem lastIndex_some (k : K) (l₁ l₂ : List (Entry K S)) (e : Entry K S) (i : Nat)
    (acc : Option Nat) (he : e.key = k) (h : k ∉ l₂.map Entry.key) :
    Page.lastIndex k (l₁ ++ e :: l₂) i acc = some (i + l₁.length) := by
  induction l₁ generalizing i acc with
  | nil =>
    simp only [List.nil_append, Page.lastIndex]
    rw [lastIndex_none _ _ _ _ h]
    simp [he]
  | cons a l ih =>
    simp only [List.cons_append, Page.lastIndex]
    rw [ih]
    simp; omega

theorem filter_split {l₁ l₂ : List (Entry K S)} {e : Entry K S}
    (hn : ((l₁ ++ e :: l₂).map Entry.key).Nodup) :
    (l₁ ++ e :: l₂).filter (fun x => x.key ≠ e.key) = l₁ ++ l₂ := by
  rw [List.map_append, List.map_cons, List.nodup_append, List.nodup_cons] at hn
  obtain ⟨_, ⟨h2, _⟩, h3⟩ := hn
  rw [List.filter_append, List.filter_cons]
  simp only [ne_eq, not_true_eq_false, decide_false, Bool.false_eq_true, if_false]
  congr 1
  · rw [List.filter_eq_self]
    intro a ha
    have := h3 a.key (List.mem_map.mpr ⟨a, ha, rfl⟩) e.key (by simp)
    simpa using this
  · rw [List.filter_eq_self]
    intro a ha
    simp only [decide_eq_true_eq]
    intro e'
    exact h2 (List.mem_map.mpr ⟨a, ha, e'⟩)

/-- Popping an entry by key removes exactly it. -/
theorem PageOk.popEntry {c : Codec V S} {p : Page K S} (h : PageOk p) {k : K} {e : Entry K S}
    (hf : p.list.find? (fun e => e.key = k) = some e) :
    p.popEntry c k = (decode c e.str,
      ⟨p.list.filter (fun x => x.key ≠ k), (p.list.filter (fun x => x.key ≠ k)).map (fun e => (e.key, e))⟩) := by
  have hek : e.key = k := by simpa using List.find?_some hf
  have hm := List.mem_of_find?_eq_some hf
  obtain ⟨l₁, l₂, hl⟩ := List.append_of_mem hm
  have hnd := h.2
  rw [hl] at hnd
  have hfil := filter_split hnd
  rw [List.map_append, List.map_cons, List.nodup_append, List.nodup_cons] at hnd
  have hne : k ∉ l₂.map Entry.key := by rw [← hek]; exact hnd.2.1.1
  unfold Page.popEntry
  have hg : p.dict.get? k = some e := by rw [h.1, get?_mirror, hf]
  rw [hg]
  simp only
  have hidx : Page.lastIndex e.key p.list 0 none = some l₁.length := by
    rw [hl, hek, lastIndex_some k l₁ l₂ e 0 none hek hne]; simp
  rw [hidx]
  have hlt : l₁.length < p.list.length := by rw [hl]; simp
  have herase : p.list.eraseIdx l₁.length = p.list.filter (fun x => x.key ≠ k) := by
    rw [hl, ← hek, hfil, List.eraseIdx_append_of_length_le (Nat.le_refl _)]
    simp
  simp only [Page.listPop, if_pos hlt, herase]
  rw [Dict.erase_eq_filter _ _ (by rw [h.keys]; exact h.2), h.1, List.filter_map]
  rfl

theorem PageOk.filter {l : List (Entry K S)} (h : (l.map Entry.key).Nodup) (p : Entry K S → Bool) :
    PageOk (⟨l.filter p, (l.filter p).map (fun e => (e.key, e))⟩ : Page K S) :=
  ⟨rfl, List.Nodup.sublist (List.Sublist.map _ List.filter_sublist) h⟩

theorem PageOk.inspect {c : Codec V S} {p : Page K S} (h : PageOk p) (k : K) :
    p.inspect c k = match p.list.find? (fun e => e.key = k) with
      | none => .ok none
      | some e => decode c e.str := by
  unfold Page.inspect
  rw [h.1, get?_mirror]
  cases p.list.find? (fun e => e.key = k) <;> rfl

/-- Loading records on a page appends them. -/
theorem pushRecs_ok (p : Page K S) (rs : List (Rec K S)) (h : PageOk p)
    (hn : (p.list.map Entry.key ++ rs.map Rec.key).Nodup) :
    PageOk (PQ.pushRecs p rs) ∧
      (PQ.pushRecs p rs).list = p.list ++ rs.map (fun r => ⟨r.key, r.str⟩) := by
  induction rs generalizing p with
  | nil => exact ⟨h, by simp [PQ.pushRecs]⟩
  | cons r rs ih =>
    have hk : r.key ∉ p.list.map Entry.key := by
      rw [List.nodup_append] at hn
      intro hm
      exact hn.2.2 _ hm r.key (by simp) rfl
    have hok := h.append (e := ⟨r.key, r.str⟩) hk
    have hl : (p.append ⟨r.key, r.str⟩).list = p.list ++ [⟨r.key, r.str⟩] := rfl
    have := ih (p.append ⟨r.key, r.str⟩) hok (by rw [hl]; simpa using hn)
    refine ⟨this.1, ?_⟩
    have h2 := this.2
    rw [hl] at h2
    simp only [PQ.pushRecs, List.foldl_cons, Page.pushStr] at h2 ⊢
    rw [h2]; simp

/-! ## The invariant and the abstraction -/

/-- items of the back page when it is a page of its own -/
def backItems (q : PQ K S) : List (K × S) :=
  match q.back with
  | none => []
  | some b => b.list.map eItem

/-- everything the queue holds, oldest first -/
def items (q : PQ K S) : List (K × S) :=
  q.front.list.map eItem ++ (Table.asc q.db).map rItem ++ backItems q

structure Inv (q : PQ K S) : Prop where
  frontOk : PageOk q.front
  backOk : ∀ b, q.back = some b → PageOk b
  shared : q.back = none → q.db = []
  frontSize : q.front.size ≤ q.pageSize
  backSize : ∀ b, q.back = some b → b.size ≤ q.pageSize
  ids : (q.db.map Rec.id).Nodup
  keys : ((items q).map Prod.fst).Nodup
  pos : 0 < q.pageSize

/-- `q` holds exactly the list `l`. -/
def Rep (c : Codec V S) (q : PQ K S) (l : List (K × V)) : Prop :=
  Inv q ∧ items q = l.map (fun e => (e.1, c.enc e.2))

end Verif.Queue
