import Verif.Lru.Inv

/-!
# The ring, while it is whole
-/

namespace Verif.Lru

open Verif.Py

variable {K V : Type} [DecidableEq K]

/-- `y` follows `x`. -/
def Follows (s : Cache K V) (x y : Nat) : Prop := (s.heap x).next = some y ∧ (s.heap y).previous = some x

/-- Each node of the list follows the one before. -/
def Path (s : Cache K V) : List Nat → Prop
  | [] => True
  | [_] => True
  | x :: y :: r => Follows s x y ∧ Path s (y :: r)

theorem path_split (s : Cache K V) (l : List Nat) (x : Nat) (r : List Nat) :
    Path s (l ++ x :: r) ↔ Path s (l ++ [x]) ∧ Path s (x :: r) := by
  induction l with
  | nil => simp [Path]
  | cons a l ih =>
    cases l with
    | nil => simp [Path]
    | cons b l => simp only [List.cons_append, Path] at ih ⊢; rw [ih]; exact and_assoc.symm

theorem path_frame {s s' : Cache K V} (l : List Nat) (h1 : ∀ x ∈ l.dropLast, (s'.heap x).next = (s.heap x).next)
    (h2 : ∀ x ∈ l.tail, (s'.heap x).previous = (s.heap x).previous) (h : Path s l) : Path s' l := by
  induction l with
  | nil => trivial
  | cons a l ih =>
    cases l with
    | nil => trivial
    | cons b l =>
      simp only [List.dropLast_cons₂, List.mem_cons, List.tail_cons] at h1 h2
      refine ⟨⟨?_, ?_⟩, ih (fun x hx => h1 x (.inr hx)) (fun x hx => h2 x (.inr hx)) h.2⟩
      · rw [h1 a (.inl rfl)]; exact h.1.1
      · rw [h2 b (.inl rfl)]; exact h.1.2

/-- The nodes in order: none, one without references, or a ring. -/
def IsRing (s : Cache K V) : List Nat → Prop
  | [] => s.head = none
  | [a] => s.head = some a ∧ (s.heap a).previous = none ∧ (s.heap a).next = none
  | a :: b :: r => s.head = some a ∧ Path s (a :: b :: r ++ [a])

theorem next_prev (s : Cache K V) (m : Nat) (v : Option Nat) (x : Nat) :
    ((s.upd m fun y => { y with next := v }).heap x).previous = (s.heap x).previous := by
  by_cases e : x = m <;> simp [Cache.upd, e]
theorem next_next (s : Cache K V) (m : Nat) (v : Option Nat) (x : Nat) :
    ((s.upd m fun y => { y with next := v }).heap x).next = if x = m then v else (s.heap x).next := by
  by_cases e : x = m <;> simp [Cache.upd, e]
theorem prev_prev (s : Cache K V) (m : Nat) (v : Option Nat) (x : Nat) :
    ((s.upd m fun y => { y with previous := v }).heap x).previous = if x = m then v else (s.heap x).previous := by
  by_cases e : x = m <;> simp [Cache.upd, e]
theorem prev_next (s : Cache K V) (m : Nat) (v : Option Nat) (x : Nat) :
    ((s.upd m fun y => { y with previous := v }).heap x).next = (s.heap x).next := by
  by_cases e : x = m <;> simp [Cache.upd, e]

/-- Moving a node that is not the head to the place before the head. -/
theorem moveRefs_ring {s : Cache K V} (h c : Nat) (a b : List Nat) (hh : s.head = some h)
    (nd : (h :: a ++ c :: b).Nodup) (hp : Path s (h :: a ++ c :: b ++ [h])) :
    ∃ s', moveRefs c s = (.ok (), s') ∧ SameData s s' ∧ s'.head = some h ∧ Path s' (c :: (h :: a ++ b) ++ [c]) := by
  have hne : ¬ s.head = some c := by
    rw [hh]; intro e; cases e
    simp at nd
  -- the neighbours
  obtain ⟨a', p, ea⟩ : ∃ a' p, h :: a = a' ++ [p] := ⟨(h :: a).dropLast, (h :: a).getLast (by simp), (List.dropLast_concat_getLast _).symm⟩
  have hp1 : Path s (a' ++ [p]) := by
    have : h :: a ++ c :: b ++ [h] = a' ++ p :: (c :: b ++ [h]) := by rw [ea]; simp
    rw [this, path_split] at hp; exact hp.1
  have hp2 : Path s (p :: (c :: b ++ [h])) := by
    have : h :: a ++ c :: b ++ [h] = a' ++ p :: (c :: b ++ [h]) := by rw [ea]; simp
    rw [this, path_split] at hp; exact hp.2
  have pc : Follows s p c := hp2.1
  have hpa : p ∈ h :: a := by rw [ea]; simp
  have hcp : p ≠ c := by
    rintro rfl
    rw [List.nodup_append] at nd
    exact nd.2.2 p hpa p (by simp) rfl
  have hch : h ≠ c := by rintro rfl; exact hne hh
  have nda : (a' ++ [p]).Nodup := by rw [← ea]; rw [List.nodup_append] at nd; exact nd.1
  have hdrop : (a' ++ [p]).dropLast = a' := by simp
  have hpa' : p ∉ a' := by rw [List.nodup_append] at nda; intro hm; exact nda.2.2 p hm p (by simp) rfl
  have hha : h ∉ (a' ++ [p]).tail := by rw [← ea]; simp at nd ⊢; exact nd.1.1
  have hca : ∀ x ∈ a' ++ [p], x ≠ c := by
    rw [← ea]; rintro x hx rfl
    rw [List.nodup_append] at nd
    exact nd.2.2 x hx x (by simp) rfl
  unfold moveRefs
  simp only [bind_eq, get_eq, ite_eq, node_eq, if_neg hne, pc.2, setNext_some]
  cases b with
  | nil =>
    have ch : Follows s c h := hp2.2.1
    simp only [ch.1]
    have e1 : ((s.upd p fun y => { y with next := some h }).heap c).next = some h := by simp [Cache.upd, Ne.symm hcp, ch.1]
    have e2 : ((s.upd p fun y => { y with next := some h }).heap c).previous = some p := by simp [Cache.upd, Ne.symm hcp, pc.2]
    simp only [e1, e2, setPrevious_some]
    generalize hs2 : ((s.upd p fun y => { y with next := some h }).upd h fun y => { y with previous := some p }) = s2
    have D2 : SameData s s2 := by
      rw [← hs2]; exact (sameData_upd _ p (fun y => { y with next := some h }) fun _ => rfl).trans (sameData_upd _ _ _ fun _ => rfl)
    have H2 : s2.head = some h := by rw [← hs2]; exact hh
    have P2 : ∀ x, (s2.heap x).previous = if x = h then some p else (s.heap x).previous := by
      intro x; rw [← hs2]; simp only [next_prev, next_next, prev_prev, prev_next]
    have N2 : ∀ x, (s2.heap x).next = if x = p then some h else (s.heap x).next := by
      intro x; rw [← hs2]; simp only [next_prev, next_next, prev_prev, prev_next]
    rw [H2]
    simp only [deref_some, update_eq, P2 h, if_true]
    generalize hs4 : ((s2.upd c fun y => { y with previous := some p }).upd c fun y => { y with next := some h }) = s4
    have D4 : SameData s s4 := by
      rw [← hs4]; exact (D2.trans (sameData_upd _ c (fun y => { y with previous := some p }) fun _ => rfl)).trans (sameData_upd _ _ _ fun _ => rfl)
    have H4 : s4.head = some h := by rw [← hs4]; exact H2
    have P4 : ∀ x, (s4.heap x).previous = if x = c then some p else if x = h then some p else (s.heap x).previous := by
      intro x; rw [← hs4]; simp only [next_prev, next_next, prev_prev, prev_next, P2, N2]
    have N4 : ∀ x, (s4.heap x).next = if x = c then some h else if x = p then some h else (s.heap x).next := by
      intro x; rw [← hs4]; simp only [next_prev, next_next, prev_prev, prev_next, P2, N2]
    have e4 : (s4.heap h).previous = some p := by rw [P4]; simp [hch]
    simp only [e4, setNext_some]
    generalize hs6 : ((s4.upd p fun y => { y with next := some c }).upd h fun y => { y with previous := some c }) = s6
    have D6 : SameData s s6 := by
      rw [← hs6]; exact (D4.trans (sameData_upd _ p (fun y => { y with next := some c }) fun _ => rfl)).trans (sameData_upd _ _ _ fun _ => rfl)
    have P6 : ∀ x, (s6.heap x).previous = if x = h then some c else if x = c then some p else if x = h then some p else (s.heap x).previous := by
      intro x; rw [← hs6]; simp only [next_prev, next_next, prev_prev, prev_next, P4, N4]
    have N6 : ∀ x, (s6.heap x).next = if x = p then some c else if x = c then some h else if x = p then some h else (s.heap x).next := by
      intro x; rw [← hs6]; simp only [next_prev, next_next, prev_prev, prev_next, P4, N4]
    refine ⟨s6, rfl, D6, by rw [← hs6]; exact H4, ?_⟩
    have f1 : Follows s6 c h := ⟨by rw [N6]; simp [Ne.symm hcp], by rw [P6]; simp⟩
    have f2 : Follows s6 p c := ⟨by rw [N6]; simp, by rw [P6]; simp [Ne.symm hch]⟩
    have f3 : Path s6 (a' ++ [p]) := by
      refine path_frame _ (fun x hx => ?_) (fun x hx => ?_) hp1
      · rw [hdrop] at hx
        have hxp : x ≠ p := by rintro rfl; exact hpa' hx
        rw [N6, if_neg hxp, if_neg (hca x (by simp [hx])), if_neg hxp]
      · have hxh : x ≠ h := by rintro rfl; exact hha hx
        rw [P6, if_neg hxh, if_neg (hca x (List.mem_of_mem_tail hx)), if_neg hxh]
    have : c :: (h :: a ++ []) ++ [c] = c :: (a' ++ p :: [c]) := by rw [ea]; simp
    rw [this]
    have g : Path s6 (a' ++ p :: [c]) := (path_split _ _ _ _).mpr ⟨f3, f2, trivial⟩
    cases a' with
    | nil =>
      simp at ea; obtain ⟨rfl, rfl⟩ := ea
      exact ⟨f1, g⟩
    | cons x a' =>
      simp at ea; obtain ⟨rfl, rfl⟩ := ea
      exact ⟨f1, g⟩
  | cons n b =>
    have cn : Follows s c n := hp2.2.1
    obtain ⟨b', q, eb⟩ : ∃ b' q, n :: b = b' ++ [q] := ⟨(n :: b).dropLast, (n :: b).getLast (by simp), (List.dropLast_concat_getLast _).symm⟩
    have hp3 : Path s (b' ++ q :: [h]) := by
      have : n :: b ++ [h] = b' ++ q :: [h] := by rw [eb]; simp
      rw [← this]; exact hp2.2.2
    have hp4 : Path s (b' ++ [q]) := ((path_split _ _ _ _).mp hp3).1
    have qh : Follows s q h := ((path_split _ _ _ _).mp hp3).2.1
    have ndb : (b' ++ [q]).Nodup := by
      rw [← eb]; rw [List.nodup_append] at nd; exact (List.nodup_cons.mp nd.2.1).2
    have hqb' : q ∉ b' := by rw [List.nodup_append] at ndb; intro hm; exact ndb.2.2 q hm q (by simp) rfl
    have hnb : n ∉ (b' ++ [q]).tail := by rw [← eb]; simp; rw [← eb] at ndb; exact (List.nodup_cons.mp ndb).1
    have disj : ∀ x ∈ a' ++ [p], ∀ y ∈ b' ++ [q], x ≠ y := by
      rw [← ea, ← eb]; intro x hx y hy
      rw [List.nodup_append] at nd
      exact nd.2.2 x hx y (by simp at hy ⊢; exact .inr hy)
    have hcb : ∀ y ∈ b' ++ [q], y ≠ c := by
      rw [← eb]; rintro y hy rfl
      rw [List.nodup_append] at nd
      exact (List.nodup_cons.mp nd.2.1).1 hy
    have hn : n ∈ b' ++ [q] := by rw [← eb]; simp
    have hq : q ∈ b' ++ [q] := by simp
    have hha' : h ∈ a' ++ [p] := by rw [← ea]; simp
    have hpp : p ∈ a' ++ [p] := by simp
    have hnc := hcb n hn
    have hqc := hcb q hq
    have hpn := disj p hpp n hn
    have hpq := disj p hpp q hq
    have hhn := disj h hha' n hn
    have hhq := disj h hha' q hq
    simp only [cn.1]
    have e1 : ((s.upd p fun y => { y with next := some n }).heap c).next = some n := by simp [Cache.upd, Ne.symm hcp, cn.1]
    have e2 : ((s.upd p fun y => { y with next := some n }).heap c).previous = some p := by simp [Cache.upd, Ne.symm hcp, pc.2]
    simp only [e1, e2, setPrevious_some]
    generalize hs2 : ((s.upd p fun y => { y with next := some n }).upd n fun y => { y with previous := some p }) = s2
    have D2 : SameData s s2 := by
      rw [← hs2]; exact (sameData_upd _ p (fun y => { y with next := some n }) fun _ => rfl).trans (sameData_upd _ _ _ fun _ => rfl)
    have H2 : s2.head = some h := by rw [← hs2]; exact hh
    have P2 : ∀ x, (s2.heap x).previous = if x = n then some p else (s.heap x).previous := by
      intro x; rw [← hs2]; simp only [next_prev, next_next, prev_prev, prev_next]
    have N2 : ∀ x, (s2.heap x).next = if x = p then some n else (s.heap x).next := by
      intro x; rw [← hs2]; simp only [next_prev, next_next, prev_prev, prev_next]
    have e3 : (s2.heap h).previous = some q := by rw [P2, if_neg hhn, qh.2]
    rw [H2]
    simp only [deref_some, update_eq, e3]
    generalize hs4 : ((s2.upd c fun y => { y with previous := some q }).upd c fun y => { y with next := some h }) = s4
    have D4 : SameData s s4 := by
      rw [← hs4]; exact (D2.trans (sameData_upd _ c (fun y => { y with previous := some q }) fun _ => rfl)).trans (sameData_upd _ _ _ fun _ => rfl)
    have H4 : s4.head = some h := by rw [← hs4]; exact H2
    have P4 : ∀ x, (s4.heap x).previous = if x = c then some q else if x = n then some p else (s.heap x).previous := by
      intro x; rw [← hs4]; simp only [next_prev, next_next, prev_prev, prev_next, P2, N2]
    have N4 : ∀ x, (s4.heap x).next = if x = c then some h else if x = p then some n else (s.heap x).next := by
      intro x; rw [← hs4]; simp only [next_prev, next_next, prev_prev, prev_next, P2, N2]
    have e4 : (s4.heap h).previous = some q := by rw [P4, if_neg hch, if_neg hhn, qh.2]
    simp only [e4, setNext_some]
    generalize hs6 : ((s4.upd q fun y => { y with next := some c }).upd h fun y => { y with previous := some c }) = s6
    have D6 : SameData s s6 := by
      rw [← hs6]; exact (D4.trans (sameData_upd _ q (fun y => { y with next := some c }) fun _ => rfl)).trans (sameData_upd _ _ _ fun _ => rfl)
    have P6 : ∀ x, (s6.heap x).previous = if x = h then some c else if x = c then some q else if x = n then some p else (s.heap x).previous := by
      intro x; rw [← hs6]; simp only [next_prev, next_next, prev_prev, prev_next, P4, N4]
    have N6 : ∀ x, (s6.heap x).next = if x = q then some c else if x = c then some h else if x = p then some n else (s.heap x).next := by
      intro x; rw [← hs6]; simp only [next_prev, next_next, prev_prev, prev_next, P4, N4]
    refine ⟨s6, rfl, D6, by rw [← hs6]; exact H4, ?_⟩
    have f1 : Follows s6 c h := ⟨by rw [N6]; simp [Ne.symm hqc], by rw [P6]; simp⟩
    have f2 : Follows s6 q c := ⟨by rw [N6]; simp, by rw [P6]; simp [Ne.symm hch]⟩
    have f0 : Follows s6 p n := ⟨by rw [N6]; simp [hpq, hcp], by rw [P6]; simp [Ne.symm hhn, hnc]⟩
    have f3 : Path s6 (a' ++ [p]) := by
      refine path_frame _ (fun x hx => ?_) (fun x hx => ?_) hp1
      · rw [hdrop] at hx
        have hx' : x ∈ a' ++ [p] := by simp [hx]
        rw [N6, if_neg (disj x hx' q hq), if_neg (hca x hx'), if_neg (by rintro rfl; exact hpa' hx)]
      · have hx' := List.mem_of_mem_tail hx
        rw [P6, if_neg (by rintro rfl; exact hha hx), if_neg (hca x hx'), if_neg (disj x hx' n hn)]
    have f4 : Path s6 (b' ++ [q]) := by
      refine path_frame _ (fun x hx => ?_) (fun x hx => ?_) hp4
      · have hx'' : x ∈ b' := by simpa using hx
        have hx' : x ∈ b' ++ [q] := by simp [hx'']
        rw [N6, if_neg (by rintro rfl; exact hqb' hx''), if_neg (hcb x hx'), if_neg (Ne.symm (disj p hpp x hx'))]
      · have hx' := List.mem_of_mem_tail hx
        rw [P6, if_neg (Ne.symm (disj h hha' x hx')), if_neg (hcb x hx'), if_neg (by rintro rfl; exact hnb hx)]
    have g4 : Path s6 (n :: b ++ [c]) := by
      have : n :: b ++ [c] = b' ++ q :: [c] := by rw [eb]; simp
      rw [this]; exact (path_split _ _ _ _).mpr ⟨f4, f2, trivial⟩
    have : c :: (h :: a ++ n :: b) ++ [c] = c :: (a' ++ p :: (n :: b ++ [c])) := by rw [ea]; simp
    rw [this]
    have g : Path s6 (a' ++ p :: (n :: b ++ [c])) := (path_split _ _ _ _).mpr ⟨f3, f0, g4⟩
    cases a' with
    | nil =>
      simp at ea; obtain ⟨rfl, rfl⟩ := ea
      exact ⟨f1, g⟩
    | cons x a' =>
      simp at ea; obtain ⟨rfl, rfl⟩ := ea
      exact ⟨f1, g⟩

/-- The cache is a ring of the entries of `l`, in that order. -/
structure Rep (max : Nat) (s : Cache K V) (z : List (Nat × K × V)) : Prop where
  maxEq : s.max = max
  two : 2 ≤ max
  le : z.length ≤ max
  nodup : (z.map (·.1)).Nodup
  keys : (z.map (·.2.1)).Nodup
  node : ∀ e ∈ z, e.1 < s.size ∧ (s.heap e.1).data = (false, some e.2.1, some e.2.2)
  dict : ∀ k n, s.dict.get? k = some n ↔ ∃ v, (n, k, v) ∈ z
  length : s.dict.length = z.length
  dictKeys : s.dict.keys.Nodup
  ring : IsRing s (z.map (·.1))
  tail : z.length < max → s.tail = (z.map (·.1)).getLast?
  unlinked : z.length ≤ 1 → ∀ x, (s.heap x).previous = none ∧ (s.heap x).next = none

theorem rep_new (max : Nat) (h : 2 ≤ max) : Rep max (Cache.new max : Cache K V) [] :=
  { maxEq := rfl, two := h, le := by simp, nodup := by simp, keys := by simp, node := by simp, dict := by simp [Cache.new, Dict.get?]
    length := rfl, dictKeys := by simp [Cache.new, Dict.keys], ring := rfl, tail := fun _ => rfl, unlinked := fun _ _ => ⟨rfl, rfl⟩ }

/-- The key's entry and its place. -/
theorem Rep.split {max : Nat} {s : Cache K V} {z : List (Nat × K × V)} (h : Rep max s z) {k : K} {c : Nat} (hk : s.dict.get? k = some c) :
    ∃ a v b, z = a ++ (c, k, v) :: b ∧ (∀ e ∈ a ++ b, e.2.1 ≠ k) ∧ (s.heap c).value = some v := by
  obtain ⟨v, hv⟩ := (h.dict k c).mp hk
  obtain ⟨a, b, rfl⟩ := List.append_of_mem hv
  refine ⟨a, v, b, rfl, ?_, congrArg (·.2.2) (h.node _ hv).2⟩
  have nd := h.keys
  simp only [List.map_append, List.map_cons, List.nodup_append, List.nodup_cons] at nd
  intro e he
  rcases List.mem_append.mp he with he | he
  · exact nd.2.2 _ (List.mem_map.mpr ⟨e, he, rfl⟩) k (by simp)
  · rintro rfl; exact nd.2.1.1 (List.mem_map.mpr ⟨e, he, rfl⟩)

/-- Use of an entry moves it to the front. -/
theorem Rep.front {max : Nat} {s : Cache K V} {a b : List (Nat × K × V)} {c : Nat} {k : K} {v : V} (h : Rep max s (a ++ (c, k, v) :: b))
    (hb : b ≠ [] ∨ a = [] ∨ max ≤ (a ++ (c, k, v) :: b).length) :
    ∃ s', moveToFront c s = (.ok (), s') ∧ SameData s s' ∧ Rep max s' ((c, k, v) :: (a ++ b)) := by
  unfold moveToFront
  simp only [bind_eq, get_eq, ite_eq, moveToEnd_keep, setHead_eq]
  cases a with
  | nil =>
    have hc : s.head = some c := by
      have := h.ring
      cases b <;> exact this.1
    simp only [hc, ne_eq, not_true, if_false]
    exact ⟨s, rfl, .refl s, h⟩
  | cons e a =>
    obtain ⟨n, k0, v0⟩ := e
    have nd := h.nodup
    have ring := h.ring
    simp only [List.map_cons, List.map_append, List.cons_append] at nd ring
    have ring' : s.head = some n ∧ Path s (n :: a.map (·.1) ++ c :: b.map (·.1) ++ [n]) := by
      cases a with
      | nil => exact ring
      | cons e a => exact ring
    have hne : ¬ s.head = some c := by
      rw [ring'.1]; intro e; cases e; simp at nd
    obtain ⟨s', e1, e2, e3, e4⟩ := moveRefs_ring n c (a.map fun e : Nat × K × V => e.1) (b.map fun e : Nat × K × V => e.1) ring'.1 nd ring'.2
    simp only [ne_eq, hne, not_false_eq_true, if_true, e1]
    refine ⟨_, rfl, e2.trans (sameData_head _ _), ?_⟩
    have hmem : ∀ e : Nat × K × V, e ∈ (c, k, v) :: ((n, k0, v0) :: a ++ b) ↔ e ∈ (n, k0, v0) :: a ++ (c, k, v) :: b := by
      intro e; simp only [List.mem_cons, List.mem_append, List.cons_append]
      constructor
      · rintro (h | h | h | h) <;> simp [h]
      · rintro (h | h | h | h) <;> simp [h]
    have perm : ((c, k, v) :: ((n, k0, v0) :: a ++ b)).Perm ((n, k0, v0) :: a ++ (c, k, v) :: b) := List.perm_middle.symm
    have hlen : ((c, k, v) :: ((n, k0, v0) :: a ++ b)).length = ((n, k0, v0) :: a ++ (c, k, v) :: b).length := perm.length_eq
    refine { maxEq := e2.max.trans h.maxEq, two := h.two, le := hlen ▸ h.le, nodup := ?_, keys := ?_, node := ?_, dict := ?_, length := ?_, dictKeys := ?_, ring := ?_, tail := ?_, unlinked := ?_ }
    · exact (perm.map _).nodup_iff.mpr h.nodup
    · exact (perm.map _).nodup_iff.mpr h.keys
    · intro e he
      obtain ⟨h1, h2⟩ := h.node e ((hmem e).mp he)
      exact ⟨e2.size ▸ h1, by rw [← h2]; exact e2.data e.1⟩
    · intro k' m
      show s'.dict.get? k' = some m ↔ _
      rw [e2.dict, h.dict]
      exact exists_congr fun v => (hmem _).symm
    · rw [hlen, ← h.length]; exact congrArg List.length e2.dict
    · show s'.dict.keys.Nodup; rw [e2.dict]; exact h.dictKeys
    · refine ⟨rfl, ?_⟩
      have : Path s' (c :: n :: (a ++ b).map (fun e : Nat × K × V => e.1) ++ [c]) := by simpa using e4
      exact path_frame (s := s') _ (fun _ _ => rfl) (fun _ _ => rfl) this
    · intro hl
      rw [hlen] at hl
      rcases hb with hb | hb | hb
      · show s'.tail = _
        rw [e2.tail, h.tail hl]
        obtain ⟨b', q, rfl⟩ : ∃ b' q, b = b' ++ [q] := ⟨b.dropLast, b.getLast hb, (List.dropLast_concat_getLast _).symm⟩
        simp [List.getLast?_cons]
      · cases hb
      · omega
    · intro hl; simp at hl

omit [DecidableEq K] in
theorem path_head {s : Cache K V} {x y : Nat} {r : List Nat} (h : Path s (x :: y :: r)) : (s.heap x).next = some y := h.1.1

/-- Walking along a path gives its nodes. -/
theorem walk_path (s : Cache K V) (l : List Nat) : ∀ (x : Nat), Path s (l ++ [x]) → ∀ y, (l ++ [x]).head? = some y →
    (walk l.length (some y) : M K V _) s = (.ok l, s) := by
  induction l with
  | nil => intro x _ y _; rfl
  | cons a l ih =>
    intro x hp y hy
    simp at hy; subst hy
    unfold walk
    simp only [bind_eq, deref_some, node_eq, List.length_cons]
    obtain ⟨z, hz⟩ : ∃ z, (l ++ [x]).head? = some z := by cases l <;> exact ⟨_, rfl⟩
    obtain ⟨r, hr⟩ : ∃ r, l ++ [x] = z :: r := by
      cases hlx : l ++ [x] with
      | nil => simp at hlx
      | cons w r => rw [hlx] at hz; cases hz; exact ⟨r, rfl⟩
    have hp' : Path s (a :: z :: r) := by rw [← hr]; exact hp
    rw [path_head hp', ih x (by rw [hr]; exact hp'.2) z hz]
    rfl

/-- The entries that iteration yields. -/
theorem Rep.items {max : Nat} {s : Cache K V} {z : List (Nat × K × V)} (h : Rep max s z) :
    (items s).1 = .ok (z.map fun e => (some e.2.1, some e.2.2)) := by
  have main : (walk s.dict.length s.head : M K V _) s = (.ok (z.map (·.1)), s) := by
    rw [h.length]
    match z, h with
    | [], h => rfl
    | [e], h =>
      have := h.ring
      simp only [List.map_cons, List.map_nil, IsRing] at this
      rw [this.1]
      simp [walk, bind_eq, deref_some, node_eq, pure_eq]
    | e :: e' :: r, h =>
      have := h.ring
      simp only [List.map_cons, IsRing] at this
      rw [this.1]
      have := walk_path s (e.1 :: e'.1 :: r.map (·.1)) e.1 (by simpa using this.2) e.1 (by simp)
      simpa using this
  unfold Lru.items
  simp only [bind_eq, get_eq, main, pure_eq, List.map_map]
  congr 1
  refine List.map_congr_left fun e he => ?_
  have := (h.node e he).2
  simp only [Node.data, Prod.mk.injEq] at this
  simp [this.2.1, this.2.2]

/-- A new entry while there is room. -/
theorem Rep.insert {max : Nat} {s : Cache K V} {z : List (Nat × K × V)} (h : Rep max s z) (k : K) (v : V)
    (hk : s.dict.get? k = none) (hl : z.length < max) :
    ∃ s', setItem k v s = (.ok (), s') ∧ Rep max s' ((s.size, k, v) :: z) := by
  have hl' : (s.dict.length : Int) < s.max := by rw [h.length, h.maxEq]; omega
  have fresh : ∀ e ∈ z, e.1 ≠ s.size := fun e he => by have := (h.node e he).1; omega
  have knew : ∀ e ∈ z, e.2.1 ≠ k := by
    rintro ⟨n, k', v'⟩ he rfl
    rw [(h.dict k' n).mpr ⟨v', he⟩] at hk; cases hk
  have knm : k ∉ s.dict.keys := (Dict.get?_eq_none_iff _ _).mp hk
  have build : ∀ s' : Cache K V, s'.max = s.max → s'.size = s.size + 1 → s'.dict = s.dict.set k s.size →
      (∀ x, x ≠ s.size → (s'.heap x).data = (s.heap x).data) → (s'.heap s.size).data = (false, some k, some v) →
      IsRing s' (s.size :: z.map (·.1)) → (z.length + 1 < max → s'.tail = (s.size :: z.map (·.1)).getLast?) →
      (z = [] → ∀ x, (s'.heap x).previous = none ∧ (s'.heap x).next = none) →
      Rep max s' ((s.size, k, v) :: z) := by
    intro s' h1 h2 h3 h4 h5 h6 h7 h8
    refine { maxEq := h1.trans h.maxEq, two := h.two, le := by simp; omega, nodup := ?_, keys := ?_, node := ?_, dict := ?_, length := ?_, dictKeys := ?_, ring := h6, tail := fun hh => h7 (by simpa using hh), unlinked := fun hh => h8 (List.length_eq_zero_iff.mp (by simp at hh; simp [hh])) }
    · simp only [List.map_cons, List.nodup_cons]
      refine ⟨fun hm => ?_, h.nodup⟩
      obtain ⟨e, he, e'⟩ := List.mem_map.mp hm
      exact fresh e he e'
    · simp only [List.map_cons, List.nodup_cons]
      refine ⟨fun hm => ?_, h.keys⟩
      obtain ⟨e, he, e'⟩ := List.mem_map.mp hm
      exact knew e he e'
    · intro e he
      rcases List.mem_cons.mp he with rfl | he
      · exact ⟨by rw [h2]; exact Nat.lt_succ_self _, h5⟩
      · obtain ⟨g1, g2⟩ := h.node e he
        exact ⟨by omega, by rw [h4 _ (fresh e he), g2]⟩
    · intro k' n
      rw [h3, Dict.get?_set]
      by_cases e : k = k'
      · subst e
        simp only [if_true, List.mem_cons, Prod.mk.injEq, true_and]
        constructor
        · intro e; exact ⟨v, .inl ⟨(Option.some.inj e).symm, rfl⟩⟩
        · rintro ⟨v', ⟨rfl, rfl⟩ | hm⟩
          · rfl
          · exact absurd rfl (knew _ hm)
      · simp only [if_neg e, List.mem_cons, Prod.mk.injEq]
        rw [h.dict]
        refine exists_congr fun v' => ⟨.inr, ?_⟩
        rintro (⟨_, e', _⟩ | hm)
        · exact absurd e'.symm e
        · exact hm
    · rw [h3, Dict.length_set, if_neg knm, h.length]; rfl
    · rw [h3]; exact Dict.nodup_keys_set _ _ _ h.dictKeys
  unfold setItem
  simp only [bind_eq, get_eq, hk, if_pos hl']
  unfold Lru.insert
  simp only [bind_eq, get_eq, ite_eq, modify_eq, update_eq, dictSet_eq, pure_eq, setHead_eq]
  match z, h, build with
  | [], h, build =>
    have h1 : s.head = none := h.ring
    simp only [h1, if_true]
    refine ⟨_, rfl, build _ rfl rfl rfl (fun x hx => by simp [hx]) (by simp [Node.data]) ⟨rfl, by simp [Node.new]⟩ (fun _ => rfl) ?_⟩
    intro _ x
    by_cases e : x = s.size
    · simp [e, Node.new]
    · simp [e, h.unlinked (by simp) x]
  | [e], h, build =>
    have h1 : s.head = some e.1 := h.ring.1
    have h2 : s.tail = some e.1 := h.tail hl
    have hne : e.1 ≠ s.size := fresh e (by simp)
    simp only [h1, h2, reduceCtorEq, if_false, if_true, setPrevious_some, setNext_some]
    refine ⟨_, rfl, build _ rfl rfl rfl ?_ (by simp [Node.data, Cache.upd, Ne.symm hne]) ⟨rfl, ?_⟩ (fun _ => rfl) (by simp)⟩
    · intro x hx
      by_cases e' : x = e.1 <;> simp [Cache.upd, Node.data, hx, e', hne]
    · simp [Path, Follows, Cache.upd, hne, Ne.symm hne]
  | e :: e' :: r, h, build =>
    have h1 : s.head = some e.1 := h.ring.1
    have hp : Path s (e.1 :: e'.1 :: r.map (·.1) ++ [e.1]) := h.ring.2
    obtain ⟨l, t, hlt⟩ : ∃ l t, e'.1 :: r.map (·.1) = l ++ [t] := ⟨_, _, (List.dropLast_concat_getLast (by simp)).symm⟩
    have h2 : s.tail = some t := by
      rw [h.tail hl]; show (e.1 :: e'.1 :: r.map (·.1)).getLast? = _; rw [hlt]; simp [List.getLast?_cons]
    have htm : t ∈ (e' :: r).map (·.1) := by simp only [List.map_cons]; rw [hlt]; simp
    have nd := h.nodup
    simp only [List.map_cons] at nd htm
    have hte : t ≠ e.1 := by rintro rfl; exact (List.nodup_cons.mp nd).1 htm
    have hts : t ≠ s.size := by
      obtain ⟨w, hw, rfl⟩ := List.mem_map.mp (show t ∈ (e' :: r).map (·.1) from htm)
      exact fresh w (List.mem_cons_of_mem _ hw)
    have hes : e.1 ≠ s.size := fresh e (by simp)
    have hte' : ¬ (some t = some e.1) := fun c => hte (Option.some.inj c)
    simp only [h1, h2, reduceCtorEq, if_false, hte', setPrevious_some, setNext_some]
    generalize hs0 : ({ s with size := s.size + 1, head := some e.1, tail := some t, heap := fun m => if m = s.size then ({ (Node.new : Node K V) with empty := false, key := some k, value := some v }) else s.heap m } : Cache K V) = s0
    have hs0' : ∀ x, x ≠ s.size → s0.heap x = s.heap x := by intro x hx; rw [← hs0]; simp [hx]
    generalize hs4 : ((((s0.upd s.size fun y => { y with previous := some t }).upd s.size fun y => { y with next := some e.1 }).upd t fun y => { y with next := some s.size }).upd e.1 fun y => { y with previous := some s.size }) = s4
    have D4 : SameData s0 s4 := by
      rw [← hs4]
      exact (((sameData_upd _ s.size (fun y => { y with previous := some t }) fun _ => rfl).trans
        (sameData_upd _ s.size (fun y => { y with next := some e.1 }) fun _ => rfl)).trans
        (sameData_upd _ t (fun y => { y with next := some s.size }) fun _ => rfl)).trans
        (sameData_upd _ e.1 (fun y => { y with previous := some s.size }) fun _ => rfl)
    have P4 : ∀ x, (s4.heap x).previous = if x = e.1 then some s.size else if x = s.size then some t else (s0.heap x).previous := by
      intro x; rw [← hs4]; simp only [next_prev, prev_prev]
    have N4 : ∀ x, (s4.heap x).next = if x = t then some s.size else if x = s.size then some e.1 else (s0.heap x).next := by
      intro x; rw [← hs4]; simp only [next_next, prev_next]
    refine ⟨_, rfl, build _ ?_ ?_ ?_ ?_ ?_ ⟨rfl, ?_⟩ (fun _ => ?_) (by simp)⟩
    · show s4.max = _; rw [D4.max, ← hs0]
    · show s4.size = _; rw [D4.size, ← hs0]
    · show s4.dict.set _ _ = _; rw [D4.dict, ← hs0]
    · intro x hx; show (s4.heap x).data = _; rw [D4.data, hs0' x hx]
    · show (s4.heap s.size).data = _; rw [D4.data, ← hs0]; simp [Node.data]
    · suffices hh : Path s4 (s.size :: e.1 :: e'.1 :: r.map (·.1) ++ [s.size]) from path_frame (s := s4) _ (fun _ _ => rfl) (fun _ _ => rfl) hh
      have inside : Path s (e.1 :: l ++ [t]) := by
        have : e.1 :: e'.1 :: r.map (·.1) ++ [e.1] = (e.1 :: l) ++ t :: [e.1] := by rw [hlt]; simp
        rw [this, path_split] at hp; exact hp.1
      have nd' : (e.1 :: l ++ [t]).Nodup := by rw [hlt] at nd; simpa using nd
      have notsize : ∀ x ∈ e.1 :: l ++ [t], x ≠ s.size := by
        intro x hx
        have : x ∈ (e :: e' :: r).map (·.1) := by simp only [List.map_cons]; rw [hlt]; simpa using hx
        obtain ⟨w, hw, rfl⟩ := List.mem_map.mp this
        exact fresh w hw
      have f1 : Path s4 (e.1 :: l ++ [t]) := by
        refine path_frame _ (fun x hx => ?_) (fun x hx => ?_) inside
        · have hx1 : x ∈ e.1 :: l := by
            have : (e.1 :: l ++ [t]).dropLast = e.1 :: l := by rw [List.dropLast_append_of_ne_nil (by simp)]; simp
            rwa [this] at hx
          have hxt : x ≠ t := by rw [List.nodup_append] at nd'; exact nd'.2.2 x hx1 t (by simp)
          have hxs := notsize x (List.mem_append_left _ hx1)
          rw [N4, if_neg hxt, if_neg hxs, hs0' x hxs]
        · have hxe : x ≠ e.1 := by rintro rfl; exact (List.nodup_cons.mp nd').1 hx
          have hxs := notsize x (List.mem_of_mem_tail hx)
          rw [P4, if_neg hxe, if_neg hxs, hs0' x hxs]
      have f2 : Follows s4 t s.size := ⟨by rw [N4]; simp, by rw [P4]; simp [Ne.symm hes]⟩
      have f3 : Follows s4 s.size e.1 := ⟨by rw [N4]; simp [Ne.symm hts], by rw [P4]; simp⟩
      have : s.size :: e.1 :: e'.1 :: r.map (·.1) ++ [s.size] = s.size :: (e.1 :: l ++ t :: [s.size]) := by rw [hlt]; simp
      rw [this]
      exact ⟨f3, (path_split s4 (e.1 :: l) t [s.size]).mpr ⟨f1, f2, trivial⟩⟩
    · show s4.tail = (s.size :: e.1 :: e'.1 :: r.map (·.1)).getLast?; rw [D4.tail, ← hs0, hlt]; simp [List.getLast?_cons]

/-- A new entry when full takes the place of the last. -/
theorem Rep.replace {max : Nat} {s : Cache K V} {z : List (Nat × K × V)} {c : Nat} {k0 : K} {v0 : V} (h : Rep max s (z ++ [(c, k0, v0)]))
    (k : K) (v : V) (hk : s.dict.get? k = none) (hl : (z ++ [(c, k0, v0)]).length = max) :
    ∃ s', setItem k v s = (.ok (), s') ∧ Rep max s' ((c, k, v) :: z) := by
  have hl' : ¬ (s.dict.length : Int) < s.max := by rw [h.length, h.maxEq]; omega
  rw [setItem_full k v hk hl']
  have knew : ∀ e ∈ z ++ [(c, k0, v0)], e.2.1 ≠ k := by
    rintro ⟨n, k', v'⟩ he rfl
    rw [(h.dict k' n).mpr ⟨v', he⟩] at hk; cases hk
  have two := h.two
  match z, h with
  | [], h => simp at hl; omega
  | e :: r, h =>
    have hring : s.head = some e.1 ∧ Path s ((e.1 :: r.map (·.1)) ++ c :: [e.1]) := by
      have := h.ring
      cases r with
      | nil => exact this
      | cons e' r => simp only [List.map_cons, List.map_append, List.cons_append, IsRing] at this; simpa using this
    have hp := (path_split _ _ _ _).mp hring.2
    have ce : Follows s c e.1 := hp.2.1
    have hcm : (c, k0, v0) ∈ e :: r ++ [(c, k0, v0)] := by simp
    obtain ⟨g1, g2⟩ := h.node _ hcm
    have g3 : (s.heap c).empty = false := congrArg (·.1) g2
    have g4 : (s.heap c).key = some k0 := congrArg (·.2.1) g2
    have g5 : s.dict.get? k0 = some c := (h.dict _ _).mpr ⟨v0, hcm⟩
    have nd := h.nodup
    have kn := h.keys
    simp only [List.map_append, List.map_cons, List.map_nil] at nd kn
    have cn : ∀ w ∈ e :: r, w.1 ≠ c := by
      intro w hw
      rw [List.nodup_append] at nd
      exact nd.2.2 w.1 (List.mem_map.mpr ⟨w, hw, rfl⟩) c (by simp)
    have kn0 : ∀ w ∈ e :: r, w.2.1 ≠ k0 := by
      intro w hw
      rw [List.nodup_append] at kn
      exact kn.2.2 w.2.1 (show w.2.1 ∈ (e :: r).map (·.2.1) from List.mem_map.mpr ⟨w, hw, rfl⟩) k0 (by simp)
    unfold replaceLru
    simp only [bind_eq, get_eq, ite_eq, node_eq, hring.1, deref_some, ce.2, g3, g4, Bool.not_false, if_true, dictPop_hit g5, update_eq, dictSet_eq, setHead_eq]
    refine ⟨_, rfl, ?_⟩
    refine { maxEq := h.maxEq, two := h.two, le := by simp at hl ⊢; omega, nodup := ?_, keys := ?_, node := ?_, dict := ?_, length := ?_, dictKeys := ?_, ring := ?_, tail := fun hh => absurd hh (by simp at hl ⊢; omega), unlinked := fun hh => by simp at hh }
    · have := nd; rw [List.nodup_append] at this
      simp only [List.map_cons, List.nodup_cons]
      refine ⟨fun hm => ?_, by simpa using this.1⟩
      obtain ⟨w, hw, e'⟩ := List.mem_map.mp (show c ∈ (e :: r).map (·.1) from hm)
      exact cn w hw e'
    · have := kn; rw [List.nodup_append] at this
      simp only [List.map_cons, List.nodup_cons]
      refine ⟨fun hm => ?_, by simpa using this.1⟩
      obtain ⟨w, hw, e'⟩ := List.mem_map.mp (show k ∈ (e :: r).map (·.2.1) from hm)
      exact knew w (List.mem_append_left _ hw) e'
    · intro w hw
      rcases List.mem_cons.mp hw with rfl | hw
      · exact ⟨g1, by simp [Cache.upd, Node.data]⟩
      · obtain ⟨a1, a2⟩ := h.node w (List.mem_append_left _ hw)
        exact ⟨a1, by simp [Cache.upd, cn w hw]; exact a2⟩
    · intro k' n
      show ((s.dict.erase k0).set k c).get? k' = some n ↔ _
      rw [Dict.get?_set, Dict.get?_erase _ _ _ h.dictKeys]
      by_cases e1 : k = k'
      · subst e1
        simp only [if_true]
        constructor
        · intro e1; cases e1; exact ⟨v, by simp⟩
        · rintro ⟨v', hm⟩
          rcases List.mem_cons.mp hm with hm | hm
          · cases hm; rfl
          · exact absurd rfl (knew _ (List.mem_append_left _ hm))
      · rw [if_neg e1]
        by_cases e2 : k0 = k'
        · subst e2
          simp only [if_true, reduceCtorEq, false_iff]
          rintro ⟨v', hm⟩
          rcases List.mem_cons.mp hm with hm | hm
          · cases hm; exact e1 rfl
          · exact kn0 _ hm rfl
        · rw [if_neg e2, h.dict]
          refine exists_congr fun v' => ?_
          rw [List.mem_append, List.mem_cons (a := (n, k', v')) (b := (c, k, v))]
          constructor
          · rintro (hm | hm)
            · exact .inr hm
            · simp at hm; exact absurd hm.2.1.symm e2
          · rintro (hm | hm)
            · cases hm; exact absurd rfl e1
            · exact .inl hm
    · show ((s.dict.erase k0).set k c).length = _
      have knm : k ∉ (s.dict.erase k0).keys := by
        rw [Dict.mem_keys_erase _ _ _ h.dictKeys]; intro hm
        exact (Dict.get?_eq_none_iff _ _).mp hk hm.1
      have := Dict.length_erase s.dict k0 (mem_of_get? g5)
      rw [Dict.length_set, if_neg knm, this, h.length]; simp
    · show ((s.dict.erase k0).set k c).keys.Nodup
      exact Dict.nodup_keys_set _ _ _ (Dict.nodup_keys_erase _ _ h.dictKeys)
    · refine ⟨rfl, ?_⟩
      have : Path s (c :: e.1 :: r.map (·.1) ++ [c]) := ⟨ce, hp.1⟩
      refine path_frame (s := s) _ (fun x _ => ?_) (fun x _ => ?_) this
      · by_cases e1 : x = c <;> simp [Cache.upd, e1]
      · by_cases e1 : x = c <;> simp [Cache.upd, e1]

/-! ### the ideal cache -/

/-- Representation by the ideal list; while the cache is not full the key stored first is the last. -/
def Same (max : Nat) (s : Cache K V) (l : Ideal K V) (first : Option K) : Prop :=
  ∃ z, Rep max s z ∧ z.map (·.2) = l ∧ (l.length < max → first = l.getLast?.map (·.1))

theorem find_none {l : Ideal K V} {k : K} (h : ∀ e ∈ l, e.1 ≠ k) : Ideal.find l k = none := by
  induction l with
  | nil => rfl
  | cons a l ih =>
    obtain ⟨k', v⟩ := a
    simp only [Ideal.find]
    rw [if_neg (h (k', v) (by simp))]
    exact ih fun e he => h e (List.mem_cons_of_mem _ he)

theorem find_some {a b : Ideal K V} {k : K} {v : V} (h : ∀ e ∈ a, e.1 ≠ k) : Ideal.find (a ++ (k, v) :: b) k = some v := by
  induction a with
  | nil => simp [Ideal.find]
  | cons e a ih =>
    obtain ⟨k', w⟩ := e
    simp only [List.cons_append, Ideal.find]
    rw [if_neg (h (k', w) (by simp))]
    exact ih fun e he => h e (List.mem_cons_of_mem _ he)

theorem without_some {a b : Ideal K V} {k : K} {v : V} (h : ∀ e ∈ a ++ b, e.1 ≠ k) : Ideal.without (a ++ (k, v) :: b) k = a ++ b := by
  unfold Ideal.without
  rw [List.filter_append, List.filter_cons]
  simp only [ne_eq, not_true, decide_false, Bool.false_eq_true, if_false]
  rw [← List.filter_append, List.filter_eq_self]
  intro e he; simpa using h e he

theorem Rep.miss {max : Nat} {s : Cache K V} {z : List (Nat × K × V)} (h : Rep max s z) {k : K} (hk : s.dict.get? k = none) :
    Ideal.find (z.map (·.2)) k = none := by
  refine find_none fun e he => ?_
  obtain ⟨w, hw, rfl⟩ := List.mem_map.mp he
  rintro rfl
  rw [(h.dict w.2.1 w.1).mpr ⟨w.2.2, hw⟩] at hk; cases hk

/-- The last entry of a list in which the entry of `k` has been moved to the front. -/
theorem first_kept {max : Nat} {a b : Ideal K V} {k : K} {v w : V} {first : Option K}
    (h : (a ++ (k, v) :: b).length < max → first = (a ++ (k, v) :: b).getLast?.map (·.1))
    (hb : b ≠ [] ∨ a = [] ∨ max ≤ (a ++ (k, v) :: b).length) :
    ((k, w) :: (a ++ b)).length < max → first = ((k, w) :: (a ++ b)).getLast?.map (·.1) := by
  intro hl
  have hl' : (a ++ (k, v) :: b).length < max := by simp at hl ⊢; omega
  rw [h hl']
  rcases hb with hb | rfl | hb
  · obtain ⟨b', q, rfl⟩ : ∃ b' q, b = b' ++ [q] := ⟨b.dropLast, b.getLast hb, (List.dropLast_concat_getLast _).symm⟩
    simp [List.getLast?_cons]
  · cases b <;> simp [List.getLast?_cons]
  · omega

/-- When the calm condition allows a use of `k`. -/
theorem calm_place {max : Nat} {a b : Ideal K V} {k : K} {v : V} {first : Option K}
    (hf : (a ++ (k, v) :: b).length < max → first = (a ++ (k, v) :: b).getLast?.map (·.1))
    (hc : some k = first → first ≠ none → max ≤ (a ++ (k, v) :: b).length ∨ (a ++ (k, v) :: b).length ≤ 1) :
    b ≠ [] ∨ a = [] ∨ max ≤ (a ++ (k, v) :: b).length := by
  cases b with
  | cons e b => left; simp
  | nil =>
    by_cases hl : (a ++ [(k, v)]).length < max
    · have : first = some k := by rw [hf hl]; simp
      rcases hc this.symm (by rw [this]; simp) with h | h
      · exact .inr (.inr h)
      · right; left
        simp at h
        exact h
    · exact .inr (.inr (by omega))

omit [DecidableEq K] in
theorem firstKey_cons {l : Ideal K V} {first : Option K} {o : Op K V} (h : l ≠ []) : firstKey l first o = first := by
  cases l with
  | nil => exact absurd rfl h
  | cons e l => cases o <;> rfl

theorem Same.call {max : Nat} {s : Cache K V} {l : Ideal K V} {first : Option K} (h : Same max s l first) (o : Op K V)
    (hk : Keeping o) (hc : o.key? = first → first ≠ none → max ≤ l.length ∨ l.length ≤ 1) :
    (call s o).1 = (Ideal.call max l o).1 ∧
    Same max (call s o).2 (Ideal.call max l o).2 (firstKey l first o) := by
  obtain ⟨z, hr, rfl, hf⟩ := h
  -- looking up
  have look : ∀ k, (some k = first → first ≠ none → max ≤ (z.map (·.2)).length ∨ (z.map (·.2)).length ≤ 1) →
      (s.dict.get? k = none ∧ Ideal.find (z.map (·.2)) k = none) ∨
      ∃ c v s', s.dict.get? k = some c ∧ Ideal.find (z.map (·.2)) k = some v ∧ moveToFront c s = (.ok (), s') ∧ (s'.heap c).value = some v ∧
        Same max s' (Ideal.use (z.map (·.2)) k) first := by
    intro k hc
    cases hk : s.dict.get? k with
    | none => exact .inl ⟨rfl, hr.miss hk⟩
    | some c =>
      right
      obtain ⟨a, v, b, rfl, hne, hv⟩ := hr.split hk
      have hne' : ∀ e ∈ a.map (·.2) ++ b.map (·.2), e.1 ≠ k := by
        intro e he
        rw [← List.map_append] at he
        obtain ⟨w, hw, rfl⟩ := List.mem_map.mp he
        exact hne w hw
      simp only [List.map_append, List.map_cons] at hf hc ⊢
      have place := calm_place hf hc
      have place' : b ≠ [] ∨ a = [] ∨ max ≤ (a ++ (c, k, v) :: b).length := by simpa using place
      obtain ⟨s', e1, e2, e3⟩ := hr.front place'
      refine ⟨c, v, s', rfl, find_some fun e he => hne' e (List.mem_append_left _ he), e1, ?_, ?_⟩
      · rw [← hv]; exact congrArg (·.2.2) (e2.data c)
      · refine ⟨_, e3, ?_, ?_⟩
        · unfold Ideal.use
          rw [find_some fun e he => hne' e (List.mem_append_left _ he), without_some hne']; simp
        · unfold Ideal.use
          rw [find_some fun e he => hne' e (List.mem_append_left _ he), without_some hne']
          exact first_kept hf place
  cases o with
  | popItem k => cases hk
  | pop => cases hk
  | del k => cases hk
  | clear => cases hk
  | getItem k =>
    rw [call_getItem]
    rcases look k hc with ⟨h1, h2⟩ | ⟨c, v, s', h1, h2, h3, h4, h5⟩
    · rw [getItem_miss h1]
      simp only [Ideal.call, h2]
      refine ⟨rfl, z, hr, rfl, fun hl => ?_⟩
      cases z with
      | nil => rfl
      | cons e z => exact hf hl
    · have e : getItem k s = (.ok (some v), s') := by
        unfold getItem; simp only [bind_eq, get_eq, h1, h3, node_eq, pure_eq, h4]
      rw [e]
      simp only [Ideal.call, h2]
      rw [firstKey_cons (by rintro e; rw [e] at h2; cases h2)]
      exact ⟨rfl, h5⟩
  | get k =>
    rw [call_get]
    rcases look k hc with ⟨h1, h2⟩ | ⟨c, v, s', h1, h2, h3, h4, h5⟩
    · rw [getDefault_miss h1]
      simp only [Ideal.call, h2, Ideal.use]
      refine ⟨rfl, z, hr, rfl, fun hl => ?_⟩
      cases z with
      | nil => rfl
      | cons e z => exact hf hl
    · have e : getDefault k s = (.ok (some (some v)), s') := by
        unfold getDefault getItem
        simp [bind_eq, get_eq, Dict.has, h1, h3, node_eq, pure_eq, h4]
      rw [e]
      simp only [Ideal.call, h2]
      rw [firstKey_cons (by rintro e; rw [e] at h2; cases h2)]
      exact ⟨rfl, h5⟩
  | set k v =>
    rw [call_set]
    simp only [Ideal.call]
    cases hk : s.dict.get? k with
    | some c =>
      obtain ⟨a, w, b, rfl, hne, hv⟩ := hr.split hk
      have hne' : ∀ e ∈ a.map (·.2) ++ b.map (·.2), e.1 ≠ k := by
        intro e he
        rw [← List.map_append] at he
        obtain ⟨w, hw, rfl⟩ := List.mem_map.mp he
        exact hne w hw
      simp only [List.map_append, List.map_cons] at hf hc ⊢
      have place := calm_place hf hc
      have place' : b ≠ [] ∨ a = [] ∨ max ≤ (a ++ (c, k, v) :: b).length := by simpa using place
      -- the value is written first
      have hc1 : ∀ e ∈ a ++ b, e.1 ≠ c := by
        have nd := hr.nodup
        simp only [List.map_append, List.map_cons, List.nodup_append, List.nodup_cons] at nd
        intro e he
        rcases List.mem_append.mp he with he | he
        · exact nd.2.2 e.1 (List.mem_map.mpr ⟨e, he, rfl⟩) c (by simp)
        · rintro rfl; exact nd.2.1.1 (List.mem_map.mpr ⟨e, he, rfl⟩)
      have links : ∀ x, ((s.upd c fun y => { y with value := some v }).heap x).previous = (s.heap x).previous ∧
          ((s.upd c fun y => { y with value := some v }).heap x).next = (s.heap x).next := by
        intro x; by_cases e : x = c <;> simp [Cache.upd, e]
      have hw : Rep max (s.upd c fun y => { y with value := some v }) (a ++ (c, k, v) :: b) := by
        refine { maxEq := hr.maxEq, two := hr.two, le := by simpa using hr.le, nodup := by simpa using hr.nodup, keys := by simpa using hr.keys, node := ?_, dict := ?_, length := (show s.dict.length = _ by simpa using hr.length), dictKeys := hr.dictKeys, ring := ?_, tail := fun hl => (show s.tail = _ by simpa using hr.tail (by simpa using hl)), unlinked := fun hl x => ?_ }
        · intro e he
          by_cases e' : e.1 = c
          · have : e = (c, k, v) := by
              rw [List.mem_append, List.mem_cons] at he
              rcases he with he | he | he
              · exact absurd e' (hc1 e (List.mem_append_left _ he))
              · exact he
              · exact absurd e' (hc1 e (List.mem_append_right _ he))
            subst this
            obtain ⟨g1, g2⟩ := hr.node (c, k, w) (by simp)
            simp only [Node.data, Prod.mk.injEq] at g2
            exact ⟨g1, by simp [Cache.upd, Node.data, g2.1, g2.2.1]⟩
          · have he' : e ∈ a ++ (c, k, w) :: b := by
              rw [List.mem_append, List.mem_cons] at he ⊢
              rcases he with he | he | he
              · exact .inl he
              · exact absurd (by rw [he]) e'
              · exact .inr (.inr he)
            obtain ⟨g1, g2⟩ := hr.node e he'
            exact ⟨g1, by simp [Cache.upd, e']; exact g2⟩
        · intro k' n
          show s.dict.get? k' = some n ↔ _
          rw [hr.dict]
          simp only [List.mem_append, List.mem_cons, Prod.mk.injEq]
          constructor
          · rintro ⟨v', h | ⟨rfl, rfl, _⟩ | h⟩
            · exact ⟨v', .inl h⟩
            · exact ⟨v, .inr (.inl ⟨rfl, rfl, rfl⟩)⟩
            · exact ⟨v', .inr (.inr h)⟩
          · rintro ⟨v', h | ⟨rfl, rfl, _⟩ | h⟩
            · exact ⟨v', .inl h⟩
            · exact ⟨w, .inr (.inl ⟨rfl, rfl, rfl⟩)⟩
            · exact ⟨v', .inr (.inr h)⟩
        · have := hr.ring
          simp only [List.map_append, List.map_cons] at this ⊢
          revert this
          generalize a.map (·.1) ++ c :: b.map (·.1) = ns
          intro this
          match ns, this with
          | [], h => exact h
          | [x], h => exact ⟨h.1, (links x).1.trans h.2.1, (links x).2.trans h.2.2⟩
          | x :: y :: r, h => exact ⟨h.1, path_frame _ (fun x _ => (links x).2) (fun x _ => (links x).1) h.2⟩
        · rw [(links x).1, (links x).2]
          exact hr.unlinked (by simpa using hl) x
      obtain ⟨s', e1, e2, e3⟩ := hw.front place'
      have e : setItem k v s = (.ok (), s') := by
        unfold setItem; simp only [bind_eq, get_eq, hk, update_eq, e1]
      rw [e]
      refine ⟨rfl, _, e3, ?_, ?_⟩
      · unfold Ideal.set
        rw [find_some fun e he => hne' e (List.mem_append_left _ he), without_some hne']; simp
      · unfold Ideal.set
        rw [find_some fun e he => hne' e (List.mem_append_left _ he), without_some hne', firstKey_cons (by simp)]
        exact first_kept hf place
    | none =>
      have hfind := hr.miss hk
      unfold Ideal.set
      simp only [hfind]
      by_cases hl : z.length < max
      · obtain ⟨s', e1, e2⟩ := hr.insert k v hk hl
        rw [e1, if_pos (by simpa using hl)]
        refine ⟨rfl, _, e2, rfl, fun _ => ?_⟩
        cases z with
        | nil => simp [firstKey]
        | cons e z =>
          rw [firstKey_cons (by simp), hf (by simpa using hl)]
          simp [List.getLast?_cons]
      · rw [if_neg (by simpa using hl)]
        have hlen : z.length = max := by have := hr.le; omega
        have hz : z ≠ [] := by rintro rfl; simp at hlen; have := hr.two; omega
        obtain ⟨z', ⟨c, k0, v0⟩, rfl⟩ : ∃ z' q, z = z' ++ [q] := ⟨z.dropLast, z.getLast hz, (List.dropLast_concat_getLast _).symm⟩
        obtain ⟨s', e1, e2⟩ := hr.replace k v hk hlen
        rw [e1]
        refine ⟨rfl, _, e2, by simp, fun h => ?_⟩
        exfalso
        simp at h hlen; omega

theorem Same.run {max : Nat} (os : List (Op K V)) : ∀ {s : Cache K V} {l : Ideal K V} {first : Option K}, Same max s l first →
    Calm max l first os → (run s os).1 = (Ideal.run max l os).1 ∧ ∃ f, Same max (run s os).2 (Ideal.run max l os).2 f := by
  induction os with
  | nil => intro s l first h _; exact ⟨rfl, first, h⟩
  | cons o os ih =>
    intro s l first h hc
    obtain ⟨c1, c2, c3⟩ := hc
    obtain ⟨h1, h2⟩ := h.call o c1 c2
    obtain ⟨h3, h4⟩ := ih h2 c3
    refine ⟨?_, h4⟩
    simp only [Lru.run, Ideal.run, h1, h3]

theorem same_new (max : Nat) (h : 2 ≤ max) : Same max (Cache.new max : Cache K V) [] none :=
  ⟨[], rep_new max h, rfl, fun _ => rfl⟩

theorem Same.items {max : Nat} {s : Cache K V} {l : Ideal K V} {first : Option K} (h : Same max s l first) :
    (Lru.items s).1 = .ok (l.map fun e => (some e.1, some e.2)) := by
  obtain ⟨z, hr, rfl, _⟩ := h
  rw [hr.items]; simp

theorem Same.len {max : Nat} {s : Cache K V} {l : Ideal K V} {first : Option K} (h : Same max s l first) : Lru.len s = l.length := by
  obtain ⟨z, hr, rfl, _⟩ := h
  simp [Lru.len, hr.length]

/-! ### draining -/

/-- The entries that are left, in order, when a ring is emptied from the front. -/
structure Left (s : Cache K V) (z : List (Nat × K × V)) : Prop where
  nodup : (z.map (·.1)).Nodup
  keys : (z.map (·.2.1)).Nodup
  data : ∀ e ∈ z, (s.heap e.1).data = (false, some e.2.1, some e.2.2) ∧ s.dict.get? e.2.1 = some e.1
  length : s.dict.length = z.length
  dictKeys : s.dict.keys.Nodup
  head : z ≠ [] → s.head = (z.map (·.1)).head?
  path : ∀ x y a b, z.map (·.1) = a ++ x :: y :: b → (s.heap x).next = some y

theorem path_next {s : Cache K V} (l : List Nat) (h : Path s l) : ∀ x y a b, l = a ++ x :: y :: b → (s.heap x).next = some y := by
  rintro x y a b rfl
  have := (path_split s a x (y :: b)).mp h
  exact this.2.1.1

theorem Rep.left {max : Nat} {s : Cache K V} {z : List (Nat × K × V)} (h : Rep max s z) : Left s z := by
  refine { nodup := h.nodup, keys := h.keys, data := fun e he => ⟨(h.node e he).2, (h.dict _ _).mpr ⟨e.2.2, he⟩⟩, length := h.length, dictKeys := h.dictKeys, head := ?_, path := ?_ }
  · intro hz
    have := h.ring
    match z, hz with
    | [e], _ => exact this.1
    | e :: e' :: r, _ => exact this.1
  · intro x y a b hab
    have := h.ring
    rw [hab] at this
    cases a with
    | nil => exact path_next _ this.2 x y [] (b ++ [x]) (by simp)
    | cons w a =>
      cases a with
      | nil => exact path_next _ this.2 x y [w] (b ++ [w]) (by simp)
      | cons w' a => exact path_next _ this.2 x y (w :: w' :: a) (b ++ [w]) (by simp)

theorem Left.pop {s : Cache K V} {n : Nat} {k : K} {v : V} {z : List (Nat × K × V)} (h : Left s ((n, k, v) :: z)) :
    ∃ s', Lru.pop s = (.ok (some (some k, some v)), s') ∧ Left s' z := by
  have h1 : s.head = some n := h.head (by simp)
  have hl : ¬ s.dict.length < 1 := by rw [h.length]; simp
  obtain ⟨h2, h3⟩ := h.data (n, k, v) (by simp)
  simp only [Node.data, Prod.mk.injEq] at h2
  have hk' : (({ s with head := (s.heap n).next } : Cache K V).upd n fun y => { y with empty := true, key := none, value := none }).dict.get? k = some n := h3
  unfold Lru.pop
  simp only [bind_eq, get_eq, ite_eq, node_eq, if_neg hl, setHead_eq, update_eq, pure_eq, h1, deref_some, h2.2.1, h2.2.2, dictPop_hit hk']
  refine ⟨_, rfl, ?_⟩
  have nd := h.nodup
  have kn := h.keys
  simp only [List.map_cons, List.nodup_cons] at nd kn
  refine { nodup := nd.2, keys := kn.2, data := ?_, length := ?_, dictKeys := Dict.nodup_keys_erase _ _ h.dictKeys, head := ?_, path := ?_ }
  · intro e he
    obtain ⟨a1, a2⟩ := h.data e (List.mem_cons_of_mem _ he)
    have hne : e.1 ≠ n := by rintro rfl; exact nd.1 (List.mem_map.mpr ⟨e, he, rfl⟩)
    have hke : k ≠ e.2.1 := by rintro rfl; exact kn.1 (List.mem_map.mpr ⟨e, he, rfl⟩)
    refine ⟨by simp [Cache.upd, hne]; exact a1, ?_⟩
    show (s.dict.erase k).get? _ = _
    rw [Dict.get?_erase _ _ _ h.dictKeys, if_neg hke]; exact a2
  · have := Dict.length_erase s.dict k (mem_of_get? h3)
    have := h.length
    show (s.dict.erase k).length = _
    simp at this; omega
  · intro hz
    cases z with
    | nil => exact absurd rfl hz
    | cons e z => exact h.path n e.1 [] (z.map (·.1)) (by simp)
  · intro x y a b hab
    have := h.path x y (n :: a) b (by simp [hab])
    have hx : x ≠ n := by
      rintro rfl; apply nd.1
      show x ∈ z.map (·.1)
      rw [hab]; simp
    simp [Cache.upd, hx]; exact this

theorem Left.drain {z : List (Nat × K × V)} : ∀ {s : Cache K V}, Left s z → ∀ m, m ≤ z.length →
    (Lru.run s (List.replicate m Op.pop)).1 = (z.take m).map fun e => .ok (.entry (some (some e.2.1, some e.2.2))) := by
  induction z with
  | nil =>
    intro s h m hm
    obtain rfl : m = 0 := by simpa using hm
    rfl
  | cons e z ih =>
    intro s h m hm
    cases m with
    | zero => rfl
    | succ m =>
      obtain ⟨s', e1, e2⟩ := h.pop
      simp only [List.replicate_succ, Lru.run, List.take_succ_cons, List.map_cons]
      rw [call_pop, e1, ← ih e2 m (by simpa using hm)]
      rfl

end Verif.Lru
