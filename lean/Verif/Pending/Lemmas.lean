import Verif.Pending.Observe
import Verif.Queue.Props

/-!
# The pending/error pair keeps two first-in first-out lists
-/

set_option linter.unusedSectionVars false

namespace Verif.Pending

open Verif.Py Verif.Queue Verif.Queue.Spec

variable {K D M R S : Type} [DecidableEq K]

/-- Reachability and content together, as needed by every step. -/
structure Inv (c : Codecs K D M R S) (q : Pair K S) (lp : List (K × PEntry K D M)) (le : List (K × EEntry K D M R)) :
    Prop where
  rp : Reach c.p q.pending
  re : Reach c.e q.error
  holds : PairHolds c q lp le

theorem popKey_reach {V : Type} {c : Codec V S} {q : PQ K S} (h : Reach c q) (k : K) : Reach c (q.popKey c k).2 :=
  Reach.step h (.popKey k)

theorem push_mem {V : Type} {l : Fifo K V} {v : V} {k : K} {x : K × V} (h : x ∈ Spec.push l v k) : x ∈ l ∨ x = (k, v) := by
  unfold Spec.push at h
  split at h
  · exact .inl h
  · simpa using h

theorem holds_push {V : Type} {c : Codec V S} (hc : c.Lawful) {q : PQ K S} (h : Reach c q) {l : Fifo K V} (hl : Holds c q l)
    (v : V) (k : K) : (q.push c v k).1 = .ok k ∧ Holds c (q.push c v k).2 (Spec.push l v k) := by
  obtain ⟨h1, h2⟩ := rep_push (reach_holds_rep hc h hl) v k
  exact ⟨h1, rep_holds hc h2⟩

theorem inv_pushPending {c : Codecs K D M R S} (hc : c.Lawful) {q : Pair K S} {lp le} (h : Inv c q lp le) (k : K) (d : D)
    (r : Nat) (m : M) : (q.pushPending c k d r m).1 = .ok () ∧
      Inv c (q.pushPending c k d r m).2 (Spec.push lp ⟨k, r, d, m⟩ k) le := by
  obtain ⟨h1, h2⟩ := holds_push hc.1 h.rp h.holds.p ⟨k, r, d, m⟩ k
  refine ⟨by simp [Pair.pushPending, h1, Except.map], Reach.step h.rp (.push _ k), h.re, h2, h.holds.e, ?_, h.holds.eKeys⟩
  intro x hx
  rcases push_mem hx with hx | rfl
  · exact h.holds.pKeys x hx
  · rfl

theorem inv_pushError {c : Codecs K D M R S} (hc : c.Lawful) {q : Pair K S} {lp le} (h : Inv c q lp le) (k : K) (d : D)
    (r : R) (m : M) : (q.pushError c k d r m).1 = .ok () ∧
      Inv c (q.pushError c k d r m).2 lp (Spec.push le ⟨k, d, r, m⟩ k) := by
  obtain ⟨h1, h2⟩ := holds_push hc.2 h.re h.holds.e ⟨k, d, r, m⟩ k
  refine ⟨by simp [Pair.pushError, h1, Except.map], h.rp, Reach.step h.re (.push _ k), h.holds.p, h2, h.holds.pKeys, ?_⟩
  intro x hx
  rcases push_mem hx with hx | rfl
  · exact h.holds.eKeys x hx
  · rfl

theorem holds_pop {V : Type} {c : Codec V S} {q : PQ K S} {l : Fifo K V} (hl : Holds c q l) :
    (q.pop c).1 = .ok (front l) ∧ Holds c (q.pop c).2 l.tail := by
  obtain ⟨l', h1, _⟩ := holds_next hl .pop
  have := h1.1
  exact ⟨by simpa [step] using this, hl.tail⟩

theorem inv_pop {c : Codecs K D M R S} {q : Pair K S} {lp le} (h : Inv c q lp le) :
    (q.pop c).1 = .ok (front lp) ∧ Inv c (q.pop c).2 lp.tail le := by
  obtain ⟨h1, h2⟩ := holds_pop h.holds.p
  exact ⟨h1, Reach.step h.rp .pop, h.re, h2, h.holds.e, fun x hx => h.holds.pKeys x (List.mem_of_mem_tail hx), h.holds.eKeys⟩

theorem inv_popErr {c : Codecs K D M R S} {q : Pair K S} {lp le} (h : Inv c q lp le) :
    (q.error.pop c.e).1 = .ok (front le) ∧ Inv c { q with error := (q.error.pop c.e).2 } lp le.tail := by
  obtain ⟨h1, h2⟩ := holds_pop h.holds.e
  exact ⟨h1, h.rp, Reach.step h.re .pop, h.holds.p, h2, h.holds.pKeys, fun x hx => h.holds.eKeys x (List.mem_of_mem_tail hx)⟩

theorem holds_popKey {V : Type} {c : Codec V S} (hc : c.Lawful) {q : PQ K S} (h : Reach c q) {l : Fifo K V} (hl : Holds c q l)
    (k : K) : (q.popKey c k).1 = .ok (lookup l k) ∧ Holds c (q.popKey c k).2 (without l k) := by
  obtain ⟨h1, h2⟩ := rep_popKey hc (reach_holds_rep hc h hl) k
  exact ⟨h1, rep_holds hc h2⟩

theorem inv_popKeyErr {c : Codecs K D M R S} (hc : c.Lawful) {q : Pair K S} {lp le} (h : Inv c q lp le) (k : K) :
    (q.error.popKey c.e k).1 = .ok (lookup le k) ∧
      Inv c { q with error := (q.error.popKey c.e k).2 } lp (without le k) := by
  obtain ⟨h1, h2⟩ := holds_popKey hc.2 h.re h.holds.e k
  exact ⟨h1, h.rp, popKey_reach h.re k, h.holds.p, h2, h.holds.pKeys, fun x hx => h.holds.eKeys x (List.mem_of_mem_filter hx)⟩

theorem inv_popKeyPend {c : Codecs K D M R S} (hc : c.Lawful) {q : Pair K S} {lp le} (h : Inv c q lp le) (k : K) :
    (q.pending.popKey c.p k).1 = .ok (lookup lp k) ∧
      Inv c { q with pending := (q.pending.popKey c.p k).2 } (without lp k) le := by
  obtain ⟨h1, h2⟩ := holds_popKey hc.1 h.rp h.holds.p k
  exact ⟨h1, popKey_reach h.rp k, h.re, h2, h.holds.e, fun x hx => h.holds.pKeys x (List.mem_of_mem_filter hx), h.holds.eKeys⟩

theorem inv_clear {c : Codecs K D M R S} (hc : c.Lawful) {q : Pair K S} {lp le} (h : Inv c q lp le) :
    Inv c q.clearError lp [] :=
  ⟨h.rp, Reach.step h.re .clear, h.holds.p, (C09_clear hc.2 h.re).1, h.holds.pKeys, by simp⟩

/-- Pending content after moving the failed items `le` behind `lp`. -/
def moved (lp : List (K × PEntry K D M)) (le : List (K × EEntry K D M R)) : List (K × PEntry K D M) :=
  le.foldl (fun l x => Spec.push l (revive x).2 x.1) lp

theorem lookup_key {V : Type} {l : Fifo K V} (hn : (keys l).Nodup) {k : K} {v : V} (h : lookup l k = some v) : (k, v) ∈ l :=
  (lookup_some_iff hn k v).mp h

theorem inv_moveAllN {c : Codecs K D M R S} (hc : c.Lawful) : ∀ (le : List (K × EEntry K D M R)) (n : Nat) {q : Pair K S} {lp},
    Inv c q lp le → le.length < n → ∃ q', q.moveAllN c n = some (.ok (), q') ∧ Inv c q' (moved lp le) [] := by
  intro le
  induction le with
  | nil =>
    intro n q lp h hn
    obtain ⟨n, rfl⟩ : ∃ m, n = m + 1 := ⟨n - 1, by simp at hn; omega⟩
    have hs : q.error.size = 0 := (C03_size hc.2 h.re h.holds.e).1
    refine ⟨q, ?_, h⟩
    rw [Pair.moveAllN, if_neg (by omega)]
  | cons x le ih =>
    intro n q lp h hn
    obtain ⟨n, rfl⟩ : ∃ m, n = m + 1 := ⟨n - 1, by simp at hn; omega⟩
    have hs : q.error.size = le.length + 1 := (C03_size hc.2 h.re h.holds.e).1
    obtain ⟨h1, h2⟩ := inv_popErr h
    have hx : x.2.key = x.1 := h.holds.eKeys x (by simp)
    obtain ⟨h3, h4⟩ := inv_pushPending hc h2 x.2.key x.2.data 0 x.2.md
    have hfront : front (x :: le) = some x.2 := rfl
    rw [hfront] at h1
    rw [List.tail_cons] at h4
    simp only [List.length_cons] at hn
    rw [Pair.moveAllN, if_pos (by omega)]
    have e1 : q.error.pop c.e = (.ok (some x.2), (q.error.pop c.e).2) := by rw [← h1]
    rw [e1]
    simp only
    have e2 : Pair.pushPending c { q with error := (q.error.pop c.e).2 } x.2.key x.2.data 0 x.2.md =
        (.ok (), (Pair.pushPending c { q with error := (q.error.pop c.e).2 } x.2.key x.2.data 0 x.2.md).2) := by rw [← h3]
    rw [e2]
    simp only
    obtain ⟨q', h5, h6⟩ := ih n h4 (by omega)
    refine ⟨q', h5, ?_⟩
    simp only [moved, List.foldl_cons, revive] at h6 ⊢
    rw [hx] at h6
    exact h6

theorem moved_eq {lp : List (K × PEntry K D M)} {le : List (K × EEntry K D M R)} (hn : (keys le).Nodup)
    (hd : ∀ x ∈ le, x.1 ∉ keys lp) : moved lp le = lp ++ le.map revive := by
  induction le generalizing lp with
  | nil => simp [moved]
  | cons x le ih =>
    have hx := hd x (by simp)
    simp only [keys, List.map_cons, List.nodup_cons] at hn
    have hp : Spec.push lp (revive x).2 x.1 = lp ++ [revive x] := by
      rw [Spec.push, if_neg hx]; rfl
    show moved (Spec.push lp (revive x).2 x.1) le = _
    rw [hp, ih hn.2]
    · simp
    · intro y hy hmem
      simp only [keys, List.map_append, List.mem_append, List.map_cons, List.map_nil, List.mem_singleton] at hmem
      rcases hmem with hm | hm
      · exact hd y (by simp [hy]) hm
      · exact hn.1 (List.mem_map.mpr ⟨y, hy, hm⟩)

theorem moveAllN_total {c : Codecs K D M R S} (n : Nat) {q : Pair K S} {r} (h : q.moveAllN c n = some r) :
    ∀ m, n ≤ m → q.moveAllN c m = some r := by
  induction n generalizing q with
  | zero => cases h
  | succ n ih =>
    intro m hm
    obtain ⟨m, rfl⟩ : ∃ k, m = k + 1 := ⟨m - 1, by omega⟩
    rw [Pair.moveAllN] at h ⊢
    split at h <;> rename_i hs
    · rw [if_pos hs]
      revert h
      split <;> intro h
      · exact h
      · exact h
      · revert h
        split <;> intro h
        · exact h
        · exact ih h m (by omega)
    · rw [if_neg hs]; exact h

theorem inv_new {c : Codecs K D M R S} (hc : c.Lawful) {p : Nat} (hp : 0 < p) : Inv c (Pair.open p ([] : Table K S) []) [] [] :=
  ⟨⟨[], p, [], .new, hp, rfl⟩, ⟨[], p, [], .new, hp, rfl⟩,
    rep_holds hc.1 (rep_fresh hp), rep_holds hc.2 (rep_fresh hp), by simp, by simp⟩

theorem pair_shutDown {c : Codecs K D M R S} (hc : c.Lawful) {q : Pair K S} {lp le} (h : Inv c q lp le) :
    q.shutDown = (.ok (), ⟨q.pending.shutDown.2, q.error.shutDown.2⟩) := by
  have h1 := (rep_shutDown (reach_holds_rep hc.1 h.rp h.holds.p)).1
  have h2 := (rep_shutDown (reach_holds_rep hc.2 h.re h.holds.e)).1
  unfold Pair.shutDown
  have e : q.pending.shutDown = (.ok (), q.pending.shutDown.2) := by rw [← h1]
  rw [e]
  simp only [h2]

theorem onDisk_db {V : Type} {c : Codec V S} {q : PQ K S} (h : Reach c q) : OnDisk c q.db := by
  obtain ⟨t, p, ops, ht, hp, rfl⟩ := h
  exact .running (ops := ops) (op := .size) ht hp (by simp [stepStates])

theorem recovered {V : Type} {c : Codec V S} {p : Nat} {t : Table K S} {w : Fifo K V} {n : Nat} (h : Recovers c p t w n)
    {P : K × V → Prop} (hw : ∀ x ∈ w, P x) : ∃ r, Holds c (PQ.open p t) r ∧ ∀ x ∈ r, P x := by
  obtain ⟨s, r, h1, _, h3, h4⟩ := h
  exact ⟨r, h3, fun x hx => hw x (h1.subset (h4.subset hx))⟩

theorem preach_inv {c : Codecs K D M R S} (hc : c.Lawful) {q : Pair K S} (h : PReach c q) :
    ∃ lp le, Inv c q lp le := by
  induction h with
  | new hp => exact ⟨_, _, inv_new hc hp⟩
  | pushPending k d r m _ ih => obtain ⟨lp, le, h⟩ := ih; exact ⟨_, _, (inv_pushPending hc h k d r m).2⟩
  | pushError k d r m _ ih => obtain ⟨lp, le, h⟩ := ih; exact ⟨_, _, (inv_pushError hc h k d r m).2⟩
  | pop _ ih => obtain ⟨lp, le, h⟩ := ih; exact ⟨_, _, (inv_pop h).2⟩
  | @moveAll q n r _ hr ih =>
    obtain ⟨lp, le, h⟩ := ih
    obtain ⟨q', h1, h2⟩ := inv_moveAllN hc le (le.length + 1 + n) h (by omega)
    have := moveAllN_total n hr (le.length + 1 + n) (by omega)
    rw [this] at h1
    simp only [Option.some.injEq] at h1
    rw [h1]; exact ⟨_, _, h2⟩
  | @moveOne q k _ ih =>
    obtain ⟨lp, le, h⟩ := ih
    obtain ⟨h1, h2⟩ := inv_popKeyErr hc h k
    unfold Pair.moveOne
    cases hl : lookup le k with
    | none =>
      rw [hl] at h1
      have e : q.error.popKey c.e k = (.ok none, (q.error.popKey c.e k).2) := by rw [← h1]
      rw [e]; exact ⟨_, _, h2⟩
    | some x =>
      rw [hl] at h1
      have e : q.error.popKey c.e k = (.ok (some x), (q.error.popKey c.e k).2) := by rw [← h1]
      rw [e]
      obtain ⟨h3, h4⟩ := inv_pushPending hc h2 k x.data 0 x.md
      simp only
      have e2 : Pair.pushPending c { q with error := (q.error.popKey c.e k).2 } k x.data 0 x.md =
        (.ok (), (Pair.pushPending c { q with error := (q.error.popKey c.e k).2 } k x.data 0 x.md).2) := by rw [← h3]
      rw [e2]; exact ⟨_, _, h4⟩
  | clearError _ ih => obtain ⟨lp, le, h⟩ := ih; exact ⟨_, _, inv_clear hc h⟩
  | popError k _ ih => obtain ⟨lp, le, h⟩ := ih; exact ⟨_, _, (inv_popKeyErr hc h k).2⟩
  | popPending k _ ih => obtain ⟨lp, le, h⟩ := ih; exact ⟨_, _, (inv_popKeyPend hc h k).2⟩
  | @restart q p _ hp ih =>
    obtain ⟨lp, le, h⟩ := ih
    rw [pair_shutDown hc h]
    obtain ⟨_, r1, l1, h1, p1⟩ := C06_restart hc.1 h.rp h.holds.p hp
    obtain ⟨_, r2, l2, h2, p2⟩ := C06_restart hc.2 h.re h.holds.e hp
    exact ⟨l1, l2, r1, r2, h1, h2, fun x hx => h.holds.pKeys x (p1.subset hx), fun x hx => h.holds.eKeys x (p2.subset hx)⟩
  | @crash q p _ hp ih =>
    obtain ⟨lp, le, h⟩ := ih
    obtain ⟨l1, h1, p1⟩ := recovered (C08_crash_between_calls hc.1 h.rp h.holds.p hp) h.holds.pKeys
    obtain ⟨l2, h2, p2⟩ := recovered (C08_crash_between_calls hc.2 h.re h.holds.e hp) h.holds.eKeys
    exact ⟨l1, l2, ⟨_, p, [], onDisk_db h.rp, hp, rfl⟩, ⟨_, p, [], onDisk_db h.re, hp, rfl⟩, h1, h2, p1, p2⟩

theorem preach_inv' {c : Codecs K D M R S} (hc : c.Lawful) {q : Pair K S} (h : PReach c q) {lp le} (hl : PairHolds c q lp le) :
    Inv c q lp le := by
  obtain ⟨lp', le', h'⟩ := preach_inv hc h
  rw [holds_unique hl.p h'.holds.p, holds_unique hl.e h'.holds.e]
  exact h'

end Verif.Pending
