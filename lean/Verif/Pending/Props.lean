import Verif.Pending.Lemmas

/-!
# Properties C13 to C15 of the pending/error pair
-/

set_option linter.unusedSectionVars false

namespace Verif.Pending

open Verif.Py Verif.Queue Verif.Queue.Spec

variable {K D M R S : Type} [DecidableEq K]

/-! ### examples -/

/-- Codecs of the examples: an entry is its own text. -/
def idCodecs : Codecs Nat (List Nat) Nat Nat (PEntry Nat (List Nat) Nat ⊕ EEntry Nat (List Nat) Nat Nat) :=
  ⟨⟨Sum.inl, fun s => s.getLeft?⟩, ⟨Sum.inr, fun s => s.getRight?⟩⟩

theorem idCodecs_lawful : idCodecs.Lawful := ⟨fun _ => rfl, fun _ => rfl⟩

/-- Two pending items and three failed ones, in pages of two. -/
def sample : Pair Nat (PEntry Nat (List Nat) Nat ⊕ EEntry Nat (List Nat) Nat Nat) :=
  let q := (Pair.open 2 [] []).pushPending idCodecs 1 [11] 0 101 |>.2
  let q := q.pushPending idCodecs 2 [12] 3 102 |>.2
  let q := q.pushError idCodecs 3 [13] 7 103 |>.2
  let q := q.pushError idCodecs 4 [14] 7 104 |>.2
  q.pushError idCodecs 5 [] 7 105 |>.2

theorem sample_reach : PReach idCodecs sample :=
  .pushError _ _ _ _ (.pushError _ _ _ _ (.pushError _ _ _ _ (.pushPending _ _ _ _ (.pushPending _ _ _ _ (.new (by decide))))))

/-! ### C13 -/

/-- Every reachable pair holds exactly one pending list and one error list. -/
theorem C13_content {c : Codecs K D M R S} (hc : c.Lawful) {q : Pair K S} (h : PReach c q) :
    ∃ lp le, PairHolds c q lp le ∧ ∀ lp' le', PairHolds c q lp' le' → lp' = lp ∧ le' = le := by
  obtain ⟨lp, le, h'⟩ := preach_inv hc h
  exact ⟨lp, le, h'.holds, fun _ _ g => ⟨holds_unique g.p h'.holds.p, holds_unique g.e h'.holds.e⟩⟩

/-- **C13**, part that holds: moving all errors back terminates without exception and empties the error
queue; if no failed item has the key of a pending one, every failed item is appended behind the pending
ones, in order, with retry count zero and with its payload and metadata.
Missing: failed items whose key is pending again (see `C13_reprocess_all_refuted`). -/
theorem C13_reprocess_all_partial {c : Codecs K D M R S} (hc : c.Lawful) {q : Pair K S} (h : PReach c q) {lp le}
    (hl : PairHolds c q lp le) (hd : ∀ x ∈ le, x.1 ∉ keys lp) {n : Nat} (hn : le.length < n) :
    ∃ q', q.moveAllN c n = some (.ok (), q') ∧ PairHolds c q' (lp ++ le.map revive) [] := by
  obtain ⟨q', h1, h2⟩ := inv_moveAllN hc le n (preach_inv' hc h hl) hn
  rw [moved_eq hl.e.1 hd] at h2
  exact ⟨q', h1, h2.holds⟩

/-- **C13**, for every pair: the move terminates without exception, the error queue ends empty, no
pending item is disturbed, and nothing but failed items is added. -/
theorem C13_reprocess_all_any_partial {c : Codecs K D M R S} (hc : c.Lawful) {q : Pair K S} (h : PReach c q) {lp le}
    (hl : PairHolds c q lp le) {n : Nat} (hn : le.length < n) :
    ∃ q' s, q.moveAllN c n = some (.ok (), q') ∧ s.Sublist (le.map revive) ∧ PairHolds c q' (lp ++ s) [] := by
  obtain ⟨q', h1, h2⟩ := inv_moveAllN hc le n (preach_inv' hc h hl) hn
  suffices hs : ∀ (le : List (K × EEntry K D M R)) lp, ∃ s, s.Sublist (le.map revive) ∧ moved lp le = lp ++ s by
    obtain ⟨s, hs1, hs2⟩ := hs le lp
    rw [hs2] at h2
    exact ⟨q', s, h1, hs1, h2.holds⟩
  intro le
  induction le with
  | nil => intro lp; exact ⟨[], by simp, by simp [moved]⟩
  | cons x le ih =>
    intro lp
    obtain ⟨s, hs1, hs2⟩ := ih (Spec.push lp (revive x).2 x.1)
    have e : moved lp (x :: le) = moved (Spec.push lp (revive x).2 x.1) le := rfl
    rw [e, hs2]
    unfold Spec.push
    split
    · exact ⟨s, by rw [List.map_cons]; exact hs1.cons _, rfl⟩
    · refine ⟨revive x :: s, by rw [List.map_cons]; exact hs1.cons_cons _, ?_⟩
      simp [revive]

example : PReach idCodecs sample ∧ sample.pending.size = 2 ∧ sample.error.size = 3 ∧
    ((sample.moveAllN idCodecs 4).map (fun r => (r.2.pending.size, r.2.error.size))) = some (5, 0) :=
  ⟨sample_reach, by decide, by decide, by decide⟩

/-- **C13 is false of the code.** A failed request whose key is pending again disappears when the errors
are moved back: one pending and one failed item become one pending item, and the failed payload 13 is
gone. -/
theorem C13_reprocess_all_refuted :
    ∃ q q', PReach idCodecs q ∧ q.pending.size = 1 ∧ q.error.size = 1 ∧ q.inspectError idCodecs 3 = .ok (some [13]) ∧
      q.moveAllN idCodecs 5 = some (.ok (), q') ∧ q'.pending.size = 1 ∧ q'.error.size = 0 ∧
      (q'.popPending idCodecs 3).1 = .ok (some [99]) :=
  ⟨((Pair.open 2 [] []).pushError idCodecs 3 [13] 7 103 |>.2).pushPending idCodecs 3 [99] 0 0 |>.2, _,
    .pushPending _ _ _ _ (.pushError _ _ _ _ (.new (by decide))), by decide, by decide, by rfl, by rfl, by decide, by decide, by rfl⟩

/-! ### C14 -/

/-- **C14.** Moving one failed item back removes it from the error queue; if its key is not pending it is
appended to the pending queue with retry count zero, its payload and its metadata, and its payload is
reported; an absent key changes nothing and reports nothing. -/
theorem C14_reprocess_one_partial {c : Codecs K D M R S} (hc : c.Lawful) {q : Pair K S} (h : PReach c q) {lp le}
    (hl : PairHolds c q lp le) (k : K) :
    (∀ v, (k, v) ∈ le → k ∉ keys lp → (q.moveOne c k).1 = .ok (some v.data) ∧
      PairHolds c (q.moveOne c k).2 (lp ++ [(k, ⟨k, 0, v.data, v.md⟩)]) (le.filter (fun e => e.1 ≠ k))) ∧
    (k ∉ keys le → (q.moveOne c k).1 = .ok none ∧ PairHolds c (q.moveOne c k).2 lp le) := by
  have hi := preach_inv' hc h hl
  obtain ⟨h1, h2⟩ := inv_popKeyErr hc hi k
  constructor
  · intro v hv hk
    rw [(lookup_some_iff hl.e.1 k v).mpr hv] at h1
    have e : q.error.popKey c.e k = (.ok (some v), (q.error.popKey c.e k).2) := by rw [← h1]
    obtain ⟨h3, h4⟩ := inv_pushPending hc h2 k v.data 0 v.md
    have e2 : Pair.pushPending c { q with error := (q.error.popKey c.e k).2 } k v.data 0 v.md =
        (.ok (), (Pair.pushPending c { q with error := (q.error.popKey c.e k).2 } k v.data 0 v.md).2) := by rw [← h3]
    have hm : q.moveOne c k = (.ok (some v.data),
        (Pair.pushPending c { q with error := (q.error.popKey c.e k).2 } k v.data 0 v.md).2) := by
      unfold Pair.moveOne; rw [e]; simp only; rw [e2]
    rw [hm]
    rw [Spec.push, if_neg hk] at h4
    exact ⟨rfl, h4.holds⟩
  · intro hk
    rw [(lookup_none_iff le k).mpr hk] at h1
    have e : q.error.popKey c.e k = (.ok none, (q.error.popKey c.e k).2) := by rw [← h1]
    have hm : q.moveOne c k = (.ok none, { q with error := (q.error.popKey c.e k).2 }) := by
      unfold Pair.moveOne; rw [e]
    rw [hm]
    refine ⟨rfl, ?_⟩
    have hw : without le k = le := by
      unfold without
      rw [List.filter_eq_self]
      intro x hx
      simp only [ne_eq, decide_eq_true_eq]
      intro ex; exact hk (List.mem_map.mpr ⟨x, hx, ex⟩)
    rw [hw] at h2
    exact h2.holds

example : PReach idCodecs sample ∧ (sample.moveOne idCodecs 4).1 = .ok (some [14]) ∧ (sample.moveOne idCodecs 4).2.pending.size = 3 :=
  ⟨sample_reach, by rfl, by decide⟩

/-- **C14 is false of the code** when the key is pending again: the failed item is removed and reported as
moved, but the pending queue keeps only the other payload. -/
theorem C14_reprocess_one_refuted :
    ∃ q : Pair Nat _, PReach idCodecs q ∧ q.pending.size = 1 ∧ (q.moveOne idCodecs 3).1 = .ok (some [13]) ∧
      (q.moveOne idCodecs 3).2.pending.size = 1 ∧ (q.moveOne idCodecs 3).2.error.size = 0 ∧
      ((q.moveOne idCodecs 3).2.popPending idCodecs 3).1 = .ok (some [99]) :=
  ⟨((Pair.open 2 [] []).pushError idCodecs 3 [13] 7 103 |>.2).pushPending idCodecs 3 [99] 0 0 |>.2,
    .pushPending _ _ _ _ (.pushError _ _ _ _ (.new (by decide))), by decide, by rfl, by decide, by decide, by rfl⟩

/-! ### C15 -/

/-- **C15**, part that holds: for payloads that are not empty, the three operator calls report a payload
exactly when a failed request with that key exists, and it is that request's payload.
Missing: empty payloads (see `C15_operator_calls_refuted`). -/
theorem C15_operator_calls_partial {c : Codecs K D M R S} (hc : c.Lawful) (truthy : D → Bool) {q : Pair K S} (h : PReach c q)
    {lp le} (hl : PairHolds c q lp le) (ht : ∀ x ∈ le, truthy x.2.data = true) (k : K) (r : Except PyErr (Option D))
    (hr : r = (opPop truthy c q k).1 ∨ r = opInspect truthy c q k ∨ r = (opReprocess truthy c q k).1) :
    (∀ d, r = .ok (some d) ↔ ∃ v, (k, v) ∈ le ∧ v.data = d) ∧ (r = .ok none ↔ k ∉ keys le) ∧ ∃ o, r = .ok o := by
  have hi := preach_inv' hc h hl
  obtain ⟨h1, h2⟩ := inv_popKeyErr hc hi k
  have hins := holds_inspect hl.e k
  have key : r = .ok ((lookup le k).map EEntry.data) := by
    have horn : orNone truthy ((lookup le k).map EEntry.data) = (lookup le k).map EEntry.data := by
      cases hlk : lookup le k with
      | none => rfl
      | some v =>
        have := ht _ ((lookup_some_iff hl.e.1 k v).mp hlk)
        simp only at this
        simp [orNone, this]
    rcases hr with hr | hr | hr
    · rw [hr]; simp only [opPop, Pair.popError, h1, Except.map, horn]
    · rw [hr]; simp only [opInspect, Pair.inspectError, hins, Except.map, horn]
    · rw [hr]
      have hm : (q.moveOne c k).1 = .ok ((lookup le k).map EEntry.data) := by
        cases hlk : lookup le k with
        | none =>
          rw [hlk] at h1
          have e : q.error.popKey c.e k = (.ok none, (q.error.popKey c.e k).2) := by rw [← h1]
          unfold Pair.moveOne; rw [e]; rfl
        | some v =>
          rw [hlk] at h1
          have e : q.error.popKey c.e k = (.ok (some v), (q.error.popKey c.e k).2) := by rw [← h1]
          obtain ⟨h3, h4⟩ := inv_pushPending hc h2 k v.data 0 v.md
          have e2 : Pair.pushPending c { q with error := (q.error.popKey c.e k).2 } k v.data 0 v.md =
            (.ok (), (Pair.pushPending c { q with error := (q.error.popKey c.e k).2 } k v.data 0 v.md).2) := by rw [← h3]
          unfold Pair.moveOne; rw [e]; simp only; rw [e2]; rfl
      simp only [opReprocess, hm, Except.map, horn]
  subst key
  refine ⟨fun d => ?_, ?_, _, rfl⟩
  · rw [Except.ok.injEq, Option.map_eq_some_iff]
    constructor
    · rintro ⟨v, hv, rfl⟩; exact ⟨v, (lookup_some_iff hl.e.1 k v).mp hv, rfl⟩
    · rintro ⟨v, hv, rfl⟩; exact ⟨v, (lookup_some_iff hl.e.1 k v).mpr hv, rfl⟩
  · rw [Except.ok.injEq, Option.map_eq_none_iff]; exact lookup_none_iff le k

/-- **C15**, effects: popping removes exactly the named failed request, whatever its payload, and leaves
the pending queue alone. (Inspecting returns no new state: it changes nothing.) -/
theorem C15_pop_removes {c : Codecs K D M R S} (hc : c.Lawful) (truthy : D → Bool) {q : Pair K S} (h : PReach c q)
    {lp le} (hl : PairHolds c q lp le) (k : K) :
    PairHolds c (opPop truthy c q k).2 lp (le.filter (fun e => e.1 ≠ k)) :=
  (inv_popKeyErr hc (preach_inv' hc h hl) k).2.holds

example : PReach idCodecs sample ∧ (opPop (fun d => !d.isEmpty) idCodecs sample 4).1 = .ok (some [14]) ∧
    opInspect (fun d => !d.isEmpty) idCodecs sample 9 = .ok none := ⟨sample_reach, by rfl, by rfl⟩

/-- **C15 is false of the code** for empty payloads: popping, inspecting or reprocessing a failed request
without fields reports "not found", although it is there; popping removes it all the same. -/
theorem C15_operator_calls_refuted :
    PReach idCodecs sample ∧ sample.inspectError idCodecs 5 = .ok (some []) ∧
      opInspect (fun d => !d.isEmpty) idCodecs sample 5 = .ok none ∧
      (opPop (fun d => !d.isEmpty) idCodecs sample 5).1 = .ok none ∧
      (opPop (fun d => !d.isEmpty) idCodecs sample 5).2.error.size = 2 ∧
      (opReprocess (fun d => !d.isEmpty) idCodecs sample 5).1 = .ok none ∧
      (opReprocess (fun d => !d.isEmpty) idCodecs sample 5).2.pending.size = 3 :=
  ⟨sample_reach, by rfl, by rfl, by rfl, by decide, by rfl, by decide⟩

end Verif.Pending
