import Verif.Fun.Spec
import Verif.Span.Props
import Mathlib.Data.List.Forall2

/-! # C92: the tracker's records -/

namespace Verif.Fun

open Verif.Py Verif.Span Spec

variable {T : Type}

theorem heard_old (ops : List (Op T)) (op : Op T) (h : keyOf op ∈ heard ops) : heard (ops ++ [op]) = heard ops := by
  induction ops with
  | nil => simp [heard] at h
  | cons x ops ih =>
    simp only [List.cons_append, heard]
    congr 1
    by_cases h2 : keyOf op ∈ heard ops
    · rw [ih h2]
    · simp only [heard, List.mem_cons, List.mem_filter, h2, false_and, or_false] at h
      rw [← h]
      have : ∀ ops : List (Op T), keyOf op ∉ heard ops → heard (ops ++ [op]) = heard ops ++ [keyOf op] := by
        intro ops
        induction ops with
        | nil => intro _; rfl
        | cons y ops ih =>
          intro hy
          simp only [heard, List.mem_cons, List.mem_filter, not_or, not_and] at hy
          have h3 : keyOf op ∉ heard ops := fun h => hy.2 h (by simpa using hy.1)
          simp only [List.cons_append, heard, ih h3, List.filter_append]
          simp [hy.1]
      rw [this _ h2, List.filter_append]
      simp

theorem heard_new (ops : List (Op T)) (op : Op T) (h : keyOf op ∉ heard ops) : heard (ops ++ [op]) = heard ops ++ [keyOf op] := by
  induction ops with
  | nil => rfl
  | cons y ops ih =>
    simp only [heard, List.mem_cons, List.mem_filter, not_or, not_and] at h
    have h3 : keyOf op ∉ heard ops := fun h' => h.2 h' (by simpa using h.1)
    simp only [List.cons_append, heard, ih h3, List.filter_append]
    simp [h.1]

theorem heard_nodup (ops : List (Op T)) : (heard ops).Nodup := by
  induction ops with
  | nil => exact List.nodup_nil
  | cons x ops ih =>
    simp only [heard, List.nodup_cons]
    exact ⟨by simp, ih.filter _⟩

theorem mem_heard (ops : List (Op T)) (k : SpanKey) : k ∈ heard ops ↔ ∃ op ∈ ops, keyOf op = k := by
  induction ops with
  | nil => simp [heard]
  | cons x ops ih =>
    simp only [heard, List.mem_cons, List.mem_filter, ih, exists_eq_or_imp, decide_eq_true_eq]
    constructor
    · rintro (rfl | ⟨h, -⟩)
      · exact .inl rfl
      · exact .inr h
    · rintro (h | h)
      · exact .inl h.symm
      · by_cases e : k = keyOf x
        · exact .inl e
        · exact .inr ⟨h, by simpa using e⟩

theorem lastRequest_snoc (k : SpanKey) (ops : List (Op T)) (op : Op T) :
    lastRequest k (ops ++ [op]) = match op with
      | .request k' m t => if k' = k then some (m, t) else lastRequest k ops
      | .response _ _ _ => lastRequest k ops := by
  induction ops with
  | nil => cases op <;> simp [lastRequest]
  | cons x ops ih =>
    simp only [List.cons_append, lastRequest, ih]
    cases op with
    | response => rfl
    | request k' m t =>
      simp only
      by_cases h : k' = k
      · simp only [h, if_true]
      · simp only [h, if_false]

theorem lastResponse_snoc (k : SpanKey) (ops : List (Op T)) (op : Op T) :
    lastResponse k (ops ++ [op]) = match op with
      | .response k' m t => if k' = k then some (m, t) else lastResponse k ops
      | .request _ _ _ => lastResponse k ops := by
  induction ops with
  | nil => cases op <;> simp [lastResponse]
  | cons x ops ih =>
    simp only [List.cons_append, lastResponse, ih]
    cases op with
    | request => rfl
    | response k' m t =>
      simp only
      by_cases h : k' = k
      · simp only [h, if_true]
      · simp only [h, if_false]

theorem run_snoc (t : Table T) (ops : List (Op T)) (op : Op T) :
    run t (ops ++ [op]) = ((run t ops).1 ++ [(step (run t ops).2 op).1], (step (run t ops).2 op).2) := by
  induction ops generalizing t with
  | nil => rfl
  | cons x ops ih => simp only [List.cons_append, run, ih]

/-- The table for some keys, with numbers from `n` on. -/
def rows (ops : List (Op T)) (n : Nat) (ks : List SpanKey) : Table T := (ks.zipIdx n).map fun x => rowOf ops x.1 x.2

theorem mem_number {ks : List SpanKey} {n : Nat} (hn : ks.Nodup) {x : SpanKey × Nat} (hx : x ∈ ks.zipIdx n) :
    x.2 = n + ks.idxOf x.1 ∧ x.1 ∈ ks := by
  induction ks generalizing n with
  | nil => simp at hx
  | cons c ks ih =>
    rw [List.nodup_cons] at hn
    rw [List.zipIdx_cons, List.mem_cons] at hx
    rcases hx with rfl | hx
    · simp
    · obtain ⟨h1, h2⟩ := ih hn.2 hx
      have hne : c ≠ x.1 := fun e => hn.1 (e ▸ h2)
      refine ⟨?_, .tail _ h2⟩
      rw [List.idxOf_cons_ne _ hne]
      omega

theorem bytes_inj {a b : SpanKey} (ha : a.Valid) (hb : b.Valid) (h : (a.bytes.toOption).getD [] = (b.bytes.toOption).getD []) : a = b := by
  obtain ⟨x, hx, -, hx'⟩ := C32_bytes_round_trip a ha
  obtain ⟨y, hy, -, hy'⟩ := C32_bytes_round_trip b hb
  rw [hx, hy] at h
  have h : x = y := h
  rw [h, hy'] at hx'
  exact (Except.ok.inj hx').symm

theorem existing_rows {ops : List (Op T)} {n : Nat} {ks : List SpanKey} (hn : ks.Nodup) (hv : ∀ k ∈ ks, k.Valid) {k : SpanKey} (hk : k.Valid) :
    (k ∈ ks → existing (rows ops n ks) ((k.bytes.toOption).getD []) = some (rowOf ops k (n + ks.idxOf k))) ∧
    (k ∉ ks → existing (rows ops n ks) ((k.bytes.toOption).getD []) = none) := by
  induction ks generalizing n with
  | nil => exact ⟨fun h => absurd h (by simp), fun _ => rfl⟩
  | cons c ks ih =>
    rw [List.nodup_cons] at hn
    have hi := ih (n := n + 1) hn.2 (fun k hk => hv k (.tail _ hk))
    unfold existing rows at hi ⊢
    rw [List.zipIdx_cons, List.map_cons, List.find?_cons]
    by_cases e : c = k
    · subst e
      simp [rowOf]
    · have hf : decide ((rowOf ops c n).key = (k.bytes.toOption).getD []) = false := by
        rw [decide_eq_false_iff_not]
        exact fun h => e (bytes_inj (hv c (.head _)) hk h)
      simp only [hf]
      constructor
      · intro hm
        rw [hi.1 ((List.mem_cons.1 hm).resolve_left (Ne.symm e)), List.idxOf_cons_ne _ e]
        congr 2
        omega
      · intro hm
        exact hi.2 fun h => hm (.tail _ h)

theorem update_rows {ops : List (Op T)} {n : Nat} {ks : List SpanKey} (hn : ks.Nodup) {k : SpanKey} (hk : k ∈ ks) (f : Row T → Row T) :
    update (rows ops n ks) (n + ks.idxOf k) f = (ks.zipIdx n).map fun x => if x.1 = k then f (rowOf ops x.1 x.2) else rowOf ops x.1 x.2 := by
  unfold update rows
  rw [List.map_map]
  apply List.map_congr_left
  intro x hx
  obtain ⟨h1, h2⟩ := mem_number hn hx
  have hid : (rowOf ops x.1 x.2).id = x.2 := rfl
  simp only [Function.comp, hid]
  have : x.2 = n + ks.idxOf k ↔ x.1 = k := by
    rw [h1]
    constructor
    · intro h
      have h : ks.idxOf x.1 = ks.idxOf k := by omega
      exact (List.idxOf_inj h2).1 h
    · rintro rfl; rfl
  by_cases e : x.1 = k
  · rw [if_pos (this.2 e), if_pos e]
  · rw [if_neg (fun h => e (this.1 h)), if_neg e]

theorem maxId_rows (ops : List (Op T)) (ks : List SpanKey) : maxId (rows ops 1 ks) = ks.length := by
  have key : ∀ (ks : List SpanKey) (n m : Nat), m < n → (rows ops n ks).foldl (fun m r => max m r.id) m = if ks = [] then m else n + ks.length - 1 := by
    intro ks
    induction ks with
    | nil => intro n m _; rfl
    | cons c ks ih =>
      intro n m hm
      have hid : (rowOf ops c n).id = n := rfl
      have := ih (n + 1) n (by omega)
      unfold rows at this ⊢
      rw [List.zipIdx_cons, List.map_cons, List.foldl_cons]
      simp only [hid]
      rw [show max m n = n by omega, this]
      cases ks with
      | nil => simp
      | cons d ks => simp; omega
  unfold maxId
  have hl : (rows ops 1 ks).length = ks.length := by simp [rows]
  rw [hl, key ks 1 0 (by omega)]
  cases ks with
  | nil => rfl
  | cons c ks => simp

theorem insert_rows {ops : List (Op T)} {ks : List SpanKey} (hv : ∀ k ∈ ks, k.Valid) {k : SpanKey} (hk : k.Valid) (hn : k ∉ ks) (r : Row T)
    (hid : r.id = ks.length + 1) (hb : r.key = (k.bytes.toOption).getD []) : insert (rows ops 1 ks) r = .ok (rows ops 1 ks ++ [r]) := by
  unfold insert
  rw [if_neg]
  simp only [List.any_eq_true, Bool.or_eq_true, decide_eq_true_eq, not_exists, not_and, not_or]
  intro r' hr'
  unfold rows at hr'
  obtain ⟨x, hx, rfl⟩ := List.mem_map.1 hr'
  have hx2 : x.1 ∈ ks ∧ x.2 < 1 + ks.length := by
    have h := List.mem_zipIdx hx
    exact ⟨by rw [h.2.2]; exact List.getElem_mem _, by omega⟩
  refine ⟨?_, ?_⟩
  · show ¬ x.2 = r.id
    omega
  · rw [hb]
    intro h
    exact hn (bytes_inj (hv _ hx2.1) hk h ▸ hx2.1)

/-- **C92.** Whatever is logged, in any order: there is one row for every key that was heard of, in the order in which they were, numbered
from 1 on, holding the last request and the last response logged under that key, each with its time; and no call raises. -/
theorem C92_records (ops : List (Op T)) (hv : ∀ op ∈ ops, (keyOf op).Valid) :
    run [] ops = (ops.map fun _ => .ok true, ((heard ops).zipIdx 1).map fun x => rowOf ops x.1 x.2) := by
  induction ops using List.reverseRecOn with
  | nil => rfl
  | append_singleton ops op ih =>
    have hi := ih fun o ho => hv o (List.mem_append_left _ ho)
    have hk : (keyOf op).Valid := hv op (by simp)
    have hvk : ∀ k ∈ heard ops, k.Valid := by
      intro k hk
      obtain ⟨o, ho, rfl⟩ := (mem_heard ops k).1 hk
      exact hv o (List.mem_append_left _ ho)
    have hnd := heard_nodup ops
    obtain ⟨b, hb, -, -⟩ := C32_bytes_round_trip _ hk
    have hbb : b = ((keyOf op).bytes.toOption).getD [] := by rw [hb]; rfl
    rw [run_snoc, hi]
    have hex0 := existing_rows (ops := ops) (n := 1) hnd hvk hk
    have hstep : step (rows ops 1 (heard ops)) op = (.ok true, ((heard (ops ++ [op])).zipIdx 1).map fun x => rowOf (ops ++ [op]) x.1 x.2) := by
      by_cases hm : keyOf op ∈ heard ops
      · have hex := hex0.1 hm
        rw [← hbb] at hex
        clear hex0
        rw [heard_old ops op hm]
        cases op with
        | request k m t =>
          simp only [keyOf] at hex hb hm
          simp only [step, logRequest, hb, hex]
          rw [show (rowOf ops k (1 + (heard ops).idxOf k)).id = 1 + (heard ops).idxOf k from rfl, update_rows hnd hm]
          simp only [Prod.mk.injEq, true_and]
          apply List.map_congr_left
          intro x _
          unfold rowOf
          rw [lastRequest_snoc, lastResponse_snoc]
          simp only
          by_cases e : x.1 = k
          · simp only [e, if_true, Option.map_some]
          · simp only [e, Ne.symm e, if_false]
        | response k m t =>
          simp only [keyOf] at hex hb hm
          simp only [step, logResponse, hb, hex]
          rw [show (rowOf ops k (1 + (heard ops).idxOf k)).id = 1 + (heard ops).idxOf k from rfl, update_rows hnd hm]
          simp only [Prod.mk.injEq, true_and]
          apply List.map_congr_left
          intro x _
          unfold rowOf
          rw [lastRequest_snoc, lastResponse_snoc]
          simp only
          by_cases e : x.1 = k
          · simp only [e, if_true, Option.map_some]
          · simp only [e, Ne.symm e, if_false]
      · have hex := hex0.2 hm
        rw [← hbb] at hex
        clear hex0
        rw [heard_new ops op hm]
        have hreq : lastRequest (keyOf op) ops = none ∧ lastResponse (keyOf op) ops = none := by
          have : ∀ os : List (Op T), (∀ o ∈ os, keyOf o ≠ keyOf op) → lastRequest (keyOf op) os = none ∧ lastResponse (keyOf op) os = none := by
            intro os
            induction os with
            | nil => exact fun _ => ⟨rfl, rfl⟩
            | cons o os ih =>
              intro h
              obtain ⟨h1, h2⟩ := ih fun o ho => h o (.tail _ ho)
              have h3 := h o (.head _)
              cases o with
              | request k m t =>
                have h3 : k ≠ keyOf op := h3
                simp only [lastRequest, lastResponse, h1, h2, h3, if_false, and_self]
              | response k m t =>
                have h3 : k ≠ keyOf op := h3
                simp only [lastRequest, lastResponse, h1, h2, h3, if_false, and_self]
          exact this ops fun o ho e => hm ((mem_heard ops _).2 ⟨o, ho, e⟩)
        have hrest : rows ops 1 (heard ops) = ((heard ops).zipIdx 1).map fun x => rowOf (ops ++ [op]) x.1 x.2 := by
          unfold rows
          apply List.map_congr_left
          intro x hx
          have hx1 : x.1 ≠ keyOf op := fun e => hm (e ▸ (mem_number hnd hx).2)
          unfold rowOf
          rw [lastRequest_snoc, lastResponse_snoc]
          cases op with
          | request k m t =>
            simp only [keyOf] at hx1
            simp only [Ne.symm hx1, if_false]
          | response k m t =>
            simp only [keyOf] at hx1
            simp only [Ne.symm hx1, if_false]
        rw [List.zipIdx_append, List.map_append, ← hrest]
        simp only [List.zipIdx_cons, List.zipIdx_nil, List.map_cons, List.map_nil]
        cases op with
        | request k m t =>
          simp only [keyOf] at hex hb hm hk hreq hbb
          simp only [step, logRequest, hb, hex]
          rw [insert_rows hvk hk hm _ (by rw [maxId_rows]) hbb, maxId_rows]
          simp only [Prod.mk.injEq, true_and, List.append_cancel_left_eq, List.cons.injEq, and_true]
          unfold rowOf
          rw [lastRequest_snoc, lastResponse_snoc]
          simp only [keyOf, hreq, if_true, Option.map_some, Option.map_none, hbb, Nat.add_comm]
        | response k m t =>
          simp only [keyOf] at hex hb hm hk hreq hbb
          simp only [step, logResponse, hb, hex]
          rw [insert_rows hvk hk hm _ (by rw [maxId_rows]) hbb, maxId_rows]
          simp only [Prod.mk.injEq, true_and, List.append_cancel_left_eq, List.cons.injEq, and_true]
          unfold rowOf
          rw [lastRequest_snoc, lastResponse_snoc]
          simp only [keyOf, hreq, if_true, Option.map_some, Option.map_none, hbb, Nat.add_comm]
    show ((ops.map fun _ => .ok true) ++ [(step (rows ops 1 (heard ops)) op).1], (step (rows ops 1 (heard ops)) op).2) = _
    rw [hstep]
    simp

theorem lastRequest_mem {k : SpanKey} {ops : List (Op T)} {m : Str} {t : T} (h : lastRequest k ops = some (m, t)) : .request k m t ∈ ops := by
  induction ops with
  | nil => simp [lastRequest] at h
  | cons o ops ih =>
    cases hr : lastRequest k ops with
    | some x =>
      simp only [lastRequest, hr] at h
      exact .tail _ (ih (hr.trans h))
    | none =>
      cases o with
      | response => simp [lastRequest, hr] at h
      | request k' m' t' =>
        simp only [lastRequest, hr] at h
        split at h
        · next e =>
          simp only [Option.some.injEq, Prod.mk.injEq] at h
          obtain ⟨rfl, rfl⟩ := h
          exact e ▸ .head _
        · simp at h

theorem lastResponse_mem {k : SpanKey} {ops : List (Op T)} {m : Str} {t : T} (h : lastResponse k ops = some (m, t)) :
    .response k m t ∈ ops := by
  induction ops with
  | nil => simp [lastResponse] at h
  | cons o ops ih =>
    cases hr : lastResponse k ops with
    | some x =>
      simp only [lastResponse, hr] at h
      exact .tail _ (ih (hr.trans h))
    | none =>
      cases o with
      | request => simp [lastResponse, hr] at h
      | response k' m' t' =>
        simp only [lastResponse, hr] at h
        split at h
        · next e =>
          simp only [Option.some.injEq, Prod.mk.injEq] at h
          obtain ⟨rfl, rfl⟩ := h
          exact e ▸ .head _
        · simp at h

theorem lastRequest_isSome {k : SpanKey} {ops : List (Op T)} {m : Str} {t : T} (h : .request k m t ∈ ops) : ∃ x, lastRequest k ops = some x := by
  induction ops with
  | nil => cases h
  | cons o ops ih =>
    cases hr : lastRequest k ops with
    | some x => exact ⟨x, by simp only [lastRequest, hr]⟩
    | none =>
      rcases List.mem_cons.1 h with rfl | h
      · exact ⟨(m, t), by simp only [lastRequest, hr, if_true]⟩
      · obtain ⟨x, hx⟩ := ih h
        rw [hr] at hx
        cases hx

theorem lastResponse_isSome {k : SpanKey} {ops : List (Op T)} {m : Str} {t : T} (h : .response k m t ∈ ops) :
    ∃ x, lastResponse k ops = some x := by
  induction ops with
  | nil => cases h
  | cons o ops ih =>
    cases hr : lastResponse k ops with
    | some x => exact ⟨x, by simp only [lastResponse, hr]⟩
    | none =>
      rcases List.mem_cons.1 h with rfl | h
      · exact ⟨(m, t), by simp only [lastResponse, hr, if_true]⟩
      · obtain ⟨x, hx⟩ := ih h
        rw [hr] at hx
        cases hx

/-- **C92, messages delivered in another order or several times.** As buffered senders and endpoints promise no order (C07) and may deliver a
message twice (C77): any two sequences with the same messages in them leave the same records, but for their numbers. -/
theorem C92_any_order (ops ops' : List (Op T)) (hc : Consistent ops) (h : ∀ op, op ∈ ops ↔ op ∈ ops') (hv : ∀ op ∈ ops, (keyOf op).Valid) :
    (run [] ops).2.length = (run [] ops').2.length ∧
    ∀ k : SpanKey, k.Valid → ∀ b, k.bytes = .ok b →
      ((existing (run [] ops).2 b).map fun r => { r with id := 0 }) = ((existing (run [] ops').2 b).map fun r => { r with id := 0 }) := by
  have hv' : ∀ op ∈ ops', (keyOf op).Valid := fun op ho => hv op ((h op).2 ho)
  have hm : ∀ k, k ∈ heard ops ↔ k ∈ heard ops' := by
    intro k
    rw [mem_heard, mem_heard]
    simp only [h]
  have e1 : ∀ k, lastRequest k ops = lastRequest k ops' := by
    intro k
    cases h1 : lastRequest k ops with
    | none =>
      cases h2 : lastRequest k ops' with
      | none => rfl
      | some x =>
        obtain ⟨y, hy⟩ := lastRequest_isSome ((h _).2 (lastRequest_mem (m := x.1) (t := x.2) h2))
        rw [h1] at hy
        cases hy
    | some x =>
      have m1 := lastRequest_mem (m := x.1) (t := x.2) h1
      obtain ⟨y, hy⟩ := lastRequest_isSome ((h _).1 m1)
      obtain ⟨a, b⟩ := hc.1 _ _ _ _ _ m1 ((h _).2 (lastRequest_mem (m := y.1) (t := y.2) hy))
      rw [hy]
      exact congrArg some (Prod.ext a b)
  have e2 : ∀ k, lastResponse k ops = lastResponse k ops' := by
    intro k
    cases h1 : lastResponse k ops with
    | none =>
      cases h2 : lastResponse k ops' with
      | none => rfl
      | some x =>
        obtain ⟨y, hy⟩ := lastResponse_isSome ((h _).2 (lastResponse_mem (m := x.1) (t := x.2) h2))
        rw [h1] at hy
        cases hy
    | some x =>
      have m1 := lastResponse_mem (m := x.1) (t := x.2) h1
      obtain ⟨y, hy⟩ := lastResponse_isSome ((h _).1 m1)
      obtain ⟨a, b⟩ := hc.2 _ _ _ _ _ m1 ((h _).2 (lastResponse_mem (m := y.1) (t := y.2) hy))
      rw [hy]
      exact congrArg some (Prod.ext a b)
  rw [C92_records ops hv, C92_records ops' hv']
  have hvk : ∀ k ∈ heard ops, k.Valid := by
    intro k hk
    obtain ⟨o, ho, rfl⟩ := (mem_heard ops k).1 hk
    exact hv o ho
  have hvk' : ∀ k ∈ heard ops', k.Valid := fun k hk => hvk k ((hm k).2 hk)
  refine ⟨?_, ?_⟩
  · simp only [List.length_map, List.length_zipIdx]
    exact ((List.perm_ext_iff_of_nodup (heard_nodup ops) (heard_nodup ops')).2 hm).length_eq
  · intro k hk b hb
    have x1 := existing_rows (ops := ops) (n := 1) (heard_nodup ops) hvk hk
    have x2 := existing_rows (ops := ops') (n := 1) (heard_nodup ops') hvk' hk
    have hbb : ((k.bytes.toOption).getD []) = b := by rw [hb]; rfl
    rw [hbb] at x1 x2
    unfold rows at x1 x2
    by_cases hin : k ∈ heard ops
    · rw [x1.1 hin, x2.1 ((hm k).1 hin)]
      simp only [Option.map_some, rowOf, e1, e2]
    · rw [x1.2 hin, x2.2 fun h => hin ((hm k).2 h)]

/-- **C92, keys that have no bytes.** Span keys with a negative span id, which JSON may carry (C33), make the endpoints raise and leave the
table as it is. -/
theorem C92_negative (t : Table T) (k : SpanKey) (h : k.span.value < 0) (m : Str) (time : T) :
    step t (.request k m time) = (.error .overflowError, t) ∧ step t (.response k m time) = (.error .overflowError, t) := by
  have := (C33_negative_has_no_bytes k h k).1
  simp only [step, logRequest, logResponse, this, and_self]

/-- Two requests and a response that overtakes its request and comes twice. -/
def exOps : List (Op Nat) :=
  [.response sampleKey "ha".toList 2, .request ⟨7, ⟨7⟩⟩ "time".toList 1, .request sampleKey "joke".toList 0, .response sampleKey "ha".toList 2]

example : (∀ op ∈ exOps, (keyOf op).Valid) ∧ Consistent exOps ∧ heard exOps = [sampleKey, ⟨7, ⟨7⟩⟩] ∧
    lastRequest sampleKey exOps = some ("joke".toList, 0) ∧ lastResponse sampleKey exOps = some ("ha".toList, 2) ∧
    lastResponse ⟨7, ⟨7⟩⟩ exOps = none ∧ (run [] exOps).2.length = 2 := by
  refine ⟨?_, ⟨?_, ?_⟩, by decide +kernel, by decide +kernel, by decide +kernel, by decide +kernel, by decide +kernel⟩
  · intro op ho
    simp only [exOps, List.mem_cons, List.not_mem_nil, or_false] at ho
    rcases ho with rfl | rfl | rfl | rfl
    · exact sampleKey_valid
    · exact ⟨by decide, by decide, by decide⟩
    · exact sampleKey_valid
    · exact sampleKey_valid
  · intro k m t m' t' h h'
    simp only [exOps, List.mem_cons, List.not_mem_nil, or_false, reduceCtorEq, false_or, Op.request.injEq] at h h'
    rcases h with ⟨rfl, rfl, rfl⟩ | ⟨rfl, rfl, rfl⟩ <;> rcases h' with ⟨h, rfl, rfl⟩ | ⟨h, rfl, rfl⟩ <;>
      first | exact ⟨rfl, rfl⟩ | exact absurd h (by decide)
  · intro k m t m' t' h h'
    simp only [exOps, List.mem_cons, List.not_mem_nil, or_false, reduceCtorEq, false_or, Op.response.injEq] at h h'
    rcases h with ⟨rfl, rfl, rfl⟩ | ⟨rfl, rfl, rfl⟩ <;> rcases h' with ⟨h, rfl, rfl⟩ | ⟨h, rfl, rfl⟩ <;> exact ⟨rfl, rfl⟩

end Verif.Fun
