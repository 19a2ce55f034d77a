import Verif.Hooks.Model

/-!
# Specification: what middleware authors rely on
-/

namespace Verif.Hooks

open Verif.Py

/-- Values that JSON can express: no tuples, dictionaries with string keys only. -/
inductive Plain : Val → Prop where
  | none : Plain .none
  | bool (b) : Plain (.bool b)
  | int (i) : Plain (.int i)
  | float (r) : Plain (.float r)
  | str (s) : Plain (.str s)
  | list (items) (h : ∀ v ∈ items, Plain v) : Plain (.list items)
  | dict (fields : List (Key × Val)) (hk : ∀ f ∈ fields, ∃ s, f.1 = .str s) (hn : (fields.map Prod.fst).Nodup)
      (h : ∀ f ∈ fields, Plain f.2) : Plain (.dict fields)

/-- Among the dictionaries `rs`, given in order (`none` for hooks that returned `None`), the last that has `k` gives it the value `v`. -/
def LastSays (rs : List (Option Meta)) (k : Key) (v : Val) : Prop :=
  ∃ pre r post, rs = pre ++ some r :: post ∧ (k, v) ∈ r ∧ ∀ r', some r' ∈ post → ∀ v', (k, v') ∉ r'

variable {K D J E : Type}

/-- The hook changes neither payload nor metadata, whatever it returns or raises. -/
structure Hook.Reads (h : Hook K D E) : Prop where
  push : ∀ k d, (h.beforePush k d).2 = d
  before : ∀ k d md n, (h.beforeProcess k d md n).2 = (d, md)
  after : ∀ k d md b, (h.afterProcess k d md b).2 = (d, md)

/-- The event changes neither payload nor metadata. -/
def Event.Reads : Event K D E → Prop
  | .attempt hooks handler => (∀ h ∈ hooks, h.Reads) ∧ ∀ k d, (handler k d).2 = d
  | .reprocess => True

/-- The call shows exactly this key, payload and metadata. -/
def Call.Shows (key : K) (d : D) (md : Meta) : Call K D → Prop
  | .push .. => False
  | .before _ k d' md' _ => k = key ∧ d' = d ∧ md' = md
  | .handler k d' => k = key ∧ d' = d
  | .after _ k d' md' _ => k = key ∧ d' = d ∧ md' = md

/-- Who is called, and with which number of retries or which verdict. -/
inductive Who where
  | push (i : Nat)
  | before (i : Nat) (retries : Nat)
  | handler
  | after (i : Nat) (success : Bool)
  deriving DecidableEq, Repr

/-- Who a call is for. -/
def Call.who : Call K D → Who
  | .push i _ _ => .push i
  | .before i _ _ _ n => .before i n
  | .handler _ _ => .handler
  | .after i _ _ _ b => .after i b

/-- The calls of an attempt with `n` middlewares and the verdict `success` in which nobody raises. -/
def full (n retries : Nat) (success : Bool) : List Who :=
  (List.range n).map (.before · retries) ++ .handler :: (List.range n).map (.after · success)

/-- The call raised. -/
def Call.Raises (hooks : List (Hook K D E)) (handler : K → D → Except E Bool × D) : Call K D → Prop
  | .push i k d => ∃ h e, hooks[i]? = some h ∧ (h.beforePush k d).1 = .error e
  | .before i k d md n => ∃ h e, hooks[i]? = some h ∧ (h.beforeProcess k d md n).1 = .error e
  | .handler k d => ∃ e, (handler k d).1 = .error e
  | .after i k d md b => ∃ h e, hooks[i]? = some h ∧ (h.afterProcess k d md b).1 = .error e

/-- The last of the calls raised, the others did not. -/
def StopsWith (hooks : List (Hook K D E)) (handler : K → D → Except E Bool × D) (calls : List (Call K D)) : Prop :=
  ∃ pre c, calls = pre ++ [c] ∧ (∀ x ∈ pre, ¬ x.Raises hooks handler) ∧ c.Raises hooks handler

end Verif.Hooks
