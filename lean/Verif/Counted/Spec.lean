import Verif.Server.Props
import Verif.Stats.Props

/-! Specification vocabulary for C100. -/

namespace Verif.Counted

open Verif.Py Verif.Server Verif.Server.Spec

variable {K σ : Type}

/-- Code that hands nothing to the statistics itself (it does not handle requests), and does not raise a routing exception with the status of success. -/
def Plain {α : Type} (m : M K σ α) : Prop := ∀ w, (m w).2.served = w.served ∧ ∀ msg, (m w).1 ≠ .error (.routing 0 msg)

/-- Texts handled one after the other, with the answers. -/
def session (S : Server K σ) : List String → World K σ → List (String × Except Exc (Resp K)) × World K σ
  | [], w => ([], w)
  | t :: ts, w =>
    let (r, w') := routeRequest S t w
    let (rs, w'') := session S ts w'
    ((t, r) :: rs, w'')

/-- The route key in a text. -/
def routeIn (S : Server K σ) (text : String) : Option String :=
  match S.loads text with
  | .ok (.obj fields) => match Dict.get? fields "route_key" with
    | some (.str s) => some s
    | _ => none
  | _ => none

/-- Whether an answer reports success. -/
def succeeded : Except Exc (Resp K) → Bool
  | .ok resp => resp.status == 0
  | .error _ => false

/-- The route keys of the requests that were answered with success, in order. -/
def successes (S : Server K σ) (rs : List (String × Except Exc (Resp K))) : List String :=
  rs.filterMap fun x => if succeeded x.2 then routeIn S x.1 else none

/-- The calls the statistics were told of, in order. -/
def told : List Stats.Ev → List String
  | [] => []
  | .call r _ :: es => r :: told es
  | _ :: es => told es

end Verif.Counted
