import Verif.Server.Props

/-!
# A concrete request, evaluated

The non-vacuity example of `C40_chain`. It is a file of its own because evaluating it for a wrong model takes more memory than there is, which
would hide the errors in `Props`.
-/

namespace Verif.Server

open Verif.Py Verif.Server.Spec

example : calls (routeRequest exServer "a" exWorld).2.trace =
      [.before "first", .before "second", .handler "echo_function", .after "first", .after "second"] ∧
    calls (routeRequest exServer "b" exWorld).2.trace =
      [.before "first", .before "second", .handler "fail_function"] ∧
    (routeRequest exServer "a" exWorld).1 = .ok ⟨some 1, 0, .model (.obj [("x", .int 7)])⟩ := by
  refine ⟨by decide +kernel, by decide +kernel, by decide +kernel⟩

end Verif.Server
