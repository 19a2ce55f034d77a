import Verif.Startup.Model

/-!
# What an application that has tasks of its own may expect

From documentation/setup_tasks.md: tasks run before the first request reaches an endpoint; a task that raises ends the application, one that returns does
not; tasks are cancelled with the application. Said of what is observed (`Ev`) and of the code of `setup_tasks`.
-/

namespace Verif.Startup

/-- The tasks of the application that have begun to run, in order. -/
def began (tr : List Ev) : List Nat := tr.filterMap fun e => match e with
  | .started j => some j
  | _ => none

/-- A request has reached the application from outside, or an endpoint's function is called for one that has. -/
def Asked (e : Ev) : Prop := e = .accepted ∨ e = .handled .conn

/-- How many tasks `setup_tasks` creates before it suspends for the first time. -/
def upfront : List Cmd → Nat
  | .create _ :: cs => upfront cs + 1
  | _ => 0

/-- For each task that `setup_tasks` creates, in order: is it put into the list? -/
def flags (code : List Cmd) : List Bool := code.filterMap fun c => match c with
  | .create b => some b
  | _ => none

/-- The tasks that belong to the application's life: those of the library that are waited for and those that `setup_tasks` puts into the list. -/
def Belongs (code : List Cmd) : Kind → Prop
  | .inner => True
  | .server => True
  | .own j => (flags code)[j]? = some true
  | .worker => False
  | .conn => False

end Verif.Startup
