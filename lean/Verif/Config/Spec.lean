import Verif.Config.Model

/-! Specification vocabulary for C51, C52, C62, C64, C65: environment variable names as documented
(documentation/configuration/through_environment_variables.md). -/

namespace Verif.Config.Spec

open Verif.Py

/-- The variables that configure `setting` for an instance, most specific first. -/
def names (app inst : Str) (setting : Str) : List Str :=
  ["ECOENV_".toList ++ setting ++ "_".toList ++ app.map Char.toUpper ++ "_".toList ++ inst.map Char.toUpper,
   "ECOENV_".toList ++ setting ++ "_".toList ++ app.map Char.toUpper,
   "ECOENV_".toList ++ setting]

/-- A variable that is missing or empty counts as not set. -/
def Unset (env : Env) (name : Str) : Prop := Dict.get? env name = none ∨ Dict.get? env name = some []

/-- `v` is the value of the first variable in the list that is set; `d` if none is. -/
inductive First (env : Env) : List Str → Val → Val → Prop where
  | none (d : Val) : First env [] d d
  | here (n : Str) (ns : List Str) (d : Val) (v : Str) : Dict.get? env n = some v → v ≠ [] → First env (n :: ns) d (.text v)
  | later (n : Str) (ns : List Str) (d w : Val) : Unset env n → First env ns d w → First env (n :: ns) d w

/-- The documented settings. -/
def settings : List Str :=
  ["DEFAULT_DIR", "LOCK_DIR", "LOG_DIR", "BUFFER_DIR", "LOG_LEVEL", "LOG_BUF_SIZE", "LOG_MAX_FILES", "LOG_MAX_SIZE", "STAT_GP",
   "STAT_HL", "TCP", "UDP", "UDS"].map String.toList

/-- The three variables an extra setting can come from. -/
def extraMachine (name : Str) : Str := "ECOENV_EXTRA_".toList ++ name
def extraApp (app name : Str) : Str := extraMachine (app.map Char.toUpper ++ "_".toList ++ name)
def extraInst (app inst name : Str) : Str := extraApp app (inst.map Char.toUpper ++ "_".toList ++ name)

end Verif.Config.Spec
