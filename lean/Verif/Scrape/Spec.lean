import Verif.Scrape.Model
import Verif.Prom.Spec

/-! # What users expect of the exporter's discovery and polling -/

namespace Verif.Scrape.Spec

open Verif.Py Verif.Stats Verif.Prom.Spec

/-- A service that answers with its own statistics: none gathered yet, or what its statistics keeper reports, under its own name. -/
def Answers (t : Target) (d : Store) : Prop :=
  d = [] ∨ ∃ st gp hl es, (∀ e ∈ es, Plain e) ∧ Reported t.name t.inst st gp hl es d

end Verif.Scrape.Spec
