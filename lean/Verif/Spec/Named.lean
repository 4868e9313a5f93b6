import Verif.Spec.CsvImport
import Verif.Spec.Saved
/-! # Names of flows -/
namespace Bpmn.Spec
open Bpmn.Csv Bpmn.Spec.Csv

/-- No flow has a name of white space only. -/
def NoBlankNames (d : Diagram) : Prop := ∀ f ∈ d.getFlows, ∀ x, f.2.2.name = some x → (∀ c ∈ x.toList, White c) → x = ""

end Bpmn.Spec
