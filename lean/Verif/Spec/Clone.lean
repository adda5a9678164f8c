import Verif.Model.Types
import Verif.Spec.Limit
/-
Specification: predicates whose copies can be relied on.
-/
namespace BeTree.Spec
open BeTree

/-- The test uses neither the time nor the position of the event. -/
def Placeless : Pred → Prop
  | .freq _ => False
  | .segment _ => False
  | .geo _ => False
  | _ => True

/-- The time or the position of the event, where the test uses it, is the first variable declared; a frequency cap is for the id 0. -/
def FirstPlaced : Pred → Prop
  | .freq f => f.now.var = 0 ∧ f.id = 0
  | .segment s => s.now.var = 0
  | .geo g => g.latVar.var = 0 ∧ g.lonVar.var = 0
  | _ => True

end BeTree.Spec
