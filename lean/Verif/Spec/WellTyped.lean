import Verif.Spec.Typed
import Verif.Model.Event
/-
Specification: events whose values have the declared types.
-/
namespace BeTree.Spec
open BeTree

/-- The value may be given for an attribute of the type.  An integer may be given for an integer enum, and the empty list, which
has no type of its own in an event, for any kind of list. -/
def Fits : VType → Value → Prop
  | .bool, .bool _ => True
  | .int, .int _ => True
  | .float, .float _ => True
  | .string, .string _ => True
  | .intEnum, .int _ => True
  | .intEnum, .intEnum _ => True
  | .intList, .intList _ => True
  | .strList, .strList _ => True
  | .strList, .intList [] => True
  | .segments, .segments _ => True
  | .segments, .intList [] => True
  | .freq, .freq _ => True
  | .freq, .intList [] => True
  | _, _ => False

/-- every attribute of the event is declared and has a value of its declared type -/
def WellTyped (ds : List Domain) (ev : List EventVar) : Prop :=
  ∀ v ∈ ev, ∃ t, declaredType ds v.attr = some t ∧ Fits t v.value

end BeTree.Spec
