import Verif.Model.Event
import Verif.Spec.Sat
/-
Specification: what a list of event variables, as given by the caller, means.
-/
namespace BeTree.Spec
open BeTree

/-- The event given by a list of settings: attribute names are case-insensitive and the last setting of a name counts. -/
def eventOf (ev : List EventVar) : Event := fun name =>
  (ev.reverse.find? (fun v => decide (lower v.attr = name))).map EventVar.value

/-- the event sets this (lower-case) attribute -/
def sets (ev : List EventVar) (name : Str) : Prop := ∃ v ∈ ev, lower v.attr = name

end BeTree.Spec
