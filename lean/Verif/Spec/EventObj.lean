import Verif.Spec.Room
import Verif.Model.EventObj
/-
Specification: events built by the caller and used for several searches.
-/
namespace BeTree.Spec
open BeTree

/-- the value last written at a position -/
def lastWrite {α : Type} (ws : List (Nat × α)) (i : Nat) : Option α := (ws.reverse.find? fun w => w.1 = i).map (·.2)

/-- the variables an event object holds, NULL entries left out -/
def held (ev : EventObj) : List EventVar := ev.filterMap id

/-- When two different strings of one list of the event were both unknown to the tree before, they still are.  (A string is known when
an expression given to the tree had it as a constant for that attribute.) -/
def StaysUnknown (before after : Config) (ev : EventObj) : Prop :=
  ∀ v ∈ held ev, ∀ l, v.value = .strList l → ∀ x ∈ l, ∀ y ∈ l, x.string ≠ y.string →
    x.string ∉ knownStrs before v.attr → y.string ∉ knownStrs before v.attr →
    x.string ∉ knownStrs after v.attr ∧ y.string ∉ knownStrs after v.attr

/-- no attribute has 2^64 - 1 or more strings -/
def FewStrings (cfg : Config) : Prop := ∀ m ∈ cfg.stringMaps, m.values.length < 2 ^ 64

end BeTree.Spec
