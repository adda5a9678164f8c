import Verif.Model.ConfigMemory
import Verif.Spec.Memory
/-
Which blocks a configuration is, and how many it needs.
-/
namespace BeTree

/-! ### all blocks reached from a configuration -/

/-- the array of a hash map and its nodes -/
def MapImg.blocks (m : MapImg) : List Nat := m.array.toList ++ m.map.buckets.flatten.map (·.value.2)

/-- the name of a table of strings and its map -/
def StrImg.blocks (m : StrImg) : List Nat :=
  m.name :: (match m.map with | none => [] | some x => x.blocks)

/-- the name of a table of integers and its array -/
def IntImg.blocks (m : IntImg) : List Nat := m.name :: m.array.toList

def CfgImg.blocks (img : CfgImg) : List Nat :=
  img.config :: img.predMap :: img.rbtree ::
    (img.domArray.toList ++ (img.doms.flatMap (fun d => [d.1, d.2]) ++
    (img.intArray.toList ++ (img.ints.flatMap IntImg.blocks ++
    (img.strArray.toList ++ (img.strs.flatMap StrImg.blocks ++
    img.preds.nodeList))))))

/-! ### how many blocks a configuration needs -/

/-- an array that is there when something is in it -/
def arrayCount {α : Type} (l : List α) : Nat := if l.length = 0 then 0 else 1

/-- A configuration: itself, the predicate map and its tree; an array of attributes, and each attribute with its name; an array of tables of
integers, and for each its name and an array if it has integers; an array of tables of strings, and for each its name, an array of
buckets if it has texts, and a node for each text; a node for each predicate. -/
def Config.blockCount (cfg : Config) : Nat :=
  3 + arrayCount cfg.domains + 2 * cfg.domains.length
    + arrayCount cfg.intMaps + (cfg.intMaps.map fun m => 1 + arrayCount m.values).sum
    + arrayCount cfg.stringMaps + (cfg.stringMaps.map fun m => 1 + arrayCount m.values + m.values.length).sum
    + cfg.predMap.predCount

/-! ### when a configuration can be freed -/

/-- A limit on the number of texts or integers of an attribute is at least one; `count` is a `size_t`. -/
def Decl.LimitNonzero : Decl → Prop
  | .string count | .strList count | .intEnum count => 1 ≤ count ∧ count < 2 ^ 64
  | _ => True

/-- No table has as many entries as a `size_t` counts. -/
def Config.TablesFit (cfg : Config) : Prop :=
  (∀ m ∈ cfg.stringMaps, m.values.length < sizeMax) ∧ ∀ m ∈ cfg.intMaps, m.values.length < sizeMax

end BeTree
