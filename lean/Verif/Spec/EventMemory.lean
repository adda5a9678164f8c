import Verif.Model.EventMemory
import Verif.Spec.MemWorld
/-
How many blocks an event has, and which sequences of calls give back all their memory.
-/
namespace BeTree
open Spec

/-! ### all blocks reached from an event -/

def ValImg.blocks : ValImg → List Nat
  | .plain => []
  | .str b => [b]
  | .ints l a => l :: a.toList
  | .strs l a ss => l :: (a.toList ++ ss)
  | .segs l a ss => l :: (a.toList ++ ss)
  | .caps l a cs => l :: (a.toList ++ (cs.map Prod.fst ++ cs.map Prod.snd))

def VarImg.blocks (v : VarImg) : List Nat := v.var :: v.attr :: v.value.blocks

def EventImg.blocks (e : EventImg) : List Nat := e.event :: (e.array.toList ++ e.vars.flatMap VarImg.blocks)

/-! ### how many blocks an event has -/

/-- a list with its header, and an array if it is not empty -/
def arrayBlocks (n : Nat) : Nat := if n = 0 then 1 else 2

def valueBlocks : Value → Nat
  | .bool _ => 0
  | .int _ => 0
  | .intEnum _ => 0
  | .float _ => 0
  | .string _ => 1
  | .intList l => arrayBlocks l.length
  | .strList l => arrayBlocks l.length + l.length
  | .segments l => arrayBlocks l.length + l.length
  | .freq l => arrayBlocks l.length + 2 * l.length

/-- the event with the array of its variables, and each variable with its name and its value -/
def eventBlocks (ev : List EventVar) : Nat := arrayBlocks ev.length + (ev.map fun v => 2 + valueBlocks v.value).sum

/-! ### sequences of calls -/

/-- the calls that change the tree -/
def treeOps : List UserOp → List MemOp
  | [] => []
  | .tree o :: os => o :: treeOps os
  | _ :: os => treeOps os

/-- no search was turned down because a mandatory variable was missing -/
def Answered : Answer → Prop
  | .report _ results => false ∉ results
  | .found _ => True

end BeTree
