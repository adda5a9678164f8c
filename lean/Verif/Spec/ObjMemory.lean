import Verif.Model.ObjMemory
import Verif.Spec.EventMemory
/-
Which sequences of calls with events built by the caller give back all their memory.
-/
namespace BeTree
open Spec

/-- no entry of a list of strings, segments or caps is written twice -/
def Recipe.Once : Recipe → Prop
  | .strs _ ws => (ws.map Prod.fst).Nodup
  | .segs _ ws => (ws.map Prod.fst).Nodup
  | .caps _ ws => (ws.map Prod.fst).Nodup
  | _ => True

/-- a value made by the call, if any, is made without writing an entry twice -/
def EventOp.MadeOnce : EventOp → Prop
  | .set _ _ _ m => m.Once
  | .loose _ m => m.Once
  | _ => True

/-- the call does not change the tree and has no text: it works on events of the caller -/
def EventOp.Own : EventOp → Prop
  | .user _ => False
  | _ => True

/-- the call does not change the tree -/
def EventOp.Reads : EventOp → Prop
  | .user (.tree _) => False
  | _ => True

/-- which entries of which events are set, in order -/
def setAt : List EventOp → List (Nat × Nat)
  | [] => []
  | .set k index _ _ :: os => (k, index) :: setAt os
  | _ :: os => setAt os

/-- the calls with texts -/
def userOps : List EventOp → List UserOp
  | [] => []
  | .user o :: os => o :: userOps os
  | _ :: os => userOps os

/-- all blocks of an event made by the caller -/
def ObjMem.blocks (o : ObjMem) : List Nat := o.img.blocks

end BeTree
