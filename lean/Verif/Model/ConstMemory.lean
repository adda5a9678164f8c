import Verif.Model.Session
/-
The constants that the caller makes, gives to insertions, and frees.
-/
namespace BeTree

/-- `struct betree_constant` (tree.h:114-117) with its blocks: the structure and the copy of its name -/
structure ConstMem where
  name : Str
  value : Int
  obj : Nat
  text : Nat

/-- a constant without its blocks (tree.h:114-117) -/
def ConstMem.const (c : ConstMem) : Constant := ⟨c.name, .int c.value⟩

/-- `betree_make_integer_constant` (betree.c:725-736) -/
def makeConst (name : Str) (value : Int) : Mem ConstMem := do
  let obj ← malloc
  let text ← malloc
  pure ⟨name, value, obj, text⟩

/-- `betree_free_constant` (betree.c:738-743); `free_value` does nothing for integers (value.c:299-329) -/
def freeConst (c : ConstMem) : Mem Unit := do
  touch c.obj
  bfree c.text
  bfree c.obj

/-- `betree_free_constants` (betree.c:745-752): entries that are NULL are skipped -/
def freeConsts : List (Option ConstMem) → Mem Unit
  | [] => pure ()
  | none :: cs => freeConsts cs
  | some c :: cs => do
    freeConst c
    freeConsts cs

/-- the entries of an array of constants (betree.c:475-545); undefined behaviour if one was not made or is freed -/
def heldConsts (consts : List (Option ConstMem)) : List Nat → Except Fault (List ConstMem)
  | [] => .ok []
  | k :: ks =>
    match consts[k]? with
    | some (some c) =>
      match heldConsts consts ks with
      | .error e => .error e
      | .ok cs => .ok (c :: cs)
    | _ => .error .ub

/-- A call (betree.c:459-625, 725-954): a constant is made or freed, a request is inserted or built with an array of constants, given by their
numbers in the order in which they were made; or any other call. -/
inductive ConstOp where
  | make (name : Str) (value : Int)
  | free (k : Nat)
  | insert (id : Nat) (ks : List Nat) (text : Str)
  | makeSub (id : Nat) (ks : List Nat) (text : Str)
  | call (o : EventOp)

/-- a tree with all its memory, and the constants of the caller (tree.h:114-117) -/
structure ConstSession where
  tree : Session
  consts : List (Option ConstMem)

/-- A call (betree.c:459-625, 725-954).  Simplification: `get_integer_constant` (ast.c:1868-1883) reads the constants up to the one it looks for, for each
cap of the expression; here all that are given are read, once, at the beginning of the call. -/
def ConstSession.step (H : Str → Nat) (geo : GeoTest) (R : Rounding) (s : ConstSession) : ConstOp → Mem (ConstSession × List Answer)
  | .make name value => do
    let c ← makeConst name value
    pure ({ s with consts := s.consts ++ [some c] }, [])
  | .free k => do
    let c ← liftMem (heldAt s.consts k)
    freeConst c
    pure ({ s with consts := s.consts.set k none }, [])
  | .insert id ks text => do
    let cs ← liftMem (heldConsts s.consts ks)
    touchAll (cs.flatMap fun c => [c.obj, c.text])
    let a ← s.tree.run H geo R [.user (.tree (.call (.insert ⟨id, cs.map ConstMem.const, text⟩)))]
    pure ({ s with tree := a.1 }, a.2)
  | .makeSub id ks text => do
    let cs ← liftMem (heldConsts s.consts ks)
    touchAll (cs.flatMap fun c => [c.obj, c.text])
    let a ← s.tree.run H geo R [.user (.tree (.call (.makeSub ⟨id, cs.map ConstMem.const, text⟩)))]
    pure ({ s with tree := a.1 }, a.2)
  | .call o => do
    let a ← s.tree.run H geo R [o]
    pure ({ s with tree := a.1 }, a.2)

/-- A sequence of calls (betree.c:459-625, 725-954), and all answers. -/
def ConstSession.run (H : Str → Nat) (geo : GeoTest) (R : Rounding) (s : ConstSession) : List ConstOp → Mem (ConstSession × List Answer)
  | [] => pure (s, [])
  | o :: os => do
    let a ← s.step H geo R o
    let b ← a.1.run H geo R os
    pure (b.1, a.2 ++ b.2)

end BeTree
