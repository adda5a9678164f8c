import Verif.Model.MapIter
/-
map.c: setting a value when memory may run out.
-/
namespace BeTree
variable {V : Type}

/-- `map_set_` (map.c:137-166) when `bmalloc` succeeds or not (`node`, map.c:147) and `brealloc` does or not (`grow`, map.c:79, 152): the map
afterwards, and whether 0 is returned.  If `brealloc` fails the nodes, which were taken out of their buckets, are put back into as many buckets as there
were (map.c:84-92), if there are any; the new node is freed. -/
def HMap.trySet (hash : Str → Nat) (node grow : Bool) (m : HMap V) (key : Str) (v : V) : HMap V × Bool :=
  match m.get hash key with
  | some _ => (m.set hash key v, true)
  | none =>
    if node then
      if m.nnodes ≥ m.buckets.length then
        if grow then (m.set hash key v, true)
        else ({ m with buckets := resize m.buckets m.buckets.length }, false)
      else (m.set hash key v, true)
    else (m, false)

/-- a call on a map (map.h:62-65), with what the memory allocator will say -/
inductive TryOp (V : Type) where
  | set (node grow : Bool) (key : Str) (v : V)
  | remove (key : Str)

/-- a call and what it returns, 0 or not (map.c:137-178) -/
def TryOp.run (hash : Str → Nat) : TryOp V → HMap V → HMap V × Bool
  | .set node grow k v, m => m.trySet hash node grow k v
  | .remove k, m => (m.remove hash k, true)

/-- a sequence of calls, and what each returns (map.c:137-178) -/
def HMap.tries (hash : Str → Nat) (m : HMap V) : List (TryOp V) → HMap V × List Bool
  | [] => (m, [])
  | o :: os =>
    let r := o.run hash m
    let rs := r.1.tries hash os
    (rs.1, r.2 :: rs.2)

end BeTree
