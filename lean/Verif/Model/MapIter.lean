import Verif.Model.StrMap
/-
map.c: going through the keys of a string map.
-/
namespace BeTree
variable {V : Type}

/-- `map_iter_t` (map.h:27-30): `bucketidx` is an `unsigned`; the pointer `node` is the rest of the chain it points into, which is empty for `NULL`.
(The map is not changed while one goes through it.) -/
structure MapIter (V : Type) where
  bucketidx : Nat
  node : List (MapNode V)

/-- `map_iter_` (map.c:181-186) -/
def MapIter.start : MapIter V := ⟨2 ^ 32 - 1, []⟩

/-- the loop at `nextBucket` (map.c:198-204), the index having gone up to `i`.  `nbuckets` is an `unsigned`, so the index does not wrap here. -/
def nextBucket (buckets : List (List (MapNode V))) (i : Nat) : MapIter V :=
  if h : i < buckets.length then
    match buckets[i] with
    | [] => nextBucket buckets (i + 1)
    | n :: ns => ⟨i, n :: ns⟩
  else ⟨i, []⟩
termination_by buckets.length - i

/-- `map_next_` (map.c:189-207): the iterator afterwards; the result is the key of its node, `NULL` if there is none -/
def HMap.next (m : HMap V) (it : MapIter V) : MapIter V × Option Str :=
  let it' :=
    match it.node with
    | _ :: n :: ns => { it with node := n :: ns }
    | _ => nextBucket m.buckets ((it.bucketidx + 1) % 2 ^ 32)
  (it', it'.node.head?.map (·.key))

/-- what `k` calls of `map_next_` return (map.c:189-207) -/
def HMap.nexts (m : HMap V) : MapIter V → Nat → List (Option Str)
  | _, 0 => []
  | it, k + 1 => (m.next it).2 :: m.nexts (m.next it).1 k

end BeTree
