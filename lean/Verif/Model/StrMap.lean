import Verif.Model.Types
/-
map.c: the string hash map (chained buckets, doubling).
-/
namespace BeTree

/-- `struct map_node_t` (map.c:14-20): hash, key, value; chains are lists. -/
structure MapNode (V : Type) where
  hash : Nat
  key : Str
  value : V

/-- `map_base_t` (map.h:23-26): `nbuckets` is the length of `buckets`. -/
structure HMap (V : Type) where
  buckets : List (List (MapNode V))
  nnodes : Nat

/-- `map_hash` (map.c:23-29): 32-bit arithmetic.  Bytes ≥ 128, which the code sign-extends, are taken as they are; the
theorems hold for every hash function. -/
def mapHash (s : Str) : Nat :=
  s.foldl (fun h c => ((h * 32 % 2 ^ 32 + h) % 2 ^ 32) ^^^ c.toNat) 5381

/-- `map_init` (map.h:37-38). -/
def HMap.empty {V : Type} : HMap V := { buckets := [], nnodes := 0 }

/-- `map_bucketidx` (map.c:48-52). -/
def bucketIdx (nbuckets hash : Nat) : Nat := hash &&& (nbuckets - 1)

/-- `map_addnode` (map.c:55-59): push in front of the chain.  (Out of range is a no-op here; it cannot happen, as
`bucketIdx n h < n` for `n > 0`.) -/
def addNode {V : Type} (buckets : List (List (MapNode V))) (n : MapNode V) : List (List (MapNode V)) :=
  buckets.modify (bucketIdx buckets.length n.hash) (n :: ·)

/-- chaining all nodes together (map.c:66-77): from the last bucket to the first, each node is pushed in front -/
def chainAll {V : Type} (buckets : List (List (MapNode V))) : List (MapNode V) :=
  buckets.reverse.flatten.foldl (fun acc n => n :: acc) []

/-- `map_resize` (map.c:62-97). -/
def resize {V : Type} (buckets : List (List (MapNode V))) (n : Nat) : List (List (MapNode V)) :=
  (chainAll buckets).foldl addNode (List.replicate n [])

/-- the test of `map_getref` (map.c:107) -/
def MapNode.is {V : Type} (n : MapNode V) (hash : Nat) (key : Str) : Bool := n.hash == hash && n.key == key

/-- `map_get_` (map.c:100-114, 131-134). -/
def HMap.get {V : Type} (hash : Str → Nat) (m : HMap V) (key : Str) : Option V :=
  match m.buckets[bucketIdx m.buckets.length (hash key)]? with
  | none => none
  | some chain => (chain.find? (·.is (hash key) key)).map (·.value)

/-- replacement of the value of the first node found (map.c:140-144) -/
def setFirst {V : Type} (hash : Nat) (key : Str) (v : V) : List (MapNode V) → List (MapNode V)
  | [] => []
  | n :: ns => if n.is hash key then { n with value := v } :: ns else n :: setFirst hash key v ns

/-- `map_set_` (map.c:137-166), allocation succeeding. -/
def HMap.set {V : Type} (hash : Str → Nat) (m : HMap V) (key : Str) (v : V) : HMap V :=
  match m.get hash key with
  | some _ =>
    { m with buckets := m.buckets.modify (bucketIdx m.buckets.length (hash key)) (setFirst (hash key) key v) }
  | none =>
    let buckets :=
      if m.nnodes ≥ m.buckets.length then resize m.buckets (if m.buckets.length > 0 then m.buckets.length * 2 else 1)
      else m.buckets
    { buckets := addNode buckets { hash := hash key, key := key, value := v }, nnodes := m.nnodes + 1 }

/-- removal of the first node found (map.c:170-177) -/
def removeFirst {V : Type} (hash : Nat) (key : Str) : List (MapNode V) → List (MapNode V)
  | [] => []
  | n :: ns => if n.is hash key then ns else n :: removeFirst hash key ns

/-- `map_remove_` (map.c:169-178). -/
def HMap.remove {V : Type} (hash : Str → Nat) (m : HMap V) (key : Str) : HMap V :=
  match m.get hash key with
  | none => m
  | some _ =>
    { buckets := m.buckets.modify (bucketIdx m.buckets.length (hash key)) (removeFirst (hash key) key)
      nnodes := m.nnodes - 1 }

end BeTree
