import Verif.Model.NodeMemory
import Verif.Model.StrMap
/-
Memory of the configuration: the blocks of the declared attributes, of the tables of integers and strings and of the predicate map, from
`make_config` to `free_config`.  Here the tables are what they are in the code: a text is looked up in the hash map of its attribute
(map.c), an integer in an array, a predicate in the red-black tree.  `Model/Config.lean` has lists instead; the theorems show that the
results are the same.  `H` is the hash function of map.c.
-/
namespace BeTree

/-! ### the structures -/

/-- `map_base_t` (map.h:23-26): the array of buckets, NULL at first, and the nodes, each with the number stored in it and its block -/
structure MapImg where
  array : Option Nat
  map : HMap (Nat × Nat)

/-- `map_init` (map.h:37-38) -/
def MapImg.empty : MapImg := { array := none, map := HMap.empty }

/-- `struct string_map` (config.h:22-26): the variable, the copy of its name, the number of texts and the map.  `map = none` stands for memory
that was never written. -/
structure StrImg where
  var : Nat
  name : Nat
  count : Nat
  map : Option MapImg

/-- `struct integer_map` (config.h:28-34): the variable, the copy of its name, the integers and their array, NULL at first -/
structure IntImg where
  var : Nat
  name : Nat
  values : List Int
  array : Option Nat

/-- `struct config` (config.h:40-57), the attributes with their names, the tables, and the predicate map with the nodes of its tree
(hashmap.h:11-15, jsw_rbtree.c:26-36) -/
structure CfgImg where
  config : Nat
  domArray : Option Nat
  doms : List (Nat × Nat)
  intArray : Option Nat
  ints : List IntImg
  strArray : Option Nat
  strs : List StrImg
  predMap : Nat
  rbtree : Nat
  preds : RB (AExpr × Nat)

/-! ### creating -/

/-- `make_config`, `make_pred_map`, `jsw_rbnew` (config.c:12-29, hashmap.c:56-66, jsw_rbtree.c:79-92) -/
def makeConfigMem : Mem CfgImg := do
  let c ← malloc
  let p ← malloc
  let t ← malloc
  pure { config := c, domArray := none, doms := [], intArray := none, ints := [], strArray := none, strs := [], predMap := p, rbtree := t,
         preds := .nil }

/-- `add_attr_domain`, `make_attr_domain` (config.c:71-110) -/
def addDomainMem (img : CfgImg) : Mem CfgImg := do
  let d ← malloc
  let n ← malloc
  let a ← growSubs img.doms.length img.domArray
  pure { img with domArray := some a, doms := img.doms ++ [(d, n)] }

/-- one declaration after the other (betree.c:674-723) -/
def addDomainsMem : List (Str × Decl × Bool) → CfgImg → Mem CfgImg
  | [], img => pure img
  | _ :: ds, img => do
    let img ← addDomainMem img
    addDomainsMem ds img

/-! ### the hash map -/

/-- the blocks of the nodes in a map (map.c:14-20) -/
def nodeBlocksOf (buckets : List (List (MapNode (Nat × Nat)))) : List Nat := buckets.flatten.map (·.value.2)

/-- `map_get_` (map.c:100-114, 131-134).  Simplification: all nodes are read. -/
def mapGetMem (H : Str → Nat) (m : MapImg) (key : Str) : Mem (Option Nat) := do
  touchAll m.array.toList
  touchAll (nodeBlocksOf m.map.buckets)
  pure ((m.map.get H key).map (·.1))

/-- the new array of buckets, if the map is full (map.c:62-97, 150-156): `brealloc` allocates if the pointer is NULL -/
def mapRoomMem (m : MapImg) : Mem (Option Nat) :=
  if m.map.nnodes ≥ m.map.buckets.length then
    match m.array with
    | none => do
      let a ← malloc
      pure (some a)
    | some a => do
      let b ← brealloc a
      pure (some b)
  else pure m.array

/-- `map_set_` (map.c:137-166): the node found keeps its block, otherwise there is a new node, and a larger array of buckets if the map is full -/
def mapSetMem (H : Str → Nat) (m : MapImg) (key : Str) (v : Nat) : Mem MapImg := do
  touchAll m.array.toList
  touchAll (nodeBlocksOf m.map.buckets)
  match m.map.get H key with
  | some old => pure { m with map := m.map.set H key (v, old.2) }
  | none => do
    let b ← malloc
    let a ← mapRoomMem m
    touchAll a.toList
    pure { array := a, map := m.map.set H key (v, b) }

/-- `map_deinit_` (map.c:117-130): from the last bucket to the first, then the array -/
def mapDeinitMem (m : MapImg) : Mem Unit := do
  touchAll m.array.toList
  freeStrings (nodeBlocksOf m.map.buckets.reverse)
  freeOpt m.array

/-! ### strings -/

/-- the table of a variable (loop of config.c:350-359): how many tables are before it, and the table -/
def findStrImg (var : Nat) : List StrImg → Option (Nat × StrImg)
  | [] => none
  | m :: ms =>
    if m.var = var then some (0, m)
    else
      match findStrImg var ms with
      | none => none
      | some (k, m) => some (k + 1, m)

/-- `add_string_map` (config.c:232-254): the memory of the first table is zero, that of the others is not written -/
def addStringMapMem (img : CfgImg) (var : Nat) : Mem CfgImg := do
  let a ← growSubs img.strs.length img.strArray
  let n ← malloc
  pure { img with
    strArray := some a
    strs := img.strs ++ [{ var := var, name := n, count := 0, map := if img.strs.length = 0 then some .empty else none }] }

/-- reading through `attr_domains` (config.c:210-214) -/
def touchDomain (img : CfgImg) (var : Nat) : Mem Unit := do
  touchAll img.domArray.toList
  match img.doms[var]? with
  | none => .fault .ub
  | some d => touch d.1

/-- `add_to_string_map` (config.c:278-285) on the table at a place of the array `a` -/
def addToStringMapMem (H : Str → Nat) (img : CfgImg) (a : Option Nat) (k : Nat) (s : Str) : Mem CfgImg := do
  touchAll a.toList
  match img.strs[k]? with
  | none => .fault .ub
  | some m =>
    match if m.count = 0 then some .empty else m.map with
    | none => .fault .ub
    | some x => do
      let x ← mapSetMem H x s m.count
      pure { img with strs := img.strs.set k { m with count := m.count + 1, map := some x } }

/-- `get_id_for_string` (config.c:347-371) from the point where the table exists but the text is not in it; `a` is the array that `string_map`
points into, and `k` its place there -/
def addStrIdMem (H : Str → Nat) (cfg : Config) (img : CfgImg) (a : Option Nat) (k : Nat) (v : AttrVar) (s : Str) (always : Bool)
    (maps : List StringMap) (count : Nat) : Mem ((Nat × Config) × CfgImg) := do
  let d ← liftMem (getDomain cfg v.var)
  touchDomain img v.var
  if always then do
    let img ← addToStringMapMem H img a k s
    pure ((count, { cfg with stringMaps := appendStr maps v.var s }), img)
  else do
    let smax ← liftMem d.bound.smax
    touchAll a.toList
    if (smax + 1) % 2 ^ 64 = count then pure ((invalidId, { cfg with stringMaps := maps }), img)
    else do
      let img ← addToStringMapMem H img a k s
      pure ((count, { cfg with stringMaps := appendStr maps v.var s }), img)

/-- `get_id_for_string` (config.c:347-371): the texts are looked up in the hash map -/
def getIdForStringMem (H : Str → Nat) (cfg : Config) (img : CfgImg) (v : AttrVar) (s : Str) (always : Bool) :
    Mem ((Nat × Config) × CfgImg) := do
  touchAll img.strArray.toList
  match findStrImg v.var img.strs with
  | some (k, m) =>
    match m.map with
    | none => .fault .ub
    | some x => do
      match ← mapGetMem H x s with
      | some j => pure ((j, cfg), img)
      | none => addStrIdMem H cfg img img.strArray k v s always cfg.stringMaps m.count
  | none => do
    let img ← addStringMapMem img v.var
    addStrIdMem H cfg img img.strArray (img.strs.length - 1) v s always (cfg.stringMaps ++ [{ attr := v, values := [] }]) 0

/-! ### enum integers -/

/-- the table of a variable (loop of config.c:323-333): how many tables are before it, and the table -/
def findIntImg (var : Nat) : List IntImg → Option (Nat × IntImg)
  | [] => none
  | m :: ms =>
    if m.var = var then some (0, m)
    else
      match findIntImg var ms with
      | none => none
      | some (k, m) => some (k + 1, m)

/-- `add_integer_map` (config.c:207-230) -/
def addIntegerMapMem (img : CfgImg) (var : Nat) : Mem CfgImg := do
  let a ← growSubs img.ints.length img.intArray
  let n ← malloc
  pure { img with intArray := some a, ints := img.ints ++ [{ var := var, name := n, values := [], array := none }] }

/-- `add_to_integer_map` (config.c:256-276) on the table at a place of the array `a` -/
def addToIntegerMapMem (img : CfgImg) (a : Option Nat) (k : Nat) (i : Int) : Mem CfgImg := do
  touchAll a.toList
  match img.ints[k]? with
  | none => .fault .ub
  | some m => do
    let b ← growSubs m.values.length m.array
    pure { img with ints := img.ints.set k { m with values := m.values ++ [i], array := some b } }

/-- `get_id_for_ienum` (config.c:320-345) from the point where the table exists but the integer is not in it -/
def addIntIdMem (cfg : Config) (img : CfgImg) (a : Option Nat) (k : Nat) (v : AttrVar) (i : Int) (always : Bool) (maps : List IntMap)
    (count : Nat) : Mem ((Nat × Config) × CfgImg) := do
  let d ← liftMem (getDomain cfg v.var)
  touchDomain img v.var
  if always then do
    let img ← addToIntegerMapMem img a k i
    pure ((count, { cfg with intMaps := appendInt maps v.var i }), img)
  else do
    let smax ← liftMem d.bound.smax
    touchAll a.toList
    if (smax + 1) % 2 ^ 64 = count then pure ((invalidId, { cfg with intMaps := maps }), img)
    else do
      let img ← addToIntegerMapMem img a k i
      pure ((count, { cfg with intMaps := appendInt maps v.var i }), img)

/-- `get_id_for_ienum` (config.c:320-345) -/
def getIdForIenumMem (cfg : Config) (img : CfgImg) (v : AttrVar) (i : Int) (always : Bool) : Mem ((Nat × Config) × CfgImg) := do
  touchAll img.intArray.toList
  match findIntImg v.var img.ints with
  | some (k, m) => do
    touchAll m.array.toList
    match m.values.idxOf? i with
    | some j => pure ((j, cfg), img)
    | none => addIntIdMem cfg img img.intArray k v i always cfg.intMaps m.values.length
  | none => do
    let img ← addIntegerMapMem img v.var
    addIntIdMem cfg img img.intArray (img.ints.length - 1) v i always (cfg.intMaps ++ [{ attr := v, values := [] }]) 0

/-! ### the passes over an expression -/

/-- the loops over string lists (ast.c:2196-2204, 2218-2226) as `assignStrList` -/
def assignStrListMem (H : Str → Nat) (cfg : Config) (img : CfgImg) (v : AttrVar) (always : Bool) :
    List StrVal → Mem ((List StrVal × Config) × CfgImg)
  | [] => pure (([], cfg), img)
  | s :: ss => do
    let r ← getIdForStringMem H cfg img v s.string always
    let q ← assignStrListMem H r.1.2 r.2 v always ss
    pure ((s.resolve v r.1.1 :: q.1.1, q.1.2), q.2)

/-- leaf cases of `assign_str_id` (ast.c:2135-2232) as `assignStrPred` -/
def assignStrPredMem (H : Str → Nat) (cfg : Config) (img : CfgImg) (always : Bool) : Pred → Mem ((Pred × Config) × CfgImg)
  | .freq f => do
    let r ← getIdForStringMem H cfg img f.attr f.ns.string always
    pure ((.freq { f with ns := f.ns.resolve f.attr r.1.1 }, r.1.2), r.2)
  | .equality op v (.string s) => do
    let r ← getIdForStringMem H cfg img v s.string always
    pure ((.equality op v (.string (s.resolve v r.1.1)), r.1.2), r.2)
  | .list op v (.strList ss) => do
    let r ← assignStrListMem H cfg img v always ss
    pure ((.list op v (.strList r.1.1), r.1.2), r.2)
  | .set op (.string s) (.var v) => do
    let r ← getIdForStringMem H cfg img v s.string always
    pure ((.set op (.string (s.resolve v r.1.1)) (.var v), r.1.2), r.2)
  | .set op (.var v) (.strList ss) => do
    let r ← assignStrListMem H cfg img v always ss
    pure ((.set op (.var v) (.strList r.1.1), r.1.2), r.2)
  | .set _ (.string _) _ => .fault .ub
  | .set _ _ (.strList _) => .fault .ub
  | p => pure ((p, cfg), img)

/-- `assign_str_id` (ast.c:2135-2232) as `assignStr` -/
def assignStrMem (H : Str → Nat) (cfg : Config) (img : CfgImg) (always : Bool) : Expr → Mem ((Expr × Config) × CfgImg)
  | .leaf p => do
    let r ← assignStrPredMem H cfg img always p
    pure ((.leaf r.1.1, r.1.2), r.2)
  | .not e => do
    let r ← assignStrMem H cfg img always e
    pure ((.not r.1.1, r.1.2), r.2)
  | .and l r => do
    let x ← assignStrMem H cfg img always l
    let y ← assignStrMem H x.1.2 x.2 always r
    pure ((.and x.1.1 y.1.1, y.1.2), y.2)
  | .or l r => do
    let x ← assignStrMem H cfg img always l
    let y ← assignStrMem H x.1.2 x.2 always r
    pure ((.or x.1.1 y.1.1, y.1.2), y.2)

/-- leaf cases of `assign_ienum_id` (ast.c:2091-2133) as `assignIenumPred` -/
def assignIenumPredMem (cfg : Config) (img : CfgImg) (always : Bool) : Pred → Mem ((Pred × Config) × CfgImg)
  | .equality op v (.int i) => do
    let d ← liftMem (getDomain cfg v.var)
    touchDomain img v.var
    if d.bound.ty = .intEnum then do
      let r ← getIdForIenumMem cfg img v i always
      pure ((.equality op v (.intEnum { integer := i, var := v.var, ienum := r.1.1 }), r.1.2), r.2)
    else pure ((.equality op v (.int i), cfg), img)
  | p => pure ((p, cfg), img)

/-- `assign_ienum_id` (ast.c:2091-2133) as `assignIenum` -/
def assignIenumMem (cfg : Config) (img : CfgImg) (always : Bool) : Expr → Mem ((Expr × Config) × CfgImg)
  | .leaf p => do
    let r ← assignIenumPredMem cfg img always p
    pure ((.leaf r.1.1, r.1.2), r.2)
  | .not e => do
    let r ← assignIenumMem cfg img always e
    pure ((.not r.1.1, r.1.2), r.2)
  | .and l r => do
    let x ← assignIenumMem cfg img always l
    let y ← assignIenumMem x.1.2 x.2 always r
    pure ((.and x.1.1 y.1.1, y.1.2), y.2)
  | .or l r => do
    let x ← assignIenumMem cfg img always l
    let y ← assignIenumMem x.1.2 x.2 always r
    pure ((.or x.1.1 y.1.1, y.1.2), y.2)

/-! ### predicates -/

/-- the expressions in a tree of pairs (jsw_rbtree.c:26-30) -/
def RB.exprs : RB (AExpr × Nat) → RB AExpr
  | .nil => .nil
  | .node c x l r => .node c x.1 l.exprs r.exprs

/-- the nodes of a tree (jsw_rbtree.c:26-30) -/
def RB.nodeList : RB (AExpr × Nat) → List Nat
  | .nil => []
  | .node _ x l r => x.2 :: (l.nodeList ++ r.nodeList)

/-- `expr_cmp` on the data of two nodes (jsw_rbtree.c:115-130) -/
def pairCmp (a b : AExpr × Nat) : Ordering := exprCmp a.1 b.1

/-- `assign_pred` after the recursive calls (hashmap.c:26-44) as `assignNode`, `jsw_rbfind` and `jsw_rbinsert` (jsw_rbtree.c:63-77, 115-198) on
the nodes.  Simplification: all nodes are read.  The node is allocated when the descent ends (jsw_rbtree.c:153-158); here before it. -/
def assignNodeMem (pm : PredMap) (img : CfgImg) (n : AExpr) : Mem ((AExpr × PredMap) × CfgImg) := do
  touch img.predMap
  touch img.rbtree
  touchAll img.preds.nodeList
  match RB.find pairCmp (n, 0) img.preds with
  | none => do
    let b ← malloc
    let m ← liftMem (RB.insert pairCmp (n.setGid pm.predCount, b) img.preds)
    pure ((n.setGid pm.predCount,
      { predCount := pm.predCount + 1, memoizeCount := pm.memoizeCount, m := m.exprs, memo := pm.memo ++ [none] }), { img with preds := m })
  | some f =>
    match pm.memo[f.1.gid]? with
    | none => .fault .ub
    | some none =>
      pure ((n.setGid f.1.gid,
        { pm with memoizeCount := pm.memoizeCount + 1, memo := pm.memo.set f.1.gid (some pm.memoizeCount) }), img)
    | some (some _) => pure ((n.setGid f.1.gid, pm), img)

/-- `assign_pred` (hashmap.c:13-45) as `assignPred` -/
def assignPredsMem (pm : PredMap) (img : CfgImg) : Expr → Mem ((AExpr × PredMap) × CfgImg)
  | .leaf p => assignNodeMem pm img (.leaf invalidId p)
  | .not e => do
    let x ← assignPredsMem pm img e
    assignNodeMem x.1.2 x.2 (.not invalidId x.1.1)
  | .and l r => do
    let x ← assignPredsMem pm img l
    let y ← assignPredsMem x.1.2 x.2 r
    assignNodeMem y.1.2 y.2 (.and invalidId x.1.1 y.1.1)
  | .or l r => do
    let x ← assignPredsMem pm img l
    let y ← assignPredsMem x.1.2 x.2 r
    assignNodeMem y.1.2 y.2 (.or invalidId x.1.1 y.1.1)

/-- the loop of `jsw_rbdelete` (jsw_rbtree.c:98-110): a node without left child is freed, otherwise the left child is rotated above it.  The
first argument bounds the number of rounds. -/
def rbDeleteLoop : Nat → RB (AExpr × Nat) → Mem Unit
  | _, .nil => pure ()
  | 0, .node _ _ _ _ => .fault .fuel
  | k + 1, .node _ x .nil r => do
    touch x.2
    bfree x.2
    rbDeleteLoop k r
  | k + 1, .node c x (.node d y a b) r => do
    touch x.2
    touch y.2
    rbDeleteLoop k (.node d y a (.node c x b r))

/-- `free_pred_map`, `jsw_rbdelete` (hashmap.c:68-72, jsw_rbtree.c:93-113) -/
def freePredMapMem (img : CfgImg) : Mem Unit := do
  touch img.predMap
  touch img.rbtree
  rbDeleteLoop (2 * img.preds.size) img.preds
  bfree img.rbtree
  bfree img.predMap

/-! ### the end -/

/-- the loop over the attributes (config.c:41-44) -/
def freeDomsMem : List (Nat × Nat) → Mem Unit
  | [] => pure ()
  | d :: ds => do
    bfree d.2
    bfree d.1
    freeDomsMem ds

/-- the loop over the tables of integers (config.c:49-52) -/
def freeIntsMem : List IntImg → Mem Unit
  | [] => pure ()
  | m :: ms => do
    bfree m.name
    freeOpt m.array
    freeIntsMem ms

/-- the loop over the tables of strings (config.c:57-60); a map in memory that was never written has any number of buckets anywhere -/
def freeStrsMem : List StrImg → Mem Unit
  | [] => pure ()
  | m :: ms => do
    bfree m.name
    match m.map with
    | none => .fault .ub
    | some x => mapDeinitMem x
    freeStrsMem ms

/-- the attributes in `free_config` (config.c:40-47) -/
def CfgImg.freeDomPart (img : CfgImg) : Mem Unit :=
  match img.domArray with
  | none => pure ()
  | some a => do
    touch a
    freeDomsMem img.doms
    bfree a

/-- the tables of integers in `free_config` (config.c:48-55) -/
def CfgImg.freeIntPart (img : CfgImg) : Mem Unit :=
  match img.intArray with
  | none => pure ()
  | some a => do
    touch a
    freeIntsMem img.ints
    bfree a

/-- the tables of strings in `free_config` (config.c:56-63) -/
def CfgImg.freeStrPart (img : CfgImg) : Mem Unit :=
  match img.strArray with
  | none => pure ()
  | some a => do
    touch a
    freeStrsMem img.strs
    bfree a

/-- `free_config` (config.c:35-69) -/
def CfgImg.free (img : CfgImg) : Mem Unit := do
  touch img.config
  img.freeDomPart
  img.freeIntPart
  img.freeStrPart
  freePredMapMem img
  bfree img.config

/-! ### the calls -/

/-- what looking for names and bounds reads (tree.c:1625-1639, config.c:210-214): the configuration, the attributes and their names -/
def CfgImg.domRead (img : CfgImg) : List Nat := img.config :: (img.domArray.toList ++ img.doms.flatMap (fun d => [d.1, d.2]))

/-- what `is_valid` reads of the tables of strings (ast.c:2674-2806), apart from the maps: the array and the names -/
def CfgImg.strRead (img : CfgImg) : List Nat := img.strArray.toList ++ img.strs.map (·.name)

/-- the id passes and `make_sub` (betree.c:500-501, 533-534) as `finishSub` -/
def finishSubMem (cfg : Config) (img : CfgImg) (id : Nat) (e : Expr) : Mem ((Sub × Config) × CfgImg) := do
  let r ← assignPredsMem cfg.predMap img e
  touchAll r.2.domRead
  let s ← liftMem (makeSub { cfg with predMap := r.1.2 } id r.1.1)
  pure ((s, { cfg with predMap := r.1.2 }), r.2)

/-- `betree_insert_with_constants` up to the tree (betree.c:475-501) as `prepareInsert` -/
def prepareInsertMem (H : Str → Nat) (cfg : Config) (img : CfgImg) (id : Nat) (cs : List Constant) (e : Expr) :
    Mem ((Option Sub × Config) × CfgImg) := do
  touchAll img.domRead
  touchAll img.strRead
  let ok ← liftMem (isValid cfg (assignVar cfg e))
  if ok then
    match assignConstants cs (assignVar cfg e) with
    | none => pure ((none, cfg), img)
    | some e => do
      let x ← assignStrMem H cfg img false e
      let y ← assignIenumMem x.1.2 x.2 false x.1.1
      touchAll y.2.domRead
      let f ← liftMem (fixFloat y.1.2 (sortLists y.1.1))
      let z ← finishSubMem y.1.2 y.2 id f
      pure ((some z.1.1, z.1.2), z.2)
  else pure ((none, cfg), img)

/-- `betree_make_sub` (betree.c:505-536) on a parsed expression as `Tree.makeSub` -/
def makeSubCfgMem (H : Str → Nat) (cfg : Config) (img : CfgImg) (id : Nat) (cs : List Constant) (e : Expr) :
    Mem ((Option Sub × Config) × CfgImg) := do
  touchAll img.domRead
  let ok ← liftMem (varsInConfig (assignVar cfg e))
  if ok then do
    let x ← assignStrMem H cfg img true (assignVar cfg e)
    let y ← assignIenumMem x.1.2 x.2 true x.1.1
    touchAll y.2.domRead
    let f ← liftMem (fixFloat y.1.2 y.1.1)
    let valid ← liftMem (exprsValid y.1.2 f)
    if valid then
      match assignConstants cs f with
      | none => pure ((none, y.1.2), y.2)
      | some e => do
        let c ← liftMem (changeBoundaries y.1.2 (sortLists e))
        let z ← finishSubMem c y.2 id (sortLists e)
        pure ((some z.1.1, z.1.2), z.2)
    else pure ((none, y.1.2), y.2)
  else pure ((none, cfg), img)

/-- `betree_change_boundaries` (betree.c:459-473) on a parsed expression as `Tree.changeBoundaries` -/
def changeBoundariesMem (H : Str → Nat) (cfg : Config) (img : CfgImg) (e : Expr) : Mem (Config × CfgImg) := do
  touchAll img.domRead
  let x ← assignStrMem H cfg img true (assignVar cfg e)
  let y ← assignIenumMem x.1.2 x.2 true x.1.1
  touchAll y.2.domRead
  let f ← liftMem (fixFloat y.1.2 (sortLists y.1.1))
  touchAll y.2.strRead
  let c ← liftMem (changeBoundaries y.1.2 f)
  pure (c, y.2)

/-- the world of calls (betree.h:64-90) with the blocks of the configuration -/
structure ConfigWorld where
  world : TextWorld
  img : CfgImg

/-- a tree just created, and the declarations of its variables (betree.c:656-660, 674-723) -/
def ConfigWorld.init (lnodeMaxCap partitionMinSize : Nat) (decls : List (Str × Decl × Bool)) : Mem ConfigWorld := do
  let img ← makeConfigMem
  let img ← addDomainsMem decls img
  pure { world := TextWorld.init (makeTree lnodeMaxCap partitionMinSize decls), img := img }

/-- `betree_insert_with_constants` (betree.c:475-503) -/
def ConfigWorld.insert (H : Str → Nat) (R : Rounding) (w : ConfigWorld) (q : TextReq) : Mem ConfigWorld := do
  match ← liftMem (parseText q.text) with
  | none => pure w
  | some e =>
    let r ← prepareInsertMem H w.world.tree.cfg w.img q.id q.consts e
    match r.1.1 with
    | none => pure { world := { w.world with tree := { w.world.tree with cfg := r.1.2 } }, img := r.2 }
    | some s => do
      touchAll r.2.domRead
      let c ← liftMem (w.world.tree.root.insert R r.1.2 s)
      pure { world := { w.world with tree := { cfg := r.1.2, root := c }, live := q :: w.world.live }, img := r.2 }

/-- `betree_make_sub` (betree.c:505-536) -/
def ConfigWorld.makeSub (H : Str → Nat) (w : ConfigWorld) (q : TextReq) : Mem ConfigWorld := do
  match ← liftMem (parseText q.text) with
  | none => pure w
  | some e =>
    let r ← makeSubCfgMem H w.world.tree.cfg w.img q.id q.consts e
    match r.1.1 with
    | none => pure { world := { w.world with tree := { w.world.tree with cfg := r.1.2 } }, img := r.2 }
    | some s =>
      pure { world := { w.world with tree := { w.world.tree with cfg := r.1.2 }, pool := w.world.pool ++ [(q, s)] }, img := r.2 }

/-- `betree_insert_sub` (betree.c:538-541) -/
def ConfigWorld.insertSub (R : Rounding) (w : ConfigWorld) (k : Nat) : Mem ConfigWorld :=
  match w.world.pool[k]? with
  | none => pure w
  | some (q, s) => do
    touchAll w.img.domRead
    let c ← liftMem (w.world.tree.root.insert R w.world.tree.cfg s)
    pure { w with world := { w.world with tree := { w.world.tree with root := c }, live := q :: w.world.live } }

/-- `betree_change_boundaries` (betree.c:459-473) -/
def ConfigWorld.changeBoundaries (H : Str → Nat) (w : ConfigWorld) (text : Str) : Mem ConfigWorld := do
  match ← liftMem (parseText text) with
  | none => pure w
  | some e =>
    let r ← changeBoundariesMem H w.world.tree.cfg w.img e
    pure { world := { w.world with tree := { w.world.tree with cfg := r.1 } }, img := r.2 }

/-- `empty_tree` (helper.c:97-105): the predicate map is freed, and there is a new one -/
def ConfigWorld.empty (w : ConfigWorld) : Mem ConfigWorld := do
  freePredMapMem w.img
  let p ← malloc
  let t ← malloc
  pure { world := { w.world with tree := w.world.tree.emptied, live := [] }, img := { w.img with predMap := p, rbtree := t, preds := .nil } }

/-- One call (betree.c:459-604, helper.c:97-105).  A search reads the attributes and the tables (betree.c:543-604). -/
def ConfigWorld.step (H : Str → Nat) (R : Rounding) (w : ConfigWorld) : MemOp → Mem ConfigWorld
  | .call (.insert q) => w.insert H R q
  | .call (.makeSub q) => w.makeSub H q
  | .call (.insertSub k) => w.insertSub R k
  | .call (.changeBoundaries text) => w.changeBoundaries H text
  | .search => do
    touchAll w.img.domRead
    touchAll w.img.strRead
    pure w
  | .empty => w.empty

/-- A sequence of calls (betree.c:459-604). -/
def ConfigWorld.run (H : Str → Nat) (R : Rounding) (w : ConfigWorld) : List MemOp → Mem ConfigWorld
  | [] => pure w
  | o :: os => do
    let w' ← w.step H R o
    w'.run H R os

end BeTree
