import Verif.Model.Event
import Verif.Model.Boundaries
/-
betree.c: the public operations on a tree.
-/
namespace BeTree

/-- `struct betree` (betree.h:9-12). -/
structure Tree where
  cfg : Config
  root : CNode

/-- `betree_make_with_parameters` (betree.c:656-660) followed by the declarations of the variables
(`betree_add_*_variable`, betree.c:674-723). Declaring variables after inserting expressions: Model/Late.lean. -/
def makeTree (lnodeMaxCap partitionMinSize : Nat) (decls : List (Str × Decl × Bool)) : Tree :=
  let cfg := decls.foldl (fun cfg d => declare cfg d.1 d.2.1 d.2.2) (makeConfig lnodeMaxCap partitionMinSize)
  { cfg := cfg, root := emptyCNode cfg }

/-- `betree_change_boundaries` (betree.c:459-473) on a parsed expression. -/
def Tree.changeBoundaries (t : Tree) (e : Expr) : Except Fault Tree :=
  match assignStr t.cfg true (assignVar t.cfg e) with
  | .error x => .error x
  | .ok (e, cfg) =>
    match assignIenum cfg true e with
    | .error x => .error x
    | .ok (e, cfg) =>
      match fixFloat cfg (sortLists e) with
      | .error x => .error x
      | .ok e =>
        match BeTree.changeBoundaries cfg e with
        | .error x => .error x
        | .ok cfg => .ok { t with cfg := cfg }

/-- `is_valid` (betree.c:31-44). -/
def isValid (cfg : Config) (e : Expr) : Except Fault Bool :=
  andThen (varsInConfig e) (boundedStringsValid cfg e)

/-- the id passes and `make_sub` common to the two ways of building a subscription (betree.c:500-501, 533-534) -/
def finishSub (cfg : Config) (id : Nat) (e : Expr) : Except Fault (Sub × Config) :=
  match assignPred cfg.predMap e with
  | .error x => .error x
  | .ok (ae, pm) =>
    let cfg := { cfg with predMap := pm }
    match makeSub cfg id ae with
    | .error x => .error x
    | .ok sub => .ok (sub, cfg)

/-- the part of `betree_insert_with_constants` before the tree is touched (betree.c:475-501): `none` is the result
`false`.  The configuration is returned too, as it may have changed. -/
def prepareInsert (cfg : Config) (id : Nat) (cs : List Constant) (e : Expr) : Except Fault (Option Sub × Config) :=
  let e := assignVar cfg e
  match isValid cfg e with
  | .error x => .error x
  | .ok false => .ok (none, cfg)
  | .ok true =>
    match assignConstants cs e with
    | none => .ok (none, cfg)
    | some e =>
      match assignStr cfg false e with
      | .error x => .error x
      | .ok (e, cfg) =>
        match assignIenum cfg false e with
        | .error x => .error x
        | .ok (e, cfg) =>
          match fixFloat cfg (sortLists e) with
          | .error x => .error x
          | .ok e =>
            match finishSub cfg id e with
            | .error x => .error x
            | .ok (sub, cfg) => .ok (some sub, cfg)

/-- `betree_insert_with_constants` (betree.c:475-503) on a parsed expression. -/
def Tree.insert (R : Rounding) (t : Tree) (id : Nat) (cs : List Constant) (e : Expr) : Except Fault (Bool × Tree) :=
  match prepareInsert t.cfg id cs e with
  | .error x => .error x
  | .ok (none, cfg) => .ok (false, { t with cfg := cfg })
  | .ok (some sub, cfg) =>
    match t.root.insert R cfg sub with
    | .error x => .error x
    | .ok root => .ok (true, { cfg := cfg, root := root })

/-- `betree_make_sub` (betree.c:505-536) on a parsed expression: `none` is NULL.  The passes before a rejection have
already changed the configuration. -/
def Tree.makeSub (t : Tree) (id : Nat) (cs : List Constant) (e : Expr) : Except Fault (Option Sub × Tree) :=
  let e := assignVar t.cfg e
  match varsInConfig e with
  | .error x => .error x
  | .ok false => .ok (none, t)
  | .ok true =>
    match assignStr t.cfg true e with
    | .error x => .error x
    | .ok (e, cfg) =>
      match assignIenum cfg true e with
      | .error x => .error x
      | .ok (e, cfg) =>
        match fixFloat cfg e with
        | .error x => .error x
        | .ok e =>
          match exprsValid cfg e with
          | .error x => .error x
          | .ok false => .ok (none, { t with cfg := cfg })
          | .ok true =>
            match assignConstants cs e with
            | none => .ok (none, { t with cfg := cfg })
            | some e =>
              match BeTree.changeBoundaries cfg (sortLists e) with
              | .error x => .error x
              | .ok cfg =>
                match finishSub cfg id (sortLists e) with
                | .error x => .error x
                | .ok (sub, cfg) => .ok (some sub, { t with cfg := cfg })

/-- `betree_insert_sub` (betree.c:538-541). -/
def Tree.insertSub (R : Rounding) (t : Tree) (s : Sub) : Except Fault Tree :=
  match t.root.insert R t.cfg s with
  | .error x => .error x
  | .ok root => .ok { t with root := root }

/-- `betree_search_with_event` / `betree_search` (betree.c:559-568, 591-604): `none` is the result `false` (a mandatory
variable is missing); the report is left alone then. -/
def Tree.search (geo : GeoTest) (t : Tree) (ev : List EventVar) (rep : Report) : Except Fault (Option Report) :=
  match eventEnv t.cfg ev with
  | .error x => .error x
  | .ok env =>
    if validateVariables t.cfg.domains env then (searchWithPreds geo t.cfg env t.root rep).map some
    else .ok none

/-- `betree_exists_with_event` / `betree_exists` (betree.c:570-589). -/
def Tree.exists (geo : GeoTest) (t : Tree) (ev : List EventVar) : Except Fault Bool :=
  match eventEnv t.cfg ev with
  | .error x => .error x
  | .ok env => existsWithPreds geo t.cfg env t.root

/-- `find_sub_id` (tree.c:1271-1290) on a tree. -/
def Tree.find (t : Tree) (id : Nat) : Option Sub := t.root.find id

end BeTree
