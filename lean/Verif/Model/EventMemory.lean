import Verif.Model.MemWorld
import Verif.Model.EventParser
/-
Memory of events, searches and reports: from the text of an event to `free_event`, and what a search allocates on the way.
-/
namespace BeTree

/-! ### the blocks of an event -/

/-- a `struct value` as blocks of memory (value.h:18-91): a number or a boolean has none, a string one; a list has its header, its array
(absent while it is empty) and what the array points to: strings, segments, or caps with their namespaces -/
inductive ValImg where
  | plain
  | str (b : Nat)
  | ints (list : Nat) (array : Option Nat)
  | strs (list : Nat) (array : Option Nat) (strings : List Nat)
  | segs (list : Nat) (array : Option Nat) (segments : List Nat)
  | caps (list : Nat) (array : Option Nat) (caps : List (Nat × Nat))
  deriving DecidableEq, Repr

/-- `struct betree_variable` (tree.h:12-15): the structure, its name and its value -/
structure VarImg where
  var : Nat
  attr : Nat
  value : ValImg
  deriving DecidableEq, Repr

/-- `struct betree_event` (betree.h:29-32): the structure, the array of its variables (absent while there are none) and the variables -/
structure EventImg where
  event : Nat
  array : Option Nat
  vars : List VarImg
  deriving DecidableEq, Repr

/-- what a semantic value of the event parser points to (event_parser.y:36-52) -/
inductive EMVal where
  | plain
  | one (b : Nat)
  | val (v : ValImg)
  | cap (b ns : Nat)
  | var (v : Option VarImg)
  | event (e : EventImg)
  deriving DecidableEq, Repr

/-! ### freeing -/

/-- the loop of `free_frequency_caps` (value.c:288-297) with `free_frequency_cap` (value.c:282-286) -/
def freeCaps : List (Nat × Nat) → Mem Unit
  | [] => pure ()
  | (b, ns) :: cs => do
    bfree ns
    bfree b
    freeCaps cs

/-- `free_value` (value.c:299-329) and the functions it calls (value.c:243-291) -/
def freeVal : ValImg → Mem Unit
  | .plain => pure ()
  | .str b => bfree b
  | .ints l a => do
    freeOpt a
    bfree l
  | .strs l a ss => do
    freeStrings ss
    freeOpt a
    bfree l
  | .segs l a ss => do
    freeStrings ss
    freeOpt a
    bfree l
  | .caps l a cs => do
    freeCaps cs
    freeOpt a
    bfree l

/-- the loop of `free_event` with `free_pred` (tree.c:1091-1099, 1120-1125) -/
def freeVars : List VarImg → Mem Unit
  | [] => pure ()
  | v :: vs => do
    bfree v.attr
    freeVal v.value
    bfree v.var
    freeVars vs

/-- `free_event` (tree.c:1115-1128) -/
def freeEvent (e : EventImg) : Mem Unit := do
  freeVars e.vars
  freeOpt e.array
  bfree e.event

/-! ### parsing -/

/-- `SAVE_STRING` (event_lexer.l:6-10); the other tokens own nothing -/
def etokMem : ETok → Mem EMVal
  | .string _ => do
    let b ← malloc
    pure (.one b)
  | _ => pure .plain

/-- room for one more element (value.c:52-70, 92-112, 133-152, 154-174, tree.c:1847-1870): the array is made for the first element and made
longer for the others.  Simplification: that it is the first is read off the array being absent, where the code looks at the count. -/
def growArray : Option Nat → Mem Nat
  | none => malloc
  | some a => brealloc a

/-- `add_variable` (tree.c:1847-1870) -/
def addVariableMem (v : Option VarImg) (e : EventImg) : Mem EventImg :=
  match v with
  | none => pure e
  | some v => do
    let a ← growArray e.array
    pure { e with array := some a, vars := e.vars ++ [v] }

/-- What the action of each rule does to the heap (event_parser.y:94-176, numbered as in event_parser.c:1511-1741), given what the values
of the right-hand side point to. -/
def zzMem : Nat → List EMVal → Mem EMVal
  | 2, [.plain, .plain] => do
    let e ← malloc
    pure (.event ⟨e, none, []⟩)
  | 3, [.plain, .event e, .plain] => pure (.event e)
  | 4, [.var v] => do
    let e ← malloc
    let e ← addVariableMem v ⟨e, none, []⟩
    pure (.event e)
  | 5, [.event e, .plain, .var v] => do
    let e ← addVariableMem v e
    pure (.event e)
  | 6, [.one x, .plain, .val v] => do
    let p ← malloc
    let a ← malloc
    bfree x
    pure (.var (some ⟨p, a, v⟩))
  | 7, [.one x, .plain, .plain] => do
    bfree x
    pure (.var none)
  | 8, [.plain] => pure (.val .plain)
  | 9, [.plain] => pure (.val .plain)
  | 10, [.plain] => pure (.val .plain)
  | 11, [.one s] => pure (.val (.str s))
  | 12, [.val v] => pure (.val v)
  | 13, [.val v] => pure (.val v)
  | 14, [.val v] => pure (.val v)
  | 15, [.val v] => pure (.val v)
  | 16, [.val v] => pure (.val v)
  | 17, [.plain] => pure .plain
  | 18, [.plain] => pure .plain
  | 19, [.plain] => pure .plain
  | 20, [.plain, .plain] => pure .plain
  | 21, [.plain] => pure .plain
  | 22, [.plain, .plain] => pure .plain
  | 23, [.one x] => do
    let s ← malloc
    bfree x
    pure (.one s)
  | 24, [.plain, .plain] => do
    let l ← malloc
    pure (.val (.ints l none))
  | 25, [.plain, .val v, .plain] => pure (.val v)
  | 26, [.plain] => do
    let l ← malloc
    let a ← growArray none
    pure (.val (.ints l (some a)))
  | 27, [.val (.ints l a), .plain, .plain] => do
    let a ← growArray a
    pure (.val (.ints l (some a)))
  | 28, [.plain, .val v, .plain] => pure (.val v)
  | 29, [.one s] => do
    let l ← malloc
    let a ← growArray none
    pure (.val (.strs l (some a) [s]))
  | 30, [.val (.strs l a ss), .plain, .one s] => do
    let a ← growArray a
    pure (.val (.strs l (some a) (ss ++ [s])))
  | 31, [.plain, .val v, .plain] => pure (.val v)
  | 32, [.one s] => do
    let l ← malloc
    let a ← growArray none
    pure (.val (.segs l (some a) [s]))
  | 33, [.val (.segs l a ss), .plain, .one s] => do
    let a ← growArray a
    pure (.val (.segs l (some a) (ss ++ [s])))
  | 34, [.plain, .plain, .plain, .plain, .plain] => do
    let s ← malloc
    pure (.one s)
  | 35, [.plain, .val v, .plain] => pure (.val v)
  | 36, [.cap b ns] => do
    let l ← malloc
    let a ← growArray none
    pure (.val (.caps l (some a) [(b, ns)]))
  | 37, [.val (.caps l a cs), .plain, .cap b ns] => do
    let a ← growArray a
    pure (.val (.caps l (some a) (cs ++ [(b, ns)])))
  | 38, [.plain, .one ty, .plain, .plain, .plain, .one ns, .plain, .plain, .plain, .plain, .plain] => do
    let c ← malloc
    bfree ty
    pure (.cap c ns)
  | 39, [.plain, .plain, .one ty, .plain, .plain, .plain, .one ns, .plain, .plain, .plain, .plain, .plain, .plain] => do
    let c ← malloc
    bfree ty
    pure (.cap c ns)
  | _, _ => .fault .ub

/-- The action of a rule: the value and its blocks (event_parser.y:94-176). -/
def zzActionMem (r : Nat) (us : List (EPVal × EMVal)) : Mem (EPVal × EMVal) := do
  let v ← liftMem (zzAction r (us.map Prod.fst))
  let m ← zzMem r (us.map Prod.snd)
  pure (v, m)

/-- a token: its value and its blocks (event_lexer.l:6-13) -/
def etokValMem (t : ETok) : Mem (EPVal × EMVal) := do
  let m ← etokMem t
  pure (t.val, m)

/-- `event_parse` (event_parser.y:179-199) with the heap: the event and its blocks; `none` is the result -1.  The buffer and the scanner are
allocated and freed by the call and are not represented. -/
def parseEventMem (text : Str) : Mem (Option (List EventVar × EventImg)) := do
  let ts := lexEvent text
  let r ← lrMem zzTables ETok.num etokValMem (.token, .plain) zzActionMem (11 * (ts.length + 1) + 2) [] ts
  match r with
  | none => pure none
  | some (.event l, .event i) => pure (some (l, i))
  | some _ => .fault .ub

/-! ### preparing the event -/

/-- `fill_event` gives the value the declared type of its variable (tree.c:1885): an empty list `[]`, which the parser makes a list of
integers, becomes an empty list of that type, with the same header. -/
def ValImg.retype : Value → ValImg → ValImg
  | .strList _, .ints l a => .strs l a []
  | .segments _, .ints l a => .segs l a []
  | .freq _, .ints l a => .caps l a []
  | _, i => i

/-- the loop of `remove_duplicates_string_list` (value.c:434-442) after the entry `x` was kept: a duplicate is freed -/
def dedupStrsFrom (x : StrVal) : List (StrVal × Nat) → Mem (List Nat)
  | [] => pure []
  | (y, b) :: rest =>
    if x.str = y.str then do
      bfree b
      dedupStrsFrom x rest
    else do
      let r ← dedupStrsFrom y rest
      pure (b :: r)

/-- `remove_duplicates_string_list` (value.c:428-444) -/
def dedupStrsMem : List (StrVal × Nat) → Mem (List Nat)
  | [] => pure []
  | (x, b) :: rest => do
    let r ← dedupStrsFrom x rest
    pure (b :: r)

/-- `sort_event_lists` on one value (tree.c:1795-1809): sorting moves the strings in their array, duplicates are freed; the array keeps its
block -/
def sortValueMem : Value → ValImg → Mem ValImg
  | .strList l, .strs h a ss => do
    let ss ← dedupStrsMem (sortBy (fun p : StrVal × Nat => p.1.str) (l.zip ss))
    pure (.strs h a ss)
  | _, i => pure i

/-- `fill_event` (tree.c:1872-1930) and `sort_event_lists` (tree.c:1795-1809) on the blocks, given the values after `fill_event` -/
def sortVarsMem : List (Nat × Value) → List VarImg → Mem (List VarImg)
  | (_, v) :: vs, i :: is => do
    let x ← sortValueMem v (i.value.retype v)
    let r ← sortVarsMem vs is
    pure ({ i with value := x } :: r)
  | _, _ => pure []

/-- `make_event_from_string` (tree.c:1811-1821): the values of the variables and the blocks of the event.  A text that does not parse
aborts. -/
def eventFromStringMem (cfg : Config) (text : Str) : Mem (List (Nat × Value) × EventImg) := do
  match ← parseEventMem text with
  | none => .fault .abort
  | some (ev, i) =>
    let vars ← liftMem (fillEvent cfg ev)
    let is ← sortVarsMem vars i.vars
    pure (vars.map fun p => (p.1, sortValue p.2), { i with vars := is })

/-! ### searching -/

/-- `add_sub_to_eval` for each subscription found (tree.c:36-45): the array doubles when it is full -/
def addSubsToEval (count capacity b : Nat) : List Sub → Mem Nat
  | [] => pure b
  | _ :: ss =>
    if capacity = count then do
      let b ← brealloc b
      addSubsToEval (count + 1) (capacity * 2) b ss
    else addSubsToEval (count + 1) capacity b ss

/-- `add_sub` for each match (tree.c:1727-1747): the array of the report -/
def addSubsMem (matched : Nat) (b : Option Nat) : List Nat → Mem (Option Nat)
  | [] => pure b
  | _ :: ids => do
    let c ← (if matched = 0 then malloc else match b with | none => malloc | some b => brealloc b)
    addSubsMem (matched + 1) (some c) ids

/-- all blocks that reading an event may look at (tree.c:117-237, 1749-1793).  Simplification: all of them are read. -/
def ValImg.all : ValImg → List Nat
  | .plain => []
  | .str b => [b]
  | .ints l a => l :: a.toList
  | .strs l a ss => l :: (a.toList ++ ss)
  | .segs l a ss => l :: (a.toList ++ ss)
  | .caps l a cs => l :: (a.toList ++ cs.flatMap fun c => [c.1, c.2])

/-- the same of an event (tree.c:117-237, 1749-1793) -/
def EventImg.all (e : EventImg) : List Nat :=
  e.event :: (e.array.toList ++ e.vars.flatMap fun v => v.var :: v.attr :: v.value.all)

/-- `struct report` as blocks (betree.h:22-28): the structure and its array of ids -/
structure ReportImg where
  report : Nat
  subs : Option Nat
  deriving DecidableEq, Repr

/-- `make_report` (betree.c:606-619) -/
def makeReportMem : Mem ReportImg := do
  let r ← malloc
  pure ⟨r, none⟩

/-- `free_report` (betree.c:621-625) -/
def freeReport (r : ReportImg) : Mem Unit := do
  freeOpt r.subs
  bfree r.report

/-- `betree_search_with_event_filled` (betree.c:559-568) and `betree_search_with_preds` (tree.c:1749-1771).  The array of the environment is
freed at the end of the search, but not when a mandatory variable is missing. -/
def MemWorld.searchFilled (geo : GeoTest) (w : MemWorld) (vars : List (Nat × Value)) (i : EventImg) (rep : Report) (r : ReportImg) :
    Mem (Option Report × ReportImg) := do
  let cfg := w.world.tree.cfg
  let env := makeEnvironment cfg.domains.length vars (List.replicate cfg.domains.length none)
  let preds ← malloc
  if validateVariables cfg.domains env then do
    let undefined ← malloc
    let pass ← malloc
    let fail ← malloc
    let subs ← malloc
    touchAll i.all
    w.readTree
    let found ← liftMem (w.world.tree.root.collect cfg env)
    let subs ← addSubsToEval 0 10 subs found
    let rep' ← liftMem (searchWithPreds geo cfg env w.world.tree.root rep)
    touch r.report
    let ids ← addSubsMem rep.matched r.subs (rep'.subs.drop rep.subs.length)
    bfree subs
    bfree pass
    bfree fail
    bfree undefined
    bfree preds
    pure (some rep', { r with subs := ids })
  else pure (none, r)

/-- `betree_exists_with_event_filled` (betree.c:570-574) and `betree_exists_with_preds` (tree.c:1773-1793) -/
def MemWorld.existsFilled (geo : GeoTest) (w : MemWorld) (vars : List (Nat × Value)) (i : EventImg) : Mem Bool := do
  let cfg := w.world.tree.cfg
  let env := makeEnvironment cfg.domains.length vars (List.replicate cfg.domains.length none)
  let preds ← malloc
  let undefined ← malloc
  let pass ← malloc
  let fail ← malloc
  let subs ← malloc
  touchAll i.all
  w.readTree
  let found ← liftMem (w.world.tree.root.collect cfg env)
  let subs ← addSubsToEval 0 10 subs found
  let result ← liftMem (existsWithPreds geo cfg env w.world.tree.root)
  bfree subs
  bfree pass
  bfree fail
  bfree undefined
  bfree preds
  pure result

/-- `betree_search` (betree.c:591-597) -/
def MemWorld.searchText (geo : GeoTest) (w : MemWorld) (text : Str) (rep : Report) (r : ReportImg) : Mem (Option Report × ReportImg) := do
  let (vars, i) ← eventFromStringMem w.world.tree.cfg text
  let a ← w.searchFilled geo vars i rep r
  freeEvent i
  pure a

/-- `betree_exists` (betree.c:576-582) -/
def MemWorld.existsText (geo : GeoTest) (w : MemWorld) (text : Str) : Mem Bool := do
  let (vars, i) ← eventFromStringMem w.world.tree.cfg text
  let a ← w.existsFilled geo vars i
  freeEvent i
  pure a

/-! ### sequences of calls -/

/-- A call: one that changes the tree, a search into several reports or one, an existence test (betree.h:64-107, helper.h:6).  `search`
makes a report, searches with each of the texts into the same report, and frees it. -/
inductive UserOp where
  | tree (o : MemOp)
  | search (texts : List Str)
  | exists (text : Str)

/-- what a call answers (betree.h:98-107): the report of a search and what each search returned, or whether something matches -/
inductive Answer where
  | report (r : Report) (results : List Bool)
  | found (b : Bool)
  deriving DecidableEq, Repr

/-- searches one after the other into the same report (betree.c:591-597) -/
def MemWorld.searches (geo : GeoTest) (w : MemWorld) : List Str → Report → ReportImg → Mem (Report × List Bool × ReportImg)
  | [], rep, r => pure (rep, [], r)
  | text :: ts, rep, r => do
    match ← w.searchText geo text rep r with
    | (none, r) =>
      let (rep, bs, r) ← w.searches geo ts rep r
      pure (rep, false :: bs, r)
    | (some rep, r) =>
      let (rep, bs, r) ← w.searches geo ts rep r
      pure (rep, true :: bs, r)

/-- One call (betree.c:459-625, helper.c:97-105). -/
def MemWorld.userStep (geo : GeoTest) (R : Rounding) (w : MemWorld) : UserOp → Mem (MemWorld × List Answer)
  | .tree o => do
    let w ← w.step R o
    pure (w, [])
  | .search texts => do
    let r ← makeReportMem
    let (rep, bs, r) ← w.searches geo texts Report.empty r
    freeReport r
    pure (w, [.report rep bs])
  | .exists text => do
    let b ← w.existsText geo text
    pure (w, [.found b])

/-- A sequence of calls (betree.c:459-625), and all answers. -/
def MemWorld.userRun (geo : GeoTest) (R : Rounding) (w : MemWorld) : List UserOp → Mem (MemWorld × List Answer)
  | [] => pure (w, [])
  | o :: os => do
    let (w, a) ← w.userStep geo R o
    let (w, b) ← w.userRun geo R os
    pure (w, a ++ b)

/-- The same searches without the memory (betree.c:591-597). -/
def Tree.searches (geo : GeoTest) (t : Tree) : List Str → Report → Except Fault (Report × List Bool)
  | [], rep => .ok (rep, [])
  | text :: ts, rep =>
    match t.searchText geo text rep with
    | .error x => .error x
    | .ok none =>
      match t.searches geo ts rep with
      | .error x => .error x
      | .ok (rep, bs) => .ok (rep, false :: bs)
    | .ok (some rep) =>
      match t.searches geo ts rep with
      | .error x => .error x
      | .ok (rep, bs) => .ok (rep, true :: bs)

/-- The same call without the memory (betree.c:459-625, helper.c:97-105). -/
def TextWorld.userStep (geo : GeoTest) (R : Rounding) (w : TextWorld) : UserOp → Except Fault (TextWorld × List Answer)
  | .tree o =>
    match w.plainStep R o with
    | .error x => .error x
    | .ok w => .ok (w, [])
  | .search texts =>
    match w.tree.searches geo texts Report.empty with
    | .error x => .error x
    | .ok (rep, bs) => .ok (w, [.report rep bs])
  | .exists text =>
    match w.tree.existsText geo text with
    | .error x => .error x
    | .ok b => .ok (w, [.found b])

/-- The same calls without the memory (betree.c:459-625). -/
def TextWorld.userRun (geo : GeoTest) (R : Rounding) (w : TextWorld) : List UserOp → Except Fault (TextWorld × List Answer)
  | [] => .ok (w, [])
  | o :: os =>
    match w.userStep geo R o with
    | .error x => .error x
    | .ok (w, a) =>
      match w.userRun geo R os with
      | .error x => .error x
      | .ok (w, b) => .ok (w, a ++ b)

end BeTree
