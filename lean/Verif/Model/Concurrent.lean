import Verif.Model.Session
/-
Threads that search the same tree at the same time: their steps in any order, on one heap, with the global variable of the event parser.

What a search reads of the tree are the blocks of its subscriptions, of its nodes and of its configuration.  Simplification, as in `Session`: within
a call the nodes and the configuration are read after the subscriptions.  A step is one allocation, one `free`, one use of a block, or one access to the global variable:
what lies between two of them touches nothing that threads share.  Out of the model: threads that change the tree, and events shared by
threads (a search writes to its event).
-/
namespace BeTree

/-- what `struct betree_event *root` points to (event_parser.y:12): an event as it was parsed, and its blocks -/
abbrev ParsedEvent := List EventVar × EventImg

/-- The program of a thread (alloc.h:3-14): as for `Mem`, with two more kinds of steps: the action of the grammar that stores the event in the
global variable (event_parser.y:94-95), and `event_parse` reading it back (event_parser.y:192); `none` is NULL. -/
inductive Thread (α : Type) where
  | done (a : α)
  | malloc (k : Nat → Thread α)
  | free (b : Nat) (k : Thread α)
  | touch (b : Nat) (k : Thread α)
  | fault (e : Fault)
  | put (e : ParsedEvent) (k : Thread α)
  | get (k : Option ParsedEvent → Thread α)

/-- a program that does not use the global variable, and then another (alloc.h:3-14; no function of the code) -/
def Mem.thread {α β : Type} : Mem α → (α → Thread β) → Thread β
  | .done a, f => f a
  | .malloc k, f => .malloc fun b => (k b).thread f
  | .free b k, f => .free b (k.thread f)
  | .touch b k, f => .touch b (k.thread f)
  | .fault e, _ => .fault e

/-- one program and then another (alloc.h:3-14; no function of the code) -/
def Thread.bind {α β : Type} : Thread α → (α → Thread β) → Thread β
  | .done a, f => f a
  | .malloc k, f => .malloc fun b => (k b).bind f
  | .free b k, f => .free b (k.bind f)
  | .touch b k, f => .touch b (k.bind f)
  | .fault e, _ => .fault e
  | .put e k, f => .put e (k.bind f)
  | .get k, f => .get fun r => (k r).bind f

/-! ### calls with texts -/

/-- `event_parse` (event_parser.y:179-199): the event is handed over through the global variable.  A text that does not parse aborts
(tree.c:1811-1821); simplification: that such a text may have stored an event before is left out. -/
def parseShared {α : Type} (text : Str) (f : ParsedEvent → Thread α) : Thread α :=
  (parseEventMem text).thread fun r =>
    match r with
    | none => .fault .abort
    | some e =>
      .put e (.get fun r =>
        match r with
        | none => .fault .ub
        | some e => f e)

/-- `make_event_from_string` after the parsing (tree.c:1818-1820) -/
def readyEvent (cfg : Config) (e : ParsedEvent) : Mem (List (Nat × Value) × EventImg) := do
  let vars ← liftMem (fillEvent cfg e.1)
  let is ← sortVarsMem vars e.2.vars
  pure (vars.map fun p => (p.1, sortValue p.2), { e.2 with vars := is })

/-- `betree_search` after the parsing (betree.c:591-597) -/
def MemWorld.searchParsed (geo : GeoTest) (w : MemWorld) (rep : Report) (r : ReportImg) (e : ParsedEvent) : Mem (Option Report × ReportImg) := do
  let q ← readyEvent w.world.tree.cfg e
  let a ← w.searchFilled geo q.1 q.2 rep r
  freeEvent q.2
  pure a

/-- `betree_exists` after the parsing (betree.c:576-582) -/
def MemWorld.existsParsed (geo : GeoTest) (w : MemWorld) (e : ParsedEvent) : Mem Bool := do
  let q ← readyEvent w.world.tree.cfg e
  let a ← w.existsFilled geo q.1 q.2
  freeEvent q.2
  pure a

/-- searches with texts, one after the other into the same report (betree.c:591-597) -/
def MemWorld.threadSearches (geo : GeoTest) (w : MemWorld) : List Str → Report → ReportImg → Thread (Report × List Bool × ReportImg)
  | [], rep, r => .done (rep, [], r)
  | text :: ts, rep, r =>
    parseShared text fun e =>
      (w.searchParsed geo rep r e).thread fun a =>
        (w.threadSearches geo ts (a.1.getD rep) a.2).bind fun b => .done (b.1, a.1.isSome :: b.2.1, b.2.2)

/-! ### the calls of a thread -/

/-- A call of a thread (betree.c:543-625, 754-954) that has made the events `objs`: the events after it, and its answers.  Calls that change the
tree are not made by threads. -/
def MemWorld.threadStep (geo : GeoTest) (R : Rounding) (w : MemWorld) (objs : List (Option ObjMem)) :
    EventOp → Thread (List (Option ObjMem) × List Answer)
  | .user (.tree _) => .fault .ub
  | .user (.search texts) =>
    makeReportMem.thread fun r =>
      (w.threadSearches geo texts Report.empty r).bind fun a =>
        (freeReport a.2.2).thread fun _ => .done (objs, [.report a.1 a.2.1])
  | .user (.exists text) =>
    parseShared text fun e =>
      (w.existsParsed geo e).thread fun b => .done (objs, [.found b])
  | o => ((EventWorld.mk w objs).step geo R o).thread fun a => .done (a.1.objs, a.2)

/-- A call of a thread on a tree with all its memory (betree.c:543-625, 754-954): as `Session.step`, the tree's own block, the nodes and the
configuration are read as well. -/
def Session.threadStep (H : Str → Nat) (geo : GeoTest) (R : Rounding) (s : Session) (objs : List (Option ObjMem)) (o : EventOp) :
    Thread (List (Option ObjMem) × List Answer) :=
  (touch s.tree).thread fun _ =>
    (s.subs.mem.threadStep geo R objs o).bind fun a =>
      (s.nodes.step R o.memOp).thread fun _ =>
        (s.config.step H R o.memOp).thread fun _ => .done a

/-- The calls of a thread, one after the other (betree.c:543-625, 754-954). -/
def Session.threadRun (H : Str → Nat) (geo : GeoTest) (R : Rounding) (s : Session) :
    List (Option ObjMem) → List EventOp → Thread (List (Option ObjMem) × List Answer)
  | objs, [] => .done (objs, [])
  | objs, o :: os =>
    (s.threadStep H geo R objs o).bind fun a =>
      (s.threadRun H geo R a.1 os).bind fun b => .done (b.1, a.2 ++ b.2)

/-! ### threads together -/

/-- what a step does (alloc.h:3-14, event_parser.y:94-95, 192) -/
inductive Act where
  | alloc (b : Nat)
  | free (b : Nat)
  | use (b : Nat)
  | put
  | get
  deriving DecidableEq, Repr

/-- the heap, the global variable and the threads (alloc.h:3-14, event_parser.y:12) -/
structure Machine (α : Type) where
  heap : Heap
  root : Option ParsedEvent
  threads : List (Thread α)

/-- A step of one thread (alloc.h:3-14, event_parser.y:94-95, 192): what it does, and what is there afterwards or what went wrong.  A thread that
is finished, or does not exist, does nothing. -/
def Machine.step {α : Type} (m : Machine α) (i : Nat) : List (Nat × Act) × Except Fault (Machine α) :=
  match m.threads[i]? with
  | none => ([], .ok m)
  | some (.done _) => ([], .ok m)
  | some (.malloc k) =>
    ([(i, .alloc m.heap.next)], .ok { m with
      heap := { next := m.heap.next + 1, live := m.heap.next :: m.heap.live }
      threads := m.threads.set i (k m.heap.next) })
  | some (.free b k) =>
    ([(i, .free b)], if b ∈ m.heap.live then .ok { m with heap := { m.heap with live := m.heap.live.erase b }, threads := m.threads.set i k }
      else .error .ub)
  | some (.touch b k) =>
    ([(i, .use b)], if b ∈ m.heap.live then .ok { m with threads := m.threads.set i k } else .error .ub)
  | some (.fault e) => ([], .error e)
  | some (.put e k) => ([(i, .put)], .ok { m with root := some e, threads := m.threads.set i k })
  | some (.get k) => ([(i, .get)], .ok { m with threads := m.threads.set i (k m.root) })

/-- The steps of a schedule, one thread after the other (alloc.h:3-14), until something goes wrong. -/
def Machine.run {α : Type} (m : Machine α) : List Nat → List (Nat × Act) × Except Fault (Machine α)
  | [] => ([], .ok m)
  | i :: is =>
    match m.step i with
    | (a, .error e) => (a, .error e)
    | (a, .ok m') =>
      match m'.run is with
      | (b, r) => (a ++ b, r)

/-- Threads that each make a sequence of calls on the same tree (betree.c:543-625, 754-954); `root` is what earlier texts left. -/
def Session.machine (H : Str → Nat) (geo : GeoTest) (R : Rounding) (s : Session) (heap : Heap) (root : Option ParsedEvent)
    (calls : List (List EventOp)) : Machine (List (Option ObjMem) × List Answer) :=
  ⟨heap, root, calls.map fun os => s.threadRun H geo R [] os⟩

end BeTree
