import Verif.Model.EventMemory
import Verif.Model.EventObj
/-
Memory of events that the caller builds (betree.c:754-954): lists, variables and events as blocks, searches that write to them, freeing.
-/
namespace BeTree

/-! ### making values -/

/-- the arguments of `betree_make_frequency_cap` (betree.c:809-814) -/
structure CapArgs where
  stype : Str
  id : Nat
  ns : Str
  timestampDefined : Bool
  timestamp : Int
  value : Nat
  deriving DecidableEq, Repr

/-- How the caller makes a value (betree.c:754-892): a list is made with its length and then written entry by entry, in any order.
Simplification: the calls that make one value are not interleaved with others. -/
inductive Recipe where
  | bool (b : Bool)
  | int (i : Int)
  | float (f : Rat)
  | string (s : Str)
  | ints (count : Nat) (adds : List (Nat × Int))
  | strs (count : Nat) (adds : List (Nat × Str))
  | segs (count : Nat) (adds : List (Nat × Segment))
  | caps (count : Nat) (adds : List (Nat × CapArgs))
  deriving DecidableEq, Repr

/-- the calls of `betree_add_*` for one list (betree.c:762-765, 775-779, 794-798, 825-830) -/
def addEach {α β : Type} (add : List β → Nat → α → Except Fault (List β)) : List β → List (Nat × α) → Except Fault (List β)
  | l, [] => .ok l
  | l, (i, a) :: ws =>
    match add l i a with
    | .error e => .error e
    | .ok l => addEach add l ws

/-- what is held by the pointers of a finished list (betree.c:866-892) -/
def finished {α : Type} (mk : List α → Value) (x : Except Fault (List (Option α))) : Except Fault Value :=
  match x with
  | .error e => .error e
  | .ok l =>
    match noNulls l with
    | .error e => .error e
    | .ok l => .ok (mk l)

/-- the value without its memory (betree.c:754-892) -/
def Recipe.value : Recipe → Except Fault Value
  | .bool b => .ok (.bool b)
  | .int i => .ok (.int i)
  | .float f => .ok (.float f)
  | .string s => .ok (.string ⟨s, invalidId, invalidId⟩)
  | .ints n ws =>
    match addEach addInteger (makeIntegerList n) ws with
    | .error e => .error e
    | .ok l => .ok (.intList l)
  | .strs n ws => finished .strList (addEach addString (makeNullList StrVal n) ws)
  | .segs n ws => finished .segments (addEach addSegment (makeNullList Segment n) ws)
  | .caps n ws =>
    finished .freq (addEach (fun l i (a : CapArgs) => addFrequencyCap l i (makeCap a.stype a.id a.ns a.timestampDefined a.timestamp a.value))
      (makeNullList FreqCap n) ws)

/-- the copy `betree_add_string` makes (betree.c:775-779) -/
def stringMem (s : Str) : Mem (Option (StrVal × Nat)) := do
  let b ← malloc
  pure (some (⟨s, 0, 0⟩, b))

/-- `betree_make_segment` (betree.c:789-792, value.c:180-186) -/
def segmentMem (s : Segment) : Mem (Option (Segment × Nat)) := do
  let b ← malloc
  pure (some (s, b))

/-- `betree_make_frequency_cap` (betree.c:809-823): nothing is allocated when the type is not known -/
def capMem (a : CapArgs) : Mem (Option (FreqCap × (Nat × Nat))) :=
  match makeCap a.stype a.id a.ns a.timestampDefined a.timestamp a.value with
  | none => pure none
  | some c => do
    let ns ← malloc
    let b ← malloc
    pure (some (c, (b, ns)))

/-- the calls that fill one list of pointers (betree.c:775-798, 809-830): each makes its entry and writes it; what the entry held before
is not freed -/
def addEachMem {α β : Type} (make : α → Mem (Option β)) : List (Option β) → List (Nat × α) → Mem (List (Option β))
  | l, [] => pure l
  | l, (i, a) :: ws => do
    let x ← make a
    let l ← liftMem (putAt l i x)
    addEachMem make l ws

/-- The value with its memory (betree.c:754-892): a list has a header and an array, also when it is empty. -/
def Recipe.mem : Recipe → Mem (Value × ValImg)
  | .bool b => pure (.bool b, .plain)
  | .int i => pure (.int i, .plain)
  | .float f => pure (.float f, .plain)
  | .string s => do
    let b ← malloc
    pure (.string ⟨s, invalidId, invalidId⟩, .str b)
  | .ints n ws => do
    let h ← malloc
    let a ← malloc
    let l ← liftMem (addEach addInteger (makeIntegerList n) ws)
    pure (.intList l, .ints h (some a))
  | .strs n ws => do
    let h ← malloc
    let a ← malloc
    let l ← addEachMem stringMem (makeNullList _ n) ws
    let l ← liftMem (noNulls l)
    pure (.strList (l.map Prod.fst), .strs h (some a) (l.map Prod.snd))
  | .segs n ws => do
    let h ← malloc
    let a ← malloc
    let l ← addEachMem segmentMem (makeNullList _ n) ws
    let l ← liftMem (noNulls l)
    pure (.segments (l.map Prod.fst), .segs h (some a) (l.map Prod.snd))
  | .caps n ws => do
    let h ← malloc
    let a ← malloc
    let l ← addEachMem capMem (makeNullList _ n) ws
    let l ← liftMem (noNulls l)
    pure (.freq (l.map Prod.fst), .caps h (some a) (l.map Prod.snd))

/-- `betree_make_*_variable` with what it is given (betree.c:832-892) -/
def makeVariableMem (name : Str) (m : Recipe) : Mem (EventVar × VarImg) := do
  let v ← m.mem
  let a ← malloc
  let p ← malloc
  pure (⟨name, v.1⟩, ⟨p, a, v.2⟩)

/-- `betree_free_variable` (betree.c:901-906) -/
def freeVariable (v : VarImg) : Mem Unit := do
  bfree v.attr
  freeVal v.value
  bfree v.var

/-! ### events -/

/-- `struct betree_event` made by the caller (betree.h:29-32): its block, the block of its array, and the variables with theirs -/
structure ObjMem where
  event : Nat
  array : Nat
  slots : List (Option (EventVar × VarImg))

/-- the event without its memory (betree.h:29-32) -/
def ObjMem.obj (o : ObjMem) : EventObj := o.slots.map (Option.map Prod.fst)

/-- the event as blocks (betree.h:29-32); its NULL entries have none -/
def ObjMem.img (o : ObjMem) : EventImg := ⟨o.event, some o.array, (o.slots.filterMap id).map Prod.snd⟩

/-- `betree_make_event` (betree.c:943-949) -/
def Tree.makeEventMem (t : Tree) : Mem ObjMem := do
  let e ← malloc
  let a ← malloc
  pure ⟨e, a, List.replicate t.cfg.domains.length none⟩

/-- `betree_set_variable` (betree.c:951-954): the variable that was there is not freed -/
def ObjMem.setVariable (o : ObjMem) (index : Nat) (v : EventVar × VarImg) : Mem ObjMem := do
  touchAll [o.event, o.array]
  let s ← liftMem (putAt o.slots index (some v))
  pure { o with slots := s }

/-- `betree_free_event` (betree.c:908-911, tree.c:1115-1128): NULL entries are passed over -/
def ObjMem.free (o : ObjMem) : Mem Unit := freeEvent o.img

/-- `sort_event_lists` on the blocks, slot by slot (tree.c:1795-1809), given the values after `fill_event` -/
def sortSlotsMem : List (Option (Nat × EventVar)) → List (Option (EventVar × VarImg)) → Mem (List (Option (EventVar × VarImg)))
  | none :: vs, _ :: is => do
    let r ← sortSlotsMem vs is
    pure (none :: r)
  | some (_, v) :: vs, some (_, i) :: is => do
    let x ← sortValueMem v.value (i.value.retype v.value)
    let r ← sortSlotsMem vs is
    pure (some (⟨v.attr, sortValue v.value⟩, { i with value := x }) :: r)
  | _, _ => pure []

/-- `fill_event` and `sort_event_lists` as `betree_search_with_event` calls them (betree.c:584-589, 599-604): the values by variable, and the
event as it is left -/
def Tree.prepareMem (t : Tree) (o : ObjMem) : Mem (List (Nat × Value) × ObjMem) := do
  touchAll o.img.all
  let l ← liftMem (fillObj t.cfg o.obj)
  let s ← sortSlotsMem l o.slots
  pure (((sortObj l).filterMap id).map fun p => (p.1, p.2.value), { o with slots := s })

/-- `betree_search_with_event` (betree.c:599-604, 559-568) -/
def MemWorld.searchObj (geo : GeoTest) (w : MemWorld) (o : ObjMem) (rep : Report) (r : ReportImg) :
    Mem (Option Report × ReportImg × ObjMem) := do
  let p ← w.world.tree.prepareMem o
  let a ← w.searchFilled geo p.1 p.2.img rep r
  pure (a.1, a.2, p.2)

/-- `betree_exists_with_event` (betree.c:584-589, 570-574) -/
def MemWorld.existsObj (geo : GeoTest) (w : MemWorld) (o : ObjMem) : Mem (Bool × ObjMem) := do
  let p ← w.world.tree.prepareMem o
  let a ← w.existsFilled geo p.1 p.2.img
  pure (a, p.2)

/-! ### sequences of calls -/

/-- A call (betree.h:57-107): one of the calls with texts, or one with events that the caller builds, numbered in the order in which they
are made.  `search` makes a report, searches with each of the events into it, and frees it; `loose` makes a variable and frees it. -/
inductive EventOp where
  | user (o : UserOp)
  | make
  | set (event index : Nat) (name : Str) (m : Recipe)
  | search (events : List Nat)
  | exists (event : Nat)
  | free (event : Nat)
  | loose (name : Str) (m : Recipe)

/-- the tree with its subscriptions, and the events the caller has made (betree.c:459-625, 943-949); a freed one is `none` -/
structure EventWorld where
  mem : MemWorld
  objs : List (Option ObjMem)

/-- the same without memory (betree.c:459-625, 943-949) -/
structure EventPlain where
  world : TextWorld
  objs : List (Option EventObj)

/-- an event the caller uses (betree.h:57-107): it is undefined to use one that was freed, or never made -/
def heldAt {α : Type} (objs : List (Option α)) (k : Nat) : Except Fault α :=
  match objs[k]? with
  | some (some o) => .ok o
  | _ => .error .ub

/-- searches one after the other into the same report (betree.c:599-604) -/
def EventWorld.searches (geo : GeoTest) : EventWorld → List Nat → Report → ReportImg → Mem (EventWorld × Report × List Bool × ReportImg)
  | w, [], rep, r => pure (w, rep, [], r)
  | w, k :: ks, rep, r => do
    let o ← liftMem (heldAt w.objs k)
    let a ← w.mem.searchObj geo o rep r
    let b ← EventWorld.searches geo { w with objs := w.objs.set k (some a.2.2) } ks (a.1.getD rep) a.2.1
    pure (b.1, b.2.1, a.1.isSome :: b.2.2.1, b.2.2.2)

/-- One call (betree.c:459-625, 754-954). -/
def EventWorld.step (geo : GeoTest) (R : Rounding) (w : EventWorld) : EventOp → Mem (EventWorld × List Answer)
  | .user o => do
    let a ← w.mem.userStep geo R o
    pure ({ w with mem := a.1 }, a.2)
  | .make => do
    let o ← w.mem.world.tree.makeEventMem
    pure ({ w with objs := w.objs ++ [some o] }, [])
  | .set k index name m => do
    let v ← makeVariableMem name m
    let o ← liftMem (heldAt w.objs k)
    let o ← o.setVariable index v
    pure ({ w with objs := w.objs.set k (some o) }, [])
  | .search ks => do
    let r ← makeReportMem
    let a ← w.searches geo ks Report.empty r
    freeReport a.2.2.2
    pure (a.1, [.report a.2.1 a.2.2.1])
  | .exists k => do
    let o ← liftMem (heldAt w.objs k)
    let a ← w.mem.existsObj geo o
    pure ({ w with objs := w.objs.set k (some a.2) }, [.found a.1])
  | .free k => do
    let o ← liftMem (heldAt w.objs k)
    o.free
    pure ({ w with objs := w.objs.set k none }, [])
  | .loose name m => do
    let v ← makeVariableMem name m
    freeVariable v.2
    pure (w, [])

/-- A sequence of calls (betree.c:459-625, 754-954), and all answers. -/
def EventWorld.run (geo : GeoTest) (R : Rounding) (w : EventWorld) : List EventOp → Mem (EventWorld × List Answer)
  | [] => pure (w, [])
  | o :: os => do
    let a ← w.step geo R o
    let b ← a.1.run geo R os
    pure (b.1, a.2 ++ b.2)

/-- the caller frees the events that are left (betree.c:908-911) -/
def freeObjs : List (Option ObjMem) → Mem Unit
  | [] => pure ()
  | none :: os => freeObjs os
  | some o :: os => do
    o.free
    freeObjs os

/-! ### the same without memory -/

/-- the searches of one report (betree.c:599-604) -/
def EventPlain.searches (geo : GeoTest) : EventPlain → List Nat → Report → Except Fault (EventPlain × Report × List Bool)
  | w, [], rep => .ok (w, rep, [])
  | w, k :: ks, rep =>
    match heldAt w.objs k with
    | .error e => .error e
    | .ok o =>
      match w.world.tree.searchObj geo o rep with
      | .error e => .error e
      | .ok (a, o) =>
        match EventPlain.searches geo { w with objs := w.objs.set k (some o) } ks (a.getD rep) with
        | .error e => .error e
        | .ok (w, rep, bs) => .ok (w, rep, a.isSome :: bs)

/-- one call (betree.c:459-625, 754-954) -/
def EventPlain.step (geo : GeoTest) (R : Rounding) (w : EventPlain) : EventOp → Except Fault (EventPlain × List Answer)
  | .user o =>
    match w.world.userStep geo R o with
    | .error e => .error e
    | .ok (t, a) => .ok ({ w with world := t }, a)
  | .make => .ok ({ w with objs := w.objs ++ [some w.world.tree.makeEvent] }, [])
  | .set k index name m =>
    match m.value with
    | .error e => .error e
    | .ok v =>
      match heldAt w.objs k with
      | .error e => .error e
      | .ok o =>
        match BeTree.setVariable o index (some ⟨name, v⟩) with
        | .error e => .error e
        | .ok o => .ok ({ w with objs := w.objs.set k (some o) }, [])
  | .search ks =>
    match w.searches geo ks Report.empty with
    | .error e => .error e
    | .ok (w, rep, bs) => .ok (w, [.report rep bs])
  | .exists k =>
    match heldAt w.objs k with
    | .error e => .error e
    | .ok o =>
      match w.world.tree.existsObj geo o with
      | .error e => .error e
      | .ok (b, o) => .ok ({ w with objs := w.objs.set k (some o) }, [.found b])
  | .free k =>
    match heldAt w.objs k with
    | .error e => .error e
    | .ok _ => .ok ({ w with objs := w.objs.set k none }, [])
  | .loose _ m =>
    match m.value with
    | .error e => .error e
    | .ok _ => .ok (w, [])

/-- the calls (betree.c:459-625, 754-954) -/
def EventPlain.run (geo : GeoTest) (R : Rounding) (w : EventPlain) : List EventOp → Except Fault (EventPlain × List Answer)
  | [] => .ok (w, [])
  | o :: os =>
    match w.step geo R o with
    | .error e => .error e
    | .ok (w, a) =>
      match w.run geo R os with
      | .error e => .error e
      | .ok (w, b) => .ok (w, a ++ b)

end BeTree
