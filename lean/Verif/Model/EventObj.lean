import Verif.Model.History
import Verif.Model.Parser
/-
betree.c: events built by the caller, variable by variable, and searches with them.  `betree_search_with_event` and
`betree_exists_with_event` write to the event they are given.
-/
namespace BeTree

/-! ### building (betree.c:754-892) -/

/-- `array[index] = value` in the array of a list under construction: outside it is UB (betree.c:762-765 and the other `betree_add_*`). -/
def putAt {α : Type} (l : List α) (index : Nat) (x : α) : Except Fault (List α) :=
  if index < l.length then .ok (l.set index x) else .error .ub

/-- `betree_make_integer_list` (betree.c:754-760): zeroed -/
def makeIntegerList (count : Nat) : List Int := List.replicate count 0

/-- `betree_add_integer` (betree.c:762-765) -/
def addInteger (l : List Int) (index : Nat) (x : Int) : Except Fault (List Int) := putAt l index x

/-- `betree_make_string_list`, `betree_make_segments`, `betree_make_frequency_caps` (betree.c:767-773, 781-787, 801-807): the entries
are NULL pointers -/
def makeNullList (α : Type) (count : Nat) : List (Option α) := List.replicate count none

/-- `betree_add_string` (betree.c:775-779): the ids are zero -/
def addString (l : List (Option StrVal)) (index : Nat) (x : Str) : Except Fault (List (Option StrVal)) := putAt l index (some ⟨x, 0, 0⟩)

/-- `betree_make_segment` and `betree_add_segment` (betree.c:789-798) -/
def addSegment (l : List (Option Segment)) (index : Nat) (x : Segment) : Except Fault (List (Option Segment)) := putAt l index (some x)

/-- `betree_make_frequency_cap` (betree.c:809-823): NULL when the type is none of the known ones -/
def makeCap (stype : Str) (id : Nat) (ns : Str) (timestampDefined : Bool) (timestamp : Int) (value : Nat) : Option FreqCap :=
  if freqTypeOf stype = .invalid then none
  else some ⟨freqTypeOf stype, id, ⟨ns, invalidId, invalidId⟩, timestampDefined, timestamp, value⟩

/-- `betree_add_frequency_cap` (betree.c:825-830) -/
def addFrequencyCap (l : List (Option FreqCap)) (index : Nat) (x : Option FreqCap) : Except Fault (List (Option FreqCap)) :=
  putAt l index x

/-- The entries of a list handed over in a variable (betree.c:866-892).  A NULL entry is UB here; in C it is when `fill_event` or the
evaluation reads it. -/
def noNulls {α : Type} : List (Option α) → Except Fault (List α)
  | [] => .ok []
  | none :: _ => .error .ub
  | some x :: l =>
    match noNulls l with
    | .error e => .error e
    | .ok l => .ok (x :: l)

/-- An event object: `struct betree_event` (betree.h:30-33), the `variables` array, NULL entries being `none`.  The `var` inside a
variable is not kept: `fill_event` sets it before anything reads it.  Objects do not share variables or lists here. -/
abbrev EventObj := List (Option EventVar)

/-- `betree_make_event` (betree.c:943-949) -/
def Tree.makeEvent (t : Tree) : EventObj := List.replicate t.cfg.domains.length none

/-- `betree_set_variable` (betree.c:951-954) -/
def setVariable (ev : EventObj) (index : Nat) (v : Option EventVar) : Except Fault EventObj := putAt ev index v

/-! ### searching (betree.c:570-604) -/

/-- `fill_event` (tree.c:1872-1930) on an object: the variable ids, the names and the filled values, slot by slot -/
def fillObj (cfg : Config) : EventObj → Except Fault (List (Option (Nat × EventVar)))
  | [] => .ok []
  | none :: vs =>
    match fillObj cfg vs with
    | .error e => .error e
    | .ok rest => .ok (none :: rest)
  | some v :: vs =>
    if tryGetIdForAttr cfg v.attr = invalidId then .error .abort
    else
      match getDomain cfg (tryGetIdForAttr cfg v.attr) with
      | .error e => .error e
      | .ok d =>
        match fillValue cfg (tryGetIdForAttr cfg v.attr) d.bound.ty v.value with
        | .error e => .error e
        | .ok x =>
          match fillObj cfg vs with
          | .error e => .error e
          | .ok rest => .ok (some (tryGetIdForAttr cfg v.attr, ⟨v.attr, x⟩) :: rest)

/-- `sort_event_lists` (tree.c:1795-1809).  `qsort` is not stable: which of several strings without an id survives the removal of duplicates
is not specified in C; here it is the first. -/
def sortObj (l : List (Option (Nat × EventVar))) : List (Option (Nat × EventVar)) :=
  l.map (Option.map fun p => (p.1, ⟨p.2.attr, sortValue p.2.value⟩))

/-- `make_environment` (betree.c:548-557) on the slots that are not NULL -/
def objEnv (cfg : Config) (l : List (Option (Nat × EventVar))) : Env :=
  makeEnvironment cfg.domains.length ((l.filterMap id).map fun p => (p.1, p.2.value)) (List.replicate cfg.domains.length none)

/-- the object as the call leaves it (tree.c:1795-1809, 1872-1930): values filled in, lists sorted and without duplicates -/
def leftObj (l : List (Option (Nat × EventVar))) : EventObj := l.map (Option.map (·.2))

/-- `betree_search_with_event` (betree.c:599-604, 559-568): the result (`none` is `false`) and the event as the call leaves it -/
def Tree.searchObj (geo : GeoTest) (t : Tree) (ev : EventObj) (rep : Report) : Except Fault (Option Report × EventObj) :=
  match fillObj t.cfg ev with
  | .error e => .error e
  | .ok l =>
    if validateVariables t.cfg.domains (objEnv t.cfg (sortObj l)) then
      match searchWithPreds geo t.cfg (objEnv t.cfg (sortObj l)) t.root rep with
      | .error e => .error e
      | .ok r => .ok (some r, leftObj (sortObj l))
    else .ok (none, leftObj (sortObj l))

/-- `betree_exists_with_event` (betree.c:584-589, 570-574) -/
def Tree.existsObj (geo : GeoTest) (t : Tree) (ev : EventObj) : Except Fault (Bool × EventObj) :=
  match fillObj t.cfg ev with
  | .error e => .error e
  | .ok l =>
    match existsWithPreds geo t.cfg (objEnv t.cfg (sortObj l)) t.root with
    | .error e => .error e
    | .ok b => .ok (b, leftObj (sortObj l))

/-- Calls made while one event object is kept (betree.h:57-95): changes of the tree, and searches with the object. -/
inductive ObjOp where
  | op (o : Op)
  | search (rep : Report)
  | exists

/-- one of them (betree.c:459-541, 584-589, 599-604) -/
def objStep (geo : GeoTest) (R : Rounding) (w : World) (ev : EventObj) : ObjOp → Except Fault (World × EventObj)
  | .op o =>
    match w.step R o with
    | .error e => .error e
    | .ok w => .ok (w, ev)
  | .search rep =>
    match w.tree.searchObj geo ev rep with
    | .error e => .error e
    | .ok (_, ev) => .ok (w, ev)
  | .exists =>
    match w.tree.existsObj geo ev with
    | .error e => .error e
    | .ok (_, ev) => .ok (w, ev)

/-- a sequence of them (betree.c:459-541, 584-589, 599-604) -/
def objRun (geo : GeoTest) (R : Rounding) (w : World) (ev : EventObj) : List ObjOp → Except Fault (World × EventObj)
  | [] => .ok (w, ev)
  | o :: os =>
    match objStep geo R w ev o with
    | .error e => .error e
    | .ok (w, ev) => objRun geo R w ev os

end BeTree
