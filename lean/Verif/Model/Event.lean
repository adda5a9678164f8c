import Verif.Model.Search
import Verif.Model.Pipeline
/-
tree.c: preparing an event (fill_event, sort_event_lists, make_environment, validate_variables).
-/
namespace BeTree

/-- An event variable as the caller or the event parser builds it (`struct betree_variable`, tree.h:12-15): a name and a
value.  The ids inside string values are not set yet. -/
structure EventVar where
  attr : Str
  value : Value
  deriving DecidableEq

/-- the id of one string of the event (tree.c:1901-1906, 1908-1911) -/
def fillStr (cfg : Config) (var : Nat) (s : StrVal) : Except Fault StrVal :=
  match tryGetIdForString cfg var s.string with
  | .error e => .error e
  | .ok id => .ok { s with var := var, str := id }

/-- the loop over a string list (tree.c:1907-1915) -/
def fillStrs (cfg : Config) (var : Nat) : List StrVal → Except Fault (List StrVal)
  | [] => .ok []
  | s :: ss =>
    match fillStr cfg var s with
    | .error e => .error e
    | .ok s =>
      match fillStrs cfg var ss with
      | .error e => .error e
      | .ok ss => .ok (s :: ss)

/-- the loop over frequency caps (tree.c:1916-1925) -/
def fillCaps (cfg : Config) (var : Nat) : List FreqCap → Except Fault (List FreqCap)
  | [] => .ok []
  | c :: cs =>
    match fillStr cfg var c.ns with
    | .error e => .error e
    | .ok ns =>
      match fillCaps cfg var cs with
      | .error e => .error e
      | .ok cs => .ok ({ c with ns := ns } :: cs)

/-- `fill_event` on one variable (tree.c:1872-1930): the value is *retagged* with the type of the domain
(`pred->value.value_type = domain->bound.value_type`), so a value of another representation is reinterpreted: UB, except
an integer for an integer enum (`integer` is the first field) and an empty list `()` for any list type (the count is the
first field of all four structs). -/
def fillValue (cfg : Config) (var : Nat) (ty : VType) : Value → Except Fault Value
  | .bool b => if ty = .bool then .ok (.bool b) else .error .ub
  | .int i =>
    match ty with
    | .int => .ok (.int i)
    | .intEnum => .ok (.intEnum { integer := i, var := var, ienum := tryGetIdForIenum cfg var i })
    | _ => .error .ub
  | .intEnum e =>
    match ty with
    | .intEnum => .ok (.intEnum { integer := e.integer, var := var, ienum := tryGetIdForIenum cfg var e.integer })
    | _ => .error .ub
  | .float f => if ty = .float then .ok (.float f) else .error .ub
  | .string s =>
    match ty with
    | .string => (fillStr cfg var s).map .string
    | _ => .error .ub
  | .intList l =>
    match ty, l with
    | .intList, l => .ok (.intList l)
    | .strList, [] => .ok (.strList [])
    | .segments, [] => .ok (.segments [])
    | .freq, [] => .ok (.freq [])
    | _, _ => .error .ub
  | .strList l =>
    match ty with
    | .strList => (fillStrs cfg var l).map .strList
    | _ => .error .ub
  | .segments l => if ty = .segments then .ok (.segments l) else .error .ub
  | .freq l =>
    match ty with
    | .freq => (fillCaps cfg var l).map .freq
    | _ => .error .ub

/-- `fill_event` (tree.c:1872-1930): the variable id and the filled value of each variable.  An unknown attribute aborts. -/
def fillEvent (cfg : Config) : List EventVar → Except Fault (List (Nat × Value))
  | [] => .ok []
  | v :: vs =>
    if tryGetIdForAttr cfg v.attr = invalidId then .error .abort
    else
      match getDomain cfg (tryGetIdForAttr cfg v.attr) with
      | .error e => .error e
      | .ok d =>
        match fillValue cfg (tryGetIdForAttr cfg v.attr) d.bound.ty v.value with
        | .error e => .error e
        | .ok x =>
          match fillEvent cfg vs with
          | .error e => .error e
          | .ok rest => .ok ((tryGetIdForAttr cfg v.attr, x) :: rest)

/-- the loop of `remove_duplicates` after the entry `x` was kept (value.c:403-415, 428-444) -/
def dedupFrom {α β : Type} [DecidableEq β] (key : α → β) (x : α) : List α → List α
  | [] => []
  | y :: rest => if key x = key y then dedupFrom key x rest else y :: dedupFrom key y rest

/-- removal of adjacent duplicates of a sorted list, keeping the first (value.c:403-415, 422-426 and the string
version) -/
def dedupBy {α β : Type} [DecidableEq β] (key : α → β) : List α → List α
  | [] => []
  | x :: rest => x :: dedupFrom key x rest

/-- `sort_event_lists` on one value (tree.c:1795-1809). -/
def sortValue : Value → Value
  | .intList l => .intList (dedupBy id (sortBy id l))
  | .strList l => .strList (dedupBy StrVal.str (sortBy StrVal.str l))
  | v => v

/-- `make_environment` (betree.c:548-557): later variables overwrite earlier ones. -/
def makeEnvironment (n : Nat) : List (Nat × Value) → Env → Env
  | [], env => env
  | (v, x) :: rest, env => makeEnvironment n rest (env.set v (some x))

/-- `validate_variables` (tree.c:1932-1942). -/
def validateVariables : List Domain → Env → Bool
  | d :: ds, v :: vs => (d.allowUndefined || v.isSome) && validateVariables ds vs
  | _, _ => true

/-- fill, sort, index: the `preds` array of an event (betree.c:584-604, tree.c:1811-1821). -/
def eventEnv (cfg : Config) (ev : List EventVar) : Except Fault Env :=
  match fillEvent cfg ev with
  | .error e => .error e
  | .ok vars =>
    .ok (makeEnvironment cfg.domains.length (vars.map fun p => (p.1, sortValue p.2))
      (List.replicate cfg.domains.length none))

end BeTree
