import Verif.Model.PredMap
/-
config.c: attribute domains, interning of strings and enum integers; tree.c try_get_id_for_attr.
-/
namespace BeTree

/-- `struct string_map` (config.h:22-26): the hash map from text to id is modelled by the list of texts in
order of their ids (`map_set(m, string, string_value_count)`, config.c add_to_string_map); map.c itself is
modelled in `Verif/Model/StrMap.lean`. -/
structure StringMap where
  attr : AttrVar
  values : List Str
  deriving DecidableEq, Repr

/-- `struct integer_map` (config.h:28-34). -/
structure IntMap where
  attr : AttrVar
  values : List Int
  deriving DecidableEq, Repr

/-- `struct config` (config.h:40-57); `max_domain_for_split` is the constant 1000 (`make_config`, config.c:12-29). -/
structure Config where
  lnodeMaxCap : Nat
  partitionMinSize : Nat
  domains : List Domain
  stringMaps : List StringMap
  intMaps : List IntMap
  predMap : PredMap
  deriving DecidableEq, Repr

/-- `config->max_domain_for_split` (config.c:22). -/
def maxDomainForSplit : Nat := 1000

/-- `make_config` (config.c:12-29); the arguments are converted to `uint8_t` (betree.c:656-660). -/
def makeConfig (lnodeMaxCap partitionMinSize : Nat) : Config :=
  { lnodeMaxCap := lnodeMaxCap % 256, partitionMinSize := partitionMinSize % 256, domains := [], stringMaps := [],
    intMaps := [], predMap := .empty }

/-- `add_attr_domain` (config.c:86-110): the variable id is the position. -/
def addDomain (cfg : Config) (attr : Str) (b : Bound) (allowUndefined : Bool) : Config :=
  { cfg with domains := cfg.domains ++ [{ attr := { attr := attr, var := cfg.domains.length }, bound := b, allowUndefined := allowUndefined }] }

/-- What a caller declares through `betree_add_*_variable` (betree.c:674-723). -/
inductive Decl where
  | bool
  | int (min max : Int)
  | float (min max : Rat)
  | string (count : Nat)
  | intList (min max : Int)
  | strList (count : Nat)
  | segments
  | freq
  | intEnum (count : Nat)
  deriving DecidableEq, Repr

/-- The bound stored by `add_attr_domain_*` (config.c:112-208).  `max - 1` is `size_t` arithmetic: 0 wraps to `SIZE_MAX`. -/
def Decl.bound : Decl → Bound
  | .bool => { ty := .bool, lo := .b false, hi := .b true }
  | .int min max => { ty := .int, lo := .i min, hi := .i max }
  | .float min max => { ty := .float, lo := .f min, hi := .f max }
  | .string count => { ty := .string, lo := .s 0, hi := .s ((count + sizeMax) % 2 ^ 64) }
  | .intList min max => { ty := .intList, lo := .i min, hi := .i max }
  | .strList count => { ty := .strList, lo := .s 0, hi := .s ((count + sizeMax) % 2 ^ 64) }
  | .segments => { ty := .segments, lo := .s 0, hi := .s 0 }
  | .freq => { ty := .freq, lo := .s 0, hi := .s 0 }
  | .intEnum count => { ty := .intEnum, lo := .s 0, hi := .s ((count + sizeMax) % 2 ^ 64) }

/-- `betree_add_*_variable` (betree.c:674-723). -/
def declare (cfg : Config) (name : Str) (d : Decl) (allowUndefined : Bool) : Config :=
  addDomain cfg name d.bound allowUndefined

/-- `tolower` on every byte (tree.c:1628-1630), C locale. -/
def lowerKey (s : Str) : Str := s.map Char.toLower

/-- The search loop of `try_get_id_for_attr` (tree.c:1631-1636). -/
def findAttr (key : Str) : List Domain → Nat → Nat
  | [], _ => invalidId
  | d :: ds, i => if d.attr.attr = key then i else findAttr key ds (i + 1)

/-- `try_get_id_for_attr` (tree.c:1625-1639): only the argument is lower-cased. -/
def tryGetIdForAttr (cfg : Config) (attr : Str) : Nat := findAttr (lowerKey attr) cfg.domains 0

/-- `attr_domains[var]` (config.c:210-214). -/
def getDomain (cfg : Config) (var : Nat) : Except Fault Domain :=
  match cfg.domains[var]? with
  | none => .error .ub
  | some d => .ok d

/-- `bound.smax`; reading it from a domain of another kind is a read of another union member (value.h:110-113, read at config.c:340, 366). -/
def Bound.smax (b : Bound) : Except Fault Nat :=
  match b.hi with
  | .s n => .ok n
  | _ => .error .ub

/-! ### strings -/

/-- The map of a variable (loops of config.c:307-317, 350-359). -/
def findStrMap (maps : List StringMap) (var : Nat) : Option StringMap := maps.find? (fun m => m.attr.var = var)

/-- whether the memory of a map was zero when the map was made: that of the first map is from `bcalloc`, that of later ones from `brealloc`
(config.c:231-244) -/
def zeroed (maps : List StringMap) (m : StringMap) : Bool :=
  match maps with
  | [] => false
  | m0 :: _ => m0.attr.var == m.attr.var

/-- `map_get` in a string map of `maps`.  A map without any entry has not been through `map_init` (config.c:278-285), so that looking into it
(config.c:311, 354) reads uninitialised memory, UB, unless the memory was zero to begin with (which is an empty map). -/
def strMapGet (maps : List StringMap) (m : StringMap) (s : Str) : Except Fault (Option Nat) :=
  if m.values = [] ∧ zeroed maps m = false then .error .ub else .ok (m.values.idxOf? s)

/-- Append to the map of a variable (config.c:278-285). -/
def appendStr (maps : List StringMap) (var : Nat) (s : Str) : List StringMap :=
  match maps with
  | [] => []
  | m :: ms => if m.attr.var = var then { m with values := m.values ++ [s] } :: ms else m :: appendStr ms var s

/-- `try_get_id_for_string` (config.c:304-318). -/
def tryGetIdForString (cfg : Config) (var : Nat) (s : Str) : Except Fault Nat :=
  match findStrMap cfg.stringMaps var with
  | none => .ok invalidId
  | some m =>
    match strMapGet cfg.stringMaps m s with
    | .error e => .error e
    | .ok none => .ok invalidId
    | .ok (some j) => .ok j

/-- `get_id_for_string` (config.c:347-371) from the point where the map exists but the text is not in it. -/
def addStrId (cfg : Config) (v : AttrVar) (s : Str) (always : Bool) (maps : List StringMap) (count : Nat) :
    Except Fault (Nat × Config) :=
  match getDomain cfg v.var with
  | .error e => .error e
  | .ok d =>
    if always then .ok (count, { cfg with stringMaps := appendStr maps v.var s })
    else
      match d.bound.smax with
      | .error e => .error e
      | .ok smax =>
        if (smax + 1) % 2 ^ 64 = count then .ok (invalidId, { cfg with stringMaps := maps })
        else .ok (count, { cfg with stringMaps := appendStr maps v.var s })

/-- `get_id_for_string` (config.c:347-371). -/
def getIdForString (cfg : Config) (v : AttrVar) (s : Str) (always : Bool) : Except Fault (Nat × Config) :=
  match findStrMap cfg.stringMaps v.var with
  | some m =>
    match strMapGet cfg.stringMaps m s with
    | .error e => .error e
    | .ok (some j) => .ok (j, cfg)
    | .ok none => addStrId cfg v s always cfg.stringMaps m.values.length
  | none => addStrId cfg v s always (cfg.stringMaps ++ [{ attr := v, values := [] }]) 0

/-! ### enum integers -/

/-- the map of a variable (loops of config.c:290-300, 323-333) -/
def findIntMap (maps : List IntMap) (var : Nat) : Option IntMap := maps.find? (fun m => m.attr.var = var)

/-- append to the map of a variable (config.c:256-276) -/
def appendInt (maps : List IntMap) (var : Nat) (i : Int) : List IntMap :=
  match maps with
  | [] => []
  | m :: ms => if m.attr.var = var then { m with values := m.values ++ [i] } :: ms else m :: appendInt ms var i

/-- `try_get_id_for_ienum` (config.c:287-302). -/
def tryGetIdForIenum (cfg : Config) (var : Nat) (i : Int) : Nat :=
  match findIntMap cfg.intMaps var with
  | none => invalidId
  | some m =>
    match m.values.idxOf? i with
    | none => invalidId
    | some j => j

/-- `get_id_for_ienum` (config.c:320-345) from the point where the map exists but the integer is not in it. -/
def addIntId (cfg : Config) (v : AttrVar) (i : Int) (always : Bool) (maps : List IntMap) (count : Nat) :
    Except Fault (Nat × Config) :=
  match getDomain cfg v.var with
  | .error e => .error e
  | .ok d =>
    if always then .ok (count, { cfg with intMaps := appendInt maps v.var i })
    else
      match d.bound.smax with
      | .error e => .error e
      | .ok smax =>
        if (smax + 1) % 2 ^ 64 = count then .ok (invalidId, { cfg with intMaps := maps })
        else .ok (count, { cfg with intMaps := appendInt maps v.var i })

/-- `get_id_for_ienum` (config.c:320-345). -/
def getIdForIenum (cfg : Config) (v : AttrVar) (i : Int) (always : Bool) : Except Fault (Nat × Config) :=
  match findIntMap cfg.intMaps v.var with
  | some m =>
    match m.values.idxOf? i with
    | some j => .ok (j, cfg)
    | none => addIntId cfg v i always cfg.intMaps m.values.length
  | none => addIntId cfg v i always (cfg.intMaps ++ [{ attr := v, values := [] }]) 0

end BeTree
