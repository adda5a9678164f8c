import Verif.Model.Types
/-
Specification: when is an expression, as written, true on an event, as written?

It mentions attribute *names* and string *texts* only: no ids, sorted lists, binary searches, bit sets,
bounds or trees.  Lists are sets.  It is a `Prop`, not a program.
-/
namespace BeTree.Spec
open BeTree

/-- Attribute names are case-insensitive (ASCII). -/
def lower (s : Str) : Str := s.map Char.toLower

/-- An event: the value of each lower-case attribute name, if any.
Only the `string` texts of string values are used below, never their ids. -/
abbrev Event := Str → Option Value

/-- The event's value for an attribute reference. -/
def Event.get (ev : Event) (v : AttrVar) : Option Value := ev (lower v.attr)

def cmpInt (op : CmpOp) (x k : Int) : Prop :=
  match op with
  | .lt => x < k
  | .le => x ≤ k
  | .gt => x > k
  | .ge => x ≥ k

def cmpRat (op : CmpOp) (x k : Rat) : Prop :=
  match op with
  | .lt => x < k
  | .le => x ≤ k
  | .gt => x > k
  | .ge => x ≥ k

/-- Two doubles are taken as equal when closer than `DBL_EPSILON`. -/
def closeTo (x k : Rat) : Prop := (rnd (x - k)).abs < dblEps

/-- `p` or its negation, according to the polarity of an operator. -/
def polar (positive : Bool) (p : Prop) : Prop := if positive then p else ¬ p

def EqOp.positive : EqOp → Bool
  | .eq => true
  | .ne => false

def SetOp.positive : SetOp → Bool
  | .isIn => true
  | .notIn => false

/-- Set meaning of `one of` / `none of` / `all of` with event values `ys` and constants `xs`. -/
def listHolds {α : Type} (op : ListOp) (ys xs : List α) : Prop :=
  match op with
  | .oneOf => ∃ z, z ∈ xs ∧ z ∈ ys
  | .noneOf => ¬ ∃ z, z ∈ xs ∧ z ∈ ys
  | .allOf => ∀ z, z ∈ xs → z ∈ ys

/-- Meaning of a frequency cap: look at the first cap with that type, id and namespace. -/
def freqHolds (type : FreqType) (id : Int) (ns : Str) (value : Int) (length : Nat) (now : Int) (caps : List FreqCap) :
    Prop :=
  match caps.find? (fun c => decide (c.type = type ∧ (c.id : Int) = id ∧ c.ns.string = ns)) with
  | none => True
  | some c =>
    (c.value : Int) < value ∨
      (0 < length ∧ (c.timestampDefined = false ∨ now - c.timestamp.tdiv 1000000 > length))

/-- Meaning of the segment functions (segment ids unique in the event): the event has the segment, and its timestamp
(microseconds) is at most / more than `seconds` old. -/
def segHolds (op : SegOp) (id : Int) (seconds : Int) (now : Int) (segs : List Segment) : Prop :=
  match segs.find? (fun s => decide (s.id = id)) with
  | none => False
  | some s =>
    match op with
    | .within => now - s.timestamp.tdiv 1000000 ≤ seconds
    | .before => now - s.timestamp.tdiv 1000000 > seconds

/-- contains / starts_with / ends_with. -/
def strHolds (op : StrOp) (value pattern : Str) : Prop :=
  match op with
  | .contains => pattern <:+: value
  | .startsWith => pattern <+: value
  | .endsWith => pattern <:+ value

/-- The constant that a frequency-cap type needs (README, "constants"). -/
def constName : FreqType → Option String
  | .invalid => none
  | .advertiser | .advertiserIp => some "advertiser_id"
  | .campaign | .campaignIp => some "campaign_id"
  | .campaignGroup | .campaignGroupIp => some "campaign_group_id"
  | .flight | .flightIp => some "flight_id"
  | .product | .productIp => some "product_id"

/-- Constants given at insertion: name and integer. -/
abbrev Constants := List (Str × Int)

def Constants.get (cs : Constants) (t : FreqType) : Option Int :=
  match constName t with
  | none => none
  | some n => (cs.find? (fun c => c.1 == n.toList)).map (·.2)

/-! An event written `sl: []` is an empty list of whatever element type the attribute has; a value of an enum attribute is
an integer. -/

/-- the event's value as an integer -/
def asInt : Option Value → Option Int
  | some (.int x) => some x
  | some (.intEnum e) => some e.integer
  | _ => none
/-- the event's value as a list of texts -/
def asTexts : Option Value → Option (List Str)
  | some (.strList l) => some (l.map StrVal.string)
  | some (.intList []) => some []
  | _ => none
/-- the event's value as a list of frequency caps -/
def asCaps : Option Value → Option (List FreqCap)
  | some (.freq l) => some l
  | some (.intList []) => some []
  | _ => none
/-- the event's value as a list of segments -/
def asSegments : Option Value → Option (List Segment)
  | some (.segments l) => some l
  | some (.intList []) => some []
  | _ => none

/-- When is a predicate, as written, true on an event? -/
def satPred (geo : Rat → Rat → Rat → Rat → Rat → Bool) (cs : Constants) (ev : Event) : Pred → Prop
  | .compare op v (.int k) =>
    (∃ x, ev.get v = some (.int x) ∧ cmpInt op x k) ∨
    (∃ x : Rat, ev.get v = some (.float x) ∧ cmpRat op x (rnd k))
  | .compare op v (.float k) => ∃ x, ev.get v = some (.float x) ∧ cmpRat op x k
  | .equality op v (.int k) =>
    (∃ x, asInt (ev.get v) = some x ∧ polar (EqOp.positive op) (x = k)) ∨
    (∃ x, ev.get v = some (.float x) ∧ polar (EqOp.positive op) (closeTo x (rnd k)))
  | .equality op v (.float k) => ∃ x, ev.get v = some (.float x) ∧ polar (EqOp.positive op) (closeTo x k)
  | .equality op v (.string s) => ∃ x, ev.get v = some (.string x) ∧ polar (EqOp.positive op) (x.string = s.string)
  | .equality op v (.intEnum e) => ∃ x, asInt (ev.get v) = some x ∧ polar (EqOp.positive op) (x = e.integer)
  | .boolVar v => ev.get v = some (.bool true)
  | .boolLit b => b = true
  | .set op (.var v) (.intList xs) => ∃ x, ev.get v = some (.int x) ∧ polar (SetOp.positive op) (x ∈ xs)
  | .set op (.var v) (.strList xs) =>
    ∃ x, ev.get v = some (.string x) ∧ polar (SetOp.positive op) (x.string ∈ xs.map StrVal.string)
  | .set op (.int k) (.var v) => ∃ ys, ev.get v = some (.intList ys) ∧ polar (SetOp.positive op) (k ∈ ys)
  | .set op (.string s) (.var v) =>
    ∃ ys, asTexts (ev.get v) = some ys ∧ polar (SetOp.positive op) (s.string ∈ ys)
  | .set _ _ _ => False
  | .list op v (.intList xs) => ∃ ys, ev.get v = some (.intList ys) ∧ listHolds op ys xs
  | .list op v (.strList xs) =>
    ∃ ys, asTexts (ev.get v) = some ys ∧ listHolds op ys (xs.map StrVal.string)
  | .freq f =>
    ∃ caps, asCaps (ev.get f.attr) = some caps ∧
      (caps = [] ∨ ∃ now id, ev.get f.now = some (.int now) ∧ cs.get f.type = some id ∧
        freqHolds f.type id f.ns.string f.value f.length now caps)
  | .segment s =>
    ∃ segs now, asSegments (ev.get s.attr) = some segs ∧ ev.get s.now = some (.int now) ∧
      segHolds s.op s.segmentId s.seconds now segs
  | .geo g =>
    ∃ lat lon, ev.get g.latVar = some (.float lat) ∧ ev.get g.lonVar = some (.float lon) ∧
      geo g.latitude g.longitude lat lon g.radius = true
  | .str s => ∃ x, ev.get s.attr = some (.string x) ∧ strHolds s.op x.string s.pattern
  | .isNull .isNull v => ev.get v = none
  | .isNull .isNotNull v => ev.get v ≠ none
  | .isNull .isEmpty v =>
    ev.get v = some (.intList []) ∨ ev.get v = some (.strList []) ∨ ev.get v = some (.segments []) ∨
      ev.get v = some (.freq [])

/-- When is an expression, as written, true on an event? -/
def sat (geo : Rat → Rat → Rat → Rat → Rat → Bool) (cs : Constants) (ev : Event) : Expr → Prop
  | .leaf p => satPred geo cs ev p
  | .not e => ¬ sat geo cs ev e
  | .and l r => sat geo cs ev l ∧ sat geo cs ev r
  | .or l r => sat geo cs ev l ∨ sat geo cs ev r

end BeTree.Spec
