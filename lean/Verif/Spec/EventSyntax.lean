import Verif.Spec.Syntax
import Verif.Model.EventParser
/-
What an event written as a sequence of tokens says.  Nothing here refers to the parser.
-/
namespace BeTree

/-- an integer: digits, perhaps after a minus sign -/
inductive EvInt : List ETok → Int → Prop where
  | pos (n : Int) : EvInt [.int n] n
  | neg (n : Int) : EvInt [.minus, .int n] (-n)

/-- a decimal number -/
inductive EvFloat : List ETok → Rat → Prop where
  | pos (q : Rat) : EvFloat [.float q] q
  | neg (q : Rat) : EvFloat [.minus, .float q] (-q)

/-- items separated by commas -/
inductive EvMany {α : Type} (item : List ETok → α → Prop) : List ETok → List α → Prop where
  | one {ts x} : item ts x → EvMany item ts [x]
  | more {ts l ts' x} : EvMany item ts l → item ts' x → EvMany item (ts ++ .comma :: ts') (l ++ [x])

/-- a string -/
inductive EvStr : List ETok → StrVal → Prop where
  | mk (s : Str) : EvStr [.string s] (quoted s)

/-- a segment: `[id, timestamp]` -/
inductive EvSeg : List ETok → Segment → Prop where
  | mk {t1 t2 id time} : EvInt t1 id → EvInt t2 time →
      EvSeg (.lsquare :: t1 ++ .comma :: t2 ++ [.rsquare]) { id := id, timestamp := time }

/-- an integer as the code stores it in an unsigned 32-bit field -/
def unsigned32 (n : Int) : Nat := (n % 2 ^ 32).toNat

/-- a frequency cap: `[type, id, namespace, value, timestamp]` or `[[type, id, namespace], value, timestamp]` -/
inductive EvCap : List ETok → FreqCap → Prop where
  | flat {ty t1 id t2 value t3 time} (s ns : Str) : CapType s ty → EvInt t1 id → EvInt t2 value → EvInt t3 time →
      EvCap (.lsquare :: .string s :: .comma :: t1 ++ .comma :: .string ns :: .comma :: t2 ++ .comma :: t3 ++ [.rsquare])
        { type := ty, id := unsigned32 id, ns := quoted ns, timestampDefined := true, timestamp := time, value := unsigned32 value }
  | nested {ty t1 id t2 value t3 time} (s ns : Str) : CapType s ty → EvInt t1 id → EvInt t2 value → EvInt t3 time →
      EvCap (.lsquare :: .lsquare :: .string s :: .comma :: t1 ++ .comma :: .string ns :: .rsquare :: .comma :: t2 ++ .comma :: t3
          ++ [.rsquare])
        { type := ty, id := unsigned32 id, ns := quoted ns, timestampDefined := true, timestamp := time, value := unsigned32 value }

/-- a value; `[]` is written as an empty list of integers (and stands for an empty list of any kind) -/
inductive EvValue : List ETok → Value → Prop where
  | true : EvValue [.true] (.bool true)
  | false : EvValue [.false] (.bool false)
  | int {ts n} : EvInt ts n → EvValue ts (.int n)
  | float {ts q} : EvFloat ts q → EvValue ts (.float q)
  | string {ts s} : EvStr ts s → EvValue ts (.string s)
  | empty : EvValue [.lsquare, .rsquare] (.intList [])
  | ints {ts l} : EvMany EvInt ts l → EvValue (.lsquare :: ts ++ [.rsquare]) (.intList l)
  | strs {ts l} : EvMany EvStr ts l → EvValue (.lsquare :: ts ++ [.rsquare]) (.strList l)
  | segs {ts l} : EvMany EvSeg ts l → EvValue (.lsquare :: ts ++ [.rsquare]) (.segments l)
  | caps {ts l} : EvMany EvCap ts l → EvValue (.lsquare :: ts ++ [.rsquare]) (.freq l)

/-- `"name": value`; with the value `null` the variable is left out of the event -/
inductive EvVar : List ETok → Option EventVar → Prop where
  | value {ts v} (x : Str) : EvValue ts v → EvVar (.string x :: .colon :: ts) (some { attr := x, value := v })
  | null (x : Str) : EvVar [.string x, .colon, .null] none

/-- an event: `{}` or `{ variable, ..., variable }`; the variables that are not null, in their order -/
inductive EvEvent : List ETok → List EventVar → Prop where
  | empty : EvEvent [.lcurly, .rcurly] []
  | vars {ts l} : EvMany EvVar ts l → EvEvent (.lcurly :: ts ++ [.rcurly]) (l.filterMap id)

end BeTree
