import Verif.Model.Parser
import Verif.Model.Event
/-
event_lexer.l and event_parser.y: from the text of an event to the event `fill_event` works on.
-/
namespace BeTree

/-- the tokens of event_lexer.l:35-48 with their values -/
inductive ETok where
  | lcurly | rcurly | lsquare | rsquare | comma | colon | minus | null | true | false
  | int (n : Int)
  | float (q : Rat)
  | string (s : Str)
  deriving DecidableEq, Repr

/-- the rules of event_lexer.l:34-50, in their order -/
def zzRules : List (LexRule ETok) := [
  ⟨blankLen, fun _ => .skip⟩,
  litRule "-" .minus,
  litRule "[" .lsquare,
  litRule "]" .rsquare,
  litRule "{" .lcurly,
  litRule "}" .rcurly,
  litRule "," .comma,
  litRule ":" .colon,
  litRule "true" .true,
  litRule "false" .false,
  litRule "null" .null,
  ⟨quotedLen '"', fun s => .emit (.string (unquote s))⟩,
  ⟨quotedLen '\'', fun s => .emit (.string (unquote s))⟩,
  ⟨intLen, fun s => .emit (.int (strtoll s))⟩,
  ⟨floatLen, fun s => .emit (.float (atof s))⟩,
  ⟨anyLen, fun _ => .stop⟩]

/-- the tokens of an event text (event_lexer.l) (event_lexer.l:34-50) -/
def lexEvent (text : Str) : List ETok := lexGo zzRules 0 text

/-- the semantic values of event_parser.y:36-52 (a C union) -/
inductive EPVal where
  | token
  | bool (b : Bool)
  | int (n : Int)
  | float (q : Rat)
  | string (s : Str)
  | strVal (s : StrVal)
  | ints (l : List Int)
  | strs (l : List StrVal)
  | segs (l : List Segment)
  | seg (s : Segment)
  | caps (l : List FreqCap)
  | cap (c : FreqCap)
  | value (v : Value)
  | variable (v : Option EventVar)
  | event (l : List EventVar)
  deriving DecidableEq

/-- the internal number of a token (event_parser.c:155-167 through `yytranslate`, event_parser.c:534-566) -/
def ETok.num : ETok → Nat
  | .lcurly => 3
  | .rcurly => 4
  | .lsquare => 5
  | .rsquare => 6
  | .comma => 7
  | .colon => 8
  | .minus => 9
  | .null => 10
  | .true => 11
  | .false => 12
  | .int _ => 13
  | .float _ => 14
  | .string _ => 15

/-- `yylval` (event_lexer.l:6-13) -/
def ETok.val : ETok → EPVal
  | .string s => .string s
  | .int n => .int n
  | .float q => .float q
  | _ => .token

/-- `make_frequency_cap` (value.c:188-213): the parameters `id` and `value` are `uint32_t` -/
def makeFrequencyCap (stype : Str) (id : Int) (ns : StrVal) (timestampDefined : Bool) (timestamp value : Int) : FreqCap :=
  { type := freqTypeOf stype, id := toU32 id, ns := ns, timestampDefined := timestampDefined, timestamp := timestamp,
    value := toU32 value }

/-- `add_variable` (tree.c:1847-1870): a null pointer is passed over -/
def addVariable (v : Option EventVar) (l : List EventVar) : List EventVar :=
  match v with
  | none => l
  | some v => l ++ [v]

/-- The action of each rule (event_parser.y:94-176, numbered as in event_parser.c:1511-1741) on the values of the right-hand side.  The
`var` of a string value is left uninitialised by the code (event_parser.y:130) and set by `fill_event` before it is read; here it starts
as `INVALID_VAR`. -/
def zzAction : Nat → List EPVal → Except Fault EPVal
  | 2, [_, _] => .ok (.event [])
  | 3, [_, .event l, _] => .ok (.event l)
  | 4, [.variable v] => .ok (.event (addVariable v []))
  | 5, [.event l, _, .variable v] => .ok (.event (addVariable v l))
  | 6, [.string x, _, .value v] => .ok (.variable (some ⟨x, v⟩))
  | 7, [_, _, _] => .ok (.variable none)
  | 8, [.bool b] => .ok (.value (.bool b))
  | 9, [.int n] => .ok (.value (.int n))
  | 10, [.float q] => .ok (.value (.float q))
  | 11, [.strVal s] => .ok (.value (.string s))
  | 12, [.ints l] => .ok (.value (.intList l))
  | 13, [.ints l] => .ok (.value (.intList l))
  | 14, [.strs l] => .ok (.value (.strList l))
  | 15, [.segs l] => .ok (.value (.segments l))
  | 16, [.caps l] => .ok (.value (.freq l))
  | 17, [_] => .ok (.bool true)
  | 18, [_] => .ok (.bool false)
  | 19, [.int n] => .ok (.int n)
  | 20, [_, .int n] => .ok (.int (-n))
  | 21, [.float q] => .ok (.float q)
  | 22, [_, .float q] => .ok (.float (-q))
  | 23, [.string s] => .ok (.strVal ⟨s, invalidId, invalidId⟩)
  | 24, [_, _] => .ok (.ints [])
  | 25, [_, .ints l, _] => .ok (.ints l)
  | 26, [.int n] => .ok (.ints [n])
  | 27, [.ints l, _, .int n] => .ok (.ints (l ++ [n]))
  | 28, [_, .strs l, _] => .ok (.strs l)
  | 29, [.strVal s] => .ok (.strs [s])
  | 30, [.strs l, _, .strVal s] => .ok (.strs (l ++ [s]))
  | 31, [_, .segs l, _] => .ok (.segs l)
  | 32, [.seg s] => .ok (.segs [s])
  | 33, [.segs l, _, .seg s] => .ok (.segs (l ++ [s]))
  | 34, [_, .int id, _, .int ts, _] => .ok (.seg ⟨id, ts⟩)
  | 35, [_, .caps l, _] => .ok (.caps l)
  | 36, [.cap c] => .ok (.caps [c])
  | 37, [.caps l, _, .cap c] => .ok (.caps (l ++ [c]))
  | 38, [_, .string ty, _, .int id, _, .strVal ns, _, .int value, _, .int ts, _] =>
    .ok (.cap (makeFrequencyCap ty id ns true ts value))
  | 39, [_, _, .string ty, _, .int id, _, .strVal ns, _, _, .int value, _, .int ts, _] =>
    .ok (.cap (makeFrequencyCap ty id ns true ts value))
  | _, _ => .error .ub

/-- `zzparse` (event_parser.c:1270-2000) on the tokens of a text: `none` is a nonzero result.  The number of steps allowed is enough
(`C45_parse_total`). -/
def parseEventTokens (ts : List ETok) : Except Fault (Option (List EventVar)) :=
  match lrRun zzTables ETok.num ETok.val .token zzAction (11 * (ts.length + 1) + 2) [] ts with
  | .error e => .error e
  | .ok none => .ok none
  | .ok (some (.event l)) => .ok (some l)
  | .ok (some _) => .error .ub

/-- `event_parse` (event_parser.y:186-206): `none` is the result -1 -/
def parseEventText (text : Str) : Except Fault (Option (List EventVar)) := parseEventTokens (lexEvent text)

end BeTree
