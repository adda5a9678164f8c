import Verif.Model.Lexer
/-
What an expression written as a sequence of tokens says: the grammar of the language with its precedences (`not` binds tighter than
`and`, `and` tighter than `or`, both group to the left), as a relation between token sequences and expressions.  Nothing here refers to
the parser.
-/
namespace BeTree

/-- an attribute mentioned by name, not yet looked up -/
def named (x : Str) : AttrVar := ⟨x, invalidId⟩
/-- a string constant, not yet looked up -/
def quoted (s : Str) : StrVal := ⟨s, invalidId, invalidId⟩

/-- an integer constant: digits, perhaps after a minus sign -/
inductive ReadsInt : List Tok → Int → Prop where
  | pos (n : Int) : ReadsInt [.int n] n
  | neg (n : Int) : ReadsInt [.minus, .int n] (-n)

/-- a decimal constant -/
inductive ReadsFloat : List Tok → Rat → Prop where
  | pos (q : Rat) : ReadsFloat [.float q] q
  | neg (q : Rat) : ReadsFloat [.minus, .float q] (-q)

/-- `1, 2, 3` -/
inductive ReadsInts : List Tok → List Int → Prop where
  | one {ts n} : ReadsInt ts n → ReadsInts ts [n]
  | more {ts l ts' n} : ReadsInts ts l → ReadsInt ts' n → ReadsInts (ts ++ .comma :: ts') (l ++ [n])

/-- `"a", "b", "c"` -/
inductive ReadsStrs : List Tok → List StrVal → Prop where
  | one (s : Str) : ReadsStrs [.string s] [quoted s]
  | more {ts l} (s : Str) : ReadsStrs ts l → ReadsStrs (ts ++ [.comma, .string s]) (l ++ [quoted s])

/-- what a comparison compares with -/
inductive ReadsNum : List Tok → CmpVal → Prop where
  | int {ts n} : ReadsInt ts n → ReadsNum ts (.int n)
  | float {ts q} : ReadsFloat ts q → ReadsNum ts (.float q)

/-- what an equality compares with -/
inductive ReadsConst : List Tok → EqVal → Prop where
  | int {ts n} : ReadsInt ts n → ReadsConst ts (.int n)
  | float {ts q} : ReadsFloat ts q → ReadsConst ts (.float q)
  | string (s : Str) : ReadsConst [.string s] (.string (quoted s))

/-- the left side of `in` / `not in` -/
inductive ReadsLeft : List Tok → SetLeft → Prop where
  | int {ts n} : ReadsInt ts n → ReadsLeft ts (.int n)
  | string (s : Str) : ReadsLeft [.string s] (.string (quoted s))
  | var (x : Str) : ReadsLeft [.ident x] (.var (named x))

/-- the right side of `in` / `not in` -/
inductive ReadsRight : List Tok → SetRight → Prop where
  | ints {ts l} : ReadsInts ts l → ReadsRight (.lparen :: ts ++ [.rparen]) (.intList l)
  | strs {ts l} : ReadsStrs ts l → ReadsRight (.lparen :: ts ++ [.rparen]) (.strList l)
  | var (x : Str) : ReadsRight [.ident x] (.var (named x))

/-- the right side of `one of`, `none of`, `all of` -/
inductive ReadsList : List Tok → ListVal → Prop where
  | ints {ts l} : ReadsInts ts l → ReadsList (.lparen :: ts ++ [.rparen]) (.intList l)
  | strs {ts l} : ReadsStrs ts l → ReadsList (.lparen :: ts ++ [.rparen]) (.strList l)

/-- the comparison signs: token, meaning, and meaning when the constant is on the left (`1 < x` says `x > 1`) -/
inductive CmpSign : Tok → CmpOp → CmpOp → Prop where
  | gt : CmpSign .gt .gt .lt
  | ge : CmpSign .ge .ge .le
  | lt : CmpSign .lt .lt .gt
  | le : CmpSign .le .le .ge

/-- the equality signs -/
inductive EqSign : Tok → EqOp → Prop where
  | eq : EqSign .eq .eq
  | ne : EqSign .ne .ne

/-- `in`, `not in` -/
inductive SetSign : Tok → SetOp → Prop where
  | notIn : SetSign .notIn .notIn
  | isIn : SetSign .isIn .isIn

/-- `one of`, `none of`, `all of` -/
inductive ListSign : Tok → ListOp → Prop where
  | oneOf : ListSign .oneOf .oneOf
  | noneOf : ListSign .noneOf .noneOf
  | allOf : ListSign .allOf .allOf

/-- `is null`, `is not null`, `is empty` -/
inductive NullSign : Tok → NullOp → Prop where
  | isNull : NullSign .isNull .isNull
  | isNotNull : NullSign .isNotNull .isNotNull
  | isEmpty : NullSign .isEmpty .isEmpty

/-- `segment_within`, `segment_before` -/
inductive SegSign : Tok → SegOp → Prop where
  | within : SegSign .segmentWithin .within
  | before : SegSign .segmentBefore .before

/-- `contains`, `starts_with`, `ends_with` -/
inductive StrSign : Tok → StrOp → Prop where
  | contains : StrSign .contains .contains
  | startsWith : StrSign .startsWith .startsWith
  | endsWith : StrSign .endsWith .endsWith

/-- the names of the frequency cap types -/
def capTypeName : FreqType → Option Str
  | .invalid => none
  | .advertiser => some "advertiser".toList
  | .advertiserIp => some "advertiser:ip".toList
  | .campaign => some "campaign".toList
  | .campaignIp => some "campaign:ip".toList
  | .campaignGroup => some "campaign_group".toList
  | .campaignGroupIp => some "campaign_group:ip".toList
  | .flight => some "flight".toList
  | .flightIp => some "flight:ip".toList
  | .product => some "product".toList
  | .productIp => some "product:ip".toList

/-- the type a name stands for, `invalid` when there is none -/
def CapType (s : Str) (t : FreqType) : Prop :=
  capTypeName t = some s ∨ (t = .invalid ∧ ∀ t', capTypeName t' ≠ some s)

/-- an integer as the code stores it in an unsigned 64-bit field -/
def unsigned64 (n : Int) : Nat := (n % 2 ^ 64).toNat

/-- an elementary condition -/
inductive ReadsAtom : List Tok → Pred → Prop where
  | isNull {t o} (x : Str) : NullSign t o → ReadsAtom [.ident x, t] (.isNull o (named x))
  | compare {t o o' ts c} (x : Str) : CmpSign t o o' → ReadsNum ts c → ReadsAtom (.ident x :: t :: ts) (.compare o (named x) c)
  | compareLeft {t o o' ts c} (x : Str) : CmpSign t o o' → ReadsNum ts c →
      ReadsAtom (ts ++ [t, .ident x]) (.compare o' (named x) c)
  | equality {t o ts c} (x : Str) : EqSign t o → ReadsConst ts c → ReadsAtom (.ident x :: t :: ts) (.equality o (named x) c)
  | equalityLeft {t o ts c} (x : Str) : EqSign t o → ReadsConst ts c → ReadsAtom (ts ++ [t, .ident x]) (.equality o (named x) c)
  | set {t o ts l ts' r} : SetSign t o → ReadsLeft ts l → ReadsRight ts' r → ReadsAtom (ts ++ t :: ts') (.set o l r)
  | list {t o ts l} (x : Str) : ListSign t o → ReadsList ts l → ReadsAtom (.ident x :: t :: ts) (.list o (named x) l)
  | boolVar (x : Str) : ReadsAtom [.ident x] (.boolVar (named x))
  | true : ReadsAtom [.true] (.boolLit true)
  | false : ReadsAtom [.false] (.boolLit false)
  | freq {ty ts v ts' len} (s ns : Str) : CapType s ty → ReadsInt ts v → ReadsInt ts' len →
      ReadsAtom (.withinFrequencyCap :: .lparen :: .string s :: .comma :: .string ns :: .comma :: ts ++ .comma :: ts' ++ [.rparen])
        (.freq { attr := named "frequency_caps".toList, type := ty, ns := quoted ns, value := v, length := unsigned64 len,
                 now := named "now".toList, id := 2 ^ 32 - 1 })
  | segment {t o ts id ts' secs} : SegSign t o → ReadsInt ts id → ReadsInt ts' secs →
      ReadsAtom (t :: .lparen :: ts ++ .comma :: ts' ++ [.rparen])
        (.segment { op := o, hasVariable := false, attr := named "segments_with_timestamp".toList, segmentId := unsigned64 id,
                    seconds := secs, now := named "now".toList })
  | segmentVar {t o ts id ts' secs} (x : Str) : SegSign t o → ReadsInt ts id → ReadsInt ts' secs →
      ReadsAtom (t :: .lparen :: .ident x :: .comma :: ts ++ .comma :: ts' ++ [.rparen])
        (.segment { op := o, hasVariable := true, attr := named x, segmentId := unsigned64 id, seconds := secs,
                    now := named "now".toList })
  | geoInt {t1 t2 t3 a b c} : ReadsInt t1 a → ReadsInt t2 b → ReadsInt t3 c →
      ReadsAtom (.geoWithinRadius :: .lparen :: t1 ++ .comma :: t2 ++ .comma :: t3 ++ [.rparen])
        (.geo { hasRadius := true, latitude := rnd a, longitude := rnd b, radius := rnd c, latVar := named "latitude".toList,
                lonVar := named "longitude".toList })
  | geoFloat {t1 t2 t3 a b c} : ReadsFloat t1 a → ReadsFloat t2 b → ReadsFloat t3 c →
      ReadsAtom (.geoWithinRadius :: .lparen :: t1 ++ .comma :: t2 ++ .comma :: t3 ++ [.rparen])
        (.geo { hasRadius := true, latitude := a, longitude := b, radius := c, latVar := named "latitude".toList,
                lonVar := named "longitude".toList })
  | str {t o} (x s : Str) : StrSign t o →
      ReadsAtom [t, .lparen, .ident x, .comma, .string s, .rparen] (.str { op := o, attr := named x, pattern := s })

/-- how tightly an expression binds -/
inductive Level where
  | unary | and | or
  deriving DecidableEq, Repr

/-- The grammar: `Reads l d ts e` when the tokens `ts` say `e`, the outermost connective is at most as loose as `l`, and parentheses and
`not`s are nested at most `d` deep. -/
inductive Reads : Level → Nat → List Tok → Expr → Prop where
  | atom {ts p} (d : Nat) : ReadsAtom ts p → Reads .unary d ts (.leaf p)
  | paren {d ts e} : Reads .or d ts e → Reads .unary (d + 1) (.lparen :: ts ++ [.rparen]) e
  | not {d ts e} : Reads .unary d ts e → Reads .unary (d + 1) (.not :: ts) (.not e)
  | one {d ts e} : Reads .unary d ts e → Reads .and d ts e
  | and {d t1 t2 l r} : Reads .and d t1 l → Reads .unary d t2 r → Reads .and d (t1 ++ .and :: t2) (.and l r)
  | only {d ts e} : Reads .and d ts e → Reads .or d ts e
  | or {d t1 t2 l r} : Reads .or d t1 l → Reads .and d t2 r → Reads .or d (t1 ++ .or :: t2) (.or l r)

end BeTree
