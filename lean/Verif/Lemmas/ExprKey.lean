import Verif.Lemmas.RB
import Verif.Model.ExprCmp
import Mathlib.Data.Rat.Cast.Order
import Mathlib.Tactic.NormNum
/-
`expr_cmp` is a total preorder: it is the lexicographic order of a list of numbers.
-/
namespace BeTree

/-- lexicographic comparison -/
def lexCmp : List Rat → List Rat → Ordering
  | [], [] => .eq
  | [], _ :: _ => .lt
  | _ :: _, [] => .gt
  | a :: as, b :: bs => (cmp3 a b).then (lexCmp as bs)

theorem cmp3_eq {a b : Rat} : cmp3 a b = .eq ↔ a = b := by
  unfold cmp3
  rcases lt_trichotomy a b with h | h | h
  · simp [h, not_lt.2 h.le, h.ne]
  · simp [h]
  · simp [h, h.ne']
theorem cmp3_lt {a b : Rat} : cmp3 a b = .lt ↔ a < b := by
  unfold cmp3
  rcases lt_trichotomy a b with h | h | h
  · simp [h, not_lt.2 h.le]
  · simp [h]
  · simp [h, not_lt.2 h.le]
theorem cmp3_gt {a b : Rat} : cmp3 a b = .gt ↔ b < a := by
  unfold cmp3
  rcases lt_trichotomy a b with h | h | h
  · simp [h, not_lt.2 h.le]
  · simp [h]
  · simp [h]

theorem lexCmp_eq {a b : List Rat} : lexCmp a b = .eq ↔ a = b := by
  induction a generalizing b with
  | nil => cases b <;> simp [lexCmp]
  | cons x xs ih =>
    cases b with
    | nil => simp [lexCmp]
    | cons y ys => simp [lexCmp, Ordering.then_eq_eq, cmp3_eq, ih]

theorem lexCmp_swap {a b : List Rat} : lexCmp a b = .gt ↔ lexCmp b a = .lt := by
  induction a generalizing b with
  | nil => cases b <;> simp [lexCmp]
  | cons x xs ih =>
    cases b with
    | nil => simp [lexCmp]
    | cons y ys =>
      simp only [lexCmp, Ordering.then_eq_lt, Ordering.then_eq_gt, cmp3_gt, cmp3_lt, cmp3_eq, ih]
      constructor
      · rintro (h | ⟨rfl, h⟩)
        · exact Or.inl h
        · exact Or.inr ⟨rfl, h⟩
      · rintro (h | ⟨rfl, h⟩)
        · exact Or.inl h
        · exact Or.inr ⟨rfl, h⟩

theorem lexCmp_trans {a b c : List Rat} (h1 : lexCmp a b = .lt) (h2 : lexCmp b c = .lt) : lexCmp a c = .lt := by
  induction a generalizing b c with
  | nil =>
    cases c with
    | nil => cases b <;> simp [lexCmp] at h1 h2
    | cons => rfl
  | cons x xs ih =>
    cases b with
    | nil => simp [lexCmp] at h1
    | cons y ys =>
      cases c with
      | nil => simp [lexCmp] at h2
      | cons z zs =>
        simp only [lexCmp, Ordering.then_eq_lt, cmp3_lt, cmp3_eq] at h1 h2 ⊢
        rcases h1 with h1 | ⟨rfl, h1⟩ <;> rcases h2 with h2 | ⟨rfl, h2⟩
        · exact Or.inl (h1.trans h2)
        · exact Or.inl h1
        · exact Or.inl h2
        · exact Or.inr ⟨rfl, ih h1 h2⟩

def CmpVal.key : CmpVal → List Rat
  | .int i => [0, i]
  | .float f => [1, f]
def EqVal.key : EqVal → List Rat
  | .int i => [0, i]
  | .float f => [1, f]
  | .string s => [2, s.str]
  | .intEnum e => [3, e.ienum]
def SetLeft.key : SetLeft → List Rat
  | .int i => [i]
  | .string s => [s.str]
  | .var v => [v.var]
def intKey (l : List Int) : List Rat := l.length :: l.map (fun i : Int => (i : Rat))
def strKey (l : List StrVal) : List Rat := l.length :: l.map (fun s : StrVal => (s.str : Rat))
def SetRight.key : SetRight → List Rat
  | .intList l => intKey l
  | .strList l => strKey l
  | .var v => [v.var]
def ListVal.key : ListVal → List Rat
  | .intList l => 0 :: intKey l
  | .strList l => 1 :: strKey l

/-- everything `expr_cmp` compares, in order -/
def exprKey : AExpr → List Rat
  | .leaf _ (.compare o v c) => 0 :: o.toNat :: v.var :: c.key
  | .leaf _ (.equality o v c) => 1 :: o.toNat :: v.var :: c.key
  | .leaf _ (.boolVar v) => [2, 3, v.var]
  | .leaf _ (.boolLit b) => [2, 4, b.toNat]
  | .not _ e => [2, 2, e.gid]
  | .and _ l r => [2, 1, l.gid, r.gid]
  | .or _ l r => [2, 0, l.gid, r.gid]
  | .leaf _ (.set o l r) => 3 :: o.toNat :: l.tag :: r.tag :: (l.key ++ r.key)
  | .leaf _ (.list o v c) => 4 :: o.toNat :: v.var :: c.key
  | .leaf _ (.freq f) => [5, 0, f.attr.var, f.id, f.length, f.ns.str, f.type.toNat, f.value]
  | .leaf _ (.segment s) => [5, 1, s.op.toNat, s.hasVariable.toNat, s.attr.var, s.seconds, s.segmentId]
  | .leaf _ (.geo g) => [5, 2, g.hasRadius.toNat, g.latVar.var, g.lonVar.var, g.latitude, g.longitude, g.radius]
  | .leaf _ (.str s) => 5 :: 3 :: s.op.toNat :: s.attr.var :: s.pattern.map (fun c => (c.toNat : Rat))
  | .leaf _ (.isNull o v) => [6, v.var, o.toNat]

theorem cmp3_natCast (a b : Nat) : cmp3 (a : Rat) (b : Rat) = cmp3 a b := by simp [cmp3]
theorem cmp3_intCast (a b : Int) : cmp3 (a : Rat) (b : Rat) = cmp3 a b := by simp [cmp3]

theorem lexCmp_cons (a b : Rat) (as bs : List Rat) : lexCmp (a :: as) (b :: bs) = (cmp3 a b).then (lexCmp as bs) := rfl
theorem lexCmp_nil : lexCmp [] [] = .eq := rfl

theorem then_eq (o : Ordering) : o.then .eq = o := by cases o <;> rfl

theorem cmp3_natEq {a b : Nat} (h : cmp3 a b = .eq) : a = b := by
  unfold cmp3 at h
  split at h
  · cases h
  · split at h
    · cases h
    · omega

theorem lexCmp_elems {α : Type} [LT α] [DecidableLT α] (f : α → Rat) (hf : ∀ a b, cmp3 (f a) (f b) = cmp3 a b)
    {a b : List α} (h : a.length = b.length) : lexCmp (a.map f) (b.map f) = cmpElems a b := by
  induction a generalizing b with
  | nil => cases b with
    | nil => rfl
    | cons => simp at h
  | cons x xs ih => cases b with
    | nil => simp at h
    | cons y ys => simp [lexCmp, cmpElems, hf, ih (Nat.succ_inj.1 h)]

theorem intKey_cmp (a b : List Int) : lexCmp (intKey a) (intKey b) = cmpIntList a b := by
  simp only [intKey, lexCmp_cons, cmp3_natCast, cmpIntList]
  cases h : cmp3 a.length b.length with
  | eq => rw [lexCmp_elems _ cmp3_intCast (cmp3_natEq h)]
  | _ => rfl

theorem strKey_cmp (a b : List StrVal) : lexCmp (strKey a) (strKey b) = cmpStrList a b := by
  simp only [strKey, lexCmp_cons, cmp3_natCast, cmpStrList]
  cases h : cmp3 a.length b.length with
  | eq =>
    have := lexCmp_elems (fun n : Nat => (n : Rat)) cmp3_natCast (a := a.map StrVal.str) (b := b.map StrVal.str)
      (by simpa using cmp3_natEq h)
    rw [← this]; simp [List.map_map, Function.comp_def]
  | _ => rfl

theorem str_cmp (a b : Str) :
    lexCmp (a.map (fun c => (c.toNat : Rat))) (b.map (fun c => (c.toNat : Rat))) = strcmp a b := by
  induction a generalizing b with
  | nil => cases b <;> rfl
  | cons x xs ih => cases b with
    | nil => rfl
    | cons y ys => simp only [List.map, lexCmp_cons, strcmp, ih, cmp3_natCast]

theorem CmpVal.key_cmp (c d : CmpVal) : lexCmp c.key d.key = (cmp3 c.tag d.tag).then
    (match c, d with
    | .int a, .int b => cmp3 a b
    | .float a, .float b => cmp3 a b
    | _, _ => .eq) := by
  cases c <;> cases d <;> simp only [CmpVal.key, CmpVal.tag, lexCmp_cons, lexCmp_nil, then_eq, cmp3_intCast] <;> rfl

theorem EqVal.key_cmp (c d : EqVal) : lexCmp c.key d.key = (cmp3 c.tag d.tag).then
    (match c, d with
    | .intEnum a, .intEnum b => cmp3 a.ienum b.ienum
    | .int a, .int b => cmp3 a b
    | .float a, .float b => cmp3 a b
    | .string a, .string b => cmp3 a.str b.str
    | _, _ => .eq) := by
  cases c <;> cases d <;> simp only [EqVal.key, EqVal.tag, lexCmp_cons, lexCmp_nil, then_eq, cmp3_intCast, cmp3_natCast] <;> rfl

theorem ListVal.key_cmp (c d : ListVal) : lexCmp c.key d.key = (cmp3 c.tag d.tag).then
    (match c, d with
    | .intList a, .intList b => cmpIntList a b
    | .strList a, .strList b => cmpStrList a b
    | _, _ => .eq) := by
  cases c <;> cases d <;> simp only [ListVal.key, ListVal.tag, lexCmp_cons, intKey_cmp, strKey_cmp] <;> rfl

theorem set_key_cmp (l m : SetLeft) (r t : SetRight) :
    (cmp3 l.tag m.tag).then ((cmp3 r.tag t.tag).then (lexCmp (l.key ++ r.key) (m.key ++ t.key))) =
    (cmp3 l.tag m.tag).then ((cmp3 r.tag t.tag).then (
    (match l, m with
    | .int a, .int b => cmp3 a b
    | .string a, .string b => cmp3 a.str b.str
    | .var a, .var b => cmp3 a.var b.var
    | _, _ => .eq).then <|
    match r, t with
    | .intList a, .intList b => cmpIntList a b
    | .strList a, .strList b => cmpStrList a b
    | .var a, .var b => cmp3 a.var b.var
    | _, _ => .eq)) := by
  cases l <;> cases m <;> cases r <;> cases t <;>
    simp only [SetLeft.key, SetRight.key, List.cons_append, List.nil_append, lexCmp_cons, lexCmp_nil, then_eq, intKey_cmp,
      strKey_cmp, cmp3_intCast, cmp3_natCast, SetLeft.tag, SetRight.tag] <;> rfl

/-- `expr_cmp` is the lexicographic order of the keys -/
theorem exprCmp_key (a b : AExpr) : exprCmp a b = lexCmp (exprKey a) (exprKey b) := by
  rcases a with ⟨g, p⟩ | ⟨g, e⟩ | ⟨g, l, r⟩ | ⟨g, l, r⟩
  case leaf =>
    rcases b with ⟨h, q⟩ | ⟨h, e'⟩ | ⟨h, l', r'⟩ | ⟨h, l', r'⟩
    case leaf =>
      cases p <;> cases q <;>
        simp only [exprCmp, exprKey, lexCmp_cons, lexCmp_nil, then_eq, AExpr.typeTag, compareExprCmp, equalityExprCmp, setExprCmp,
          listExprCmp, isNullExprCmp, boolExprCmp, AExpr.boolTag, specialExprCmp, Pred.specialTag, CmpVal.key_cmp, EqVal.key_cmp,
          ListVal.key_cmp, set_key_cmp, str_cmp, cmp3_natCast, cmp3_intCast, if_true] <;> rfl
    all_goals
      cases p <;> simp only [exprCmp, exprKey, lexCmp_cons, AExpr.typeTag, boolExprCmp, AExpr.boolTag, if_true] <;> rfl
  all_goals
    rcases b with ⟨h, q⟩ | ⟨h, e'⟩ | ⟨h, l', r'⟩ | ⟨h, l', r'⟩
    case leaf =>
      cases q <;> simp only [exprCmp, exprKey, lexCmp_cons, AExpr.typeTag, boolExprCmp, AExpr.boolTag, if_true] <;> rfl
    all_goals
      simp only [exprCmp, exprKey, lexCmp_cons, lexCmp_nil, then_eq, AExpr.typeTag, boolExprCmp, AExpr.boolTag, if_true, cmp3_natCast] <;> rfl

theorem exprCmp_eq (a b : AExpr) : exprCmp a b = .eq ↔ exprKey a = exprKey b := by
  rw [exprCmp_key, lexCmp_eq]

theorem exprCmpOK : RB.CmpOK exprCmp where
  refl := fun a => by rw [exprCmp_eq]
  trans := fun a b c h1 h2 => by rw [exprCmp_key] at *; exact lexCmp_trans h1 h2
  swap := fun a b => by rw [exprCmp_key, exprCmp_key]; exact lexCmp_swap
  congr := fun a b c h => by rw [exprCmp_eq] at h; rw [exprCmp_key, exprCmp_key, h]

end BeTree
