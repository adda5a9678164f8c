import Verif.Lemmas.Config
import Verif.Lemmas.Event
import Verif.Lemmas.Sort
import Verif.Lemmas.Eval
import Verif.Spec.Event
import Verif.Props.Intern
/-
What the passes over an inserted expression produce, and why evaluating the result decides whether the expression as
written is true on the event as written.
-/
namespace BeTree
open Spec

/-- a variable reference with its id -/
structure ResVar (cfg : Config) (v v' : AttrVar) : Prop where
  attr : v'.attr = v.attr
  var : v'.var = tryGetIdForAttr cfg v.attr

/-- a string constant with its id: the text's position in the table of the attribute, or "no id" -/
structure ResStr (cfg : Config) (var : Nat) (s s' : StrVal) : Prop where
  string : s'.string = s.string
  sid : s'.str = invalidId ∨ (strTable cfg var)[s'.str]? = some s.string

/-- the type of a variable -/
def tyAt (cfg : Config) (v : Nat) : Option VType := (cfg.domains[v]?).map fun d => d.bound.ty

theorem tyAt_ext {a b : Config} (h : CfgExt a b) (v : Nat) : tyAt b v = tyAt a v := by
  have h1 := congrArg (fun l => (l[v]?).map fun x : AttrVar × VType × Bool => x.2.1) h.doms
  simpa only [List.getElem?_map, Option.map_map, tyAt, Function.comp_def] using h1

theorem tyAt_getDomain {c T : Config} (hx : CfgExt c T) {v : Nat} {d : Domain} (h : getDomain c v = .ok d) :
    tyAt T v = some d.bound.ty := by
  rw [tyAt_ext hx]
  unfold getDomain at h
  split at h
  · cases h
  · rename_i h1; cases h; simp [tyAt, h1]

/-- the four forms of `in` / `not in` that the grammar has -/
def goodSet : SetLeft → SetRight → Bool
  | .var _, .intList _ => true
  | .var _, .strList _ => true
  | .int _, .var _ => true
  | .string _, .var _ => true
  | _, _ => false

/-- how a stored predicate relates to the predicate as written -/
inductive ResPred (cfg : Config) (cs : List Constant) : Pred → Pred → Prop
  | cmpInt {op v v' k} (hv : ResVar cfg v v') (hty : ∃ t, tyAt cfg v'.var = some t ∧ t ≠ .float) :
      ResPred cfg cs (.compare op v (.int k)) (.compare op v' (.int k))
  | cmpIntF {op v v' k} (hv : ResVar cfg v v') (hty : tyAt cfg v'.var = some .float) :
      ResPred cfg cs (.compare op v (.int k)) (.compare op v' (.float (rnd (k : Int))))
  | cmpFloat {op v v' k} (hv : ResVar cfg v v') : ResPred cfg cs (.compare op v (.float k)) (.compare op v' (.float k))
  | eqInt {op v v' k} (hv : ResVar cfg v v') (hty : ∃ t, tyAt cfg v'.var = some t ∧ t ≠ .float ∧ t ≠ .intEnum) :
      ResPred cfg cs (.equality op v (.int k)) (.equality op v' (.int k))
  | eqIntF {op v v' k} (hv : ResVar cfg v v') (hty : tyAt cfg v'.var = some .float) :
      ResPred cfg cs (.equality op v (.int k)) (.equality op v' (.float (rnd (k : Int))))
  | eqEnum {op v v' k id} (hv : ResVar cfg v v') (hid : id = invalidId ∨ (intTable cfg v'.var)[id]? = some k)
      (hty : tyAt cfg v'.var = some .intEnum) :
      ResPred cfg cs (.equality op v (.int k)) (.equality op v' (.intEnum ⟨k, v'.var, id⟩))
  | eqEnumRaw {op v v' e} (hv : ResVar cfg v v') :
      ResPred cfg cs (.equality op v (.intEnum e)) (.equality op v' (.intEnum e))
  | eqFloat {op v v' k} (hv : ResVar cfg v v') : ResPred cfg cs (.equality op v (.float k)) (.equality op v' (.float k))
  | eqStr {op v v' s s'} (hv : ResVar cfg v v') (hs : ResStr cfg v'.var s s') :
      ResPred cfg cs (.equality op v (.string s)) (.equality op v' (.string s'))
  | boolVar {v v'} (hv : ResVar cfg v v') : ResPred cfg cs (.boolVar v) (.boolVar v')
  | boolLit {b} : ResPred cfg cs (.boolLit b) (.boolLit b)
  | setInts {op v v' l} (hv : ResVar cfg v v') :
      ResPred cfg cs (.set op (.var v) (.intList l)) (.set op (.var v') (.intList (sortBy id l)))
  | setStrs {op v v' l m} (hv : ResVar cfg v v') (hl : List.Forall₂ (ResStr cfg v'.var) l m) :
      ResPred cfg cs (.set op (.var v) (.strList l)) (.set op (.var v') (.strList (sortBy StrVal.str m)))
  | inInts {op v v' k} (hv : ResVar cfg v v') :
      ResPred cfg cs (.set op (.int k) (.var v)) (.set op (.int k) (.var v'))
  | inStrs {op v v' s s'} (hv : ResVar cfg v v') (hs : ResStr cfg v'.var s s') :
      ResPred cfg cs (.set op (.string s) (.var v)) (.set op (.string s') (.var v'))
  | setBad {op l r l' r'} (h : ∀ (env : Env), matchSet env op l' r' = .error .abort)
      (hl : ∀ v', l' = .var v' → ∃ v, l = .var v ∧ ResVar cfg v v')
      (hr : ∀ v', r' = .var v' → ∃ v, r = .var v ∧ ResVar cfg v v') (hbad : goodSet l r = false) :
      ResPred cfg cs (.set op l r) (.set op l' r')
  | listInts {op v v' l} (hv : ResVar cfg v v') :
      ResPred cfg cs (.list op v (.intList l)) (.list op v' (.intList (sortBy id l)))
  | listStrs {op v v' l m} (hv : ResVar cfg v v') (hl : List.Forall₂ (ResStr cfg v'.var) l m) :
      ResPred cfg cs (.list op v (.strList l)) (.list op v' (.strList (sortBy StrVal.str m)))
  | freq {f ns' v' now' name i} (hv : ResVar cfg f.attr v') (hn : ResVar cfg f.now now') (hs : ResStr cfg v'.var f.ns ns')
      (hname : constantName f.type = some name) (hi : integerConstant name cs = some i) :
      ResPred cfg cs (.freq f) (.freq { f with attr := v', now := now', ns := ns', id := (i % 2 ^ 32).toNat })
  | segment {s v' now'} (hv : ResVar cfg s.attr v') (hn : ResVar cfg s.now now') :
      ResPred cfg cs (.segment s) (.segment { s with attr := v', now := now' })
  | geo {g lat' lon'} (hv : ResVar cfg g.latVar lat') (hn : ResVar cfg g.lonVar lon') :
      ResPred cfg cs (.geo g) (.geo { g with latVar := lat', lonVar := lon' })
  | str {s v'} (hv : ResVar cfg s.attr v') : ResPred cfg cs (.str s) (.str { s with attr := v' })
  | isNull {op v v'} (hv : ResVar cfg v v') : ResPred cfg cs (.isNull op v) (.isNull op v')

/-- the same tree of connectives with related leaves -/
inductive ExprRel (P : Pred → Pred → Prop) : Expr → Expr → Prop
  | leaf {p p'} (h : P p p') : ExprRel P (.leaf p) (.leaf p')
  | not {e e'} (h : ExprRel P e e') : ExprRel P (.not e) (.not e')
  | and {l l' r r'} (hl : ExprRel P l l') (hr : ExprRel P r r') : ExprRel P (.and l r) (.and l' r')
  | or {l l' r r'} (hl : ExprRel P l l') (hr : ExprRel P r r') : ExprRel P (.or l r) (.or l' r')

theorem ExprRel.mono {P Q : Pred → Pred → Prop} {e e' : Expr} (h : ExprRel P e e') (hpq : ∀ p p', P p p' → Q p p') :
    ExprRel Q e e' := by
  induction h with
  | leaf h => exact .leaf (hpq _ _ h)
  | not _ ih => exact .not ih
  | and _ _ ihl ihr => exact .and ihl ihr
  | or _ _ ihl ihr => exact .or ihl ihr

theorem ExprRel.comp {P Q : Pred → Pred → Prop} {a b c : Expr} (h : ExprRel P a b) (h' : ExprRel Q b c) :
    ExprRel (fun p r => ∃ q, P p q ∧ Q q r) a c := by
  induction h generalizing c with
  | leaf h => cases h' with | leaf h' => exact .leaf ⟨_, h, h'⟩
  | not _ ih => cases h' with | not h' => exact .not (ih h')
  | and _ _ ihl ihr => cases h' with | and h1 h2 => exact .and (ihl h1) (ihr h2)
  | or _ _ ihl ihr => cases h' with | or h1 h2 => exact .or (ihl h1) (ihr h2)

/-! ### the relation only grows -/

theorem tryGetId_ext {a b : Config} (h : CfgExt a b) (s : Str) : tryGetIdForAttr b s = tryGetIdForAttr a s := by
  unfold tryGetIdForAttr
  have key : ∀ (k : Str) (ds ds' : List Domain) (i : Nat),
      ds'.map (fun d => (d.attr, d.bound.ty, d.allowUndefined)) = ds.map (fun d => (d.attr, d.bound.ty, d.allowUndefined)) →
      findAttr k ds' i = findAttr k ds i := by
    intro k ds
    induction ds with
    | nil => intro ds' i h; cases ds' with | nil => rfl | cons d ds' => simp at h
    | cons d ds ih =>
      intro ds' i h
      cases ds' with
      | nil => simp at h
      | cons d' ds' =>
        simp only [List.map_cons, List.cons.injEq, Prod.mk.injEq] at h
        unfold findAttr
        rw [h.1.1, ih ds' (i + 1) h.2]
  exact key _ _ _ _ h.doms

theorem ResVar.ext {a b : Config} {v v' : AttrVar} (h : ResVar a v v') (hx : CfgExt a b) : ResVar b v v' :=
  ⟨h.attr, by rw [h.var, tryGetId_ext hx]⟩

theorem ResStr.ext {a b : Config} {var : Nat} {s s' : StrVal} (h : ResStr a var s s') (hx : CfgExt a b) : ResStr b var s s' :=
  ⟨h.string, h.sid.imp id (prefix_get (hx.strs var))⟩

theorem forall₂_resStr_ext {a b : Config} {var : Nat} {l l' : List StrVal} (h : List.Forall₂ (ResStr a var) l l')
    (hx : CfgExt a b) : List.Forall₂ (ResStr b var) l l' := by
  induction h with
  | nil => exact .nil
  | cons h _ ih => exact .cons (h.ext hx) ih

theorem ResPred.ext {a b : Config} {cs : List Constant} {p p' : Pred} (h : ResPred a cs p p') (hx : CfgExt a b) :
    ResPred b cs p p' := by
  cases h with
  | cmpInt hv hty => exact .cmpInt (hv.ext hx) (by rw [tyAt_ext hx]; exact hty)
  | cmpIntF hv hty => exact .cmpIntF (hv.ext hx) (by rw [tyAt_ext hx]; exact hty)
  | cmpFloat hv => exact .cmpFloat (hv.ext hx)
  | eqInt hv hty => exact .eqInt (hv.ext hx) (by rw [tyAt_ext hx]; exact hty)
  | eqIntF hv hty => exact .eqIntF (hv.ext hx) (by rw [tyAt_ext hx]; exact hty)
  | eqEnum hv hid hty => exact .eqEnum (hv.ext hx) (hid.imp id (prefix_get (hx.ints _))) (by rw [tyAt_ext hx]; exact hty)
  | eqEnumRaw hv => exact .eqEnumRaw (hv.ext hx)
  | eqFloat hv => exact .eqFloat (hv.ext hx)
  | eqStr hv hs => exact .eqStr (hv.ext hx) (hs.ext hx)
  | boolVar hv => exact .boolVar (hv.ext hx)
  | boolLit => exact .boolLit
  | setInts hv => exact .setInts (hv.ext hx)
  | setStrs hv hl => exact .setStrs (hv.ext hx) (forall₂_resStr_ext hl hx)
  | inInts hv => exact .inInts (hv.ext hx)
  | inStrs hv hs => exact .inStrs (hv.ext hx) (hs.ext hx)
  | setBad h hl hr hb =>
    exact .setBad h (fun v' e => (hl v' e).imp fun v k => ⟨k.1, k.2.ext hx⟩) (fun v' e => (hr v' e).imp fun v k => ⟨k.1, k.2.ext hx⟩) hb
  | listInts hv => exact .listInts (hv.ext hx)
  | listStrs hv hl => exact .listStrs (hv.ext hx) (forall₂_resStr_ext hl hx)
  | freq hv hn hs h1 h2 => exact .freq (hv.ext hx) (hn.ext hx) (hs.ext hx) h1 h2
  | segment hv hn => exact .segment (hv.ext hx) (hn.ext hx)
  | geo hv hn => exact .geo (hv.ext hx) (hn.ext hx)
  | str hv => exact .str (hv.ext hx)
  | isNull hv => exact .isNull (hv.ext hx)

/-! ### each pass, leaf by leaf -/

/-- a leaf went through `assign_str_id`; `T` is a later configuration -/
def StrStep (T : Config) (always : Bool) (p p' : Pred) : Prop :=
  ∃ c c', assignStrPred c always p = .ok (p', c') ∧ CfgExt c' T
/-- a leaf went through `assign_ienum_id` -/
def IenumStep (T : Config) (always : Bool) (p p' : Pred) : Prop :=
  ∃ c c', assignIenumPred c always p = .ok (p', c') ∧ CfgExt c' T
/-- a leaf went through `fix_float_with_no_fractions` -/
def FixStep (T : Config) (p p' : Pred) : Prop := ∃ c, fixFloatPred c p = .ok p' ∧ CfgExt c T

theorem assignVar_rel (cfg : Config) (e : Expr) : ExprRel (fun p p' => p' = assignVarPred cfg p) e (assignVar cfg e) := by
  induction e with
  | leaf p => exact .leaf rfl
  | not e ih => exact .not ih
  | and l r ihl ihr => exact .and ihl ihr
  | or l r ihl ihr => exact .or ihl ihr

theorem sortLists_rel (e : Expr) : ExprRel (fun p p' => p' = sortListsPred p) e (sortLists e) := by
  induction e with
  | leaf p => exact .leaf rfl
  | not e ih => exact .not ih
  | and l r ihl ihr => exact .and ihl ihr
  | or l r ihl ihr => exact .or ihl ihr

theorem assignConstants_rel {cs : List Constant} {e e' : Expr} (h : assignConstants cs e = some e') :
    ExprRel (fun p p' => assignConstantsPred cs p = some p') e e' := by
  induction e generalizing e' with
  | leaf p =>
    simp only [assignConstants, Option.map_eq_some_iff] at h
    obtain ⟨a, h1, rfl⟩ := h
    exact .leaf h1
  | not e ih =>
    simp only [assignConstants, Option.map_eq_some_iff] at h
    obtain ⟨a, h1, rfl⟩ := h
    exact .not (ih h1)
  | and l r ihl ihr =>
    simp only [assignConstants] at h
    split at h
    · rename_i h1 h2; cases h; exact .and (ihl h1) (ihr h2)
    · cases h
  | or l r ihl ihr =>
    simp only [assignConstants] at h
    split at h
    · rename_i h1 h2; cases h; exact .or (ihl h1) (ihr h2)
    · cases h

theorem assignStr_rel {T cfg cfg' : Config} {always : Bool} {e e' : Expr} (h : assignStr cfg always e = .ok (e', cfg'))
    (hx : CfgExt cfg' T) : ExprRel (StrStep T always) e e' := by
  induction e generalizing cfg cfg' e' with
  | leaf p =>
    simp only [assignStr] at h
    split at h
    · cases h
    · rename_i h1; cases h; exact .leaf ⟨_, _, h1, hx⟩
  | not e ih =>
    simp only [assignStr] at h
    split at h
    · cases h
    · rename_i h1; cases h; exact .not (ih h1 hx)
  | and l r ihl ihr =>
    simp only [assignStr] at h
    repeat' split at h
    all_goals first
      | (cases h; done)
      | (rename_i h1 _ _ _ h2; cases h; exact .and (ihl h1 ((assignStr_grow h2).ext.trans hx)) (ihr h2 hx))
  | or l r ihl ihr =>
    simp only [assignStr] at h
    repeat' split at h
    all_goals first
      | (cases h; done)
      | (rename_i h1 _ _ _ h2; cases h; exact .or (ihl h1 ((assignStr_grow h2).ext.trans hx)) (ihr h2 hx))

theorem assignIenum_rel {T cfg cfg' : Config} {always : Bool} {e e' : Expr} (h : assignIenum cfg always e = .ok (e', cfg'))
    (hx : CfgExt cfg' T) : ExprRel (IenumStep T always) e e' := by
  induction e generalizing cfg cfg' e' with
  | leaf p =>
    simp only [assignIenum] at h
    split at h
    · cases h
    · rename_i h1; cases h; exact .leaf ⟨_, _, h1, hx⟩
  | not e ih =>
    simp only [assignIenum] at h
    split at h
    · cases h
    · rename_i h1; cases h; exact .not (ih h1 hx)
  | and l r ihl ihr =>
    simp only [assignIenum] at h
    repeat' split at h
    all_goals first
      | (cases h; done)
      | (rename_i h1 _ _ _ h2; cases h; exact .and (ihl h1 ((assignIenum_grow h2).ext.trans hx)) (ihr h2 hx))
  | or l r ihl ihr =>
    simp only [assignIenum] at h
    repeat' split at h
    all_goals first
      | (cases h; done)
      | (rename_i h1 _ _ _ h2; cases h; exact .or (ihl h1 ((assignIenum_grow h2).ext.trans hx)) (ihr h2 hx))

theorem fixFloat_rel {T cfg : Config} {e e' : Expr} (h : fixFloat cfg e = .ok e') (hx : CfgExt cfg T) :
    ExprRel (FixStep T) e e' := by
  induction e generalizing e' with
  | leaf p =>
    simp only [fixFloat] at h
    split at h
    · cases h
    · rename_i h1; cases h; exact .leaf ⟨_, h1, hx⟩
  | not e ih =>
    simp only [fixFloat] at h
    split at h
    · cases h
    · rename_i h1; cases h; exact .not (ih h1)
  | and l r ihl ihr =>
    simp only [fixFloat] at h
    repeat' split at h
    all_goals first
      | (cases h; done)
      | (rename_i h1 _ _ h2; cases h; exact .and (ihl h1) (ihr h2))
  | or l r ihl ihr =>
    simp only [fixFloat] at h
    repeat' split at h
    all_goals first
      | (cases h; done)
      | (rename_i h1 _ _ h2; cases h; exact .or (ihl h1) (ihr h2))

/-! ### the passes together -/

theorem getIdForString_res {T c c' : Config} {v : AttrVar} {s : StrVal} {always : Bool} {id : Nat}
    (h : getIdForString c v s.string always = .ok (id, c')) (hx : CfgExt c' T) : ResStr T v.var s (s.resolve v id) := by
  obtain ⟨_, _, _, h4, _⟩ := getIdForString_spec h
  refine ⟨rfl, ?_⟩
  rcases h4.get with h5 | h5
  · exact Or.inr (prefix_get (hx.strs _) h5)
  · exact Or.inl h5.1

theorem assignStrList_res {T c c' : Config} {v : AttrVar} {always : Bool} {l l' : List StrVal}
    (h : assignStrList c v always l = .ok (l', c')) (hx : CfgExt c' T) : List.Forall₂ (ResStr T v.var) l l' := by
  induction l generalizing c l' with
  | nil => cases h; exact .nil
  | cons s ss ih =>
    simp only [assignStrList] at h
    split at h
    · cases h
    · rename_i h1
      split at h
      · cases h
      · rename_i h2
        cases h
        exact .cons (getIdForString_res h1 ((assignStrList_grow h2).ext.trans hx)) (ih h2)

theorem getIdForIenum_res {T c c' : Config} {v : AttrVar} {k : Int} {always : Bool} {id : Nat}
    (h : getIdForIenum c v k always = .ok (id, c')) (hx : CfgExt c' T) :
    id = invalidId ∨ (intTable T v.var)[id]? = some k := by
  obtain ⟨_, _, _, h4, _⟩ := getIdForIenum_spec h
  rcases h4.get with h5 | h5
  · exact Or.inr (prefix_get (hx.ints _) h5)
  · exact Or.inl h5.1

theorem resolveVar_res (cfg : Config) (v : AttrVar) : ResVar cfg v (resolveVar cfg v) := ⟨rfl, rfl⟩

/-- the passes of `betree_insert` on a leaf -/
theorem insert_leaf {c T : Config} {cs : List Constant} {always : Bool} {p p2 p3 p4 p6 : Pred} (hc : CfgExt c T)
    (h2 : assignConstantsPred cs (assignVarPred c p) = some p2) (h3 : StrStep T always p2 p3)
    (h4 : IenumStep T always p3 p4) (h6 : FixStep T (sortListsPred p4) p6) : ResPred T cs p p6 := by
  obtain ⟨c3, c3', h3, hx3⟩ := h3
  obtain ⟨c4, c4', h4, hx4⟩ := h4
  obtain ⟨c6, h6, hx6⟩ := h6
  have hres : ∀ v, ResVar T v (resolveVar c v) := fun v => (resolveVar_res c v).ext hc
  cases p with
  | compare op v k =>
    simp only [assignVarPred, assignConstantsPred, Option.some.injEq] at h2; subst h2
    simp only [assignStrPred, Except.ok.injEq, Prod.mk.injEq] at h3; obtain ⟨rfl, rfl⟩ := h3
    simp only [assignIenumPred, Except.ok.injEq, Prod.mk.injEq] at h4; obtain ⟨rfl, rfl⟩ := h4
    cases k with
    | int k =>
      simp only [sortListsPred, fixFloatPred] at h6
      split at h6
      · cases h6
      · rename_i d hd
        have ht := tyAt_getDomain hx6 hd
        by_cases hf : d.bound.ty = .float
        · simp only [hf, if_true] at h6; cases h6; exact .cmpIntF (hres v) (by rw [ht, hf])
        · simp only [hf, if_false] at h6; cases h6; exact .cmpInt (hres v) ⟨_, ht, hf⟩
    | float k =>
      simp only [sortListsPred, fixFloatPred] at h6
      repeat' split at h6
      all_goals first | (cases h6; done) | (cases h6; exact .cmpFloat (hres v))
  | equality op v k =>
    simp only [assignVarPred, assignConstantsPred, Option.some.injEq] at h2; subst h2
    cases k with
    | int k =>
      simp only [assignStrPred, Except.ok.injEq, Prod.mk.injEq] at h3; obtain ⟨rfl, rfl⟩ := h3
      have h4x := (assignIenumPred_grow h4).ext
      simp only [assignIenumPred] at h4
      split at h4
      · cases h4
      · rename_i d hd
        have ht := tyAt_getDomain (h4x.trans hx4) hd
        split at h4
        · rename_i hen
          rw [hen] at ht
          split at h4
          · cases h4
          · rename_i h5
            cases h4
            simp only [sortListsPred, fixFloatPred] at h6
            repeat' split at h6
            all_goals first | (cases h6; done) | (cases h6; exact .eqEnum (hres v) (getIdForIenum_res h5 hx4) ht)
        · rename_i hen
          cases h4
          simp only [sortListsPred, fixFloatPred] at h6
          split at h6
          · cases h6
          · rename_i d' hd'
            have ht' := tyAt_getDomain hx6 hd'
            by_cases hf : d'.bound.ty = .float
            · simp only [hf, if_true] at h6; cases h6; exact .eqIntF (hres v) (by rw [ht', hf])
            · simp only [hf, if_false] at h6; cases h6
              exact .eqInt (hres v) ⟨_, ht', hf, by rw [← Option.some.inj (ht.symm.trans ht')]; exact hen⟩
    | float k =>
      simp only [assignStrPred, Except.ok.injEq, Prod.mk.injEq] at h3; obtain ⟨rfl, rfl⟩ := h3
      simp only [assignIenumPred, Except.ok.injEq, Prod.mk.injEq] at h4; obtain ⟨rfl, rfl⟩ := h4
      simp only [sortListsPred, fixFloatPred] at h6
      repeat' split at h6
      all_goals first | (cases h6; done) | (cases h6; exact .eqFloat (hres v))
    | string k =>
      simp only [assignStrPred] at h3
      split at h3
      · cases h3
      · rename_i h5
        cases h3
        simp only [assignIenumPred, Except.ok.injEq, Prod.mk.injEq] at h4; obtain ⟨rfl, rfl⟩ := h4
        simp only [sortListsPred, fixFloatPred] at h6
        repeat' split at h6
        all_goals first | (cases h6; done) | (cases h6; exact .eqStr (hres v) (getIdForString_res h5 hx3))
    | intEnum k =>
      simp only [assignStrPred, Except.ok.injEq, Prod.mk.injEq] at h3; obtain ⟨rfl, rfl⟩ := h3
      simp only [assignIenumPred, Except.ok.injEq, Prod.mk.injEq] at h4; obtain ⟨rfl, rfl⟩ := h4
      simp only [sortListsPred, fixFloatPred] at h6
      repeat' split at h6
      all_goals first | (cases h6; done) | (cases h6; exact .eqEnumRaw (hres v))
  | boolVar v =>
    simp only [assignVarPred, assignConstantsPred, Option.some.injEq] at h2; subst h2
    simp only [assignStrPred, Except.ok.injEq, Prod.mk.injEq] at h3; obtain ⟨rfl, rfl⟩ := h3
    simp only [assignIenumPred, Except.ok.injEq, Prod.mk.injEq] at h4; obtain ⟨rfl, rfl⟩ := h4
    cases h6; exact .boolVar (hres v)
  | boolLit b =>
    simp only [assignVarPred, assignConstantsPred, Option.some.injEq] at h2; subst h2
    simp only [assignStrPred, Except.ok.injEq, Prod.mk.injEq] at h3; obtain ⟨rfl, rfl⟩ := h3
    simp only [assignIenumPred, Except.ok.injEq, Prod.mk.injEq] at h4; obtain ⟨rfl, rfl⟩ := h4
    cases h6; exact .boolLit
  | set op l r =>
    simp only [assignVarPred, assignConstantsPred, Option.some.injEq] at h2; subst h2
    cases l <;> cases r <;> simp only [assignStrPred] at h3
    all_goals first
      | (cases h3; done)
      | skip
    · cases h3; cases h4; cases h6; exact .setBad (fun _ => rfl) (by intro v' h; cases h <;> exact ⟨_, rfl, hres _⟩)
        (by intro v' h; cases h <;> exact ⟨_, rfl, hres _⟩) rfl
    · cases h3; cases h4; cases h6; exact .inInts (hres _)
    · split at h3
      · cases h3
      · rename_i h5
        cases h3; cases h4; cases h6; exact .inStrs (hres _) (getIdForString_res h5 hx3)
    · cases h3; cases h4; cases h6; exact .setInts (hres _)
    · split at h3
      · cases h3
      · rename_i h5
        cases h3; cases h4; cases h6; exact .setStrs (hres _) (assignStrList_res h5 hx3)
    · cases h3; cases h4; cases h6; exact .setBad (fun _ => rfl) (by intro v' h; cases h <;> exact ⟨_, rfl, hres _⟩)
        (by intro v' h; cases h <;> exact ⟨_, rfl, hres _⟩) rfl
  | list op v l =>
    simp only [assignVarPred, assignConstantsPred, Option.some.injEq] at h2; subst h2
    cases l with
    | intList l => cases h3; cases h4; cases h6; exact .listInts (hres _)
    | strList l =>
      simp only [assignStrPred] at h3
      split at h3
      · cases h3
      · rename_i h5
        cases h3; cases h4; cases h6; exact .listStrs (hres _) (assignStrList_res h5 hx3)
  | freq f =>
    simp only [assignVarPred, assignConstantsPred] at h2
    split at h2
    · cases h2
    · rename_i hname
      split at h2
      · cases h2
      · rename_i hi
        cases h2
        simp only [assignStrPred] at h3
        split at h3
        · cases h3
        · rename_i h5
          cases h3; cases h4; cases h6
          exact .freq (hres _) (hres _) (getIdForString_res h5 hx3) hname hi
  | segment f =>
    simp only [assignVarPred, assignConstantsPred, Option.some.injEq] at h2; subst h2
    cases h3; cases h4; cases h6; exact .segment (hres _) (hres _)
  | geo g =>
    simp only [assignVarPred, assignConstantsPred, Option.some.injEq] at h2; subst h2
    cases h3; cases h4; cases h6; exact .geo (hres _) (hres _)
  | str g =>
    simp only [assignVarPred, assignConstantsPred, Option.some.injEq] at h2; subst h2
    cases h3; cases h4; cases h6; exact .str (hres _)
  | isNull op v =>
    simp only [assignVarPred, assignConstantsPred, Option.some.injEq] at h2; subst h2
    cases h3; cases h4; cases h6; exact .isNull (hres _)

/-- the passes of `betree_make_sub` on a leaf -/
theorem makeSub_leaf {c T : Config} {cs : List Constant} {always : Bool} {p p3 p4 p5 p6 : Pred} (hc : CfgExt c T)
    (h3 : StrStep T always (assignVarPred c p) p3) (h4 : IenumStep T always p3 p4) (h5 : FixStep T p4 p5)
    (h6 : assignConstantsPred cs p5 = some p6) : ResPred T cs p (sortListsPred p6) := by
  obtain ⟨c3, c3', h3, hx3⟩ := h3
  obtain ⟨c4, c4', h4, hx4⟩ := h4
  obtain ⟨c5, h5, hx5⟩ := h5
  have hres : ∀ v, ResVar T v (resolveVar c v) := fun v => (resolveVar_res c v).ext hc
  cases p with
  | compare op v k =>
    cases h3; cases h4
    cases k with
    | int k =>
      simp only [assignVarPred, fixFloatPred] at h5
      split at h5
      · cases h5
      · rename_i d hd
        have ht := tyAt_getDomain hx5 hd
        by_cases hf : d.bound.ty = .float
        · simp only [hf, if_true] at h5; cases h5; cases h6; exact .cmpIntF (hres v) (by rw [ht, hf])
        · simp only [hf, if_false] at h5; cases h5; cases h6; exact .cmpInt (hres v) ⟨_, ht, hf⟩
    | float k =>
      simp only [assignVarPred, fixFloatPred] at h5
      repeat' split at h5
      all_goals first | (cases h5; done) | (cases h5; cases h6; exact .cmpFloat (hres v))
  | equality op v k =>
    cases k with
    | int k =>
      cases h3
      have h4x := (assignIenumPred_grow h4).ext
      simp only [assignVarPred, assignIenumPred] at h4
      split at h4
      · cases h4
      · rename_i d hd
        have ht := tyAt_getDomain (h4x.trans hx4) hd
        split at h4
        · rename_i hen
          rw [hen] at ht
          split at h4
          · cases h4
          · rename_i h7
            cases h4
            simp only [assignVarPred, fixFloatPred] at h5
            repeat' split at h5
            all_goals first | (cases h5; done) | (cases h5; cases h6; exact .eqEnum (hres v) (getIdForIenum_res h7 hx4) ht)
        · rename_i hen
          cases h4
          simp only [assignVarPred, fixFloatPred] at h5
          split at h5
          · cases h5
          · rename_i d' hd'
            have ht' := tyAt_getDomain hx5 hd'
            by_cases hf : d'.bound.ty = .float
            · simp only [hf, if_true] at h5; cases h5; cases h6; exact .eqIntF (hres v) (by rw [ht', hf])
            · simp only [hf, if_false] at h5; cases h5; cases h6
              exact .eqInt (hres v) ⟨_, ht', hf, by rw [← Option.some.inj (ht.symm.trans ht')]; exact hen⟩
    | float k =>
      cases h3; cases h4
      simp only [assignVarPred, fixFloatPred] at h5
      repeat' split at h5
      all_goals first | (cases h5; done) | (cases h5; cases h6; exact .eqFloat (hres v))
    | string k =>
      simp only [assignVarPred, assignStrPred] at h3
      split at h3
      · cases h3
      · rename_i h7
        cases h3; cases h4
        simp only [assignVarPred, fixFloatPred] at h5
        repeat' split at h5
        all_goals first | (cases h5; done) | (cases h5; cases h6; exact .eqStr (hres v) (getIdForString_res h7 hx3))
    | intEnum k =>
      cases h3; cases h4
      simp only [assignVarPred, fixFloatPred] at h5
      repeat' split at h5
      all_goals first | (cases h5; done) | (cases h5; cases h6; exact .eqEnumRaw (hres v))
  | boolVar v => cases h3; cases h4; cases h5; cases h6; exact .boolVar (hres v)
  | boolLit b => cases h3; cases h4; cases h5; cases h6; exact .boolLit
  | set op l r =>
    cases l <;> cases r <;> simp only [assignVarPred, assignStrPred] at h3
    all_goals first
      | (cases h3; done)
      | skip
    · cases h3; cases h4; cases h5; cases h6; exact .setBad (fun _ => rfl) (by intro v' h; cases h <;> exact ⟨_, rfl, hres _⟩)
        (by intro v' h; cases h <;> exact ⟨_, rfl, hres _⟩) rfl
    · cases h3; cases h4; cases h5; cases h6; exact .inInts (hres _)
    · split at h3
      · cases h3
      · rename_i h7
        cases h3; cases h4; cases h5; cases h6; exact .inStrs (hres _) (getIdForString_res h7 hx3)
    · cases h3; cases h4; cases h5; cases h6; exact .setInts (hres _)
    · split at h3
      · cases h3
      · rename_i h7
        cases h3; cases h4; cases h5; cases h6; exact .setStrs (hres _) (assignStrList_res h7 hx3)
    · cases h3; cases h4; cases h5; cases h6; exact .setBad (fun _ => rfl) (by intro v' h; cases h <;> exact ⟨_, rfl, hres _⟩)
        (by intro v' h; cases h <;> exact ⟨_, rfl, hres _⟩) rfl
  | list op v l =>
    cases l with
    | intList l => cases h3; cases h4; cases h5; cases h6; exact .listInts (hres _)
    | strList l =>
      simp only [assignVarPred, assignStrPred] at h3
      split at h3
      · cases h3
      · rename_i h7
        cases h3; cases h4; cases h5; cases h6; exact .listStrs (hres _) (assignStrList_res h7 hx3)
  | freq f =>
    simp only [assignVarPred, assignStrPred] at h3
    split at h3
    · cases h3
    · rename_i h7
      cases h3; cases h4; cases h5
      simp only [assignConstantsPred] at h6
      split at h6
      · cases h6
      · rename_i hname
        split at h6
        · cases h6
        · rename_i hi
          cases h6
          exact .freq (hres _) (hres _) (getIdForString_res h7 hx3) hname hi
  | segment f => cases h3; cases h4; cases h5; cases h6; exact .segment (hres _) (hres _)
  | geo g => cases h3; cases h4; cases h5; cases h6; exact .geo (hres _) (hres _)
  | str g => cases h3; cases h4; cases h5; cases h6; exact .str (hres _)
  | isNull op v => cases h3; cases h4; cases h5; cases h6; exact .isNull (hres _)

theorem setGid_erase (g : Nat) (e : AExpr) : (e.setGid g).erase = e.erase := by cases e <;> rfl

theorem assignNode_erase {pm pm' : PredMap} {n n' : AExpr} (h : assignNode pm n = .ok (n', pm')) : n'.erase = n.erase := by
  unfold assignNode at h
  dsimp only at h
  repeat' split at h
  all_goals first | (cases h; done) | (cases h; exact setGid_erase _ _)

theorem assignPred_erase {pm pm' : PredMap} {e : Expr} {a : AExpr} (h : assignPred pm e = .ok (a, pm')) : a.erase = e := by
  induction e generalizing pm pm' a with
  | leaf p => exact assignNode_erase h
  | not e ih =>
    simp only [assignPred] at h
    split at h
    · cases h
    · rename_i h1; rw [assignNode_erase h, AExpr.erase, ih h1]
  | and l r ihl ihr =>
    simp only [assignPred] at h
    repeat' split at h
    all_goals first
      | (cases h; done)
      | (rename_i h1 _ _ _ h2; rw [assignNode_erase h, AExpr.erase, ihl h1, ihr h2])
  | or l r ihl ihr =>
    simp only [assignPred] at h
    repeat' split at h
    all_goals first
      | (cases h; done)
      | (rename_i h1 _ _ _ h2; rw [assignNode_erase h, AExpr.erase, ihl h1, ihr h2])

/-- what `make_sub` puts in a subscription -/
theorem makeSub_fields {cfg : Config} {id : Nat} {e : AExpr} {s : Sub} (h : makeSub cfg id e = .ok s) :
    s.id = id ∧ s.expr = e ∧ s.attrVars = exprVars e.erase ∧
      fillShortCircuit e.erase cfg.domains 0 (makeBits cfg.domains.length) (makeBits cfg.domains.length) = .ok (s.pass, s.fail) := by
  unfold makeSub at h
  dsimp only at h
  split at h
  · split at h
    · cases h
    · rename_i h1; cases h; exact ⟨rfl, rfl, rfl, h1⟩
  · cases h

theorem finishSub_fields {cfg cfg' : Config} {id : Nat} {e : Expr} {s : Sub} (h : finishSub cfg id e = .ok (s, cfg')) :
    s.id = id ∧ s.expr.erase = e ∧ s.attrVars = exprVars e ∧
      fillShortCircuit e cfg.domains 0 (makeBits cfg.domains.length) (makeBits cfg.domains.length) = .ok (s.pass, s.fail) ∧
      cfg'.domains = cfg.domains ∧ assignPred cfg.predMap e = .ok (s.expr, cfg'.predMap) := by
  unfold finishSub at h
  split at h
  · cases h
  · rename_i h1
    dsimp only at h
    split at h
    · cases h
    · rename_i h2
      cases h
      obtain ⟨e1, e2, e3, e4⟩ := makeSub_fields h2
      have e5 := assignPred_erase h1
      subst e2
      rw [e5] at e3 e4
      exact ⟨e1, e5, e3, e4, rfl, h1⟩

/-- what an accepted `betree_insert` stores -/
theorem prepareInsert_res {cfg cfg' : Config} {id : Nat} {cs : List Constant} {e : Expr} {s : Sub}
    (h : prepareInsert cfg id cs e = .ok (some s, cfg')) :
    s.id = id ∧ ExprRel (ResPred cfg' cs) e s.expr.erase := by
  unfold prepareInsert at h
  dsimp only at h
  split at h
  · cases h
  · cases h
  · split at h
    · cases h
    · rename_i e2 h2
      split at h
      · cases h
      · rename_i e3 c3 h3
        split at h
        · cases h
        · rename_i e4 c4 h4
          split at h
          · cases h
          · rename_i e6 h6
            split at h
            · cases h
            · rename_i h7
              cases h
              have x7 := finishSub_ext h7
              have x4 := (assignIenum_grow h4).ext.trans x7
              have x3 := (assignStr_grow h3).ext.trans x4
              obtain ⟨f1, f2, _⟩ := finishSub_fields h7
              refine ⟨f1, ?_⟩
              rw [f2]
              refine (((((assignVar_rel cfg e).comp (assignConstants_rel h2)).comp (assignStr_rel h3 x4)).comp
                (assignIenum_rel h4 x7)).comp ((sortLists_rel e4).comp (fixFloat_rel h6 x7))).mono ?_
              rintro p p' ⟨q4, ⟨q3, ⟨q2, ⟨q1, rfl, r2⟩, r3⟩, r4⟩, q5, rfl, r6⟩
              exact insert_leaf x3 r2 r3 r4 r6

/-- what `betree_make_sub` builds -/
theorem makeSub_res {t t' : Tree} {id : Nat} {cs : List Constant} {e : Expr} {s : Sub}
    (h : t.makeSub id cs e = .ok (some s, t')) :
    s.id = id ∧ ExprRel (ResPred t'.cfg cs) e s.expr.erase := by
  unfold Tree.makeSub at h
  dsimp only at h
  split at h
  · cases h
  · cases h
  · split at h
    · cases h
    · rename_i e3 c3 h3
      split at h
      · cases h
      · rename_i e4 c4 h4
        split at h
        · cases h
        · rename_i e5 h5
          split at h
          · cases h
          · cases h
          · split at h
            · cases h
            · rename_i e6 h6
              split at h
              · cases h
              · rename_i c8 h8
                split at h
                · cases h
                · rename_i h7
                  cases h
                  have x7 := (changeBoundaries_ext h8).trans (finishSub_ext h7)
                  have x4 := (assignIenum_grow h4).ext.trans x7
                  have x3 := (assignStr_grow h3).ext.trans x4
                  obtain ⟨f1, f2, _⟩ := finishSub_fields h7
                  refine ⟨f1, ?_⟩
                  rw [f2]
                  refine (((((assignVar_rel t.cfg e).comp (assignStr_rel h3 x4)).comp
                    (assignIenum_rel h4 x7)).comp (fixFloat_rel h5 x7)).comp ((assignConstants_rel h6).comp
                      (sortLists_rel e6))).mono ?_
                  rintro p p' ⟨q5, ⟨q4, ⟨q3, ⟨q2, rfl, r2⟩, r3⟩, r4⟩, q6, r6, rfl⟩
                  exact makeSub_leaf x3 r2 r3 r4 r6

end BeTree
