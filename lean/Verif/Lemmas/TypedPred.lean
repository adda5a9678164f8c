import Verif.Lemmas.Total
/-
Stored expressions whose predicates fit the types of their variables: `change_boundaries` and the bounds do not fault on them.
-/
namespace BeTree
open Spec
variable [Floats]

/-- every variable has the type its operator and constants need; those of special functions only have a domain -/
def TypedPred (cfg : Config) : Pred → Prop
  | .compare _ v (.int _) => tyAt cfg v.var = some .int
  | .compare _ v (.float _) => tyAt cfg v.var = some .float
  | .equality _ v (.int _) => tyAt cfg v.var = some .int
  | .equality _ v (.float _) => tyAt cfg v.var = some .float
  | .equality _ v (.string _) => tyAt cfg v.var = some .string
  | .equality _ v (.intEnum _) => tyAt cfg v.var = some .intEnum
  | .boolVar v => tyAt cfg v.var = some .bool
  | .boolLit _ => True
  | .set _ (.var v) (.intList _) => tyAt cfg v.var = some .int
  | .set _ (.var v) (.strList _) => tyAt cfg v.var = some .string
  | .set _ (.int _) (.var v) => tyAt cfg v.var = some .intList
  | .set _ (.string _) (.var v) => tyAt cfg v.var = some .strList
  | .set _ _ _ => False
  | .list _ v (.intList _) => tyAt cfg v.var = some .intList
  | .list _ v (.strList _) => tyAt cfg v.var = some .strList
  | .freq f => InDom cfg.domains f.attr ∧ InDom cfg.domains f.now
  | .segment s => InDom cfg.domains s.attr ∧ InDom cfg.domains s.now
  | .geo g => InDom cfg.domains g.latVar ∧ InDom cfg.domains g.lonVar
  | .str s => InDom cfg.domains s.attr
  | .isNull _ v => InDom cfg.domains v

omit [Floats] in
theorem inDom_of_ty {cfg : Config} {v : AttrVar} {t : VType} (h : tyAt cfg v.var = some t) : InDom cfg.domains v := by
  unfold tyAt at h
  obtain ⟨d, hd, _⟩ := Option.map_eq_some_iff.1 h
  exact (List.getElem?_eq_some_iff.1 hd).1

omit [Floats] in
theorem ty_domain {cfg : Config} {v : AttrVar} {t : VType} (h : tyAt cfg v.var = some t) :
    ∃ d, getDomain cfg v.var = .ok d ∧ d.bound.ty = t := by
  obtain ⟨d, hd⟩ := getDomain_inDom (inDom_of_ty h)
  rw [tyAt_getDomain (CfgExt.refl _) hd] at h
  exact ⟨d, hd, by simpa using h⟩

omit [Floats] in
theorem TypedPred.wf {cfg : Config} {p : Pred} (h : TypedPred cfg p) : WfPred cfg.domains p := by
  cases p with
  | compare op v c | equality op v c | list op v c => cases c <;> exact inDom_of_ty h
  | boolVar v => exact inDom_of_ty h
  | set op l r => cases l <;> cases r <;> first | exact h.elim | exact inDom_of_ty h
  | _ => exact h

omit [Floats] in
theorem inDom_ext {a b : Config} (h : CfgExt a b) {v : AttrVar} : InDom b.domains v ↔ InDom a.domains v := by
  unfold InDom
  rw [show b.domains.length = a.domains.length by simpa using congrArg List.length h.doms]

omit [Floats] in
theorem TypedPred.ext {a b : Config} (h : CfgExt a b) {p : Pred} (hp : TypedPred a p) : TypedPred b p := by
  have ht := fun v => tyAt_ext h v
  have hd := fun v => inDom_ext h (v := v)
  cases p with
  | compare op v c | equality op v c | list op v c => cases c <;> (simp only [TypedPred, ht] at hp ⊢; exact hp)
  | set op l r => cases l <;> cases r <;> first | exact hp.elim | (simp only [TypedPred, ht] at hp ⊢; exact hp)
  | boolLit b => trivial
  | _ => simp only [TypedPred, ht, hd] at hp ⊢; exact hp

omit [Floats] in
/-- `all_exprs_valid` on a leaf whose variables have domains -/
theorem validPred_typed {cfg : Config} {p : Pred} (hw : WfPred cfg.domains p) (h : exprValidPred cfg p = .ok true) :
    TypedPred cfg p := by
  have key : ∀ {v : AttrVar}, InDom cfg.domains v → ∃ d, getDomain cfg v.var = .ok d ∧ tyAt cfg v.var = some d.bound.ty := by
    intro v hv
    obtain ⟨d, hd⟩ := getDomain_inDom hv
    exact ⟨d, hd, tyAt_getDomain (CfgExt.refl _) hd⟩
  cases p with
  | compare op v c | equality op v c | list op v c =>
    replace hw : InDom cfg.domains v := hw
    obtain ⟨d, hd, ht⟩ := key hw
    cases c <;> (simp only [exprValidPred, hd, Except.ok.injEq, decide_eq_true_eq] at h; simp only [TypedPred, ht, h])
  | boolVar v =>
    replace hw : InDom cfg.domains v := hw
    obtain ⟨d, hd, ht⟩ := key hw
    simp only [exprValidPred, hd, Except.ok.injEq, decide_eq_true_eq] at h; simp only [TypedPred, ht, h]
  | set op l r =>
    cases l <;> cases r <;> first | exact hw.elim | skip
    all_goals
      rename_i a b
      obtain ⟨d, hd, ht⟩ := key hw
      simp only [exprValidPred, hd, Except.ok.injEq, decide_eq_true_eq] at h
      first | (cases h; done) | simp only [TypedPred, ht, h]
  | _ => exact hw

omit [Floats] in
theorem exprsValid_typed {cfg : Config} {e : Expr} (hw : e.All (WfPred cfg.domains)) (h : exprsValid cfg e = .ok true) :
    e.All (TypedPred cfg) := by
  induction e with
  | leaf p => exact validPred_typed hw h
  | not e ih => exact ih hw h
  | and l r ihl ihr | or l r ihl ihr =>
    obtain ⟨h1, h2⟩ := andThen_true h
    exact ⟨ihl hw.1 h1, ihr hw.2 h2⟩

omit [Floats] in
theorem assignConstantsPred_typed {cfg : Config} {cs : List Constant} {p p' : Pred} (h : assignConstantsPred cs p = some p')
    (hw : TypedPred cfg p) : TypedPred cfg p' := by
  unfold assignConstantsPred at h
  repeat' split at h
  all_goals first
    | (cases h; done)
    | (cases h; exact hw)

omit [Floats] in
theorem sortListsPred_typed {cfg : Config} {p : Pred} (hw : TypedPred cfg p) : TypedPred cfg (sortListsPred p) := by
  unfold sortListsPred
  split <;> exact hw

/-! ### lists with an entry -/

/-- no constant list of the predicate is empty -/
def FullList : Pred → Prop
  | .set _ _ (.intList l) => l ≠ []
  | .set _ _ (.strList l) => l ≠ []
  | .list _ _ (.intList l) => l ≠ []
  | .list _ _ (.strList l) => l ≠ []
  | _ => True

omit [Floats] in
theorem assignStrList_length {v : AttrVar} {al : Bool} : ∀ {l l' : List StrVal} {a b : Config},
    assignStrList a v al l = .ok (l', b) → l'.length = l.length := by
  intro l
  induction l with
  | nil => intro l' a b h; cases h; rfl
  | cons s ss ih =>
    intro l' a b h
    rw [assignStrList] at h
    split at h
    · cases h
    · split at h
      · cases h
      · rename_i h2; cases h; simp [ih h2]

omit [Floats] in
theorem assignStrPred_full {a b : Config} {al : Bool} {p p' : Pred} (h : assignStrPred a al p = .ok (p', b)) (hf : FullList p) :
    FullList p' := by
  unfold assignStrPred at h
  repeat' split at h
  all_goals first
    | (cases h; done)
    | (rename_i h1; cases h; intro hn; apply hf; rw [← List.length_eq_zero_iff, ← assignStrList_length h1, hn]; rfl)
    | (cases h; exact hf)

omit [Floats] in
theorem assignIenumPred_full {a b : Config} {al : Bool} {p p' : Pred} (h : assignIenumPred a al p = .ok (p', b))
    (hw : FullList p) : FullList p' := by
  unfold assignIenumPred at h
  repeat' split at h
  all_goals first
    | (cases h; done)
    | (cases h; exact hw)

omit [Floats] in
theorem fixFloatPred_full {a : Config} {p p' : Pred} (h : fixFloatPred a p = .ok p') (hw : FullList p) : FullList p' := by
  unfold fixFloatPred at h
  repeat' split at h
  all_goals first
    | (cases h; done)
    | (cases h; exact hw)

omit [Floats] in
theorem assignConstantsPred_full {cs : List Constant} {p p' : Pred} (h : assignConstantsPred cs p = some p')
    (hw : FullList p) : FullList p' := by
  unfold assignConstantsPred at h
  repeat' split at h
  all_goals first
    | (cases h; done)
    | (cases h; exact hw)

omit [Floats] in
theorem sortBy_nil_iff {α β : Type} [LT β] [DecidableLT β] (key : α → β) (l : List α) : sortBy key l = [] ↔ l = [] := by
  constructor
  · intro h
    cases l with
    | nil => rfl
    | cons x xs =>
      simp only [sortBy] at h
      cases hs : sortBy key xs with
      | nil => rw [hs] at h; cases h
      | cons y ys =>
        rw [hs, insertBy] at h
        split at h <;> cases h
  · rintro rfl; rfl

omit [Floats] in
theorem sortListsPred_full {p : Pred} (hw : FullList p) : FullList (sortListsPred p) := by
  unfold sortListsPred
  split <;> first | exact hw | (intro hn; exact hw ((sortBy_nil_iff _ _).1 hn))

omit [Floats] in
theorem assignVarPred_full {cfg : Config} {p : Pred} (hw : FullList p) : FullList (assignVarPred cfg p) := by
  cases p with
  | set op l r => cases l <;> cases r <;> exact hw
  | list op v c => cases c <;> exact hw
  | _ => exact hw

/-! ### change_boundaries -/

omit [Floats] in
theorem firstLastS_total {α : Type} {f : α → Scalar} {l : List α} {k : Kind} (hl : l ≠ []) (hf : ∀ x, (f x).kind = k) :
    ∃ b, firstLastS f l = .ok b ∧ b.lo.kind = k ∧ b.hi.kind = k := by
  cases l with
  | nil => exact absurd rfl hl
  | cons x xs => exact ⟨_, rfl, hf _, hf _⟩

omit [Floats] in
theorem checkedInt_mod {k : Int} (h : ModInt k) : checkedInt (k - 1) = .ok (k - 1) ∧ checkedInt (k + 1) = .ok (k + 1) := by
  simp only [ModInt, int64Min, int64Max] at h
  unfold checkedInt
  constructor <;> rw [if_pos] <;> simp only [int64Min, int64Max] <;> omega

omit [Floats] in
theorem compareSimple_total {c : CmpVal} {op : CmpOp} {inv : Bool} (hm : ∀ k, c = .int k → ModInt k) :
    ∃ b, compareSimple c op inv = .ok b ∧ b.lo.kind = (match c with | .int _ => Kind.i | .float _ => Kind.f) ∧
      b.hi.kind = (match c with | .int _ => Kind.i | .float _ => Kind.f) := by
  cases c with
  | int k =>
    obtain ⟨h1, h2⟩ := checkedInt_mod (hm k rfl)
    unfold compareSimple
    cases op <;> cases inv <;> simp [CmpOp.invert, h1, h2, Except.map, SBound.point, Scalar.kind]
  | float k =>
    unfold compareSimple
    cases op <;> cases inv <;> simp [CmpOp.invert, SBound.point, Scalar.kind]

/-- the bound has the union member of the type -/
def OfKind (k : Kind) (b : SBound) : Prop := b.lo.kind = k ∧ b.hi.kind = k

omit [Floats] in
theorem simplePred_total {cfg : Config} {v : Nat} {t : VType} (ht : tyAt cfg v = some t) {inv : Bool} {p : Pred}
    (hp : TypedPred cfg p) (hf : FullList p) (hm : Moderate (.leaf p)) :
    ∃ r, simplePred v inv p = .ok r ∧ ∀ b, r = some b → OfKind t.kind b := by
  cases p with
  | compare op w c =>
    simp only [simplePred]
    by_cases h : w.var = v
    · rw [if_pos h]
      obtain ⟨b, h1, h2⟩ := compareSimple_total (c := c) (op := op) (inv := inv) (fun k hk => by subst hk; exact hm)
      rw [h1]
      refine ⟨_, rfl, fun b' hb => ?_⟩
      cases hb
      subst h
      cases c <;> (simp only [TypedPred, ht, Option.some.injEq] at hp; subst hp; exact h2)
    · rw [if_neg h]; exact ⟨_, rfl, by simp⟩
  | equality op w c =>
    simp only [simplePred]
    by_cases h : w.var = v
    · rw [if_pos h]
      refine ⟨_, rfl, fun b' hb => ?_⟩
      cases hb
      subst h
      cases c <;> (simp only [TypedPred, ht, Option.some.injEq] at hp; subst hp; exact ⟨rfl, rfl⟩)
    · rw [if_neg h]; exact ⟨_, rfl, by simp⟩
  | boolVar w =>
    simp only [simplePred]
    by_cases h : w.var = v
    · rw [if_pos h]
      refine ⟨_, rfl, fun b' hb => ?_⟩
      cases hb
      subst h
      simp only [TypedPred, ht, Option.some.injEq] at hp; subst hp; exact ⟨rfl, rfl⟩
    · rw [if_neg h]; exact ⟨_, rfl, by simp⟩
  | list op w c =>
    simp only [simplePred]
    by_cases h : w.var = v
    · rw [if_pos h]
      subst h
      cases c with
      | intList l =>
        simp only [TypedPred, ht, Option.some.injEq] at hp; subst hp
        obtain ⟨b, h1, h2⟩ := firstLastS_total (f := Scalar.i) (l := l) (k := .i) hf (fun _ => rfl)
        simp only [listSimple, h1, Except.map]
        exact ⟨_, rfl, fun b' hb => by cases hb; exact h2⟩
      | strList l =>
        simp only [TypedPred, ht, Option.some.injEq] at hp; subst hp
        obtain ⟨b, h1, h2⟩ := firstLastS_total (f := fun s : StrVal => Scalar.s s.str) (l := l) (k := .s) hf (fun _ => rfl)
        simp only [listSimple, h1, Except.map]
        exact ⟨_, rfl, fun b' hb => by cases hb; exact h2⟩
    · rw [if_neg h]; exact ⟨_, rfl, by simp⟩
  | set op l r =>
    simp only [simplePred]
    by_cases h : (l.isVar v || r.isVar v) = true
    · rw [if_pos h]
      cases l <;> cases r <;> first | exact hp.elim | skip
      · simp only [SetLeft.isVar, SetRight.isVar, Bool.false_or, decide_eq_true_eq] at h
        subst h
        simp only [TypedPred, ht, Option.some.injEq] at hp; subst hp
        exact ⟨_, rfl, fun b' hb => by cases hb; exact ⟨rfl, rfl⟩⟩
      · simp only [SetLeft.isVar, SetRight.isVar, Bool.false_or, decide_eq_true_eq] at h
        subst h
        simp only [TypedPred, ht, Option.some.injEq] at hp; subst hp
        exact ⟨_, rfl, fun b' hb => by cases hb; exact ⟨rfl, rfl⟩⟩
      · rename_i w l
        simp only [SetLeft.isVar, SetRight.isVar, Bool.or_false, decide_eq_true_eq] at h
        subst h
        simp only [TypedPred, ht, Option.some.injEq] at hp; subst hp
        obtain ⟨b, h1, h2⟩ := firstLastS_total (f := Scalar.i) (l := l) (k := .i) hf (fun _ => rfl)
        simp only [setSimple, h1, Except.map]
        exact ⟨_, rfl, fun b' hb => by cases hb; exact h2⟩
      · rename_i w l
        simp only [SetLeft.isVar, SetRight.isVar, Bool.or_false, decide_eq_true_eq] at h
        subst h
        simp only [TypedPred, ht, Option.some.injEq] at hp; subst hp
        obtain ⟨b, h1, h2⟩ := firstLastS_total (f := fun s : StrVal => Scalar.s s.str) (l := l) (k := .s) hf (fun _ => rfl)
        simp only [setSimple, h1, Except.map]
        exact ⟨_, rfl, fun b' hb => by cases hb; exact h2⟩
    · rw [if_neg h]; exact ⟨_, rfl, by simp⟩
  | _ => exact ⟨_, rfl, by simp⟩

omit [Floats] in
theorem min_kind {a b : Scalar} (h : a.kind = b.kind) : (a.min b).kind = a.kind := by
  cases a <;> cases b <;> first | (cases h; done) | rfl

omit [Floats] in
theorem max_kind {a b : Scalar} (h : a.kind = b.kind) : (a.max b).kind = a.kind := by
  cases a <;> cases b <;> first | (cases h; done) | rfl

omit [Floats] in
theorem unionSimple_total {k : Kind} {l r : Option SBound} (hl : ∀ b, l = some b → OfKind k b) (hr : ∀ b, r = some b → OfKind k b) :
    ∃ u, unionSimple l r = .ok u ∧ ∀ b, u = some b → OfKind k b := by
  cases l with
  | none =>
    cases r with
    | none => exact ⟨_, rfl, by simp⟩
    | some b => exact ⟨_, rfl, hr⟩
  | some a =>
    cases r with
    | none => exact ⟨_, rfl, hl⟩
    | some b =>
      obtain ⟨a1, a2⟩ := hl _ rfl
      obtain ⟨b1, b2⟩ := hr _ rfl
      refine ⟨some { lo := a.lo.min b.lo, hi := a.hi.max b.hi }, ?_, ?_⟩
      · simp only [unionSimple]; rw [if_pos (a1.trans b1.symm)]
      · intro c hc
        cases hc
        exact ⟨(min_kind (a1.trans b1.symm)).trans a1, (max_kind (a2.trans b2.symm)).trans a2⟩

omit [Floats] in
theorem simpleBound_total {cfg : Config} {v : Nat} {t : VType} (ht : tyAt cfg v = some t) {e : Expr} :
    ∀ {inv : Bool}, e.All (TypedPred cfg) → e.All FullList → Moderate e →
    ∃ r, simpleBound v inv e = .ok r ∧ ∀ b, r = some b → OfKind t.kind b := by
  induction e with
  | leaf p => intro inv hp hf hm; exact simplePred_total ht hp hf hm
  | not e ih => intro inv hp hf hm; exact ih hp hf hm
  | and l r ihl ihr | or l r ihl ihr =>
    intro inv hp hf hm
    obtain ⟨a, h1, h2⟩ := ihl (inv := inv) hp.1 hf.1 hm.1
    obtain ⟨b, h3, h4⟩ := ihr (inv := inv) hp.2 hf.2 hm.2
    simp only [simpleBound, h1, h3]
    exact unionSimple_total h2 h4

theorem widenDomain_total {cfg : Config} {d : Domain} {b : SBound} (hd : BoundOK d.bound) (hb : OfKind d.bound.ty.kind b) :
    ∃ d', widenDomain cfg d b = .ok d' := by
  obtain ⟨a, ⟨ty, lo, hi⟩, u⟩ := d
  obtain ⟨blo, bhi⟩ := b
  obtain ⟨hb1, hb2⟩ := hb
  cases ty <;> simp only [BoundOK] at hd <;> simp only [VType.kind] at hb1 hb2 <;> simp only [widenDomain]
  · exact ⟨_, rfl⟩
  all_goals first
    | (obtain ⟨y, rfl, rfl, _⟩ := hd
       exact ⟨_, rfl⟩)
    | (obtain ⟨x, y, rfl, rfl, _⟩ := hd
       cases blo <;> cases bhi <;> first | (cases hb1; done) | (cases hb2; done) | exact ⟨_, rfl⟩)

theorem changeDomains_total {cfg : Config} {e : Expr} (hp : e.All (TypedPred cfg)) (hf : e.All FullList) (hm : Moderate e) :
    ∀ {ds : List Domain}, (∀ d ∈ ds, BoundOK d.bound ∧ tyAt cfg d.attr.var = some d.bound.ty) → ∃ r, changeDomains cfg e ds = .ok r := by
  intro ds
  induction ds with
  | nil => intro _; exact ⟨_, rfl⟩
  | cons d ds ih =>
    intro h
    obtain ⟨ds', h2⟩ := ih fun d hd => h d (List.mem_cons_of_mem _ hd)
    have h1 : ∃ d', changeDomain cfg e d = .ok d' := by
      obtain ⟨hok, hty⟩ := h d List.mem_cons_self
      obtain ⟨r, hr, hk⟩ := simpleBound_total hty (inv := false) hp hf hm
      unfold changeDomain
      rw [hr]
      split
      · exact ⟨_, rfl⟩
      · exact ⟨_, rfl⟩
      · exact ⟨_, rfl⟩
      · cases r with
        | none => exact ⟨_, rfl⟩
        | some b => exact widenDomain_total hok (hk b rfl)
    obtain ⟨d', h1⟩ := h1
    simp only [changeDomains, h1, h2]
    exact ⟨_, rfl⟩

theorem changeBoundaries_total {cfg : Config} {e : Expr} (hc : CfgOK cfg) (hp : e.All (TypedPred cfg)) (hf : e.All FullList)
    (hm : Moderate e) : ∃ r, BeTree.changeBoundaries cfg e = .ok r := by
  unfold BeTree.changeBoundaries
  obtain ⟨r, hr⟩ := changeDomains_total hp hf hm (ds := cfg.domains) (by
    intro d hd
    obtain ⟨i, hi⟩ := List.getElem?_of_mem hd
    have := hc.doms i d hi
    exact ⟨this.ok, by rw [this.var]; simp [tyAt, hi]⟩)
  rw [hr]
  exact ⟨_, rfl⟩

end BeTree
