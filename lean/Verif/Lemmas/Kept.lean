import Verif.Lemmas.Static
import Verif.Lemmas.InsertWorld
/-
Expressions that compare a float attribute with numbers between its limits leave the limits as they are.
-/
namespace BeTree
open Spec

/-! ### the numbers asked for survive the preparation of an expression -/

theorem asks_mk {K : AttrVar → Rat → Prop} {odd : Bool} {l r : Expr} (hl : Asks K odd l) (hr : Asks K odd r) :
    Asks K odd (mkAnd l r) ∧ Asks K odd (mkOr l r) := by
  unfold mkAnd mkOr
  constructor <;> split <;> first | exact ⟨hl, hr⟩ | exact ⟨hr, hl⟩

theorem asks_parse {K : AttrVar → Rat → Prop} {e : Expr} : ∀ {odd : Bool}, Asks K odd e → Asks K odd (parseBuild e) := by
  induction e with
  | leaf p => intro odd h; exact h
  | not e ih => intro odd h; exact ih (odd := !odd) h
  | and l r ihl ihr => intro odd h; exact (asks_mk (ihl h.1) (ihr h.2)).1
  | or l r ihl ihr => intro odd h; exact (asks_mk (ihl h.1) (ihr h.2)).2

theorem asks_assignVar {K K' : AttrVar → Rat → Prop} {cfg : Config} (hK : ∀ v x, K v x → K' (resolveVar cfg v) x) {e : Expr} :
    ∀ {odd : Bool}, Asks K odd e → Asks K' odd (assignVar cfg e) := by
  induction e with
  | leaf p =>
    intro odd h
    cases p with
    | compare op v c => cases c <;> exact hK _ _ h
    | equality op v c => cases c <;> first | exact hK _ _ h | trivial
    | set op l r => cases l <;> cases r <;> trivial
    | list op v c => cases c <;> trivial
    | _ => trivial
  | not e ih => intro odd h; exact ih (odd := !odd) h
  | and l r ihl ihr | or l r ihl ihr => intro odd h; exact ⟨ihl h.1, ihr h.2⟩

theorem asks_assignStr {K : AttrVar → Rat → Prop} {al : Bool} {e : Expr} : ∀ {odd : Bool} {cfg cfg' : Config} {e' : Expr}, Asks K odd e →
    assignStr cfg al e = .ok (e', cfg') → Asks K odd e' := by
  induction e with
  | leaf p =>
    intro odd cfg cfg' e' hm h
    rw [assignStr] at h
    split at h
    · cases h
    · rename_i h1
      cases h
      unfold assignStrPred at h1
      repeat' split at h1
      all_goals first
        | (cases h1; done)
        | (cases h1; trivial)
        | (cases h1; exact hm)
  | not e ih =>
    intro odd cfg cfg' e' hm h
    rw [assignStr] at h
    split at h
    · cases h
    · rename_i h1; cases h; have := ih (odd := !odd) hm h1; exact this
  | and l r ihl ihr | or l r ihl ihr =>
    intro odd cfg cfg' e' hm h
    rw [assignStr] at h
    split at h
    · cases h
    · rename_i h1
      split at h
      · cases h
      · rename_i h2; cases h; exact ⟨ihl hm.1 h1, ihr hm.2 h2⟩

theorem asks_assignIenum {K : AttrVar → Rat → Prop} {al : Bool} {e : Expr} : ∀ {odd : Bool} {cfg cfg' : Config} {e' : Expr}, Asks K odd e →
    assignIenum cfg al e = .ok (e', cfg') → Asks K odd e' := by
  induction e with
  | leaf p =>
    intro odd cfg cfg' e' hm h
    rw [assignIenum] at h
    split at h
    · cases h
    · rename_i h1
      cases h
      unfold assignIenumPred at h1
      repeat' split at h1
      all_goals first
        | (cases h1; done)
        | (cases h1; exact hm)
        | (cases h1; trivial)
  | not e ih =>
    intro odd cfg cfg' e' hm h
    rw [assignIenum] at h
    split at h
    · cases h
    · rename_i h1; cases h; have := ih (odd := !odd) hm h1; exact this
  | and l r ihl ihr | or l r ihl ihr =>
    intro odd cfg cfg' e' hm h
    rw [assignIenum] at h
    split at h
    · cases h
    · rename_i h1
      split at h
      · cases h
      · rename_i h2; cases h; exact ⟨ihl hm.1 h1, ihr hm.2 h2⟩

theorem asks_fixFloat {K : AttrVar → Rat → Prop} {cfg : Config} {e : Expr} : ∀ {odd : Bool} {e' : Expr}, Asks K odd e →
    fixFloat cfg e = .ok e' → Asks K odd e' := by
  induction e with
  | leaf p =>
    intro odd e' hm h
    rw [fixFloat] at h
    split at h
    · cases h
    · rename_i h1
      cases h
      cases p with
      | compare op v c =>
        simp only [fixFloatPred] at h1
        split at h1
        · cases h1
        · cases c with
          | int i =>
            simp only at h1
            cases h1
            split <;> exact hm
          | float f => cases h1; exact hm
      | equality op v c =>
        simp only [fixFloatPred] at h1
        split at h1
        · cases h1
        · cases c with
          | int i =>
            simp only at h1
            cases h1
            split <;> exact hm
          | float f => cases h1; exact hm
          | string s => cases h1; trivial
          | intEnum s => cases h1; trivial
      | _ => cases h1; trivial
  | not e ih =>
    intro odd e' hm h
    rw [fixFloat] at h
    split at h
    · cases h
    · rename_i h1; cases h; have := ih (odd := !odd) hm h1; exact this
  | and l r ihl ihr | or l r ihl ihr =>
    intro odd e' hm h
    rw [fixFloat] at h
    split at h
    · cases h
    · rename_i h1
      split at h
      · cases h
      · rename_i h2
        cases h
        exact ⟨ihl hm.1 h1, ihr hm.2 h2⟩

theorem asks_assignConstants {K : AttrVar → Rat → Prop} {cs : List Constant} {e : Expr} : ∀ {odd : Bool} {e' : Expr}, Asks K odd e →
    assignConstants cs e = some e' → Asks K odd e' := by
  induction e with
  | leaf p =>
    intro odd e' hm h
    simp only [assignConstants, Option.map_eq_some_iff] at h
    obtain ⟨q, hq, rfl⟩ := h
    cases p with
    | freq f =>
      simp only [assignConstantsPred] at hq
      repeat' split at hq
      all_goals first | (cases hq; done) | (cases hq; trivial)
    | _ => cases hq; exact hm
  | not e ih =>
    intro odd e' hm h
    simp only [assignConstants, Option.map_eq_some_iff] at h
    obtain ⟨q, hq, rfl⟩ := h
    have := ih (odd := !odd) hm hq; exact this
  | and l r ihl ihr | or l r ihl ihr =>
    intro odd e' hm h
    simp only [assignConstants] at h
    split at h
    · rename_i h1 h2
      cases h
      exact ⟨ihl hm.1 h1, ihr hm.2 h2⟩
    · cases h

theorem asks_sortLists {K : AttrVar → Rat → Prop} {e : Expr} : ∀ {odd : Bool}, Asks K odd e → Asks K odd (sortLists e) := by
  induction e with
  | leaf p =>
    intro odd hm
    cases p with
    | set op l r => cases l <;> cases r <;> trivial
    | list op v c => cases c <;> trivial
    | _ => exact hm
  | not e ih => intro odd hm; exact ih (odd := !odd) hm
  | and l r ihl ihr | or l r ihl ihr => intro odd hm; exact ⟨ihl hm.1, ihr hm.2⟩

/-! ### the limits stay -/

/-- the ends of the interval that are floats are in `Q` -/
def SBound.FloatsIn (Q : Rat → Prop) (b : SBound) : Prop := (∀ x, b.lo = .f x → Q x) ∧ (∀ x, b.hi = .f x → Q x)

theorem SBound.floatsIn_point {Q : Rat → Prop} {s : Scalar} (h : ∀ x, s = .f x → Q x) : (SBound.point s).FloatsIn Q := ⟨h, h⟩

theorem firstLastS_floats {α : Type} {Q : Rat → Prop} {f : α → Scalar} {l : List α} {b : SBound} (hf : ∀ x y, f x ≠ .f y)
    (h : firstLastS f l = .ok b) : b.FloatsIn Q := by
  cases l with
  | nil => cases h
  | cons x xs => cases h; exact ⟨fun y hy => absurd hy (hf _ _), fun y hy => absurd hy (hf _ _)⟩

theorem simplePred_asks {Q : Rat → Prop} {var : Nat} {inv : Bool} {p : Pred} {b : SBound}
    (hm : Asks (fun v x => v.var = var → Q x) inv (.leaf p)) (h : simplePred var inv p = .ok (some b)) : b.FloatsIn Q := by
  cases p with
  | compare op v c =>
    simp only [simplePred] at h
    split at h
    · rename_i hv
      obtain ⟨x, hx, h2⟩ := map_ok h
      cases h2
      unfold compareSimple at hx
      dsimp only at hx
      cases c with
      | int i =>
        dsimp only at hx
        split at hx <;> first
          | (cases hx; exact SBound.floatsIn_point fun y hy => by cases hy)
          | (obtain ⟨z, _, rfl⟩ := map_ok hx; exact SBound.floatsIn_point fun y hy => by cases hy)
      | float f =>
        have hq := hm hv
        cases op <;> cases inv <;>
          simp only [CmpOp.invert, if_true, Bool.false_eq_true, if_false, Except.ok.injEq] at hx <;> subst hx <;>
          exact SBound.floatsIn_point fun y hy => by cases hy; exact hq
    · cases h
  | equality op v c =>
    simp only [simplePred] at h
    split at h
    · rename_i hv
      cases h
      cases c with
      | float k => exact SBound.floatsIn_point fun y hy => by cases hy; exact hm hv
      | _ => exact SBound.floatsIn_point fun y hy => by cases hy
    · cases h
  | boolVar v =>
    simp only [simplePred] at h
    split at h <;> cases h
    exact SBound.floatsIn_point fun y hy => by cases hy
  | boolLit _ => cases h
  | set op l r =>
    simp only [simplePred] at h
    split at h
    · obtain ⟨x, hx, h2⟩ := map_ok h
      cases h2
      cases l with
      | var v =>
        cases r with
        | intList l => exact firstLastS_floats (fun _ _ h => by cases h) hx
        | strList l => exact firstLastS_floats (fun _ _ h => by cases h) hx
        | var w => cases hx
      | int i => cases r <;> cases hx <;> exact SBound.floatsIn_point fun y hy => by cases hy
      | string s => cases r <;> cases hx <;> exact SBound.floatsIn_point fun y hy => by cases hy
    · cases h
  | list op v c =>
    simp only [simplePred] at h
    split at h
    · obtain ⟨x, hx, h2⟩ := map_ok h
      cases h2
      cases c with
      | intList l => exact firstLastS_floats (fun _ _ h => by cases h) hx
      | strList l => exact firstLastS_floats (fun _ _ h => by cases h) hx
    · cases h
  | _ => cases h

theorem Scalar.min_floats {Q : Rat → Prop} {a b : Scalar} (ha : ∀ x, a = .f x → Q x) (hb : ∀ x, b = .f x → Q x) :
    ∀ x, a.min b = .f x → Q x := by
  intro x hx
  cases a <;> cases b <;> simp only [Scalar.min] at hx <;> try exact ha _ hx
  all_goals
    first
      | (split at hx <;> first | exact ha _ hx | exact hb _ hx)
      | exact ha _ hx
      | (cases hx; done)

theorem Scalar.max_floats {Q : Rat → Prop} {a b : Scalar} (ha : ∀ x, a = .f x → Q x) (hb : ∀ x, b = .f x → Q x) :
    ∀ x, a.max b = .f x → Q x := by
  intro x hx
  cases a <;> cases b <;> simp only [Scalar.max] at hx <;> try exact ha _ hx
  all_goals
    first
      | (split at hx <;> first | exact ha _ hx | exact hb _ hx)
      | exact ha _ hx
      | (cases hx; done)

theorem simpleBound_asks {Q : Rat → Prop} {var : Nat} {e : Expr} : ∀ {inv : Bool} {b : SBound},
    Asks (fun v x => v.var = var → Q x) inv e → simpleBound var inv e = .ok (some b) → b.FloatsIn Q := by
  induction e with
  | leaf p => intro inv b hm h; exact simplePred_asks hm h
  | not e ih => intro inv b hm h; exact ih (inv := !inv) hm h
  | and l r ihl ihr | or l r ihl ihr =>
    intro inv b hm h
    simp only [simpleBound] at h
    split at h
    · cases h
    · rename_i x hx
      split at h
      · cases h
      · rename_i y hy
        cases x with
        | none =>
          cases y with
          | none => cases h
          | some y => cases h; exact ihr hm.2 hy
        | some x =>
          cases y with
          | none => cases h; exact ihl hm.1 hx
          | some y =>
            have h1 := ihl hm.1 hx
            have h2 := ihr hm.2 hy
            simp only [unionSimple] at h
            split at h
            · cases h; exact ⟨Scalar.min_floats h1.1 h2.1, Scalar.max_floats h1.2 h2.2⟩
            · cases h

/-- a float domain with limits that the numbers keep to is left as it is -/
theorem changeDomain_kept {cfg : Config} {e : Expr} {d d' : Domain} {a c : Rat} (hd : d.bound = ⟨.float, .f a, .f c⟩)
    (hK : Asks (fun v x => v.var = d.attr.var → Limited d.bound ∧ a ≤ x ∧ x ≤ c) false e) (h : changeDomain cfg e d = .ok d') : d' = d := by
  unfold changeDomain at h
  rw [show d.bound.ty = .float by rw [hd]] at h
  dsimp only at h
  split at h
  · cases h
  · cases h; rfl
  · rename_i b hb
    have hq := simpleBound_asks (Q := fun x => Limited d.bound ∧ a ≤ x ∧ x ≤ c) hK hb
    obtain ⟨at', bd, al⟩ := d
    dsimp only at hd
    subst hd
    unfold widenDomain at h
    dsimp only at h
    split at h
    · rename_i dlo dhi lo hi e1 e2 e3 e4
      cases h
      cases e1; cases e2
      obtain ⟨hl, q1, -⟩ := hq.1 lo e3
      obtain ⟨-, -, q2⟩ := hq.2 hi e4
      have f1 : fne a (-dblMax) = true := fne_iff.2 hl.low
      have f2 : fne c dblMax = true := fne_iff.2 hl.high
      simp only [f1, f2, if_true, if_neg (not_lt.2 q1), gt_iff_lt, if_neg (not_lt.2 q2)]
    · cases h

theorem changeDomains_at {cfg : Config} {e : Expr} : ∀ {ds ds' : List Domain}, changeDomains cfg e ds = .ok ds' → ∀ {j : Nat} {d : Domain},
    ds[j]? = some d → ∃ d', changeDomain cfg e d = .ok d' ∧ ds'[j]? = some d' := by
  intro ds
  induction ds with
  | nil => intro ds' _ j d hd; simp at hd
  | cons x ds ih =>
    intro ds' h j d hd
    rw [changeDomains] at h
    split at h
    · cases h
    · rename_i d1 h1
      split at h
      · cases h
      · rename_i ds1 h2
        cases h
        cases j with
        | zero => simp only [List.getElem?_cons_zero, Option.some.injEq] at hd; subst hd; exact ⟨d1, h1, rfl⟩
        | succ j =>
          rw [List.getElem?_cons_succ] at hd
          obtain ⟨d', h3, h4⟩ := ih h2 hd
          exact ⟨d', h3, by rw [List.getElem?_cons_succ]; exact h4⟩

theorem changeBoundaries_kept {cfg cfg' : Config} {e : Expr} {j : Nat} {d : Domain} {a c : Rat} (hj : cfg.domains[j]? = some d)
    (hv : d.attr.var = j) (hd : d.bound = ⟨.float, .f a, .f c⟩)
    (hK : Asks (fun v x => v.var = j → Limited d.bound ∧ a ≤ x ∧ x ≤ c) false e)
    (h : BeTree.changeBoundaries cfg e = .ok cfg') : cfg'.domains[j]? = some d := by
  unfold BeTree.changeBoundaries at h
  split at h
  · cases h
  · rename_i ds hds
    cases h
    obtain ⟨d', h1, h2⟩ := changeDomains_at hds hj
    rw [changeDomain_kept hd (by rw [hv]; exact hK) h1] at h2
    exact h2

/-! ### the two calls that change limits -/

theorem makeSub_kept {t t' : Tree} {id : Nat} {cs : List Constant} {e : Expr} {o : Option Sub} (h : t.makeSub id cs e = .ok (o, t'))
    {j : Nat} {d : Domain} {a c : Rat} (hj : t.cfg.domains[j]? = some d) (hv : d.attr.var = j) (hd : d.bound = ⟨.float, .f a, .f c⟩)
    (hK : Asks (fun v x => (resolveVar t.cfg v).var = j → Limited d.bound ∧ a ≤ x ∧ x ≤ c) false e) : t'.cfg.domains[j]? = some d := by
  unfold Tree.makeSub at h
  dsimp only at h
  split at h
  · cases h
  · cases h; exact hj
  · split at h
    · cases h
    · rename_i e1 c1 h1
      split at h
      · cases h
      · rename_i e2 c2 h2
        have hd2 : c2.domains = t.cfg.domains := (assignIenum_grow h2).base.domains.trans (assignStr_grow h1).base.domains
        split at h
        · cases h
        · rename_i e3 h3
          split at h
          · cases h
          · cases h; rw [hd2]; exact hj
          · split at h
            · cases h; rw [hd2]; exact hj
            · rename_i e4 h4
              split at h
              · cases h
              · rename_i c5 h5
                split at h
                · cases h
                · rename_i h6
                  cases h
                  obtain ⟨g6, d6⟩ := finishSub_maps h6
                  rw [d6]
                  refine changeBoundaries_kept (by rw [hd2]; exact hj) hv hd ?_ h5
                  exact asks_sortLists (asks_assignConstants (asks_fixFloat (asks_assignIenum (asks_assignStr
                    (asks_assignVar (fun v x hk => hk) hK) h1) h2) h3) h4)

theorem changeBoundaries_api_kept {t t' : Tree} {e : Expr} (h : t.changeBoundaries e = .ok t')
    {j : Nat} {d : Domain} {a c : Rat} (hj : t.cfg.domains[j]? = some d) (hv : d.attr.var = j) (hd : d.bound = ⟨.float, .f a, .f c⟩)
    (hK : Asks (fun v x => (resolveVar t.cfg v).var = j → Limited d.bound ∧ a ≤ x ∧ x ≤ c) false e) : t'.cfg.domains[j]? = some d := by
  unfold Tree.changeBoundaries at h
  split at h
  · cases h
  · rename_i e1 c1 h1
    split at h
    · cases h
    · rename_i e2 c2 h2
      have hd2 : c2.domains = t.cfg.domains := (assignIenum_grow h2).base.domains.trans (assignStr_grow h1).base.domains
      split at h
      · cases h
      · rename_i e3 h3
        split at h
        · cases h
        · rename_i c5 h5
          cases h
          refine changeBoundaries_kept (by rw [hd2]; exact hj) hv hd ?_ h5
          exact asks_fixFloat (asks_sortLists (asks_assignIenum (asks_assignStr
            (asks_assignVar (fun v x hk => hk) hK) h1) h2)) h3

/-! ### the limits the first configuration has -/

theorem asks_mono {K K' : AttrVar → Rat → Prop} (hK : ∀ v x, K v x → K' v x) {e : Expr} :
    ∀ {odd : Bool}, Asks K odd e → Asks K' odd e := by
  induction e with
  | leaf p =>
    intro odd h
    cases p with
    | compare op v c => cases c <;> exact hK _ _ h
    | equality op v c => cases c <;> first | exact hK _ _ h | trivial
    | _ => trivial
  | not e ih => intro odd h; exact ih (odd := !odd) h
  | and l r ihl ihr | or l r ihl ihr => intro odd h; exact ⟨ihl h.1, ihr h.2⟩

/-- the attribute is one of the float attributes in `kept`, and the tree can cope with its limits if it has limits -/
def KeptAt (kept : Str → Prop) (ds : List Domain) (j : Nat) : Prop :=
  ∃ d : Domain, ds[j]? = some d ∧ kept d.attr.attr ∧ d.bound.ty = .float ∧ (Limited d.bound → d.bound.Copes)

/-- the float attributes in `kept` are as they were in `ds` -/
def KeptSame (kept : Str → Prop) (ds : List Domain) (cfg : Config) : Prop :=
  ∀ (j : Nat) (d : Domain), ds[j]? = some d → kept d.attr.attr → d.bound.ty = .float → cfg.domains[j]? = some d

theorem KeptSame.copes {kept : Str → Prop} {ds : List Domain} {cfg : Config} (h : KeptSame kept ds cfg) : CopesDoms (KeptAt kept ds) cfg := by
  rintro j d ⟨d0, h1, h2, h3, h4⟩ hd hl
  have := h j d0 h1 h2 h3
  rw [hd] at this
  cases this
  exact h4 hl

theorem ext_at {a b : Config} (h : CfgExt a b) {j : Nat} {d : Domain} (hd : b.domains[j]? = some d) :
    ∃ d0 : Domain, a.domains[j]? = some d0 ∧ d0.attr = d.attr ∧ d0.bound.ty = d.bound.ty := by
  have := congrArg (fun l => l[j]?) h.doms
  simp only [List.getElem?_map, hd, Option.map_some] at this
  obtain ⟨d0, h1, h2⟩ := Option.map_eq_some_iff.1 this.symm
  simp only [Prod.mk.injEq] at h2
  exact ⟨d0, h1, h2.1, h2.2.1⟩

theorem floatsKept_in {kept : Str → Prop} {a b : Config} (h : CfgExt a b) (hlen : a.domains.length < invalidId) {e : Expr}
    (he : FloatsKept kept a.domains e) : FloatsIn (KeptAt kept a.domains) b e := by
  intro n hn d hd hl ht
  obtain ⟨d0, h1, h2, h3⟩ := ext_at h hd
  rw [tryGetId_ext h] at h1
  have hf := find_domain hlen h1
  rw [← tryGetId_ext h] at h1
  refine ⟨d0, h1, ?_, by rw [h3, ht], fun hl a c hb => he.2 n hn d0 hf hl a c hb⟩
  have : d0.attr.attr = n.map Char.toLower := by simpa using List.find?_some hf
  rw [this]
  exact he.1 n hn (by simp only [declaredType, hf, Option.map_some, h3, ht])

theorem keeps_asks {kept : Str → Prop} {a b : Config} (h : CfgExt a b) (hlen : a.domains.length < invalidId) {e : Expr}
    (he : Keeps kept a.domains e) {j : Nat} {d : Domain} {x y : Rat} (hj : a.domains[j]? = some d) (hk : kept d.attr.attr)
    (hd : d.bound = ⟨.float, .f x, .f y⟩) :
    Asks (fun v z => (resolveVar b v).var = j → Limited d.bound ∧ x ≤ z ∧ z ≤ y) false (parseBuild e) := by
  refine asks_parse (asks_mono (fun v z hv hr => ?_) he)
  have hr : tryGetIdForAttr a v.attr = j := by rw [← tryGetId_ext h]; exact hr
  have hf := find_domain hlen (n := v.attr) (d := d) (by rw [hr]; exact hj)
  have : d.attr.attr = v.attr.map Char.toLower := by simpa using List.find?_some hf
  obtain ⟨h1, h2⟩ := hv (by rw [← this]; exact hk) d hf (by rw [hd])
  exact ⟨h1, h2 x y hd⟩

theorem asks_all {K : AttrVar → Rat → Prop} (hK : ∀ v x, K v x) {e : Expr} : ∀ {odd : Bool}, Asks K odd e := by
  induction e with
  | leaf p =>
    intro odd
    cases p with
    | compare op v c => cases c <;> exact hK _ _
    | equality op v c => cases c <;> first | exact hK _ _ | trivial
    | _ => trivial
  | not e ih => intro odd; exact ih (odd := !odd)
  | and l r ihl ihr | or l r ihl ihr => intro odd; exact ⟨ihl, ihr⟩

theorem keeps_none {ds : List Domain} {e : Expr} : Keeps (fun _ => False) ds e := asks_all fun _ _ h => h.elim

theorem noFloat_kept {kept : Str → Prop} {ds : List Domain} {e : Expr} (h : NoFloat ds e) : FloatsKept kept ds e :=
  ⟨fun n hn ht => absurd ht (h n hn), fun n hn d hd _ a b hb => absurd (by simp only [declaredType, hd, Option.map_some, hb]) (h n hn)⟩

end BeTree
