import Verif.Lemmas.AllIds
import Verif.Props.Accept
/-
When the passes over an expression do not fault.
-/
namespace BeTree
open Spec
variable [Floats]

/-- the id of the variable is that of a domain -/
def InDom (ds : List Domain) (v : AttrVar) : Prop := v.var < ds.length

/-- variables have ids of domains, and `in` has a variable -/
def WfPred (ds : List Domain) : Pred → Prop
  | .compare _ v _ => InDom ds v
  | .equality _ v _ => InDom ds v
  | .boolVar v => InDom ds v
  | .boolLit _ => True
  | .set _ (.var v) (.intList _) => InDom ds v
  | .set _ (.var v) (.strList _) => InDom ds v
  | .set _ (.int _) (.var v) => InDom ds v
  | .set _ (.string _) (.var v) => InDom ds v
  | .set _ (.var v) (.var _) => InDom ds v
  | .set _ _ _ => False
  | .list _ v _ => InDom ds v
  | .freq f => InDom ds f.attr ∧ InDom ds f.now
  | .segment s => InDom ds s.attr ∧ InDom ds s.now
  | .geo g => InDom ds g.latVar ∧ InDom ds g.lonVar
  | .str s => InDom ds s.attr
  | .isNull _ v => InDom ds v

omit [Floats] in
theorem getDomain_inDom {cfg : Config} {v : AttrVar} (h : InDom cfg.domains v) : ∃ d, getDomain cfg v.var = .ok d := by
  unfold getDomain InDom at *
  rw [List.getElem?_eq_getElem h]
  exact ⟨_, rfl⟩

omit [Floats] in
theorem inDom_of_known {cfg : Config} {v v' : AttrVar} (hv : v'.var = tryGetIdForAttr cfg v.attr) (h : Known cfg.domains v) :
    InDom cfg.domains v' := by
  obtain ⟨t, ht⟩ := h
  obtain ⟨d, hd, _⟩ := declaredType_domain ht
  have h5 := domain_of_id hd
  unfold InDom
  rw [hv]
  rcases Nat.lt_or_ge (tryGetIdForAttr cfg v.attr) cfg.domains.length with h | h
  · exact h
  · rw [List.getElem?_eq_none h] at h5; cases h5

omit [Floats] in
theorem inDom_of_valid {cfg : Config} (hlen : cfg.domains.length < invalidId) {v : AttrVar} (h : varValid (resolveVar cfg v) = true) :
    InDom cfg.domains (resolveVar cfg v) :=
  inDom_of_known rfl ((varValid_iff hlen rfl).1 h)

/-- one side of `in` is an attribute -/
def GoodForm : Pred → Prop
  | .set _ (.var _) _ => True
  | .set _ _ (.var _) => True
  | .set _ _ _ => False
  | _ => True

/-- the attributes of geo functions are declared -/
def GeoKnown (ds : List Domain) : Pred → Prop
  | .geo g => Known ds g.latVar ∧ Known ds g.lonVar
  | _ => True

omit [Floats] in
theorem varsInConfig_total {cfg : Config} {e : Expr} (h : e.All GoodForm) : ∃ b, varsInConfig (assignVar cfg e) = .ok b := by
  induction e with
  | leaf p =>
    cases p with
    | set op l r =>
      cases l <;> cases r <;> first | exact h.elim | exact ⟨_, rfl⟩
    | _ => exact ⟨_, rfl⟩
  | not e ih => exact ih h
  | and l r ihl ihr | or l r ihl ihr =>
    obtain ⟨a, ha⟩ := ihl h.1
    obtain ⟨b, hb⟩ := ihr h.2
    simp only [assignVar, varsInConfig, ha, hb, andThen]
    cases a <;> exact ⟨_, rfl⟩

omit [Floats] in
theorem varsInConfig_wf {cfg : Config} (hlen : cfg.domains.length < invalidId) {e : Expr} (hg : e.All GoodForm)
    (hk : e.All (GeoKnown cfg.domains)) (h : varsInConfig (assignVar cfg e) = .ok true) :
    (assignVar cfg e).All (WfPred cfg.domains) := by
  induction e with
  | leaf p =>
    simp only [assignVar, varsInConfig] at h
    show WfPred _ (assignVarPred cfg p)
    cases p with
    | set op l r =>
      cases l <;> cases r <;> first | exact hg.elim | skip
      all_goals
        simp only [assignVarPred, varsInConfigPred, Except.ok.injEq] at h
        exact inDom_of_valid hlen h
    | freq f | segment f =>
      simp only [assignVarPred, varsInConfigPred, Except.ok.injEq, Bool.and_eq_true] at h
      exact ⟨inDom_of_valid hlen h.1, inDom_of_valid hlen h.2⟩
    | geo g => exact ⟨inDom_of_known rfl hk.1, inDom_of_known rfl hk.2⟩
    | boolLit b => trivial
    | _ =>
      simp only [assignVarPred, varsInConfigPred, Except.ok.injEq] at h
      exact inDom_of_valid hlen h
  | not e ih => exact ih hg hk h
  | and l r ihl ihr | or l r ihl ihr =>
    obtain ⟨h1, h2⟩ := andThen_true h
    exact ⟨ihl hg.1 hk.1 h1, ihr hg.2 hk.2 h2⟩

/-! ### interning -/

omit [Floats] in
theorem strMapGet_total {maps : List StringMap} {m : StringMap} {s : Str} (h : m.values ≠ []) : ∃ r, strMapGet maps m s = .ok r := by
  unfold strMapGet; rw [if_neg (fun hx => h hx.1)]; exact ⟨_, rfl⟩

theorem smax_total {b : Bound} (h : BoundOK b) (hk : b.ty.kind = .s) : ∃ n, b.smax = .ok n := by
  have := h.kind.2
  rw [hk] at this
  unfold Bound.smax
  cases hb : b.hi <;> rw [hb] at this <;> first | (cases this; done) | exact ⟨_, rfl⟩

/-- room for the "no more ids" test to be read: always assign, or a variable whose domain counts ids -/
def Counts (cfg : Config) (al : Bool) (v : AttrVar) : Prop := al = true ∨ ∃ t, tyAt cfg v.var = some t ∧ t.kind = .s

theorem Counts.smax {cfg : Config} {al : Bool} {v : AttrVar} (hc : CfgOK cfg) (h : Counts cfg al v) (ha : al = false) {d : Domain}
    (hd : getDomain cfg v.var = .ok d) : ∃ n, d.bound.smax = .ok n := by
  rcases h with h | ⟨t, ht, hk⟩
  · rw [ha] at h; cases h
  · rw [tyAt_getDomain (CfgExt.refl _) hd] at ht
    cases ht
    exact smax_total (hc.doms _ _ (domain_of_id hd)).ok hk

theorem addStrId_total {cfg : Config} {v : AttrVar} {s : Str} {al : Bool} {maps : List StringMap} {n : Nat} (hc : CfgOK cfg)
    (hv : InDom cfg.domains v) (hk : Counts cfg al v) : ∃ r, addStrId cfg v s al maps n = .ok r := by
  obtain ⟨d, hd⟩ := getDomain_inDom hv
  unfold addStrId
  simp only [hd]
  cases al with
  | true => exact ⟨_, rfl⟩
  | false =>
    obtain ⟨m, hm⟩ := hk.smax hc rfl hd
    simp only [hm]
    split
    · rename_i h; cases h
    · split <;> exact ⟨_, rfl⟩

theorem addIntId_total {cfg : Config} {v : AttrVar} {s : Int} {al : Bool} {maps : List IntMap} {n : Nat} (hc : CfgOK cfg)
    (hv : InDom cfg.domains v) (hk : Counts cfg al v) : ∃ r, addIntId cfg v s al maps n = .ok r := by
  obtain ⟨d, hd⟩ := getDomain_inDom hv
  unfold addIntId
  simp only [hd]
  cases al with
  | true => exact ⟨_, rfl⟩
  | false =>
    obtain ⟨m, hm⟩ := hk.smax hc rfl hd
    simp only [hm]
    split
    · rename_i h; cases h
    · split <;> exact ⟨_, rfl⟩

theorem getIdForString_total {cfg : Config} {v : AttrVar} {s : Str} {al : Bool} (hc : CfgOK cfg)
    (hv : InDom cfg.domains v) (hk : Counts cfg al v) : ∃ r, getIdForString cfg v s al = .ok r := by
  unfold getIdForString
  split
  · rename_i m hm
    obtain ⟨r, hr⟩ := strMapGet_total (s := s) (hc.strs m (List.mem_of_find?_eq_some hm))
    rw [hr]
    cases r with
    | some j => exact ⟨_, rfl⟩
    | none => exact addStrId_total hc hv hk
  · exact addStrId_total hc hv hk

theorem getIdForIenum_total {cfg : Config} {v : AttrVar} {s : Int} {al : Bool} (hc : CfgOK cfg)
    (hv : InDom cfg.domains v) (hk : Counts cfg al v) : ∃ r, getIdForIenum cfg v s al = .ok r := by
  unfold getIdForIenum
  split
  · split
    · exact ⟨_, rfl⟩
    · exact addIntId_total hc hv hk
  · exact addIntId_total hc hv hk

omit [Floats] in
theorem Counts.ext {a b : Config} {al : Bool} {v : AttrVar} (h : CfgExt a b) (k : Counts a al v) : Counts b al v :=
  k.imp id fun ⟨t, h1, h2⟩ => ⟨t, by rw [tyAt_ext h]; exact h1, h2⟩

theorem assignStrList_total {v : AttrVar} {al : Bool} : ∀ {l : List StrVal} {cfg : Config}, CfgOK cfg → InDom cfg.domains v →
    Counts cfg al v → ∃ r, assignStrList cfg v al l = .ok r := by
  intro l
  induction l with
  | nil => intro cfg _ _ _; exact ⟨_, rfl⟩
  | cons s ss ih =>
    intro cfg hc hv hk
    obtain ⟨⟨id, c1⟩, h1⟩ := getIdForString_total (s := s.string) hc hv hk
    have g := getIdForString_grow h1
    obtain ⟨⟨ss', c2⟩, h2⟩ := ih (getIdForString_cfgOK _ _ _ _ _ _ hc h1) (by rw [g.base.domains]; exact hv) (hk.ext g.ext)
    exact ⟨(s.resolve v id :: ss', c2), by simp only [assignStrList, h1, h2]⟩

/-- the variables whose table of strings is consulted for the constants of a predicate -/
def strVars : Pred → List AttrVar
  | .equality _ v (.string _) => [v]
  | .set _ (.string _) (.var v) => [v]
  | .set _ (.var v) (.strList _) => [v]
  | .list _ v (.strList _) => [v]
  | .freq f => [f.attr]
  | _ => []

theorem assignStr_total {al : Bool} {e : Expr} : ∀ {cfg : Config}, CfgOK cfg → e.All (WfPred cfg.domains) →
    e.All (fun p => ∀ v ∈ strVars p, Counts cfg al v) → ∃ r, assignStr cfg al e = .ok r := by
  induction e with
  | leaf p =>
    intro cfg hc hw hk
    have key : ∃ r, assignStrPred cfg al p = .ok r := by
      replace hw : WfPred cfg.domains p := hw
      replace hk : ∀ v ∈ strVars p, Counts cfg al v := hk
      cases p with
      | equality op v c =>
        cases c with
        | string s =>
          obtain ⟨r, hr⟩ := getIdForString_total (s := s.string) hc hw (hk v (by simp [strVars]))
          simp only [assignStrPred, hr]; exact ⟨_, rfl⟩
        | _ => exact ⟨_, rfl⟩
      | list op v c =>
        cases c with
        | strList s =>
          obtain ⟨r, hr⟩ := assignStrList_total (l := s) hc hw (hk v (by simp [strVars]))
          simp only [assignStrPred, hr]; exact ⟨_, rfl⟩
        | _ => exact ⟨_, rfl⟩
      | freq f =>
        obtain ⟨r, hr⟩ := getIdForString_total (s := f.ns.string) hc hw.1 (hk f.attr (by simp [strVars]))
        simp only [assignStrPred, hr]; exact ⟨_, rfl⟩
      | set op l r =>
        cases l <;> cases r <;> first | exact hw.elim | exact ⟨_, rfl⟩ | skip
        · rename_i s v
          obtain ⟨r, hr⟩ := getIdForString_total (s := s.string) hc hw (hk v (by simp [strVars]))
          simp only [assignStrPred, hr]; exact ⟨_, rfl⟩
        · rename_i v s
          obtain ⟨r, hr⟩ := assignStrList_total (l := s) hc hw (hk v (by simp [strVars]))
          simp only [assignStrPred, hr]; exact ⟨_, rfl⟩
      | _ => exact ⟨_, rfl⟩
    obtain ⟨r, hr⟩ := key
    simp only [assignStr, hr]
    exact ⟨_, rfl⟩
  | not e ih =>
    intro cfg hc hw hk
    obtain ⟨r, hr⟩ := ih hc hw hk
    simp only [assignStr, hr]
    exact ⟨_, rfl⟩
  | and l r ihl ihr | or l r ihl ihr =>
    intro cfg hc hw hk
    obtain ⟨⟨l', c1⟩, h1⟩ := ihl hc hw.1 hk.1
    have g := assignStr_grow h1
    obtain ⟨r', h2⟩ := ihr (assignStr_inv CfgOK getIdForString_cfgOK hc h1) (by rw [g.base.domains]; exact hw.2)
      (Expr.All.mono (fun p hp v hv => (hp v hv).ext g.ext) hk.2)
    simp only [assignStr, h1, h2]
    exact ⟨_, rfl⟩

theorem assignIenum_total {al : Bool} {e : Expr} : ∀ {cfg : Config}, CfgOK cfg → e.All (WfPred cfg.domains) →
    ∃ r, assignIenum cfg al e = .ok r := by
  induction e with
  | leaf p =>
    intro cfg hc hw
    have key : ∃ r, assignIenumPred cfg al p = .ok r := by
      replace hw : WfPred cfg.domains p := hw
      cases p with
      | equality op v c =>
        cases c with
        | int i =>
          have hw : InDom cfg.domains v := hw
          obtain ⟨d, hd⟩ := getDomain_inDom hw
          simp only [assignIenumPred, hd]
          split
          · rename_i ht
            obtain ⟨r, hr⟩ := getIdForIenum_total (s := i) (al := al) hc hw
              (.inr ⟨d.bound.ty, tyAt_getDomain (CfgExt.refl _) hd, by rw [ht]; rfl⟩)
            rw [hr]; exact ⟨_, rfl⟩
          · exact ⟨_, rfl⟩
        | _ => exact ⟨_, rfl⟩
      | _ => exact ⟨_, rfl⟩
    obtain ⟨r, hr⟩ := key
    simp only [assignIenum, hr]
    exact ⟨_, rfl⟩
  | not e ih =>
    intro cfg hc hw
    obtain ⟨r, hr⟩ := ih hc hw
    simp only [assignIenum, hr]
    exact ⟨_, rfl⟩
  | and l r ihl ihr | or l r ihl ihr =>
    intro cfg hc hw
    obtain ⟨⟨l', c1⟩, h1⟩ := ihl hc hw.1
    have g := assignIenum_grow h1
    obtain ⟨r', h2⟩ := ihr (assignIenum_inv CfgOK getIdForIenum_cfgOK hc h1) (by rw [g.base.domains]; exact hw.2)
    simp only [assignIenum, h1, h2]
    exact ⟨_, rfl⟩

omit [Floats] in
theorem fixFloat_total {cfg : Config} {e : Expr} (hw : e.All (WfPred cfg.domains)) : ∃ r, fixFloat cfg e = .ok r := by
  induction e with
  | leaf p =>
    have key : ∃ r, fixFloatPred cfg p = .ok r := by
      replace hw : WfPred cfg.domains p := hw
      cases p with
      | equality op v c | compare op v c =>
        have hw : InDom cfg.domains v := hw
        obtain ⟨d, hd⟩ := getDomain_inDom hw
        cases c <;> (simp only [fixFloatPred, hd]; exact ⟨_, rfl⟩)
      | _ => exact ⟨_, rfl⟩
    obtain ⟨r, hr⟩ := key
    simp only [fixFloat, hr]
    exact ⟨_, rfl⟩
  | not e ih =>
    obtain ⟨r, hr⟩ := ih hw
    simp only [fixFloat, hr]
    exact ⟨_, rfl⟩
  | and l r ihl ihr | or l r ihl ihr =>
    obtain ⟨l', h1⟩ := ihl hw.1
    obtain ⟨r', h2⟩ := ihr hw.2
    simp only [fixFloat, h1, h2]
    exact ⟨_, rfl⟩

omit [Floats] in
theorem exprsValid_total {cfg : Config} {e : Expr} (hw : e.All (WfPred cfg.domains)) : ∃ r, exprsValid cfg e = .ok r := by
  induction e with
  | leaf p =>
    show ∃ r, exprValidPred cfg p = .ok r
    replace hw : WfPred cfg.domains p := hw
    cases p with
    | equality op v c | compare op v c | list op v c | boolVar v | isNull op v =>
      have hw : InDom cfg.domains v := hw
      obtain ⟨d, hd⟩ := getDomain_inDom hw
      simp only [exprValidPred, hd]; exact ⟨_, rfl⟩
    | set op l r =>
      cases l <;> cases r <;> first | exact hw.elim | skip
      all_goals
        rename_i a b
        first
          | (have hw : InDom cfg.domains a := hw
             obtain ⟨d, hd⟩ := getDomain_inDom hw
             simp only [exprValidPred, hd]; exact ⟨_, rfl⟩)
          | (have hw : InDom cfg.domains b := hw
             obtain ⟨d, hd⟩ := getDomain_inDom hw
             simp only [exprValidPred, hd]; exact ⟨_, rfl⟩)
    | _ => exact ⟨_, rfl⟩
  | not e ih => exact ih hw
  | and l r ihl ihr | or l r ihl ihr =>
    obtain ⟨a, ha⟩ := ihl hw.1
    obtain ⟨b, hb⟩ := ihr hw.2
    simp only [exprsValid, ha, hb, andThen]
    cases a <;> exact ⟨_, rfl⟩

/-! ### well-formedness is kept by the passes -/

omit [Floats] in
theorem assignStrPred_wf {ds : List Domain} {a b : Config} {al : Bool} {p p' : Pred} (h : assignStrPred a al p = .ok (p', b))
    (hw : WfPred ds p) : WfPred ds p' := by
  unfold assignStrPred at h
  repeat' split at h
  all_goals first
    | (cases h; done)
    | (cases h; exact hw)

omit [Floats] in
theorem assignIenumPred_wf {ds : List Domain} {a b : Config} {al : Bool} {p p' : Pred} (h : assignIenumPred a al p = .ok (p', b))
    (hw : WfPred ds p) : WfPred ds p' := by
  unfold assignIenumPred at h
  repeat' split at h
  all_goals first
    | (cases h; done)
    | (cases h; exact hw)

omit [Floats] in
theorem fixFloatPred_wf {ds : List Domain} {a : Config} {p p' : Pred} (h : fixFloatPred a p = .ok p')
    (hw : WfPred ds p) : WfPred ds p' := by
  unfold fixFloatPred at h
  repeat' split at h
  all_goals first
    | (cases h; done)
    | (cases h; exact hw)

omit [Floats] in
theorem assignConstantsPred_wf {ds : List Domain} {cs : List Constant} {p p' : Pred} (h : assignConstantsPred cs p = some p')
    (hw : WfPred ds p) : WfPred ds p' := by
  unfold assignConstantsPred at h
  repeat' split at h
  all_goals first
    | (cases h; done)
    | (cases h; exact hw)

omit [Floats] in
theorem sortListsPred_wf {ds : List Domain} {p : Pred} (hw : WfPred ds p) : WfPred ds (sortListsPred p) := by
  unfold sortListsPred
  split <;> exact hw

/-! ### building the subscription -/

omit [Floats] in
theorem predVars_wf {ds : List Domain} {p : Pred} (hw : WfPred ds p) : ∀ v ∈ predVars p, v < ds.length := by
  intro v hv
  cases p with
  | set op l r =>
    cases l <;> cases r <;> first | exact hw.elim | skip
    all_goals
      simp only [predVars, List.mem_singleton] at hv
      subst hv; exact hw
  | geo g =>
    simp only [predVars, List.mem_cons, List.not_mem_nil, or_false] at hv
    rcases hv with rfl | rfl
    · exact hw.1
    · exact hw.2
  | freq f | segment f => simp only [predVars, List.mem_singleton] at hv; subst hv; exact hw.1
  | boolLit b => simp [predVars] at hv
  | _ => simp only [predVars, List.mem_singleton] at hv; subst hv; exact hw

omit [Floats] in
theorem exprVars_wf {ds : List Domain} {e : Expr} (hw : e.All (WfPred ds)) : ∀ v ∈ exprVars e, v < ds.length := by
  induction e with
  | leaf p => exact predVars_wf hw
  | not e ih => exact ih hw
  | and l r ihl ihr | or l r ihl ihr =>
    intro v hv
    simp only [exprVars, List.mem_append] at hv
    exact hv.elim (ihl hw.1 v) (ihr hw.2 v)

omit [Floats] in
theorem scExpr_total {ds : List Domain} {e : Expr} (hw : e.All (WfPred ds)) (id : Nat) (inv : Bool) : ∃ r, scExpr id inv e = .ok r := by
  induction e generalizing inv with
  | leaf p =>
    show ∃ r, scPred id inv p = .ok r
    have hw : WfPred ds p := hw
    cases p with
    | set op l r => cases l <;> cases r <;> first | exact hw.elim | exact ⟨_, rfl⟩
    | isNull op v => cases op <;> exact ⟨_, rfl⟩
    | _ => exact ⟨_, rfl⟩
  | not e ih => exact ih hw _
  | and l r ihl ihr | or l r ihl ihr =>
    obtain ⟨a, ha⟩ := ihl hw.1 inv
    obtain ⟨b, hb⟩ := ihr hw.2 inv
    simp only [scExpr, ha, hb]
    exact ⟨_, rfl⟩

omit [Floats] in
theorem setBit_total {a : Bits} {k : Nat} (h : k / 64 < a.length) : ∃ a', setBit a k = .ok a' ∧ a'.length = a.length := by
  unfold setBit
  rw [List.getElem?_eq_getElem h]
  exact ⟨_, rfl, by simp⟩

omit [Floats] in
theorem fillShortCircuit_total {ds' : List Domain} {e : Expr} (hw : e.All (WfPred ds')) :
    ∀ {ds : List Domain} {i n : Nat} {p f : Bits}, i + ds.length ≤ n → p.length = n / 64 + 1 → f.length = n / 64 + 1 →
      ∃ r, fillShortCircuit e ds i p f = .ok r := by
  intro ds
  induction ds with
  | nil => intros; exact ⟨_, rfl⟩
  | cons d ds ih =>
    intro i n p f hi hp hf
    simp only [List.length_cons] at hi
    rw [fillShortCircuit]
    split
    · obtain ⟨r, hr⟩ := scExpr_total hw d.attr.var false
      rw [hr]
      cases r with
      | pass =>
        obtain ⟨p', h1, h2⟩ := setBit_total (a := p) (k := i) (by rw [hp]; omega)
        simp only [h1]
        exact ih (n := n) (by omega) (h2.trans hp) hf
      | fail =>
        obtain ⟨p', h1, h2⟩ := setBit_total (a := f) (k := i) (by rw [hf]; omega)
        simp only [h1]
        exact ih (n := n) (by omega) hp (h2.trans hf)
      | none => exact ih (n := n) (by omega) hp hf
    · exact ih (n := n) (by omega) hp hf

omit [Floats] in
theorem finishSub_total {cfg : Config} {id : Nat} {e : Expr} (hp : PMOK cfg.predMap) (hw : e.All (WfPred cfg.domains)) :
    ∃ s cfg', finishSub cfg id e = .ok (s, cfg') := by
  obtain ⟨a, pm, h1, h2, _⟩ := assignPred_ok hp e
  unfold finishSub makeSub
  simp only [h1, h2]
  rw [if_pos]
  · obtain ⟨⟨x, y⟩, hr⟩ := fillShortCircuit_total hw (ds := cfg.domains) (i := 0) (n := cfg.domains.length)
      (p := makeBits cfg.domains.length) (f := makeBits cfg.domains.length) (by omega) (by simp [makeBits]) (by simp [makeBits])
    rw [hr]
    exact ⟨_, _, rfl⟩
  · rw [List.all_eq_true]
    intro v hv
    have := exprVars_wf hw v hv
    simp only [decide_eq_true_eq]
    omega

end BeTree
