import Verif.Lemmas.InsertTotal
import Verif.Props.TypedSearch
/-
Insertion returns, over histories of calls.
-/
namespace BeTree
open Spec
variable [Floats]

/-! ### stored predicates against the predicates as written -/

omit [Floats] in
theorem resPred_typedPred {cfg : Config} (hlen : cfg.domains.length < invalidId) {cs : List Constant} {p p' : Pred}
    (h : ResPred cfg cs p p') (ha : AcceptsPred cfg.domains p) (hg : GeoKnown cfg.domains p) : TypedPred cfg p' := by
  cases h with
  | freq hv hn _ _ _ => exact ⟨inDom_of_known hv.var ha.1, inDom_of_known hn.var ha.2.1⟩
  | segment hv hn => exact ⟨inDom_of_known hv.var ha.1, inDom_of_known hn.var ha.2⟩
  | geo hv hn => exact ⟨inDom_of_known hv.var hg.1, inDom_of_known hn.var hg.2⟩
  | str hv => exact inDom_of_known hv.var ha
  | cmpInt hv hty => exact (resPred_typed hlen (.cmpInt (cs := cs) hv hty) ha trivial).1
  | cmpIntF hv hty => exact hty
  | cmpFloat hv => exact (resPred_typed hlen (.cmpFloat (cs := cs) hv) ha trivial).1
  | eqInt hv hty => exact (resPred_typed hlen (.eqInt (cs := cs) hv hty) ha trivial).1
  | eqIntF hv hty => exact hty
  | eqEnum hv hid hty => exact hty
  | eqEnumRaw hv => exact (resPred_typed hlen (.eqEnumRaw (cs := cs) hv) ha trivial).1
  | eqFloat hv => exact (resPred_typed hlen (.eqFloat (cs := cs) hv) ha trivial).1
  | eqStr hv hs => exact (resPred_typed hlen (.eqStr (cs := cs) hv hs) ha trivial).1
  | boolVar hv => exact (resPred_typed hlen (.boolVar (cs := cs) hv) ha trivial).1
  | boolLit => trivial
  | setInts hv => exact (resPred_typed hlen (.setInts (cs := cs) hv) ha trivial).1
  | setStrs hv hl => exact (resPred_typed hlen (.setStrs (cs := cs) hv hl) ha trivial).1
  | inInts hv => exact (resPred_typed hlen (.inInts (cs := cs) hv) ha trivial).1
  | inStrs hv hs => exact (resPred_typed hlen (.inStrs (cs := cs) hv hs) ha trivial).1
  | setBad h hl hr hbad => exact (resPred_typed hlen (.setBad (cs := cs) h hl hr hbad) ha trivial).1
  | listInts hv => exact (resPred_typed hlen (.listInts (cs := cs) hv) ha trivial).1
  | listStrs hv hl => exact (resPred_typed hlen (.listStrs (cs := cs) hv hl) ha trivial).1
  | isNull hv => exact (resPred_typed hlen (.isNull (cs := cs) hv) ha trivial).1

omit [Floats] in
theorem resPred_moderate {cfg : Config} {cs : List Constant} {p p' : Pred} (h : ResPred cfg cs p p') (ha : AcceptsPred cfg.domains p)
    (hm : Moderate (.leaf p)) : Moderate (.leaf p') := by
  cases h with
  | cmpIntF hv hty => exact trivial
  | eqIntF hv hty => exact trivial
  | setInts hv =>
    intro k hk
    exact hm k ((sortBy_perm _ _).mem_iff.1 hk)
  | listInts hv =>
    intro k hk
    exact hm k ((sortBy_perm _ _).mem_iff.1 hk)
  | @setBad op l r l' r' h hl hr hbad => cases l <;> cases r <;> first | exact ha.elim | cases hbad
  | eqEnum hv hid hty => trivial
  | _ => exact hm

omit [Floats] in
theorem resPred_names {cfg : Config} {cs : List Constant} {p p' : Pred} (h : ResPred cfg cs p p')
    (ha : AcceptsPred cfg.domains p) {j : Nat}
    (hj : j ∈ predVars p') : ∃ n ∈ predNames p, j = tryGetIdForAttr cfg n := by
  cases h with
  | @setBad op l r l' r' h hl hr hbad => cases l <;> cases r <;> first | exact ha.elim | cases hbad
  | boolLit => cases hj
  | geo hv hn =>
    simp only [predVars, List.mem_cons, List.not_mem_nil, or_false] at hj
    rcases hj with hj | hj
    · exact ⟨_, by simp [predNames], hj.trans hv.var⟩
    · exact ⟨_, by simp [predNames], hj.trans hn.var⟩
  | freq hv hn _ _ _ | segment hv hn =>
    simp only [predVars, List.mem_singleton] at hj
    exact ⟨_, List.mem_cons_self, hj.trans hv.var⟩
  | cmpInt hv | cmpIntF hv | cmpFloat hv | eqInt hv | eqIntF hv | eqEnum hv | eqEnumRaw hv | eqFloat hv | eqStr hv | boolVar hv
  | setInts hv | setStrs hv | inInts hv | inStrs hv | listInts hv | listStrs hv | str hv | isNull hv =>
    simp only [predVars, List.mem_singleton] at hj
    exact ⟨_, by simp [predNames], hj.trans hv.var⟩

omit [Floats] in
theorem exprRel_fit {cfg : Config} (hlen : cfg.domains.length < invalidId) {cs : List Constant} {e e' : Expr}
    (h : ExprRel (ResPred cfg cs) e e') : Accepts cfg.domains e → e.All GoodForm → e.All (GeoKnown cfg.domains) → Moderate e →
    e'.All (TypedPred cfg) ∧ Moderate e' ∧ ∀ j ∈ exprVars e', ∃ n ∈ exprNames e, j = tryGetIdForAttr cfg n := by
  induction h with
  | leaf h => intro ha hg hk hm; exact ⟨resPred_typedPred hlen h ha hk, resPred_moderate h ha hm, fun j hj => resPred_names h ha hj⟩
  | not _ ih => intro ha hg hk hm; exact ih ha hg hk hm
  | and _ _ ihl ihr | or _ _ ihl ihr =>
    intro ha hg hk hm
    obtain ⟨a1, a2, a3⟩ := ihl ha.1 hg.1 hk.1 hm.1
    obtain ⟨b1, b2, b3⟩ := ihr ha.2 hg.2 hk.2 hm.2
    refine ⟨⟨a1, b1⟩, ⟨a2, b2⟩, fun j hj => ?_⟩
    rcases List.mem_append.1 hj with hj | hj
    · obtain ⟨n, h1, h2⟩ := a3 j hj; exact ⟨n, List.mem_append_left _ h1, h2⟩
    · obtain ⟨n, h1, h2⟩ := b3 j hj; exact ⟨n, List.mem_append_right _ h1, h2⟩

omit [Floats] in
theorem exprNames_parse {e : Expr} {n : Str} : n ∈ exprNames (parseBuild e) ↔ n ∈ exprNames e := by
  induction e with
  | leaf p => exact Iff.rfl
  | not e ih => exact ih
  | and l r ihl ihr =>
    simp only [parseBuild, mkAnd]
    split <;> simp only [exprNames, List.mem_append, ihl, ihr, or_comm]
  | or l r ihl ihr =>
    simp only [parseBuild, mkOr]
    split <;> simp only [exprNames, List.mem_append, ihl, ihr, or_comm]

omit [Floats] in
/-- the domain at a name's number is the first one of that name -/
theorem find_domain {cfg : Config} (hlen : cfg.domains.length < invalidId) {n : Str} {d : Domain}
    (hd : cfg.domains[tryGetIdForAttr cfg n]? = some d) :
    cfg.domains.find? (fun d => d.attr.attr = n.map Char.toLower) = some d := by
  have h1 := domain_declaredType (name := n) (d := d) hlen (by unfold getDomain; rw [hd])
  unfold declaredType at h1
  obtain ⟨d', h2, _⟩ := Option.map_eq_some_iff.1 h1
  obtain ⟨j, h3, h4⟩ := findAttr_find _ _ 0 d' h2
  have h5 : tryGetIdForAttr cfg n = j := by
    show findAttr (n.map Char.toLower) cfg.domains 0 = j
    rw [h3]; omega
  rw [h5, h4] at hd
  cases hd
  exact h2

/-- the float attributes with limits that the expression mentions are in `P` -/
def FloatsIn (P : Nat → Prop) (cfg : Config) (e : Expr) : Prop :=
  ∀ n ∈ exprNames e, ∀ d, cfg.domains[tryGetIdForAttr cfg n]? = some d → Limited d.bound → d.bound.ty = .float → P (tryGetIdForAttr cfg n)

omit [Floats] in
theorem floatFree_in {P : Nat → Prop} {cfg : Config} (hlen : cfg.domains.length < invalidId) {e : Expr} (h : FloatFree cfg.domains e) :
    FloatsIn P cfg e := fun n hn d hd hl ht => absurd ht (h n hn d (find_domain hlen hd) hl)

/-- the limits of the attribute can be coped with -/
def CopesAt (ds : List Domain) (j : Nat) : Prop := ∀ d : Domain, ds[j]? = some d → Limited d.bound → d.bound.Copes

omit [Floats] in
theorem copesAt_doms {cfg : Config} : CopesDoms (CopesAt cfg.domains) cfg := fun _ d h hd => h d hd

omit [Floats] in
theorem floatFit_in {cfg : Config} (hlen : cfg.domains.length < invalidId) {e : Expr} (h : FloatFit cfg.domains e) :
    FloatsIn (CopesAt cfg.domains) cfg e :=
  fun n hn _ _ _ _ d hd hl => h n hn d (find_domain hlen hd) hl

omit [Floats] in
theorem Made.fit {cfg : Config} (hlen : cfg.domains.length < invalidId) {q : Req} {s : Sub} (h : Made cfg q s)
    {P : Nat → Prop} (hq : Fitting cfg.domains q.expr) (hf : FloatsIn P cfg q.expr) : Fit P cfg s := by
  obtain ⟨g1, g2, _⟩ := usable_parse hq.usable
  obtain ⟨h1, h2, h3⟩ := exprRel_fit hlen h.res ((accepts_parseBuild _ _).2 hq.accepts) g1 g2 (moderate_parse hq.moderate)
  refine ⟨h1, h2, fun j d hj hd hl ht => ?_⟩
  unfold Sub.has at hj
  rw [decide_eq_true_eq, h.vars] at hj
  obtain ⟨n, hn, rfl⟩ := h3 j hj
  exact hf n (exprNames_parse.1 hn) d hd hl ht

/-! ### everything stored belongs to a request, whatever the ids -/

theorem CNode.insert_subset {R : Rounding} {cfg : Config} (hcfg : DomsOK cfg) {s : Sub} {c c' : CNode} (hp : c.Pr cfg)
    (h : c.insert R cfg s = .ok c') : ∀ t ∈ c'.contents, t = s ∨ t ∈ c.contents := by
  obtain ⟨subs, max, pns⟩ := c
  simp only [CNode.insert] at h
  simp only [CNode.Pr] at hp
  intro t ht
  simp only [CNode.contents, List.mem_append]
  split at h
  · rcases ((restructure_pr R cfg hcfg _).1 _ _ _ _ _ hp h).2 t ht with h1 | h1
    · rcases List.mem_append.1 h1 with h1 | h1
      · exact .inr (.inl h1)
      · exact .inl (List.mem_singleton.1 h1)
    · exact .inr (.inr h1)
  · split at h
    · cases h
    · rename_i hpn
      cases h
      simp only [CNode.contents, List.mem_append] at ht
      rcases ht with ht | ht
      · exact .inr (.inl ht)
      · rcases (PNodes.insert_pr hcfg hp hpn).2 t ht with h1 | h1
        · exact .inl h1
        · exact .inr (.inr h1)

/-- every stored subscription was made for a request that is in the tree -/
def World.Stems (w : World) : Prop := ∀ s ∈ w.tree.root.contents, ∃ q ∈ w.live, Made w.tree.cfg q s

theorem step_stems {R : Rounding} {w w' : World} {o : Op} (hp : PruneOK w) (hw : w.Traced) (hst : w.Stems)
    (h : w.step R o = .ok w') : w'.Stems := by
  obtain ⟨hw', k⟩ := step_traced hw h
  cases o with
  | insert q =>
    simp only [World.step, Tree.insert] at h
    cases hprep : prepareInsert w.tree.cfg q.id q.consts (parseBuild q.expr) with
    | error x => simp only [hprep] at h; cases h
    | ok r =>
      obtain ⟨o, cfg⟩ := r
      obtain ⟨l, hs⟩ := prepareInsert_later hw.pm hprep
      cases o with
      | none =>
        simp only [hprep] at h
        cases h
        intro s hs
        obtain ⟨q, hq, hm⟩ := hst s hs
        exact ⟨q, hq, hm.later l⟩
      | some s =>
        simp only [hprep] at h
        obtain ⟨s1, s2, s3⟩ := hs s rfl
        obtain ⟨r1, r2⟩ := prepareInsert_res hprep
        cases hins : w.tree.root.insert R cfg s with
        | error x => simp only [hins] at h; cases h
        | ok root' =>
          simp only [hins] at h
          cases h
          obtain ⟨c, wd⟩ := prepareInsert_cfgOK hp.cfg hprep
          intro t ht
          rcases CNode.insert_subset c.doms (hp.root.wider wd) hins t ht with rfl | ht
          · exact ⟨q, List.mem_cons_self, ⟨r1, r2, s1, s2, s3⟩⟩
          · obtain ⟨q', hq, hm⟩ := hst t ht
            exact ⟨q', List.mem_cons_of_mem _ hq, hm.later l⟩
  | makeSub q =>
    simp only [World.step] at h
    cases hm : w.tree.makeSub q.id q.consts (parseBuild q.expr) with
    | error x => simp only [hm] at h; cases h
    | ok r =>
      obtain ⟨o, t⟩ := r
      have hroot := makeSub_api_root hm
      cases o with
      | none =>
        simp only [hm] at h
        cases h
        intro s hs
        dsimp only at hs
        rw [hroot] at hs
        obtain ⟨q, hq, hm⟩ := hst s hs
        exact ⟨q, hq, hm.later k⟩
      | some s =>
        simp only [hm] at h
        cases h
        intro s hs
        dsimp only at hs
        rw [hroot] at hs
        obtain ⟨q, hq, hm⟩ := hst s hs
        exact ⟨q, hq, hm.later k⟩
  | insertSub i =>
    simp only [World.step, Tree.insertSub] at h
    cases hk : w.pool[i]? with
    | none => simp only [hk] at h; cases h; exact hst
    | some p =>
      obtain ⟨q, s⟩ := p
      simp only [hk] at h
      cases hins : w.tree.root.insert R w.tree.cfg s with
      | error x => simp only [hins] at h; cases h
      | ok root' =>
        simp only [hins] at h
        cases h
        intro t ht
        rcases CNode.insert_subset hp.cfg.doms hp.root hins t ht with rfl | ht
        · exact ⟨q, List.mem_cons_self, hw.pool (q, t) (List.mem_of_getElem? hk)⟩
        · obtain ⟨q', hq, hm⟩ := hst t ht
          exact ⟨q', List.mem_cons_of_mem _ hq, hm⟩
  | changeBoundaries e =>
    simp only [World.step] at h
    cases hc : w.tree.changeBoundaries (parseBuild e) with
    | error x => simp only [hc] at h; cases h
    | ok t =>
      simp only [hc] at h
      cases h
      intro s hs
      dsimp only at hs
      rw [changeBoundaries_root hc] at hs
      obtain ⟨q, hq, hm⟩ := hst s hs
      exact ⟨q, hq, hm.later k⟩

/-! ### the passes of `betree_insert` -/

omit [Floats] in
theorem attrStringBound_total {attr : Str} : ∀ {ds : List Domain},
    (∀ d, ds.find? (fun d => d.attr.attr = attr) = some d → ∃ n, d.bound.smax = .ok n) → ∃ n, attrStringBound attr ds = .ok n := by
  intro ds
  induction ds with
  | nil => intro _; exact ⟨_, rfl⟩
  | cons d ds ih =>
    intro h
    unfold attrStringBound
    by_cases hd : d.attr.attr = attr
    · rw [if_pos hd]
      obtain ⟨n, hn⟩ := h d (by simp [hd])
      rw [hn]
      exact ⟨_, rfl⟩
    · rw [if_neg hd]
      exact ih fun d' hd' => h d' (by simp [hd, hd'])

theorem strBound_ok {cfg : Config} (hc : CfgOK cfg) (hl : LowerNames cfg.domains) {v : AttrVar} {t : VType}
    (ht : Is cfg.domains v [t]) (hk : t.kind = .s) : ∃ n, attrStringBound v.attr cfg.domains = .ok n := by
  apply attrStringBound_total
  intro d hd
  have hmem := List.mem_of_find?_eq_some hd
  have hattr : d.attr.attr = v.attr := by simpa using List.find?_some hd
  have hlow : v.attr.map Char.toLower = v.attr := by
    have := hl d hmem
    rw [hattr] at this
    exact this
  obtain ⟨t', h1, h2⟩ := ht
  simp only [List.mem_singleton] at h1
  subst h1
  unfold declaredType at h2
  rw [hlow, hd] at h2
  simp only [Option.map_some, Option.some.injEq] at h2
  obtain ⟨i, hi⟩ := List.getElem?_of_mem hmem
  exact smax_total (hc.doms i d hi).ok (by rw [h2]; exact hk)

theorem strValid_total {cfg : Config} (hc : CfgOK cfg) (hl : LowerNames cfg.domains) {v : AttrVar} {t : VType}
    (ht : Is cfg.domains v [t]) (hk : t.kind = .s) (s : Str) : ∃ b, strValid cfg v.attr s = .ok b := by
  unfold strValid
  obtain ⟨n, hn⟩ := strBound_ok hc hl ht hk
  rw [hn]
  dsimp only
  cases hm : strMapForAttr cfg v.attr with
  | none => exact ⟨_, rfl⟩
  | some m =>
    obtain ⟨r, hr⟩ := strMapGet_total (s := s) (hc.strs m (List.mem_of_find?_eq_some hm))
    dsimp only
    rw [hr]
    cases r <;> exact ⟨_, rfl⟩

omit [Floats] in
theorem countFound_total {maps : List StringMap} {m : StringMap} (h : m.values ≠ []) : ∀ {l : List StrVal}, ∃ n, countFound maps m l = .ok n := by
  intro l
  induction l with
  | nil => exact ⟨_, rfl⟩
  | cons s ss ih =>
    obtain ⟨n, hn⟩ := ih
    obtain ⟨r, hr⟩ := strMapGet_total (maps := maps) (s := s.string) h
    simp only [countFound, hr, hn]
    exact ⟨_, rfl⟩

theorem strsValid_total {cfg : Config} (hc : CfgOK cfg) (hl : LowerNames cfg.domains) {v : AttrVar} {t : VType}
    (ht : Is cfg.domains v [t]) (hk : t.kind = .s) (l : List StrVal) : ∃ b, strsValid cfg v.attr l = .ok b := by
  unfold strsValid
  obtain ⟨n, hn⟩ := strBound_ok hc hl ht hk
  rw [hn]
  dsimp only
  split
  · exact ⟨_, rfl⟩
  · cases hm : strMapForAttr cfg v.attr with
    | none => exact ⟨_, rfl⟩
    | some m =>
      obtain ⟨r, hr⟩ := countFound_total (maps := cfg.stringMaps) (l := l) (hc.strs m (List.mem_of_find?_eq_some hm))
      dsimp only
      rw [hr]
      exact ⟨_, rfl⟩

theorem boundedStringsValid_total {cfg : Config} (hc : CfgOK cfg) (hl : LowerNames cfg.domains) {e : Expr}
    (ha : Accepts cfg.domains e) : ∃ b, boundedStringsValid cfg (assignVar cfg e) = .ok b := by
  induction e with
  | leaf p =>
    replace ha : AcceptsPred cfg.domains p := ha
    show ∃ b, boundedStringsPred cfg (assignVarPred cfg p) = .ok b
    cases p with
    | equality op v c => cases c <;> first | exact ⟨_, rfl⟩ | exact strValid_total hc hl (v := v) ha rfl _
    | set op l r =>
      cases l <;> cases r <;> first
        | exact ha.elim
        | exact ⟨_, rfl⟩
        | (rename_i a b; exact strValid_total hc hl (v := b) ha rfl _)
        | (rename_i a b; exact strsValid_total hc hl (v := a) ha rfl _)
    | list op v c => cases c <;> first | exact ⟨_, rfl⟩ | exact strsValid_total hc hl (v := v) ha rfl _
    | _ => exact ⟨_, rfl⟩
  | not e ih => exact ih ha
  | and l r ihl ihr | or l r ihl ihr =>
    obtain ⟨a, h1⟩ := ihl ha.1
    obtain ⟨b, h2⟩ := ihr ha.2
    simp only [assignVar, boundedStringsValid, h1, h2, andThen]
    cases a <;> exact ⟨_, rfl⟩

omit [Floats] in
/-- strings are only interned for variables whose domain counts ids -/
theorem counts_accept {cfg : Config} (hlen : cfg.domains.length < invalidId) {e : Expr} (ha : Accepts cfg.domains e)
    (hs : SpecialTyped cfg.domains e) : (assignVar cfg e).All (fun p => ∀ v ∈ strVars p, Counts cfg false v) := by
  have is1 : ∀ {v : AttrVar} {t : VType}, Is cfg.domains v [t] → t.kind = .s → Counts cfg false (resolveVar cfg v) := by
    intro v t hi hk
    obtain ⟨t', h1, h2⟩ := hi
    simp only [List.mem_singleton] at h1
    subst h1
    refine .inr ⟨t', ?_, hk⟩
    show tyAt cfg (tryGetIdForAttr cfg v.attr) = some t'
    rw [tyAt_declared hlen, h2]
  induction e with
  | leaf p =>
    replace ha : AcceptsPred cfg.domains p := ha
    replace hs : SpecialTypedPred cfg.domains p := hs
    show ∀ v ∈ strVars (assignVarPred cfg p), Counts cfg false v
    cases p with
    | equality op v c | list op v c =>
      cases c <;> intro w hw <;> simp only [assignVarPred, strVars, List.mem_singleton, List.not_mem_nil] at hw
      subst hw
      exact is1 ha rfl
    | set op l r =>
      cases l <;> cases r <;> first | exact ha.elim | skip
      all_goals
        intro w hw
        simp only [assignVarPred, strVars, List.mem_singleton, List.not_mem_nil] at hw
        try (subst hw; exact is1 ha rfl)
    | freq f =>
      intro w hw
      simp only [assignVarPred, strVars, List.mem_singleton] at hw
      subst hw
      exact is1 hs.1 rfl
    | _ => intro w hw; simp [assignVarPred, strVars] at hw
  | not e ih => exact ih ha hs
  | and l r ihl ihr | or l r ihl ihr => exact ⟨ihl ha.1 hs.1, ihr ha.2 hs.2⟩

theorem prepareInsert_total {cfg : Config} {id : Nat} {cs : List Constant} {e : Expr} (hlen : cfg.domains.length < invalidId)
    (hc : CfgOK cfg) (hp : PMOK cfg.predMap) (hl : LowerNames cfg.domains) (ha : Accepts cfg.domains e)
    (hg : e.All GoodForm) (hk : e.All (GeoKnown cfg.domains)) (hs : SpecialTyped cfg.domains e) :
    ∃ r, prepareInsert cfg id cs e = .ok r := by
  unfold prepareInsert isValid
  dsimp only
  obtain ⟨b0, h0⟩ := varsInConfig_total (cfg := cfg) hg
  obtain ⟨b1, h1⟩ := boundedStringsValid_total hc hl ha
  rw [h0, h1]
  cases b0 with
  | false => exact ⟨_, rfl⟩
  | true =>
    cases b1 with
    | false => exact ⟨_, rfl⟩
    | true =>
      simp only [andThen]
      have w0 := varsInConfig_wf hlen hg hk h0
      cases h2 : assignConstants cs (assignVar cfg e) with
      | none => exact ⟨_, rfl⟩
      | some e1 =>
        dsimp only
        have w1 : e1.All (WfPred cfg.domains) := assignConstants_all (fun p p' h hw => assignConstantsPred_wf h hw) h2 w0
        have k1 : e1.All (fun p => ∀ v ∈ strVars p, Counts cfg false v) :=
          assignConstants_all (fun p p' h hw => by
            unfold assignConstantsPred at h
            repeat' split at h
            all_goals first
              | (cases h; done)
              | (cases h; exact hw)) h2 (counts_accept hlen ha hs)
        obtain ⟨⟨e2, c2⟩, h3⟩ := assignStr_total (al := false) hc w1 k1
        have g2 := assignStr_grow h3
        have w2 : e2.All (WfPred cfg.domains) :=
          assignStr_all (fun a b p p' _ _ h hw => assignStrPred_wf h hw) g2.base.domains.symm (Grow.refl _) h3 w1
        have cc2 := assignStr_inv CfgOK getIdForString_cfgOK hc h3
        obtain ⟨⟨e3, c3⟩, h4⟩ := assignIenum_total (al := false) (e := e2) cc2 (by rw [g2.base.domains]; exact w2)
        have g3 := assignIenum_grow h4
        have w3 : e3.All (WfPred cfg.domains) :=
          assignIenum_all (fun a b p p' _ _ h hw => assignIenumPred_wf h hw) g3.base.domains.symm (Grow.refl _) h4 w2
        have d3 : c3.domains = cfg.domains := g3.base.domains.trans g2.base.domains
        have w3' : (sortLists e3).All (WfPred cfg.domains) := sortLists_all (fun p h => sortListsPred_wf h) w3
        obtain ⟨e4, h5⟩ := fixFloat_total (cfg := c3) (e := sortLists e3) (by rw [d3]; exact w3')
        have w4 : e4.All (WfPred c3.domains) := by
          rw [d3]; exact fixFloat_all (fun p p' h hw => fixFloatPred_wf h hw) h5 w3'
        obtain ⟨s, c5, h6⟩ := finishSub_total (cfg := c3) (id := id) (e := e4)
          (by rw [g3.base.predMap, g2.base.predMap]; exact hp) w4
        simp only [h3, h4, h5, h6]
        exact ⟨_, rfl⟩

omit [Floats] in
/-- the passes of `betree_insert` leave the domains alone -/
theorem prepareInsert_domains {cfg cfg' : Config} {id : Nat} {cs : List Constant} {e : Expr} {o : Option Sub}
    (h : prepareInsert cfg id cs e = .ok (o, cfg')) : cfg'.domains = cfg.domains := by
  unfold prepareInsert at h
  dsimp only at h
  split at h
  · cases h
  · cases h; rfl
  · split at h
    · cases h; rfl
    · split at h
      · cases h
      · rename_i h1
        split at h
        · cases h
        · rename_i h2
          split at h
          · cases h
          · split at h
            · cases h
            · rename_i h3
              cases h
              obtain ⟨_, _, _, _, f5, _⟩ := finishSub_fields h3
              exact f5.trans ((assignIenum_grow h2).base.domains.trans (assignStr_grow h1).base.domains)

/-! ### `betree_change_boundaries` -/

omit [Floats] in
theorem fixFloatPred_sort {cfg : Config} {p p' : Pred} (h : fixFloatPred cfg p = .ok p') :
    fixFloatPred cfg (sortListsPred p) = .ok (sortListsPred p') := by
  cases p with
  | set op l r => cases h; cases l <;> cases r <;> rfl
  | list op v c => cases h; cases c <;> rfl
  | compare op v c | equality op v c =>
    simp only [fixFloatPred] at h
    show fixFloatPred cfg _ = _
    split at h
    · cases h
    · rename_i d hd
      cases c <;> cases h <;> simp only [sortListsPred, fixFloatPred, hd]
  | _ => cases h; rfl

omit [Floats] in
theorem fixFloat_sort {cfg : Config} : ∀ {e e' : Expr}, fixFloat cfg e = .ok e' → fixFloat cfg (sortLists e) = .ok (sortLists e') := by
  intro e
  induction e with
  | leaf p =>
    intro e' h
    rw [fixFloat] at h
    split at h
    · cases h
    · rename_i p' hp
      cases h
      rw [sortLists, fixFloat, fixFloatPred_sort hp]
      rfl
  | not e ih =>
    intro e' h
    rw [fixFloat] at h
    split at h
    · cases h
    · rename_i h1; cases h; rw [sortLists, fixFloat, ih h1]; rfl
  | and l r ihl ihr | or l r ihl ihr =>
    intro e' h
    rw [fixFloat] at h
    split at h
    · cases h
    · rename_i h1
      split at h
      · cases h
      · rename_i h2; cases h; rw [sortLists, fixFloat, ihl h1, ihr h2]; rfl

theorem changeBoundaries_api_total {t : Tree} {e : Expr} (hlen : t.cfg.domains.length < invalidId) (hc : CfgOK t.cfg)
    (ha : Accepts t.cfg.domains e) (hu : e.All GoodForm ∧ e.All (GeoKnown t.cfg.domains) ∧ e.All FullList) (hm : Moderate e) :
    ∃ t', t.changeBoundaries e = .ok t' := by
  obtain ⟨hg, hk, hf⟩ := hu
  unfold Tree.changeBoundaries
  obtain ⟨b, h0⟩ := varsInConfig_total (cfg := t.cfg) hg
  have hb : b = true := by
    cases b with
    | true => rfl
    | false => exact absurd ha (vars_expr hlen h0)
  subst hb
  have w0 := varsInConfig_wf hlen hg hk h0
  have f0 := assignVar_all (Q := FullList) (cfg := t.cfg) (fun p => assignVarPred_full) hf
  obtain ⟨⟨e1, c1⟩, h1⟩ := assignStr_total (al := true) hc w0 (Expr.All.mono (fun _ _ _ _ => .inl rfl) w0)
  have g1 := assignStr_grow h1
  have w1 : e1.All (WfPred t.cfg.domains) :=
    assignStr_all (fun a b p p' _ _ h hw => assignStrPred_wf h hw) g1.base.domains.symm (Grow.refl _) h1 w0
  have f1 : e1.All FullList :=
    assignStr_all (fun a b p p' _ _ h hw => assignStrPred_full h hw) g1.base.domains.symm (Grow.refl _) h1 f0
  have k1 := assignStr_inv CfgOK getIdForString_cfgOK hc h1
  obtain ⟨⟨e2, c2⟩, h2⟩ := assignIenum_total (al := true) (e := e1) k1 (by rw [g1.base.domains]; exact w1)
  have g2 := assignIenum_grow h2
  have w2 : e2.All (WfPred t.cfg.domains) :=
    assignIenum_all (fun a b p p' _ _ h hw => assignIenumPred_wf h hw) g2.base.domains.symm (Grow.refl _) h2 w1
  have f2 : e2.All FullList :=
    assignIenum_all (fun a b p p' _ _ h hw => assignIenumPred_full h hw) g2.base.domains.symm (Grow.refl _) h2 f1
  have k2 := assignIenum_inv CfgOK getIdForIenum_cfgOK k1 h2
  have d2 : c2.domains = t.cfg.domains := g2.base.domains.trans g1.base.domains
  obtain ⟨e3, h3⟩ := fixFloat_total (cfg := c2) (e := e2) (by rw [d2]; exact w2)
  have w3 : e3.All (WfPred c2.domains) := by
    rw [d2]; exact fixFloat_all (fun p p' h hw => fixFloatPred_wf h hw) h3 w2
  have f3 : e3.All FullList := fixFloat_all (fun p p' h hw => fixFloatPred_full h hw) h3 f2
  have m3 := (moderate_fixFloat (moderate_assignIenum (moderate_assignStr (moderate_assignVar (cfg := t.cfg) hm) h1) h2) h3).1
  obtain ⟨b, h4⟩ := exprsValid_total w3
  have hx : CfgExt t.cfg c2 := g1.ext.trans g2.ext
  have hl : c2.domains.length < invalidId := by rw [d2]; exact hlen
  have hrel : ExprRel (Checked t.cfg c2) e e3 := by
    have r1 := assignVar_rel t.cfg e
    have r2 := (assignStr_rel h1 g2.ext)
    have r3 := (assignIenum_rel h2 (CfgExt.refl _))
    have r4 := (fixFloat_rel h3 (CfgExt.refl _))
    refine (((r1.comp r2).comp r3).comp r4).mono ?_
    rintro p p5 ⟨p4, ⟨p3, ⟨_, rfl, k3⟩, k4⟩, k5⟩
    exact ⟨⟨_, _, k3, k4, k5⟩⟩
  have hb : b = true := (valid_expr hx hl hrel h0 h4).2 ((accepts_ext hx e).2 ha)
  subst hb
  have t3 := exprsValid_typed w3 h4
  have t5 : (sortLists e3).All (TypedPred c2) := sortLists_all (fun p hp => sortListsPred_typed hp) t3
  have f5 : (sortLists e3).All FullList := sortLists_all (fun p hp => sortListsPred_full hp) f3
  obtain ⟨c6, h6⟩ := changeBoundaries_total k2 t5 f5 (moderate_sortLists m3)
  simp only [h1, h2, fixFloat_sort h3, h6]
  exact ⟨_, rfl⟩

end BeTree
