import Verif.Spec.Typed
import Verif.Props.Constants
import Verif.Props.FloatLits
/-
C28: what `betree_make_sub` accepts.
-/
namespace BeTree
open Spec

/-- the type found for a name is the declared one -/
theorem tyAt_declared {cfg : Config} (hlen : cfg.domains.length < invalidId) (name : Str) :
    tyAt cfg (tryGetIdForAttr cfg name) = declaredType cfg.domains name := by
  cases h : declaredType cfg.domains name with
  | some ty =>
    obtain ⟨d, h1, h2⟩ := declaredType_domain h
    rw [tyAt_getDomain (CfgExt.refl _) h1, h2]
  | none =>
    cases h2 : cfg.domains[tryGetIdForAttr cfg name]? with
    | none => simp [tyAt, h2]
    | some d =>
      rw [domain_declaredType (d := d) hlen (by unfold getDomain; rw [h2])] at h
      cases h

theorem declaredType_ext {a b : Config} (h : CfgExt a b) (name : Str) :
    declaredType b.domains name = declaredType a.domains name := by
  have key : ∀ (ds ds' : List Domain),
      ds'.map (fun d => (d.attr, d.bound.ty, d.allowUndefined)) = ds.map (fun d => (d.attr, d.bound.ty, d.allowUndefined)) →
      declaredType ds' name = declaredType ds name := by
    intro ds
    induction ds with
    | nil => intro ds' h; cases ds' with | nil => rfl | cons d ds' => simp at h
    | cons d ds ih =>
      intro ds' h
      cases ds' with
      | nil => simp at h
      | cons d' ds' =>
        simp only [List.map_cons, List.cons.injEq, Prod.mk.injEq] at h
        have := ih ds' h.2
        unfold declaredType at this ⊢
        simp only [List.find?_cons, h.1.1]
        split
        · simp [h.1.2.1]
        · exact this
  exact key _ _ h.doms

theorem optional_ext {a b : Config} (h : CfgExt a b) (v : AttrVar) : Nullable b.domains v ↔ Nullable a.domains v := by
  have key : ∀ (ds ds' : List Domain),
      ds'.map (fun d => (d.attr, d.bound.ty, d.allowUndefined)) = ds.map (fun d => (d.attr, d.bound.ty, d.allowUndefined)) →
      (Nullable ds' v ↔ Nullable ds v) := by
    intro ds
    induction ds with
    | nil => intro ds' h; cases ds' with | nil => rfl | cons d ds' => simp at h
    | cons d ds ih =>
      intro ds' h
      cases ds' with
      | nil => simp at h
      | cons d' ds' =>
        simp only [List.map_cons, List.cons.injEq, Prod.mk.injEq] at h
        have := ih ds' h.2
        unfold Nullable at this ⊢
        simp only [List.find?_cons, h.1.1]
        split
        · simp [h.1.2.2]
        · exact this
  exact key _ _ h.doms

theorem is_ext {a b : Config} (h : CfgExt a b) (v : AttrVar) (ts : List VType) : Is b.domains v ts ↔ Is a.domains v ts := by
  unfold Is; rw [declaredType_ext h]

theorem known_ext {a b : Config} (h : CfgExt a b) (v : AttrVar) : Known b.domains v ↔ Known a.domains v := by
  unfold Known; rw [declaredType_ext h]

theorem acceptsPred_ext {a b : Config} (h : CfgExt a b) (p : Pred) : AcceptsPred b.domains p ↔ AcceptsPred a.domains p := by
  cases p with
  | compare op v c => cases c <;> exact is_ext h _ _
  | equality op v c => cases c <;> exact is_ext h _ _
  | boolVar v => exact is_ext h _ _
  | boolLit b => exact Iff.rfl
  | set op l r => cases l <;> cases r <;> first | exact is_ext h _ _ | exact Iff.rfl
  | list op v c => cases c <;> exact is_ext h _ _
  | freq f => simp only [AcceptsPred, known_ext h]
  | segment f => simp only [AcceptsPred, known_ext h]
  | geo g => exact Iff.rfl
  | str s => simp only [AcceptsPred, known_ext h]
  | isNull op v => cases op <;> first | exact is_ext h _ _ | exact optional_ext h _

theorem accepts_ext {a b : Config} (h : CfgExt a b) (e : Expr) : Accepts b.domains e ↔ Accepts a.domains e := by
  induction e with
  | leaf p => exact acceptsPred_ext h p
  | not e ih => exact ih
  | and l r ihl ihr => simp only [Accepts, ihl, ihr]
  | or l r ihl ihr => simp only [Accepts, ihl, ihr]

theorem accepts_parseBuild (ds : List Domain) (e : Expr) : Accepts ds (parseBuild e) ↔ Accepts ds e := by
  induction e with
  | leaf p => exact Iff.rfl
  | not e ih => exact ih
  | and l r ihl ihr =>
    simp only [parseBuild, mkAnd]
    split <;> simp only [Accepts, ihl, ihr, and_comm]
  | or l r ihl ihr =>
    simp only [parseBuild, mkOr]
    split <;> simp only [Accepts, ihl, ihr, and_comm]

/-! ### the two checks, leaf by leaf -/

theorem domain_of_id {T : Config} {v : Nat} {d : Domain} (h : getDomain T v = .ok d) : T.domains[v]? = some d := by
  unfold getDomain at h
  split at h
  · cases h
  · rename_i h1; cases h; exact h1

theorem is_one {T : Config} (hlen : T.domains.length < invalidId) {v v' : AttrVar} (hv : v'.var = tryGetIdForAttr T v.attr)
    {d : Domain} (hd : getDomain T v'.var = .ok d) (t : VType) : d.bound.ty = t ↔ Is T.domains v [t] := by
  have h := tyAt_getDomain (CfgExt.refl _) hd
  rw [hv, tyAt_declared hlen] at h
  simp only [Is, h, List.mem_singleton, exists_eq_left, Option.some.injEq]

theorem optional_iff {T : Config} (hlen : T.domains.length < invalidId) {v v' : AttrVar} (hv : v'.var = tryGetIdForAttr T v.attr)
    {d : Domain} (hd : getDomain T v'.var = .ok d) : d.allowUndefined = true ↔ Nullable T.domains v := by
  unfold Nullable
  have h1 := tyAt_getDomain (CfgExt.refl _) hd
  rw [hv, tyAt_declared hlen] at h1
  obtain ⟨x, hx, _⟩ := Option.map_eq_some_iff.1 h1
  obtain ⟨j, h2, h3⟩ := findAttr_find _ _ 0 x hx
  have h4 : v'.var = j := by rw [hv]; unfold tryGetIdForAttr; rw [show lowerKey v.attr = v.attr.map Char.toLower from rfl, h2]; omega
  have h5 := domain_of_id hd
  rw [h4, h3] at h5
  cases h5
  rw [hx]
  simp

/-- a valid reference is a declared attribute -/
theorem varValid_iff {T : Config} (hlen : T.domains.length < invalidId) {v v' : AttrVar} (hv : v'.var = tryGetIdForAttr T v.attr) :
    varValid v' = true ↔ Known T.domains v := by
  unfold varValid Known
  rw [hv]
  constructor
  · intro h
    have hne : tryGetIdForAttr T v.attr ≠ invalidId := by simpa using h
    cases hf : T.domains.find? (fun d => d.attr.attr = v.attr.map Char.toLower) with
    | some x => exact ⟨_, by simp [declaredType, hf]; rfl⟩
    | none =>
      exfalso
      apply hne
      have hinv : ∀ (ds : List Domain) (i : Nat), ds.find? (fun d => d.attr.attr = v.attr.map Char.toLower) = none →
          findAttr (v.attr.map Char.toLower) ds i = invalidId := by
        intro ds
        induction ds with
        | nil => intro i _; rfl
        | cons a ds ih =>
          intro i h
          rw [List.find?_cons] at h
          split at h
          · cases h
          · rename_i ha
            unfold findAttr
            rw [if_neg (by simpa using ha)]
            exact ih _ h
      exact hinv _ 0 hf
  · rintro ⟨t, ht⟩
    obtain ⟨d, hd, _⟩ := declaredType_domain ht
    have h5 := domain_of_id hd
    have : tryGetIdForAttr T v.attr < T.domains.length := by
      rcases Nat.lt_or_ge (tryGetIdForAttr T v.attr) T.domains.length with h | h
      · exact h
      · rw [List.getElem?_eq_none h] at h5; cases h5
    simp only [bne_iff_ne, ne_eq]
    omega

/-- the leaf before and after the passes of `betree_make_sub` that come before the type check -/
structure Checked (c T : Config) (p p5 : Pred) : Prop where
  steps : ∃ p3 p4, StrStep T true (assignVarPred c p) p3 ∧ IenumStep T true p3 p4 ∧ FixStep T p4 p5

/-- a reference to an attribute that is known is accepted only if it is declared -/
theorem Is.known {ds : List Domain} {v : AttrVar} {ts : List VType} (h : Is ds v ts) : Known ds v := by
  obtain ⟨t, _, h⟩ := h; exact ⟨t, h⟩

theorem Nullable.known {ds : List Domain} {v : AttrVar} (h : Nullable ds v) : Known ds v := by
  obtain ⟨d, h, _⟩ := h; exact ⟨d.bound.ty, by simp [declaredType, h]⟩

/-- what `all_variables_in_config` refuses is not acceptable -/
theorem vars_leaf {T : Config} (hlen : T.domains.length < invalidId) {p : Pred} {b : Bool}
    (h : varsInConfigPred (assignVarPred T p) = .ok b) (ha : AcceptsPred T.domains p) : b = true := by
  have hk : ∀ v, Known T.domains v → varValid (resolveVar T v) = true := fun v hv => (varValid_iff hlen rfl).2 hv
  cases p with
  | compare op v c =>
    cases c <;> (simp only [assignVarPred, varsInConfigPred, Except.ok.injEq] at h; rw [← h]; exact hk _ (Is.known ha))
  | equality op v c =>
    cases c <;> (simp only [assignVarPred, varsInConfigPred, Except.ok.injEq] at h; rw [← h]; exact hk _ (Is.known ha))
  | boolVar v => simp only [assignVarPred, varsInConfigPred, Except.ok.injEq] at h; rw [← h]; exact hk _ (Is.known ha)
  | boolLit x => cases h; rfl
  | set op l r =>
    cases l <;> cases r <;> simp only [assignVarPred, varsInConfigPred, Except.ok.injEq] at h <;>
      first
        | (cases h; done)
        | exact ha.elim
        | (rw [← h]; exact hk _ (Is.known ha))
  | list op v c =>
    cases c <;> (simp only [assignVarPred, varsInConfigPred, Except.ok.injEq] at h; rw [← h]; exact hk _ (Is.known ha))
  | freq f =>
    simp only [assignVarPred, varsInConfigPred, Except.ok.injEq] at h
    rw [← h, hk _ ha.1, hk _ ha.2.1]; rfl
  | segment f =>
    simp only [assignVarPred, varsInConfigPred, Except.ok.injEq] at h
    rw [← h, hk _ ha.1, hk _ ha.2]; rfl
  | geo g => cases h; rfl
  | str s => simp only [assignVarPred, varsInConfigPred, Except.ok.injEq] at h; rw [← h]; exact hk _ ha
  | isNull op v =>
    simp only [assignVarPred, varsInConfigPred, Except.ok.injEq] at h
    rw [← h]
    cases op
    · exact hk _ (Nullable.known ha)
    · exact hk _ (Nullable.known ha)
    · exact hk _ (Is.known ha)

/-- what `all_exprs_valid` says about a leaf whose attributes are known -/
theorem valid_leaf {c T : Config} (hc : CfgExt c T) (hlen : T.domains.length < invalidId) {p p5 : Pred} {b : Bool}
    (hv : varsInConfigPred (assignVarPred c p) = .ok true) (hs : Checked c T p p5)
    (h : exprValidPred T p5 = .ok b) : b = true ↔ AcceptsPred T.domains p := by
  obtain ⟨p3, p4, ⟨c3, c3', h3, hx3⟩, ⟨c4, c4', h4, hx4⟩, ⟨c5, h5, hx5⟩⟩ := hs.steps
  have hres : ∀ v, (resolveVar c v).var = tryGetIdForAttr T v.attr := fun v => (tryGetId_ext hc v.attr).symm
  have hone := fun (v : AttrVar) (d : Domain) (hd : getDomain T (resolveVar c v).var = .ok d) (t : VType) =>
    is_one hlen (hres v) hd t
  have hknown : ∀ v, varValid (resolveVar c v) = true → Known T.domains v := fun v hk => (varValid_iff hlen (hres v)).1 hk
  cases p with
  | compare op v k =>
    cases h3; cases h4
    cases k with
    | int k =>
      simp only [assignVarPred, fixFloatPred] at h5
      split at h5
      · cases h5
      · rename_i d hd
        have ht := tyAt_getDomain hx5 hd
        cases h5
        simp only [exprValidPred] at h
        split at h
        · cases h
        · rename_i d' hd'
          have ht' := tyAt_getDomain (CfgExt.refl _) hd'
          have he : d'.bound.ty = d.bound.ty := Option.some.inj (ht'.symm.trans ht)
          rw [hres, tyAt_declared hlen] at ht'
          simp only [AcceptsPred, Is, ht', he, Option.some.injEq, List.mem_cons, List.not_mem_nil, or_false]
          by_cases hf : d.bound.ty = .float
          · simp [hf, he] at h; simp [hf, ← h]
          · simp [hf, he] at h; simp [hf, ← h]
    | float k =>
      simp only [assignVarPred, fixFloatPred] at h5
      split at h5
      · cases h5
      · cases h5
        simp only [exprValidPred] at h
        split at h
        · cases h
        · rename_i d' hd'
          cases h
          rw [decide_eq_true_iff]
          exact hone v d' hd' _
  | equality op v k =>
    cases k with
    | int k =>
      cases h3
      have h4x := (assignIenumPred_grow h4).ext
      simp only [assignVarPred, assignIenumPred] at h4
      split at h4
      · cases h4
      · rename_i d hd
        have ht := tyAt_getDomain (h4x.trans hx4) hd
        split at h4
        · rename_i hen
          rw [hen] at ht
          split at h4
          · cases h4
          · rename_i h7
            cases h4
            simp only [assignVarPred, fixFloatPred] at h5
            split at h5
            · cases h5
            · cases h5
              simp only [exprValidPred] at h
              split at h
              · cases h
              · rename_i d' hd'
                have ht' := tyAt_getDomain (CfgExt.refl _) hd'
                have he : d'.bound.ty = .intEnum := Option.some.inj (ht'.symm.trans ht)
                rw [hres, tyAt_declared hlen] at ht'
                cases h
                simp only [AcceptsPred, Is, ht', he, decide_true, true_iff]
                exact ⟨_, by simp, rfl⟩
        · rename_i hen
          cases h4
          simp only [assignVarPred, fixFloatPred] at h5
          split at h5
          · cases h5
          · rename_i d2 hd2
            have ht2 := tyAt_getDomain hx5 hd2
            have he2 : d.bound.ty = d2.bound.ty := Option.some.inj (ht.symm.trans ht2)
            cases h5
            simp only [exprValidPred] at h
            split at h
            · cases h
            · rename_i d' hd'
              have ht' := tyAt_getDomain (CfgExt.refl _) hd'
              have he : d'.bound.ty = d2.bound.ty := Option.some.inj (ht'.symm.trans ht2)
              rw [hres, tyAt_declared hlen] at ht'
              rw [he2] at hen
              simp only [AcceptsPred, Is, ht', he, Option.some.injEq, List.mem_cons, List.not_mem_nil, or_false]
              by_cases hf : d2.bound.ty = .float
              · simp [hf, he] at h; simp [hf, ← h]
              · simp [hf, he] at h; simp [hf, hen, ← h]
    | float k =>
      cases h3; cases h4
      simp only [assignVarPred, fixFloatPred] at h5
      split at h5
      · cases h5
      · cases h5
        simp only [exprValidPred] at h
        split at h
        · cases h
        · rename_i d' hd'
          cases h
          rw [decide_eq_true_iff]
          exact hone v d' hd' _
    | string k =>
      simp only [assignVarPred, assignStrPred] at h3
      split at h3
      · cases h3
      · cases h3; cases h4
        simp only [assignVarPred, fixFloatPred] at h5
        split at h5
        · cases h5
        · cases h5
          simp only [exprValidPred] at h
          split at h
          · cases h
          · rename_i d' hd'
            cases h
            rw [decide_eq_true_iff]
            exact hone v d' hd' _
    | intEnum k =>
      cases h3; cases h4
      simp only [assignVarPred, fixFloatPred] at h5
      split at h5
      · cases h5
      · cases h5
        simp only [exprValidPred] at h
        split at h
        · cases h
        · rename_i d' hd'
          cases h
          rw [decide_eq_true_iff]
          exact hone v d' hd' _
  | boolVar v =>
    cases h3; cases h4; cases h5
    simp only [assignVarPred, exprValidPred] at h
    split at h
    · cases h
    · rename_i d' hd'
      cases h
      rw [decide_eq_true_iff]
      exact hone v d' hd' _
  | boolLit x => cases h3; cases h4; cases h5; cases h; simp [AcceptsPred]
  | set op l r =>
    cases l <;> cases r <;> simp only [assignVarPred, assignStrPred, varsInConfigPred] at h3 hv
    all_goals first
      | (cases h3; done)
      | (cases hv; done)
      | skip
    · cases h3; cases h4; cases h5
      simp only [exprValidPred] at h
      split at h
      · cases h
      · rename_i d' hd'; cases h; rw [decide_eq_true_iff]; exact hone _ d' hd' _
    · split at h3
      · cases h3
      · cases h3; cases h4; cases h5
        simp only [exprValidPred] at h
        split at h
        · cases h
        · rename_i d' hd'; cases h; rw [decide_eq_true_iff]; exact hone _ d' hd' _
    · cases h3; cases h4; cases h5
      simp only [exprValidPred] at h
      split at h
      · cases h
      · rename_i d' hd'; cases h; rw [decide_eq_true_iff]; exact hone _ d' hd' _
    · split at h3
      · cases h3
      · cases h3; cases h4; cases h5
        simp only [exprValidPred] at h
        split at h
        · cases h
        · rename_i d' hd'; cases h; rw [decide_eq_true_iff]; exact hone _ d' hd' _
    · cases h3; cases h4; cases h5
      simp only [exprValidPred] at h
      split at h
      · cases h
      · cases h; simp [AcceptsPred]
  | list op v l =>
    cases l with
    | intList l =>
      cases h3; cases h4; cases h5
      simp only [assignVarPred, exprValidPred] at h
      split at h
      · cases h
      · rename_i d' hd'; cases h; rw [decide_eq_true_iff]; exact hone _ d' hd' _
    | strList l =>
      simp only [assignVarPred, assignStrPred] at h3
      split at h3
      · cases h3
      · cases h3; cases h4; cases h5
        simp only [exprValidPred] at h
        split at h
        · cases h
        · rename_i d' hd'; cases h; rw [decide_eq_true_iff]; exact hone _ d' hd' _
  | freq f =>
    simp only [assignVarPred, assignStrPred] at h3
    split at h3
    · cases h3
    · cases h3; cases h4; cases h5
      simp only [exprValidPred, Except.ok.injEq] at h
      simp only [assignVarPred, varsInConfigPred, Except.ok.injEq, Bool.and_eq_true] at hv
      rw [← h, decide_eq_true_iff]
      exact ⟨fun hn => ⟨hknown _ hv.1, hknown _ hv.2, hn⟩, fun h => h.2.2⟩
  | segment f =>
    cases h3; cases h4; cases h5; cases h
    simp only [assignVarPred, varsInConfigPred, Except.ok.injEq, Bool.and_eq_true] at hv
    exact ⟨fun _ => ⟨hknown _ hv.1, hknown _ hv.2⟩, fun _ => rfl⟩
  | geo g => cases h3; cases h4; cases h5; cases h; simp [AcceptsPred]
  | str g =>
    cases h3; cases h4; cases h5; cases h
    simp only [assignVarPred, varsInConfigPred, Except.ok.injEq] at hv
    exact ⟨fun _ => hknown _ hv, fun _ => rfl⟩
  | isNull op v =>
    cases h3; cases h4; cases h5
    simp only [assignVarPred, exprValidPred] at h
    split at h
    · cases h
    · rename_i d' hd'
      have ho := optional_iff hlen (hres v) hd'
      cases op
      · cases h; exact ho
      · cases h; exact ho
      · have ht' := tyAt_getDomain (CfgExt.refl _) hd'
        rw [show (resolveVar c v).var = tryGetIdForAttr T v.attr from hres v, tyAt_declared hlen] at ht'
        cases h
        simp only [AcceptsPred, Is, ht', Option.some.injEq, List.mem_cons, List.not_mem_nil, or_false, decide_eq_true_iff]
        constructor
        · intro h; exact ⟨_, h, rfl⟩
        · rintro ⟨t, h, rfl⟩; exact h

/-! ### whole expressions -/

theorem andThen_true {a b : Except Fault Bool} (h : andThen a b = .ok true) : a = .ok true ∧ b = .ok true := by
  unfold andThen at h
  split at h
  · cases h
  · cases h
  · exact ⟨rfl, h⟩

theorem andThen_false {a b : Except Fault Bool} (h : andThen a b = .ok false) : a = .ok false ∨ (a = .ok true ∧ b = .ok false) := by
  unfold andThen at h
  split at h
  · cases h
  · exact Or.inl rfl
  · exact Or.inr ⟨rfl, h⟩

theorem vars_expr {T : Config} (hlen : T.domains.length < invalidId) {e : Expr}
    (h : varsInConfig (assignVar T e) = .ok false) : ¬ Accepts T.domains e := by
  induction e with
  | leaf p => intro ha; exact absurd (vars_leaf hlen h ha) (by decide)
  | not e ih => exact ih h
  | and l r ihl ihr =>
    rintro ⟨h1, h2⟩
    rcases andThen_false h with h | ⟨_, h⟩
    · exact ihl h h1
    · exact ihr h h2
  | or l r ihl ihr =>
    rintro ⟨h1, h2⟩
    rcases andThen_false h with h | ⟨_, h⟩
    · exact ihl h h1
    · exact ihr h h2

theorem valid_expr {c T : Config} (hc : CfgExt c T) (hlen : T.domains.length < invalidId) {e e5 : Expr}
    (hs : ExprRel (Checked c T) e e5) : ∀ {b : Bool}, varsInConfig (assignVar c e) = .ok true →
    exprsValid T e5 = .ok b → (b = true ↔ Accepts T.domains e) := by
  induction hs with
  | leaf h => intro b hv hb; exact valid_leaf hc hlen hv h hb
  | not _ ih => intro b hv hb; exact ih hv hb
  | and _ _ ihl ihr =>
    intro b hv hb
    obtain ⟨v1, v2⟩ := andThen_true hv
    cases b with
    | true =>
      obtain ⟨b1, b2⟩ := andThen_true hb
      exact ⟨fun _ => ⟨(ihl v1 b1).1 rfl, (ihr v2 b2).1 rfl⟩, fun _ => rfl⟩
    | false =>
      refine ⟨fun h => (by cases h), fun h => ?_⟩
      rcases andThen_false hb with hb | ⟨_, hb⟩
      · exact (ihl v1 hb).2 h.1
      · exact (ihr v2 hb).2 h.2
  | or _ _ ihl ihr =>
    intro b hv hb
    obtain ⟨v1, v2⟩ := andThen_true hv
    cases b with
    | true =>
      obtain ⟨b1, b2⟩ := andThen_true hb
      exact ⟨fun _ => ⟨(ihl v1 b1).1 rfl, (ihr v2 b2).1 rfl⟩, fun _ => rfl⟩
    | false =>
      refine ⟨fun h => (by cases h), fun h => ?_⟩
      rcases andThen_false hb with hb | ⟨_, hb⟩
      · exact (ihl v1 hb).2 h.1
      · exact (ihr v2 hb).2 h.2

theorem caps_of_rel {P : Pred → Pred → Prop} (hP : ∀ p p', P p p' → (caps (.leaf p)).map Frequency.type = (caps (.leaf p')).map Frequency.type)
    {e e' : Expr} (h : ExprRel P e e') : (caps e).map Frequency.type = (caps e').map Frequency.type := by
  induction h with
  | leaf h => exact hP _ _ h
  | not _ ih => exact ih
  | and _ _ ihl ihr => simp only [caps, List.map_append, ihl, ihr]
  | or _ _ ihl ihr => simp only [caps, List.map_append, ihl, ihr]

theorem supplied_of_types {cs : List Constant} {e e' : Expr} (h : (caps e).map Frequency.type = (caps e').map Frequency.type) :
    (∀ f ∈ caps e, ∃ i, supplied cs f.type = some i) ↔ (∀ f ∈ caps e', ∃ i, supplied cs f.type = some i) := by
  have key : ∀ e, (∀ f ∈ caps e, ∃ i, supplied cs f.type = some i) ↔
      ∀ t ∈ (caps e).map Frequency.type, ∃ i, supplied cs t = some i := by
    intro e
    simp only [List.mem_map, forall_exists_index, and_imp, forall_apply_eq_imp_iff₂]
  rw [key, key, h]

theorem checked_caps {c T : Config} {p p5 : Pred} (hs : Checked c T p p5) :
    (caps (.leaf p)).map Frequency.type = (caps (.leaf p5)).map Frequency.type := by
  obtain ⟨p3, p4, ⟨c3, c3', h3, hx3⟩, ⟨c4, c4', h4, hx4⟩, ⟨c5, h5, hx5⟩⟩ := hs.steps
  cases p with
  | freq f =>
    simp only [assignVarPred, assignStrPred] at h3
    split at h3
    · cases h3
    · cases h3; cases h4; cases h5; rfl
  | compare op v k =>
    cases h3; cases h4
    simp only [assignVarPred, fixFloatPred] at h5
    repeat' split at h5
    all_goals first | (cases h5; done) | (cases h5; rfl)
  | equality op v k =>
    cases k with
    | int k =>
      cases h3
      simp only [assignVarPred, assignIenumPred] at h4
      repeat' split at h4
      all_goals first
        | (cases h4; done)
        | (cases h4
           simp only [fixFloatPred] at h5
           repeat' split at h5
           all_goals first | (cases h5; done) | (cases h5; rfl))
    | float k =>
      cases h3; cases h4
      simp only [assignVarPred, fixFloatPred] at h5
      repeat' split at h5
      all_goals first | (cases h5; done) | (cases h5; rfl)
    | string k =>
      simp only [assignVarPred, assignStrPred] at h3
      split at h3
      · cases h3
      · cases h3; cases h4
        simp only [fixFloatPred] at h5
        repeat' split at h5
        all_goals first | (cases h5; done) | (cases h5; rfl)
    | intEnum k =>
      cases h3; cases h4
      simp only [assignVarPred, fixFloatPred] at h5
      repeat' split at h5
      all_goals first | (cases h5; done) | (cases h5; rfl)
  | set op l r =>
    cases l <;> cases r <;> simp only [assignVarPred, assignStrPred] at h3 <;> repeat' split at h3
    all_goals first | (cases h3; done) | (cases h3; cases h4; cases h5; rfl)
  | list op v l =>
    cases l <;> simp only [assignVarPred, assignStrPred] at h3 <;> repeat' split at h3
    all_goals first | (cases h3; done) | (cases h3; cases h4; cases h5; rfl)
  | boolVar v => cases h3; cases h4; cases h5; rfl
  | boolLit v => cases h3; cases h4; cases h5; rfl
  | segment v => cases h3; cases h4; cases h5; rfl
  | geo v => cases h3; cases h4; cases h5; rfl
  | str v => cases h3; cases h4; cases h5; rfl
  | isNull op v => cases h3; cases h4; cases h5; rfl

/-- C28: whenever `betree_make_sub` returns, it returns a subscription exactly when the expression's attributes are declared,
at the types needed, and the constants of its frequency caps are supplied; otherwise NULL. -/
theorem C28_make_sub_iff (t t' : Tree) (id : Nat) (cs : List Constant) (e : Expr) (r : Option Sub)
    (hlen : t.cfg.domains.length < invalidId) (h : t.makeSub id cs (parseBuild e) = .ok (r, t')) :
    r.isSome ↔ Accepts t.cfg.domains e ∧ ∀ f ∈ caps e, ∃ i, supplied cs f.type = some i := by
  rw [← accepts_parseBuild]
  have hcaps : (∀ f ∈ caps e, ∃ i, supplied cs f.type = some i) ↔ (∀ f ∈ caps (parseBuild e), ∃ i, supplied cs f.type = some i) := by
    simp only [(caps_parseBuild e).mem_iff]
  rw [hcaps]
  generalize parseBuild e = e at h
  unfold Tree.makeSub at h
  dsimp only at h
  split at h
  · cases h
  · rename_i hv
    cases h
    exact ⟨fun h => (by cases h), fun h => absurd h.1 (vars_expr hlen hv)⟩
  · rename_i hv
    split at h
    · cases h
    · rename_i e3 c3 h3
      split at h
      · cases h
      · rename_i e4 c4 h4
        split at h
        · cases h
        · rename_i e5 h5
          have hx34 := (assignIenum_grow h4).ext
          have hx : CfgExt t.cfg c4 := (assignStr_grow h3).ext.trans hx34
          have hl : c4.domains.length < invalidId := by
            have : c4.domains.length = t.cfg.domains.length := by simpa using congrArg List.length hx.doms
            omega
          have hrel : ExprRel (Checked t.cfg c4) e e5 := by
            have h1 := assignVar_rel t.cfg e
            have h2 := (assignStr_rel h3 hx34)
            have h6 := (assignIenum_rel h4 (CfgExt.refl _))
            have h7 := (fixFloat_rel h5 (CfgExt.refl _))
            refine (((h1.comp h2).comp h6).comp h7).mono ?_
            rintro p p5 ⟨p4, ⟨p3, ⟨_, rfl, k3⟩, k4⟩, k5⟩
            exact ⟨⟨_, _, k3, k4, k5⟩⟩
          have hcap := supplied_of_types (cs := cs) (caps_of_rel (fun _ _ => checked_caps) hrel)
          split at h
          · cases h
          · rename_i h6
            cases h
            refine ⟨fun h => (by cases h), fun h => ?_⟩
            exact absurd ((valid_expr hx hl hrel hv h6).2 ((accepts_ext hx e).2 h.1)) (by decide)
          · rename_i h6
            have hacc := (accepts_ext hx e).1 ((valid_expr hx hl hrel hv h6).1 rfl)
            rw [hcap, ← assignConstants_isSome]
            split at h
            · rename_i h7
              cases h
              rw [h7]
              exact ⟨fun h => (by cases h), fun h => (by cases h.2)⟩
            · rename_i h7
              rw [h7]
              repeat' split at h
              all_goals first
                | (cases h; done)
                | (cases h; exact ⟨fun _ => ⟨hacc, rfl⟩, fun _ => rfl⟩)
end BeTree
