import Verif.Lemmas.TypedEval
import Verif.Props.AcceptTotal
/-
A well-typed event on a tree of well-typed subscriptions: every step of a search answers.
-/
namespace BeTree
open Spec
variable [Floats]

/-! ### the event -/

theorem fillStr_answers {cfg : Config} (hc : CfgOK cfg) {var : Nat} {s : StrVal} : ∃ s', fillStr cfg var s = .ok s' := by
  unfold fillStr tryGetIdForString
  cases hf : findStrMap cfg.stringMaps var with
  | none => exact ⟨_, rfl⟩
  | some m =>
    have hm := hc.strs m (List.mem_of_find?_eq_some hf)
    unfold strMapGet
    try dsimp only
    rw [if_neg (fun hx => hm hx.1)]
    cases m.values.idxOf? s.string <;> exact ⟨_, rfl⟩

theorem fillStrs_answers {cfg : Config} (hc : CfgOK cfg) {var : Nat} (l : List StrVal) : ∃ l', fillStrs cfg var l = .ok l' := by
  induction l with
  | nil => exact ⟨_, rfl⟩
  | cons s ss ih =>
    obtain ⟨s', h1⟩ := fillStr_answers hc (var := var) (s := s)
    obtain ⟨l', h2⟩ := ih
    exact ⟨s' :: l', by simp only [fillStrs, h1, h2]⟩

theorem fillCaps_answers {cfg : Config} (hc : CfgOK cfg) {var : Nat} (l : List FreqCap) : ∃ l', fillCaps cfg var l = .ok l' := by
  induction l with
  | nil => exact ⟨_, rfl⟩
  | cons s ss ih =>
    obtain ⟨s', h1⟩ := fillStr_answers hc (var := var) (s := s.ns)
    obtain ⟨l', h2⟩ := ih
    exact ⟨{ s with ns := s' } :: l', by simp only [fillCaps, h1, h2]⟩

theorem fillValue_total {cfg : Config} (hc : CfgOK cfg) {var : Nat} {t : VType} {x : Value} (h : Fits t x) :
    ∃ y, fillValue cfg var t x = .ok y := by
  cases x with
  | bool b => cases t <;> first | exact h.elim | exact ⟨_, rfl⟩
  | int b => cases t <;> first | exact h.elim | exact ⟨_, rfl⟩
  | float b => cases t <;> first | exact h.elim | exact ⟨_, rfl⟩
  | intEnum b => cases t <;> first | exact h.elim | exact ⟨_, rfl⟩
  | string s =>
    cases t <;> first | exact h.elim | skip
    obtain ⟨s', h1⟩ := fillStr_answers hc (var := var) (s := s)
    exact ⟨.string s', by simp only [fillValue, h1]; rfl⟩
  | intList l => cases t <;> cases l <;> first | exact h.elim | exact ⟨_, rfl⟩
  | strList l =>
    cases t <;> first | exact h.elim | skip
    obtain ⟨s', h1⟩ := fillStrs_answers hc (var := var) l
    exact ⟨.strList s', by simp only [fillValue, h1]; rfl⟩
  | segments l => cases t <;> first | exact h.elim | exact ⟨_, rfl⟩
  | freq l =>
    cases t <;> first | exact h.elim | skip
    obtain ⟨s', h1⟩ := fillCaps_answers hc (var := var) l
    exact ⟨.freq s', by simp only [fillValue, h1]; rfl⟩

omit [Floats] in
/-- the filled value has the type of the domain, whatever the event said -/
theorem fillValue_ty {cfg : Config} {var : Nat} {t : VType} {x y : Value} (h : fillValue cfg var t x = .ok y) : y.vtype = t := by
  have hmap : ∀ {α : Type} {r : Except Fault α} {f : α → Value}, (∀ a, (f a).vtype = t) → r.map f = .ok y → y.vtype = t := by
    intro α r f hf hr
    cases r with
    | error e => cases hr
    | ok a => cases hr; exact hf a
  cases x with
  | bool b => simp only [fillValue] at h; split at h <;> cases h; rename_i ht; exact ht.symm
  | int b => cases t <;> simp only [fillValue] at h <;> cases h <;> rfl
  | float b => simp only [fillValue] at h; split at h <;> cases h; rename_i ht; exact ht.symm
  | intEnum b => cases t <;> simp only [fillValue] at h <;> cases h <;> rfl
  | string s => cases t <;> simp only [fillValue] at h <;> first | (cases h; done) | exact hmap (fun _ => rfl) h
  | intList l => cases t <;> cases l <;> simp only [fillValue] at h <;> cases h <;> rfl
  | strList l => cases t <;> simp only [fillValue] at h <;> first | (cases h; done) | exact hmap (fun _ => rfl) h
  | segments b => simp only [fillValue] at h; split at h <;> cases h; rename_i ht; exact ht.symm
  | freq l => cases t <;> simp only [fillValue] at h <;> first | (cases h; done) | exact hmap (fun _ => rfl) h

omit [Floats] in
theorem declared_id {cfg : Config} (hlen : cfg.domains.length < invalidId) {a : Str} {t : VType}
    (h : declaredType cfg.domains a = some t) : tryGetIdForAttr cfg a ≠ invalidId := by
  have h1 := tyAt_declared hlen a
  rw [h] at h1
  intro hn
  rw [hn] at h1
  unfold tyAt at h1
  obtain ⟨d, hd, _⟩ := Option.map_eq_some_iff.1 h1
  have := (List.getElem?_eq_some_iff.1 hd).1
  omega

theorem fillEvent_total {cfg : Config} (hlen : cfg.domains.length < invalidId) (hc : CfgOK cfg) {ev : List EventVar}
    (h : WellTyped cfg.domains ev) : ∃ l, fillEvent cfg ev = .ok l := by
  induction ev with
  | nil => exact ⟨_, rfl⟩
  | cons v vs ih =>
    obtain ⟨l, hl⟩ := ih fun v hv => h v (List.mem_cons_of_mem _ hv)
    obtain ⟨t, h1, h2⟩ := h v List.mem_cons_self
    obtain ⟨d, h3, h4⟩ := declaredType_domain h1
    subst h4
    obtain ⟨y, hy⟩ := fillValue_total hc (var := tryGetIdForAttr cfg v.attr) h2
    exact ⟨_, by simp only [fillEvent, if_neg (declared_id hlen h1), h3, hy, hl]; rfl⟩

omit [Floats] in
theorem sortValue_ty (x : Value) : (sortValue x).vtype = x.vtype := by cases x <;> rfl

omit [Floats] in
theorem fillOne_ty {cfg : Config} {v : EventVar} {p : Nat × Value} (h : fillOne cfg v = .ok p) :
    tyAt cfg p.1 = some p.2.vtype := by
  unfold fillOne at h
  split at h
  · cases h
  · split at h
    · cases h
    · rename_i hd
      split at h
      · cases h
      · rename_i hf
        cases h
        rw [fillValue_ty hf]
        exact tyAt_getDomain (CfgExt.refl _) hd

omit [Floats] in
theorem eventEnv_typed {cfg : Config} {ev : List EventVar} {env : Env} (h : eventEnv cfg ev = .ok env) : EnvTyped cfg env := by
  refine ⟨eventEnv_length h, fun v x hx => ?_⟩
  have hlt : v < cfg.domains.length := by rw [← eventEnv_length h]; exact (List.getElem?_eq_some_iff.1 hx).1
  have hg := eventEnv_get h v hlt
  split at hg
  · rw [hx] at hg; cases hg
  · obtain ⟨y, h1, h2⟩ := hg
    rw [hx] at h2
    cases h2
    rw [sortValue_ty]
    exact fillOne_ty h1

theorem eventEnv_total {cfg : Config} (hlen : cfg.domains.length < invalidId) (hc : CfgOK cfg) {ev : List EventVar}
    (h : WellTyped cfg.domains ev) : ∃ env, eventEnv cfg ev = .ok env ∧ EnvTyped cfg env := by
  obtain ⟨l, hl⟩ := fillEvent_total hlen hc h
  have : ∃ env, eventEnv cfg ev = .ok env := by unfold eventEnv; rw [hl]; exact ⟨_, rfl⟩
  obtain ⟨env, he⟩ := this
  exact ⟨env, he, eventEnv_typed he⟩

/-! ### the bits -/

omit [Floats] in
theorem markUndefined_total : ∀ {env : Env} {i n : Nat} {b : Bits}, i + env.length ≤ n → b.length = n / 64 + 1 →
    ∃ r, markUndefined env i b = .ok r := by
  intro env
  induction env with
  | nil => intros; exact ⟨_, rfl⟩
  | cons x xs ih =>
    intro i n b h1 h2
    simp only [List.length_cons] at h1
    cases x with
    | some y => exact ih (i := i + 1) (n := n) (by omega) h2
    | none =>
      obtain ⟨b', h3, h4⟩ := setBit_total (a := b) (k := i) (by omega)
      simp only [markUndefined, h3]
      exact ih (i := i + 1) (n := n) (by omega) (h4.trans h2)

omit [Floats] in
theorem makeUndefined_total (env : Env) : ∃ r, makeUndefined env = .ok r :=
  markUndefined_total (n := env.length) (by omega) (by simp [makeBits])

/-! ### the walk -/

theorem isEventEnclosed_total {cfg : Config} {env : Env} (he : EnvTyped cfg env) {v : Nat} {b : Bound} {ol or : Bool} {d : Domain}
    (hb : BInv cfg v b ol or d) (ol' or' : Bool) : ∃ r, isEventEnclosed env v b ol' or' = .ok r := by
  have hty : tyAt cfg v = some d.bound.ty := by simp [tyAt, hb.dom.get]
  have hg := getVariable_ty (v := ⟨[], v⟩) he hty
  unfold isEventEnclosed envGet
  rcases hg with h | ⟨y, h, hy⟩
  · replace h : getVariable env v = .ok none := h
    rw [h]; exact ⟨_, rfl⟩
  · replace h : getVariable env v = .ok (some y) := h
    rw [h]
    have k1 : b.lo.kind = y.vtype.kind := by
      rw [hy, ← hb.dom.ok.kind.1]; exact (Scalar.le_kind hb.dlo).symm
    have k2 : b.hi.kind = y.vtype.kind := by
      rw [hy, ← hb.dom.ok.kind.2]; exact Scalar.le_kind hb.dhi
    dsimp only
    cases y with
    | segments _ => exact ⟨_, rfl⟩
    | freq _ => exact ⟨_, rfl⟩
    | intList l => dsimp only; rw [if_pos ⟨k1, k2⟩]; cases l <;> exact ⟨_, rfl⟩
    | strList l => dsimp only; rw [if_pos ⟨k1, k2⟩]; cases l <;> exact ⟨_, rfl⟩
    | _ => dsimp only; rw [if_pos ⟨k1, k2⟩]; exact ⟨_, rfl⟩

mutual
theorem CNode.collect_total {P : Nat → Prop} {cfg : Config} {env : Env} (he : EnvTyped cfg env) :
    ∀ {c : CNode}, c.Pr cfg → c.Sh P → ∃ l, c.collect cfg env = .ok l
  | .mk subs cap pns, hp, hs => by
    simp only [CNode.Pr] at hp
    simp only [CNode.Sh] at hs
    obtain ⟨l, hl⟩ := PNodes.collect_total he hp hs
    exact ⟨subs ++ l, by simp only [CNode.collect, hl]⟩
theorem PNodes.collect_total {P : Nat → Prop} {cfg : Config} {env : Env} (he : EnvTyped cfg env) :
    ∀ {p : PNodes}, p.Pr cfg → p.Sh P → ∃ l, p.collect cfg env = .ok l
  | .nil, _, _ => ⟨_, by simp only [PNodes.collect]; rfl⟩
  | .cons v sc cd rest, hp, hs => by
    simp only [PNodes.Pr] at hp
    simp only [PNodes.Sh] at hs
    obtain ⟨d, hd⟩ := hp.1.inv
    rw [hs.1] at hd
    have h1 : getDomain cfg v = .ok d := by unfold getDomain; rw [hd.dom.get]
    have hlt : InDom cfg.domains ⟨[], v⟩ := (List.getElem?_eq_some_iff.1 hd.dom.get).1
    obtain ⟨x, h2, _⟩ := getVariable_inDom he hlt
    replace h2 : envGet env v = .ok x := h2
    obtain ⟨a, ha⟩ := CDir.collect_total he hp.1 hs.2.1
    obtain ⟨b, hb⟩ := PNodes.collect_total he hp.2 hs.2.2
    simp only [PNodes.collect, h1, h2, ha, hb]
    split <;> exact ⟨_, rfl⟩
theorem CDir.collect_total {P : Nat → Prop} {cfg : Config} {env : Env} (he : EnvTyped cfg env) :
    ∀ {ol or : Bool} {c : CDir}, c.Pr cfg ol or → c.Sh P → ∃ l, c.collect cfg env ol or = .ok l
  | ol, or, .leaf v b c, hp, hs => by
    simp only [CDir.Pr] at hp
    simp only [CDir.Sh] at hs
    obtain ⟨l, hl⟩ := CNode.collect_total he hp.2 hs.2
    exact ⟨l, by simp only [CDir.collect, hl]⟩
  | ol, or, .node v b c l r, hp, hs => by
    simp only [CDir.Pr] at hp
    simp only [CDir.Sh] at hs
    obtain ⟨_, hc, _, _, hl, hr, _, _⟩ := hp
    obtain ⟨_, sc, sl, sr⟩ := hs
    obtain ⟨d1, b1⟩ := hl.inv
    obtain ⟨d2, b2⟩ := hr.inv
    obtain ⟨i1, e1⟩ := isEventEnclosed_total he b1 ol false
    obtain ⟨i2, e2⟩ := isEventEnclosed_total he b2 false or
    obtain ⟨x, hx⟩ := CNode.collect_total he hc sc
    obtain ⟨y, hy⟩ := CDir.collect_total he hl sl
    obtain ⟨z, hz⟩ := CDir.collect_total he hr sr
    simp only [CDir.collect, hx, e1, e2, hy, hz]
    cases i1 <;> cases i2 <;> exact ⟨_, rfl⟩
end

/-! ### the stored predicates -/

omit [Floats] in
theorem resPred_typed {cfg : Config} (hlen : cfg.domains.length < invalidId) {cs : List Constant} {p p' : Pred}
    (h : ResPred cfg cs p p') (ha : AcceptsPred cfg.domains p) (hs : SpecialTypedPred cfg.domains p) :
    TypedPred cfg p' ∧ SpecialFit cfg p' := by
  have is : ∀ {v v' : AttrVar} {ts : List VType}, ResVar cfg v v' → Is cfg.domains v ts → ∃ t ∈ ts, tyAt cfg v'.var = some t := by
    intro v v' ts hv hi
    obtain ⟨t, h1, h2⟩ := hi
    exact ⟨t, h1, by rw [hv.var, tyAt_declared hlen, h2]⟩
  have is1 : ∀ {v v' : AttrVar} {t : VType}, ResVar cfg v v' → Is cfg.domains v [t] → tyAt cfg v'.var = some t := by
    intro v v' t hv hi
    obtain ⟨t', h1, h2⟩ := is hv hi
    simp only [List.mem_singleton] at h1
    rw [h2, h1]
  have known : ∀ {v v' : AttrVar}, ResVar cfg v v' → Known cfg.domains v → InDom cfg.domains v' := by
    intro v v' hv ⟨t, ht⟩
    exact inDom_of_ty (t := t) (by rw [hv.var, tyAt_declared hlen, ht])
  cases h with
  | cmpInt hv hty =>
    obtain ⟨t, h1, h2⟩ := is hv ha
    obtain ⟨t', h3, h4⟩ := hty
    rw [h2] at h3
    cases h3
    simp only [List.mem_cons, List.not_mem_nil, or_false] at h1
    rcases h1 with rfl | rfl
    · exact ⟨h2, trivial⟩
    · exact absurd rfl h4
  | cmpIntF hv hty => exact ⟨hty, trivial⟩
  | cmpFloat hv => exact ⟨is1 hv ha, trivial⟩
  | eqInt hv hty =>
    obtain ⟨t, h1, h2⟩ := is hv ha
    obtain ⟨t', h3, h4, h5⟩ := hty
    rw [h2] at h3
    cases h3
    simp only [List.mem_cons, List.not_mem_nil, or_false] at h1
    rcases h1 with rfl | rfl | rfl
    · exact ⟨h2, trivial⟩
    · exact absurd rfl h4
    · exact absurd rfl h5
  | eqIntF hv hty => exact ⟨hty, trivial⟩
  | eqEnum hv hid hty => exact ⟨hty, trivial⟩
  | eqEnumRaw hv => exact ⟨is1 hv ha, trivial⟩
  | eqFloat hv => exact ⟨is1 hv ha, trivial⟩
  | eqStr hv hs => exact ⟨is1 hv ha, trivial⟩
  | boolVar hv => exact ⟨is1 hv ha, trivial⟩
  | boolLit => exact ⟨trivial, trivial⟩
  | setInts hv => exact ⟨is1 hv ha, trivial⟩
  | setStrs hv hl => exact ⟨is1 hv ha, trivial⟩
  | inInts hv => exact ⟨is1 hv ha, trivial⟩
  | inStrs hv hs => exact ⟨is1 hv ha, trivial⟩
  | @setBad op l r l' r' h hl hr hbad =>
    cases l <;> cases r <;> first | exact ha.elim | (cases hbad; done)
  | listInts hv => exact ⟨is1 hv ha, trivial⟩
  | listStrs hv hl => exact ⟨is1 hv ha, trivial⟩
  | freq hv hn _ _ _ => exact ⟨⟨known hv ha.1, known hn ha.2.1⟩, is1 hv hs.1, is1 hn hs.2⟩
  | segment hv hn => exact ⟨⟨known hv ha.1, known hn ha.2⟩, is1 hv hs.1, is1 hn hs.2⟩
  | geo hv hn => exact ⟨⟨known hv (Is.known hs.1), known hn (Is.known hs.2)⟩, is1 hv hs.1, is1 hn hs.2⟩
  | str hv => exact ⟨known hv ha, is1 hv hs⟩
  | @isNull op v v' hv =>
    cases op with
    | isEmpty => exact ⟨known hv (Is.known ha), trivial⟩
    | _ => exact ⟨known hv (Nullable.known ha), trivial⟩

omit [Floats] in
theorem exprRel_typed {cfg : Config} (hlen : cfg.domains.length < invalidId) {cs : List Constant} {e e' : Expr}
    (h : ExprRel (ResPred cfg cs) e e') : Accepts cfg.domains e → SpecialTyped cfg.domains e →
    e'.All (TypedPred cfg) ∧ e'.All (SpecialFit cfg) := by
  induction h with
  | leaf h => intro ha hs; exact resPred_typed hlen h ha hs
  | not _ ih => intro ha hs; exact ih ha hs
  | and _ _ ihl ihr | or _ _ ihl ihr =>
    intro ha hs
    obtain ⟨a1, a2⟩ := ihl ha.1 hs.1
    obtain ⟨b1, b2⟩ := ihr ha.2 hs.2
    exact ⟨⟨a1, b1⟩, ⟨a2, b2⟩⟩

omit [Floats] in
theorem specialTyped_parse {ds : List Domain} {e : Expr} (h : SpecialTyped ds e) : SpecialTyped ds (parseBuild e) := by
  induction e with
  | leaf p => exact h
  | not e ih => exact ih h
  | and l r ihl ihr =>
    simp only [parseBuild, mkAnd]
    split
    · exact ⟨ihr h.2, ihl h.1⟩
    · exact ⟨ihl h.1, ihr h.2⟩
  | or l r ihl ihr =>
    simp only [parseBuild, mkOr]
    split
    · exact ⟨ihr h.2, ihl h.1⟩
    · exact ⟨ihl h.1, ihr h.2⟩

omit [Floats] in
theorem Made.typed {cfg : Config} (hlen : cfg.domains.length < invalidId) {q : Req} {s : Sub} (h : Made cfg q s)
    (ha : Accepts cfg.domains q.expr) (hs : SpecialTyped cfg.domains q.expr) :
    s.expr.erase.All (TypedPred cfg) ∧ s.expr.erase.All (SpecialFit cfg) :=
  exprRel_typed hlen h.res ((accepts_parseBuild _ _).2 ha) (specialTyped_parse hs)

/-! ### the loops -/

omit [Floats] in
theorem matchSub_total {geo : GeoTest} {env : Env} {pm : PredMap} {n : Nat} {undef : Bits} (hp : PMOK pm) {s : Sub} {st : LoopState}
    (hst : MemoOK geo env pm n st.m) (ha : Assigned pm.m s.expr) (hc : ClockVar n s.expr.erase)
    (he : ∃ b, evalExpr geo env s.expr.erase = .ok b) :
    ∃ b st', matchSub geo pm.memoizeId env undef s st = .ok (b, st') ∧ MemoOK geo env pm n st'.m := by
  unfold matchSub
  split
  · exact ⟨_, _, rfl, hst⟩
  · exact ⟨_, _, rfl, hst⟩
  · obtain ⟨b, hb⟩ := he
    have := matchNode_agrees (geo := geo) (env := env) hp s.expr hst ha hc
    rw [hb] at this
    obtain ⟨m, h1, h2⟩ := this
    rw [h1]
    exact ⟨_, _, rfl, h2⟩

omit [Floats] in
theorem searchLoop_total {geo : GeoTest} {env : Env} {pm : PredMap} {n : Nat} {undef : Bits} (hp : PMOK pm) :
    ∀ {subs : List Sub} {st : LoopState}, MemoOK geo env pm n st.m →
      (∀ s ∈ subs, Assigned pm.m s.expr ∧ ClockVar n s.expr.erase ∧ ∃ b, evalExpr geo env s.expr.erase = .ok b) →
      ∃ r, searchLoop geo pm.memoizeId env undef subs st = .ok r := by
  intro subs
  induction subs with
  | nil => intros; exact ⟨_, rfl⟩
  | cons s ss ih =>
    intro st hst h
    obtain ⟨a, c, e⟩ := h s List.mem_cons_self
    obtain ⟨b, st', h1, h2⟩ := matchSub_total (undef := undef) hp hst a c e
    obtain ⟨⟨ids, st''⟩, h3⟩ := ih h2 fun s hs => h s (List.mem_cons_of_mem _ hs)
    simp only [searchLoop, h1, h3]
    exact ⟨_, rfl⟩

omit [Floats] in
theorem existsLoop_total {geo : GeoTest} {env : Env} {pm : PredMap} {n : Nat} {undef : Bits} (hp : PMOK pm) :
    ∀ {subs : List Sub} {st : LoopState}, MemoOK geo env pm n st.m →
      (∀ s ∈ subs, Assigned pm.m s.expr ∧ ClockVar n s.expr.erase ∧ ∃ b, evalExpr geo env s.expr.erase = .ok b) →
      ∃ r, existsLoop geo pm.memoizeId env undef subs st = .ok r := by
  intro subs
  induction subs with
  | nil => intros; exact ⟨_, rfl⟩
  | cons s ss ih =>
    intro st hst h
    obtain ⟨a, c, e⟩ := h s List.mem_cons_self
    obtain ⟨b, st', h1, h2⟩ := matchSub_total (undef := undef) hp hst a c e
    cases b with
    | true => simp only [existsLoop, h1]; exact ⟨_, rfl⟩
    | false => simp only [existsLoop, h1]; exact ih h2 fun s hs => h s (List.mem_cons_of_mem _ hs)

end BeTree
