import Verif.Lemmas.IntOrder
import Verif.Props.InsertTotal
/-
C27: letter case of attribute names, expression side.  C34: order of the constants in lists.
-/
namespace BeTree
open Spec

/-! ### C34: the order of the constants in lists -/

/-- C34.  The order of the integers in the lists of an expression makes no difference at all: every call that takes an
expression returns exactly the same, and leaves exactly the same tree behind. -/
theorem C34_integer_lists (R : Rounding) (t : Tree) (id : Nat) (cs : List Constant) (e e' : Expr) (h : IntsReordered e e') :
    t.insert R id cs (parseBuild e) = t.insert R id cs (parseBuild e') ∧
    t.makeSub id cs (parseBuild e) = t.makeSub id cs (parseBuild e') ∧
    t.changeBoundaries (parseBuild e) = t.changeBoundaries (parseBuild e') := by
  rw [← insert_norm, ← insert_norm R t id cs (parseBuild e'), ← makeSub_norm, ← makeSub_norm t id cs (parseBuild e'),
    ← changeBoundaries_norm, ← changeBoundaries_norm t (parseBuild e'), ← parse_norm, ← parse_norm, normInts_like h]
  exact ⟨rfl, rfl, rfl⟩

theorem req_of_id {l : List Req} (h : (l.map Req.id).Nodup) {a b : Req} (ha : a ∈ l) (hb : b ∈ l) (hid : a.id = b.id) : a = b := by
  obtain ⟨i, hi, rfl⟩ := List.getElem_of_mem ha
  obtain ⟨j, hj, rfl⟩ := List.getElem_of_mem hb
  have := (List.getElem_inj (i := i) (j := j) (h₀ := by simpa using hi) (h₁ := by simpa using hj) h).1 (by simpa using hid)
  subst this; rfl

theorem alike_same_id [Floats] {R : Rounding} {cap min : Nat} {decls : List (Str × Decl × Bool)} {ops : List Op} {w : World}
    (h : (World.init (makeTree cap min decls)).run R ops = .ok w) (ho : Orderly decls ops w) {q q' : Req} (hq : q ∈ w.live)
    (hq' : q' ∈ w.live) {s s' : Sub} (hs : s ∈ w.tree.root.contents) (hs' : s' ∈ w.tree.root.contents) (hid : s.id = q.id)
    (hid' : s'.id = q'.id) (hc : q'.consts = q.consts) (ha : Alike q.expr q'.expr) :
    Same s.expr.erase s'.expr.erase ∧ s.expr.gid = s'.expr.gid ∧ Made w.tree.cfg q s ∧ Made w.tree.cfg q' s' := by
  have hw := (run_traced (init_traced cap min decls) h).1
  have hok := run_tablesOK h
  have hall := history_ids ho.proper ho.ops ho.small h ho.ids
  have key : ∀ {q : Req} {s : Sub}, q ∈ w.live → s ∈ w.tree.root.contents → s.id = q.id → Made w.tree.cfg q s := by
    intro q s hq hs hid
    obtain ⟨r, hr, hm⟩ := stored_made hw ho.ids hs
    have : r = q := req_of_id ho.ids hr hq (by rw [← hm.id, hid])
    rw [← this]; exact hm
  have h1 := key hq hs hid
  have h2 := key hq' hs' hid'
  have hr2 := h2.res
  rw [hc] at hr2
  have hsame := resExpr_alike hok (parse_like ha) h1.res hr2 (hall s hs) (hall s' hs')
  refine ⟨hsame, ?_, h1, h2⟩
  exact (gid_eq_iff hw.pm h1.asg h2.asg).2 hsame

/-- C34.  After any orderly history, two accepted requests whose expressions differ only in the order of the constants of their
lists are stored under one predicate id, and evaluate alike on every event. -/
theorem C34_same_meaning_partial [Floats] (geo : GeoTest) (R : Rounding) (cap min : Nat) (decls : List (Str × Decl × Bool)) (ops : List Op)
    (w : World) (h : (World.init (makeTree cap min decls)).run R ops = .ok w) (ho : Orderly decls ops w)
    (q q' : Req) (hq : q ∈ w.live) (hq' : q' ∈ w.live) (s s' : Sub) (hs : s ∈ w.tree.root.contents)
    (hs' : s' ∈ w.tree.root.contents) (hid : s.id = q.id) (hid' : s'.id = q'.id) (hc : q'.consts = q.consts)
    (hclock : Clocked q.expr) (hclock' : Clocked q'.expr) (hr : Reordered q.expr q'.expr) :
    s.expr.gid = s'.expr.gid ∧ ∀ env, evalExpr geo env s.expr.erase = evalExpr geo env s'.expr.erase := by
  obtain ⟨h1, h2, m1, m2⟩ := alike_same_id h ho hq hq' hs hs' hid hid' hc (reordered_alike hr)
  exact ⟨h2, fun env => same_eval geo env h1 (m1.clock hclock) (m2.clock hclock')⟩

/-- C27, expression side.  After any orderly history, two accepted requests whose expressions differ only in the letter case of
attribute names are stored under one predicate id, and evaluate alike on every event. -/
theorem C27_same_meaning_partial [Floats] (geo : GeoTest) (R : Rounding) (cap min : Nat) (decls : List (Str × Decl × Bool)) (ops : List Op)
    (w : World) (h : (World.init (makeTree cap min decls)).run R ops = .ok w) (ho : Orderly decls ops w)
    (q q' : Req) (hq : q ∈ w.live) (hq' : q' ∈ w.live) (s s' : Sub) (hs : s ∈ w.tree.root.contents)
    (hs' : s' ∈ w.tree.root.contents) (hid : s.id = q.id) (hid' : s'.id = q'.id) (hc : q'.consts = q.consts)
    (hclock : Clocked q.expr) (hclock' : Clocked q'.expr) (hr : Recased q.expr q'.expr) :
    s.expr.gid = s'.expr.gid ∧ ∀ env, evalExpr geo env s.expr.erase = evalExpr geo env s'.expr.erase := by
  obtain ⟨h1, h2, m1, m2⟩ := alike_same_id h ho hq hq' hs hs' hid hid' hc (recased_alike hr)
  exact ⟨h2, fun env => same_eval geo env h1 (m1.clock hclock) (m2.clock hclock')⟩

theorem alike_search [Floats] {geo : GeoTest} {R : Rounding} {cap cap' min min' : Nat} {decls : List (Str × Decl × Bool)}
    {ops ops' : List Op} {w w' : World}
    (h : (World.init (makeTree cap min decls)).run R ops = .ok w)
    (h' : (World.init (makeTree cap' min' decls)).run R ops' = .ok w')
    (ho : Orderly decls ops w) (ho' : Orderly decls ops' w') (hsame : SameReqs Alike w.live w'.live)
    {ev : List EventVar} (hev : EventInRange ev) (hpr : ∀ q ∈ w.live, Prunable decls w.tree.cfg ev q)
    (hpr' : ∀ q ∈ w'.live, Prunable decls w'.tree.cfg ev q)
    {r r' : Report} (hs : w.tree.search geo ev .empty = .ok (some r)) (hs' : w'.tree.search geo ev .empty = .ok (some r')) :
    r.subs.Perm r'.subs := by
  obtain ⟨ids, e1, n1, m1⟩ := C01_search_exact_partial geo R cap min decls ops w h ho ev hev hpr _ _ hs
  obtain ⟨ids', e2, n2, m2⟩ := C01_search_exact_partial geo R cap' min' decls ops' w' h' ho' ev hev hpr' _ _ hs'
  have hx : ids.Perm ids' := by
    rw [List.perm_ext_iff_of_nodup n1 n2]
    intro id
    rw [m1, m2]
    constructor
    · rintro ⟨q, hq, rfl, hsat⟩
      obtain ⟨q', hq', a, b, c⟩ := hsame.1 q hq
      exact ⟨q', hq', a, by rw [b]; exact (sat_alike c).1 hsat⟩
    · rintro ⟨q', hq', rfl, hsat⟩
      obtain ⟨q, hq, a, b, c⟩ := hsame.2 q' hq'
      exact ⟨q, hq, a.symm, by rw [b] at hsat; exact (sat_alike c).2 hsat⟩
  rw [e1, e2]
  exact hx

/-- C34 (partial).  Two histories whose accepted requests are the same up to the order of the constants of their lists report
the same ids, each as often, on every event.  Partial as C01. -/
theorem C34_search_partial [Floats] (geo : GeoTest) (R : Rounding) (cap cap' min min' : Nat) (decls : List (Str × Decl × Bool))
    (ops ops' : List Op) (w w' : World)
    (h : (World.init (makeTree cap min decls)).run R ops = .ok w)
    (h' : (World.init (makeTree cap' min' decls)).run R ops' = .ok w')
    (ho : Orderly decls ops w) (ho' : Orderly decls ops' w') (hsame : SameReqs Reordered w.live w'.live)
    (ev : List EventVar) (hev : EventInRange ev) (hpr : ∀ q ∈ w.live, Prunable decls w.tree.cfg ev q)
    (hpr' : ∀ q ∈ w'.live, Prunable decls w'.tree.cfg ev q)
    (r r' : Report) (hs : w.tree.search geo ev .empty = .ok (some r)) (hs' : w'.tree.search geo ev .empty = .ok (some r')) :
    r.subs.Perm r'.subs :=
  alike_search h h' ho ho' ⟨fun q hq => (hsame.1 q hq).imp fun _ hx => ⟨hx.1, hx.2.1, hx.2.2.1, reordered_alike hx.2.2.2⟩,
    fun q hq => (hsame.2 q hq).imp fun _ hx => ⟨hx.1, hx.2.1, hx.2.2.1, reordered_alike hx.2.2.2⟩⟩ hev hpr hpr' hs hs'

/-- C27 (partial).  Two histories whose accepted requests are the same up to the letter case of attribute names report the same
ids, each as often, on every event.  Partial as C01. -/
theorem C27_search_partial [Floats] (geo : GeoTest) (R : Rounding) (cap cap' min min' : Nat) (decls : List (Str × Decl × Bool))
    (ops ops' : List Op) (w w' : World)
    (h : (World.init (makeTree cap min decls)).run R ops = .ok w)
    (h' : (World.init (makeTree cap' min' decls)).run R ops' = .ok w')
    (ho : Orderly decls ops w) (ho' : Orderly decls ops' w') (hsame : SameReqs Recased w.live w'.live)
    (ev : List EventVar) (hev : EventInRange ev) (hpr : ∀ q ∈ w.live, Prunable decls w.tree.cfg ev q)
    (hpr' : ∀ q ∈ w'.live, Prunable decls w'.tree.cfg ev q)
    (r r' : Report) (hs : w.tree.search geo ev .empty = .ok (some r)) (hs' : w'.tree.search geo ev .empty = .ok (some r')) :
    r.subs.Perm r'.subs :=
  alike_search h h' ho ho' ⟨fun q hq => (hsame.1 q hq).imp fun _ hx => ⟨hx.1, hx.2.1, hx.2.2.1, recased_alike hx.2.2.2⟩,
    fun q hq => (hsame.2 q hq).imp fun _ hx => ⟨hx.1, hx.2.1, hx.2.2.1, recased_alike hx.2.2.2⟩⟩ hev hpr hpr' hs hs'

/-! ### C27: acceptance -/

theorem declaredType_lower (ds : List Domain) {v v' : AttrVar} (h : SameLower v v') : declaredType ds v'.attr = declaredType ds v.attr := by
  unfold declaredType
  rw [show v'.attr.map Char.toLower = v.attr.map Char.toLower from h]

theorem accepts_alike {ds : List Domain} {e e' : Expr} (h : Alike e e') : Accepts ds e ↔ Accepts ds e' := by
  unfold Alike at h
  induction h with
  | leaf h =>
    simp only [Accepts]
    cases h with
    | @compare _ _ _ c h => cases c <;> simp only [AcceptsPred, Is, declaredType_lower ds h]
    | boolLit => exact Iff.rfl
    | freq h h' _ => simp only [AcceptsPred, Known, declaredType_lower ds h, declaredType_lower ds h']
    | segment h h' => simp only [AcceptsPred, Known, declaredType_lower ds h, declaredType_lower ds h']
    | geo => simp only [AcceptsPred]
    | str h => simp only [AcceptsPred, Known, declaredType_lower ds h]
    | @isNull op v v' h =>
      have h2 : v'.attr.map Char.toLower = v.attr.map Char.toLower := h
      cases op <;> simp only [AcceptsPred, Is, Nullable, declaredType_lower ds h, h2]
    | eqInt h => simp only [AcceptsPred, Is, declaredType_lower ds h]
    | eqFloat h => simp only [AcceptsPred, Is, declaredType_lower ds h]
    | eqStr h _ => simp only [AcceptsPred, Is, declaredType_lower ds h]
    | boolVar h => simp only [AcceptsPred, Is, declaredType_lower ds h]
    | setInts h _ => simp only [AcceptsPred, Is, declaredType_lower ds h]
    | setStrs h _ => simp only [AcceptsPred, Is, declaredType_lower ds h]
    | inInts h => simp only [AcceptsPred, Is, declaredType_lower ds h]
    | inStrs h _ => simp only [AcceptsPred, Is, declaredType_lower ds h]
    | listInts h _ => simp only [AcceptsPred, Is, declaredType_lower ds h]
    | listStrs h _ => simp only [AcceptsPred, Is, declaredType_lower ds h]
  | not _ ih => exact ih
  | and _ _ ihl ihr => exact and_congr ihl ihr
  | or _ _ ihl ihr => exact and_congr ihl ihr

theorem caps_alike {e e' : Expr} (h : Alike e e') : (caps e).map Frequency.type = (caps e').map Frequency.type := by
  unfold Alike at h
  induction h with
  | leaf h => cases h <;> rfl
  | not _ ih => exact ih
  | and _ _ ihl ihr => simp only [caps, List.map_append, ihl, ihr]
  | or _ _ ihl ihr => simp only [caps, List.map_append, ihl, ihr]

theorem alike_accepted {t t1 t2 : Tree} {id : Nat} {cs : List Constant} {e e' : Expr} {r r' : Option Sub}
    (hlen : t.cfg.domains.length < invalidId) (ha : Alike e e') (h : t.makeSub id cs (parseBuild e) = .ok (r, t1))
    (h' : t.makeSub id cs (parseBuild e') = .ok (r', t2)) : r.isSome = r'.isSome := by
  have key : (∀ f ∈ caps e, ∃ i, supplied cs f.type = some i) ↔ (∀ f ∈ caps e', ∃ i, supplied cs f.type = some i) := by
    have h1 : ∀ l : List Frequency, (∀ f ∈ l, ∃ i, supplied cs f.type = some i) ↔
        (∀ t ∈ l.map Frequency.type, ∃ i, supplied cs t = some i) := by
      intro l; simp
    rw [h1, h1, caps_alike ha]
  have e1 := C28_make_sub_iff t t1 id cs e r hlen h
  have e2 := C28_make_sub_iff t t2 id cs e' r' hlen h'
  rw [accepts_alike ha, key, ← e2] at e1
  exact Bool.eq_iff_iff.2 e1

/-- C27: `betree_make_sub` accepts an expression whatever the letter case of its attribute names, or rejects it whatever their
letter case. -/
theorem C27_make_sub_accepts (t t1 t2 : Tree) (id : Nat) (cs : List Constant) (e e' : Expr) (r r' : Option Sub)
    (hlen : t.cfg.domains.length < invalidId) (hr : Recased e e') (h : t.makeSub id cs (parseBuild e) = .ok (r, t1))
    (h' : t.makeSub id cs (parseBuild e') = .ok (r', t2)) : r.isSome = r'.isSome :=
  alike_accepted hlen (recased_alike hr) h h'

/-- C34: `betree_make_sub` accepts an expression whatever the order of the constants in its lists, or rejects it whatever the
order. -/
theorem C34_make_sub_accepts (t t1 t2 : Tree) (id : Nat) (cs : List Constant) (e e' : Expr) (r r' : Option Sub)
    (hlen : t.cfg.domains.length < invalidId) (hr : Reordered e e') (h : t.makeSub id cs (parseBuild e) = .ok (r, t1))
    (h' : t.makeSub id cs (parseBuild e') = .ok (r', t2)) : r.isSome = r'.isSome :=
  alike_accepted hlen (reordered_alike hr) h h'

/-! ### C27: plain insertion -/

theorem strMap_small {cfg : Config} (hs : Small cfg) (hok : TablesOK cfg) {m : StringMap} (hm : m ∈ cfg.stringMaps) :
    m.values.length < invalidId := by
  have h := hs.strs m.attr.var
  have hf : ∀ l : List StringMap, (l.map (fun m => m.attr.var)).Nodup → m ∈ l → findStrMap l m.attr.var = some m := by
    intro l
    induction l with
    | nil => intro _ h; cases h
    | cons x l ih =>
      intro hn hml
      simp only [List.map_cons, List.nodup_cons] at hn
      unfold findStrMap
      rw [List.find?_cons]
      rcases List.mem_cons.1 hml with rfl | hml
      · simp
      · have : x.attr.var ≠ m.attr.var := fun he => hn.1 (by rw [he]; exact List.mem_map_of_mem (f := fun m : StringMap => m.attr.var) hml)
        simp only [this, decide_false]
        exact ih hn.2 hml
  unfold strTable at h
  rw [hf _ hok.strVars hm] at h
  exact h

theorem attrStringBound_unlimited {a : Str} : ∀ {ds : List Domain}, LowerNames ds →
    (∀ d ∈ ds, d.attr.attr = lowerKey a → Unlimited d.bound) → attrStringBound a ds = .ok sizeMax := by
  intro ds
  induction ds with
  | nil => intro _ _; rfl
  | cons d ds ih =>
    intro hl hu
    unfold attrStringBound
    split
    · rename_i he
      have h1 := hl d List.mem_cons_self
      obtain ⟨h2, h3⟩ := hu d List.mem_cons_self (by rw [← he]; exact h1.symm)
      have : d.bound.smax = .ok (sizeMax - 1) := by
        unfold Bound.smax; rw [h3]
      rw [this]
      simp [sizeMax]
    · exact ih (fun d hd => hl d (List.mem_cons_of_mem _ hd)) (fun d hd => hu d (List.mem_cons_of_mem _ hd))


theorem strValid_free {cfg : Config} (hs : Small cfg) (hok : TablesOK cfg) (hl : LowerNames cfg.domains) {a : Str}
    (hu : ∀ d ∈ cfg.domains, d.attr.attr = lowerKey a → Unlimited d.bound) {s : Str} {b : Bool} (h : strValid cfg a s = .ok b) :
    b = true := by
  unfold strValid at h
  rw [attrStringBound_unlimited hl hu] at h
  dsimp only at h
  split at h
  · cases h; decide
  · rename_i m hm
    have hlen := strMap_small hs hok (List.mem_of_find?_eq_some hm)
    split at h
    · cases h
    · cases h; rfl
    · cases h
      apply decide_eq_true
      unfold spaceLeft
      unfold invalidId at hlen
      unfold sizeMax
      dsimp only
      omega

theorem strsValid_free {cfg : Config} (hl : LowerNames cfg.domains) {a : Str}
    (hu : ∀ d ∈ cfg.domains, d.attr.attr = lowerKey a → Unlimited d.bound) {l : List StrVal} {b : Bool}
    (h : strsValid cfg a l = .ok b) : b = true := by
  unfold strsValid at h
  rw [attrStringBound_unlimited hl hu] at h
  simp only [if_true, Except.ok.injEq] at h
  exact h.symm

theorem andThen_ok {a b : Except Fault Bool} {c : Bool} (h : andThen a b = .ok c) :
    (a = .ok false ∧ c = false) ∨ (a = .ok true ∧ b = .ok c) := by
  unfold andThen at h
  split at h
  · cases h
  · cases h; exact .inl ⟨rfl, rfl⟩
  · exact .inr ⟨rfl, h⟩

theorem boundedStrings_free {cfg : Config} (hs : Small cfg) (hok : TablesOK cfg) (hl : LowerNames cfg.domains) {e : Expr}
    (hu : FreeStrs cfg.domains (strAttrs e)) {b : Bool} (h : boundedStringsValid cfg (assignVar cfg e) = .ok b) : b = true := by
  induction e generalizing b with
  | leaf p =>
    replace h : boundedStringsPred cfg (assignVarPred cfg p) = .ok b := h
    replace hu : FreeStrs cfg.domains (predStrAttrs p) := hu
    cases p with
    | equality op v c =>
      cases c with
      | string s => exact strValid_free hs hok hl (hu v.attr (by simp [predStrAttrs])) h
      | _ => cases h; rfl
    | set op l r =>
      cases l <;> cases r <;> first
        | (cases h; rfl)
        | (rename_i s v; exact strValid_free hs hok hl (hu v.attr (by simp [predStrAttrs])) h)
        | (rename_i v s; exact strsValid_free hl (hu v.attr (by simp [predStrAttrs])) h)
    | list op v c =>
      cases c with
      | intList l => cases h; rfl
      | strList l => exact strsValid_free hl (hu v.attr (by simp [predStrAttrs])) h
    | _ => cases h; rfl
  | not e ih => exact ih hu h
  | and l r ihl ihr | or l r ihl ihr =>
    have hl' : FreeStrs cfg.domains (strAttrs l) := fun a ha => hu a (by simp only [strAttrs, List.mem_append]; exact .inl ha)
    have hr' : FreeStrs cfg.domains (strAttrs r) := fun a ha => hu a (by simp only [strAttrs, List.mem_append]; exact .inr ha)
    rcases andThen_ok h with ⟨h1, _⟩ | ⟨_, h2⟩
    · exact absurd (ihl hl' h1) (by decide)
    · exact ihr hr' h2

theorem resolve_lower (cfg : Config) {v v' : AttrVar} (h : SameLower v v') :
    varValid (resolveVar cfg v') = varValid (resolveVar cfg v) := by
  simp only [varValid, resolveVar, tryGetId_congr cfg (show lowerKey v'.attr = lowerKey v.attr from h)]

theorem varsInConfig_alike (cfg : Config) {e e' : Expr} (h : Alike e e') :
    varsInConfig (assignVar cfg e) = varsInConfig (assignVar cfg e') := by
  unfold Alike at h
  induction h with
  | leaf h =>
    simp only [assignVar, varsInConfig]
    cases h with
    | boolLit => rfl
    | freq h h' _ => simp only [assignVarPred, varsInConfigPred, resolve_lower cfg h, resolve_lower cfg h']
    | segment h h' => simp only [assignVarPred, varsInConfigPred, resolve_lower cfg h, resolve_lower cfg h']
    | geo => rfl
    | compare h => simp only [assignVarPred, varsInConfigPred, resolve_lower cfg h]
    | str h => simp only [assignVarPred, varsInConfigPred, resolve_lower cfg h]
    | isNull h => simp only [assignVarPred, varsInConfigPred, resolve_lower cfg h]
    | eqInt h => simp only [assignVarPred, varsInConfigPred, resolve_lower cfg h]
    | eqFloat h => simp only [assignVarPred, varsInConfigPred, resolve_lower cfg h]
    | eqStr h _ => simp only [assignVarPred, varsInConfigPred, resolve_lower cfg h]
    | boolVar h => simp only [assignVarPred, varsInConfigPred, resolve_lower cfg h]
    | setInts h _ => simp only [assignVarPred, varsInConfigPred, resolve_lower cfg h]
    | setStrs h _ => simp only [assignVarPred, varsInConfigPred, resolve_lower cfg h]
    | inInts h => simp only [assignVarPred, varsInConfigPred, resolve_lower cfg h]
    | inStrs h _ => simp only [assignVarPred, varsInConfigPred, resolve_lower cfg h]
    | listInts h _ => simp only [assignVarPred, varsInConfigPred, resolve_lower cfg h]
    | listStrs h _ => simp only [assignVarPred, varsInConfigPred, resolve_lower cfg h]
  | not _ ih => exact ih
  | and _ _ ihl ihr => simp only [assignVar, varsInConfig, ihl, ihr]
  | or _ _ ihl ihr => simp only [assignVar, varsInConfig, ihl, ihr]

theorem assignConstants_alike (cs : List Constant) (cfg : Config) {e e' : Expr} (h : Alike e e') :
    (assignConstants cs (assignVar cfg e)).isSome = (assignConstants cs (assignVar cfg e')).isSome := by
  unfold Alike at h
  induction h with
  | leaf h =>
    cases h with
    | freq =>
      simp only [assignVar, assignVarPred, assignConstants, assignConstantsPred]
      split
      · rfl
      · split <;> rfl
    | _ => rfl
  | not _ ih => simpa only [assignVar, assignConstants, Option.isSome_map] using ih
  | @and l l' r r' _ _ ihl ihr | @or l l' r r' _ _ ihl ihr =>
    simp only [assignVar, assignConstants]
    cases h1 : assignConstants cs (assignVar cfg l) <;> cases h2 : assignConstants cs (assignVar cfg l') <;>
      cases h3 : assignConstants cs (assignVar cfg r) <;> cases h4 : assignConstants cs (assignVar cfg r') <;>
      simp_all

theorem strAttrs_alike {e e' : Expr} (h : Alike e e') : (strAttrs e').map lowerKey = (strAttrs e).map lowerKey := by
  unfold Alike at h
  induction h with
  | leaf h =>
    cases h with
    | eqStr h _ => simp only [strAttrs, predStrAttrs, List.map_cons, List.map_nil]; rw [show lowerKey _ = lowerKey _ from h]
    | setStrs h _ => simp only [strAttrs, predStrAttrs, List.map_cons, List.map_nil]; rw [show lowerKey _ = lowerKey _ from h]
    | inStrs h _ => simp only [strAttrs, predStrAttrs, List.map_cons, List.map_nil]; rw [show lowerKey _ = lowerKey _ from h]
    | listStrs h _ => simp only [strAttrs, predStrAttrs, List.map_cons, List.map_nil]; rw [show lowerKey _ = lowerKey _ from h]
    | freq h _ _ => simp only [strAttrs, predStrAttrs, List.map_cons, List.map_nil]; rw [show lowerKey _ = lowerKey _ from h]
    | _ => rfl
  | not _ ih => exact ih
  | and _ _ ihl ihr => simp only [strAttrs, List.map_append, ihl, ihr]
  | or _ _ ihl ihr => simp only [strAttrs, List.map_append, ihl, ihr]

theorem freeStrs_alike {ds : List Domain} {e e' : Expr} (h : Alike e e') (hf : FreeStrs ds (strAttrs e)) : FreeStrs ds (strAttrs e') := by
  intro a ha d hd hn
  have : lowerKey a ∈ (strAttrs e).map lowerKey := by
    rw [← strAttrs_alike h]; exact List.mem_map_of_mem ha
  obtain ⟨b, hb, he⟩ := List.mem_map.1 this
  exact hf b hb d hd (by rw [hn, he])

theorem strAttrs_parse (e : Expr) : ∀ a, a ∈ strAttrs (parseBuild e) ↔ a ∈ strAttrs e := by
  induction e with
  | leaf p => intro a; exact Iff.rfl
  | not e ih => exact ih
  | and l r ihl ihr =>
    intro a
    simp only [parseBuild, mkAnd, strAttrs, List.mem_append]
    split <;> simp only [strAttrs, List.mem_append, ihl, ihr]
    exact or_comm
  | or l r ihl ihr =>
    intro a
    simp only [parseBuild, mkOr, strAttrs, List.mem_append]
    split <;> simp only [strAttrs, List.mem_append, ihl, ihr]
    exact or_comm

/-- what a plain insertion that returns says, when the attributes have room -/
theorem insert_verdict {R : Rounding} {t t' : Tree} {id : Nat} {cs : List Constant} {e : Expr} {b : Bool} (hs : Small t.cfg)
    (hok : TablesOK t.cfg) (hl : LowerNames t.cfg.domains) (hu : FreeStrs t.cfg.domains (strAttrs e))
    (h : t.insert R id cs e = .ok (b, t')) :
    ∃ v, varsInConfig (assignVar t.cfg e) = .ok v ∧ b = (v && (assignConstants cs (assignVar t.cfg e)).isSome) := by
  unfold Tree.insert prepareInsert at h
  dsimp only at h
  cases hv : isValid t.cfg (assignVar t.cfg e) with
  | error x => rw [hv] at h; simp at h
  | ok v =>
    rw [hv] at h
    unfold isValid at hv
    rcases andThen_ok hv with ⟨h1, rfl⟩ | ⟨h1, h2⟩
    · refine ⟨false, h1, ?_⟩
      cases h; rfl
    · have := boundedStrings_free hs hok hl hu h2
      subst this
      refine ⟨true, h1, ?_⟩
      cases hc : assignConstants cs (assignVar t.cfg e) with
      | none => rw [hc] at h; cases h; rfl
      | some a =>
        rw [hc] at h
        dsimp only at h
        repeat' split at h
        all_goals first | (cases h; done) | skip
        · rename_i cfg hx
          repeat' split at hx
          all_goals cases hx
        · cases h; rfl

/-- C27 and C34 for plain insertion (partial): `betree_insert` accepts or refuses an expression whatever the letter case of its
attribute names.  Partial: names are declared in lower case and the attributes for which the expression has string constants are
unbounded; without this it is false (`C27_bound_bypassed`). -/
theorem C27_insert_accepts_partial (R : Rounding) (cap min : Nat) (decls : List (Str × Decl × Bool)) (ops : List Op) (w : World)
    (h : (World.init (makeTree cap min decls)).run R ops = .ok w) (hs : Small w.tree.cfg) (hl : LowerNames w.tree.cfg.domains)
    (id : Nat) (cs : List Constant) (e e' : Expr) (hr : Recased e e') (hu : FreeStrs w.tree.cfg.domains (strAttrs e))
    (b b' : Bool) (t t' : Tree) (hi : w.tree.insert R id cs (parseBuild e) = .ok (b, t))
    (hi' : w.tree.insert R id cs (parseBuild e') = .ok (b', t')) : b = b' := by
  have hok := run_tablesOK h
  have ha := recased_alike hr
  have hp : Alike (parseBuild e) (parseBuild e') := parse_like ha
  have hf1 : FreeStrs w.tree.cfg.domains (strAttrs (parseBuild e)) := fun a h => hu a ((strAttrs_parse e a).1 h)
  obtain ⟨v, h1, h2⟩ := insert_verdict hs hok hl hf1 hi
  obtain ⟨v', h3, h4⟩ := insert_verdict hs hok hl (freeStrs_alike hp hf1) hi'
  rw [varsInConfig_alike _ hp, h3] at h1
  cases h1
  rw [h2, h4, assignConstants_alike cs _ hp]


/-! ### where the letter case matters -/

def exStr (name : String) (k : String) : Expr := .leaf (.equality .eq ⟨name.toList, 0⟩ (.string ⟨k.toList, 0, 0⟩))

/-- the ids of the requests a history accepts, latest first -/
def acceptedIds (decls : List (Str × Decl × Bool)) (ops : List Op) : Option (List Nat) :=
  match (World.init (makeTree 3 0 decls)).run exactRounding ops with
  | .error _ => none
  | .ok w => some (w.live.map Req.id)

/-- An attribute bounded to one string: `s = "b"` is refused once "a" is known, `S = "b"` is accepted. -/
theorem C27_bound_bypassed :
    acceptedIds [("s".toList, .string 1, false)] [.insert ⟨1, [], exStr "s" "a"⟩, .insert ⟨2, [], exStr "s" "b"⟩] = some [1] ∧
    acceptedIds [("s".toList, .string 1, false)] [.insert ⟨1, [], exStr "s" "a"⟩, .insert ⟨2, [], exStr "S" "b"⟩] = some [2, 1] ∧
    Recased (exStr "s" "b") (exStr "S" "b") :=
  ⟨by decide +kernel, by decide +kernel, .leaf (.eqStr (by unfold SameLower; decide) rfl)⟩

/-- The order of a list decides which of its strings get an id on a bounded attribute, and so what is refused later:
after `s = "a" or s in ("b", "c")` with room for two, `s = "b"` is accepted; after `s = "a" or s in ("c", "b")` it is refused. -/
theorem C34_later_refusal :
    acceptedIds [("s".toList, .string 2, false)]
      [.insert ⟨1, [], .or (exStr "s" "a") (.leaf (.set .isIn (.var ⟨"s".toList, 0⟩) (.strList [⟨"b".toList, 0, 0⟩, ⟨"c".toList, 0, 0⟩])))⟩,
       .insert ⟨2, [], exStr "s" "b"⟩] = some [2, 1] ∧
    acceptedIds [("s".toList, .string 2, false)]
      [.insert ⟨1, [], .or (exStr "s" "a") (.leaf (.set .isIn (.var ⟨"s".toList, 0⟩) (.strList [⟨"c".toList, 0, 0⟩, ⟨"b".toList, 0, 0⟩])))⟩,
       .insert ⟨2, [], exStr "s" "b"⟩] = some [1] :=
  ⟨by decide +kernel, by decide +kernel⟩

/-! ### a concrete case -/

def alikeDecls : List (Str × Decl × Bool) :=
  [("i".toList, .int 0 10, false), ("sl".toList, .strList sizeMax, true), ("il".toList, .intList 0 20, true)]

def exSl (name : String) (ss : List String) : Expr := .leaf (.list .oneOf ⟨name.toList, 0⟩ (.strList (ss.map fun s => ⟨s.toList, 0, 0⟩)))

/-- three spellings of `sl one of ("a", "b") and i > 3`, between other requests -/
def alikeOps : List Op :=
  [.makeSub ⟨1, [], .and (exSl "sl" ["a", "b"]) (exI .gt 3)⟩, .insertSub 0, .insert ⟨2, [], exI .lt 5⟩,
   .makeSub ⟨3, [], .and (exSl "SL" ["a", "b"]) (.leaf (.compare .gt ⟨"I".toList, 0⟩ (.int 3)))⟩, .insertSub 1,
   .makeSub ⟨4, [], .and (exSl "sl" ["b", "a"]) (exI .gt 3)⟩, .insertSub 2]

def alikeWorld : World :=
  match (World.init (makeTree 2 0 alikeDecls)).run exactRounding alikeOps with
  | .ok w => w
  | .error _ => World.init (makeTree 2 0 alikeDecls)

theorem alikeWorld_run : (World.init (makeTree 2 0 alikeDecls)).run exactRounding alikeOps = .ok alikeWorld := by
  have h : ((World.init (makeTree 2 0 alikeDecls)).run exactRounding alikeOps).isOk := by decide +kernel
  unfold alikeWorld
  split
  · assumption
  · rename_i e he; rw [he] at h; cases h

/-- all four are accepted, and the three spellings share their predicate id -/
example : alikeWorld.live.map Req.id = [4, 3, 2, 1] ∧
    (alikeWorld.tree.root.contents.map fun s => (s.id, s.expr.gid)) = [(1, 2), (3, 2), (4, 2), (2, 3)] := by decide +kernel

/-- for the examples: no float attributes -/
local instance alikeFloats : Floats := coarseFloats fun _ => False

example : Orderly alikeDecls alikeOps alikeWorld := by
  refine ⟨?_, ?_, ?_, by decide +kernel⟩
  · intro d hd
    simp only [alikeDecls, List.mem_cons, List.not_mem_nil, or_false] at hd
    rcases hd with rfl | rfl | rfl <;> simp [ProperDecl, sizeMax]
  · intro o ho
    simp only [alikeOps, List.mem_cons, List.not_mem_nil, or_false] at ho
    rcases ho with rfl | rfl | rfl | rfl | rfl | rfl | rfl <;>
      simp [ModerateOp, MayWiden, NamedOp, Roomy, Moderate, exI, exSl, strConsts, enumConsts, predStrConsts, predEnumConsts, ModInt,
        int64Min, int64Max, Expr.InRange, Pred.InRange] <;>
      exact fit_of_check (by decide +kernel)
  · refine small_of_lengths (by decide +kernel) ?_ ?_ <;> decide +kernel

example : Recased (.and (exSl "sl" ["a", "b"]) (exI .gt 3))
    (.and (exSl "SL" ["a", "b"]) (.leaf (.compare .gt ⟨"I".toList, 0⟩ (.int 3)))) :=
  .and (.leaf (.listStrs (by unfold SameLower; decide) rfl)) (.leaf (.compare (by unfold SameLower; decide)))

example : Reordered (.and (exSl "sl" ["a", "b"]) (exI .gt 3)) (.and (exSl "sl" ["b", "a"]) (exI .gt 3)) :=
  .and (.leaf (.listStrs rfl (List.Perm.swap _ _ _))) (.leaf (.compare rfl))

example : IntsReordered (.leaf (.set .isIn (.var ⟨"i".toList, 0⟩) (.intList [1, 2, 3]))) (.leaf (.set .isIn (.var ⟨"i".toList, 0⟩) (.intList [3, 1, 2]))) :=
  .leaf (.setInts rfl (by decide))

end BeTree
