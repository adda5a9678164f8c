import Verif.Lemmas.TypedSearch
/-
C29: accepted expressions evaluate without abort or type confusion on well-typed events.
-/
namespace BeTree
open Spec

theorem specialTyped_ext {a b : Config} (h : CfgExt a b) (e : Expr) : SpecialTyped b.domains e ↔ SpecialTyped a.domains e := by
  induction e with
  | leaf p => cases p <;> simp only [SpecialTyped, SpecialTypedPred, is_ext h]
  | not e ih => exact ih
  | and l r ihl ihr | or l r ihl ihr => simp only [SpecialTyped, ihl, ihr]

/-- C29, one expression.  An accepted expression, as `betree_make_sub` stores it, evaluates to true or false on every event whose
values have the declared types: nothing is read at another type or outside the table of variables, and nothing aborts.
`SpecialTyped` is the part of the typing `betree_make_sub` does not check (see the counter-examples). -/
theorem C29_accepted_expression_evaluates_partial (geo : GeoTest) (t t' : Tree) (id : Nat) (cs : List Constant) (e : Expr) (s : Sub)
    (hlen : t.cfg.domains.length < invalidId) (hm : t.makeSub id cs (parseBuild e) = .ok (some s, t'))
    (hs : SpecialTyped t.cfg.domains e) (ev : List EventVar) (env : Env) (he : eventEnv t'.cfg ev = .ok env) :
    ∃ b, evalExpr geo env s.expr.erase = .ok b := by
  have ha := ((C28_make_sub_iff t t' id cs e _ hlen hm).1 rfl).1
  obtain ⟨_, hres⟩ := makeSub_res hm
  have hx : CfgExt t.cfg t'.cfg := makeSub_ext hm
  have hlen' : t'.cfg.domains.length < invalidId := by
    rw [show t'.cfg.domains.length = t.cfg.domains.length by simpa using congrArg List.length hx.doms]; exact hlen
  obtain ⟨h1, h2⟩ := exprRel_typed hlen' hres ((accepts_ext hx _).2 ((accepts_parseBuild _ _).2 ha))
    ((specialTyped_ext hx _).2 (specialTyped_parse hs))
  exact evalExpr_total (eventEnv_typed he) h1 h2

/-- what C29 asks of a history and of the requests it leaves in the tree -/
structure Sound [Floats] (decls : List (Str × Decl × Bool)) (ops : List Op) (w : World) : Prop where
  decls : ∀ d ∈ decls, ProperDecl d.1 d.2.1
  ops : ∀ o ∈ ops, ModerateOp o
  small : Small w.tree.cfg
  len : w.tree.cfg.domains.length < invalidId
  ids : (w.live.map Req.id).Nodup
  clocked : ∀ q ∈ w.live, Clocked q.expr
  accepted : ∀ q ∈ w.live, Accepts w.tree.cfg.domains q.expr
  special : ∀ q ∈ w.live, SpecialTyped w.tree.cfg.domains q.expr

theorem Sound.walk [Floats] {decls : List (Str × Decl × Bool)} {ops : List Op} {w : World} {R : Rounding} {cap min : Nat} {geo : GeoTest}
    (ho : Sound decls ops w) (h : (World.init (makeTree cap min decls)).run R ops = .ok w) {ev : List EventVar}
    (hev : WellTyped w.tree.cfg.domains ev) :
    ∃ env undef subs, eventEnv w.tree.cfg ev = .ok env ∧ makeUndefined env = .ok undef ∧
      w.tree.root.collect w.tree.cfg env = .ok subs ∧ PMOK w.tree.cfg.predMap ∧
      ∀ s ∈ subs, Assigned w.tree.cfg.predMap.m s.expr ∧ ClockVar (tryGetIdForAttr w.tree.cfg "now".toList) s.expr.erase ∧
        ∃ b, evalExpr geo env s.expr.erase = .ok b := by
  have hp := (run_prune (makeTree_cfgOK (cap := cap) (min := min) ho.decls) (makeTree_tablesOK cap min decls) ho.small ho.ops h).1
  have hsh := run_sh ⟨(makeTree_cfgOK (cap := cap) (min := min) ho.decls).cfg, (makeTree_cfgOK (cap := cap) (min := min) ho.decls).root⟩
    (makeTree_tablesOK cap min decls) ho.small (init_sh _ cap min decls) ho.ops h
  have hw := (run_traced (init_traced cap min decls) h).1
  obtain ⟨env, he, ht⟩ := eventEnv_total ho.len hp.cfg hev
  obtain ⟨undef, hu⟩ := makeUndefined_total env
  obtain ⟨subs, hc⟩ := CNode.collect_total ht hp.root hsh
  refine ⟨env, undef, subs, he, hu, hc, hw.pm, fun s hs => ?_⟩
  obtain ⟨q, hq, hm⟩ := stored_made hw ho.ids ((CNode.collect_sublist _ hc).subset hs)
  obtain ⟨h1, h2⟩ := hm.typed ho.len (ho.accepted q hq) (ho.special q hq)
  exact ⟨hm.asg, hm.clock (ho.clocked q hq), evalExpr_total ht h1 h2⟩

/-- C29: `betree_search` answers after every history of accepted requests, on every well-typed event. -/
theorem C29_search_returns_partial [Floats] (geo : GeoTest) (R : Rounding) (cap min : Nat) (decls : List (Str × Decl × Bool)) (ops : List Op)
    (w : World) (h : (World.init (makeTree cap min decls)).run R ops = .ok w) (ho : Sound decls ops w)
    (ev : List EventVar) (hev : WellTyped w.tree.cfg.domains ev) (rep : Report) : ∃ r, w.tree.search geo ev rep = .ok r := by
  obtain ⟨env, undef, subs, h1, h2, h3, h4, h5⟩ := ho.walk (geo := geo) h hev
  obtain ⟨⟨ids, st⟩, h6⟩ := searchLoop_total (undef := undef) (st := LoopState.init w.tree.cfg) h4 (memoInit_ok geo env _ h4) h5
  unfold Tree.search
  simp only [h1]
  split
  · simp only [searchWithPreds, h2, h3, h6]; exact ⟨_, rfl⟩
  · exact ⟨_, rfl⟩

/-- C29: so does `betree_exists`. -/
theorem C29_exists_returns_partial [Floats] (geo : GeoTest) (R : Rounding) (cap min : Nat) (decls : List (Str × Decl × Bool)) (ops : List Op)
    (w : World) (h : (World.init (makeTree cap min decls)).run R ops = .ok w) (ho : Sound decls ops w)
    (ev : List EventVar) (hev : WellTyped w.tree.cfg.domains ev) : ∃ b, w.tree.exists geo ev = .ok b := by
  obtain ⟨env, undef, subs, h1, h2, h3, h4, h5⟩ := ho.walk (geo := geo) h hev
  obtain ⟨b, h6⟩ := existsLoop_total (undef := undef) (st := LoopState.init w.tree.cfg) h4 (memoInit_ok geo env _ h4) h5
  exact ⟨b, by simp only [Tree.exists, h1, existsWithPreds, h2, h3, h6]⟩

/-! ### requests that went through `betree_make_sub` are accepted -/

theorem step_accepts {R : Rounding} {w w' : World} {o : Op} (hlen : w.tree.cfg.domains.length < invalidId)
    (ho : ∀ q, o ≠ .insert q) (h : w.step R o = .ok w')
    (hp : ∀ p ∈ w.pool, Accepts w.tree.cfg.domains p.1.expr) (hl : ∀ q ∈ w.live, Accepts w.tree.cfg.domains q.expr) :
    (∀ p ∈ w'.pool, Accepts w'.tree.cfg.domains p.1.expr) ∧ ∀ q ∈ w'.live, Accepts w'.tree.cfg.domains q.expr := by
  have hx := step_ext h
  have hp' : ∀ p ∈ w.pool, Accepts w'.tree.cfg.domains p.1.expr := fun p h => (accepts_ext hx _).2 (hp p h)
  have hl' : ∀ q ∈ w.live, Accepts w'.tree.cfg.domains q.expr := fun q h => (accepts_ext hx _).2 (hl q h)
  cases o with
  | insert q => exact absurd rfl (ho q)
  | makeSub q =>
    simp only [World.step] at h
    split at h
    · cases h
    · rename_i s t hm
      cases h
      refine ⟨fun p hpm => ?_, hl'⟩
      rcases List.mem_append.1 hpm with hpm | hpm
      · exact hp' p hpm
      · simp only [List.mem_singleton] at hpm
        subst hpm
        exact (accepts_ext hx _).2 ((C28_make_sub_iff _ _ _ _ _ _ hlen hm).1 rfl).1
    · cases h; exact ⟨hp', hl'⟩
  | insertSub k =>
    simp only [World.step] at h
    split at h
    · cases h; exact ⟨hp', hl'⟩
    · rename_i q s hk
      split at h
      · cases h
      · cases h
        refine ⟨hp', fun q' hq => ?_⟩
        rcases List.mem_cons.1 hq with rfl | hq
        · exact hp' _ (List.mem_of_getElem? hk)
        · exact hl' q' hq
  | changeBoundaries e =>
    simp only [World.step] at h
    split at h
    · cases h
    · cases h; exact ⟨hp', hl'⟩

theorem run_accepts {R : Rounding} {ops : List Op} : ∀ {w w' : World}, w.tree.cfg.domains.length < invalidId →
    (∀ o ∈ ops, ∀ q, o ≠ .insert q) → w.run R ops = .ok w' →
    (∀ p ∈ w.pool, Accepts w.tree.cfg.domains p.1.expr) → (∀ q ∈ w.live, Accepts w.tree.cfg.domains q.expr) →
    ∀ q ∈ w'.live, Accepts w'.tree.cfg.domains q.expr := by
  induction ops with
  | nil => intro w w' _ _ h _ hl; cases h; exact hl
  | cons o os ih =>
    intro w w' hlen ho h hp hl
    simp only [World.run] at h
    split at h
    · cases h
    · rename_i w1 h1
      obtain ⟨a, b⟩ := step_accepts hlen (ho o List.mem_cons_self) h1 hp hl
      have hx := step_ext h1
      refine ih ?_ (fun o h => ho o (List.mem_cons_of_mem _ h)) h a b
      rw [show w1.tree.cfg.domains.length = w.tree.cfg.domains.length by simpa using congrArg List.length hx.doms]; exact hlen

/-- C29 for the two-step way alone: when every subscription went through `betree_make_sub`, no typing of the requests has to
be assumed beyond that of the special functions. -/
theorem C29_checked_requests_partial [Floats] (geo : GeoTest) (R : Rounding) (cap min : Nat) (decls : List (Str × Decl × Bool)) (ops : List Op)
    (w : World) (h : (World.init (makeTree cap min decls)).run R ops = .ok w)
    (hd : ∀ d ∈ decls, ProperDecl d.1 d.2.1) (ho : ∀ o ∈ ops, ModerateOp o) (hins : ∀ o ∈ ops, ∀ q, o ≠ .insert q)
    (hsm : Small w.tree.cfg) (hlen : w.tree.cfg.domains.length < invalidId) (hids : (w.live.map Req.id).Nodup)
    (hc : ∀ q ∈ w.live, Clocked q.expr) (hs : ∀ q ∈ w.live, SpecialTyped w.tree.cfg.domains q.expr)
    (ev : List EventVar) (hev : WellTyped w.tree.cfg.domains ev) (rep : Report) :
    (∃ r, w.tree.search geo ev rep = .ok r) ∧ ∃ b, w.tree.exists geo ev = .ok b := by
  have hl : (World.init (makeTree cap min decls)).tree.cfg.domains.length < invalidId := by
    have hx := congrArg List.length (run_ext h).doms
    simp only [List.length_map] at hx
    rw [← hx]; exact hlen
  have ha := run_accepts hl hins h (by intro p hp; cases hp) (by intro p hp; cases hp)
  have hso : Sound decls ops w := ⟨hd, ho, hsm, hlen, hids, hc, ha, hs⟩
  exact ⟨C29_search_returns_partial geo R cap min decls ops w h hso ev hev rep, C29_exists_returns_partial geo R cap min decls ops w h hso ev hev⟩

/-! ### a concrete case, and what the code does not check -/

def typedDecls : List (Str × Decl × Bool) :=
  [("i".toList, .int 0 10, false), ("b".toList, .bool, true), ("s".toList, .string sizeMax, true),
   ("now".toList, .int int64Min int64Max, false), ("fc".toList, .freq, true), ("seg".toList, .segments, true),
   ("latitude".toList, .float 0 90, true), ("longitude".toList, .float 0 90, true)]

def exNow : AttrVar := ⟨"now".toList, 0⟩
def exGeoPred : Expr := .leaf (.geo ⟨true, 1, 2, 3, ⟨"latitude".toList, 0⟩, ⟨"longitude".toList, 0⟩⟩)
def exSegPred : Expr := .leaf (.segment ⟨.before, true, ⟨"seg".toList, 0⟩, 7, 20, exNow⟩)
def exStrPred (a : String) : Expr := .leaf (.str ⟨.contains, ⟨a.toList, 0⟩, "ab".toList⟩)
def exCapPred : Expr := .leaf (.freq ⟨⟨"fc".toList, 0⟩, .flight, ⟨"ns".toList, 0, 0⟩, 4, 0, exNow, 0⟩)

/-- every kind of special function, in both ways of inserting -/
def typedOps : List Op :=
  [.makeSub ⟨1, [⟨"flight_id".toList, .int 3⟩], .and exCapPred (exI .gt 7)⟩, .insertSub 0, .insert ⟨2, [], .or exSegPred (exI .lt 4)⟩,
   .insert ⟨3, [], .and (.not exGeoPred) (exI .gt 2)⟩, .insert ⟨4, [], .and (exStrPred "s") (exI .lt 9)⟩, .insert ⟨5, [], exB⟩,
   .insert ⟨6, [], exI .gt 5⟩, .insert ⟨7, [], exI .gt 8⟩]

def typedWorld : World :=
  match (World.init (makeTree 1 0 typedDecls)).run exactRounding typedOps with
  | .ok w => w
  | .error _ => World.init (makeTree 1 0 typedDecls)

theorem typedWorld_run : (World.init (makeTree 1 0 typedDecls)).run exactRounding typedOps = .ok typedWorld := by
  have h : ((World.init (makeTree 1 0 typedDecls)).run exactRounding typedOps).isOk := by decide +kernel
  unfold typedWorld
  split
  · assumption
  · rename_i e he; rw [he] at h; cases h

def typedEvent : List EventVar :=
  [⟨"i".toList, .int 8⟩, ⟨"now".toList, .int 100⟩, ⟨"b".toList, .bool true⟩, ⟨"s".toList, .string ⟨"cabs".toList, 0, 0⟩⟩,
   ⟨"fc".toList, .freq [⟨.flight, 3, ⟨"ns".toList, 0, 0⟩, true, 90, 2⟩]⟩, ⟨"seg".toList, .segments [⟨7, 50000000⟩]⟩,
   ⟨"latitude".toList, .float 1⟩, ⟨"longitude".toList, .float 2⟩]

example : (typedWorld.tree.search exGeo typedEvent .empty).toOption.map (·.map (fun r => (r.subs, r.evaluated))) =
    some (some ([5, 2, 4, 3, 6, 1], 6)) := by decide +kernel

theorem typedWorld_types : typedWorld.tree.cfg.domains.map (fun d => (d.attr.attr, d.bound.ty)) =
    [("i".toList, .int), ("b".toList, .bool), ("s".toList, .string), ("now".toList, .int), ("fc".toList, .freq),
     ("seg".toList, .segments), ("latitude".toList, .float), ("longitude".toList, .float)] := by decide +kernel

theorem typedWorld_live : typedWorld.live = [⟨7, [], exI .gt 8⟩, ⟨6, [], exI .gt 5⟩, ⟨5, [], exB⟩,
    ⟨4, [], .and (exStrPred "s") (exI .lt 9)⟩, ⟨3, [], .and (.not exGeoPred) (exI .gt 2)⟩, ⟨2, [], .or exSegPred (exI .lt 4)⟩,
    ⟨1, [⟨"flight_id".toList, .int 3⟩], .and exCapPred (exI .gt 7)⟩] := by decide +kernel

/-- for the examples: the limits are binary fractions with few digits -/
local instance typedSearchFloats : Floats := coarseFloats fun _ => True

theorem typedWorld_sound : Sound typedDecls typedOps typedWorld := by
  have hi : declaredType typedWorld.tree.cfg.domains "i".toList = some .int := by decide +kernel
  have hb : declaredType typedWorld.tree.cfg.domains "b".toList = some .bool := by decide +kernel
  have hs : declaredType typedWorld.tree.cfg.domains "s".toList = some .string := by decide +kernel
  have hn : declaredType typedWorld.tree.cfg.domains "now".toList = some .int := by decide +kernel
  have hf : declaredType typedWorld.tree.cfg.domains "fc".toList = some .freq := by decide +kernel
  have hg : declaredType typedWorld.tree.cfg.domains "seg".toList = some .segments := by decide +kernel
  have h1 : declaredType typedWorld.tree.cfg.domains "latitude".toList = some .float := by decide +kernel
  have h2 : declaredType typedWorld.tree.cfg.domains "longitude".toList = some .float := by decide +kernel
  refine ⟨?_, ?_, ?_, by decide +kernel, by decide +kernel, ?_, ?_, ?_⟩
  · intro d hd
    simp only [typedDecls, List.mem_cons, List.not_mem_nil, or_false] at hd
    rcases hd with rfl | rfl | rfl | rfl | rfl | rfl | rfl | rfl <;> first
      | exact proper_float trivial (by decide +kernel) (.inr (by decide +kernel)) (.inr (by decide +kernel))
      | (simp [ProperDecl, sizeMax, int64Min, int64Max] <;> decide +kernel)
  · intro o ho
    simp only [typedOps, List.mem_cons, List.not_mem_nil, or_false] at ho
    rcases ho with rfl | rfl | rfl | rfl | rfl | rfl | rfl | rfl <;>
      simp [ModerateOp, MayWiden, Moderate, exI, exB, exCapPred, exSegPred, exGeoPred, exStrPred, ModInt, int64Min, int64Max] <;>
      exact fit_of_check (by decide +kernel)
  · refine small_of_lengths (by decide +kernel) ?_ ?_ <;> decide +kernel
  all_goals
    rw [typedWorld_live]
    intro q hq
    simp only [List.mem_cons, List.not_mem_nil, or_false] at hq
  · rcases hq with rfl | rfl | rfl | rfl | rfl | rfl | rfl <;>
      simp [Clocked, exI, exB, exCapPred, exSegPred, exGeoPred, exStrPred, exNow]
  · rcases hq with rfl | rfl | rfl | rfl | rfl | rfl | rfl <;>
      simp [Accepts, AcceptsPred, Is, Known, exI, exB, exCapPred, exSegPred, exGeoPred, exStrPred, exNow] <;>
      simp_all
  · rcases hq with rfl | rfl | rfl | rfl | rfl | rfl | rfl <;>
      simp [SpecialTyped, SpecialTypedPred, Is, exI, exB, exCapPred, exSegPred, exGeoPred, exStrPred, exNow] <;>
      simp_all

example : WellTyped typedWorld.tree.cfg.domains typedEvent := by
  intro v hv
  simp only [typedEvent, List.mem_cons, List.not_mem_nil, or_false] at hv
  rcases hv with rfl | rfl | rfl | rfl | rfl | rfl | rfl | rfl
  · exact ⟨.int, by decide +kernel, trivial⟩
  · exact ⟨.int, by decide +kernel, trivial⟩
  · exact ⟨.bool, by decide +kernel, trivial⟩
  · exact ⟨.string, by decide +kernel, trivial⟩
  · exact ⟨.freq, by decide +kernel, trivial⟩
  · exact ⟨.segments, by decide +kernel, trivial⟩
  · exact ⟨.float, by decide +kernel, trivial⟩
  · exact ⟨.float, by decide +kernel, trivial⟩

/-- how a search after a history fails, if it does -/
def searchFault (decls : List (Str × Decl × Bool)) (ops : List Op) (ev : List EventVar) : Option Fault :=
  match (World.init (makeTree 3 0 decls)).run exactRounding ops with
  | .error _ => none
  | .ok w =>
    match w.tree.search exGeo ev .empty with
    | .ok _ => none
    | .error x => some x

/-- Where C29 fails: `betree_make_sub` accepts `contains(i, "ab")` on an integer attribute; evaluating it reads the integer as a
string. -/
theorem C29_string_function_on_integer :
    searchFault typedDecls [.makeSub ⟨1, [], exStrPred "i"⟩, .insertSub 0] [⟨"i".toList, .int 8⟩, ⟨"now".toList, .int 100⟩] = some .ub := by
  decide +kernel

/-- `betree_insert` checks no types at all: the boolean variable `i`, on an integer attribute, is accepted. -/
theorem C29_insert_checks_no_types :
    searchFault typedDecls [.insert ⟨1, [], .leaf (.boolVar ⟨"i".toList, 0⟩)⟩] [⟨"i".toList, .int 8⟩, ⟨"now".toList, .int 100⟩] = some .ub := by
  decide +kernel

/-- nor that the `in` of the expression has an attribute on one side only: `1 in (1, 2)` aborts the validation already -/
theorem C29_in_without_attribute :
    (match (World.init (makeTree 3 0 typedDecls)).run exactRounding [.insert ⟨1, [], .leaf (.set .isIn (.int 1) (.intList [1, 2]))⟩] with
      | .error x => some x | .ok _ => none) = some .abort := by
  decide +kernel

end BeTree
