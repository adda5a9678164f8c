import Verif.Spec.Helper
import Verif.Props.Late
import Verif.Props.Search
import Verif.Lemmas.Lex
/-
C52: the definitions of the variables.  C53: an emptied tree.  C54: variables declared by lines of text.
-/
namespace BeTree
open Spec

/-! ### C52 -/

/-- names and types of the variables, in order -/
def Config.defs (cfg : Config) : List (Str × VType) := cfg.domains.map fun d => (d.attr.attr, d.bound.ty)

theorem defs_ext {a b : Config} (h : CfgExt a b) : b.defs = a.defs := by
  have := congrArg (List.map fun (x : AttrVar × VType × Bool) => (x.1.attr, x.2.1)) h.doms
  simpa [Config.defs, List.map_map, Function.comp_def] using this

theorem defs_declare (cfg : Config) (n : Str) (d : Decl) (u : Bool) :
    (declare cfg n d u).defs = cfg.defs ++ [(n, declaredAs d)] := by
  cases d <;> simp [declare, addDomain, Config.defs, Decl.bound, declaredAs]

theorem defs_foldl (decls : List (Str × Decl × Bool)) : ∀ cfg : Config,
    (decls.foldl (fun cfg d => declare cfg d.1 d.2.1 d.2.2) cfg).defs = cfg.defs ++ decls.map fun d => (d.1, declaredAs d.2.1) := by
  induction decls with
  | nil => intro cfg; simp
  | cons d ds ih => intro cfg; rw [List.foldl_cons, ih, defs_declare]; simp

theorem lateRun_defs {R : Rounding} : ∀ {ls : List LateOp} {w w' : World}, w.lateRun R ls = .ok w' →
    w'.tree.cfg.defs = w.tree.cfg.defs ++ (declarations ls).map fun d => (d.1, declaredAs d.2.1) := by
  intro ls
  induction ls with
  | nil => intro w w' h; cases h; simp [declarations]
  | cons l ls ih =>
    intro w w' h
    cases l with
    | declare n d u =>
      simp only [World.lateRun, World.lateStep] at h
      rw [ih h]
      show (declare w.tree.cfg n d u).defs ++ _ = _
      rw [defs_declare]
      simp [declarations]
    | op o =>
      simp only [World.lateRun, World.lateStep] at h
      split at h
      · cases h
      · rename_i w1 h1
        split at h1
        · rw [ih h, defs_ext (step_ext h1)]
          simp [declarations]
        · cases h1

/-- **C52**.  After any history of calls and declarations, the definition at an index is the name and the type of the declaration made
at that place, counting all declarations from the first; an index that is too large reads out of bounds. -/
theorem C52_definitions (R : Rounding) (cap min : Nat) (decls : List (Str × Decl × Bool)) (ls : List LateOp) (w : World)
    (h : (World.init (makeTree cap min decls)).lateRun R ls = .ok w) (index : Nat) :
    w.tree.variableDefinition index =
      match (decls ++ declarations ls)[index]? with
      | some (name, d, _) => .ok (name, declaredAs d)
      | none => .error .ub := by
  have h1 := lateRun_defs h
  have h2 : w.tree.cfg.defs = (decls ++ declarations ls).map fun d => (d.1, declaredAs d.2.1) := by
    rw [h1, List.map_append]
    congr 1
    exact (defs_foldl decls (makeConfig cap min)).trans (by simp [makeConfig, Config.defs])
  have h3 : w.tree.cfg.defs[index]? = ((decls ++ declarations ls)[index]?).map fun d => (d.1, declaredAs d.2.1) := by
    rw [h2, List.getElem?_map]
  simp only [Config.defs, List.getElem?_map] at h3
  unfold Tree.variableDefinition
  cases hd : w.tree.cfg.domains[index]? with
  | none =>
    rw [hd] at h3
    cases hx : (decls ++ declarations ls)[index]? with
    | none => rfl
    | some x => rw [hx] at h3; cases h3
  | some d =>
    rw [hd] at h3
    cases hx : (decls ++ declarations ls)[index]? with
    | none => rw [hx] at h3; cases h3
    | some x =>
      rw [hx] at h3
      obtain ⟨n, dc, u⟩ := x
      simp only [Option.map_some, Option.some.injEq] at h3
      dsimp only
      rw [h3]

/-- two variables declared first, then `late` and `f` between other calls -/
example : (World.init (makeTree 2 0 exampleDecls)).lateRun exactRounding lateOps = .ok lateWorld := lateWorld_run
example : ((List.range 5).map fun i => (lateWorld.tree.variableDefinition i).toOption) =
    [some ("i".toList, .int), some ("b".toList, .bool), some ("late".toList, .bool), some ("f".toList, .float), none] := by
  decide +kernel

/-! ### C53 -/

theorem emptied_ext (w : World) : CfgExt w.tree.cfg w.emptied.tree.cfg :=
  ⟨rfl, rfl, rfl, fun _ => List.prefix_refl _, fun _ => List.prefix_refl _, fun h => ⟨h.1, h.2, h.3, h.4⟩⟩

theorem emptied_contents (w : World) : w.emptied.tree.root.contents = [] := by
  simp [World.emptied, Tree.emptied, emptyCNode, CNode.contents, PNodes.contents]

theorem emptied_traced (w : World) : w.emptied.Traced :=
  ⟨PMOK.empty, by simp [World.emptied], fun _ => ⟨[], rfl, by rw [emptied_contents]; exact List.Perm.refl _, by simp⟩⟩

theorem emptied_prune [Floats] {w : World} (h : PruneOK w) : PruneOK w.emptied :=
  ⟨⟨fun v d hd => ⟨hd, (h.cfg.doms v d hd).var, (h.cfg.doms v d hd).float, (h.cfg.doms v d hd).ok⟩, h.cfg.strs, h.cfg.ints⟩, by simp only [World.emptied, Tree.emptied, emptyCNode, CNode.Pr, PNodes.Pr]⟩

theorem emptied_wider [Floats] (w : World) : Wider w.tree.cfg w.emptied.tree.cfg := Wider.refl w.tree.cfg

theorem emptyRun_ext {R : Rounding} : ∀ {os : List EmptyOp} {w w' : World}, w.emptyRun R os = .ok w' → CfgExt w.tree.cfg w'.tree.cfg := by
  intro os
  induction os with
  | nil => intro w w' h; cases h; exact CfgExt.refl _
  | cons o os ih =>
    intro w w' h
    cases o with
    | empty => exact (emptied_ext w).trans (ih h)
    | op o =>
      simp only [World.emptyRun] at h
      split at h
      · cases h
      · rename_i w1 h1
        exact (step_ext h1).trans (ih h)

theorem emptyRun_traced {R : Rounding} : ∀ {os : List EmptyOp} {w w' : World}, w.Traced → w.emptyRun R os = .ok w' → w'.Traced := by
  intro os
  induction os with
  | nil => intro w w' hw h; cases h; exact hw
  | cons o os ih =>
    intro w w' hw h
    cases o with
    | empty => exact ih (emptied_traced w) h
    | op o =>
      simp only [World.emptyRun] at h
      split at h
      · cases h
      · rename_i w1 h1
        exact ih (step_traced hw h1).1 h

theorem emptyRun_prune [Floats] {R : Rounding} : ∀ {os : List EmptyOp} {w w' : World}, PruneOK w → TablesOK w.tree.cfg → Small w'.tree.cfg →
    (∀ o, EmptyOp.op o ∈ os → ModerateOp o) → w.emptyRun R os = .ok w' → PruneOK w' ∧ Wider w.tree.cfg w'.tree.cfg := by
  intro os
  induction os with
  | nil => intro w w' hp _ _ _ h; cases h; exact ⟨hp, Wider.refl _⟩
  | cons o os ih =>
    intro w w' hp ht hs hm h
    cases o with
    | empty =>
      obtain ⟨p2, w2⟩ := ih (emptied_prune hp) ((emptied_ext w).ok ht) hs (fun o ho => hm o (List.mem_cons_of_mem _ ho)) h
      exact ⟨p2, (emptied_wider w).trans w2⟩
    | op o =>
      simp only [World.emptyRun] at h
      split at h
      · cases h
      · rename_i w1 h1
        obtain ⟨p1, w1'⟩ := step_prune hp ht (Small.of_ext (emptyRun_ext h) hs) (hm o List.mem_cons_self) h1
        obtain ⟨p2, w2'⟩ := ih p1 ((step_ext h1).ok ht) hs (fun o ho => hm o (List.mem_cons_of_mem _ ho)) h
        exact ⟨p2, w1'.trans w2'⟩

theorem emptyRun_ids [Floats] {R : Rounding} {T : World} {decls : List (Str × Decl × Bool)} (hs : Small T.tree.cfg) :
    ∀ {os : List EmptyOp} {w : World}, PruneOK w → LimitsHold decls w.tree.cfg → TablesOK w.tree.cfg → w.Traced →
    (∀ o, EmptyOp.op o ∈ os → ModerateOp o ∧ NamedOp decls T.tree.cfg o) →
    (∀ p ∈ w.pool, p.2.expr.erase.AllIds) → ((w.live.map Req.id).Nodup → ∀ s ∈ w.tree.root.contents, s.expr.erase.AllIds) →
    w.emptyRun R os = .ok T → (T.live.map Req.id).Nodup → ∀ s ∈ T.tree.root.contents, s.expr.erase.AllIds := by
  intro os
  induction os with
  | nil => intro w _ _ _ _ _ _ hst h; cases h; exact hst
  | cons o os ih =>
    intro w hpr hl ht hw hops hp hst h
    have hrun := emptyRun_prune hpr ht hs (fun o ho => (hops o ho).1) h
    cases o with
    | empty =>
      exact ih (emptied_prune hpr) (limits_wider hpr.cfg (emptied_wider w) (emptied_ext w) hl) ((emptied_ext w).ok ht) (emptied_traced w)
        (fun o ho => hops o (List.mem_cons_of_mem _ ho)) (by simp [World.emptied]) (by rw [emptied_contents]; simp) h
    | op o =>
      simp only [World.emptyRun] at h
      split at h
      · cases h
      · rename_i w1 h1
        have hx := emptyRun_ext h
        have hpr1 := step_prune hpr ht (Small.of_ext hx hs) (hops o List.mem_cons_self).1 h1
        obtain ⟨p1, p2⟩ := step_ids hpr.cfg hl hw (hops o List.mem_cons_self).2 hrun.2 hx hs hp hst h1
        exact ih hpr1.1 (limits_wider hpr.cfg hpr1.2 (step_ext h1) hl) ((step_ext h1).ok ht) (step_traced hw h1).1
          (fun o ho => hops o (List.mem_cons_of_mem _ ho)) p1 p2 h

/-- the exact search, from the invariants of a world -/
theorem search_exact [Floats] {geo : GeoTest} {cap min : Nat} {decls : List (Str × Decl × Bool)} {w : World} (hw : w.Traced)
    (hids : (w.live.map Req.id).Nodup) (hpo : PruneOK w) (hok : TablesOK w.tree.cfg) (hsmall : Small w.tree.cfg)
    (hx : CfgExt (makeTree cap min decls).cfg w.tree.cfg) (hall : ∀ s ∈ w.tree.root.contents, s.expr.erase.AllIds)
    {ev : List EventVar} (hev : EventInRange ev) (hpr : ∀ q ∈ w.live, Prunable decls w.tree.cfg ev q) {rep rep' : Report}
    (hs : w.tree.search geo ev rep = .ok (some rep')) :
    ∃ ids, rep'.subs = rep.subs ++ ids ∧ ids.Nodup ∧
      ∀ id, id ∈ ids ↔ ∃ q ∈ w.live, q.id = id ∧ sat geo (constants q.consts) (eventOf ev) q.expr := by
  obtain ⟨env, undef, subs, ids, st, h1, hval, h2, h3, h4', h6⟩ := search_inv hs
  have hsub := CNode.collect_sublist _ h3
  have h4 : plainLoop geo env undef subs = .ok ids := by
    rw [← searchLoop_plain (n := tryGetIdForAttr w.tree.cfg "now".toList) hw.pm subs (LoopState.init w.tree.cfg) (memoInit_ok geo env _ hw.pm), h4']
    · rfl
    · intro s hs
      obtain ⟨q, m, hm⟩ := stored_made hw hids (hsub.subset hs)
      exact ⟨hm.asg, hm.clock (hpr q m).supported.clocked⟩
  have h5 : rep'.subs = rep.subs ++ ids := by rw [h6]
  obtain ⟨p1, p2⟩ := plainLoop_mem h4
  refine ⟨ids, h5, ?_, fun id => ?_⟩
  · have h6 : (w.tree.root.contents.map Sub.id).Nodup := by
      obtain ⟨ps, a1, a2, a3⟩ := hw.stored hids
      have : (w.tree.root.contents.map Sub.id).Perm (w.live.map Req.id) := by
        rw [← a1, List.map_map]
        refine (a2.map Sub.id).trans ?_
        rw [List.map_map]
        exact List.Perm.of_eq (List.map_congr_left fun p hp => (a3 p hp).id)
      exact this.nodup_iff.2 hids
    exact ((plainLoop_sublist h4).trans (hsub.map _)).nodup h6
  · rw [p2]
    constructor
    · rintro ⟨s, hs1, hs2, hs3⟩
      have hsc := hsub.subset hs1
      obtain ⟨q, hq, hm⟩ := stored_made hw hids hsc
      exact ⟨q, hq, hm.id.symm.trans hs2,
        (hm.verdict hx (hpr q hq).supported hsmall hok (hall s hsc) hev h1 h2 hs3).1 rfl⟩
    · rintro ⟨q, hq, rfl, hsat⟩
      obtain ⟨s, hsc, hm⟩ := live_stored hw hids hq
      have hpq := hpr q hq
      have hin := CNode.collect_complete hval hpo.root h3 s hsc
        (hm.open hsmall hok (hall s hsc) hpq.supported.inRange h1 hpq.apart hpq.safe hsat)
      obtain ⟨b, hb⟩ := p1 s hin
      refine ⟨s, hin, hm.id, ?_⟩
      rw [hb, (hm.verdict hx hpq.supported hsmall hok (hall s hsc) hev h1 h2 hb).2 hsat]

/-- **C53** (partial, as C01).  After any history of calls among which the tree was emptied any number of times: a search that answers
adds to the report exactly the ids of the requests accepted since the tree was last emptied whose expression, as written, is true on
the event, each of them once.  An id used before may be used again after the tree was emptied. -/
theorem C53_emptied_search_exact_partial [Floats] (geo : GeoTest) (R : Rounding) (cap min : Nat) (decls : List (Str × Decl × Bool))
    (os : List EmptyOp) (w : World) (h : (World.init (makeTree cap min decls)).emptyRun R os = .ok w)
    (hd : ∀ d ∈ decls, ProperDecl d.1 d.2.1) (ho : ∀ o, EmptyOp.op o ∈ os → ModerateOp o ∧ NamedOp decls w.tree.cfg o)
    (hsmall : Small w.tree.cfg) (hids : (w.live.map Req.id).Nodup)
    (ev : List EventVar) (hev : EventInRange ev) (hpr : ∀ q ∈ w.live, Prunable decls w.tree.cfg ev q)
    (rep rep' : Report) (hs : w.tree.search geo ev rep = .ok (some rep')) :
    ∃ ids, rep'.subs = rep.subs ++ ids ∧ ids.Nodup ∧
      ∀ id, id ∈ ids ↔ ∃ q ∈ w.live, q.id = id ∧ sat geo (constants q.consts) (eventOf ev) q.expr :=
  search_exact (emptyRun_traced (init_traced cap min decls) h) hids
    (emptyRun_prune (makeTree_cfgOK hd) (makeTree_tablesOK cap min decls) hsmall (fun o hm => (ho o hm).1) h).1
    ((emptyRun_ext h).ok (makeTree_tablesOK cap min decls)) hsmall (emptyRun_ext h)
    (emptyRun_ids hsmall (makeTree_cfgOK hd) (makeTree_limits cap min decls) (makeTree_tablesOK cap min decls)
      (init_traced cap min decls) ho (by simp [World.init])
      (by simp [World.init, makeTree, emptyCNode, CNode.contents, PNodes.contents]) h hids) hev hpr hs

/-- **C53**: a search or an existence query right after the tree was emptied evaluates nothing and finds nothing. -/
theorem C53_emptied_finds_nothing (geo : GeoTest) (t : Tree) (ev : List EventVar) (rep : Report) :
    (∀ rep', t.emptied.search geo ev rep = .ok (some rep') → rep' = rep) ∧
      ∀ b, t.emptied.exists geo ev = .ok b → b = false := by
  refine ⟨fun rep' h => ?_, fun b h => ?_⟩
  · obtain ⟨env, undef, subs, ids, st, h1, _, h3, h4, h5, h6⟩ := search_inv h
    simp only [Tree.emptied, emptyCNode, CNode.collect, PNodes.collect] at h4
    cases h4
    simp only [List.append_nil, searchLoop] at h5
    cases h5
    rw [h6]
    simp [LoopState.init]
  · unfold Tree.exists at h
    split at h
    · cases h
    · unfold existsWithPreds at h
      split at h
      · cases h
      · simp only [Tree.emptied, emptyCNode, CNode.collect, PNodes.collect] at h
        simp only [existsLoop, List.append_nil] at h
        cases h; rfl

/-- **C53**: what the tree knows survives.  After any calls, emptyings included, the id of a string or of an enum value known before is
still its id. -/
theorem C53_knowledge_stays (R : Rounding) (cap min : Nat) (decls : List (Str × Decl × Bool)) (os more : List EmptyOp) (w w' : World)
    (h : (World.init (makeTree cap min decls)).emptyRun R os = .ok w) (h' : w.emptyRun R more = .ok w') (var i : Nat) :
    (∀ s : Str, w.tree.stringId var s = some i → w'.tree.stringId var s = some i) ∧
      ∀ x : Int, w.tree.enumId var x = some i → w'.tree.enumId var x = some i := by
  have hok : TablesOK w.tree.cfg := (emptyRun_ext h).ok (makeTree_tablesOK cap min decls)
  have hx := emptyRun_ext h'
  refine ⟨fun s hi => ?_, fun x hi => ?_⟩
  · have e1 := (stringId_iff hok).1 hi
    exact (stringId_iff (hx.ok hok)).2 ⟨prefix_get (hx.strs var) e1.1, e1.2⟩
  · have e1 := (enumId_iff hok).1 hi
    exact (enumId_iff (hx.ok hok)).2 ⟨prefix_get (hx.ints var) e1.1, e1.2⟩

/-! a concrete case: three subscriptions, two of them sharing a predicate; the tree is emptied, and the ids 1 and 2 are used again for
other expressions -/

def emptyOps : List EmptyOp :=
  [.op (.insert ⟨1, [], exI .lt 3⟩), .op (.insert ⟨2, [], .or (exS "a") (exI .lt 3)⟩), .op (.insert ⟨3, [], exI .lt 3⟩), .empty,
   .op (.insert ⟨1, [], exI .gt 7⟩), .op (.makeSub ⟨2, [], .or exB (exI .gt 7)⟩), .op (.insertSub 0),
   .op (.insert ⟨4, [], exS "a"⟩)]

def emptyWorld : World :=
  match (World.init (makeTree 2 0 searchDecls)).emptyRun exactRounding emptyOps with
  | .ok w => w
  | .error _ => World.init (makeTree 2 0 searchDecls)

theorem emptyWorld_run : (World.init (makeTree 2 0 searchDecls)).emptyRun exactRounding emptyOps = .ok emptyWorld := by
  have h : ((World.init (makeTree 2 0 searchDecls)).emptyRun exactRounding emptyOps).isOk := by decide +kernel
  unfold emptyWorld
  split
  · assumption
  · rename_i e he; rw [he] at h; cases h

/-- on `i = 30`, `s = "a"` all three are found, on `i = 2`, `s = "c"` none, although `i < 3` was stored before -/
example : ((emptyWorld.tree.search exGeo searchEvent .empty).toOption.map (·.map (fun r => r.subs)),
    (emptyWorld.tree.search exGeo [⟨"i".toList, .int 2⟩, ⟨"s".toList, .string ⟨"c".toList, 0, 0⟩⟩] .empty).toOption.map
      (·.map (fun r => r.subs))) = (some (some [4, 1, 2]), some (some [])) := by decide +kernel

example : (emptyWorld.live.map Req.id).Nodup := by decide +kernel

example : Small emptyWorld.tree.cfg := by refine small_of_lengths (by decide +kernel) ?_ ?_ <;> decide +kernel

/-- for the examples: the limits are binary fractions with few digits -/
local instance helperFloats : Floats := coarseFloats fun _ => True

example : ∀ o, EmptyOp.op o ∈ emptyOps → ModerateOp o ∧ NamedOp searchDecls emptyWorld.tree.cfg o := by
  have hdom : emptyWorld.tree.cfg.domains.map (fun d => (d.attr.attr, d.bound)) =
      [("i".toList, { ty := .int, lo := .i 0, hi := .i 10 }), ("b".toList, { ty := .bool, lo := .b false, hi := .b true }),
       ("s".toList, { ty := .string, lo := .s 0, hi := .s (sizeMax - 1) }),
       ("f".toList, { ty := .float, lo := .f 0, hi := .f 8 }), ("il".toList, { ty := .intList, lo := .i 0, hi := .i 20 })] := by
    decide +kernel
  have huns : ∀ d ∈ emptyWorld.tree.cfg.domains, d.attr.attr = lowerKey "s".toList → Unlimited d.bound := by
    intro d hd hn
    have hm : (d.attr.attr, d.bound) ∈ emptyWorld.tree.cfg.domains.map (fun d => (d.attr.attr, d.bound)) :=
      List.mem_map_of_mem (f := fun d : Domain => (d.attr.attr, d.bound)) hd
    rw [hdom, hn] at hm
    simp only [List.mem_cons, Prod.mk.injEq, List.not_mem_nil, or_false] at hm
    rcases hm with ⟨h, _⟩ | ⟨h, _⟩ | ⟨_, h⟩ | ⟨h, _⟩ | ⟨h, _⟩
    · exact absurd h (by decide)
    · exact absurd h (by decide)
    · rw [h]; exact ⟨Or.inl rfl, rfl⟩
    · exact absurd h (by decide)
    · exact absurd h (by decide)
  intro o ho
  simp only [emptyOps, List.mem_cons, List.not_mem_nil, or_false, EmptyOp.op.injEq, reduceCtorEq, false_or] at ho
  rcases ho with rfl | rfl | rfl | rfl | rfl | rfl | rfl <;>
    simp [ModerateOp, MayWiden, NamedOp, Roomy, Moderate, exI, exB, exS, strConsts, enumConsts, predStrConsts, predEnumConsts, ModInt,
      int64Min, int64Max, Expr.InRange, Pred.InRange] <;>
    first
      | exact .inl huns
      | exact fit_of_check (by decide +kernel)

example : ∀ q ∈ emptyWorld.live, Prunable searchDecls emptyWorld.tree.cfg searchEvent q := by
  have h : emptyWorld.live = [⟨4, [], exS "a"⟩, ⟨2, [], .or exB (exI .gt 7)⟩, ⟨1, [], exI .gt 7⟩] := by decide +kernel
  rw [h]
  have hf : ∀ x, (eventOf searchEvent).get ⟨"i".toList, 0⟩ ≠ some (.float x) := by
    intro x hx
    have h3 : some (Value.int 30) = some (Value.float x) := hx
    simp at h3
  intro q hq
  simp only [List.mem_cons, List.not_mem_nil, or_false] at hq
  rcases hq with rfl | rfl | rfl <;>
    refine ⟨⟨?_, by simp [ConstantsInRange], ?_, ?_⟩, ?_, ?_⟩ <;>
    simp [exI, exB, exS, Expr.InRange, Pred.InRange, Clocked, ShortSafe, BoundSafe, Separated] <;>
    exact fun _ x hx => absurd hx (hf x)

/-- **C53, what fails**: a subscription built before the tree was emptied and inserted afterwards.  `i < 3` was stored and built again
(so its verdict is shared, under number 0); after the emptying number 0 is `i > 7`.  On `i = 9` the evaluation of the two
subscriptions `i > 7` leaves "true" under number 0, and the old `i < 3`, whose nodes carry the old numbers, is taken for true. -/
theorem C53_stale_subscription :
    (match (World.init (makeTree 3 0 exampleDecls)).run exactRounding [.insert ⟨1, [], exI .lt 3⟩, .makeSub ⟨2, [], exI .lt 3⟩] with
      | .error _ => none
      | .ok w =>
        match w.pool[0]?, w.emptied.run exactRounding [.insert ⟨3, [], exI .gt 7⟩, .insert ⟨4, [], exI .gt 7⟩] with
        | some (_, stale), .ok w' =>
          match eventEnv w'.tree.cfg [⟨"i".toList, .int 9⟩] with
          | .error _ => none
          | .ok env =>
            match makeUndefined env with
            | .error _ => none
            | .ok undef =>
              match searchLoop exGeo w'.tree.cfg.predMap.memoizeId env undef w'.tree.root.contents (LoopState.init w'.tree.cfg) with
              | .error _ => none
              | .ok (ids, st) =>
                match matchSub exGeo w.tree.cfg.predMap.memoizeId env undef stale st, evalExpr exGeo env stale.expr.erase with
                | .ok (b, _), .ok b' => some (ids, b, b')
                | _, _ => none
        | _, _ => none) = some ([3, 4], true, false) := by decide +kernel

/-! ### C54 -/

theorem strtok_field {f rest : Str} {ds : List Char} {d : Char} (hd : d ∈ ds) (h1 : f ≠ []) (h2 : ∀ c ∈ f, c ∉ ds) :
    strtok ds (f ++ d :: rest) = (some f, rest) := by
  obtain ⟨c, cs, rfl⟩ := List.exists_cons_of_ne_nil h1
  have hc : c ∉ ds := h2 c List.mem_cons_self
  unfold strtok
  rw [List.cons_append, List.dropWhile_cons_of_neg (by simpa using hc)]
  dsimp only
  have e1 : ((c :: cs) ++ d :: rest).takeWhile (fun x => decide (x ∉ ds)) = c :: cs := by
    rw [List.takeWhile_append_of_pos (by simpa using h2), List.takeWhile_cons_of_neg (by simpa using hd), List.append_nil]
  have e2 : ((c :: cs) ++ d :: rest).dropWhile (fun x => decide (x ∉ ds)) = d :: rest := by
    rw [List.dropWhile_append_of_pos (by simpa using h2), List.dropWhile_cons_of_neg (by simpa using hd)]
  rw [List.cons_append] at e1 e2
  rw [e1, e2]
  rfl

theorem strtok_last {f : Str} {ds : List Char} (h1 : f ≠ []) (h2 : ∀ c ∈ f, c ∉ ds) : strtok ds f = (some f, []) := by
  obtain ⟨c, cs, rfl⟩ := List.exists_cons_of_ne_nil h1
  have hc : c ∉ ds := h2 c List.mem_cons_self
  unfold strtok
  rw [List.dropWhile_cons_of_neg (by simpa using hc)]
  dsimp only
  have e1 : (c :: cs).takeWhile (fun x => decide (x ∉ ds)) = c :: cs := by
    have := List.takeWhile_append_of_pos (p := fun x => decide (x ∉ ds)) (l₁ := c :: cs) (l₂ := []) (by simpa using h2)
    simpa using this
  have e2 : (c :: cs).dropWhile (fun x => decide (x ∉ ds)) = [] := by
    have := List.dropWhile_append_of_pos (p := fun x => decide (x ∉ ds)) (l₁ := c :: cs) (l₂ := []) (by simpa using h2)
    simpa using this
  rw [e1, e2]
  rfl

theorem strtok_nil {ds : List Char} : strtok ds [] = (none, []) := rfl

theorem field_bar {f : Str} (h : Field f) : ∀ c ∈ f, c ∉ ['|'] := by
  intro c hc hm
  simp only [List.mem_singleton] at hm
  exact h.2.1 (hm ▸ hc)

theorem field_both {f : Str} (h : Field f) : ∀ c ∈ f, c ∉ ['|', '\n'] := by
  intro c hc hm
  simp only [List.mem_cons, List.not_mem_nil, or_false] at hm
  rcases hm with rfl | rfl
  · exact h.2.1 hc
  · exact h.2.2 hc

theorem lineFields_of {name type flag ending : Str} {limits : List Str} (hn : Field name) (ht : Field type) (hf : Field flag)
    (hl : ∀ l ∈ limits, Field l) (h2 : limits.length ≤ 2) (he : ending ∈ ["".toList, "\n".toList]) :
    lineFields (List.intercalate ['|'] (name :: type :: flag :: limits) ++ ending) =
      .ok { name := name, type := type, allowUndefined := decide (flag = "true".toList), min := limits[0]?, max := limits[1]? } := by
  have b1 : '|' ∈ ['|'] := by simp
  have b2 : '|' ∈ ['|', '\n'] := by simp
  have b3 : '\n' ∈ ['|', '\n'] := by simp
  have last : ∀ {f : Str}, Field f → strtok ['|', '\n'] (f ++ ending) = (some f, []) := by
    intro f hff
    simp only [List.mem_cons, List.not_mem_nil, or_false] at he
    rcases he with rfl | rfl
    · rw [show f ++ "".toList = f from List.append_nil f]; exact strtok_last hff.1 (field_both hff)
    · exact strtok_field b3 hff.1 (field_both hff)
  have hi : List.intercalate ['|'] (name :: type :: flag :: limits) ++ ending =
      name ++ '|' :: (type ++ '|' :: (List.intercalate ['|'] (flag :: limits) ++ ending)) := by
    simp [List.intercalate, List.intersperse]
  unfold lineFields
  rw [hi, strtok_field b1 hn.1 (field_bar hn)]
  dsimp only
  rw [strtok_field b1 ht.1 (field_bar ht)]
  dsimp only
  match limits, hl, h2 with
  | [], _, _ =>
    have : List.intercalate ['|'] [flag] ++ ending = flag ++ ending := by simp [List.intercalate]
    rw [this, last hf]
    rfl
  | [a], hl, _ =>
    have : List.intercalate ['|'] [flag, a] ++ ending = flag ++ '|' :: (a ++ ending) := by simp [List.intercalate, List.intersperse]
    rw [this, strtok_field b2 hf.1 (field_both hf)]
    dsimp only
    rw [last (hl a (by simp))]
    rfl
  | [a, b], hl, _ =>
    have : List.intercalate ['|'] [flag, a, b] ++ ending = flag ++ '|' :: (a ++ '|' :: (b ++ ending)) := by
      simp [List.intercalate, List.intersperse]
    rw [this, strtok_field b2 hf.1 (field_both hf)]
    dsimp only
    have ha := hl a (by simp)
    rw [strtok_field b2 ha.1 (field_both ha)]
    dsimp only
    rw [last (hl b (by simp))]
    rfl

theorem digits_all {w : Str} (h : Digits w) : w.takeWhile Char.isDigit = w := by
  have := List.takeWhile_append_of_pos (p := Char.isDigit) (l₁ := w) (l₂ := []) h
  simpa using this

theorem strtollAny_numeral {a : Str} {n : Int} (h : Numeral a n) (h1 : -2 ^ 63 ≤ n) (h2 : n < 2 ^ 63) : strtollAny a = n := by
  cases h with
  | nat hne hd =>
    obtain ⟨c, cs, rfl⟩ := List.exists_cons_of_ne_nil hne
    have hc : c.isDigit := hd c List.mem_cons_self
    have hs : isSpace c = false := by
      unfold isSpace
      simp only [Char.isDigit, Bool.and_eq_true, decide_eq_true_eq] at hc
      have h0 : 48 ≤ c.toNat := hc.1
      have hne : c ≠ ' ' := by rintro rfl; exact absurd h0 (by decide)
      simp [hne]; omega
    have hm : c ≠ '-' := by rintro rfl; exact absurd hc (by decide)
    have hp : c ≠ '+' := by rintro rfl; exact absurd hc (by decide)
    unfold strtollAny
    rw [List.dropWhile_cons_of_neg (by simp [hs])]
    split
    · rename_i heq; cases heq; exact absurd rfl hm
    · rename_i heq; cases heq; exact absurd rfl hp
    · rw [digits_all hd]
      unfold strtoll
      rw [digitsVal_eq, if_pos (by unfold int64Max; omega)]
  | neg hne hd =>
    rename_i w
    unfold strtollAny
    rw [List.dropWhile_cons_of_neg (by decide)]
    show (if int64Min ≤ -((digitsVal (w.takeWhile Char.isDigit) : Nat) : Int) then -((digitsVal (w.takeWhile Char.isDigit) : Nat) : Int)
      else int64Min) = _
    rw [digits_all hd, digitsVal_eq, if_pos (by unfold int64Min; omega)]

theorem strtolSize_numeral {a : Str} {n : Nat} (h : Numeral a n) (h2 : n < 2 ^ 63) : strtolSize a = n := by
  unfold strtolSize
  rw [strtollAny_numeral h (by omega) (by omega)]
  omega

/-- **C54**.  A line that declares a variable, as its parts say, does to the tree what declaring that variable does. -/
theorem C54_line (real : Str → Rat) (t : Tree) (line : Str) (name : Str) (d : Decl) (u : Bool) (h : LineSays real line (name, d, u)) :
    t.addVariableFromString real line = .ok (t.declare name d u) := by
  cases h with
  | mk hn hf hl hd he =>
    unfold Tree.addVariableFromString
    cases hd <;>
      (rw [lineFields_of hn (by unfold Spec.Field; decide) hf hl (by simp) he]
       dsimp only [lineDecl, List.getElem?_cons_zero, List.getElem?_cons_succ, List.getElem?_nil, Option.map, Option.getD]
       simp [int64Min, int64Max, sizeMax])
    · rename_i x1 x2 x3
      rw [strtollAny_numeral x1 x2 x3]
    · rename_i x1 x2 x3 y1 y2 y3
      rw [strtollAny_numeral x1 x2 x3, strtollAny_numeral y1 y2 y3]
    · rename_i x1 x2 x3 y1 y2 y3
      rw [strtollAny_numeral x1 x2 x3, strtollAny_numeral y1 y2 y3]
    all_goals
      rename_i x1 x2
      rw [strtolSize_numeral x1 x2]

/-- declaring variables by lines, one after the other (the loop of `read_betree_defs`, tests/real_tests.c:151-161) -/
def Tree.addVariablesFromStrings (real : Str → Rat) (t : Tree) : List Str → Except Fault Tree
  | [] => .ok t
  | l :: ls =>
    match t.addVariableFromString real l with
    | .error e => .error e
    | .ok t => t.addVariablesFromStrings real ls

/-- **C54** for a whole file: a new tree whose variables are declared by lines is the tree whose variables are declared by the calls. -/
theorem C54_lines (real : Str → Rat) (cap min : Nat) (lines : List Str) (decls : List (Str × Decl × Bool))
    (h : List.Forall₂ (LineSays real) lines decls) :
    (makeTree cap min []).addVariablesFromStrings real lines = .ok (makeTree cap min decls) := by
  have key : ∀ {lines decls}, List.Forall₂ (LineSays real) lines decls → ∀ before,
      (makeTree cap min before).addVariablesFromStrings real lines = .ok (makeTree cap min (before ++ decls)) := by
    intro lines decls h
    induction h with
    | nil => intro before; simp [Tree.addVariablesFromStrings]
    | @cons l d ls ds h _ ih =>
      intro before
      obtain ⟨n, dc, u⟩ := d
      have hm : (makeTree cap min before).declare n dc u = makeTree cap min (before ++ [(n, dc, u)]) := by
        have hc : (before ++ [(n, dc, u)]).foldl (fun cfg d => declare cfg d.1 d.2.1 d.2.2) (makeConfig cap min) =
            declare (before.foldl (fun cfg d => declare cfg d.1 d.2.1 d.2.2) (makeConfig cap min)) n dc u := by
          rw [List.foldl_append]; rfl
        unfold makeTree
        rw [hc]
        rfl
      unfold Tree.addVariablesFromStrings
      rw [C54_line real _ l n dc u h]
      dsimp only
      rw [hm, ih]
      simp
  simpa using key h []

/-- lines of the kind the tests read: `width|integer|false|0|4000`, `city|string|true|200` and `tags|integer list|true` -/
example (real : Str → Rat) : List.Forall₂ (LineSays real)
    ["width|integer|false|-5|4000\n".toList, "city|string|true|200\n".toList, "tags|integer list|true".toList]
    [("width".toList, .int (-5) 4000, false), ("city".toList, .string 200, true),
     ("tags".toList, .intList (-2 ^ 63) (2 ^ 63 - 1), true)] := by
  have f : ∀ s : Str, s ≠ [] ∧ '|' ∉ s ∧ '\n' ∉ s → Spec.Field s := fun s h => h
  refine .cons ?_ (.cons ?_ (.cons ?_ .nil))
  · refine LineSays.mk (name := "width".toList) (flag := "false".toList) (type := "integer") (limits := ["-5".toList, "4000".toList])
      (ending := "\n".toList) (f _ (by decide)) (f _ (by decide)) ?_ ?_ (by simp)
    · simp only [List.mem_cons, List.not_mem_nil, or_false]
      rintro l (rfl | rfl) <;> exact f _ (by decide)
    · exact Describes.intBoth (Numeral.neg (w := "5".toList) (by decide) (by unfold Digits; decide)) (by decide) (by decide)
        (Numeral.nat (w := "4000".toList) (by decide) (by unfold Digits; decide)) (by decide) (by decide)
  · refine LineSays.mk (name := "city".toList) (flag := "true".toList) (type := "string") (limits := ["200".toList])
      (ending := "\n".toList) (f _ (by decide)) (f _ (by decide)) ?_ ?_ (by simp)
    · simp only [List.mem_cons, List.not_mem_nil, or_false]
      rintro l rfl; exact f _ (by decide)
    · exact Describes.stringMax (n := 200) (Numeral.nat (w := "200".toList) (by decide) (by unfold Digits; decide)) (by decide)
  · refine LineSays.mk (name := "tags".toList) (flag := "true".toList) (type := "integer list") (limits := [])
      (ending := []) (f _ (by decide)) (f _ (by decide)) (by simp) Describes.intList (by simp)

/-- **C54**: a line whose type is none of the nine ends the process. -/
theorem C54_unknown_type_aborts (real : Str → Rat) (t : Tree) (name type flag ending : Str) (limits : List Str) (hn : Spec.Field name)
    (ht : Spec.Field type) (hf : Spec.Field flag) (hl : ∀ l ∈ limits, Spec.Field l) (h2 : limits.length ≤ 2)
    (he : ending ∈ ["".toList, "\n".toList])
    (hu : type ∉ ["integer".toList, "float".toList, "boolean".toList, "frequency".toList, "segments".toList, "string".toList,
      "integer enum".toList, "integer list".toList, "string list".toList]) :
    t.addVariableFromString real (List.intercalate ['|'] (name :: type :: flag :: limits) ++ ending) = .error .abort := by
  simp only [List.mem_cons, List.not_mem_nil, or_false, not_or] at hu
  obtain ⟨u1, u2, u3, u4, u5, u6, u7, u8, u9⟩ := hu
  unfold Tree.addVariableFromString
  rw [lineFields_of hn ht hf hl h2 he]
  simp only [lineDecl, u1, u2, u3, u4, u5, u6, u7, u8, u9, if_false]

/-- **C54**: a line with a name and a type only hands a null pointer to `strcmp`. -/
theorem C54_two_fields_fault (real : Str → Rat) (t : Tree) (name type : Str) (hn : Spec.Field name) (ht : Spec.Field type) :
    t.addVariableFromString real (name ++ '|' :: type) = .error .ub := by
  unfold Tree.addVariableFromString lineFields
  rw [strtok_field (by simp) hn.1 (field_bar hn)]
  dsimp only
  rw [strtok_last ht.1 (field_bar ht)]
  rfl

/-- **C54, what fails**: an empty part is skipped, so the parts after it move: here the minimum is taken for the flag and the maximum
for the minimum. -/
theorem C54_empty_part_shifts : lineFields "w|integer||0|10".toList =
    .ok { name := "w".toList, type := "integer".toList, allowUndefined := false, min := some "10".toList, max := none } := by decide +kernel

/-- **C54, what fails**: an integer list with a minimum only gets no limits at all (an integer with a minimum only keeps it). -/
theorem C54_list_minimum_ignored :
    ((lineFields "w|integer list|true|0".toList).bind (lineDecl fun _ => 0)).toOption = some (.intList int64Min int64Max) ∧
      ((lineFields "w|integer|true|0".toList).bind (lineDecl fun _ => 0)).toOption = some (.int 0 int64Max) := by decide +kernel

end BeTree
