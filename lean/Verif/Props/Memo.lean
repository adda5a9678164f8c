import Verif.Lemmas.Memo
import Verif.Props.Event
import Verif.Props.Report
/-
C08: memoisation is transparent.  C10: predicate ids.
-/
namespace BeTree
open Spec

/-- the sub-expressions of a stored expression, itself included -/
def AExpr.nodes : AExpr → List AExpr
  | .leaf g p => [.leaf g p]
  | .not g e => .not g e :: e.nodes
  | .and g l r => .and g l r :: (l.nodes ++ r.nodes)
  | .or g l r => .or g l r :: (l.nodes ++ r.nodes)

theorem Assigned.nodes {m : RB AExpr} {a : AExpr} (h : Assigned m a) : ∀ b ∈ a.nodes, Assigned m b := by
  induction a with
  | leaf g p => intro b hb; simp only [AExpr.nodes, List.mem_singleton] at hb; subst hb; exact h
  | not g e ih =>
    intro b hb
    rcases List.mem_cons.1 hb with rfl | hb
    · exact h
    · exact ih h.2 b hb
  | and g l r ihl ihr =>
    intro b hb
    rcases List.mem_cons.1 hb with rfl | hb
    · exact h
    · rcases List.mem_append.1 hb with hb | hb
      · exact ihl h.2.1 b hb
      · exact ihr h.2.2 b hb
  | or g l r ihl ihr =>
    intro b hb
    rcases List.mem_cons.1 hb with rfl | hb
    · exact h
    · rcases List.mem_append.1 hb with hb | hb
      · exact ihl h.2.1 b hb
      · exact ihr h.2.2 b hb

theorem ClockVar.nodes {n : Nat} {a : AExpr} (h : ClockVar n a.erase) : ∀ b ∈ a.nodes, ClockVar n b.erase := by
  induction a with
  | leaf g p => intro b hb; simp only [AExpr.nodes, List.mem_singleton] at hb; subst hb; exact h
  | not g e ih =>
    intro b hb
    rcases List.mem_cons.1 hb with rfl | hb
    · exact h
    · exact ih h b hb
  | and g l r ihl ihr =>
    intro b hb
    rcases List.mem_cons.1 hb with rfl | hb
    · exact h
    · rcases List.mem_append.1 hb with hb | hb
      · exact ihl h.1 b hb
      · exact ihr h.2 b hb
  | or g l r ihl ihr =>
    intro b hb
    rcases List.mem_cons.1 hb with rfl | hb
    · exact h
    · rcases List.mem_append.1 hb with hb | hb
      · exact ihl h.1 b hb
      · exact ihr h.2 b hb

/-- every stored subscription belongs to an accepted request -/
theorem stored_made {w : World} (hw : w.Traced) (hids : (w.live.map Req.id).Nodup) {s : Sub}
    (hs : s ∈ w.tree.root.contents) : ∃ q ∈ w.live, Made w.tree.cfg q s := by
  obtain ⟨ps, h1, h2, h3⟩ := hw.stored hids
  obtain ⟨p, hp, rfl⟩ := List.mem_map.1 (h2.mem_iff.1 hs)
  exact ⟨p.1, by rw [← h1]; exact List.mem_map_of_mem hp, h3 p hp⟩

/-- C10.  After any history, two (sub-)expressions of stored subscriptions have the same predicate id exactly when they
are structurally the same expression over the same attributes and constants (`Spec.Same`; attributes and constants by their
ids, which C25/C26 show to stand for one string or integer each). -/
theorem C10_same_id_iff_same (R : Rounding) (cap min : Nat) (decls : List (Str × Decl × Bool)) (ops : List Op) (w : World)
    (h : (World.init (makeTree cap min decls)).run R ops = .ok w) (hids : (w.live.map Req.id).Nodup)
    (s t : Sub) (hs : s ∈ w.tree.root.contents) (ht : t ∈ w.tree.root.contents)
    (a : AExpr) (ha : a ∈ s.expr.nodes) (b : AExpr) (hb : b ∈ t.expr.nodes) :
    a.gid = b.gid ↔ Same a.erase b.erase := by
  have hw := (run_traced (init_traced cap min decls) h).1
  obtain ⟨_, _, h1⟩ := stored_made hw hids hs
  obtain ⟨_, _, h2⟩ := stored_made hw hids ht
  exact gid_eq_iff hw.pm (h1.asg.nodes a ha) (h2.asg.nodes b hb)

/-- C10, second part: expressions sharing an id evaluate alike on every event. -/
theorem C10_same_id_evaluates_alike (geo : GeoTest) (R : Rounding) (cap min : Nat) (decls : List (Str × Decl × Bool))
    (ops : List Op) (w : World) (h : (World.init (makeTree cap min decls)).run R ops = .ok w)
    (hids : (w.live.map Req.id).Nodup) (hclock : ∀ q ∈ w.live, Clocked q.expr)
    (s t : Sub) (hs : s ∈ w.tree.root.contents) (ht : t ∈ w.tree.root.contents)
    (a : AExpr) (ha : a ∈ s.expr.nodes) (b : AExpr) (hb : b ∈ t.expr.nodes) (hg : a.gid = b.gid) (env : Env) :
    evalExpr geo env a.erase = evalExpr geo env b.erase := by
  have hw := (run_traced (init_traced cap min decls) h).1
  obtain ⟨q1, m1, h1⟩ := stored_made hw hids hs
  obtain ⟨q2, m2, h2⟩ := stored_made hw hids ht
  exact same_eval geo env ((gid_eq_iff hw.pm (h1.asg.nodes a ha) (h2.asg.nodes b hb)).1 hg)
    ((h1.clock (hclock q1 m1)).nodes a ha) ((h2.clock (hclock q2 m2)).nodes b hb)

/-! ### C08 -/

/-- the verdict on a subscription with no caching at all -/
def plainMatch (geo : GeoTest) (env : Env) (undef : Bits) (s : Sub) : Except Fault Bool :=
  match tryShortCircuit s.pass s.fail undef with
  | .pass => .ok true
  | .fail => .ok false
  | .none => evalExpr geo env s.expr.erase

/-- the ids of the matching subscriptions, each evaluated afresh -/
def plainLoop (geo : GeoTest) (env : Env) (undef : Bits) : List Sub → Except Fault (List Nat)
  | [] => .ok []
  | s :: ss =>
    match plainMatch geo env undef s with
    | .error e => .error e
    | .ok b =>
      match plainLoop geo env undef ss with
      | .error e => .error e
      | .ok ids => .ok (if b then s.id :: ids else ids)

theorem searchLoop_plain {geo : GeoTest} {env : Env} {pm : PredMap} {n : Nat} {undef : Bits} (hp : PMOK pm) :
    ∀ (subs : List Sub) (st : LoopState), MemoOK geo env pm n st.m →
      (∀ s ∈ subs, Assigned pm.m s.expr ∧ ClockVar n s.expr.erase) →
      (searchLoop geo pm.memoizeId env undef subs st).map Prod.fst = plainLoop geo env undef subs := by
  intro subs
  induction subs with
  | nil => intro st _ _; rfl
  | cons s ss ih =>
    intro st hst hs
    have hss := fun s' hs' => hs s' (List.mem_cons_of_mem _ hs')
    have hrec : ∀ (b : Bool) (st' : LoopState), MemoOK geo env pm n st'.m →
        (match searchLoop geo pm.memoizeId env undef ss st' with
          | .error e => (.error e : Except Fault (List Nat × LoopState))
          | .ok (ids, st) => .ok (if b then s.id :: ids else ids, st)).map Prod.fst =
        (match plainLoop geo env undef ss with
          | .error e => .error e
          | .ok ids => .ok (if b then s.id :: ids else ids)) := by
      intro b st' hst'
      rw [← ih st' hst' hss]
      cases searchLoop geo pm.memoizeId env undef ss st' with
      | error e => rfl
      | ok r => rfl
    simp only [searchLoop, matchSub, plainLoop, plainMatch]
    cases tryShortCircuit s.pass s.fail undef with
    | pass => exact hrec true _ hst
    | fail => exact hrec false _ hst
    | none =>
      obtain ⟨h1, h2⟩ := hs s (List.mem_cons_self ..)
      have hm := matchNode_agrees (geo := geo) (env := env) hp s.expr hst h1 h2
      simp only
      cases he : evalExpr geo env s.expr.erase with
      | error e => rw [he] at hm; simp only [Agrees] at hm; simp only [hm]; rfl
      | ok b =>
        rw [he] at hm
        obtain ⟨m, hm1, hm2⟩ := hm
        simp only [hm1]
        exact hrec b _ hm2

/-- C08.  After any history, for every event and every list of stored subscriptions in every order: the loop that shares
verdicts through the memo tables reports exactly the ids (and faults exactly as) evaluating every subscription afresh. -/
theorem C08_memo_transparent (geo : GeoTest) (R : Rounding) (cap min : Nat) (decls : List (Str × Decl × Bool))
    (ops : List Op) (w : World) (h : (World.init (makeTree cap min decls)).run R ops = .ok w)
    (hids : (w.live.map Req.id).Nodup) (hclock : ∀ q ∈ w.live, Clocked q.expr)
    (env : Env) (undef : Bits) (subs : List Sub) (hsubs : ∀ s ∈ subs, s ∈ w.tree.root.contents) :
    (searchLoop geo w.tree.cfg.predMap.memoizeId env undef subs (LoopState.init w.tree.cfg)).map Prod.fst =
      plainLoop geo env undef subs := by
  have hw := (run_traced (init_traced cap min decls) h).1
  refine searchLoop_plain (n := tryGetIdForAttr w.tree.cfg "now".toList) hw.pm subs _ (memoInit_ok geo env _ hw.pm) ?_
  intro s hs
  obtain ⟨q, m, h1⟩ := stored_made hw hids (hsubs s hs)
  exact ⟨h1.asg, h1.clock (hclock q m)⟩

/-- C08 for a whole search: the report lists the ids found by evaluating the visited subscriptions afresh. -/
theorem C08_search (geo : GeoTest) (R : Rounding) (cap min : Nat) (decls : List (Str × Decl × Bool))
    (ops : List Op) (w : World) (h : (World.init (makeTree cap min decls)).run R ops = .ok w)
    (hids : (w.live.map Req.id).Nodup) (hclock : ∀ q ∈ w.live, Clocked q.expr)
    (ev : List EventVar) (rep rep' : Report) (hs : w.tree.search geo ev rep = .ok (some rep')) :
    ∃ env undef subs ids, eventEnv w.tree.cfg ev = .ok env ∧ makeUndefined env = .ok undef ∧
      w.tree.root.collect w.tree.cfg env = .ok subs ∧
      plainLoop geo env undef subs = .ok ids ∧ rep'.subs = rep.subs ++ ids := by
  obtain ⟨env, undef, subs, ids, st, h1, _, h3, h4, h5, h6⟩ := search_inv hs
  refine ⟨env, undef, subs, ids, h1, h3, h4, ?_, by rw [h6]⟩
  rw [← C08_memo_transparent geo R cap min decls ops w h hids hclock env undef subs
    (fun s hs => (CNode.collect_sublist _ h4).subset hs), h5]
  rfl

/-- two subscriptions share `i < 3`; the search uses the memo table twice and finds both -/
def memoOps : List Op :=
  [.insert ⟨1, [], .and (exI .lt 3) exB⟩, .insert ⟨2, [], .or (exI .lt 3) exB⟩, .insert ⟨3, [], .not (.and (exI .lt 3) exB)⟩]

def memoWorld (ops : List Op) : World :=
  match (World.init (makeTree 3 0 exampleDecls)).run exactRounding ops with
  | .ok w => w
  | .error _ => World.init (makeTree 3 0 exampleDecls)

example : (World.init (makeTree 3 0 exampleDecls)).run exactRounding memoOps |>.isOk := by decide +kernel
example : ((memoWorld memoOps).live.map Req.id).Nodup := by decide +kernel
example : ((memoWorld memoOps).tree.search exGeo exampleEvent .empty).toOption.map
    (·.map fun r : Report => (r.subs, r.memoized)) = some (some ([1, 2], 2)) := by decide +kernel

end BeTree
