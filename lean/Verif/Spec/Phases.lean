import Verif.Model.Phases
import Verif.Spec.Concurrent
import Verif.Spec.Use
import Verif.Spec.Trained
/-
What is expected of programs that change the tree and let threads search it, by turns.
-/
namespace BeTree

/-- What is expected at the end, if `h` was the heap before the tree was made and `h1` is the heap now: the events that the caller still has and then
the tree can be freed, and the blocks of `h` are still there; and if nothing was lost on the way (`clean`), nothing else. -/
def FreedAt (s : Session) (h : Heap) (clean : Prop) (h1 : Heap) : Prop :=
  ∃ h2 h3, freeObjs s.subs.objs h1 = .ok ((), h2) ∧ s.free h2 = .ok ((), h3) ∧
    (∃ L, h3.live.Perm (L ++ h.live)) ∧ (clean → h3.live.Perm h.live)

/-- What is expected of a program with the parts `ps`, from the session `s` and the heap `h1` on, if `outs` is what the parts answer without memory
and without interleaving.  The calls of the single thread go well and answer that.  Whatever earlier texts have left in the parser's variable, in
every interleaving of the threads' steps (in which texts do not get in each other's way, if more than one thread uses texts) nothing goes wrong, and
nothing of a thread is disturbed by the others; if all have finished, their events can be freed, and the rest of the program goes well, too;
and if every thread gets its turn again and again, all finish. -/
def Goes (H : Str → Nat) (geo : GeoTest) (R : Rounding) (h : Heap) (clean : Prop) :
    Session → Heap → List Phase → List (List Answer × List (EventPlain × List Answer)) → Prop
  | s, h1, [], outs => outs = [] ∧ FreedAt s h clean h1
  | s, h1, p :: ps, outs => ∃ s' h2 a alone outs', outs = (a, alone) :: outs' ∧ s.run H geo R p.ops h1 = .ok ((s', a), h2) ∧ ∀ root,
    (∀ sched, (OneWithTexts p.calls ∨ Exclusive ((s'.machine H geo R h2 root p.calls).run sched).1) →
      ∃ m, ((s'.machine H geo R h2 root p.calls).run sched).2 = .ok m ∧ m.threads.length = p.calls.length ∧
        Undisturbed s' h2 p.calls alone ((s'.machine H geo R h2 root p.calls).run sched).1 m ∧
        ((∀ q ∈ m.threads, q.isDone = true) →
          ∃ h3, freeObjs (m.threads.flatMap Thread.objs) m.heap = .ok ((), h3) ∧ Goes H geo R h clean s' h3 ps outs')) ∧
    ∀ f : Nat → Nat, (OneWithTexts p.calls ∨ ∀ k, Exclusive ((s'.machine H geo R h2 root p.calls).run (firstSteps f k)).1) →
      (∀ i < p.calls.length, ∀ k, ∃ k' ≥ k, f k' = i) →
      ∃ k m, ((s'.machine H geo R h2 root p.calls).run (firstSteps f k)).2 = .ok m ∧ ∀ q ∈ m.threads, q.isDone = true

open Spec in
/-- `tqs` are the requests in the tree after the calls `tops`: those that they put there, in any order -/
def InTree (tops : List TextOp) (tqs : List TextReq) : Prop :=
  ∃ ops qs, List.Forall₂ OpSays tops ops ∧ List.Forall₂ ReqSays tqs qs ∧ qs.Perm (placed ops)

open Spec in
/-- The parts of a program are answered right: `before` are the calls that have changed the tree before them, a part consists of more such calls,
which answer nothing, and of the calls of its threads, which are answered according to the requests that are in the tree then. -/
def PartsRight (geo : GeoTest) (decls : List (Str × Decl × Bool)) :
    List TextOp → List (List TextOp × List (List EventOp)) → List (List Answer × List (EventPlain × List Answer)) → Prop
  | _, [], outs => outs = []
  | before, p :: ps, outs => ∃ tqs alone outs', outs = ([], alone) :: outs' ∧ InTree (before ++ p.1) tqs ∧
    List.Forall₂ (fun os a => AllRight geo decls tqs [] os a.2) p.2 alone ∧ PartsRight geo decls (before ++ p.1) ps outs'

end BeTree
