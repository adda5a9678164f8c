import Verif.Model.Concurrent
/-
Programs that change the tree, let threads search it, change it again, and so on.
-/
namespace BeTree

/-- A part of a program (betree.c:543-625, 637-954): calls that one thread makes alone, among them those that change the tree; then, for each list
in `calls`, a thread that makes these calls.  The program waits until all of them have finished and then frees the events they have not freed. -/
structure Phase where
  ops : List EventOp
  calls : List (List EventOp)

/-- the calls of all parts that are made by one thread alone (betree.c:543-625, 637-954; no function of the code) -/
def phaseOps (ps : List Phase) : List EventOp := ps.flatMap Phase.ops

/-- what one thread after the other answers (betree.c:543-625, 754-954), in a tree that it does not change, without memory; and the events it is
left with -/
def aloneRuns (geo : GeoTest) (R : Rounding) (w : TextWorld) : List (List EventOp) → Except Fault (List (EventPlain × List Answer))
  | [] => .ok []
  | os :: calls =>
    match (EventPlain.mk w []).run geo R os with
    | .error e => .error e
    | .ok a =>
      match aloneRuns geo R w calls with
      | .error e => .error e
      | .ok as => .ok (a :: as)

/-- The parts of a program, one after the other (betree.c:543-625, 637-954), without memory and with the threads one after the other: for each part, what is
answered to the single thread and what to the others. -/
def EventPlain.phases (geo : GeoTest) (R : Rounding) :
    EventPlain → List Phase → Except Fault (EventPlain × List (List Answer × List (EventPlain × List Answer)))
  | w, [] => .ok (w, [])
  | w, p :: ps =>
    match w.run geo R p.ops with
    | .error e => .error e
    | .ok (w, a) =>
      match aloneRuns geo R w.world p.calls with
      | .error e => .error e
      | .ok alone =>
        match w.phases geo R ps with
        | .error e => .error e
        | .ok (w, outs) => .ok (w, (a, alone) :: outs)

end BeTree
