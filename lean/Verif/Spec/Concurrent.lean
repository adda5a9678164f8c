import Verif.Model.Concurrent
import Verif.Spec.ObjMemory
import Verif.Spec.NodeMemory
import Verif.Spec.ConfigMemory
/-
What may be said of the steps of several threads.
-/
namespace BeTree

/-- the block that a step allocates, frees or uses -/
def Act.block : Act → Option Nat
  | .alloc b => some b
  | .free b => some b
  | .use b => some b
  | .put => none
  | .get => none

/-- the thread that wrote the global variable last, in a list of steps in the order of time -/
def lastPut : List (Nat × Act) → Option Nat
  | [] => none
  | (i, .put) :: tr => some ((lastPut tr).getD i)
  | _ :: tr => lastPut tr

/-- Whenever a thread reads the global variable, it was itself the last to write it: no other text was parsed between the end of the parsing and the
taking of its result.  This is so if calls with texts are made under a lock. -/
def Exclusive (tr : List (Nat × Act)) : Prop := ∀ A i B, tr = A ++ (i, .get) :: B → lastPut A = some i

/-- the thread has finished -/
def Thread.isDone {α : Type} : Thread α → Bool
  | .done _ => true
  | _ => false

/-- the first `k` steps of an endless schedule -/
def firstSteps (f : Nat → Nat) (k : Nat) : List Nat := (List.range k).map f

/-- the events that a finished thread has made; `none` for those it has freed -/
def Thread.objs : Thread (List (Option ObjMem) × List Answer) → List (Option ObjMem)
  | .done x => x.1
  | _ => []

/-- the blocks of events -/
def objsBlocks (objs : List (Option ObjMem)) : List Nat :=
  objs.flatMap fun o => match o with
    | none => []
    | some o => o.blocks

/-- what is allocated after these steps, if `live` was before -/
def liveAfter : List Nat → List (Nat × Act) → List Nat
  | live, [] => live
  | live, (_, .alloc b) :: tr => liveAfter (b :: live) tr
  | live, (_, .free b) :: tr => liveAfter (live.erase b) tr
  | live, _ :: tr => liveAfter live tr

/-- what is used or freed is allocated, and what is allocated is not yet -/
def Act.Allowed (live : List Nat) : Act → Prop
  | .alloc b => b ∉ live
  | .free b => b ∈ live
  | .use b => b ∈ live
  | .put => True
  | .get => True

/-- no entry of an event or of a list is written twice -/
def Tidy (os : List EventOp) : Prop := (setAt os).Nodup ∧ ∀ o ∈ os, o.MadeOnce

/-- What is expected of threads with the calls `calls` after the steps `tr`, if `alone` is what each of them answers when it runs alone on the tree
of `s`, and which events it is left with: nothing of a thread is disturbed by the others. -/
structure Undisturbed (s : Session) (start : Heap) (calls : List (List EventOp)) (alone : List (EventPlain × List Answer)) (tr : List (Nat × Act))
    (m : Machine (List (Option ObjMem) × List Answer)) : Prop where
  /-- a thread that has finished gives the answers it gives alone, and has the events it has alone -/
  answers : ∀ (i : Nat) x, m.threads[i]? = some (Thread.done x) → ∃ a, alone[i]? = some a ∧ x.2 = a.2 ∧ x.1.map (Option.map ObjMem.obj) = a.1.objs
  /-- at every step, what is used or freed was allocated before and not freed since -/
  safe : ∀ A i a B, tr = A ++ (i, a) :: B → a.Allowed (liveAfter start.live A)
  /-- and this is what the heap is -/
  heap : m.heap.live = liveAfter start.live tr
  /-- a block on which two threads worked is one of the tree: its own, one of a subscription, a node or the configuration; and both only used it:
  neither allocated nor freed it -/
  apart : ∀ x ∈ tr, ∀ y ∈ tr, x.1 ≠ y.1 → ∀ b, x.2.block = some b → y.2.block = some b → x.2 = .use b ∧ y.2 = .use b ∧
    (b = s.tree ∨ (∃ q ∈ s.subs.mem.objs, b ∈ q.2.blocks) ∨ b ∈ s.nodes.root.blocks ∨ b ∈ s.config.img.blocks)
  /-- all blocks that were there at the start are there -/
  before : ∃ L, m.heap.live.Perm (L ++ start.live)
  /-- and at the end nothing else but the events that the threads have not freed -/
  blocks : (∀ p ∈ m.threads, p.isDone = true) → (∀ os ∈ calls, Tidy os) → (∀ a ∈ alone, ∀ x ∈ a.2, Answered x) →
    m.heap.live.Perm (objsBlocks (m.threads.flatMap Thread.objs) ++ start.live)

/-- at most one thread makes calls with texts -/
def OneWithTexts (calls : List (List EventOp)) : Prop := ∃ j : Nat, ∀ (i : Nat) (os : List EventOp), calls[i]? = some os → i ≠ j → ∀ o ∈ os, o.Own

end BeTree
