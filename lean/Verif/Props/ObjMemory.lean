import Verif.Lemmas.ObjMemory
import Verif.Props.EventMemory
/-
C64: memory of events that the caller builds.
-/
namespace BeTree
open Spec

/-- C64, a variable: making one allocates the blocks of its structure, its name and its value, and `betree_free_variable` gives them all
back, none of them twice; if no entry of its list was written twice, nothing else was allocated. -/
theorem C64_variable (name : Str) (m : Recipe) (v : Value) (h : Heap) (hh : Holds h h.live) (hv : m.value = .ok v) :
    ∃ i h' h'', makeVariableMem name m h = .ok ((⟨name, v⟩, i), h') ∧ freeVariable i h' = .ok ((), h'') ∧
      (∃ L, h''.live.Perm (L ++ h.live)) ∧ (m.Once → h'.live.Perm (i.blocks ++ h.live) ∧ h''.live.Perm h.live) := by
  obtain ⟨⟨x, i⟩, h', M, e1, ⟨rfl, _, N, hM, hN⟩, hh'⟩ := Does.run (makeVariable_does name m hv) h h.live hh
  have hh2 : Holds h' (i.blocks ++ (N ++ h.live)) := hh'.perm ((hM.append_right _).trans (by blocks))
  obtain ⟨_, h'', _, e2, rfl, hh3⟩ := Does.run (freeVariable_does i) h' _ hh2
  refine ⟨i, h', h'', e1, e2, ⟨N, hh3.1⟩, fun ho => ?_⟩
  obtain rfl := hN ho
  exact ⟨hh2.1, hh3.1⟩

/-- C64 over histories: the caller makes events, sets their variables, searches with each event as often as it likes and with other calls
between (each search looks up its names, sorts its lists and drops repetitions), and frees events.  If this goes well without memory (in
particular no freed event is used), with subscriptions made under different ids and each built subscription inserted at most once, then it
goes well with memory, with the same answers and the same events left; what is left of the events and then the tree can be freed, and the
blocks that were there before are still there.  If moreover no entry of an event or of a list is written twice, all texts parse, insertions
in one step have their constants, all built subscriptions were inserted, and no search was turned down, then nothing else is left. -/
theorem C64_events_partial (geo : GeoTest) (R : Rounding) (cap min : Nat) (decls : List (Str × Decl × Bool)) (ops : List EventOp)
    (t : EventPlain) (answers : List Answer) (h : Heap) (hh : Holds h h.live)
    (hrun : (EventPlain.mk (TextWorld.init (makeTree cap min decls)) []).run geo R ops = .ok (t, answers))
    (hids : (newIds (treeOps (userOps ops))).Nodup) (honce : (insertedSubs (treeOps (userOps ops))).Nodup) :
    ∃ w h1 h2 h3, (EventWorld.mk (MemWorld.init (makeTree cap min decls)) []).run geo R ops h = .ok ((w, answers), h1) ∧
      w.mem.world = t.world ∧ w.objs.map (Option.map ObjMem.obj) = t.objs ∧
      freeObjs w.objs h1 = .ok ((), h2) ∧ w.mem.freeTree h2 = .ok ((), h3) ∧ (∃ L, h3.live.Perm (L ++ h.live)) ∧
      ((setAt ops).Nodup → (∀ o ∈ ops, o.MadeOnce) → (∀ o ∈ treeOps (userOps ops), Clean o) →
        (∀ k < t.world.pool.length, k ∈ doneIn R (TextWorld.init (makeTree cap min decls)) (treeOps (userOps ops))) →
        (∀ a ∈ answers, Answered a) → h3.live.Perm h.live) := by
  have hw : Owned (MemWorld.init (makeTree cap min decls)) [] [] [] [] := by
    refine ⟨.refl _, List.nodup_nil, ?_, by simp [MemWorld.init], by simp [MemWorld.init, TextWorld.init],
      by simp [MemWorld.init, TextWorld.init], by simp, by simp⟩
    simp [MemWorld.init, TextWorld.init, makeTree, emptyCNode, CNode.contents, PNodes.contents]
  have ha : Ahead (MemWorld.init (makeTree cap min decls)) [] (treeOps (userOps ops)) :=
    ⟨hids, by simp [MemWorld.init], honce, by simp [MemWorld.init, TextWorld.init]⟩
  obtain ⟨⟨w, as⟩, h1, M, e1, ⟨rfl, rfl, st, wt, gn, L, dn, hdn, hM, hw1, _, hc⟩, hh1⟩ :=
    Does.run (eventRun_does (L := []) ops (w := ⟨MemWorld.init (makeTree cap min decls), []⟩) hw (by intro o ho; cases ho) ha hrun) h h.live
      (by simpa [Objs.flat] using hh)
  have hh2 : Holds h1 (heldBlocks w.objs ++ (Objs.flat st ++ (Objs.flat wt ++ L ++ h.live))) := by
    refine hh1.perm ((hM.append_right _).trans ?_)
    rw [flat_append]
    blocks
  obtain ⟨_, h2, _, e2, rfl, hh3⟩ := Does.run (freeObjs_does w.objs) h1 _ hh2
  obtain ⟨_, h3, _, e3, rfl, hh4⟩ := Does.run hw1.free h2 _ hh3
  refine ⟨w, h1, h2, h3, e1, rfl, rfl, e2, e3, ⟨_, hh4.1⟩, fun hset hmade hcl hdone han => ?_⟩
  have hwt : wt = [] := by
    cases wt with
    | nil => rfl
    | cons p ps =>
      obtain ⟨k, x, hk, _, hn⟩ := hw1.waits p (by simp)
      obtain ⟨hlt, _⟩ := List.getElem?_eq_some_iff.mp hk
      exact absurd (by simpa using (hdn k).mpr (hdone k hlt)) hn
  subst hwt
  have := hh4.1
  rw [hc hset (by intro x _ o ho; cases ho) hcl hmade han] at this
  simpa [Objs.flat] using this

/-! ### examples, and where memory is lost -/

/-- how many blocks there are after these calls, after the freeing of the events, and after that of the tree; or what went wrong -/
def eventBlocksLeft (ops : List EventOp) : (Nat × Nat × Nat) ⊕ Fault :=
  match (EventWorld.mk (MemWorld.init (makeTree 1 0 memEventDecls)) []).run exGeo exactRounding ops noHeap with
  | .error x => .inr x
  | .ok ((w, _), h1) =>
    match freeObjs w.objs h1 with
    | .error x => .inr x
    | .ok (_, h2) =>
      match w.mem.freeTree h2 with
      | .error x => .inr x
      | .ok (_, h3) => .inl (h1.live.length, h2.live.length, h3.live.length)

def listOf (ss : List String) : Recipe := .strs ss.length ((List.range ss.length).zip (ss.map String.toList))

/-- two events; the first is used before and after an insertion, its list has a repetition and strings not known to the tree; the second is
freed and the first is kept -/
def eventOps : List EventOp :=
  [.user (.tree (.call (.insert (memReq 1 "i < 3 and not (s in ('a', 'b'))")))), .make, .make,
   .set 0 0 "i".toList (.int 2), .set 0 3 "l".toList (listOf ["x", "a", "y", "x"]), .set 1 0 "i".toList (.int 7),
   .search [0, 1, 0], .user (.tree (.call (.insert (memReq 2 "l one of ('a', 'c') or b")))), .search [0], .exists 1,
   .set 0 2 "s".toList (.string "c".toList), .set 0 1 "b".toList (.bool true), .search [0, 1, 0], .free 1,
   .loose "l".toList (listOf ["p", "q"])]

/-- all conditions of the theorem are met by these calls -/
example : ∃ t as, (EventPlain.mk (TextWorld.init (makeTree 1 0 memEventDecls)) []).run exGeo exactRounding eventOps = .ok (t, as) ∧
    (newIds (treeOps (userOps eventOps))).Nodup ∧ (insertedSubs (treeOps (userOps eventOps))).Nodup ∧ (setAt eventOps).Nodup ∧
    (∀ o ∈ eventOps, o.MadeOnce) ∧ (∀ o ∈ treeOps (userOps eventOps), Clean o) ∧
    (∀ k < t.world.pool.length, k ∈ doneIn exactRounding (TextWorld.init (makeTree 1 0 memEventDecls)) (treeOps (userOps eventOps))) ∧
    (∀ a ∈ as, Answered a) := by
  have h : (match (EventPlain.mk (TextWorld.init (makeTree 1 0 memEventDecls)) []).run exGeo exactRounding eventOps with
      | .ok (t, as) => decide (t.world.pool.length = 0) && as.all fun a => match a with
        | .report _ bs => bs.all id
        | .found _ => true
      | .error _ => false) = true := by decide +kernel
  have hc : (treeOps (userOps eventOps)).all cleanB = true := by decide +kernel
  split at h
  · rename_i t as ht
    rw [Bool.and_eq_true, List.all_eq_true] at h
    refine ⟨t, as, ht, by decide +kernel, by decide +kernel, by decide +kernel, ?_, fun o ho => clean_of_check (List.all_eq_true.mp hc o ho), ?_, ?_⟩
    · simp only [eventOps, List.forall_mem_cons, EventOp.MadeOnce, Recipe.Once, listOf]
      simp [List.range, List.range.loop]
    · intro k hk
      have h1 : t.world.pool.length = 0 := by simpa using h.1
      omega
    · intro a ha
      have := h.2 a ha
      cases a with
      | report r bs => intro hf; exact absurd (List.all_eq_true.mp this _ hf) (by simp)
      | found b => trivial
  · cases h

example : eventBlocksLeft eventOps = .inl (41, 27, 0) := by decide +kernel

example : (listOf ["p", "q"]).value = .ok (.strList [⟨"p".toList, 0, 0⟩, ⟨"q".toList, 0, 0⟩]) ∧ (listOf ["p", "q"]).Once := by
  refine ⟨by decide +kernel, ?_⟩
  simp only [listOf, Recipe.Once]
  decide +kernel

/-- Setting an entry of an event again, or writing an entry of a list again, loses what was there; a search that is turned down loses one
block. -/
theorem C64_overwritten_leaks :
    eventBlocksLeft [.make, .set 0 0 "i".toList (.int 2), .set 0 0 "i".toList (.int 3)] = .inl (6, 2, 2) ∧
    eventBlocksLeft [.loose "l".toList (.strs 1 [(0, "a".toList), (0, "b".toList)])] = .inl (1, 1, 1) ∧
    eventBlocksLeft [.loose "frequency_caps".toList (.caps 1 [(0, ⟨"flight".toList, 1, "ns".toList, false, 0, 1⟩),
      (0, ⟨"flight".toList, 2, "ns".toList, false, 0, 1⟩)])] = .inl (2, 2, 2) ∧
    eventBlocksLeft [.make, .search [0]] = .inl (3, 1, 1) := by
  refine ⟨?_, ?_, ?_, ?_⟩ <;> decide +kernel

/-- the model notices events that are used after they were freed, or freed twice -/
example : eventBlocksLeft [.make, .free 0, .free 0] = .inr .ub ∧ eventBlocksLeft [.make, .free 0, .exists 0] = .inr .ub := by
  constructor <;> decide +kernel

example : (match ((do
    let v ← makeVariableMem "l".toList (listOf ["p"])
    freeVariable v.2
    freeVariable v.2 : Mem Unit)) noHeap with
  | .error x => decide (x = .ub)
  | .ok _ => false) = true := by decide +kernel

end BeTree
