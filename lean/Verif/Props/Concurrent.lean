import Verif.Lemmas.OneText
import Verif.Props.Session
/-
C65: threads that search the same tree at the same time.
-/
namespace BeTree
open Spec

/-- What is expected after all threads have finished, if `h` was the heap before the tree was made: the events that the threads and the caller still
have and then the tree can be freed, and the blocks of `h` are still there; and if nothing was lost on the way (`clean`), nothing else. -/
def FreedAfter (s : Session) (h : Heap) (clean : Prop) (m : Machine (List (Option ObjMem) × List Answer)) : Prop :=
  ∃ h2 h3, freeObjs (m.threads.flatMap Thread.objs ++ s.subs.objs) m.heap = .ok ((), h2) ∧ s.free h2 = .ok ((), h3) ∧
    (∃ L, h3.live.Perm (L ++ h.live)) ∧ (clean → h3.live.Perm h.live)

/-- C65, partial: after any calls that went well, any number of threads each make any calls that do not change the tree (with texts and with
events they built), each of which goes well if the thread runs alone.  If no thread stores a parsed event in the parser's global variable
between another's storing and taking its own (as when texts are parsed under a lock), then in every interleaving of their steps nothing goes
wrong: no block is used or freed that is not allocated, a thread that has finished has answered what it answers alone, threads work on no common
block other than by reading the tree, and at the end nothing is left of the calls but the events that were not freed; everything can then be
freed.  And if every thread gets its turn again and again, all finish.  Missing: interleavings that break the condition, see `C65_texts_race`. -/
theorem C65_threads_partial (H : Str → Nat) (geo : GeoTest) (R : Rounding) (cap min : Nat) (decls : List (Str × Decl × Bool)) (ops : List EventOp)
    (t : EventPlain) (before : List Answer) (h : Heap) (hh : Holds h h.live) (hlim : ∀ d ∈ decls, d.2.1.LimitNonzero)
    (hrun : (EventPlain.mk (TextWorld.init (makeTree cap min decls)) []).run geo R ops = .ok (t, before)) (hfit : t.world.tree.cfg.TablesFit)
    (hids : (newIds (treeOps (userOps ops))).Nodup) (honce : (insertedSubs (treeOps (userOps ops))).Nodup)
    (calls : List (List EventOp)) (alone : List (EventPlain × List Answer)) (hreads : ∀ os ∈ calls, ∀ o ∈ os, o.Reads)
    (halone : List.Forall₂ (fun os a => (EventPlain.mk t.world []).run geo R os = .ok a) calls alone) :
    ∃ s0 s h0 h1, Session.init cap min decls h = .ok (s0, h0) ∧ s0.run H geo R ops h0 = .ok ((s, before), h1) ∧ s.subs.mem.world = t.world ∧
      ∀ root,
        (∀ sched, Exclusive ((s.machine H geo R h1 root calls).run sched).1 →
          ∃ m, ((s.machine H geo R h1 root calls).run sched).2 = .ok m ∧
            Undisturbed s h1 calls alone ((s.machine H geo R h1 root calls).run sched).1 m ∧
            ((∀ p ∈ m.threads, p.isDone = true) → FreedAfter s h
              ((∀ os ∈ calls, Tidy os) ∧ (∀ a ∈ alone, ∀ x ∈ a.2, Answered x) ∧ Tidy ops ∧ (∀ o ∈ treeOps (userOps ops), Clean o) ∧
                (∀ k < t.world.pool.length, k ∈ doneIn R (TextWorld.init (makeTree cap min decls)) (treeOps (userOps ops))) ∧
                ∀ a ∈ before, Answered a) m)) ∧
        ∀ f : Nat → Nat, (∀ k, Exclusive ((s.machine H geo R h1 root calls).run (firstSteps f k)).1) →
          (∀ i < calls.length, ∀ k, ∃ k' ≥ k, f k' = i) →
          ∃ k m, ((s.machine H geo R h1 root calls).run (firstSteps f k)).2 = .ok m ∧ m.threads.length = calls.length ∧
            ∀ p ∈ m.threads, p.isDone = true := by
  have hw : Owned (MemWorld.init (makeTree cap min decls)) [] [] [] [] := by
    refine ⟨.refl _, List.nodup_nil, ?_, by simp [MemWorld.init], by simp [MemWorld.init, TextWorld.init],
      by simp [MemWorld.init, TextWorld.init], by simp, by simp⟩
    simp [MemWorld.init, TextWorld.init, makeTree, emptyCNode, CNode.contents, PNodes.contents]
  have ha : Ahead (MemWorld.init (makeTree cap min decls)) [] (treeOps (userOps ops)) :=
    ⟨hids, by simp [MemWorld.init], honce, by simp [MemWorld.init, TextWorld.init]⟩
  obtain ⟨s0, h0, M0, e0, ⟨g1, g2, g3⟩, hh0⟩ := Does.run (sessionInit_does H cap min decls) h h.live hh
  have hh0' : Holds h0 ((Objs.flat ([] ++ []) ++ (heldBlocks s0.subs.objs ++ []) ++ s0.rest) ++ h.live) :=
    hh0.perm (by rw [g1]; simpa [Objs.flat] using g3.append_right _)
  obtain ⟨⟨s, as⟩, h1, M1, e1, ⟨rfl, rfl, k2, st, wt, gn, L, dn, hdn, hM, hw1, hc⟩, hh1⟩ :=
    Does.run (sessionRun_does (H := H) (L := []) ops g2 (by rw [g1]; exact hw) (by rw [g1]; intro o ho; cases ho) (by rw [g1]; exact ha)
      (by rw [g1]; exact hrun)) h0 h.live hh0'
  obtain ⟨i1, i2⟩ := makeTree_filled (cap := cap) (min := min) hlim
  have hfilled := plainRun_filled _ (eventRun_plain ops hrun) i1 i2 hfit
  have hh1' : Holds h1 (s.shared st wt ++ (heldBlocks s.subs.objs ++ (L ++ h.live))) := by
    refine hh1.perm ((hM.append_right _).trans ?_)
    unfold Session.shared
    blocks
  have hu := machine_undisturbed (H := H) (geo := geo) (R := R) hw1 hh1' calls alone hreads halone
  refine ⟨s0, s, h0, h1, e0, e1, rfl, fun root => ⟨fun sched hex => ?_, fun f hex hfair => ?_⟩⟩
  · obtain ⟨m, k3, k4, k5⟩ := hu root sched hex
    refine ⟨m, k3, k4, fun hdone => ?_⟩
    obtain ⟨N, hN, hN0⟩ := k5 hdone
    have hN1 : Holds m.heap (heldBlocks (m.threads.flatMap Thread.objs ++ s.subs.objs) ++ (Objs.flat (st ++ wt) ++ (L ++ N) ++ s.rest ++ h.live)) := by
      refine hN.perm ?_
      have e : heldBlocks (m.threads.flatMap Thread.objs ++ s.subs.objs) = heldBlocks (m.threads.flatMap Thread.objs) ++ heldBlocks s.subs.objs :=
        List.flatMap_append
      rw [e]
      unfold Session.shared
      generalize heldBlocks (m.threads.flatMap Thread.objs) = A, heldBlocks s.subs.objs = B
      blocks
    obtain ⟨_, h2, _, e2, rfl, hh2⟩ := Does.run (freeObjs_does (m.threads.flatMap Thread.objs ++ s.subs.objs)) m.heap _ hN1
    obtain ⟨_, h3, M3, e3, hM3, hh3⟩ := Does.run (Session.free_does k2 hw1 hfilled) h2 h.live hh2
    refine ⟨h2, h3, e2, e3, ⟨_, hh3.1⟩, ?_⟩
    rintro ⟨htidy, hans, htid, hcl, hall, han⟩
    have hwt : wt = [] := by
      cases wt with
      | nil => rfl
      | cons p ps =>
        obtain ⟨k, x, hk, _, hn⟩ := hw1.waits p (by simp)
        obtain ⟨hlt, _⟩ := List.getElem?_eq_some_iff.mp hk
        rw [g1] at hdn
        exact absurd (by simpa using (hdn k).mpr (hall k hlt)) hn
    subst hwt
    have := hh3.1.trans (hM3.append_right _)
    rw [hc htid.1 (by rw [g1]; intro x _ o ho; cases ho) hcl htid.2 han, hN0 htidy hans] at this
    simpa [Objs.flat] using this
  · obtain ⟨k, m, k1, k2⟩ := finish (m := s.machine H geo R h1 root calls) (f := f)
      (fun k => (hu root _ (hex k)).imp fun _ h => h.1) (by simpa [Session.machine] using hfair)
    exact ⟨k, m, k1, by simpa [Session.machine] using machine_run_length k1, k2⟩

/-- C65 if at most one thread makes calls with texts and all others use events they have built: they do not disturb each other in any
interleaving. -/
theorem C65_one_with_texts (H : Str → Nat) (geo : GeoTest) (R : Rounding) (cap min : Nat) (decls : List (Str × Decl × Bool)) (ops : List EventOp)
    (t : EventPlain) (before : List Answer) (h : Heap) (hh : Holds h h.live) (hlim : ∀ d ∈ decls, d.2.1.LimitNonzero)
    (hrun : (EventPlain.mk (TextWorld.init (makeTree cap min decls)) []).run geo R ops = .ok (t, before)) (hfit : t.world.tree.cfg.TablesFit)
    (hids : (newIds (treeOps (userOps ops))).Nodup) (honce : (insertedSubs (treeOps (userOps ops))).Nodup)
    (calls : List (List EventOp)) (alone : List (EventPlain × List Answer)) (hreads : ∀ os ∈ calls, ∀ o ∈ os, o.Reads)
    (hone : OneWithTexts calls)
    (halone : List.Forall₂ (fun os a => (EventPlain.mk t.world []).run geo R os = .ok a) calls alone) :
    ∃ s0 s h0 h1, Session.init cap min decls h = .ok (s0, h0) ∧ s0.run H geo R ops h0 = .ok ((s, before), h1) ∧ s.subs.mem.world = t.world ∧
      ∀ root,
        (∀ sched, ∃ m, ((s.machine H geo R h1 root calls).run sched).2 = .ok m ∧
          Undisturbed s h1 calls alone ((s.machine H geo R h1 root calls).run sched).1 m ∧
          ((∀ p ∈ m.threads, p.isDone = true) → FreedAfter s h
            ((∀ os ∈ calls, Tidy os) ∧ (∀ a ∈ alone, ∀ x ∈ a.2, Answered x) ∧ Tidy ops ∧ (∀ o ∈ treeOps (userOps ops), Clean o) ∧
              (∀ k < t.world.pool.length, k ∈ doneIn R (TextWorld.init (makeTree cap min decls)) (treeOps (userOps ops))) ∧
              ∀ a ∈ before, Answered a) m)) ∧
        ∀ f : Nat → Nat, (∀ i < calls.length, ∀ k, ∃ k' ≥ k, f k' = i) →
          ∃ k m, ((s.machine H geo R h1 root calls).run (firstSteps f k)).2 = .ok m ∧ m.threads.length = calls.length ∧
            ∀ p ∈ m.threads, p.isDone = true := by
  obtain ⟨s0, s, h0, h1, e0, e1, e2, hr⟩ := C65_threads_partial H geo R cap min decls ops t before h hh hlim hrun hfit hids honce calls alone
    hreads halone
  obtain ⟨j, hj⟩ := hone
  exact ⟨s0, s, h0, h1, e0, e1, e2, fun root =>
    ⟨fun sched => (hr root).1 sched (exclusive_of_one j hj sched), fun f hf => (hr root).2 f (fun k => exclusive_of_one j hj _) hf⟩⟩

/-- C65 for calls without texts: threads that search with events they have built do not disturb each other in any interleaving. -/
theorem C65_own_events (H : Str → Nat) (geo : GeoTest) (R : Rounding) (cap min : Nat) (decls : List (Str × Decl × Bool)) (ops : List EventOp)
    (t : EventPlain) (before : List Answer) (h : Heap) (hh : Holds h h.live) (hlim : ∀ d ∈ decls, d.2.1.LimitNonzero)
    (hrun : (EventPlain.mk (TextWorld.init (makeTree cap min decls)) []).run geo R ops = .ok (t, before)) (hfit : t.world.tree.cfg.TablesFit)
    (hids : (newIds (treeOps (userOps ops))).Nodup) (honce : (insertedSubs (treeOps (userOps ops))).Nodup)
    (calls : List (List EventOp)) (alone : List (EventPlain × List Answer)) (hown : ∀ os ∈ calls, ∀ o ∈ os, o.Own)
    (halone : List.Forall₂ (fun os a => (EventPlain.mk t.world []).run geo R os = .ok a) calls alone) :
    ∃ s0 s h0 h1, Session.init cap min decls h = .ok (s0, h0) ∧ s0.run H geo R ops h0 = .ok ((s, before), h1) ∧ s.subs.mem.world = t.world ∧
      ∀ root,
        (∀ sched, ∃ m, ((s.machine H geo R h1 root calls).run sched).2 = .ok m ∧
          Undisturbed s h1 calls alone ((s.machine H geo R h1 root calls).run sched).1 m ∧
          ((∀ p ∈ m.threads, p.isDone = true) → FreedAfter s h
            ((∀ os ∈ calls, Tidy os) ∧ (∀ a ∈ alone, ∀ x ∈ a.2, Answered x) ∧ Tidy ops ∧ (∀ o ∈ treeOps (userOps ops), Clean o) ∧
              (∀ k < t.world.pool.length, k ∈ doneIn R (TextWorld.init (makeTree cap min decls)) (treeOps (userOps ops))) ∧
              ∀ a ∈ before, Answered a) m)) ∧
        ∀ f : Nat → Nat, (∀ i < calls.length, ∀ k, ∃ k' ≥ k, f k' = i) →
          ∃ k m, ((s.machine H geo R h1 root calls).run (firstSteps f k)).2 = .ok m ∧ m.threads.length = calls.length ∧
            ∀ p ∈ m.threads, p.isDone = true :=
  C65_one_with_texts H geo R cap min decls ops t before h hh hlim hrun hfit hids honce calls alone
    (fun os hos o ho => (hown os hos o ho).reads) ⟨0, fun _ os hos _ => hown os (List.mem_of_getElem? hos)⟩ halone

/-! ### examples, and the race -/

/-- the calls that make the tree of the examples -/
def threadTree : List EventOp :=
  [.user (.tree (.call (.insert (memReq 1 "i < 3")))), .user (.tree (.call (.insert (memReq 2 "l one of ('a') or i > 5"))))]

/-- the threads with these calls, after the calls that make the tree; without threads if these go wrong -/
def threadMachine (calls : List (List EventOp)) : Machine (List (Option ObjMem) × List Answer) :=
  match ((do
    let s ← Session.init 1 0 memEventDecls
    s.run mapHash exGeo exactRounding threadTree : Mem (Session × List Answer))) noHeap with
  | .error _ => ⟨noHeap, none, []⟩
  | .ok ((s, _), h1) => s.machine mapHash exGeo exactRounding h1 none calls

/-- what the threads have answered if they have finished, and how many blocks there are; or what went wrong -/
def threadEnd (calls : List (List EventOp)) (sched : List Nat) : (List (Option (List Answer)) × Nat) ⊕ Fault :=
  match ((threadMachine calls).run sched).2 with
  | .error x => .inr x
  | .ok m => .inl (m.threads.map fun p => match p with
      | .done x => some x.2
      | _ => none, m.heap.live.length)

/-- one thread searches with a text and then with events that it has built, one of which it does not free; the other searches with texts -/
def threadCalls : List (List EventOp) :=
  [[.user (.search ["{\"i\": 2}".toList]), .make, .make, .set 0 0 "i".toList (.int 2), .set 0 3 "l".toList (listOf ["x", "a", "x"]),
    .search [0], .free 1],
   [.user (.exists "{\"i\": 4}".toList), .user (.search ["{\"i\": 7}".toList, "{\"i\": 2}".toList])]]

/-- two threads that search with a text each -/
def racingCalls : List (List EventOp) := [[.user (.search ["{\"i\": 2}".toList])], [.user (.search ["{\"i\": 7}".toList])]]

/-- C65 fails for calls with texts: two threads search with a text each.  One after the other they find subscription 1 and subscription 2.  But if
the first is held up between the parsing of its text and the taking of the result, while the second parses its text, then the first answers the
question of the second, and the second uses memory that the first has freed. -/
theorem C65_texts_race :
    threadEnd racingCalls (List.replicate 200 0 ++ List.replicate 200 1) =
      .inl ([some [.report ⟨2, 1, 0, 0, [1]⟩ [true]], some [.report ⟨1, 1, 0, 0, [2]⟩ [true]]], 59) ∧
    threadEnd racingCalls (List.replicate 9 0 ++ List.replicate 9 1 ++ List.replicate 200 0) =
      .inl ([some [.report ⟨1, 1, 0, 0, [2]⟩ [true]], none], 64) ∧
    threadEnd racingCalls (List.replicate 9 0 ++ List.replicate 9 1 ++ List.replicate 200 0 ++ List.replicate 200 1) = .inr .ub := by
  refine ⟨?_, ?_, ?_⟩ <;> decide +kernel

/-- a check of `Exclusive`, after `l` wrote last -/
def exclusiveB : Option Nat → List (Nat × Act) → Bool
  | _, [] => true
  | _, (i, .put) :: tr => exclusiveB (some i) tr
  | l, (i, .get) :: tr => l == some i && exclusiveB l tr
  | l, _ :: tr => exclusiveB l tr

theorem exclusiveB_sound : ∀ (tr : List (Nat × Act)) (l : Option Nat), exclusiveB l tr = true →
    ∀ A i B, tr = A ++ (i, .get) :: B → (lastPut A <|> l) = some i := by
  intro tr
  induction tr with
  | nil => intro l _ A i B h; cases A <;> cases h
  | cons x tr ih =>
    intro l h A i B e
    obtain ⟨j, a⟩ := x
    cases A with
    | nil =>
      cases e
      simp only [exclusiveB, Bool.and_eq_true, beq_iff_eq] at h
      simpa [lastPut] using h.1
    | cons y A =>
      cases e
      cases a with
      | put =>
        have := ih (some j) h A i B rfl
        simp only [lastPut]
        cases hl : lastPut A <;> rw [hl] at this <;> simpa using this
      | get =>
        simp only [exclusiveB, Bool.and_eq_true] at h
        simpa only [lastPut] using ih l h.2 A i B rfl
      | alloc b => simpa only [lastPut] using ih l h A i B rfl
      | free b => simpa only [lastPut] using ih l h A i B rfl
      | use b => simpa only [lastPut] using ih l h A i B rfl

theorem exclusive_of_check {tr : List (Nat × Act)} (h : exclusiveB none tr = true) : Exclusive tr := by
  intro A i B e
  simpa using exclusiveB_sound tr none h A i B e

/-- when all threads have finished nothing more happens -/
theorem machine_run_finished {α : Type} (sched : List Nat) : ∀ {m : Machine α}, (∀ p ∈ m.threads, p.isDone = true) → m.run sched = ([], .ok m) := by
  induction sched with
  | nil => intro m _; rfl
  | cons i is ih =>
    intro m h
    have e : m.step i = ([], .ok m) := by
      unfold Machine.step
      cases hp : m.threads[i]? with
      | none => rfl
      | some p =>
        have := h p (List.mem_of_getElem? hp)
        cases p <;> first | rfl | cases this
    simp only [Machine.run, e, ih h, List.nil_append]

/-- if after `n` steps all have finished, the condition on the steps holds forever -/
theorem exclusive_always {α : Type} {m m' : Machine α} {f : Nat → Nat} {n : Nat} (hm : (m.run (firstSteps f n)).2 = .ok m')
    (hd : ∀ p ∈ m'.threads, p.isDone = true) (hx : Exclusive (m.run (firstSteps f n)).1) (k : Nat) : Exclusive (m.run (firstSteps f k)).1 := by
  have cut : ∀ a b, a ≤ b → firstSteps f b = firstSteps f a ++ (firstSteps f b).drop a := by
    intro a b h
    have : firstSteps f a = (firstSteps f b).take a := by
      simp only [firstSteps, ← List.map_take, List.take_range, Nat.min_eq_left h]
    rw [this, List.take_append_drop]
  rcases Nat.le_total k n with hk | hk
  · rw [cut k n hk] at hx hm
    cases hr : (m.run (firstSteps f k)).2 with
    | error x => rw [machine_run_append_error _ _ hr] at hm; cases hm
    | ok m1 =>
      rw [machine_run_append _ _ hr] at hx
      exact hx.prefix
  · rw [cut n k hk, machine_run_append _ _ hm, machine_run_finished _ hd, List.append_nil]
    exact hx

/-- the threads of the example take turns, five steps each -/
def turns : Nat → Nat := fun k => k / 5 % 2

/-- All conditions of the theorem are met by these calls: the texts, taking turns, do not get in each other's way, and both threads finish, with
the events that the first has not freed. -/
example : (∃ t before alone, (EventPlain.mk (TextWorld.init (makeTree 1 0 memEventDecls)) []).run exGeo exactRounding threadTree = .ok (t, before) ∧
      List.Forall₂ (fun os a => (EventPlain.mk t.world []).run exGeo exactRounding os = .ok a) threadCalls alone ∧
      (∀ a ∈ alone, ∀ x ∈ a.2, Answered x) ∧ t.world.tree.cfg.TablesFit ∧
      (∀ k < t.world.pool.length, k ∈ doneIn exactRounding (TextWorld.init (makeTree 1 0 memEventDecls)) (treeOps (userOps threadTree))) ∧
      ∀ a ∈ before, Answered a) ∧ (∀ d ∈ memEventDecls, d.2.1.LimitNonzero) ∧ Tidy threadTree ∧ (∀ o ∈ treeOps (userOps threadTree), Clean o) ∧
    (newIds (treeOps (userOps threadTree))).Nodup ∧ (insertedSubs (treeOps (userOps threadTree))).Nodup ∧
    (∀ os ∈ threadCalls, ∀ o ∈ os, o.Reads) ∧ (∀ os ∈ threadCalls, Tidy os) ∧
    (∀ k, Exclusive ((threadMachine threadCalls).run (firstSteps turns k)).1) ∧ (∀ i < threadCalls.length, ∀ k, ∃ k' ≥ k, turns k' = i) ∧
    threadEnd threadCalls (firstSteps turns 700) = .inl ([some [.report ⟨2, 1, 0, 0, [1]⟩ [true], .report ⟨2, 2, 0, 0, [2, 1]⟩ [true]],
      some [.found false, .report ⟨3, 2, 0, 0, [2, 1]⟩ [true, true]]], 69) := by
  have h : (match (EventPlain.mk (TextWorld.init (makeTree 1 0 memEventDecls)) []).run exGeo exactRounding threadTree with
      | .error _ => false
      | .ok (t, before) => decide (t.world.pool.length = 0 ∧ before = [] ∧ (∀ m ∈ t.world.tree.cfg.stringMaps, m.values.length < sizeMax) ∧
          ∀ m ∈ t.world.tree.cfg.intMaps, m.values.length < sizeMax) &&
        threadCalls.all fun os => match (EventPlain.mk t.world []).run exGeo exactRounding os with
        | .error _ => false
        | .ok a => a.2.all fun x => match x with
          | .report _ bs => bs.all id
          | .found _ => true) = true := by decide +kernel
  have hc : (treeOps (userOps threadTree)).all cleanB = true := by decide +kernel
  have hr : (match (threadMachine threadCalls).run (firstSteps turns 700) with
      | (_, .error _) => false
      | (tr, .ok m) => exclusiveB none tr && m.threads.all (fun p => p.isDone) && decide ((m.threads.map fun p => match p with
        | .done x => some x.2
        | _ => none, m.heap.live.length) = ([some [.report ⟨2, 1, 0, 0, [1]⟩ [true], .report ⟨2, 2, 0, 0, [2, 1]⟩ [true]],
          some [.found false, .report ⟨3, 2, 0, 0, [2, 1]⟩ [true, true]]], 69))) = true := by decide +kernel
  obtain ⟨m, hm, hx, hd, he⟩ : ∃ m, ((threadMachine threadCalls).run (firstSteps turns 700)).2 = .ok m ∧
      exclusiveB none ((threadMachine threadCalls).run (firstSteps turns 700)).1 = true ∧ m.threads.all (fun p => p.isDone) = true ∧
      threadEnd threadCalls (firstSteps turns 700) = .inl ([some [.report ⟨2, 1, 0, 0, [1]⟩ [true], .report ⟨2, 2, 0, 0, [2, 1]⟩ [true]],
        some [.found false, .report ⟨3, 2, 0, 0, [2, 1]⟩ [true, true]]], 69) := by
    unfold threadEnd
    split at hr
    · cases hr
    · rename_i tr m e
      rw [Bool.and_eq_true, Bool.and_eq_true, decide_eq_true_eq] at hr
      rw [e]
      exact ⟨m, rfl, hr.1.1, hr.1.2, congrArg _ hr.2⟩
  refine ⟨?_, ?_, ?_, fun o ho => clean_of_check (List.all_eq_true.mp hc o ho), by decide +kernel, by decide +kernel, ?_, ?_, ?_, ?_, he⟩
  · split at h
    · cases h
    · rename_i t before ht
      rw [Bool.and_eq_true] at h
      obtain ⟨hp, rfl, hfit⟩ := of_decide_eq_true h.1
      suffices k : ∀ calls : List (List EventOp), (calls.all fun os => match (EventPlain.mk t.world []).run exGeo exactRounding os with
          | .error _ => false
          | .ok a => a.2.all fun x => match x with
            | .report _ bs => bs.all id
            | .found _ => true) = true →
          ∃ alone, List.Forall₂ (fun os a => (EventPlain.mk t.world []).run exGeo exactRounding os = .ok a) calls alone ∧
            ∀ a ∈ alone, ∀ x ∈ a.2, Answered x by
        obtain ⟨alone, k1, k2⟩ := k _ h.2
        exact ⟨t, [], alone, ht, k1, k2, hfit, fun k hk => by omega, by simp⟩
      intro calls
      induction calls with
      | nil => intro _; exact ⟨[], .nil, by simp⟩
      | cons os calls ih =>
        intro h
        rw [List.all_cons, Bool.and_eq_true] at h
        obtain ⟨alone, k1, k2⟩ := ih h.2
        have h1 := h.1
        split at h1
        · cases h1
        · rename_i a ha
          refine ⟨a :: alone, .cons ha k1, ?_⟩
          intro b hb
          rcases List.mem_cons.mp hb with rfl | hb
          · intro x hx
            have := List.all_eq_true.mp h1 x hx
            cases x with
            | report r bs => intro hf; exact absurd (List.all_eq_true.mp this _ hf) (by simp)
            | found b => trivial
          · exact k2 b hb
  · simp only [memEventDecls, List.forall_mem_cons, Decl.LimitNonzero]
    simp
  · simp [threadTree, Tidy, setAt, EventOp.MadeOnce]
  · simp [threadCalls, EventOp.Reads]
  · simp only [threadCalls, List.forall_mem_cons, Tidy, EventOp.MadeOnce, Recipe.Once, listOf, setAt]
    simp [List.range, List.range.loop]
  · exact exclusive_always hm (List.all_eq_true.mp hd) (exclusive_of_check hx)
  · intro i hi k
    have : i < 2 := hi
    refine ⟨10 * k + 5 * i, by omega, ?_⟩
    simp only [turns]
    omega

/-- threads without texts, which the second theorem is about -/
def ownCalls : List (List EventOp) :=
  [[.make, .set 0 0 "i".toList (.int 2), .set 0 3 "l".toList (listOf ["x", "a", "x"]), .search [0], .free 0],
   [.make, .set 0 0 "i".toList (.int 7), .exists 0, .search [0]]]

example : (∀ os ∈ ownCalls, ∀ o ∈ os, o.Own) ∧ (∀ os ∈ ownCalls, Tidy os) ∧
    threadEnd ownCalls (firstSteps turns 700) = .inl ([some [.report ⟨2, 2, 0, 0, [2, 1]⟩ [true]], some [.found true, .report ⟨1, 1, 0, 0, [2]⟩ [true]]], 63) := by
  refine ⟨by simp [ownCalls, EventOp.Own], ?_, ?_⟩
  · simp only [ownCalls, List.forall_mem_cons, Tidy, EventOp.MadeOnce, Recipe.Once, listOf, setAt]
    simp [List.range, List.range.loop]
  · decide +kernel

/-- one thread with texts and one without -/
def mixedCalls : List (List EventOp) := [[.user (.search ["{\"i\": 2}".toList]), .user (.exists "{\"i\": 4}".toList)],
  [.make, .set 0 0 "i".toList (.int 7), .exists 0, .search [0], .free 0]]

example : OneWithTexts mixedCalls ∧ (∀ os ∈ mixedCalls, ∀ o ∈ os, o.Reads) ∧
    threadEnd mixedCalls (firstSteps turns 700) = .inl ([some [.report ⟨2, 1, 0, 0, [1]⟩ [true], .found false], some [.found true, .report ⟨1, 1, 0, 0, [2]⟩ [true]]], 59) := by
  refine ⟨⟨0, fun i os h hi => ?_⟩, by simp [mixedCalls, EventOp.Reads], by decide +kernel⟩
  match i with
  | 0 => exact absurd rfl hi
  | 1 =>
    simp only [mixedCalls, List.getElem?_cons_succ, List.getElem?_cons_zero, Option.some.injEq] at h
    subst h
    simp [EventOp.Own]
  | i + 2 => simp [mixedCalls] at h

end BeTree
