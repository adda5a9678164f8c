import Verif.Lemmas.ConstMemory
import Verif.Props.Session
/-
C68: the constants of the caller.
-/
namespace BeTree
open Spec

/-- C68: a tree is created in a heap, variables are declared, and calls of all kinds follow; among them the caller makes constants, gives them to
insertions and to subscriptions it builds, any number of times, and frees them when it likes.  If no constant is used or freed that was not made
or is freed already, and the same calls, with names and values in place of constants (`asValues`), go well without memory under the conditions of C63, then
they go well with all memory in one heap, with the same answers: whatever happens later, the tree does not use a constant that was given to
it before.  The caller can then free the constants it still has, its events and the tree, in this order; the blocks that were there before are still there, and if
nothing was lost in the sense of C63, no others. -/
theorem C68_constants (H : Str → Nat) (geo : GeoTest) (R : Rounding) (cap min : Nat) (decls : List (Str × Decl × Bool)) (ops : List ConstOp)
    (evs : List EventOp) (left : List (Option Constant)) (hv : asValues [] ops = some (evs, left))
    (t : EventPlain) (answers : List Answer) (h : Heap) (hh : Holds h h.live) (hlim : ∀ d ∈ decls, d.2.1.LimitNonzero)
    (hrun : (EventPlain.mk (TextWorld.init (makeTree cap min decls)) []).run geo R evs = .ok (t, answers)) (hfit : t.world.tree.cfg.TablesFit)
    (hids : (newIds (treeOps (userOps evs))).Nodup) (honce : (insertedSubs (treeOps (userOps evs))).Nodup) :
    ∃ s0 s h0 h1 h2 h3 h4, Session.init cap min decls h = .ok (s0, h0) ∧ (ConstSession.mk s0 []).run H geo R ops h0 = .ok ((s, answers), h1) ∧
      s.tree.subs.mem.world = t.world ∧ s.tree.subs.objs.map (Option.map ObjMem.obj) = t.objs ∧ s.consts.map (Option.map ConstMem.const) = left ∧
      freeConsts s.consts h1 = .ok ((), h2) ∧ freeObjs s.tree.subs.objs h2 = .ok ((), h3) ∧ s.tree.free h3 = .ok ((), h4) ∧
      (∃ L, h4.live.Perm (L ++ h.live)) ∧
      ((setAt evs).Nodup → (∀ o ∈ evs, o.MadeOnce) → (∀ o ∈ treeOps (userOps evs), Clean o) →
        (∀ k < t.world.pool.length, k ∈ doneIn R (TextWorld.init (makeTree cap min decls)) (treeOps (userOps evs))) →
        (∀ a ∈ answers, Answered a) → h4.live.Perm h.live) := by
  have hw : Owned (MemWorld.init (makeTree cap min decls)) [] [] [] [] := by
    refine ⟨.refl _, List.nodup_nil, ?_, by simp [MemWorld.init], by simp [MemWorld.init, TextWorld.init],
      by simp [MemWorld.init, TextWorld.init], by simp, by simp⟩
    simp [MemWorld.init, TextWorld.init, makeTree, emptyCNode, CNode.contents, PNodes.contents]
  have ha : Ahead (MemWorld.init (makeTree cap min decls)) [] (treeOps (userOps evs)) :=
    ⟨hids, by simp [MemWorld.init], honce, by simp [MemWorld.init, TextWorld.init]⟩
  obtain ⟨s0, h0, M0, e0, ⟨g1, g2, g3⟩, hh0⟩ := Does.run (sessionInit_does H cap min decls) h h.live hh
  have hh0' : Holds h0 ((Objs.flat ([] ++ []) ++ (heldBlocks s0.subs.objs ++ []) ++ s0.rest ++ constBlocks []) ++ h.live) :=
    hh0.perm (by rw [g1]; simpa [Objs.flat, constBlocks] using g3.append_right _)
  obtain ⟨⟨s, as⟩, h1, M1, e1, ⟨hl, rfl, rfl, k2, st, wt, gn, L, dn, hdn, hM, hw1, hc⟩, hh1⟩ :=
    Does.run (constRun_does ops (H := H) (s := ⟨s0, []⟩) (L := []) hv g2 (by rw [g1]; exact hw) (by rw [g1]; intro o ho; cases ho)
      (by rw [g1]; exact ha) (by rw [g1]; exact hrun)) h0 h.live hh0'
  dsimp only at hdn hM hw1 hc hl k2 hrun hfit hh1
  obtain ⟨i1, i2⟩ := makeTree_filled (cap := cap) (min := min) hlim
  have hfilled := plainRun_filled _ (eventRun_plain evs hrun) i1 i2 hfit
  obtain ⟨_, h2, _, e2, rfl, hh2⟩ := Does.run (freeConsts_does s.consts) h1
    (heldBlocks s.tree.subs.objs ++ (Objs.flat (st ++ wt) ++ L ++ s.tree.rest ++ h.live)) (hh1.perm ((hM.append_right _).trans (by
      generalize heldBlocks s.tree.subs.objs = A, constBlocks s.consts = B
      blocks)))
  obtain ⟨_, h3, _, e3, rfl, hh3⟩ := Does.run (freeObjs_does s.tree.subs.objs) h2 _ hh2
  obtain ⟨_, h4, M4, e4, hM4, hh4⟩ := Does.run (Session.free_does k2 hw1 hfilled) h3 h.live hh3
  refine ⟨s0, s, h0, h1, h2, h3, h4, e0, e1, rfl, rfl, hl, e2, e3, e4, ⟨_, hh4.1⟩, fun hset hmade hcl hdone han => ?_⟩
  have hwt : wt = [] := by
    cases wt with
    | nil => rfl
    | cons p ps =>
      obtain ⟨k, x, hk, _, hn⟩ := hw1.waits p (by simp)
      obtain ⟨hlt, _⟩ := List.getElem?_eq_some_iff.mp hk
      rw [g1] at hdn
      exact absurd (by simpa using (hdn k).mpr (hdone k hlt)) hn
  subst hwt
  have := hh4.1.trans (hM4.append_right _)
  rw [hc hset (by rw [g1]; intro x _ o ho; cases ho) hcl hmade han] at this
  simpa [Objs.flat] using this

/-- C68, the other side: if a constant is used or freed that was not made or is freed already, no sequence of calls goes well, whatever the tree,
the heap and the other calls (the model reads every constant that is given, see `ConstSession.step`). -/
theorem C68_misuse (H : Str → Nat) (geo : GeoTest) (R : Rounding) (tree : Session) (ops : List ConstOp) (hv : asValues [] ops = none) (h : Heap) :
    ∃ e, (ConstSession.mk tree []).run H geo R ops h = .error e := by
  cases hr : (ConstSession.mk tree []).run H geo R ops h with
  | error e => exact ⟨e, rfl⟩
  | ok r =>
    obtain ⟨p, hp⟩ := constRun_held ops hr
    rw [List.map_nil, hv] at hp
    cases hp

/-! ### examples -/

/-- Two constants are made; the first is given to an insertion and freed, the second to a subscription that is built and inserted later; searches
follow when no constant is left, and one more is made that is kept to the end. -/
def constOps : List ConstOp :=
  [.make "flight_id".toList 7, .make "campaign_id".toList 8,
   .insert 1 [1, 0] "within_frequency_cap(\"flight\", \"ns\", 5, 0) and i < 3".toList, .free 0,
   .call (.user (.search ["{\"i\": 2, \"frequency_caps\": [[\"flight\", 7, \"ns\", 9, 0]], \"now\": 1}".toList])),
   .makeSub 2 [1] "within_frequency_cap(\"campaign\", \"ns\", 5, 0)".toList, .free 1, .call (.user (.tree (.call (.insertSub 0)))),
   .make "product_id".toList 9,
   .call (.user (.search ["{\"i\": 2, \"frequency_caps\": [[\"flight\", 7, \"ns\", 9, 0]], \"now\": 1}".toList,
     "{\"i\": 2, \"frequency_caps\": [[\"flight\", 8, \"ns\", 9, 0]], \"now\": 1}".toList]))]

/-- the answers of calls with constants in an empty heap, and how many blocks there are at the end; or what went wrong -/
def constEnd (ops : List ConstOp) : (List Answer × Nat) ⊕ Fault :=
  match ((do
    let s ← Session.init 1 0 memDecls
    (ConstSession.mk s []).run mapHash exGeo exactRounding ops : Mem (ConstSession × List Answer))) noHeap with
  | .error x => .inr x
  | .ok ((_, as), h) => .inl (as, h.live.length)

/-- the same calls with names and values (`asValues`) -/
def constEvs : List EventOp :=
  [.user (.tree (.call (.insert ⟨1, [⟨"campaign_id".toList, .int 8⟩, ⟨"flight_id".toList, .int 7⟩],
     "within_frequency_cap(\"flight\", \"ns\", 5, 0) and i < 3".toList⟩))),
   .user (.search ["{\"i\": 2, \"frequency_caps\": [[\"flight\", 7, \"ns\", 9, 0]], \"now\": 1}".toList]),
   .user (.tree (.call (.makeSub ⟨2, [⟨"campaign_id".toList, .int 8⟩], "within_frequency_cap(\"campaign\", \"ns\", 5, 0)".toList⟩))),
   .user (.tree (.call (.insertSub 0))),
   .user (.search ["{\"i\": 2, \"frequency_caps\": [[\"flight\", 7, \"ns\", 9, 0]], \"now\": 1}".toList,
     "{\"i\": 2, \"frequency_caps\": [[\"flight\", 8, \"ns\", 9, 0]], \"now\": 1}".toList])]

/-- the text of an insertion parses, and the constants that its caps need are given -/
def suppliedB (q : TextReq) : Bool :=
  match parseText q.text with
  | .ok (some e) => (caps e).all fun f => (supplied q.consts f.type).isSome
  | _ => false

theorem clean_of_supplied {q : TextReq} (h : suppliedB q = true) : Clean (.call (.insert q)) := by
  simp only [suppliedB] at h
  split at h
  · rename_i e he
    exact ⟨e, he, fun f hf => Option.isSome_iff_exists.mp (List.all_eq_true.mp h f hf)⟩
  · cases h

/-- all conditions of the theorem are met by these calls; the last constant is not freed -/
example : asValues [] constOps = some (constEvs, [none, none, some ⟨"product_id".toList, .int 9⟩]) ∧ (∀ d ∈ memDecls, d.2.1.LimitNonzero) ∧
    ∃ t answers, (EventPlain.mk (TextWorld.init (makeTree 1 0 memDecls)) []).run exGeo exactRounding constEvs = .ok (t, answers) ∧
      t.world.tree.cfg.TablesFit ∧ (newIds (treeOps (userOps constEvs))).Nodup ∧ (insertedSubs (treeOps (userOps constEvs))).Nodup ∧
      (setAt constEvs).Nodup ∧ (∀ o ∈ constEvs, o.MadeOnce) ∧ (∀ o ∈ treeOps (userOps constEvs), Clean o) ∧
      (∀ k < t.world.pool.length, k ∈ doneIn exactRounding (TextWorld.init (makeTree 1 0 memDecls)) (treeOps (userOps constEvs))) ∧
      (∀ a ∈ answers, Answered a) := by
  refine ⟨rfl, ?_, ?_⟩
  · simp only [memDecls, List.forall_mem_cons, Decl.LimitNonzero]
    simp
  have h : (match (EventPlain.mk (TextWorld.init (makeTree 1 0 memDecls)) []).run exGeo exactRounding constEvs with
      | .ok (t, as) => decide (t.world.pool.length = 1 ∧ (∀ m ∈ t.world.tree.cfg.stringMaps, m.values.length < sizeMax) ∧
          ∀ m ∈ t.world.tree.cfg.intMaps, m.values.length < sizeMax) && as.all fun a => match a with
        | .report _ bs => bs.all id
        | .found _ => true
      | .error _ => false) = true := by decide +kernel
  have hd : 0 ∈ doneIn exactRounding (TextWorld.init (makeTree 1 0 memDecls)) (treeOps (userOps constEvs)) := by decide +kernel
  have hc : ∀ o ∈ treeOps (userOps constEvs), Clean o := by
    simp only [constEvs, userOps, treeOps, List.forall_mem_cons]
    exact ⟨clean_of_supplied (by decide +kernel), clean_of_check (by decide +kernel), clean_of_check (by decide +kernel), by simp⟩
  split at h
  · rename_i t as ht
    rw [Bool.and_eq_true, List.all_eq_true] at h
    obtain ⟨h1, h2⟩ := of_decide_eq_true h.1
    refine ⟨t, as, ht, h2, by decide +kernel, by decide +kernel, by decide +kernel, ?_,
      hc, ?_, ?_⟩
    · simp only [constEvs, List.forall_mem_cons, EventOp.MadeOnce]
      simp
    · intro k hk
      rw [h1] at hk
      have : k = 0 := by omega
      subst this
      exact hd
    · intro a ha
      have := h.2 a ha
      cases a with
      | report r bs => exact fun hf => by simpa using List.all_eq_true.mp this _ hf
      | found b => trivial
  · cases h

/-- what they answer: the caps were given the values of the constants, which are long freed; the two blocks of the last constant are left beside those of the tree -/
example : constEnd constOps = .inl ([.report ⟨1, 0, 0, 0, []⟩ [true], .report ⟨4, 3, 0, 0, [2, 2, 1]⟩ [true, true]], 56) := by decide +kernel

/-- a constant that is freed must not be used again -/
example : asValues [] [.make "flight_id".toList 7, .free 0, .insert 1 [0] "i < 3".toList] = none ∧
    asValues [] [.make "flight_id".toList 7, .free 0, .free 0] = none := ⟨rfl, rfl⟩

example : constEnd [.make "flight_id".toList 7, .free 0, .insert 1 [0] "i < 3".toList] = .inr .ub ∧
    constEnd [.make "flight_id".toList 7, .free 0, .free 0] = .inr .ub := by decide +kernel

end BeTree
